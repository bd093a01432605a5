import Verif.Lemmas.FloatText

/-!
# Weights of type `float` and `double` in text files (property C76)
-/
namespace GraphMat

/-- The two types with the decimals they are written with and the smallest power of two from which on all weights survive. -/
def TextKind (f : FloatFmt) (d : Nat) (big : Rat) : Prop := (f = b32 ∧ d = 8 ∧ big = 1 / 8) ∨ (f = b64 ∧ d = 15 ∧ big = 8)

theorem TextKind.facts {f : FloatFmt} {d : Nat} {big : Rat} (h : TextKind f d big) :
    2 ≤ f.prec ∧ f.emin ≤ f.emax ∧ (f.prec : Int) < f.emax ∧ ∃ e : Int, big = (2 : Rat) ^ e ∧
      1 / (10 : Rat) ^ d < (2 : Rat) ^ (e - ((f.prec : Int) - 1)) ∧ ∃ k : Int, big * (10 : Rat) ^ d = k := by
  rcases h with ⟨rfl, rfl, rfl⟩ | ⟨rfl, rfl, rfl⟩
  · refine ⟨by decide, by decide, by decide, -3, by norm_num, ?_, 12500000, by norm_num⟩
    show 1 / (10 : Rat) ^ 8 < (2 : Rat) ^ (-26 : Int)
    norm_num [zpow_neg]
  · refine ⟨by decide, by decide, by decide, 3, by norm_num, ?_, 8000000000000000, by norm_num⟩
    show 1 / (10 : Rat) ^ 15 < (2 : Rat) ^ (-49 : Int)
    norm_num [zpow_neg]

theorem textKept_back {f : FloatFmt} {d : Nat} {big : Rat} (h : TextKind f d big) {v : FNum}
    (hv : IsFNum f.prec f.emin f.emax v) : TextKept f.prec f.emin f.emax d big v (v.back f d) := by
  obtain ⟨h1, h2, h3, e, h4, h5, h6⟩ := h.facts
  cases v with
  | inf neg => exact ⟨fun _ _ => rfl, fun _ h => (nomatch h), fun _ _ h => (nomatch h), fun _ _ h => (nomatch h), fun _ _ h => (nomatch h),
      fun _ _ h => (nomatch h)⟩
  | nan neg => exact ⟨fun _ h => (nomatch h), fun _ _ => rfl, fun _ _ h => (nomatch h), fun _ _ h => (nomatch h), fun _ _ h => (nomatch h),
      fun _ _ h => (nomatch h)⟩
  | fin neg m =>
    obtain ⟨hm, hf⟩ := hv
    obtain ⟨m', hr⟩ := back_finite f h2 h3 d hm hf
    obtain ⟨a1, a2, a3, a4, a5, a6⟩ := back_spec f h1 h2 d hm hf hr
    have hb : (FNum.fin neg m).back f d = .fin neg m' := by
      show FNum.ofRound neg (f.round (fixedVal d m)) = _
      rw [hr]; rfl
    rw [hb]
    refine ⟨fun _ h => (nomatch h), fun _ h => (nomatch h), ?_, ?_, ?_, ?_⟩
    · rintro _ _ ⟨rfl, rfl⟩
      exact ⟨m', rfl, a2, a1, a3⟩
    · rintro _ _ ⟨rfl, rfl⟩ hbig
      congr 1
      rcases eq_or_lt_of_le hbig with heq | hlt
      · exact a4 (by rw [← heq]; exact h6)
      · exact a5 e (by rw [← h4]; exact hlt) h5
    · rintro _ _ ⟨rfl, rfl⟩ hk
      congr 1
      exact a4 hk
    · rintro _ _ ⟨rfl, rfl⟩ hs
      congr 1
      exact a6 hs

/-- **C76, the part that holds.**  Every rank writes an edge list with `float` (or `double`) weights as text and the same
number of ranks loads the files with the same flags: every rank gets its edges back in the same order; infinities and NaNs
stay; a finite weight keeps its sign and changes by at most `10^-8` (`10^-15`); weights of magnitude at least 1/8 (8) and
weights with at most 8 (15) decimals do not change; weights of magnitude at most `10^-8 / 2` (`10^-15 / 2`) become 0.
That all weights stay the same is false (`float_text_changes`, `double_text_changes`). -/
theorem float_text_round_trip_partial {f : FloatFmt} {d : Nat} {big : Rat} (hk : TextKind f d big) (header : Bool)
    {els : List (EdgeList FNum)} (hv : ∀ el, el ∈ els → ∀ e, e ∈ el.list → IsFNum f.prec f.emin f.emax e.val) (hne : els ≠ [])
    (hsz : ∀ el, el ∈ els → el.nnz ≤ el.edges.size)
    {m n : Int} (hm : 0 ≤ m ∧ IsInt32 m) (hn : 0 ≤ n ∧ IsInt32 n) (hdim : ∀ el, el ∈ els → el.m = m ∧ el.n = n)
    (hids : ∀ el, el ∈ els → ∀ e, e ∈ el.list → IsInt32 e.src ∧ IsInt32 e.dst)
    (hnnz : ∀ el, el ∈ els → el.nnz ≤ 2147483647) (g : Nat → Nat → Edge FNum) :
    ∃ fs out, els.mapM (writeText (printFloat d) header true) = some fs ∧
      loadEdgelist (textReader (floatText f) true) header els.length g fs = some out ∧ out.length = els.length ∧
      ∀ (r : Nat) (hr : r < els.length), ∃ el, out[r]? = some el ∧
        List.Forall₂ (fun e e' => e'.src = e.src ∧ e'.dst = e.dst ∧ TextKept f.prec f.emin f.emax d big e.val e'.val)
          els[r].list el.list ∧
        el.m = (if header then m else topOf ((els.flatMap EdgeList.list).map Edge.src)) ∧
        el.n = (if header then n else topOf ((els.flatMap EdgeList.list).map Edge.dst)) := by
  obtain ⟨fs, out, h1, h2, h3, h4⟩ := text_round_trip_gen (floatText_reads f) (pr := printFloat d) (bk := FNum.back f d) header true
    (els := els) (by
      intro _ el hel e he
      have := hv el hel e he
      apply printFloat_denotes
      cases hc : e.val with
      | fin neg q => rw [hc] at this; exact this.1
      | inf _ => trivial
      | nan _ => trivial) hne hsz hm hn hdim hids hnnz g
  refine ⟨fs, out, h1, h2, h3, ?_⟩
  intro r hr
  obtain ⟨el, a1, a2, _, a4, a5⟩ := h4 r hr
  refine ⟨el, a1, ?_, a4, a5⟩
  rw [a2, List.forall₂_map_right_iff, List.forall₂_same]
  intro e he
  exact ⟨rfl, rfl, textKept_back hk (hv _ (List.getElem_mem hr) e he)⟩

/-- Two ranks: an exact weight, a negative one, a tiny one, infinity, the smallest and the largest `float`. -/
def floatLists : List (EdgeList FNum) :=
  [⟨Arr.ofList ⟨0, 0, .nan true⟩ [⟨1, 300, .fin false (1 / 2)⟩, ⟨12, 2, .fin true (13421773 / 134217728)⟩, ⟨5, 5, .fin false (1 / 2 ^ 149)⟩], 300, 300, 3⟩,
   ⟨Arr.ofList ⟨0, 0, .nan true⟩ [⟨7, 8, .inf true⟩, ⟨8, 7, .fin false (2 ^ 128 - 2 ^ 104)⟩], 300, 300, 2⟩]

theorem floatLists_values : ∀ el, el ∈ floatLists → ∀ e, e ∈ el.list → IsFNum b32.prec b32.emin b32.emax e.val := by
  have key : ∀ (neg : Bool) (m : Rat) (k e : Int), -126 ≤ e → e ≤ 127 → 0 ≤ m → |k| < 2 ^ 24 → m = (k : Rat) * (2 : Rat) ^ (e - 23) →
      IsFNum b32.prec b32.emin b32.emax (.fin neg m) := by
    intro neg m k e h1 h2 h3 h4 h5
    refine ⟨h3, k, e, h1, h2, h4, ?_⟩
    rw [h5]
    rfl
  intro el hel e he
  unfold floatLists at hel
  rcases List.mem_cons.1 hel with rfl | hel
  · have he : e ∈ [⟨1, 300, .fin false (1 / 2)⟩, ⟨12, 2, .fin true (13421773 / 134217728)⟩, (⟨5, 5, .fin false (1 / 2 ^ 149)⟩ : Edge FNum)] := he
    simp only [List.mem_cons, List.not_mem_nil, or_false] at he
    rcases he with rfl | rfl | rfl
    · exact key _ _ 1 22 (by norm_num) (by norm_num) (by norm_num) (by norm_num) (by norm_num)
    · exact key _ _ 13421773 (-4) (by norm_num) (by norm_num) (by norm_num) (by norm_num) (by norm_num)
    · exact key _ _ 1 (-126) (by norm_num) (by norm_num) (by positivity) (by norm_num) (by norm_num [zpow_neg])
  · rw [List.mem_singleton] at hel
    subst hel
    have he : e ∈ [⟨7, 8, .inf true⟩, (⟨8, 7, .fin false (2 ^ 128 - 2 ^ 104)⟩ : Edge FNum)] := he
    simp only [List.mem_cons, List.not_mem_nil, or_false] at he
    rcases he with rfl | rfl
    · trivial
    · exact key _ _ 16777215 127 (by norm_num) (by norm_num) (by norm_num) (by norm_num) (by norm_num)

/-- The hypotheses are met. -/
example (header : Bool) (g : Nat → Nat → Edge FNum) :
    ∃ fs out el, floatLists.mapM (writeText (printFloat 8) header true) = some fs ∧
      loadEdgelist (textReader (floatText b32) true) header 2 g fs = some out ∧ out[1]? = some el ∧
      List.Forall₂ (fun (e e' : Edge FNum) => e'.src = e.src ∧ e'.dst = e.dst ∧
        TextKept 24 (-126) 127 8 (1 / 8) e.val e'.val) [⟨7, 8, .inf true⟩, ⟨8, 7, .fin false (2 ^ 128 - 2 ^ 104)⟩] el.list := by
  obtain ⟨fs, out, h1, h2, _, h4⟩ := float_text_round_trip_partial (f := b32) (d := 8) (big := 1 / 8) (.inl ⟨rfl, rfl, rfl⟩) header
    (els := floatLists) floatLists_values (by simp [floatLists]) (by decide) (m := 300) (n := 300)
    (by unfold IsInt32; decide) (by unfold IsInt32; decide) (by decide) (by
      intro el hel
      unfold floatLists at hel
      simp only [List.mem_cons, List.not_mem_nil, or_false] at hel
      rcases hel with rfl | rfl <;> unfold IsInt32 <;> decide) (by decide) g
  obtain ⟨el, a1, a2, _⟩ := h4 1 (by decide)
  exact ⟨fs, out, el, h1, h2, a1, a2⟩

/-- Test: what is written. -/
example : floatLists.mapM (fun el => (writeText (printFloat 8) true true el).map String.ofList)
    = some ["300 300 3\n1 300 0.50000000\n12 2 -0.10000000\n5 5 0.00000000\n",
      "300 300 2\n7 8 -inf\n8 7 340282346638528859811704183484516925440.00000000\n"] := by decide +kernel

/-- Test: other ways of writing weights. -/
example : [".5 ", "1.5e-2\n", "+2E3", "-7.", "1e39", "NaN"].map (fun s => (scanFloat b32 s.toList).map Prod.fst)
    = [some (.fin false (1 / 2)), some (.fin false (16106127 / 1073741824)), some (.fin false 2000), some (.fin true 7),
      some (.inf false), some (.nan false)] := by decide +kernel

/-- One edge in one file. -/
def oneEdge (v : FNum) : List (EdgeList FNum) := [⟨Arr.ofList ⟨0, 0, .nan true⟩ [⟨1, 2, v⟩], 2, 2, 1⟩]

/-- What is read when one edge was written, on one rank. -/
theorem oneEdge_back (f : FloatFmt) (d : Nat) {v : FNum} (hv : v.Wf) (header : Bool) (g : Nat → Nat → Edge FNum) :
    ∃ fs out, (oneEdge v).mapM (writeText (printFloat d) header true) = some fs ∧
      loadEdgelist (textReader (floatText f) true) header 1 g fs = some out ∧ out.map EdgeList.list = [[⟨1, 2, v.back f d⟩]] := by
  obtain ⟨fs, out, h1, h2, h3, h4⟩ := text_round_trip_gen (floatText_reads f) (pr := printFloat d) (bk := FNum.back f d) header true
    (els := oneEdge v) (by
      intro _ el hel e he
      rw [oneEdge, List.mem_singleton] at hel
      subst hel
      have he : e ∈ [(⟨1, 2, v⟩ : Edge FNum)] := he
      rw [List.mem_singleton] at he
      subst he
      exact printFloat_denotes f d hv) (by simp [oneEdge]) (by
      intro el hel
      rw [oneEdge, List.mem_singleton] at hel
      subst hel
      exact le_refl _) (m := 2) (n := 2)
    (by unfold IsInt32; decide) (by unfold IsInt32; decide) (by
      intro el hel
      rw [oneEdge, List.mem_singleton] at hel
      subst hel
      exact ⟨rfl, rfl⟩) (by
      intro el hel e he
      rw [oneEdge, List.mem_singleton] at hel
      subst hel
      have he : e ∈ [(⟨1, 2, v⟩ : Edge FNum)] := he
      rw [List.mem_singleton] at he
      subst he
      exact ⟨by unfold IsInt32; norm_num, by unfold IsInt32; norm_num⟩) (by
      intro el hel
      rw [oneEdge, List.mem_singleton] at hel
      subst hel
      show 1 ≤ 2147483647
      decide) g
  refine ⟨fs, out, h1, h2, ?_⟩
  obtain ⟨el, a1, a2, _⟩ := h4 0 (by simp [oneEdge])
  have h3 : out.length = 1 := h3
  obtain ⟨o, rfl⟩ := List.length_eq_one_iff.1 h3
  rw [List.getElem?_cons_zero] at a1
  injection a1 with a1
  rw [List.map_singleton, a1, a2]
  rfl

/-- **C76 is false for `float`.**  The third `float` above 1/16 comes back as the second; so 1/8 is the first power of two
for which the bound of `float_text_round_trip_partial` holds. -/
theorem float_text_changes (header : Bool) (g : Nat → Nat → Edge FNum) :
    IsFNum 24 (-126) 127 (.fin false (8388610 / 134217728)) ∧
    ∃ fs out, (oneEdge (.fin false (8388610 / 134217728))).mapM (writeText (printFloat 8) header true) = some fs ∧
      loadEdgelist (textReader (floatText b32) true) header 1 g fs = some out ∧
      out.map EdgeList.list = [[⟨1, 2, .fin false (8388609 / 134217728)⟩]] := by
  refine ⟨⟨by norm_num, 8388610, -4, by norm_num, by norm_num, by norm_num, by norm_num⟩, ?_⟩
  obtain ⟨fs, out, h1, h2, h3⟩ := oneEdge_back b32 8 (v := .fin false (8388610 / 134217728)) (by show (0 : Rat) ≤ _; norm_num) header g
  refine ⟨fs, out, h1, h2, ?_⟩
  rw [h3]
  have : FNum.back b32 8 (.fin false (8388610 / 134217728)) = .fin false (8388609 / 134217728) := by decide +kernel
  rw [this]

/-- **C76 is false for `double`.**  The number four steps above 4 comes back as the number five steps above 4. -/
theorem double_text_changes (header : Bool) (g : Nat → Nat → Edge FNum) :
    IsFNum 53 (-1022) 1023 (.fin false (4503599627370500 / 2 ^ 50)) ∧
    ∃ fs out, (oneEdge (.fin false (4503599627370500 / 2 ^ 50))).mapM (writeText (printFloat 15) header true) = some fs ∧
      loadEdgelist (textReader (floatText b64) true) header 1 g fs = some out ∧
      out.map EdgeList.list = [[⟨1, 2, .fin false (4503599627370501 / 2 ^ 50)⟩]] := by
  refine ⟨⟨by norm_num, 4503599627370500, 2, by norm_num, by norm_num, by norm_num, by norm_num [zpow_neg]⟩, ?_⟩
  obtain ⟨fs, out, h1, h2, h3⟩ := oneEdge_back b64 15 (v := .fin false (4503599627370500 / 2 ^ 50)) (by show (0 : Rat) ≤ _; norm_num) header g
  refine ⟨fs, out, h1, h2, ?_⟩
  rw [h3]
  have : FNum.back b64 15 (.fin false (4503599627370500 / 2 ^ 50)) = .fin false (4503599627370501 / 2 ^ 50) := by decide +kernel
  rw [this]

/-- A weight written in decimal notation in any text file is read as the nearest number of the type, the even one of two
(infinity from half a step above the largest number on), and nothing behind it is consumed. -/
theorem float_text_read_nearest {f : FloatFmt} (hf : f = b32 ∨ f = b64) {neg : Bool} {s l rest : List Char} {x : Rat}
    (hs : IsSign neg s) (hl : IsDecimal x l) (hr : AtEnd rest) :
    ∃ v, (floatText f).scan (s ++ l ++ rest) = some (v, rest) ∧
      ((∃ y, v = .fin neg y ∧ IsFloat f.prec f.emin f.emax y ∧ ∀ z, IsFloat f.prec f.emin f.emax z →
        |x - y| ≤ |x - z| ∧ (z ≠ y → |x - y| = |x - z| → EvenFloat f.prec f.emin f.emax y)) ∨
       (v = .inf neg ∧ (2 : Rat) ^ (f.emax + 1) - (2 : Rat) ^ (f.emax - f.prec) ≤ |x|)) := by
  refine ⟨_, (floatText_reads f).scan _ (s ++ l) rest ⟨neg, s, l, hs, rfl, .inl ⟨x, hl, rfl⟩⟩ hr, ?_⟩
  have hf2 : 2 ≤ f.prec ∧ f.emin ≤ f.emax := by rcases hf with rfl | rfl <;> decide
  cases h : f.round x with
  | some y => exact .inl ⟨y, rfl, f.round_spec hf2.1 hf2.2 h⟩
  | none =>
    refine .inr ⟨rfl, ?_⟩
    rw [← pow2_eq, ← pow2_eq]
    exact f.round_over hf2.2 h

/-- `-12.50e-1`. -/
example : IsSign true ['-'] ∧ IsDecimal (5 / 4) ['1', '2', '.', '5', '0', 'e', '-', '1'] ∧ AtEnd ['\n'] := by
  refine ⟨.inl ⟨rfl, rfl⟩, ⟨[1, 2], [5, 0], ['.', '5', '0'], ['e', '-', '1'], -1, by decide, by decide, .inr rfl,
    .inr ⟨['-', '1'], ⟨[1], by decide, by decide, .inr (.inr ⟨rfl, rfl⟩)⟩, .inl rfl⟩, rfl, ?_⟩, .inr ⟨'\n', [], rfl, by decide⟩⟩
  have : digitsValue ([1, 2] ++ [5, 0]) = 1250 := rfl
  rw [this]
  norm_num [zpow_neg]

end GraphMat
