import Verif.Lemmas.Converter
import Verif.Lemmas.StepRel

/-!
# C48: the graph converter

`graph_converter` rejects options that contradict each other and otherwise writes the edges that the options describe.
-/
namespace GraphMat

variable {E : Type}

/-! ### Options -/

theorem Setting.store_value (o : Options) (s : Setting) (nm : OptName) :
    (s.store o).value nm = if s.gives.1 = nm then s.gives.2 else o.value nm := by
  cases s <;> cases nm <;> rfl

/-- **C48, reading the options.**  Every option has the last value given for it on the command line, or the default of the
help text. -/
theorem options_last_wins (args : List Setting) (nm : OptName) :
    (readOptions args).value nm = (((args.map Setting.gives).filter (fun x => decide (x.1 = nm))).getLast?.map Prod.snd).getD
      nm.default := by
  unfold readOptions
  have h : ∀ (l : List Setting) (o : Options), (l.foldl Setting.store o).value nm =
      (((l.map Setting.gives).filter (fun x => decide (x.1 = nm))).getLast?.map Prod.snd).getD (o.value nm) := by
    intro l
    induction l with
    | nil => intro o; rfl
    | cons s l ih =>
      intro o
      rw [List.foldl_cons, ih, Setting.store_value]
      rw [List.map_cons, List.filter_cons]
      by_cases hs : s.gives.1 = nm
      · simp only [hs, decide_true, if_true]
        rw [List.getLast?_cons]
        cases ((l.map Setting.gives).filter (fun x => decide (x.1 = nm))).getLast? <;> rfl
      · simp only [hs, decide_false, Bool.false_eq_true, if_false]
  rw [h]
  cases nm <;> rfl

example : (readOptions [.selfloops 1, .bidirectional, .selfloops 0, .r 7]).value .selfloops = 0 ∧
    (readOptions [.selfloops 1, .bidirectional, .selfloops 0, .r 7]).value .bidirectional = 1 ∧
    (readOptions [.selfloops 1, .bidirectional, .selfloops 0, .r 7]).value .r = 7 ∧
    (readOptions [.selfloops 1, .bidirectional, .selfloops 0, .r 7]).value .inputformat = 1 := by decide

theorem validateOptions_iff (o : Options) :
    validateOptions o = true ↔ o.Compatible ∧ (o.selfloops = 0 ∨ o.selfloops = 1) := by
  unfold validateOptions
  simp only
  constructor
  · intro h
    by_cases h5 : o.nsplits ≠ 1
    · rw [if_pos h5] at h; cases h
    rw [if_neg h5] at h
    by_cases h4 : o.nsplits < 0
    · rw [if_pos h4] at h; cases h
    rw [if_neg h4] at h
    by_cases h3 : o.inputedgeweights = 0 ∧ o.outputedgeweights = 1
    · rw [if_pos h3] at h; cases h
    rw [if_neg h3] at h
    by_cases h2 : o.uppertriangular = 1 ∧ o.bidirectional = 1
    · rw [if_pos h2] at h; cases h
    rw [if_neg h2] at h
    by_cases h1 : o.selfloops ≠ 0 ∧ o.selfloops ≠ 1
    · rw [if_pos h1] at h; cases h
    exact ⟨⟨h2, h3, by omega⟩, by omega⟩
  · rintro ⟨⟨h1, h2, h3⟩, h4⟩
    rw [if_neg (by omega), if_neg (by omega), if_neg h2, if_neg h1, if_neg (by omega)]

/-- **C48, rejection.**  The converter stops with an error message before it reads anything exactly when the options
contradict each other or `selfloops` is neither 0 nor 1; and with another message exactly when they are accepted but the
edge type is none of the three. -/
theorem converter_rejects {T : WeightType → Type} (ct : ∀ k, ConvType (T k)) (env : ∀ k, ConvEnv (T k))
    (inp : ∀ k, InFiles (T k)) (args : List Setting) :
    (convertMain ct env inp args = some .rejected ↔
      ¬ ((readOptions args).Compatible ∧ ((readOptions args).selfloops = 0 ∨ (readOptions args).selfloops = 1))) ∧
    (convertMain ct env inp args = some .unknownType ↔
      ((readOptions args).Compatible ∧ ((readOptions args).selfloops = 0 ∨ (readOptions args).selfloops = 1)) ∧
        (readOptions args).edgeweighttype ∉ [0, 1, 2]) := by
  rw [← validateOptions_iff]
  unfold convertMain
  generalize readOptions args = o
  simp only
  by_cases hv : validateOptions o = true
  · rw [if_pos hv]
    have hk : weightType o.edgeweighttype = none ↔ o.edgeweighttype ∉ [0, 1, 2] := by
      unfold weightType
      simp only [List.mem_cons, List.not_mem_nil, or_false]
      split
      · next h => simp [h]
      · split
        · next h => simp [h]
        · split
          · next h => simp [h]
          · next h1 h2 h3 => simp [h1, h2, h3]
    cases hw : weightType o.edgeweighttype with
    | none =>
      simp only
      exact ⟨⟨fun h => (by cases h), fun h => absurd hv h⟩, ⟨fun _ => ⟨hv, hk.mp hw⟩, fun _ => trivial⟩⟩
    | some k =>
      simp only
      rw [hw] at hk
      cases processGraph (ct k) (env k) o (inp k) with
      | none => exact ⟨⟨fun h => (by cases h), fun h => absurd hv h⟩, ⟨fun h => (by cases h), fun h => absurd (hk.mpr h.2) (by simp)⟩⟩
      | some r => exact ⟨⟨fun h => (by cases h), fun h => absurd hv h⟩, ⟨fun h => (by cases h), fun h => absurd (hk.mpr h.2) (by simp)⟩⟩
  · rw [if_neg hv]
    exact ⟨⟨fun _ => hv, fun _ => rfl⟩, ⟨fun h => (by cases h), fun h => absurd h.1 hv⟩⟩

/-! ### Input and output -/

/-- The parts of a weight type that the converter relies on: bytes and text are read as what they mean, and 1 is 1. -/
structure ConvType.Good (ct : ConvType E) (wt : E → List Char → Prop) (one : E) : Prop where
  bin : ct.bin.Good
  binOne : ct.bin.one = one
  text : ct.text.Reads wt
  textOne : ct.text.one = one

/-- What lies at the input: the files (in the format, with or without headers and weights, that the options announce) hold
a graph with `N` vertices and the edges `l`.
* binary files as `write_edgelist` writes them, any number of them;
* well-formed text files all of whose lines are terminated, any number of them;
* the files that `WriteGraphMatBin` writes, with the same numbers of ranks and threads, for a graph made by
  `ReadEdgelist`. -/
inductive InputHas (ct : ConvType E) (wt : E → List Char → Prop) (one : E) (threads nrank : Nat) (o : Options)
    (inp : InFiles E) : Int → List (Edge E) → Prop where
  | bin (fs : List (EdgeList E)) (hf : o.inputformat = 0)
      (hfs : ∀ f ∈ fs, f.WF ∧ IsInt32 f.m ∧ IsInt32 f.n ∧ ∀ e ∈ f.list, IsInt32 e.src ∧ IsInt32 e.dst)
      (hw : fs.mapM (writeBin ct.bin (decide (o.inputheader = 1)) (decide (o.inputedgeweights = 1))) = some inp.bin)
      (hv : o.nvertices > 0 → topOf (if o.inputheader = 1 then fs.map EdgeList.m ++ fs.map EdgeList.n
        else (fs.flatMap EdgeList.list).map Edge.src ++ (fs.flatMap EdgeList.list).map Edge.dst) ≤ o.nvertices) :
      InputHas ct wt one threads nrank o inp
        (vertexCount o (if o.inputheader = 1 then fs.map EdgeList.m ++ fs.map EdgeList.n
          else (fs.flatMap EdgeList.list).map Edge.src ++ (fs.flatMap EdgeList.list).map Edge.dst))
        ((fs.flatMap EdgeList.list).map (seenEdge (decide (o.inputedgeweights = 1)) one))
  | text (ts : List (TextFile E)) (hf : o.inputformat = 1)
      (hts : ∀ t ∈ ts, t.Good wt (decide (o.inputheader = 1)) (decide (o.inputedgeweights = 1)) one ∧ t.Ended)
      (hw : inp.text = ts.map (TextFile.chars (decide (o.inputheader = 1)) (decide (o.inputedgeweights = 1))))
      (hv : o.nvertices > 0 → topOf (if o.inputheader = 1 then ts.map (fun t => t.head.m) ++ ts.map (fun t => t.head.n)
        else (ts.flatMap TextFile.edges).map Edge.src ++ (ts.flatMap TextFile.edges).map Edge.dst) ≤ o.nvertices) :
      InputHas ct wt one threads nrank o inp
        (vertexCount o (if o.inputheader = 1 then ts.map (fun t => t.head.m) ++ ts.map (fun t => t.head.n)
          else (ts.flatMap TextFile.edges).map Edge.src ++ (ts.flatMap TextFile.edges).map Edge.dst))
        (ts.flatMap TextFile.edges)
  | snap (n : Nat) (env : LoadEnv Int E) (blobs : List (List (Edge E))) (out : List (List (Edge E))) (G : Graph Int E)
      (hf : o.inputformat = 2) (hs : env.sA.OK ∧ env.sAT.OK) (hb : blobs.length = nrank)
      (hnp : threads * 16 * nrank ≤ IMAX)
      (hG : Graph.readEdgelist env threads nrank n n blobs = some (out, G)) (hw : G.writeBin = some inp.snap) :
      InputHas ct wt one threads nrank o inp (n : Int) blobs.flatten

/-- What the output is good for: read with the announced header and weights by any number of ranks (or, in the third
format, by `ReadGraphMatBin` with the same numbers of ranks and threads) it gives the edges `l` and `N` vertices.  Without
weights in the files, the weights read are 1.  Weights in text are changed by `bk`. -/
def OutputHas (ct : ConvType E) (bk : E → E) (one : E) (threads nrank : Nat) (o : Options) (N : Int) (l : List (Edge E)) :
    OutFiles E → Prop
  | .nothing => False
  | .bin fs => o.outputformat = 0 ∧ fs.length = nrank ∧ ∀ p, 0 < p → ∀ g, ∃ els : List (EdgeList E),
      loadEdgelist (binReader ct.bin (decide (o.outputedgeweights ≠ 0))) (decide (o.outputheader = 1)) p g fs = some els ∧
      els.length = p ∧
      (els.flatMap EdgeList.list).Perm (l.map (seenEdge (decide (o.outputedgeweights ≠ 0)) one)) ∧
      (o.outputheader = 1 → ∀ el ∈ els, el.m = N ∧ el.n = N)
  | .text fs => o.outputformat = 1 ∧ fs.length = nrank ∧ ∀ p, 0 < p → ∀ g, ∃ els : List (EdgeList E),
      loadEdgelist (textReader ct.text (decide (o.outputedgeweights ≠ 0))) (decide (o.outputheader = 1)) p g fs = some els ∧
      els.length = p ∧
      (els.flatMap EdgeList.list).Perm (l.map (fun e => seenEdge (decide (o.outputedgeweights ≠ 0)) one (backEdge bk e))) ∧
      (o.outputheader = 1 → ∀ el ∈ els, el.m = N ∧ el.n = N)
  | .snap fs => o.outputformat = 2 ∧ fs.length = nrank ∧ ∀ env : LoadEnv Int E, ∃ (G : Graph Int E) (Ls : List (List (Edge E))),
      Graph.readBin env threads nrank fs = some G ∧ (G.n : Int) = N ∧
      (List.range nrank).mapM (fun r => G.getEdgelist r) = some Ls ∧ Ls.flatten.Perm l

theorem readInput_spec {ct : ConvType E} {wt : E → List Char → Prop} {one : E} (hg : ct.Good wt one) {env : ConvEnv E}
    {o : Options} {inp : InFiles E} {N : Int} {l : List (Edge E)} (hin : InputHas ct wt one env.threads env.nrank o inp N l)
    (hk : 0 < env.nrank) (hT : 0 < env.threads) (hN : N ≤ (IMAX : Int)) (hids : IdsWithin N l) (hlen : l.length ≤ IMAX) :
    ∃ els, readInput ct env o inp = some els ∧ RanksOk N env.nrank els ∧ (allOf els).Perm l := by
  cases hin with
  | bin fs hf hfs hw hv =>
    rw [List.length_map] at hlen
    obtain ⟨fs', out, h1, h2, h3, h4⟩ := binary_files_load (decide (o.inputheader = 1))
      (decide (o.inputedgeweights = 1)) (els := fs) (fun _ _ e _ => hg.bin.ok e.val) (fun f h => (hfs f h).1) (fun f h => ⟨(hfs f h).2.1, (hfs f h).2.2.1⟩)
      (fun f h => (hfs f h).2.2.2) hk (fun r hr => Nat.le_trans (share_le hk fs _ hr) hlen) env.load
    rw [hw] at h1
    injection h1 with h1
    subst h1
    rw [hg.binOne] at h4
    have hp : (allOf out).Perm ((fs.flatMap EdgeList.list).map (seenEdge (decide (o.inputedgeweights = 1)) one)) := by
      rw [List.map_flatMap]
      refine allOf_of_shares hk h3 (fun r hr => ?_)
      obtain ⟨el, a1, a2, _⟩ := h4 r hr
      refine ⟨el, a1, ?_⟩
      rw [a2, List.map_flatMap]
    have hdims : (if o.inputheader = 1 then fs.map EdgeList.m ++ fs.map EdgeList.n
          else (fs.flatMap EdgeList.list).map Edge.src ++ (fs.flatMap EdgeList.list).map Edge.dst) =
        (if decide (o.inputheader = 1) then fs.map EdgeList.m else (fs.flatMap EdgeList.list).map Edge.src) ++
        (if decide (o.inputheader = 1) then fs.map EdgeList.n else (fs.flatMap EdgeList.list).map Edge.dst) := by
      by_cases hh : o.inputheader = 1 <;> simp [hh]
    rw [hdims] at hv hids ⊢
    obtain ⟨els, b1, b2, b3⟩ := square_all (o := o) h3 (mem_of_shares h3 (fun r hr => by
      obtain ⟨el, a1, a2, a3, a4, a5, a6⟩ := h4 r hr
      exact ⟨el, a1, by unfold EdgeList.WF; omega, a5, a6⟩)) hv (hids.perm hp)
    refine ⟨els, ?_, b2, by rw [b3]; exact hp⟩
    unfold readInput loadInput
    rw [if_pos (.inl hf), if_pos hf, h2]
    exact b1
  | text ts hf hts hw hv =>
    obtain ⟨out, h2, h3, h4⟩ := text_files_load_partial hg.text (decide (o.inputheader = 1))
      (decide (o.inputedgeweights = 1)) (ts := ts) (fun t h => by rw [hg.textOne]; exact (hts t h).1) hk
      (fun _ t h => (hts t h).2) (fun r _ t h => (hts t (mem_everyNth ((List.dropLast_sublist _).subset h))).2)
      (fun r hr => Nat.le_trans (share_le hk ts _ hr) hlen) env.load
    have hp : (allOf out).Perm (ts.flatMap TextFile.edges) :=
      allOf_of_shares hk h3 (fun r hr => by
        obtain ⟨el, a1, a2, _⟩ := h4 r hr
        exact ⟨el, a1, a2⟩)
    have hdims : (if o.inputheader = 1 then ts.map (fun t => t.head.m) ++ ts.map (fun t => t.head.n)
          else (ts.flatMap TextFile.edges).map Edge.src ++ (ts.flatMap TextFile.edges).map Edge.dst) =
        (if decide (o.inputheader = 1) then ts.map (fun t => t.head.m) else (ts.flatMap TextFile.edges).map Edge.src) ++
        (if decide (o.inputheader = 1) then ts.map (fun t => t.head.n) else (ts.flatMap TextFile.edges).map Edge.dst) := by
      by_cases hh : o.inputheader = 1 <;> simp [hh]
    rw [hdims] at hv hids ⊢
    obtain ⟨els, b1, b2, b3⟩ := square_all (o := o) h3 (mem_of_shares h3 (fun r hr => by
      obtain ⟨el, a1, a2, a3, a4, a5, a6⟩ := h4 r hr
      exact ⟨el, a1, by unfold EdgeList.WF; omega, a5, a6⟩)) hv (hids.perm hp)
    refine ⟨els, ?_, b2, by rw [b3]; exact hp⟩
    unfold readInput loadInput
    rw [if_pos (.inr hf), if_neg (by omega), hw, h2]
    exact b1
  | snap n env' blobs out G hf hs hb hnp hG hw =>
    have c : Cfg n env.nrank env.threads := ⟨hk, hT, hnp, by unfold IMAX at hN; omega⟩
    have hin : ∀ e ∈ blobs.flatten, InMat n n e := fun e he => hids e he
    obtain ⟨out', G', TA, TT, PA, PT, g1, g2, _⟩ := Graph.readEdgelist_spec c env' hs.1 hs.2 hb hin
    rw [hG] at g1
    injection g1 with g1
    injection g1 with _ g1
    subst g1
    obtain ⟨files, G2, Ls, nat, s1, _, s2, s3, _, _, s4, s5, _⟩ := g2.snapshot c hin env.rd
    rw [hw] at s1
    injection s1 with s1
    subst s1
    obtain ⟨els, b1, b2, b3⟩ := graph_lists (env := env) s4 s5 (by rw [s3]; exact hids)
    refine ⟨els, ?_, by rw [← s3]; exact b2, b3⟩
    unfold readInput
    rw [if_neg (by omega), if_pos hf, s2]
    exact b1

theorem writeOutput_spec {ct : ConvType E} {wt : E → List Char → Prop} {one : E} (hg : ct.Good wt one) {env : ConvEnv E}
    {o : Options} (ho : o.outputformat = 0 ∨ o.outputformat = 1 ∨ o.outputformat = 2)
    {bk : E → E} (hprint : o.outputformat = 1 → o.outputedgeweights ≠ 0 → ∀ v, wt (bk v) (ct.print v))
    (hsnap : o.outputformat = 2 → env.wr.sA.OK ∧ env.wr.sAT.OK ∧ env.threads * 16 * env.nrank ≤ IMAX)
    {N : Int} {els : List (EdgeList E)} (h : RanksOk N env.nrank els) (hk : 0 < env.nrank) (hT : 0 < env.threads)
    (h0 : 0 ≤ N) (hN : N ≤ (IMAX : Int)) (hlen : (allOf els).length ≤ IMAX) :
    ∃ out, writeOutput ct env o els = some out ∧ OutputHas ct bk one env.threads env.nrank o N (allOf els) out := by
  have hne : els ≠ [] := by
    intro h'
    have := h.len
    rw [h'] at this
    simp at this
    omega
  have hI : ∀ x : Int, 0 ≤ x → x ≤ N → IsInt32 x := by
    intro x a b
    unfold IsInt32
    unfold IMAX at hN
    omega
  have hdim : ∀ el ∈ els, IsInt32 el.m ∧ IsInt32 el.n := by
    intro el hel
    rw [(h.ok el hel).2.1, (h.ok el hel).2.2]
    exact ⟨hI N h0 (Int.le_refl _), hI N h0 (Int.le_refl _)⟩
  have hii : ∀ el ∈ els, ∀ e ∈ el.list, IsInt32 e.src ∧ IsInt32 e.dst := by
    intro el hel e he
    have := h.mem hel e he
    exact ⟨hI _ (by omega) this.2.1, hI _ (by omega) this.2.2.2⟩
  have hshare : ∀ p, 0 < p → ∀ r, r < p → ((everyNth p r els).flatMap EdgeList.list).length ≤ 2147483647 :=
    fun p hp r hr => Nat.le_trans (share_le hp els _ hr) hlen
  have htm : topOf (els.map EdgeList.m) = N := topOf_const hne h0 (fun el hel => (h.ok el hel).2.1)
  have htn : topOf (els.map EdgeList.n) = N := topOf_const hne h0 (fun el hel => (h.ok el hel).2.2)
  rcases ho with ho | ho | ho
  · have key : ∀ p, 0 < p → ∀ g, _ := fun p hp g => binary_files_load (decide (o.outputheader = 1))
      (decide (o.outputedgeweights ≠ 0)) (els := els) (fun _ _ e _ => hg.bin.ok e.val) (fun el hel => (h.ok el hel).1) hdim hii hp (hshare p hp) g
    obtain ⟨fs, _, w1, _⟩ := key 1 (by decide) env.load
    refine ⟨.bin fs, ?_, ho, ?_, ?_⟩
    · unfold writeOutput
      simp only
      rw [if_pos ho, w1]
      rfl
    · have := (mapM_some_inv w1).length_eq
      rw [← this, h.len]
    · intro p hp g
      obtain ⟨fs', out, h1, h2, h3, h4⟩ := key p hp g
      rw [w1] at h1
      injection h1 with h1
      subst h1
      refine ⟨out, h2, h3, ?_, ?_⟩
      · show (allOf out).Perm ((els.flatMap EdgeList.list).map _)
        rw [List.map_flatMap]
        refine allOf_of_shares hp h3 (fun r hr => ?_)
        obtain ⟨el, a1, a2, _⟩ := h4 r hr
        refine ⟨el, a1, ?_⟩
        rw [a2, List.map_flatMap, hg.binOne]
      · intro hh
        refine mem_of_shares h3 (fun r hr => ?_)
        obtain ⟨el, a1, _, _, _, a5, a6⟩ := h4 r hr
        simp only [hh, decide_true, if_true] at a5 a6
        exact ⟨el, a1, by rw [a5, htm], by rw [a6, htn]⟩
  · have key : ∀ p, 0 < p → ∀ g, _ := fun p hp g => text_written_load (pr := ct.print) (bk := bk) hg.text (decide (o.outputheader = 1))
      (decide (o.outputedgeweights ≠ 0)) (fun hw => hprint ho (by simpa using hw)) (els := els)
      (fun el hel => (h.ok el hel).1) hdim hii (fun el hel => by
        have : el.list.length ≤ (allOf els).length := by
          obtain ⟨s, t, hst⟩ := List.append_of_mem hel
          rw [hst]
          simp only [allOf, List.flatMap_append, List.flatMap_cons, List.length_append]
          omega
        rw [EdgeList.list_length] at this
        unfold IMAX at hlen
        omega) hp (hshare p hp) g
    obtain ⟨fs, _, w1, w2, _⟩ := key 1 (by decide) env.load
    refine ⟨.text fs, ?_, ho, by rw [w2, h.len], ?_⟩
    · unfold writeOutput
      simp only
      rw [if_neg (by omega), if_pos ho, w1]
      rfl
    · intro p hp g
      obtain ⟨fs', out, h1, _, h2, h3, h4⟩ := key p hp g
      rw [w1] at h1
      injection h1 with h1
      subst h1
      refine ⟨out, h2, h3, ?_, ?_⟩
      · show (allOf out).Perm ((els.flatMap EdgeList.list).map _)
        rw [List.map_flatMap]
        refine allOf_of_shares hp h3 (fun r hr => ?_)
        obtain ⟨el, a1, a2, _⟩ := h4 r hr
        refine ⟨el, a1, ?_⟩
        rw [a2, List.map_flatMap, hg.textOne]
      · intro hh
        refine mem_of_shares h3 (fun r hr => ?_)
        obtain ⟨el, a1, _, a5⟩ := h4 r hr
        obtain ⟨a5, a6⟩ := a5 (by simp [hh])
        exact ⟨el, a1, by rw [a5, htm], by rw [a6, htn]⟩
  · obtain ⟨s1, s2, s3⟩ := hsnap ho
    obtain ⟨n, rfl⟩ := Int.eq_ofNat_of_zero_le h0
    have c : Cfg n env.nrank env.threads := ⟨hk, hT, s3, by unfold IMAX at hN; omega⟩
    have hin : ∀ e ∈ (els.map EdgeList.list).flatten, InMat n n e := by
      rw [← List.flatMap_def]
      exact h.ids
    obtain ⟨out, G, TA, TT, PA, PT, g1, g2, _⟩ := Graph.readEdgelist_spec c env.wr s1 s2 (by simpa using h.len) hin
    obtain ⟨files, _, _, _, w1, w2, _⟩ := g2.snapshot c hin env.rd
    refine ⟨.snap files, ?_, ho, w2, ?_⟩
    · unfold writeOutput writeSnapshot
      simp only
      rw [if_neg (by omega), if_neg (by omega), if_pos ho]
      have hl : 0 < els.length := List.length_pos_iff.mpr hne
      rw [List.getElem?_eq_getElem hl]
      have hx := h.ok _ (List.getElem_mem hl)
      simp only [Option.bind_eq_bind, Option.bind_some, hx.2.1, hx.2.2]
      rw [show natIdx (n : Int) = some n by simp [natIdx]]
      simp only [Option.bind_some]
      rw [g1]
      simp only [Option.bind_some]
      rw [w1]
      rfl
    · intro env'
      obtain ⟨files', G', Ls, _, v1, _, v2, v3, _, _, v4, v5, _⟩ := g2.snapshot c hin env'
      rw [w1] at v1
      injection v1 with v1
      subst v1
      refine ⟨G', Ls, v2, by rw [v3], v4, ?_⟩
      rw [← List.flatMap_def] at v5
      exact v5

/-- The circumstances of a run of the converter. -/
structure Convertible (ct : ConvType E) (wt : E → List Char → Prop) (bk : E → E) (one : E) (env : ConvEnv E) (o : Options)
    (inp : InFiles E) (N : Int) (l : List (Edge E)) : Prop where
  /-- bytes and text of weights are read as what they mean -/
  good : ct.Good wt one
  ranks : 0 < env.nrank ∧ env.nrank ≤ IMAX
  threads : 0 < env.threads
  /-- the library sorts -/
  sort : ∀ r, SortsBy compareForDuplicates (env.sort r)
  /-- the input holds a graph with `N` vertices and the edges `l` -/
  input : InputHas ct wt one env.threads env.nrank o inp N l
  vertices : 0 ≤ N ∧ N ≤ (IMAX : Int)
  ids : IdsWithin N l
  /-- the numbers of edges fit in an `int` -/
  few : l.length * (if o.bidirectional = 1 then 2 else 1) ≤ IMAX
  format : o.outputformat = 0 ∨ o.outputformat = 1 ∨ o.outputformat = 2
  /-- what is printed for a weight in text output is read as `bk` of it -/
  print : o.outputformat = 1 → o.outputedgeweights ≠ 0 → ∀ v, wt (bk v) (ct.print v)
  /-- the third output format: sorting in `ReadEdgelist`, and the number of partitions fits in an `int` -/
  snap : o.outputformat = 2 → env.wr.sA.OK ∧ env.wr.sAT.OK ∧ env.threads * 16 * env.nrank ≤ IMAX

/-- **C48, conversion, for one edge type.**  The input holds a graph with `N` vertices and the edges `l`.  The converter
runs without undefined behaviour and without failed assertion on any number of ranks and threads.  The edges `l'` it
writes are those the options describe: weights kept or random; self loops removed or not; both directions, or every edge
from the smaller to the larger id, or neither; exactly one edge for each pair of ends or all of them; and ids renumbered by
one permutation of `1..N` or unchanged.  The files written give back exactly `l'` and `N`.

Missing from the full property: `--outputedgeweights 2` is only covered when the weights are 1 in the first place
(`unit_weights_not_created`); values of options that the help text does not list are accepted
(`unlisted_output_writes_nothing`, `unlisted_input_reads_nothing`); weights are changed by `bk` in text files
(`converter_types_partial` says how). -/
theorem converter_correct_partial {ct : ConvType E} {wt : E → List Char → Prop} {bk : E → E} {one : E}
    {env : ConvEnv E} {o : Options} {inp : InFiles E} {N : Int} {l : List (Edge E)}
    (h : Convertible ct wt bk one env o inp N l) (hone : o.outputedgeweights = 2 → ∀ e ∈ l, e.val = one) :
    ∃ out l', processGraph ct env o inp = some out ∧ Converted o N one ct.cast l l' ∧
      OutputHas ct bk one env.threads env.nrank o N l' out := by
  have hlen := h.few
  have hlen1 : l.length ≤ IMAX := by split at hlen <;> omega
  obtain ⟨els, a1, a2, a3⟩ := readInput_spec h.good h.input h.ranks.1 h.threads h.vertices.2 h.ids hlen1
  obtain ⟨els', b1, b2, b3, b4⟩ := transformEdges_spec ct env o one a2 h.ranks.1 h.ranks.2 h.vertices.1 h.vertices.2
    h.threads (by rw [a3.length_eq]; exact hlen) h.sort (fun h e he => hone h e (a3.mem_iff.mp he))
  obtain ⟨out, c1, c2⟩ := writeOutput_spec h.good h.format h.print h.snap b2 h.ranks.1 h.threads h.vertices.1 h.vertices.2 b3
  refine ⟨out, allOf els', ?_, b4.of_perm a3.symm, c2⟩
  unfold processGraph
  rw [a1]
  simp only [Option.bind_eq_bind, Option.bind_some]
  rw [b1]
  simp only [Option.bind_some]
  exact c1

/-- The number of an edge type in `--edgeweighttype`, according to the help text. -/
def WeightType.code : WeightType → Int
  | .uint => 0
  | .double => 1
  | .float => 2

/-- **C48, the whole program.**  With compatible options, `selfloops` 0 or 1 and one of the three edge types, the converter
ends normally, having used that edge type, and has written what `converter_correct_partial` says. -/
theorem converter_main_partial {T : WeightType → Type} {ct : ∀ k, ConvType (T k)} {env : ∀ k, ConvEnv (T k)}
    {inp : ∀ k, InFiles (T k)} {args : List Setting} {k : WeightType} {wt : T k → List Char → Prop} {bk : T k → T k} {one : T k} {N : Int}
    {l : List (Edge (T k))} (hc : (readOptions args).Compatible)
    (hs : (readOptions args).selfloops = 0 ∨ (readOptions args).selfloops = 1)
    (hk : (readOptions args).edgeweighttype = k.code)
    (h : Convertible (ct k) wt bk one (env k) (readOptions args) (inp k) N l)
    (hone : (readOptions args).outputedgeweights = 2 → ∀ e ∈ l, e.val = one) :
    ∃ out l', convertMain ct env inp args = some (.done k out) ∧ Converted (readOptions args) N one (ct k).cast l l' ∧
      OutputHas (ct k) bk one (env k).threads (env k).nrank (readOptions args) N l' out := by
  obtain ⟨out, l', h1, h2, h3⟩ := converter_correct_partial h hone
  refine ⟨out, l', ?_, h2, h3⟩
  unfold convertMain
  simp only
  rw [if_pos ((validateOptions_iff _).mpr ⟨hc, hs⟩)]
  have : weightType (readOptions args).edgeweighttype = some k := by
    rw [hk]
    cases k <;> rfl
  rw [this]
  simp only
  rw [h1]
  rfl

/-! ### Where the converter differs from its help text -/

/-- `--outputedgeweights 2` ("create unit weights") does nothing else than `--outputedgeweights 1` ("weights present"),
whatever the input. -/
theorem unit_weights_not_created (ct : ConvType E) (env : ConvEnv E) (o : Options) (inp : InFiles E) :
    processGraph ct env { o with outputedgeweights := 2 } inp = processGraph ct env { o with outputedgeweights := 1 } inp := rfl

/-- An output format that is not listed is accepted, and nothing is written. -/
theorem unlisted_output_writes_nothing (ct : ConvType E) (env : ConvEnv E) (o : Options) (inp : InFiles E)
    (h : o.outputformat ∉ [0, 1, 2]) {out : OutFiles E} (hr : processGraph ct env o inp = some out) : out = .nothing := by
  simp only [List.mem_cons, List.not_mem_nil, or_false, not_or] at h
  unfold processGraph at hr
  simp only [Option.bind_eq_bind, Option.bind_eq_some_iff] at hr
  obtain ⟨els, _, els', _, h3⟩ := hr
  unfold writeOutput at h3
  simp only at h3
  rw [if_neg h.1, if_neg h.2.1, if_neg h.2.2] at h3
  injection h3 with h3
  exact h3.symm

/-- An input format that is not listed is accepted, and the input is ignored. -/
theorem unlisted_input_reads_nothing (ct : ConvType E) (env : ConvEnv E) (o : Options) (inp : InFiles E)
    (h : o.inputformat ∉ [0, 1, 2]) : ∃ els, readInput ct env o inp = some els ∧ ∀ el ∈ els, el.nnz = 0 := by
  simp only [List.mem_cons, List.not_mem_nil, or_false, not_or] at h
  unfold readInput
  rw [if_neg (by omega), if_neg h.2.2]
  refine ⟨_, rfl, ?_⟩
  intro el hel
  obtain ⟨r, _, rfl⟩ := List.mem_map.mp hel
  rfl

/-- The help text promises random weights in `[1, r)`; if `rand()` is `RAND_MAX`, the weight is `r`. -/
theorem random_weight_can_be_r (cast : Rat → E) (r : Int) (hr : 1 ≤ r) (e : Edge E) :
    ∃ el', randomEdgeWeights cast r (fun _ => (r : Rat)) (EdgeList.ofList e 1 1 [e]) = some el' ∧
      el'.list = [{ e with val := cast (r : Rat) }] := by
  have h1 : clipWeight r (r : Rat) = (r : Rat) := by
    unfold clipWeight
    simp only
    have : ¬ ((r : Rat) < 1) := by
      rw [Rat.not_lt]
      exact_mod_cast hr
    rw [ite_self, if_neg this]
  refine ⟨_, rfl, ?_⟩
  simp [EdgeList.list, EdgeList.ofList, Arr.ofList, h1]

/-! ### Samples: `unsigned int` weights -/

/-- `process_graph<unsigned int>`. -/
def uintConv : ConvType (BitVec 32) where
  bin := intBin
  text := ⟨fun l => (scanInt l).map (fun r => (BitVec.ofInt 32 r.1, r.2)), 1⟩
  print := fun v => printInt (v.toNat : Int)
  cast := fun t => BitVec.ofInt 32 t.floor

/-- The text denotes the weight. -/
def uintText (v : BitVec 32) (l : List Char) : Prop := IsNumeral (v.toNat : Int) l

theorem uintConv_good : uintConv.Good uintText 1 where
  bin := intBin_good
  binOne := rfl
  text :=
    { solid := fun _ _ h => IsNumeral.solid h
      scan := fun v l rest h hr => by
        have := scanInt_ok hr h
        show (scanInt _).map _ = _
        rw [this]
        simp }
  textOne := rfl

theorem uintConv_print (v : BitVec 32) : uintText v (uintConv.print v) := printInt_numeral _

/-- Two ranks with three threads each. -/
def convEnvSample : ConvEnv (BitVec 32) where
  threads := 3
  nrank := 2
  load := fun _ _ => ⟨0, 0, 99⟩
  t := fun r i => (r + 2 * i : Nat)
  g := fun _ _ _ => ⟨0, 0, 98⟩
  sort := fun _ => insSort compareForDuplicates
  gm := fun _ => 0
  rand := fun i => i + 1
  rd := LoadEnv.sample 0 0
  wr := LoadEnv.sample 0 0

/-- Binary input with a header: a self loop, an edge in both directions, and a duplicate. -/
def convListSample : EdgeList (BitVec 32) :=
  EdgeList.ofList ⟨0, 0, 0⟩ 5 4 [⟨1, 2, 10⟩, ⟨3, 3, 11⟩, ⟨4, 2, 12⟩, ⟨2, 4, 13⟩, ⟨1, 2, 14⟩]

/-- The bytes of its file. -/
def convBytesSample : List Nat := (writeBin intBin true true convListSample).getD []

theorem convListSample_edges : convListSample.list = [⟨1, 2, 10⟩, ⟨3, 3, 11⟩, ⟨4, 2, 12⟩, ⟨2, 4, 13⟩, ⟨1, 2, 14⟩] :=
  EdgeList.ofList_list ..

/-- The circumstances hold for one binary file with header and weights, and any of the three output formats. -/
theorem convSampleOf {L : EdgeList (BitVec 32)} {bytes : List Nat} {N : Int} (hw : writeBin intBin true true L = some bytes)
    (hwf : L.WF) (hm : IsInt32 L.m) (hn : IsInt32 L.n) (hN : topOf [L.m, L.n] = N) (h0 : 0 ≤ N ∧ N ≤ (IMAX : Int))
    (hids : IdsWithin N L.list) (hi : ∀ e ∈ L.list, IsInt32 e.src ∧ IsInt32 e.dst) (hlen : L.list.length * 2 ≤ IMAX)
    (args : List Setting)
    (ha : ((readOptions args).inputformat = 0 ∧ (readOptions args).inputheader = 1 ∧ (readOptions args).inputedgeweights = 1 ∧
      (readOptions args).nvertices = 0) ∧ ((readOptions args).outputformat = 0 ∨ (readOptions args).outputformat = 1 ∨
      (readOptions args).outputformat = 2)) :
    Convertible uintConv uintText id 1 convEnvSample (readOptions args) ⟨[bytes], [], []⟩ N L.list := by
  have hin : InputHas uintConv uintText 1 convEnvSample.threads convEnvSample.nrank (readOptions args)
      ⟨[bytes], [], []⟩
      (vertexCount (readOptions args) (if (readOptions args).inputheader = 1
        then [L].map EdgeList.m ++ [L].map EdgeList.n
        else ([L].flatMap EdgeList.list).map Edge.src ++ ([L].flatMap EdgeList.list).map Edge.dst))
      (([L].flatMap EdgeList.list).map (seenEdge (decide ((readOptions args).inputedgeweights = 1)) 1)) :=
    .bin [L] ha.1.1 (by
        intro f hf
        rw [List.mem_singleton] at hf
        subst hf
        exact ⟨hwf, hm, hn, hi⟩) (by
        rw [ha.1.2.1, ha.1.2.2.1]
        show (([L].mapM (writeBin intBin true true)) : Option _) = _
        simp [hw]) (by rw [ha.1.2.2.2]; intro h; omega)
  have e1 : (vertexCount (readOptions args) (if (readOptions args).inputheader = 1
        then [L].map EdgeList.m ++ [L].map EdgeList.n
        else ([L].flatMap EdgeList.list).map Edge.src ++ ([L].flatMap EdgeList.list).map Edge.dst)) = N := by
    rw [ha.1.2.1]
    unfold vertexCount
    rw [ha.1.2.2.2]
    exact hN
  have e2 : (([L].flatMap EdgeList.list).map
      (seenEdge (decide ((readOptions args).inputedgeweights = 1)) 1)) = L.list := by
    rw [ha.1.2.2.1]
    simp [seenEdge_weights]
  rw [e1, e2] at hin
  exact
    { good := uintConv_good
      ranks := ⟨by decide, by unfold IMAX; decide⟩
      threads := by decide
      sort := fun _ => compareForDuplicates_sorts
      input := hin
      vertices := h0
      ids := hids
      few := by split <;> omega
      format := ha.2
      print := fun _ _ v => uintConv_print v
      snap := fun _ => ⟨Sorts.ins_ok, Sorts.ins_ok, by unfold IMAX; decide⟩ }

/-- The circumstances hold for this input. -/
theorem convSample (args : List Setting)
    (ha : ((readOptions args).inputformat = 0 ∧ (readOptions args).inputheader = 1 ∧ (readOptions args).inputedgeweights = 1 ∧
      (readOptions args).nvertices = 0) ∧ ((readOptions args).outputformat = 0 ∨ (readOptions args).outputformat = 1 ∨
      (readOptions args).outputformat = 2)) :
    Convertible uintConv uintText id 1 convEnvSample (readOptions args) ⟨[convBytesSample], [], []⟩ 5 convListSample.list :=
  convSampleOf (L := convListSample) (by decide +kernel) (EdgeList.ofList_wf ..) (by show IsInt32 5; unfold IsInt32; decide)
    (by show IsInt32 4; unfold IsInt32; decide) (by decide) ⟨by decide, by unfold IMAX; decide⟩
    (by rw [convListSample_edges]; unfold IdsWithin; decide) (by rw [convListSample_edges]; unfold IsInt32; decide)
    (by rw [convListSample_edges]; unfold IMAX; decide) args ha

example : ∃ out l', processGraph uintConv convEnvSample (readOptions [.inputformat 0, .bidirectional, .randomizeID, .outputformat 1])
      ⟨[convBytesSample], [], []⟩ = some out ∧
    Converted (readOptions [.inputformat 0, .bidirectional, .randomizeID, .outputformat 1]) 5 1 uintConv.cast
      convListSample.list l' ∧
    OutputHas uintConv id 1 3 2 (readOptions [.inputformat 0, .bidirectional, .randomizeID, .outputformat 1]) 5 l' out :=
  converter_correct_partial (convSample _ (by decide)) (by decide)

example : ∃ out l', processGraph uintConv convEnvSample (readOptions [.inputformat 0, .uppertriangular, .outputedgeweights 3, .outputformat 2])
      ⟨[convBytesSample], [], []⟩ = some out ∧
    Converted (readOptions [.inputformat 0, .uppertriangular, .outputedgeweights 3, .outputformat 2]) 5 1 uintConv.cast
      convListSample.list l' ∧
    OutputHas uintConv id 1 3 2 (readOptions [.inputformat 0, .uppertriangular, .outputedgeweights 3, .outputformat 2]) 5 l' out :=
  converter_correct_partial (convSample _ (by decide)) (by decide)

/-- The same converter for all three types, for `converter_main_partial`. -/
example : ∃ out l', convertMain (T := fun _ => BitVec 32) (fun _ => uintConv) (fun _ => convEnvSample)
      (fun _ => ⟨[convBytesSample], [], []⟩) [.inputformat 0, .duplicatededges 1] = some (.done .uint out) ∧
    Converted (readOptions [.inputformat 0, .duplicatededges 1]) 5 1 uintConv.cast convListSample.list l' ∧
    OutputHas uintConv id 1 3 2 (readOptions [.inputformat 0, .duplicatededges 1]) 5 l' out :=
  converter_main_partial (T := fun _ => BitVec 32) (ct := fun _ => uintConv) (env := fun _ => convEnvSample)
    (inp := fun _ => ⟨[convBytesSample], [], []⟩) (k := .uint) ⟨by decide, by decide, by decide⟩ (by decide) (by decide)
    (convSample _ (by decide)) (by decide)

/-- The text files of the converter (for the tests below). -/
def OutFiles.texts : OutFiles E → List String
  | .text fs => fs.map (fun l => String.ofList l)
  | _ => []

/-- Test: defaults with text output.  Vertices with even ids go to the second rank. -/
example : (processGraph uintConv convEnvSample (readOptions [.inputformat 0, .outputformat 1])
    ⟨[convBytesSample], [], []⟩).map OutFiles.texts = some ["5 5 1\n1 2 10\n", "5 5 2\n2 4 13\n4 2 12\n"] := by
  decide +kernel

/-- Test: text input with header. -/
example : (processGraph uintConv convEnvSample (readOptions [.outputformat 1, .selfloops 1])
    ⟨[], ["3 3 1\n1 2 7\n".toList, "3 3 1\n2 2 9\n".toList], []⟩).map OutFiles.texts = some ["3 3 1\n1 2 7\n", "3 3 1\n2 2 9\n"] := by
  decide +kernel

/-- Test: `--outputedgeweights 2` leaves the weights as they are. -/
example : (processGraph uintConv convEnvSample (readOptions [.inputformat 0, .outputformat 1, .outputedgeweights 2])
    ⟨[convBytesSample], [], []⟩).map OutFiles.texts = some ["5 5 1\n1 2 10\n", "5 5 2\n2 4 13\n4 2 12\n"] := by
  decide +kernel

/-- Test: an output format that is not listed. -/
example : (processGraph uintConv convEnvSample (readOptions [.inputformat 0, .outputformat 3])
    ⟨[convBytesSample], [], []⟩).isSome = true ∧ validateOptions (readOptions [.inputformat 0, .outputformat 3]) = true := by
  decide +kernel

/-- Test: fewer vertices than the header says fail an assertion. -/
example : (processGraph uintConv convEnvSample (readOptions [.inputformat 0, .nvertices 3])
    ⟨[convBytesSample], [], []⟩).isNone = true := by
  decide +kernel

/-- Rejected options. -/
example : convertMain (T := fun _ => BitVec 32) (fun _ => uintConv) (fun _ => convEnvSample)
      (fun _ => ⟨[convBytesSample], [], []⟩) [.inputedgeweights 0] = some .rejected :=
  (converter_rejects (T := fun _ => BitVec 32) (fun _ => uintConv) (fun _ => convEnvSample)
    (fun _ => ⟨[convBytesSample], [], []⟩) [.inputedgeweights 0]).1.mpr (fun h => h.1.weights (by decide))

end GraphMat
