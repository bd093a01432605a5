import Verif.Lemmas.LdaRun

/-!
# C56: topic model
-/
namespace GraphMat

variable {K : Nat}

/-- C56, what the program computes, for any number of topics, `alpha`, `eta` and number of iterations: on any loaded
graph in which every edge joins a document and a word, on any number of ranks and threads, in exact arithmetic, the
counts at the end are those after the iterations from the drawn ones, the totals of the topics are those of the final
counts, and the reported number is the sum over all edges. -/
theorem topic_model_with {n nrank threads : Nat} (c : Cfg n nrank threads) (hn : n + threads ≤ IMAX)
    (le : LoadEnv (LdaV K) Int) (hsA : le.sA.OK) (hsT : le.sAT.OK) {dflt : LdaV K} (hd : le.d = fun _ => dflt)
    {blobs : List (List (Edge Int))} (hb : blobs.length = nrank) (hin : ∀ es ∈ blobs, ∀ e ∈ es, e.Valid n)
    {ndoc nterms : Nat} (hsize : ndoc + nterms = n) (hj : ∀ e ∈ blobs.flatten, e.Joins ndoc)
    (lg : Rat → Rat) (alpha eta : Rat) (heta : 1 < eta) (rnd : Int → Fin K → Rat) (iters : Nat) (hi : 1 ≤ iters)
    (hmax : iters ≤ IMAX) (env : LdaEnv K) (fuel : Nat) (hf : iters ≤ fuel) :
    ∃ out G G' g ll, ∃ x : Nat → Fin K → Rat, Graph.readEdgelist le threads nrank n n blobs = some (out, G) ∧
      runLdaWith K lg alpha eta rnd ndoc nterms iters env G fuel = some (some (.done (G', g, ll))) ∧
      (x = Nat.iterate (ldaNext alpha eta nterms blobs.flatten ndoc n) iters (ldaStart blobs.flatten rnd env.g0)) ∧
      g = wordTotal ndoc n x ∧ ll = logLik lg eta nterms blobs.flatten ndoc n x ∧
      ∀ v, 1 ≤ v → v ≤ n → ∃ o, o < nrank ∧ ∀ r, r < nrank → ∃ q, G'.getVertexproperty r v =
        some (if r = o then some ⟨x v, if v ≤ ndoc then 'd' else 'w', q⟩ else none) := by
  obtain ⟨j, rfl⟩ : ∃ j, iters = j + 1 := ⟨iters - 1, by omega⟩
  have hv : ∀ e ∈ blobs.flatten, e.Valid n := by
    intro e he
    obtain ⟨es, h1, h2⟩ := List.mem_flatten.mp he
    exact hin es h1 e h2
  refine topic_model_loop c hn le hsA hsT hd hb hin hsize lg alpha eta heta rnd _ (j + 1) env fuel (by omega) ?_
  intro st hat
  have h := runLoopOn_spec c hn hv hj env.e2.env alpha eta nterms env.grs env.tmps j (k := 0)
    (by rw [Nat.zero_add]; exact_mod_cast hmax) (show j < fuel by omega) hat
  rw [Nat.zero_add] at h
  exact h

/-- C56, `niterations ≤ 0`: the program stops after the first update that changes no count by more than a thousandth,
after `m + 1` updates, with the same results as for `niterations = m + 1`. -/
theorem topic_model_until {n nrank threads : Nat} (c : Cfg n nrank threads) (hn : n + threads ≤ IMAX)
    (le : LoadEnv (LdaV K) Int) (hsA : le.sA.OK) (hsT : le.sAT.OK) {dflt : LdaV K} (hd : le.d = fun _ => dflt)
    {blobs : List (List (Edge Int))} (hb : blobs.length = nrank) (hin : ∀ es ∈ blobs, ∀ e ∈ es, e.Valid n)
    {ndoc nterms : Nat} (hsize : ndoc + nterms = n) (hj : ∀ e ∈ blobs.flatten, e.Joins ndoc)
    (lg : Rat → Rat) (alpha eta : Rat) (heta : 1 < eta) (rnd : Int → Fin K → Rat) (iters : Int) (hi : iters ≤ 0)
    (env : LdaEnv K) (m fuel : Nat) (hmax : m + 1 ≤ IMAX) (hf : m + 1 ≤ fuel) {x : Nat → Nat → Fin K → Rat}
    (hx : ∀ k, x k = Nat.iterate (ldaNext alpha eta nterms blobs.flatten ndoc n) k (ldaStart blobs.flatten rnd env.g0))
    (hmore : ∀ k, k < m → ¬ CountsSettled n (x k) (x (k + 1))) (hend : CountsSettled n (x m) (x (m + 1))) :
    ∃ out G G' g ll, Graph.readEdgelist le threads nrank n n blobs = some (out, G) ∧
      runLdaWith K lg alpha eta rnd ndoc nterms iters env G fuel = some (some (.done (G', g, ll))) ∧
      g = wordTotal ndoc n (x (m + 1)) ∧ ll = logLik lg eta nterms blobs.flatten ndoc n (x (m + 1)) ∧
      ∀ v, 1 ≤ v → v ≤ n → ∃ o, o < nrank ∧ ∀ r, r < nrank → ∃ q, G'.getVertexproperty r v =
        some (if r = o then some ⟨x (m + 1) v, if v ≤ ndoc then 'd' else 'w', q⟩ else none) := by
  have hv : ∀ e ∈ blobs.flatten, e.Valid n := by
    intro e he
    obtain ⟨es, h1, h2⟩ := List.mem_flatten.mp he
    exact hin es h1 e h2
  simp only [hx] at hmore hend ⊢
  obtain ⟨out, G, G', g, ll, y, h1, h2, rfl, h4, h5, h6⟩ := topic_model_loop c hn le hsA hsT hd hb hin hsize lg alpha eta
    heta rnd iters (m + 1) env fuel (by omega) (by
      intro st hat
      have h := runLoopOn_until c hn hv hj env.e2.env alpha eta nterms env.grs env.tmps hi m (k := 0)
        (by rw [Nat.zero_add]; exact_mod_cast hmax) (show m < fuel by omega) hat hmore hend
      rw [Nat.zero_add] at h
      exact h)
  exact ⟨out, G, G', g, ll, h1, h2, h4, h5, h6⟩

/-- C56: `run_lda` with its constants: 20 topics, `alpha = 1`, `eta = 5`, whatever `rand_r` delivers. -/
theorem topic_model {n nrank threads : Nat} (c : Cfg n nrank threads) (hn : n + threads ≤ IMAX)
    (le : LoadEnv (LdaV 20) Int) (hsA : le.sA.OK) (hsT : le.sAT.OK) {dflt : LdaV 20} (hd : le.d = fun _ => dflt)
    {blobs : List (List (Edge Int))} (hb : blobs.length = nrank) (hin : ∀ es ∈ blobs, ∀ e ∈ es, e.Valid n)
    {ndoc nterms : Nat} (hsize : ndoc + nterms = n) (hj : ∀ e ∈ blobs.flatten, e.Joins ndoc)
    (lg : Rat → Rat) (rnd : Int → Fin 20 → Rat) (iters : Nat) (hi : 1 ≤ iters)
    (hmax : iters ≤ IMAX) (env : LdaEnv 20) (fuel : Nat) (hf : iters ≤ fuel) :
    ∃ out G G' g ll, ∃ x : Nat → Fin 20 → Rat, Graph.readEdgelist le threads nrank n n blobs = some (out, G) ∧
      runLda lg rnd ndoc nterms iters env G fuel = some (some (.done (G', g, ll))) ∧
      (x = Nat.iterate (ldaNext 1 5 nterms blobs.flatten ndoc n) iters (ldaStart blobs.flatten rnd env.g0)) ∧
      g = wordTotal ndoc n x ∧ ll = logLik lg 5 nterms blobs.flatten ndoc n x ∧
      ∀ v, 1 ≤ v → v ≤ n → ∃ o, o < nrank ∧ ∀ r, r < nrank → ∃ q, G'.getVertexproperty r v =
        some (if r = o then some ⟨x v, if v ≤ ndoc then 'd' else 'w', q⟩ else none) :=
  topic_model_with c hn le hsA hsT hd hb hin hsize hj lg 1 5 (by norm_num) rnd iters hi hmax env fuel hf

/-- C56, what the counts are: if every number of occurrences is positive, every word occurs, and the drawn numbers of
each edge are not negative and not all zero, then at any time the counts of a vertex that occurs are not negative and add up to its number of
occurrences; each topic has the same total over the documents as over the words, and all totals add up to the number of
all occurrences; and in the next step nothing is divided by zero.  What the uninitialised variables contained (`x0`) has
no influence on any of this. -/
theorem topic_counts {n ndoc : Nat} {es : List (Edge Int)} (hv : ∀ e ∈ es, e.Valid n) (hj : ∀ e ∈ es, e.Joins ndoc)
    (hpos : ∀ e ∈ es, 0 < e.val) (hall : ∀ v, ndoc < v → v ≤ n → Rated es v) {alpha eta vocab : Rat} (ha : 1 ≤ alpha)
    (he : 1 < eta) (hvo : 0 < vocab) {rnd : Int → Fin K → Rat}
    (hr : ∀ e ∈ es, (∀ i, 0 ≤ rnd e.val i) ∧ 0 < ∑ i, rnd e.val i) (x0 : Nat → Fin K → Rat) (m : Nat)
    {x : Nat → Fin K → Rat} (hx : x = Nat.iterate (ldaNext alpha eta vocab es ndoc n) m (ldaStart es rnd x0)) :
    (∀ v, Rated es v → (∀ i, 0 ≤ x v i) ∧ ∑ i, x v i = tokensAt es v) ∧
    (∀ i, docTotal es ndoc x i = wordTotal ndoc n x i) ∧
    ∑ i, wordTotal ndoc n x i = (es.map (fun e => (e.val : Rat))).sum ∧
    (∀ i, 0 < wordTotal ndoc n x i + vocab * (eta - 1)) ∧
    ∀ e ∈ es, 0 < ∑ i, edgeTopics alpha eta vocab ndoc n x e i := by
  have h := (CountsOk.start hv hj hpos hall hr x0).iterate hv hj hpos hall ha he hvo m
  rw [← hx] at h
  obtain ⟨w1, w2⟩ := h.weights hv hpos hall ha he hvo
  exact ⟨fun v hr => ⟨h.nonneg v hr, h.tokens v hr⟩, h.agree, h.total, w1, fun e he => (w2 e he).2⟩

/-- C56, what the argument of `log` is: in a document that occurs, each word has a positive probability, and the
probabilities of all words add up to one; again nothing is divided by zero. -/
theorem topic_probabilities {n ndoc : Nat} {es : List (Edge Int)} (hv : ∀ e ∈ es, e.Valid n) (hj : ∀ e ∈ es, e.Joins ndoc)
    (hpos : ∀ e ∈ es, 0 < e.val) (hall : ∀ v, ndoc < v → v ≤ n → Rated es v) {alpha eta : Rat} (ha : 1 ≤ alpha)
    (he : 1 < eta) (hn : ndoc < n) (hK : 0 < K) {rnd : Int → Fin K → Rat}
    (hr : ∀ e ∈ es, (∀ i, 0 ≤ rnd e.val i) ∧ 0 < ∑ i, rnd e.val i) (x0 : Nat → Fin K → Rat) (m : Nat)
    {x : Nat → Fin K → Rat} (hx : x = Nat.iterate (ldaNext alpha eta ((n - ndoc : Nat) : Rat) es ndoc n) m (ldaStart es rnd x0))
    {d : Nat} (hd : Rated es d) :
    0 < ∑ j, (x d j + (eta - 1)) ∧
    (∀ w, ndoc < w → w ≤ n → 0 < wordProb eta ((n - ndoc : Nat) : Rat) (wordTotal ndoc n x) (x d) (x w)) ∧
    ∑ w ∈ Finset.Icc (ndoc + 1) n, wordProb eta ((n - ndoc : Nat) : Rat) (wordTotal ndoc n x) (x d) (x w) = 1 := by
  have hvo : (0 : Rat) < ((n - ndoc : Nat) : Rat) := by
    have : 0 < n - ndoc := by omega
    exact_mod_cast this
  have h := (CountsOk.start hv hj hpos hall hr x0).iterate hv hj hpos hall ha he hvo m
  rw [← hx] at h
  exact h.prob hall he hn hK hd

/-- An environment for samples. -/
def LdaEnv.sample (g0 : Nat → Fin 2 → Rat) : LdaEnv 2 :=
  let z : LdaV 2 := ⟨fun _ => 5, 'x', 6⟩
  { g0 := g0, e1 := .sample z (fun _ => 4) z, gr := fun _ _ => .sample z, tmp := fun _ _ _ _ => 9,
    e2 := .sample z (fun _ => 4) z, grs := fun _ _ _ => .sample z, tmps := fun _ _ _ _ _ => 9,
    e3 := .sample z 4 z, tmp3 := fun _ _ _ => 55 }

/-- Load a graph on one rank, run with two topics for one iteration; both totals, the reported number (with the
identity for `log`) and all counts. -/
def ldaSample (threads n ndoc nterms : Nat) (es : List (Edge Int)) (g0 : Nat → Fin 2 → Rat) : Option (List Rat) := do
  let r ← Graph.readEdgelist (LoadEnv.sample (⟨fun _ => 7, 'y', 8⟩ : LdaV 2) 0) threads 1 n n [es]
  let o ← runLdaWith 2 (fun x => x) 1 5 (fun e i => if i = 0 then 1 else e) ndoc nterms 1 (LdaEnv.sample g0) r.2 1
  match o with
  | some (.done (G, g, ll)) => do
    let l ← (List.range n).mapM (fun v : Nat => G.getVertexproperty 0 ((v : Int) + 1))
    some (g 0 :: g 1 :: ll :: l.flatMap (fun v => match v with | some v => [v.N 0, v.N 1] | none => []))
  | _ => none

/-- Two documents and two words; one edge leads from the word to the document. -/
example : ldaSample 1 4 2 2 [⟨1, 3, 2⟩, ⟨1, 4, 1⟩, ⟨4, 2, 3⟩] (fun _ _ => 0) = some
    [3897225175 / 2045952756, 8378491361 / 2045952756, 65290143961913200488485 / 22064953134242335381108,
      8025605 / 6774678, 12298429 / 6774678, 435 / 604, 1377 / 604, 2030 / 2511, 2992 / 2511, 893345 / 814796,
      2365839 / 814796] := by decide +kernel

/-- Wrong number of words. -/
example : (Graph.readEdgelist (LoadEnv.sample (⟨fun _ => 7, 'y', 8⟩ : LdaV 2) 0) 1 1 4 4 [[⟨1, 3, 2⟩]]).bind
    (fun r => (runLdaWith 2 (fun x => x) 1 5 (fun _ _ => 1) 2 3 1 (LdaEnv.sample fun _ _ => 0) r.2 1).map Option.isNone) =
    some true := by decide +kernel

/-- C56, the limit of the claim: a word without occurrences keeps what its uninitialised variable contained, and it is
counted in the totals of the topics, on which the counts of all others then depend. -/
theorem unused_word_adds_garbage :
    ldaSample 1 4 1 3 [⟨1, 2, 3⟩, ⟨1, 3, 1⟩] (fun _ _ => 0) = some
      [2071667 / 1771804, 5015549 / 1771804, 369157507299141 / 245253645967222, 2071667 / 1771804, 5015549 / 1771804,
        3363 / 4036, 8745 / 4036, 295 / 878, 583 / 878, 0, 0] ∧
    ldaSample 1 4 1 3 [⟨1, 2, 3⟩, ⟨1, 3, 1⟩] (fun _ i => if i = 0 then 8 else 0) = some
      [232885 / 26404, 83963 / 26404, 1710229544951 / 1322034200778, 21653 / 26404, 83963 / 26404, 1121 / 1932,
        4675 / 1932, 59 / 246, 187 / 246, 8, 0] := by
  decide +kernel

/-- The counts of a document with two words, one occurring once, the other twice, drawn for different topics. -/
def untilSample (k : Nat) : Nat → Fin 2 → Rat :=
  Nat.iterate (ldaNext 1 100000 2 [⟨1, 2, 1⟩, ⟨3, 1, 2⟩] 1 3) k
    (ldaStart [⟨1, 2, 1⟩, ⟨3, 1, 2⟩] (fun e i => if (e = 1 ↔ i = 0) then 1 else 0) (fun _ _ => 7))

/-- They change in the first update and hardly any more in the second: the program stops after two (`m = 1`). -/
example : ¬ CountsSettled 3 (untilSample 0) (untilSample 1) ∧ CountsSettled 3 (untilSample 1) (untilSample 2) := by
  constructor
  · intro h
    have := h 2 (by decide) (by decide) 0
    revert this
    decide +kernel
  · have h : ∀ v : Fin 4, ∀ i, |untilSample 2 v i - untilSample 1 v i| ≤ 1 / 1000 := by decide +kernel
    intro v _ v2 i
    exact h ⟨v, by omega⟩ i

/-- The hypotheses of the theorems can be met. -/
example : ∃ (le : LoadEnv (LdaV 20) Int) (blobs : List (List (Edge Int))) (rnd : Int → Fin 20 → Rat), Cfg 4 2 3 ∧
    4 + 3 ≤ IMAX ∧ le.sA.OK ∧ le.sAT.OK ∧ (le.d = fun _ => ⟨fun _ => 7, 'y', 8⟩) ∧ blobs.length = 2 ∧
    (∀ es ∈ blobs, ∀ e ∈ es, e.Valid 4) ∧ 2 + 2 = 4 ∧ (∀ e ∈ blobs.flatten, e.Joins 2) ∧ (∀ e ∈ blobs.flatten, 0 < e.val) ∧
    (∀ v, 2 < v → v ≤ 4 → Rated blobs.flatten v) ∧ (∀ e ∈ blobs.flatten, (∀ i, 0 ≤ rnd e.val i) ∧ 0 < ∑ i, rnd e.val i) := by
  refine ⟨LoadEnv.sample ⟨fun _ => 7, 'y', 8⟩ 0, [[⟨1, 3, 5⟩], [⟨4, 2, 6⟩, ⟨1, 4, 7⟩]], fun e i => if i = 0 then 1 else 0,
    ⟨by decide, by decide, by decide, by decide⟩, by decide, Sorts.ins_ok, Sorts.ins_ok, rfl, rfl, ?_, rfl, ?_, ?_, ?_, ?_⟩
  · intro es hes e he
    simp at hes
    rcases hes with rfl | rfl <;> simp at he
    · subst he; simp [Edge.Valid]
    · rcases he with rfl | rfl <;> simp [Edge.Valid]
  · intro e he
    simp at he
    rcases he with rfl | rfl | rfl <;> simp [Edge.Joins]
  · intro e he
    simp at he
    rcases he with rfl | rfl | rfl <;> simp
  · intro v v1 v2
    have : v = 3 ∨ v = 4 := by omega
    rcases this with rfl | rfl <;> simp [Rated]
  · intro e _
    refine ⟨fun i => ?_, ?_⟩
    · beta_reduce
      split
      · norm_num
      · norm_num
    · simp

end GraphMat
