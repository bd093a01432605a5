import Verif.Model.Lda
import Verif.Spec.Lda
import Verif.Lemmas.Sgd

namespace GraphMat

variable {K : Nat}

theorem sumLoop_eq (a : Fin K → Rat) : sumLoop a = ∑ i, a i := by
  have key : ∀ (l : List (Fin K)) (s : Rat), l.foldl (fun s i => s + a i) s = s + (l.map a).sum := by
    intro l
    induction l with
    | nil => intro s; simp
    | cons i l ih => intro s; rw [List.foldl_cons, ih, List.map_cons, List.sum_cons]; ring
  unfold sumLoop
  rw [key, zero_add, ← List.ofFn_eq_map, List.sum_ofFn]

theorem ldaScale_eq (w : Fin K → Rat) (e : Int) (i : Fin K) : ldaScale w e i = shareOf w i * (e : Rat) := by
  unfold ldaScale shareOf
  rw [sumLoop_eq]

/-! ### Supersteps -/

/-- What arrives at `v` along and against the edges, added up. -/
def arrive {V : Type} (proc : V → Int → V → Fin K → Rat) (es : List (Edge Int)) (P : Nat → V) (v : Nat) (i : Fin K) : Rat :=
  ((es.filter (fun e => decide (e.dst = (v : Int)))).map (fun e => proc (P e.src.toNat) e.val (P v) i)).sum +
  ((es.filter (fun e => decide (e.src = (v : Int)))).map (fun e => proc (P e.dst.toNat) e.val (P v) i)).sum

/-- A superstep over all edges from all vertices in which values are added. -/
theorem add_step {es : List (Edge Int)} {n : Nat} (hv : ∀ e ∈ es, e.Valid n) {gp : GProg (LdaV K) (Fin K → Rat) (LdaV K) Int}
    {proc : LdaV K → Int → LdaV K → Fin K → Rat} (ho : gp.order = .all)
    (hr : gp.reduce = fun v w => fun i => v i + w i) (ha : gp.apply = fun u v => { v with N := u })
    {P P' : Nat → LdaV K} {A A' : Nat → Bool} (hA : ∀ v, 1 ≤ v → v ≤ n → A v = true) {c : Bool}
    (hs : StepRel gp (fun v => v) proc true n es P A P' A' c) :
    (∀ v, 1 ≤ v → v ≤ n → P' v = { P v with N := fun i => if Rated es v then arrive proc es P v i else (P v).N i }) ∧
    (∀ v, 1 ≤ v → v ≤ n → A' v = true) := by
  obtain ⟨res, r1, r2, r3, _⟩ := hs
  have hA1 : ∀ e ∈ es, A e.src.toNat = true := by
    intro e he
    obtain ⟨a1, a2, _, _⟩ := hv e he
    exact hA _ (by omega) (by omega)
  have hA2 : ∀ e ∈ es, A e.dst.toNat = true := by
    intro e he
    obtain ⟨_, _, a1, a2⟩ := hv e he
    exact hA _ (by omega) (by omega)
  refine ⟨?_, fun v v1 v2 => by rw [r3 v v1 v2]; rfl⟩
  intro v v1 v2
  have e1 := r1 v v1 v2
  have e2 := r2 v v1 v2
  rw [ho, hr] at e1
  rw [ha] at e2
  have m1 := outMsgs_all (fun v : LdaV K => v) proc hA1 P v
  have m2 := inMsgs_every (fun v : LdaV K => v) proc hA2 P v
  have e1' : Reduces (fun v w => fun i => v i + w i)
    (outMsgs (fun v : LdaV K => v) proc es P A v ++ inMsgs (fun v : LdaV K => v) proc es P A v) (res v) := e1
  rw [m1, m2] at e1'
  cases hres : res v with
  | none =>
    have h0 := e1'.none_iff.mp hres
    obtain ⟨h1, h2⟩ := List.append_eq_nil_iff.mp h0
    have hnr : ¬ Rated es v := by
      rw [rated_iff]
      rintro (h | h)
      · exact h (List.map_eq_nil_iff.mp h1)
      · exact h (List.map_eq_nil_iff.mp h2)
    rw [hres] at e2
    have e2' : P' v = P v := e2
    rw [e2']
    simp only [if_neg hnr]
  | some x =>
    have hrt : Rated es v := by
      apply Classical.byContradiction
      intro hn
      rw [rated_iff, not_or, not_not, not_not] at hn
      rw [hn.1, hn.2] at e1'
      have := e1'.none_iff.mpr (by rfl)
      rw [hres] at this; cases this
    rw [hres] at e2 e1'
    have e2' : P' v = { P v with N := x } := e2
    rw [e2']
    simp only [if_pos hrt]
    have : x = fun i => arrive proc es P v i := by
      funext i
      rw [e1'.vec i, List.map_append, List.sum_append, List.map_map, List.map_map]
      rfl
    rw [this]

/-- `process_message` of the initial program. -/
def ldaInitProc (rnd : Int → Fin K → Rat) (_ : LdaV K) (e : Int) (_ : LdaV K) : Fin K → Rat := ldaScale (rnd e) e

/-- `process_message` of the main program. -/
def ldaProc (alpha eta vocab : Rat) (g : Fin K → Rat) (msg : LdaV K) (e : Int) (v : LdaV K) : Fin K → Rat :=
  ldaScale (ldaGamma alpha eta vocab g msg v) e

/-- `process_message` of the last program. -/
def ldaLLProc (lg : Rat → Rat) (Nk : Fin K → Rat) (eta : Rat) (msg : LdaV K) (e : Int) (v : LdaV K) : Rat :=
  (e : Rat) * lg (ldaDotLoop Nk eta msg v)

theorem ldaInitProg_pure (rnd : Int → Fin K → Rat) :
    Program.Pure (ldaInitProg K rnd) (fun _ v => v) (fun _ => ldaInitProc rnd) := by
  intro s
  exact ⟨fun _ _ => rfl, fun _ _ _ _ => rfl, fun _ _ _ _ _ => rfl⟩

theorem ldaProg_pure (alpha eta vocab : Rat) :
    Program.Pure (ldaProg K alpha eta vocab) (fun _ v => v) (ldaProc alpha eta vocab) := by
  intro s
  exact ⟨fun _ _ => rfl, fun _ _ _ _ => rfl, fun h => by cases h⟩

theorem ldaLLProg_pure (lg : Rat → Rat) (Nk : Fin K → Rat) (eta : Rat) :
    Program.Pure (ldaLLProg K lg Nk eta) (fun _ v => v) (fun _ => ldaLLProc lg Nk eta) := by
  intro s
  exact ⟨fun _ _ => rfl, fun _ _ _ _ => rfl, fun h => by cases h⟩

/-- The counts of all vertices. -/
def counts (P : Nat → LdaV K) : Nat → Fin K → Rat := fun v => (P v).N

/-- The kind of vertex `v`. -/
def kindOf (ndoc v : Nat) : Char := if v ≤ ndoc then 'd' else 'w'

theorem ldaInit_step {es : List (Edge Int)} {n : Nat} (hv : ∀ e ∈ es, e.Valid n) {rnd : Int → Fin K → Rat}
    {P P' : Nat → LdaV K} {A A' : Nat → Bool} (hA : ∀ v, 1 ≤ v → v ≤ n → A v = true) {c : Bool}
    (hs : StepRel ((ldaInitProg K rnd).gp ()) (fun v => v) (ldaInitProc rnd) true n es P A P' A' c) :
    ∀ v, 1 ≤ v → v ≤ n → P' v = { P v with N := ldaStart es rnd (counts P) v } := by
  intro v v1 v2
  rw [(add_step hv (gp := (ldaInitProg K rnd).gp ()) rfl rfl rfl hA hs).1 v v1 v2]
  refine congrArg (fun u : Fin K → Rat => ({ P v with N := u } : LdaV K)) ?_
  funext i
  unfold ldaStart
  by_cases h : Rated es v
  · rw [if_pos h, if_pos h]
    unfold arrive gather ldaInitProc
    simp only [ldaScale_eq]
  · rw [if_neg h, if_neg h]; rfl

theorem ldaMain_step {es : List (Edge Int)} {n ndoc : Nat} (hv : ∀ e ∈ es, e.Valid n) (hj : ∀ e ∈ es, e.Joins ndoc)
    {alpha eta vocab : Rat} {P P' : Nat → LdaV K} (ht : ∀ v, 1 ≤ v → v ≤ n → (P v).type = kindOf ndoc v)
    {A A' : Nat → Bool} (hA : ∀ v, 1 ≤ v → v ≤ n → A v = true) {c : Bool}
    (hs : StepRel ((ldaProg K alpha eta vocab).gp (wordTotal ndoc n (counts P))) (fun v => v)
      (ldaProc alpha eta vocab (wordTotal ndoc n (counts P))) true n es P A P' A' c) :
    (∀ v, 1 ≤ v → v ≤ n → P' v = { P v with N := ldaNext alpha eta vocab es ndoc n (counts P) v }) ∧
    (∀ v, 1 ≤ v → v ≤ n → A' v = true) := by
  obtain ⟨h1, h2⟩ := add_step hv (gp := (ldaProg K alpha eta vocab).gp (wordTotal ndoc n (counts P))) rfl rfl rfl hA hs
  refine ⟨?_, h2⟩
  intro v v1 v2
  rw [h1 v v1 v2]
  refine congrArg (fun u : Fin K → Rat => ({ P v with N := u } : LdaV K)) ?_
  funext i
  unfold ldaNext
  by_cases h : Rated es v
  · rw [if_pos h, if_pos h]
    unfold arrive gather ldaProc
    simp only [ldaScale_eq]
    have hk := ht v v1 v2
    congr 2
    · apply List.map_congr_left
      intro e he
      obtain ⟨he, h2⟩ := List.mem_filter.mp he
      rw [decide_eq_true_iff] at h2
      congr 2
      unfold edgeTopics topicWeight ldaGamma
      rw [hk]
      funext j
      obtain ⟨b1, b2, b3, b4⟩ := hv e he
      rcases hj e he with ⟨a1, a2⟩ | ⟨a1, a2⟩
      · have : kindOf ndoc v = 'w' := if_neg (by omega)
        rw [this]
        unfold docOf wordOf
        rw [if_pos a1, if_pos a1, h2, Int.toNat_natCast]
        show ((P v).N j + eta - 1) * ((P e.src.toNat).N j + alpha - 1) / _ =
          ((P e.src.toNat).N j + (alpha - 1)) * ((P v).N j + (eta - 1)) / _
        congr 1
        ring
      · have : kindOf ndoc v = 'd' := if_pos (by omega)
        rw [this]
        unfold docOf wordOf
        have a3 : ¬ e.src ≤ (ndoc : Int) := by omega
        rw [if_neg a3, if_neg a3, h2, Int.toNat_natCast]
        show ((P v).N j + alpha - 1) * ((P e.src.toNat).N j + eta - 1) / _ =
          ((P v).N j + (alpha - 1)) * ((P e.src.toNat).N j + (eta - 1)) / _
        congr 1
        ring
    · apply List.map_congr_left
      intro e he
      obtain ⟨he, h2⟩ := List.mem_filter.mp he
      rw [decide_eq_true_iff] at h2
      congr 2
      unfold edgeTopics topicWeight ldaGamma
      rw [hk]
      funext j
      obtain ⟨b1, b2, b3, b4⟩ := hv e he
      rcases hj e he with ⟨a1, a2⟩ | ⟨a1, a2⟩
      · have : kindOf ndoc v = 'd' := if_pos (by omega)
        rw [this]
        unfold docOf wordOf
        rw [if_pos a1, if_pos a1, h2, Int.toNat_natCast]
        show ((P v).N j + alpha - 1) * ((P e.dst.toNat).N j + eta - 1) / _ =
          ((P v).N j + (alpha - 1)) * ((P e.dst.toNat).N j + (eta - 1)) / _
        congr 1
        ring
      · have : kindOf ndoc v = 'w' := if_neg (by omega)
        rw [this]
        unfold docOf wordOf
        have a3 : ¬ e.src ≤ (ndoc : Int) := by omega
        rw [if_neg a3, if_neg a3, h2, Int.toNat_natCast]
        show ((P v).N j + eta - 1) * ((P e.dst.toNat).N j + alpha - 1) / _ =
          ((P e.dst.toNat).N j + (alpha - 1)) * ((P v).N j + (eta - 1)) / _
        congr 1
        ring
  · rw [if_neg h, if_neg h]; rfl

theorem ldaDotLoop_eq (Nk : Fin K → Rat) (eta : Rat) (nterms : Nat) (msg v : LdaV K) :
    ldaDotLoop (ldaSmooth Nk eta nterms) eta msg v = wordProb eta nterms Nk msg.N v.N := by
  have key : ∀ (f : Fin K → Rat) (l : List (Fin K)) (s : Rat), l.foldl (fun s i => s + f i) s = s + (l.map f).sum := by
    intro f l
    induction l with
    | nil => intro s; simp
    | cons i l ih => intro s; rw [List.foldl_cons, ih, List.map_cons, List.sum_cons]; ring
  unfold ldaDotLoop wordProb shareOf ldaSmooth
  rw [key, zero_add, ← List.ofFn_eq_map, List.sum_ofFn]
  simp only [sumLoop_eq]

/-- The last program stores with each vertex the terms of the edges that lead to it. -/
theorem ldaLL_step {es : List (Edge Int)} {n : Nat} (hv : ∀ e ∈ es, e.Valid n) {lg : Rat → Rat} {g : Fin K → Rat} {eta : Rat} {nterms : Nat}
    {P P' : Nat → LdaV K} (h0 : ∀ v, 1 ≤ v → v ≤ n → (P v).ll = 0) {A A' : Nat → Bool} (hA : ∀ v, 1 ≤ v → v ≤ n → A v = true)
    {c : Bool} (hs : StepRel ((ldaLLProg K lg (ldaSmooth g eta nterms) eta).gp ()) (fun v => v)
      (ldaLLProc lg (ldaSmooth g eta nterms) eta) true n es P A P' A' c) :
    ∀ v, 1 ≤ v → v ≤ n → P' v = { P v with ll := ((es.filter (fun e => decide (e.dst = (v : Int)))).map
      (fun e => (e.val : Rat) * lg (wordProb eta nterms g (counts P e.src.toNat) (counts P e.dst.toNat)))).sum } := by
  obtain ⟨res, r1, r2, _, _⟩ := hs
  have hA1 : ∀ e ∈ es, A e.src.toNat = true := by
    intro e he
    obtain ⟨a1, a2, _, _⟩ := hv e he
    exact hA _ (by omega) (by omega)
  intro v v1 v2
  have e1 := r1 v v1 v2
  have e2 := r2 v v1 v2
  have m1 := outMsgs_all (fun v : LdaV K => v) (ldaLLProc lg (ldaSmooth g eta nterms) eta) hA1 P v
  have e1' : Reduces (fun a b => a + b)
    (outMsgs (fun v : LdaV K => v) (ldaLLProc lg (ldaSmooth g eta nterms) eta) es P A v) (res v) := e1
  rw [m1] at e1'
  cases hres : res v with
  | none =>
    have hn := List.map_eq_nil_iff.mp (e1'.none_iff.mp hres)
    rw [hres] at e2
    have e2' : P' v = P v := e2
    rw [e2', hn, List.map_nil, List.sum_nil, ← h0 v v1 v2]
  | some x =>
    rw [hres] at e2 e1'
    have e2' : P' v = { P v with ll := x } := e2
    rw [e2', e1'.rat]
    refine congrArg (fun u : List Rat => ({ P v with ll := u.sum } : LdaV K)) ?_
    apply List.map_congr_left
    intro e he
    have h2 := (List.mem_filter.mp he).2
    rw [decide_eq_true_iff] at h2
    unfold ldaLLProc
    rw [ldaDotLoop_eq, h2, Int.toNat_natCast]
    rfl

/-! ### Totals -/

theorem range_sum_Icc (f : Nat → Rat) (m : Nat) : ((List.range m).map (fun j => f (j + 1))).sum = ∑ v ∈ Finset.Icc 1 m, f v := by
  induction m with
  | zero => simp
  | succ m ih =>
    rw [List.range_succ, List.map_append, List.sum_append, ih, Finset.sum_Icc_succ_top (by omega)]
    simp

theorem calcGlobalN_spec {n nrank threads ndoc : Nat} (c : Cfg n nrank threads) (hn : n + threads ≤ IMAX)
    {es : List (Edge Int)} {G : Graph (LdaV K) Int} {P : Nat → LdaV K} {A : Nat → Bool}
    (hG : G.Represents n nrank threads es P A) (ht : ∀ v, 1 ≤ v → v ≤ n → (P v).type = kindOf ndoc v)
    (gr : Nat → Nat → Fresh (LdaV K)) (tmp : Nat → Nat → Nat → Fin K → Rat) :
    ∃ G', calcGlobalN gr tmp G = some (G', wordTotal ndoc n (counts P)) ∧ G'.Represents n nrank threads es P A := by
  obtain ⟨vg, x, q1, q2, q3, q4, q5⟩ := applyReduce_is_reduction_partial (map := ifTerm (K := K))
    (op := fun a b => fun i => a i + b i) (tmp := tmp) (m := fun v : LdaV K => if v.type = 'w' then v.N else fun _ => 0) (w := id)
    (fun _ _ => rfl) gr c hn hG.inv hG.props (fun a b c => funext fun i => add_assoc _ _ _)
    (fun a b => funext fun i => add_comm _ _) (e := fun _ => 0) (fun a => funext fun i => zero_add _)
  have hx : x = wordTotal ndoc n (counts P) := by
    funext i
    have key : ∀ (l : List (Fin K → Rat)) (s : Fin K → Rat), l.foldl (fun a b => fun i => a i + b i) s i =
        s i + (l.map (fun u => u i)).sum := by
      intro l
      induction l with
      | nil => intro s; simp
      | cons a l ih => intro s; rw [List.foldl_cons, ih, List.map_cons, List.sum_cons]; ring
    rw [q5, key, zero_add]
    unfold mapped
    rw [List.map_map]
    have := range_sum_Icc (fun v => (if (P v).type = 'w' then (P v).N else fun _ => 0) i) n
    refine Eq.trans this ?_
    unfold wordTotal
    have hsub : Finset.Icc (ndoc + 1) n ⊆ Finset.Icc 1 n := by
      intro v hv
      rw [Finset.mem_Icc] at hv ⊢
      omega
    rw [← Finset.sum_subset hsub]
    · apply Finset.sum_congr rfl
      intro v hv
      rw [Finset.mem_Icc] at hv
      have h1 : (P v).type = 'w' := by rw [ht v (by omega) hv.2]; exact if_neg (by omega)
      rw [if_pos h1]
      rfl
    · intro v hv hv'
      rw [Finset.mem_Icc] at hv hv'
      have h1 : (P v).type = 'd' := by rw [ht v hv.1 hv.2]; exact if_pos (by omega)
      rw [if_neg (by rw [h1]; decide)]
  refine ⟨{ G with toVGraph := vg }, ?_, hG.onVertices q2 q3 (by intro v v1 v2; rw [q4]; exact hG.acts v v1 v2)⟩
  unfold calcGlobalN
  rw [q1]
  simp only [Option.bind_eq_bind, Option.bind_some]
  rw [hx]

theorem ll_total {es : List (Edge Int)} {n : Nat} (hv : ∀ e ∈ es, e.Valid n) {P : Nat → LdaV K} {f : Edge Int → Rat}
    (h : ∀ v, 1 ≤ v → v ≤ n → (P v).ll = ((es.filter (fun e => decide (e.dst = (v : Int)))).map f).sum) :
    (mapped n P (fun v => v.ll)).foldl (fun a b => a + b) 0 = (es.map f).sum := by
  have key : ∀ (l : List Rat) (s : Rat), l.foldl (fun a b => a + b) s = s + l.sum := by
    intro l
    induction l with
    | nil => intro s; simp
    | cons a l ih => intro s; rw [List.foldl_cons, ih, List.sum_cons]; ring
  rw [key, zero_add, ← sum_by_key (n := n) (fun e => e.dst) f es (fun e he => ⟨(hv e he).2.2.1, (hv e he).2.2.2⟩)]
  unfold mapped
  rw [range_sum_Icc (fun v => (P v).ll)]
  apply Finset.sum_congr rfl
  intro v hv'
  obtain ⟨v1, v2⟩ := Finset.mem_Icc.mp hv'
  exact h v v1 v2

/-! ### The types -/

theorem ldaTypes_spec {n nrank threads : Nat} (c : Cfg n nrank threads) {G : Graph (LdaV K) Int} {es : List (Edge Int)}
    {P : Nat → LdaV K} (h : G.Loaded n nrank threads es P) (g : Nat → Nat → Fresh (LdaV K)) (g0 : Nat → Fin K → Rat) (ndoc : Nat) :
    ∃ G', ldaTypes g g0 ndoc G = some G' ∧ G'.Loaded n nrank threads es (fun v => ⟨g0 v, kindOf ndoc v, 0⟩) := by
  obtain ⟨vg, h1, h2, h4⟩ := forLoop_inv (lo := 1) (hi := n + 1) (s := G.toVGraph)
    (body := fun i vg => vg.setVertexproperty (g i) (i : Int) ⟨g0 i, kindOf ndoc i, 0⟩)
    (fun k vg => vg.Inv n nrank threads ∧ vg.Props n nrank threads (fun v => if v < k then ⟨g0 v, kindOf ndoc v, 0⟩ else P v))
    (by omega) ⟨h.inv, by
      intro v v1 v2
      rw [h.props v v1 v2]; beta_reduce; rw [if_neg (by omega)]⟩ (by
      intro k vg k1 k2 ⟨e1, e3⟩
      obtain ⟨vg', f1, f2, f3, f4⟩ := VGraph.setVertexproperty_spec c e1 (g k) k1 (by omega) ⟨g0 k, kindOf ndoc k, 0⟩
      refine ⟨vg', f1, f2, ?_⟩
      intro v v1 v2
      rw [f4 v v1 v2, e3 v v1 v2]; beta_reduce
      by_cases e : v = k
      · subst e; rw [if_pos rfl, if_pos (by omega)]
      · rw [if_neg e]
        have : v < k + 1 ↔ v < k := by omega
        simp only [this])
  refine ⟨{ G with toVGraph := vg }, ?_, h.onVertices h2 ?_⟩
  · unfold ldaTypes Graph.forVertices Graph.onVertices
    rw [show G.n = n from h.inv.hn]
    exact congrArg (Option.map _) h1
  · intro v v1 v2
    rw [h4 v v1 v2]; beta_reduce; rw [if_pos (by omega)]

/-! ### When nothing changes any more -/

/-- `fabs(x) > 1e-3`. -/
theorem ldaBig_eq_false (x : Rat) : ldaBig x = false ↔ |x| ≤ 1 / 1000 := by
  unfold ldaBig
  rw [decide_eq_false_iff_not, not_lt]
  by_cases h : x < 0
  · rw [if_pos h, abs_of_neg h]
  · rw [if_neg h, abs_of_nonneg (not_lt.mp h)]

theorem ldaNe_eq_false (a b : LdaV K) : LdaV.ne a b = false ↔ ∀ i, |b.N i - a.N i| ≤ 1 / 1000 := by
  have key : ∀ (l : List (Fin K)) (r : Bool),
      l.foldl (fun result i => if ldaBig (b.N i - a.N i) then true else result) r = false ↔
        r = false ∧ ∀ i ∈ l, ldaBig (b.N i - a.N i) = false := by
    intro l
    induction l with
    | nil => intro r; simp
    | cons i l ih =>
      intro r
      rw [List.foldl_cons, ih]
      cases hb : ldaBig (b.N i - a.N i) <;> simp [hb]
  unfold LdaV.ne
  rw [key]
  simp [ldaBig_eq_false]

/-- What the flag of a superstep tells. -/
theorem ldaConverged {es : List (Edge Int)} {n : Nat} {alpha eta vocab : Rat} {g : Fin K → Rat} {act : Bool}
    {proc : LdaV K → Int → LdaV K → Fin K → Rat} {P P' : Nat → LdaV K} {A A' : Nat → Bool} {c : Bool}
    (hs : StepRel ((ldaProg K alpha eta vocab).gp g) (fun v => v) proc act n es P A P' A' c) :
    c = true ↔ CountsSettled n (counts P) (counts P') := by
  obtain ⟨res, _, r2, _, r4⟩ := hs
  rw [r4]
  unfold CountsSettled counts
  apply forall_congr'; intro v
  apply forall_congr'; intro v1
  apply forall_congr'; intro v2
  rw [r2 v v1 v2]
  cases res v with
  | none =>
    simp only [afterApply, gotChanged, sub_self, abs_zero, true_iff]
    intro i; norm_num
  | some u => exact ldaNe_eq_false _ _

theorem CountsSettled.congr {n : Nat} {x x' y y' : Nat → Fin K → Rat} (hx : ∀ v, 1 ≤ v → v ≤ n → x v = x' v)
    (hy : ∀ v, 1 ≤ v → v ≤ n → y v = y' v) : CountsSettled n x y ↔ CountsSettled n x' y' := by
  unfold CountsSettled
  apply forall_congr'; intro v
  apply forall_congr'; intro v1
  apply forall_congr'; intro v2
  rw [hx v v1 v2, hy v v1 v2]

/-! ### The loop -/

theorem ldaNext_congr {es : List (Edge Int)} {n ndoc : Nat} (hv : ∀ e ∈ es, e.Valid n) (alpha eta vocab : Rat)
    {x y : Nat → Fin K → Rat} (h : ∀ v, 1 ≤ v → v ≤ n → x v = y v) {v : Nat} (v1 : 1 ≤ v) (v2 : v ≤ n) :
    ldaNext alpha eta vocab es ndoc n x v = ldaNext alpha eta vocab es ndoc n y v := by
  funext i
  unfold ldaNext
  by_cases hr : Rated es v
  · rw [if_pos hr, if_pos hr]
    have hw : wordTotal ndoc n x = wordTotal ndoc n y := by
      funext j
      unfold wordTotal
      apply Finset.sum_congr rfl
      intro u hu
      rw [Finset.mem_Icc] at hu
      rw [h u (by omega) hu.2]
    have he : ∀ e ∈ es, edgeTopics alpha eta vocab ndoc n x e = edgeTopics alpha eta vocab ndoc n y e := by
      intro e he
      obtain ⟨b1, b2, b3, b4⟩ := hv e he
      unfold edgeTopics docOf wordOf
      rw [hw]
      by_cases hs : e.src ≤ (ndoc : Int)
      · simp only [if_pos hs]
        rw [h e.src.toNat (by omega) (by omega), h e.dst.toNat (by omega) (by omega)]
      · simp only [if_neg hs]
        rw [h e.src.toNat (by omega) (by omega), h e.dst.toNat (by omega) (by omega)]
    unfold gather
    congr 2 <;>
    · apply List.map_congr_left
      intro e hm
      beta_reduce
      rw [he e (List.mem_filter.mp hm).1]
  · rw [if_neg hr, if_neg hr, h v v1 v2]

/-- The graph holds counts `x`, the object their totals. -/
structure LdaAt (n nrank threads ndoc : Nat) (es : List (Edge Int)) (x : Nat → Fin K → Rat)
    (st : RunState (Fin K → Rat) (LdaV K) (Fin K → Rat) (LdaV K) Int) (k : Nat) : Prop where
  rep : ∃ P A, st.G.Represents n nrank threads es P A ∧ (∀ v, 1 ≤ v → v ≤ n → A v = true) ∧
    (∀ v, 1 ≤ v → v ≤ n → P v = ⟨x v, kindOf ndoc v, 0⟩)
  scratch : Scratch n nrank st.x st.y
  it : st.it = (k : Int)
  tot : st.s = wordTotal ndoc n x

theorem wordTotal_congr {n ndoc : Nat} {x y : Nat → Fin K → Rat} (h : ∀ v, 1 ≤ v → v ≤ n → x v = y v) :
    wordTotal ndoc n x = wordTotal ndoc n y := by
  funext j
  unfold wordTotal
  apply Finset.sum_congr rfl
  intro u hu
  rw [Finset.mem_Icc] at hu
  rw [h u (by omega) hu.2]

theorem runBodyOn_spec {n nrank threads ndoc : Nat} (c : Cfg n nrank threads) (hn : n + threads ≤ IMAX)
    {es : List (Edge Int)} (hv : ∀ e ∈ es, e.Valid n) (hj : ∀ e ∈ es, e.Joins ndoc)
    (env : Nat → StepEnv (LdaV K) (Fin K → Rat) (LdaV K)) (alpha eta vocab : Rat)
    (grs : Nat → Nat → Nat → Fresh (LdaV K)) (tmps : Nat → Nat → Nat → Nat → Fin K → Rat) {x : Nat → Fin K → Rat}
    {st : RunState (Fin K → Rat) (LdaV K) (Fin K → Rat) (LdaV K) Int} {k : Nat} (hk : (k : Int) + 1 ≤ IMAX)
    (h : LdaAt n nrank threads ndoc es x st k) :
    ∃ st', runBodyOn env (ldaProg K alpha eta vocab) (fun it G => calcGlobalN (grs it) (tmps it) G) true st = some st' ∧
      LdaAt n nrank threads ndoc es (ldaNext alpha eta vocab es ndoc n x) st' (k + 1) ∧
      (st'.converged = true ↔ CountsSettled n x (ldaNext alpha eta vocab es ndoc n x)) := by
  obtain ⟨P, A, g1, g2, g3⟩ := h.rep
  have hx : ∀ v, 1 ≤ v → v ≤ n → counts P v = x v := by
    intro v v1 v2
    unfold counts
    rw [g3 v v1 v2]
  have ht : ∀ v, 1 ≤ v → v ≤ n → (P v).type = kindOf ndoc v := by
    intro v v1 v2
    rw [g3 v v1 v2]
  have hs : st.s = wordTotal ndoc n (counts P) := by rw [h.tot, wordTotal_congr hx]
  have hp := ldaProg_pure (K := K) alpha eta vocab st.s
  obtain ⟨G', x', y', conv, P', A', e1, e2, e3, e4⟩ := superstep_refines c (env st.it.toNat) (hp.eff _) (hp.eff _) true g1 h.scratch
  have e4' : StepRel ((ldaProg K alpha eta vocab).gp (wordTotal ndoc n (counts P))) (fun v => v)
      (ldaProc alpha eta vocab (wordTotal ndoc n (counts P))) true n es P A P' A' conv := by
    rw [← hs]; exact e4
  obtain ⟨m1, m2⟩ := ldaMain_step hv hj ht g2 e4'
  have hP' : ∀ v, 1 ≤ v → v ≤ n → P' v = ⟨ldaNext alpha eta vocab es ndoc n x v, kindOf ndoc v, 0⟩ := by
    intro v v1 v2
    rw [m1 v v1 v2, ldaNext_congr hv alpha eta vocab hx v1 v2, g3 v v1 v2]
  have ht' : ∀ v, 1 ≤ v → v ≤ n → (P' v).type = kindOf ndoc v := by
    intro v v1 v2
    rw [hP' v v1 v2]
  obtain ⟨G2, q1, q2⟩ := calcGlobalN_spec c hn e2 ht' (grs st.it.toNat) (tmps st.it.toNat)
  have hc : cadd st.it 1 = some ((k : Int) + 1) := by
    rw [h.it, cadd_one (by omega)]; push_cast; rfl
  refine ⟨⟨G2, x', y', wordTotal ndoc n (counts P'), (k : Int) + 1, conv⟩, ?_, ⟨⟨P', A', q2, m2, hP'⟩, e3, by push_cast; rfl, ?_⟩, ?_⟩
  · unfold runBodyOn runBody
    rw [e1]
    simp only [Option.bind_eq_bind, Option.bind_some]
    rw [hc]
    simp only [Option.bind_some]
    rw [q1]
    rfl
  · show wordTotal ndoc n (counts P') = _
    apply wordTotal_congr
    intro v v1 v2
    unfold counts
    rw [hP' v v1 v2]
  · show conv = true ↔ _
    rw [ldaConverged e4']
    exact CountsSettled.congr hx (fun v v1 v2 => by unfold counts; rw [hP' v v1 v2])

theorem runLoopOn_spec {n nrank threads ndoc : Nat} (c : Cfg n nrank threads) (hn : n + threads ≤ IMAX)
    {es : List (Edge Int)} (hv : ∀ e ∈ es, e.Valid n) (hj : ∀ e ∈ es, e.Joins ndoc)
    (env : Nat → StepEnv (LdaV K) (Fin K → Rat) (LdaV K)) (alpha eta vocab : Rat)
    (grs : Nat → Nat → Nat → Fresh (LdaV K)) (tmps : Nat → Nat → Nat → Nat → Fin K → Rat) (j : Nat) :
    ∀ {k fuel : Nat} {x : Nat → Fin K → Rat} {st : RunState (Fin K → Rat) (LdaV K) (Fin K → Rat) (LdaV K) Int},
      ((k + j + 1 : Nat) : Int) ≤ IMAX → j < fuel → LdaAt n nrank threads ndoc es x st k →
      ∃ st', runLoopOn env (ldaProg K alpha eta vocab) (fun it G => calcGlobalN (grs it) (tmps it) G) true
          ((k + j + 1 : Nat) : Int) fuel st = some (.done st') ∧
        LdaAt n nrank threads ndoc es (Nat.iterate (ldaNext alpha eta vocab es ndoc n) (j + 1) x) st' (k + j + 1) := by
  induction j with
  | zero =>
    intro k fuel x st hmax hf h
    obtain ⟨fuel, rfl⟩ : ∃ f, fuel = f + 1 := ⟨fuel - 1, by omega⟩
    obtain ⟨st', e1, e2, _⟩ := runBodyOn_spec c hn hv hj env alpha eta vocab grs tmps (by push_cast at hmax; omega) h
    refine ⟨st', ?_, e2⟩
    unfold runLoopOn
    rw [e1]
    simp only [Option.bind_eq_bind, Option.bind_some]
    rw [if_pos e2.it]
  | succ j ih =>
    intro k fuel x st hmax hf h
    obtain ⟨fuel, rfl⟩ : ∃ f, fuel = f + 1 := ⟨fuel - 1, by omega⟩
    obtain ⟨st1, e1, e2, _⟩ := runBodyOn_spec c hn hv hj env alpha eta vocab grs tmps (by push_cast at hmax; omega) h
    obtain ⟨st', f1, f2⟩ := ih (by rw [show k + 1 + j + 1 = k + (j + 1) + 1 by omega]; exact hmax)
      (show j < fuel by omega) e2
    rw [show k + 1 + j + 1 = k + (j + 1) + 1 by omega] at f1 f2
    refine ⟨st', ?_, ?_⟩
    · unfold runLoopOn
      rw [e1]
      simp only [Option.bind_eq_bind, Option.bind_some]
      rw [if_neg (by rw [e2.it]; omega), if_neg (by omega)]
      exact f1
    · rw [Function.iterate_succ_apply]
      exact f2

end GraphMat
