import Verif.Model.Sgd
import Verif.Spec.Sgd
import Verif.Lemmas.PageRank
import Verif.Props.Reduce

namespace GraphMat

variable {K : Nat}

theorem dotLoop_eq (a b : Fin K → Rat) : dotLoop a b = inner a b := by
  have key : ∀ (l : List (Fin K)) (s : Rat), l.foldl (fun s i => s + a i * b i) s = s + (l.map (fun i => a i * b i)).sum := by
    intro l
    induction l with
    | nil => intro s; simp
    | cons i l ih => intro s; rw [List.foldl_cons, ih, List.map_cons, List.sum_cons]; ring
  unfold dotLoop inner
  rw [key, zero_add, ← List.ofFn_eq_map, List.sum_ofFn]

theorem inner_comm (a b : Fin K → Rat) : inner a b = inner b a := by
  unfold inner
  exact Finset.sum_congr rfl (fun i _ => mul_comm _ _)

/-! ### Sums of messages -/

theorem RTree.eval_vec (t : RTree (Fin K → Rat)) (i : Fin K) :
    t.eval (fun a b => fun i => a i + b i) i = (t.leaves.map (fun u => u i)).sum := by
  induction t with
  | leaf u => simp [RTree.eval, RTree.leaves]
  | node l r ihl ihr => simp [RTree.eval, RTree.leaves, ihl, ihr]

theorem Reduces.vec {l : List (Fin K → Rat)} {x : Fin K → Rat} (h : Reduces (fun a b => fun i => a i + b i) l (some x))
    (i : Fin K) : x i = (l.map (fun u => u i)).sum := by
  rcases h with ⟨_, h⟩ | ⟨t, h1, h2⟩
  · cases h
  · injection h2 with h2
    rw [h2, RTree.eval_vec]
    exact (h1.map _).sum_eq

theorem inMsgs_every {V T U E : Type} (msg : V → T) (proc : T → E → V → U) {es : List (Edge E)} {A : Nat → Bool}
    (hA : ∀ e ∈ es, A e.dst.toNat = true) (P : Nat → V) (d : Nat) :
    inMsgs msg proc es P A d =
      (es.filter (fun e => decide (e.src = (d : Int)))).map (fun e => proc (msg (P e.dst.toNat)) e.val (P d)) := by
  unfold inMsgs
  induction es with
  | nil => rfl
  | cons a l ih =>
    rw [List.filterMap_cons, List.filter_cons, ih (fun e he => hA e (List.mem_cons_of_mem _ he)),
      hA a (List.mem_cons_self ..)]
    by_cases h : a.src = (d : Int)
    · simp [h]
    · simp [h]

/-! ### The programs -/

/-- `process_message` of the gradient program. -/
def sgdProc (msg : LatV K) (e : Int) (v : LatV K) : Fin K → Rat := fun i => msg.lv i * ((e : Rat) - dotLoop msg.lv v.lv)

/-- `process_message` of the error program. -/
def rmseProc (msg : LatV K) (e : Int) (v : LatV K) : Rat :=
  ((e : Rat) - dotLoop msg.lv v.lv) * ((e : Rat) - dotLoop msg.lv v.lv)

theorem sgdProg_pure (lambda step : Rat) : Program.Pure (sgdProg K lambda step) (fun _ v => v) (fun _ => sgdProc) := by
  intro s
  exact ⟨fun _ _ => rfl, fun _ _ _ _ => rfl, fun h => by cases h⟩

theorem rmseProg_pure : Program.Pure (rmseProg K) (fun _ v => v) (fun _ => rmseProc) := by
  intro s
  exact ⟨fun _ _ => rfl, fun _ _ _ _ => rfl, fun h => by cases h⟩

/-- The vectors of all vertices. -/
def vecs (P : Nat → LatV K) : Nat → Fin K → Rat := fun v => (P v).lv

theorem rated_iff {es : List (Edge Int)} {v : Nat} : Rated es v ↔
    (es.filter (fun e => decide (e.dst = (v : Int)))) ≠ [] ∨ (es.filter (fun e => decide (e.src = (v : Int)))) ≠ [] := by
  unfold Rated
  constructor
  · rintro ⟨e, he, h | h⟩
    · exact Or.inr (List.ne_nil_of_mem (List.mem_filter.mpr ⟨he, by simpa using h⟩))
    · exact Or.inl (List.ne_nil_of_mem (List.mem_filter.mpr ⟨he, by simpa using h⟩))
  · rintro (h | h)
    · obtain ⟨e, he⟩ := List.exists_mem_of_ne_nil _ h
      obtain ⟨h1, h2⟩ := List.mem_filter.mp he
      exact ⟨e, h1, Or.inr (by simpa using h2)⟩
    · obtain ⟨e, he⟩ := List.exists_mem_of_ne_nil _ h
      obtain ⟨h1, h2⟩ := List.mem_filter.mp he
      exact ⟨e, h1, Or.inl (by simpa using h2)⟩

/-- One superstep of the gradient program is one step. -/
theorem sgdProg_step {es : List (Edge Int)} {n : Nat} (hv : ∀ e ∈ es, e.Valid n) {lambda step : Rat} {P P' : Nat → LatV K}
    {A A' : Nat → Bool} (hA : ∀ v, 1 ≤ v → v ≤ n → A v = true) {c : Bool}
    (hs : StepRel ((sgdProg K lambda step).gp ()) (fun v => v) sgdProc true n es P A P' A' c) :
    (∀ v, 1 ≤ v → v ≤ n → (P' v).sqerr = (P v).sqerr ∧ (P' v).lv = sgdStep lambda step es (vecs P) v) ∧
    (∀ v, 1 ≤ v → v ≤ n → A' v = true) := by
  obtain ⟨res, r1, r2, r3, _⟩ := hs
  have hA1 : ∀ e ∈ es, A e.src.toNat = true := by
    intro e he
    obtain ⟨a1, a2, _, _⟩ := hv e he
    exact hA _ (by omega) (by omega)
  have hA2 : ∀ e ∈ es, A e.dst.toNat = true := by
    intro e he
    obtain ⟨_, _, a1, a2⟩ := hv e he
    exact hA _ (by omega) (by omega)
  refine ⟨?_, fun v v1 v2 => by rw [r3 v v1 v2]; rfl⟩
  intro v v1 v2
  have e1 := r1 v v1 v2
  have e2 := r2 v v1 v2
  have m1 := outMsgs_all (fun v : LatV K => v) sgdProc hA1 P v
  have m2 := inMsgs_every (fun v : LatV K => v) sgdProc hA2 P v
  have e1' : Reduces (fun v w => fun i => v i + w i)
    (outMsgs (fun v : LatV K => v) sgdProc es P A v ++ inMsgs (fun v : LatV K => v) sgdProc es P A v) (res v) := e1
  rw [m1, m2] at e1'
  cases hr : res v with
  | none =>
    have h0 := e1'.none_iff.mp hr
    obtain ⟨h1, h2⟩ := List.append_eq_nil_iff.mp h0
    have hnr : ¬ Rated es v := by
      rw [rated_iff]
      rintro (h | h)
      · exact h (List.map_eq_nil_iff.mp h1)
      · exact h (List.map_eq_nil_iff.mp h2)
    rw [hr] at e2
    have e2' : P' v = P v := e2
    rw [e2']
    refine ⟨rfl, ?_⟩
    funext i
    unfold sgdStep sgdDir
    rw [if_neg hnr, mul_zero, add_zero]
    rfl
  | some x =>
    have hrt : Rated es v := by
      apply Classical.byContradiction
      intro hn
      rw [rated_iff, not_or, not_not, not_not] at hn
      rw [hn.1, hn.2] at e1'
      have := e1'.none_iff.mpr (by rfl)
      rw [hr] at this; cases this
    rw [hr] at e2 e1'
    have e2' : P' v = { P v with lv := fun i => (P v).lv i + step * (-lambda * (P v).lv i + x i) } := e2
    rw [e2']
    refine ⟨rfl, ?_⟩
    funext i
    show (P v).lv i + step * (-lambda * (P v).lv i + x i) = _
    rw [e1'.vec i]
    unfold sgdStep sgdDir
    rw [if_pos hrt, List.map_append, List.sum_append, List.map_map, List.map_map, add_assoc]
    have q1 : ∀ e ∈ es.filter (fun e => decide (e.dst = (v : Int))),
        ((fun u : Fin K → Rat => u i) ∘ fun e : Edge Int => sgdProc (P e.src.toNat) e.val (P v)) e =
        ratingErr (vecs P) e * vecs P e.src.toNat i := by
      intro e he
      have h2 := (List.mem_filter.mp he).2
      rw [decide_eq_true_iff] at h2
      show (P e.src.toNat).lv i * ((e.val : Rat) - dotLoop (P e.src.toNat).lv (P v).lv) = _
      unfold ratingErr
      rw [dotLoop_eq, h2, Int.toNat_natCast, mul_comm]
      rfl
    have q2 : ∀ e ∈ es.filter (fun e => decide (e.src = (v : Int))),
        ((fun u : Fin K → Rat => u i) ∘ fun e : Edge Int => sgdProc (P e.dst.toNat) e.val (P v)) e =
        ratingErr (vecs P) e * vecs P e.dst.toNat i := by
      intro e he
      have h2 := (List.mem_filter.mp he).2
      rw [decide_eq_true_iff] at h2
      show (P e.dst.toNat).lv i * ((e.val : Rat) - dotLoop (P e.dst.toNat).lv (P v).lv) = _
      unfold ratingErr
      rw [dotLoop_eq, h2, Int.toNat_natCast, mul_comm, inner_comm]
      rfl
    rw [List.map_congr_left q1, List.map_congr_left q2]
    rfl

theorem ratingErr_congr {n : Nat} {x y : Nat → Fin K → Rat} (h : ∀ v, 1 ≤ v → v ≤ n → x v = y v) {e : Edge Int}
    (he : e.Valid n) : ratingErr x e = ratingErr y e := by
  obtain ⟨a1, a2, a3, a4⟩ := he
  unfold ratingErr
  rw [h e.src.toNat (by omega) (by omega), h e.dst.toNat (by omega) (by omega)]

theorem sgdStep_congr {es : List (Edge Int)} {n : Nat} (hv : ∀ e ∈ es, e.Valid n) (lambda step : Rat)
    {x y : Nat → Fin K → Rat} (h : ∀ v, 1 ≤ v → v ≤ n → x v = y v) {v : Nat} (v1 : 1 ≤ v) (v2 : v ≤ n) (i : Fin K) :
    sgdStep lambda step es x v i = sgdStep lambda step es y v i := by
  unfold sgdStep sgdDir
  have q1 : (es.filter (fun e => decide (e.dst = (v : Int)))).map (fun e => ratingErr x e * x e.src.toNat i) =
      (es.filter (fun e => decide (e.dst = (v : Int)))).map (fun e => ratingErr y e * y e.src.toNat i) := by
    apply List.map_congr_left
    intro e he
    have he' := hv e (List.mem_filter.mp he).1
    rw [ratingErr_congr h he']
    obtain ⟨a1, a2, a3, a4⟩ := he'
    rw [h e.src.toNat (by omega) (by omega)]
  have q2 : (es.filter (fun e => decide (e.src = (v : Int)))).map (fun e => ratingErr x e * x e.dst.toNat i) =
      (es.filter (fun e => decide (e.src = (v : Int)))).map (fun e => ratingErr y e * y e.dst.toNat i) := by
    apply List.map_congr_left
    intro e he
    have he' := hv e (List.mem_filter.mp he).1
    rw [ratingErr_congr h he']
    obtain ⟨a1, a2, a3, a4⟩ := he'
    rw [h e.dst.toNat (by omega) (by omega)]
  rw [h v v1 v2, q1, q2]

/-- The error program stores with each vertex the squared errors of the ratings that leave it. -/
theorem rmseProg_step {es : List (Edge Int)} {n : Nat} {P P' : Nat → LatV K} {A' : Nat → Bool}
    {c act : Bool} (hs : StepRel ((rmseProg K).gp ()) (fun v => v) rmseProc act n es P (fun _ => true) P' A' c) :
    ∀ v, 1 ≤ v → v ≤ n → (P' v).lv = (P v).lv ∧ (P' v).sqerr =
      if outDegree es v = 0 then (P v).sqerr else
        ((es.filter (fun e => decide (e.src = (v : Int)))).map (fun e => ratingErr (vecs P) e ^ 2)).sum := by
  obtain ⟨res, r1, r2, _, _⟩ := hs
  intro v v1 v2
  have e1 := r1 v v1 v2
  have e2 := r2 v v1 v2
  have m2 := inMsgs_every (fun v : LatV K => v) rmseProc (A := fun _ => true) (es := es) (fun _ _ => rfl) P v
  have e1' : Reduces (fun a b => a + b) (inMsgs (fun v : LatV K => v) rmseProc es P (fun _ => true) v) (res v) := e1
  rw [m2] at e1'
  have hlen : outDegree es v = (es.filter (fun e => decide (e.src = (v : Int)))).length := List.countP_eq_length_filter
  cases hr : res v with
  | none =>
    have h0 := List.map_eq_nil_iff.mp (e1'.none_iff.mp hr)
    rw [hr] at e2
    have e2' : P' v = P v := e2
    rw [e2', hlen, h0]
    exact ⟨rfl, rfl⟩
  | some x =>
    have hne : outDegree es v ≠ 0 := by
      intro h
      rw [hlen, List.length_eq_zero_iff] at h
      rw [h] at e1'
      have := e1'.none_iff.mpr (by rfl)
      rw [hr] at this; cases this
    rw [hr] at e2 e1'
    have e2' : P' v = { P v with sqerr := x } := e2
    rw [e2', if_neg hne]
    refine ⟨rfl, ?_⟩
    show x = _
    rw [e1'.rat]
    congr 1
    apply List.map_congr_left
    intro e he
    have h2 := (List.mem_filter.mp he).2
    rw [decide_eq_true_iff] at h2
    unfold rmseProc ratingErr
    rw [dotLoop_eq, h2, Int.toNat_natCast, inner_comm, pow_two]
    rfl

/-- The total of the stored errors. -/
theorem rmse_total {es : List (Edge Int)} {n : Nat} (hv : ∀ e ∈ es, e.Valid n) {P : Nat → LatV K} {x : Nat → Fin K → Rat}
    (h : ∀ v, 1 ≤ v → v ≤ n → (P v).sqerr =
      ((es.filter (fun e => decide (e.src = (v : Int)))).map (fun e => ratingErr x e ^ 2)).sum) :
    (mapped n P (fun v => v.sqerr)).foldl (fun a b => a + b) 0 = sqErr es x := by
  have key : ∀ (l : List Rat) (s : Rat), l.foldl (fun a b => a + b) s = s + l.sum := by
    intro l
    induction l with
    | nil => intro s; simp
    | cons a l ih => intro s; rw [List.foldl_cons, ih, List.sum_cons]; ring
  rw [key, zero_add]
  unfold sqErr
  rw [← sum_by_key (n := n) (fun e => e.src) (fun e => ratingErr x e ^ 2) es (fun e he => ⟨(hv e he).1, (hv e he).2.1⟩)]
  have hr : ∀ m, ((List.range m).map (fun j => (P (j + 1)).sqerr)).sum = ∑ v ∈ Finset.Icc 1 m, (P v).sqerr := by
    intro m
    induction m with
    | zero => simp
    | succ m ih =>
      rw [List.range_succ, List.map_append, List.sum_append, ih, Finset.sum_Icc_succ_top (by omega)]
      simp
  unfold mapped
  rw [hr]
  apply Finset.sum_congr rfl
  intro v hv'
  obtain ⟨v1, v2⟩ := Finset.mem_Icc.mp hv'
  exact h v v1 v2

/-! ### The initial vectors -/

theorem sgdInit_spec {n nrank threads : Nat} (c : Cfg n nrank threads) {G : Graph (LatV K) Int} {es : List (Edge Int)}
    {P : Nat → LatV K} (h : G.Loaded n nrank threads es P) (g : Nat → Nat → Fresh (LatV K)) (rnd : Nat → Fin K → Rat) :
    ∃ G', sgdInit g rnd G = some G' ∧ G'.Loaded n nrank threads es (fun v => ⟨rnd v, 0⟩) := by
  obtain ⟨vg, h1, h2, h4⟩ := forLoop_inv (lo := 1) (hi := n + 1) (s := G.toVGraph)
    (body := fun i vg => vg.setVertexproperty (g i) (i : Int) ⟨rnd i, 0⟩)
    (fun k vg => vg.Inv n nrank threads ∧ vg.Props n nrank threads (fun v => if v < k then ⟨rnd v, 0⟩ else P v))
    (by omega) ⟨h.inv, by
      intro v v1 v2
      rw [h.props v v1 v2]; beta_reduce; rw [if_neg (by omega)]⟩ (by
      intro k vg k1 k2 ⟨e1, e3⟩
      obtain ⟨vg', f1, f2, f3, f4⟩ := VGraph.setVertexproperty_spec c e1 (g k) k1 (by omega) ⟨rnd k, 0⟩
      refine ⟨vg', f1, f2, ?_⟩
      intro v v1 v2
      rw [f4 v v1 v2, e3 v v1 v2]; beta_reduce
      by_cases e : v = k
      · subst e; rw [if_pos rfl, if_pos (by omega)]
      · rw [if_neg e]
        have : v < k + 1 ↔ v < k := by omega
        simp only [this])
  refine ⟨{ G with toVGraph := vg }, ?_, h.onVertices h2 ?_⟩
  · unfold sgdInit Graph.forVertices Graph.onVertices
    rw [show G.n = n from h.inv.hn]
    exact congrArg (Option.map _) h1
  · intro v v1 v2
    rw [h4 v v1 v2]; beta_reduce; rw [if_pos (by omega)]

/-! ### Steps follow the gradient -/

theorem inner_add_left (a b c : Fin K → Rat) : inner (fun i => a i + b i) c = inner a c + inner b c := by
  unfold inner
  rw [← Finset.sum_add_distrib]
  exact Finset.sum_congr rfl (fun i _ => by ring)

theorem inner_smul_left (t : Rat) (a c : Fin K → Rat) : inner (fun i => t * a i) c = t * inner a c := by
  unfold inner
  rw [Finset.mul_sum]
  exact Finset.sum_congr rfl (fun i _ => by ring)

theorem inner_line (a b c d : Fin K → Rat) (t : Rat) :
    inner (fun i => a i + t * b i) (fun i => c i + t * d i) = inner a c + t * (inner a d + inner b c) + t ^ 2 * inner b d := by
  rw [inner_add_left a (fun i => t * b i), inner_smul_left, inner_comm a, inner_comm b,
    inner_add_left c (fun i => t * d i) a, inner_add_left c (fun i => t * d i) b, inner_smul_left, inner_smul_left,
    inner_comm c a, inner_comm d a, inner_comm c b, inner_comm d b]
  ring

theorem list_sum_add {E : Type} (l : List E) (f g : E → Rat) :
    (l.map (fun e => f e + g e)).sum = (l.map f).sum + (l.map g).sum := by
  induction l with
  | nil => simp
  | cons a l ih => simp only [List.map_cons, List.sum_cons, ih]; ring

theorem list_sum_mul {E : Type} (l : List E) (f : E → Rat) (t : Rat) :
    (l.map (fun e => t * f e)).sum = t * (l.map f).sum := by
  induction l with
  | nil => simp
  | cons a l ih => simp only [List.map_cons, List.sum_cons, ih]; ring

/-- The change of the error of a rating along a line. -/
def errSlope (x d : Nat → Fin K → Rat) (e : Edge Int) : Rat :=
  inner (x e.src.toNat) (d e.dst.toNat) + inner (d e.src.toNat) (x e.dst.toNat)

theorem sqErr_line (es : List (Edge Int)) (x d : Nat → Fin K → Rat) :
    ∃ a b c, ∀ t, sqErr es (fun v i => x v i + t * d v i) =
      sqErr es x - t * (2 * (es.map (fun e => ratingErr x e * errSlope x d e)).sum) + a * t ^ 2 + b * t ^ 3 + c * t ^ 4 := by
  refine ⟨(es.map (fun e => errSlope x d e ^ 2 - 2 * ratingErr x e * inner (d e.src.toNat) (d e.dst.toNat))).sum,
    (es.map (fun e => 2 * errSlope x d e * inner (d e.src.toNat) (d e.dst.toNat))).sum,
    (es.map (fun e => inner (d e.src.toNat) (d e.dst.toNat) ^ 2)).sum, ?_⟩
  intro t
  unfold sqErr
  have h1 : ∀ e : Edge Int, ratingErr (fun v i => x v i + t * d v i) e =
      ratingErr x e - t * errSlope x d e - t ^ 2 * inner (d e.src.toNat) (d e.dst.toNat) := by
    intro e
    unfold ratingErr errSlope
    rw [inner_line (x e.src.toNat) (d e.src.toNat) (x e.dst.toNat) (d e.dst.toNat) t]
    ring
  induction es with
  | nil => simp
  | cons e l ih =>
    simp only [List.map_cons, List.sum_cons]
    rw [ih, h1 e]
    ring

theorem slope_sum {n : Nat} {es : List (Edge Int)} (hv : ∀ e ∈ es, e.Valid n) (x d : Nat → Fin K → Rat) (lambda : Rat) :
    ∑ v ∈ Finset.Icc 1 n, inner (sgdDir lambda es x v) (d v) =
      (es.map (fun e => ratingErr x e * errSlope x d e)).sum -
        lambda * ∑ v ∈ Finset.Icc 1 n, if Rated es v then inner (x v) (d v) else 0 := by
  have h1 : ∀ v ∈ Finset.Icc 1 n, inner (sgdDir lambda es x v) (d v) =
      ((es.filter (fun e => decide (e.dst = (v : Int)))).map (fun e => ratingErr x e * inner (x e.src.toNat) (d e.dst.toNat))).sum +
      ((es.filter (fun e => decide (e.src = (v : Int)))).map (fun e => ratingErr x e * inner (d e.src.toNat) (x e.dst.toNat))).sum
      - lambda * (if Rated es v then inner (x v) (d v) else 0) := by
    intro v _
    have hin : ∀ (l : List (Edge Int)) (y : Edge Int → Fin K → Rat),
        inner (fun i => (l.map (fun e => ratingErr x e * y e i)).sum) (d v) = (l.map (fun e => ratingErr x e * inner (y e) (d v))).sum := by
      intro l y
      induction l with
      | nil => simp [inner]
      | cons a l ih =>
        simp only [List.map_cons, List.sum_cons]
        rw [inner_add_left (fun i => ratingErr x a * y a i), inner_smul_left, ih]
    have c1 : (es.filter (fun e => decide (e.dst = (v : Int)))).map (fun e => ratingErr x e * inner (x e.src.toNat) (d e.dst.toNat)) =
        (es.filter (fun e => decide (e.dst = (v : Int)))).map (fun e => ratingErr x e * inner (x e.src.toNat) (d v)) := by
      apply List.map_congr_left
      intro e he
      have h2 := (List.mem_filter.mp he).2
      rw [decide_eq_true_iff] at h2
      rw [h2, Int.toNat_natCast]
    have c2 : (es.filter (fun e => decide (e.src = (v : Int)))).map (fun e => ratingErr x e * inner (d e.src.toNat) (x e.dst.toNat)) =
        (es.filter (fun e => decide (e.src = (v : Int)))).map (fun e => ratingErr x e * inner (x e.dst.toNat) (d v)) := by
      apply List.map_congr_left
      intro e he
      have h2 := (List.mem_filter.mp he).2
      rw [decide_eq_true_iff] at h2
      rw [h2, Int.toNat_natCast, inner_comm]
    rw [c1, c2]
    by_cases hr : Rated es v
    · rw [if_pos hr, ← hin _ (fun e => x e.src.toNat), ← hin _ (fun e => x e.dst.toNat)]
      have : sgdDir lambda es x v = fun i => (-lambda * x v i +
          ((es.filter (fun e => decide (e.dst = (v : Int)))).map (fun e => ratingErr x e * x e.src.toNat i)).sum) +
          ((es.filter (fun e => decide (e.src = (v : Int)))).map (fun e => ratingErr x e * x e.dst.toNat i)).sum := by
        funext i
        unfold sgdDir
        rw [if_pos hr]
      rw [this, inner_add_left (fun i => -lambda * x v i + _), inner_add_left (fun i => -lambda * x v i), inner_smul_left]
      ring
    · have hr' := hr
      rw [rated_iff, not_or, not_not, not_not] at hr'
      rw [if_neg hr, hr'.1, hr'.2]
      have : sgdDir lambda es x v = fun _ => 0 := by
        funext i
        unfold sgdDir
        rw [if_neg hr]
      rw [this]
      simp [inner]
  rw [Finset.sum_congr rfl h1, Finset.sum_sub_distrib, Finset.sum_add_distrib, ← Finset.mul_sum,
    sum_by_key (fun e => e.dst) _ es (fun e he => ⟨(hv e he).2.2.1, (hv e he).2.2.2⟩),
    sum_by_key (fun e => e.src) _ es (fun e he => ⟨(hv e he).1, (hv e he).2.1⟩), ← list_sum_add]
  congr 3
  funext e
  unfold errSlope
  ring

/-- Along any line the objective changes, to first order, by minus the inner product with `sgdDir`: `sgdDir` is the
negative gradient. -/
theorem objective_line {n : Nat} {es : List (Edge Int)} (hv : ∀ e ∈ es, e.Valid n) (lambda : Rat) (x d : Nat → Fin K → Rat) :
    ∃ a b c, ∀ t, sgdObjective lambda es n (fun v i => x v i + t * d v i) = sgdObjective lambda es n x -
      t * ∑ v ∈ Finset.Icc 1 n, inner (sgdDir lambda es x v) (d v) + a * t ^ 2 + b * t ^ 3 + c * t ^ 4 := by
  obtain ⟨a, b, c, h⟩ := sqErr_line es x d
  refine ⟨1 / 2 * a + lambda / 2 * ∑ v ∈ Finset.Icc 1 n, (if Rated es v then inner (d v) (d v) else 0), 1 / 2 * b,
    1 / 2 * c, ?_⟩
  intro t
  have hreg : (∑ v ∈ Finset.Icc 1 n, if Rated es v then inner (fun i => x v i + t * d v i) (fun i => x v i + t * d v i) else 0) =
      (∑ v ∈ Finset.Icc 1 n, if Rated es v then inner (x v) (x v) else 0) +
      2 * t * (∑ v ∈ Finset.Icc 1 n, if Rated es v then inner (x v) (d v) else 0) +
      t ^ 2 * ∑ v ∈ Finset.Icc 1 n, (if Rated es v then inner (d v) (d v) else 0) := by
    rw [Finset.mul_sum, Finset.mul_sum, ← Finset.sum_add_distrib, ← Finset.sum_add_distrib]
    apply Finset.sum_congr rfl
    intro v _
    by_cases hr : Rated es v
    · simp only [if_pos hr]
      rw [inner_line (x v) (d v) (x v) (d v) t, inner_comm (d v) (x v)]
      ring
    · simp only [if_neg hr]
      ring
  unfold sgdObjective
  rw [h t, slope_sum hv]
  simp only
  rw [hreg]
  ring

end GraphMat
