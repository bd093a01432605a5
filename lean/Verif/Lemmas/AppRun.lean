import Verif.Lemmas.App
import Verif.Props.Run
import Verif.Props.Reduce
import Mathlib.Data.List.Nodup

namespace GraphMat

variable {S T U V E : Type}

/-- Running until nothing changes: an invariant that holds as long as something changes, for fewer than `N`
supersteps, and what the first quiet superstep establishes. -/
theorem run_until_invariant {n nrank threads : Nat} (c : Cfg n nrank threads) (ie : InitEnv T U)
    (env : Nat → StepEnv T U V) {pr : Program S T U V E} {msg : S → V → T} {proc : S → T → E → V → U}
    (hp : pr.Pure msg proc) (s0 : S) {scratch : Option (DVec T × DVec U)} {G : Graph V E} {es : List (Edge E)}
    {P : Nat → V} {A : Nat → Bool} (hG : G.Represents n nrank threads es P A)
    (hs : ∀ xy, scratch = some xy → Scratch n nrank xy.1 xy.2) {iterations : Int} (hi : iterations ≤ 0)
    (Inv : Nat → (Nat → V) → (Nat → Bool) → S → Prop) (Done : Nat → (Nat → V) → (Nat → Bool) → S → Prop) (N : Nat)
    (hN : 0 < N) (h0 : Inv 0 P (startActive pr s0 A) s0)
    (hstep : ∀ k P1 A1 s1 P2 A2 b, k < N → Inv k P1 A1 s1 →
      StepRel (pr.gp s1) (msg s1) (proc s1) (pr.gp s0).allVertices n es P1 A1 P2 A2 b →
      (b = true → Done (k + 1) P2 A2 (pr.every k s1)) ∧
      (b = false → k + 1 < N ∧ Inv (k + 1) P2 A2 (pr.every k s1)))
    (fuel : Nat) (hf : N ≤ fuel) (hfm : fuel ≤ IMAX) :
    ∃ st, ∃ k : Nat, ∃ P' A', G.run ie env pr s0 iterations scratch fuel = some (.done st) ∧ st.it = (k : Int) ∧
      1 ≤ k ∧ k ≤ N ∧ st.G.Represents n nrank threads es P' A' ∧ Scratch n nrank st.x st.y ∧ Done k P' A' st.s := by
  have key : ∀ {k P1 A1 s1 cs}, Steps pr.gp pr.every msg proc (pr.gp s0).allVertices n es P (startActive pr s0 A) s0
      k P1 A1 s1 cs → (∀ b ∈ cs, b = false) → k < N ∧ Inv k P1 A1 s1 := by
    intro k P1 A1 s1 cs h
    induction h with
    | zero => intro _; exact ⟨hN, h0⟩
    | succ h1 h2 ih =>
      intro hcs
      obtain ⟨i1, i2⟩ := ih (fun b hb => hcs b (List.mem_append_left _ hb))
      exact (hstep _ _ _ _ _ _ _ i1 i2 h2).2 (hcs _ (List.mem_append_right _ (List.mem_singleton.mpr rfl)))
  rcases run_until_convergence c ie env hp s0 hG hs hi fuel hfm with
    ⟨st, k, P', A', cs, a1, a2, a3, a4, a5, a6, a7, a8⟩ | ⟨st, P', A', cs, _, _, _, a4, a5⟩
  · generalize hl : cs ++ [true] = l at a7
    generalize hst : st.s = s' at a7
    cases a7 with
    | zero => omega
    | succ g1 g2 =>
      obtain ⟨hl1, hl2⟩ := List.append_inj' hl rfl
      simp only [List.cons.injEq, and_true] at hl2
      subst hl1 hl2
      obtain ⟨i1, i2⟩ := key g1 a8
      refine ⟨st, _, P', A', a1, a2, a3, by omega, a5, a6, ?_⟩
      rw [hst]
      exact (hstep _ _ _ _ _ _ _ i1 i2 g2).1 rfl
  · have := (key a4 a5).1
    omega

/-- Running an ALL_VERTICES program for `N` supersteps; which vertices were active before does not matter. -/
theorem run_all_vertices {n nrank threads : Nat} (c : Cfg n nrank threads) (ie : InitEnv T U)
    (env : Nat → StepEnv T U V) {pr : Program S T U V E} {msg : S → V → T} {proc : S → T → E → V → U}
    (hp : pr.Pure msg proc) (s0 : S) (hall : (pr.gp s0).allVertices = true) {scratch : Option (DVec T × DVec U)}
    {G : Graph V E} {es : List (Edge E)} {P : Nat → V} (hG : G.Loaded n nrank threads es P)
    (hs : ∀ xy, scratch = some xy → Scratch n nrank xy.1 xy.2) (N : Nat) (hN : 1 ≤ N) (hmax : N ≤ IMAX) (fuel : Nat)
    (hf : N ≤ fuel) :
    ∃ st P' A' cs, G.run ie env pr s0 (N : Int) scratch fuel = some (.done st) ∧ st.it = (N : Int) ∧
      st.G.Represents n nrank threads es P' A' ∧ Scratch n nrank st.x st.y ∧
      Steps pr.gp pr.every msg proc true n es P (fun _ => true) s0 N P' A' st.s cs := by
  obtain ⟨TA, TT, PA, PT, g1, g2, g3⟩ := hG
  obtain ⟨st, h1, h2⟩ := Graph.run_start' c ie env pr s0 (N : Int) (A := fun _ => true) g1 g2 g3
    (by rw [hall]; intro h; cases h) hs msg proc
  obtain ⟨j, rfl⟩ : ∃ j, N = j + 1 := ⟨N - 1, by omega⟩
  obtain ⟨st', cs, e1, e2⟩ := runLoop_count (R := ⟨pr, msg, proc, (pr.gp s0).allVertices, n, nrank, threads, TA, TT, PA, PT, es⟩)
    c hp env j h2 (by rw [Nat.zero_add]; exact_mod_cast hmax) (show j < fuel by omega)
  rw [Nat.zero_add] at e1 e2
  have hst := e2.steps
  rw [← e2.s] at hst
  have key : ∃ P' A', st'.G.Represents n nrank threads es P' A' ∧ Steps pr.gp pr.every msg proc (pr.gp s0).allVertices n es P
      (fun _ => (pr.gp s0).allVertices || true) s0 (j + 1) P' A' st'.s cs :=
    ⟨_, _, ⟨TA, TT, PA, PT, e2.has⟩, hst⟩
  rw [hall] at key
  obtain ⟨P', A', k1, k2⟩ := key
  exact ⟨st', P', A', cs, by rw [h1]; exact e1, e2.it, k1, e2.scratch, k2⟩

/-! ### Counting vertices -/

theorem RTree.eval_addInt (t : RTree (Option Int)) (h : ∀ u ∈ t.leaves, ∃ k : Nat, u = some (k : Int))
    (hs : (t.leaves.map (fun u => (u.getD 0).toNat)).sum ≤ IMAX) :
    t.eval addInt = some (((t.leaves.map (fun u => (u.getD 0).toNat)).sum : Nat) : Int) := by
  induction t with
  | leaf u =>
    obtain ⟨k, rfl⟩ := h u (by simp [RTree.leaves])
    simp [RTree.leaves, RTree.eval]
  | node l r ihl ihr =>
    simp only [RTree.leaves, List.map_append, List.sum_append, List.mem_append] at h hs ⊢
    have e1 := ihl (fun u hu => h u (.inl hu)) (by omega)
    have e2 := ihr (fun u hu => h u (.inr hu)) (by omega)
    simp only [RTree.eval]
    rw [e1, e2]
    show cadd _ _ = _
    rw [cadd_nat (by omega)]

/-- Any order and bracketing of the addition of non-negative ints gives the sum, if the sum fits. -/
theorem Reduces.addInt {l : List (Option Int)} {x : Option Int} (h : Reduces addInt l (some x))
    (hl : ∀ u ∈ l, ∃ k : Nat, u = some (k : Int)) (hs : (l.map (fun u => (u.getD 0).toNat)).sum ≤ IMAX) :
    x = some (((l.map (fun u => (u.getD 0).toNat)).sum : Nat) : Int) := by
  rcases h with ⟨_, h⟩ | ⟨t, h1, h2⟩
  · cases h
  · injection h2 with h2
    have hsum : (t.leaves.map (fun u => (u.getD 0).toNat)).sum = (l.map (fun u => (u.getD 0).toNat)).sum :=
      (h1.map _).sum_nat
    rw [h2, RTree.eval_addInt t (fun u hu => hl u (h1.mem_iff.mp hu)) (by omega), hsum]

/-- Counting the vertices with a property by `applyReduceAllVertices` with the default reduction, when the mapped
function gives 0 or 1 on the properties that occur. -/
theorem applyReduce_count_of {map : V → Option Int → Option Int × V} {tmp : Nat → Nat → Nat → Option Int} {p : V → Bool}
    {m : V → Option Int} (hm : ∀ v old, map v old = (m v, v)) (g : Nat → Nat → Fresh V)
    {n nrank threads : Nat} (c : Cfg n nrank threads) (hfit : n + threads ≤ IMAX) {G : Graph V E} {es : List (Edge E)}
    {P : Nat → V} {A : Nat → Bool} (hG : G.Represents n nrank threads es P A)
    (hmp : ∀ v, 1 ≤ v → v ≤ n → m (P v) = some (if p (P v) then 1 else 0)) :
    ∃ vg, ∃ l : List Nat, G.toVGraph.applyReduceAllVertices g map addInt tmp (fun _ => some 0) =
        some (vg, some (l.length : Int)) ∧
      l.Nodup ∧ (∀ v, v ∈ l ↔ 1 ≤ v ∧ v ≤ n ∧ p (P v) = true) ∧
      ({ G with toVGraph := vg } : Graph V E).Represents n nrank threads es P A := by
  obtain ⟨vg, cnt, q1, q2, q3, q4, q5⟩ := applyReduce_reduces_everything (map := map) (op := addInt) (tmp := tmp)
    (m := m) (w := id) hm g c hfit hG.inv hG.props (fun _ => some 0)
  have hmapped : mapped n P m = mapped n P (fun v => some (if p v then 1 else 0)) := by
    unfold mapped
    refine List.map_congr_left ?_
    intro j hj
    rw [List.mem_range] at hj
    exact hmp (j + 1) (by omega) (by omega)
  rw [hmapped] at q5
  have hsum : (((List.range nrank).map (fun _ => (some 0 : Option Int)) ++
      mapped n P (fun v => some (if p v then 1 else 0))).map (fun u : Option Int => (u.getD 0).toNat)).sum =
      ((List.range n).filter (fun j => p (P (j + 1)))).length := by
    rw [List.map_append, List.sum_append]
    have z : ∀ l : List Nat, ((l.map (fun _ => (some 0 : Option Int))).map (fun u : Option Int => (u.getD 0).toNat)).sum = 0 := by
      intro l
      induction l with
      | nil => rfl
      | cons a l ih => simp
    have w : ∀ l : List Nat, ((l.map (fun j => (some (if p (P (j + 1)) then 1 else 0) : Option Int))).map
        (fun u : Option Int => (u.getD 0).toNat)).sum = (l.filter (fun j => p (P (j + 1)))).length := by
      intro l
      induction l with
      | nil => rfl
      | cons a l ih =>
        rw [List.map_cons, List.map_cons, List.sum_cons, ih, List.filter_cons]
        by_cases h : p (P (a + 1)) = true
        · simp [h]; omega
        · simp [h]
    rw [z, Nat.zero_add]
    exact w _
  have hcnt := q5.addInt (by
    intro u hu
    rw [List.mem_append] at hu
    rcases hu with hu | hu
    · obtain ⟨_, _, rfl⟩ := List.mem_map.mp hu
      exact ⟨0, rfl⟩
    · obtain ⟨j, _, rfl⟩ := List.mem_map.mp hu
      by_cases h : p (P (j + 1)) = true
      · exact ⟨1, by simp [h]⟩
      · exact ⟨0, by simp [h]⟩) (by
    rw [hsum]
    have := List.length_filter_le (fun j => p (P (j + 1))) (List.range n)
    rw [List.length_range] at this
    omega)
  rw [hsum] at hcnt
  refine ⟨vg, ((List.range n).filter (fun j => p (P (j + 1)))).map (· + 1), by rw [q1, hcnt, List.length_map], ?_, ?_,
    hG.onVertices q2 q3 ?_⟩
  · exact List.Nodup.map (fun a b h => by simpa using h) (List.nodup_range.filter _)
  · intro v
    rw [List.mem_map]
    constructor
    · rintro ⟨j, hj, rfl⟩
      rw [List.mem_filter, List.mem_range] at hj
      exact ⟨by omega, by omega, hj.2⟩
    · rintro ⟨v1, v2, h⟩
      obtain ⟨w, rfl⟩ : ∃ w, v = w + 1 := ⟨v - 1, by omega⟩
      exact ⟨w, by rw [List.mem_filter, List.mem_range]; exact ⟨by omega, h⟩, rfl⟩
  · intro v v1 v2
    rw [q4]; exact hG.acts v v1 v2

/-- The same for functions that give 0 or 1 on every property. -/
theorem applyReduce_count {map : V → Option Int → Option Int × V} {tmp : Nat → Nat → Nat → Option Int} {p : V → Bool}
    (hm : ∀ v old, map v old = (some (if p v then 1 else 0), v)) (g : Nat → Nat → Fresh V)
    {n nrank threads : Nat} (c : Cfg n nrank threads) (hfit : n + threads ≤ IMAX) {G : Graph V E} {es : List (Edge E)}
    {P : Nat → V} {A : Nat → Bool} (hG : G.Represents n nrank threads es P A) :
    ∃ vg, ∃ l : List Nat, G.toVGraph.applyReduceAllVertices g map addInt tmp (fun _ => some 0) =
        some (vg, some (l.length : Int)) ∧
      l.Nodup ∧ (∀ v, v ∈ l ↔ 1 ≤ v ∧ v ≤ n ∧ p (P v) = true) ∧
      ({ G with toVGraph := vg } : Graph V E).Represents n nrank threads es P A :=
  applyReduce_count_of (m := fun v => some (if p v then 1 else 0)) hm g c hfit hG (fun _ _ _ => rfl)

end GraphMat
