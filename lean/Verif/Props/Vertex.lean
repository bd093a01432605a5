import Verif.Lemmas.Program

/-!
# C03, C04, C05, C21, C23, C45: vertex properties and activity

All statements are about the program running on `nrank` ranks with `threads` threads; `Cfg` only
says that these numbers are positive and that ids fit into C `int`s.
-/
namespace GraphMat

variable {α T U V E : Type}

/-! ## helpers -/

theorem nodeOwner_eq {n nrank r w p : Nat} (hr : 0 < nrank) (hp : getPartition n nrank w = some p) :
    nodeOwner n nrank nrank r w = some (decide (p % nrank = r)) := by
  unfold nodeOwner segOwner vectorPartitionFn
  rw [hp]
  simp only [Option.bind_eq_bind, Option.bind_some, if_neg (show ¬ nrank = 0 by omega),
    Option.some.injEq]
  rw [Bool.eq_iff_iff]; simp

theorem VGraph.vertexNodeOwner_eq {n nrank threads : Nat} (c : Cfg n nrank threads) {G : VGraph V}
    (hG : G.Inv n nrank threads) {v r : Nat} (h1 : 1 ≤ v) (h2 : v ≤ n) (hr : r < nrank) :
    G.vertexNodeOwner r v =
      some (decide (ownerOf n nrank nrank (v2n (threads * 16 * nrank) n v) = r)) := by
  unfold VGraph.vertexNodeOwner
  rw [VGraph.native_eq c hG h1 h2, Arr.read_some (by rw [hG.vp.size]; exact hr)]
  simp only [Option.bind_eq_bind, Option.bind_some]
  have hw := hG.vp.rank r hr
  rw [hw.hn, hw.hseg, hw.hrank, hw.hme]
  obtain ⟨p, hp, _⟩ := locate c.rpos (c.native h1 h2).2.1 (c.native h1 h2).2.2
  rw [nodeOwner_eq c.rpos hp, ownerOf_of hp]

theorem VGraph.getVertexproperty_eq {n nrank threads : Nat} (c : Cfg n nrank threads) {G : VGraph V}
    (hG : G.Inv n nrank threads) {v r : Nat} (h1 : 1 ≤ v) (h2 : v ≤ n) (hr : r < nrank) {x : V}
    (hx : userSem n nrank threads G.vp v = some x) :
    G.getVertexproperty r v = some
      (if ownerOf n nrank nrank (v2n (threads * 16 * nrank) n v) = r then some x else none) := by
  unfold VGraph.getVertexproperty
  rw [VGraph.native_eq c hG h1 h2, Arr.read_some (by rw [hG.vp.size]; exact hr)]
  simp only [Option.bind_eq_bind, Option.bind_some]
  have hw := hG.vp.rank r hr
  obtain ⟨p, hp, _⟩ := locate c.rpos (c.native h1 h2).2.1 (c.native h1 h2).2.2
  rw [ownerOf_of hp]
  have hg := SpVec.get_spec hw c.rpos hp
  by_cases e : p % nrank = r
  · rw [if_pos e]
    apply hg.2 e
    unfold userSem at hx
    rw [DVec.sem_of hp] at hx
    unfold DVec.own at hx
    rw [e] at hx
    exact hx
  · rw [if_neg e]; exact hg.1 e

/-- Enumerating internal ids and enumerating user ids gives the same multiset. -/
theorem perm_native {n np : Nat} (hnp : 0 < np) :
    ((List.range n).map (fun j => n2v np n (j + 1))).Perm ((List.range n).map (· + 1)) := by
  rw [List.perm_ext_iff_of_nodup]
  · intro a
    simp only [List.mem_map, List.mem_range]
    constructor
    · rintro ⟨j, hj, rfl⟩
      have := n2v_range (np := np) (n := n) (v := j + 1) (by omega) (by omega)
      exact ⟨n2v np n (j + 1) - 1, by omega, by omega⟩
    · rintro ⟨j, hj, rfl⟩
      have := v2n_range (n := n) (v := j + 1) hnp (by omega) (by omega)
      refine ⟨v2n np n (j + 1) - 1, by omega, ?_⟩
      have e : v2n np n (j + 1) - 1 + 1 = v2n np n (j + 1) := by omega
      rw [e, n2v_v2n hnp (by omega)]
  · apply List.Pairwise.map _ _ (List.nodup_range)
    intro a b hab h
    apply hab
    have := v2n_n2v (n := n) (v := a + 1) hnp (by omega)
    rw [h, v2n_n2v hnp (by omega)] at this
    omega
  · apply List.Pairwise.map _ _ (List.nodup_range)
    intro a b hab h
    exact hab (by simpa using h)

/-! ## C03 -/

/-- C03: load a graph, then make any sequence of calls.  The calls succeed, every vertex has exactly
one owner, the owner's `getVertexproperty(v)` is the value the specification (a plain map from user
ids to values) holds, and the other ranks get nothing. -/
theorem vertex_properties_are_a_map {n nrank threads : Nat} (c : Cfg n nrank threads)
    (gv0 : Nat → Nat → Fresh V) (ga0 : Nat → Nat → Fresh Bool)
    (gv : Nat → Nat → Nat → Fresh V) (ga : Nat → Nat → Nat → Fresh Bool)
    (d : V) (A : Nat → Bool) (ops : List (VOp V)) (hops : ∀ op ∈ ops, op.Valid n) :
    ∃ G0 G, VGraph.create n nrank threads gv0 ga0 (fun _ => d) = some G0 ∧
      G0.runOps gv ga 0 ops = some G ∧
      ∀ v, 1 ≤ v → v ≤ n → ∃ o, o < nrank ∧ ∀ r, r < nrank →
        G.vertexNodeOwner r v = some (decide (r = o)) ∧
        G.getVertexproperty r v =
          some (if r = o then some ((VSpec.run ⟨fun _ => d, A⟩ ops).prop v) else none) := by
  obtain ⟨G0, a1, a2, a3, _⟩ := VGraph.create_spec c gv0 ga0 (fun _ => d)
  obtain ⟨G, b1, b2, b3, _⟩ := VGraph.runOps_spec c gv ga ops 0 G0 ⟨fun _ => d, A⟩ a2 hops a3
  refine ⟨G0, G, a1, b1, ?_⟩
  intro v h1 h2
  have hw := (c.native h1 h2).2
  refine ⟨ownerOf n nrank nrank (v2n (threads * 16 * nrank) n v),
    ownerOf_lt c.rpos c.rpos hw.1 hw.2, ?_⟩
  intro r hr
  refine ⟨?_, ?_⟩
  · rw [VGraph.vertexNodeOwner_eq c b2 h1 h2 hr]
    congr 1; rw [Bool.eq_iff_iff, decide_eq_true_iff, decide_eq_true_iff]; exact eq_comm
  · rw [VGraph.getVertexproperty_eq c b2 h1 h2 hr (b3 v h1 h2)]
    congr 1
    by_cases e : r = ownerOf n nrank nrank (v2n (threads * 16 * nrank) n v)
    · rw [if_pos e, if_pos e.symm]
    · rw [if_neg e, if_neg (fun h => e h.symm)]

/-- A concrete history: 300 vertices on 2 ranks with 1 thread; vertex 299 was overwritten, vertex 7
was changed by the apply. -/
example : Cfg 300 2 1 ∧
    (∀ op ∈ ([.setAllProp 3, .setProp 299 5, .applyAll (fun a _ => a + 1), .setProp 7 0] :
      List (VOp Nat)), op.Valid 300) ∧
    (VSpec.run ⟨fun _ => 0, fun _ => false⟩
      ([.setAllProp 3, .setProp 299 5, .applyAll (fun a _ => a + 1), .setProp 7 0] :
      List (VOp Nat))).prop 299 = 6 := by
  refine ⟨⟨by decide, by decide, by decide, by decide⟩, ?_, by decide⟩
  intro op h
  simp at h
  rcases h with rfl | rfl | rfl | rfl <;> simp [VOp.Valid]

/-- C03: after any history, the vertex lists the ranks get from `getVertexEdgelist` are together a
permutation of all pairs (user id, current value): nothing missing, nothing twice. -/
theorem vertex_lists_are_complete {n nrank threads : Nat} (c : Cfg n nrank threads)
    (gv0 : Nat → Nat → Fresh V) (ga0 : Nat → Nat → Fresh Bool)
    (gv : Nat → Nat → Nat → Fresh V) (ga : Nat → Nat → Nat → Fresh Bool)
    (d : V) (A : Nat → Bool) (ops : List (VOp V)) (hops : ∀ op ∈ ops, op.Valid n) :
    ∃ G0 G, VGraph.create n nrank threads gv0 ga0 (fun _ => d) = some G0 ∧
      G0.runOps gv ga 0 ops = some G ∧
      ∃ es : Nat → List (Edge V), (∀ r, r < nrank → G.getVertexEdgelist r = some (es r)) ∧
        ((List.range nrank).flatMap es).Perm ((List.range n).map
          (fun j => ⟨((j + 1 : Nat) : Int), 1, (VSpec.run ⟨fun _ => d, A⟩ ops).prop (j + 1)⟩)) := by
  obtain ⟨G0, a1, a2, a3, _⟩ := VGraph.create_spec c gv0 ga0 (fun _ => d)
  obtain ⟨G, b1, b2, b3, _⟩ := VGraph.runOps_spec c gv ga ops 0 G0 ⟨fun _ => d, A⟩ a2 hops a3
  refine ⟨G0, G, a1, b1, ?_⟩
  generalize (VSpec.run ⟨fun _ => d, A⟩ ops).prop = P at b3
  have hnp := c.nppos
  have hsem : ∀ w, 1 ≤ w → w ≤ n → G.vp.sem n nrank nrank w = some (P (n2v (threads * 16 * nrank) n w)) := by
    intro w h1 h2
    have hr := n2v_range (np := threads * 16 * nrank) (n := n) h1 h2
    have := b3 _ hr.1 hr.2
    unfold userSem at this
    rw [v2n_n2v hnp h1] at this
    exact this
  let F : Nat → Edge V := fun j =>
    ⟨((n2v (threads * 16 * nrank) n (j + 1) : Nat) : Int), 1, P (n2v (threads * 16 * nrank) n (j + 1))⟩
  refine ⟨fun r => (List.range n).flatMap (fun j =>
    if ownerOf n nrank nrank (j + 1) = r then [F j] else []), ?_, ?_⟩
  · intro r hr
    unfold VGraph.getVertexEdgelist
    rw [Arr.read_some (by rw [b2.vp.size]; exact hr)]
    simp only [Option.bind_eq_bind, Option.bind_some]
    rw [DVec.getEdges_spec b2.vp c.rpos b2.vpReady hr]
    simp only [Option.bind_some, DVec.items]
    have key : ∀ l : List Nat, (∀ j ∈ l, j < n) →
        (l.flatMap (fun j => if ownerOf n nrank nrank (j + 1) = r then
          ((G.vp.sem n nrank nrank (j + 1)).map
            (fun v => (⟨((j + 1 : Nat) : Int), 1, v⟩ : Edge V))).toList else [])).mapM
          (fun e => (nativeToVertex G.threads G.nrank G.n e.src).bind
            fun src => some { e with src := src }) =
        some (l.flatMap (fun j => if ownerOf n nrank nrank (j + 1) = r then [F j] else [])) := by
      intro l
      induction l with
      | nil => intro _; rfl
      | cons j l ih =>
        intro hl
        have ih := ih (fun i hi => hl i (List.mem_cons_of_mem _ hi))
        have hj := hl j List.mem_cons_self
        rw [List.flatMap_cons, List.flatMap_cons]
        by_cases e : ownerOf n nrank nrank (j + 1) = r
        · rw [if_pos e, if_pos e, hsem (j + 1) (by omega) (by omega)]
          simp only [Option.map_some, Option.toList_some, List.singleton_append, List.mapM_cons]
          rw [ih, b2.ht, b2.hr, b2.hn,
            nativeToVertex_eq c.tpos c.rpos c.np c.n (by omega) (by omega)]
          rfl
        · rw [if_neg e, if_neg e, List.nil_append, List.nil_append, ih]
    exact key (List.range n) (fun j hj => List.mem_range.mp hj)
  · refine (perm_by_owner (nrank := nrank) (List.range n)
      (fun j => ownerOf n nrank nrank (j + 1)) (fun j => [F j]) ?_).trans ?_
    · intro j hj
      have := List.mem_range.mp hj
      exact ownerOf_lt c.rpos c.rpos (by omega) (by omega)
    · have e1 : (List.range n).flatMap (fun j => [F j]) =
          ((List.range n).map (fun j => n2v (threads * 16 * nrank) n (j + 1))).map
            (fun v : Nat => (⟨(v : Int), 1, P v⟩ : Edge V)) := by
        rw [List.map_map]
        have : ∀ (l : List Nat) (f : Nat → Edge V), l.flatMap (fun j => [f j]) = l.map f := by
          intro l f
          induction l with
          | nil => rfl
          | cons a l ih => rw [List.flatMap_cons, ih]; rfl
        rw [this]; rfl
      have e2 : (List.range n).map (fun j => (⟨((j + 1 : Nat) : Int), 1, P (j + 1)⟩ : Edge V)) =
          ((List.range n).map (· + 1)).map (fun v : Nat => (⟨(v : Int), 1, P v⟩ : Edge V)) := by
        rw [List.map_map]; rfl
      rw [e1, e2]
      exact (perm_native hnp).map _

/-- The hypotheses of `vertex_lists_are_complete` are met by a history on 3 ranks. -/
example : Cfg 1000 3 4 ∧ ∀ op ∈ ([.setProp 1000 1, .reset 2, .setProp 1 7] : List (VOp Nat)),
    op.Valid 1000 := by
  refine ⟨⟨by decide, by decide, by decide, by decide⟩, ?_⟩
  intro op h
  simp at h
  rcases h with rfl | rfl | rfl <;> simp [VOp.Valid]

/-! ## C23 -/

/-- C23: `applyToAllVertices(f)` on any graph state replaces every vertex's value `x` by `f x x`
(`f(x, &x)`), once, and leaves the activity vector alone. -/
theorem applyToAllVertices_once {n nrank threads : Nat} (c : Cfg n nrank threads)
    (gv0 : Nat → Nat → Fresh V) (ga0 : Nat → Nat → Fresh Bool)
    (gv : Nat → Nat → Nat → Fresh V) (ga : Nat → Nat → Nat → Fresh Bool)
    (d : V) (ops : List (VOp V)) (hops : ∀ op ∈ ops, op.Valid n)
    (g : Nat → Nat → Fresh V) (f : V → V → V) :
    ∃ G0 G G', VGraph.create n nrank threads gv0 ga0 (fun _ => d) = some G0 ∧
      G0.runOps gv ga 0 ops = some G ∧ G.applyToAllVertices g f = some G' ∧
      G'.active = G.active ∧
      ∀ v, 1 ≤ v → v ≤ n → ∀ r, r < nrank → ∀ y, G.getVertexproperty r v = some y →
        G'.getVertexproperty r v = some (y.map (fun x => f x x)) := by
  obtain ⟨G0, a1, a2, a3, _⟩ := VGraph.create_spec c gv0 ga0 (fun _ => d)
  obtain ⟨G, b1, b2, b3, _⟩ :=
    VGraph.runOps_spec c gv ga ops 0 G0 ⟨fun _ => d, fun _ => false⟩ a2 hops a3
  obtain ⟨G', e1, e2, e3, e4⟩ := VGraph.applyToAllVertices_spec c b2 g f
  refine ⟨G0, G, G', a1, b1, e1, e3, ?_⟩
  intro v h1 h2 r hr y hy
  have hb := b3 v h1 h2
  have he := e4 v h1 h2
  rw [hb] at he
  rw [VGraph.getVertexproperty_eq c b2 h1 h2 hr hb] at hy
  rw [VGraph.getVertexproperty_eq c e2 h1 h2 hr he]
  injection hy with hy
  subst hy
  split <;> rfl

example : Cfg 70 2 1 := ⟨by decide, by decide, by decide, by decide⟩

/-! ## C04 and C21 -/

/-- Message generation on any state satisfying the invariant. -/
theorem VGraph.generate_spec {n nrank threads : Nat} (c : Cfg n nrank threads) {G : VGraph V}
    (hG : G.Inv n nrank threads) (gp : GProg T U V E) (g : Nat → Nat → Fresh T) {x : DVec T}
    (hx : x.WF n nrank nrank) :
    ∃ x', G.generate gp g x = some x' ∧ DVec.WF n nrank nrank x' ∧ DVec.Ready nrank nrank x' ∧
      ∃ stale : Nat → T, ∀ v,
        userSem n nrank threads x' v =
          match userSem n nrank threads G.active v, userSem n nrank threads G.vp v with
          | some a, some p => some (sendWrapper gp a p (stale v))
          | _, _ => none := by
  unfold VGraph.generate
  obtain ⟨x1, a1, a2, _⟩ := DVec.clear_spec hx c.rpos
  rw [a1]
  simp only [Option.bind_eq_bind, Option.bind_some]
  obtain ⟨x2, b1, b2, b3, st, b4⟩ := DVec.intersectReduce_spec hG.act hG.vp a2 c.rpos hG.actReady
    hG.vpReady g (sendWrapper gp)
  exact ⟨x2, b1, b2, b3, fun v => st (v2n (threads * 16 * nrank) n v),
    fun v => by
      unfold userSem; rw [b4]
      cases DVec.sem n nrank nrank G.active (v2n (threads * 16 * nrank) n v) <;>
        cases DVec.sem n nrank nrank G.vp (v2n (threads * 16 * nrank) n v) <;> rfl⟩

/-- C04: load a graph, make any sequence of calls that at some point fixes the activity of all
vertices (`setAllActive`, `setAllInactive` or `reset`), then start a superstep.  The messages
generated are exactly those of the active vertices of the specification, each computed by the
user's `send_message` from the vertex's current property. -/
theorem messages_come_from_active_set {n nrank threads : Nat} (c : Cfg n nrank threads)
    (gv0 : Nat → Nat → Fresh V) (ga0 : Nat → Nat → Fresh Bool)
    (gv : Nat → Nat → Nat → Fresh V) (ga : Nat → Nat → Nat → Fresh Bool)
    (d : V) (A : Nat → Bool) (ops : List (VOp V)) (hops : ∀ op ∈ ops, op.Valid n)
    (hfix : ∃ op ∈ ops, op.FixesActivity)
    (gp : GProg T U V E) (g : Nat → Nat → Fresh T) (x : DVec T) (hx : x.WF n nrank nrank) :
    ∃ G0 G x', VGraph.create n nrank threads gv0 ga0 (fun _ => d) = some G0 ∧
      G0.runOps gv ga 0 ops = some G ∧ G.generate gp g x = some x' ∧
      ∃ stale : Nat → T, ∀ v, 1 ≤ v → v ≤ n →
        userSem n nrank threads x' v =
          if (VSpec.run ⟨fun _ => d, A⟩ ops).active v then
            some (gp.send ((VSpec.run ⟨fun _ => d, A⟩ ops).prop v) (stale v)).2
          else none := by
  obtain ⟨G0, a1, a2, a3, _⟩ := VGraph.create_spec c gv0 ga0 (fun _ => d)
  obtain ⟨G, b1, b2, b3, b4⟩ := VGraph.runOps_spec c gv ga ops 0 G0 ⟨fun _ => d, A⟩ a2 hops a3
  obtain ⟨x', e1, _, _, st, e2⟩ := VGraph.generate_spec c b2 gp g hx
  refine ⟨G0, G, x', a1, b1, e1, st, ?_⟩
  intro v h1 h2
  rw [e2 v, b3 v h1 h2, b4 (Or.inl hfix) v h1 h2]
  by_cases h : (VSpec.run ⟨fun _ => d, A⟩ ops).active v = true
  · simp [h, sendWrapper]
  · simp [h]

/-- A history that meets the hypotheses and leaves vertex 5 active and vertex 6 inactive. -/
example : (∀ op ∈ ([.setAllInactive, .setActive 5, .setActive 6, .setInactive 6] :
      List (VOp Nat)), op.Valid 100) ∧
    (∃ op ∈ ([.setAllInactive, .setActive 5, .setActive 6, .setInactive 6] : List (VOp Nat)),
      op.FixesActivity) ∧
    (VSpec.run ⟨fun _ => 0, fun _ => true⟩ ([.setAllInactive, .setActive 5, .setActive 6,
      .setInactive 6] : List (VOp Nat))).active 5 = true ∧
    (VSpec.run ⟨fun _ => 0, fun _ => true⟩ ([.setAllInactive, .setActive 5, .setActive 6,
      .setInactive 6] : List (VOp Nat))).active 6 = false := by
  refine ⟨?_, ⟨.setAllInactive, by simp, trivial⟩, by decide, by decide⟩
  intro op h
  simp at h
  rcases h with rfl | rfl | rfl | rfl <;> simp [VOp.Valid]

/-- C04: the number of active vertices (`active->getNNZ()`) after such a history is the number of
ids the specification marks active. -/
theorem active_count {n nrank threads : Nat} (c : Cfg n nrank threads)
    (gv0 : Nat → Nat → Fresh V) (ga0 : Nat → Nat → Fresh Bool)
    (gv : Nat → Nat → Nat → Fresh V) (ga : Nat → Nat → Nat → Fresh Bool)
    (d : V) (A : Nat → Bool) (ops : List (VOp V)) (hops : ∀ op ∈ ops, op.Valid n)
    (hfix : ∃ op ∈ ops, op.FixesActivity) :
    ∃ G0 G, VGraph.create n nrank threads gv0 ga0 (fun _ => d) = some G0 ∧
      G0.runOps gv ga 0 ops = some G ∧
      G.active.getNNZ = some ((List.range n).countP
        (fun j => (VSpec.run ⟨fun _ => d, A⟩ ops).active (j + 1))) := by
  obtain ⟨G0, a1, a2, a3, _⟩ := VGraph.create_spec c gv0 ga0 (fun _ => d)
  obtain ⟨G, b1, b2, b3, b4⟩ := VGraph.runOps_spec c gv ga ops 0 G0 ⟨fun _ => d, A⟩ a2 hops a3
  refine ⟨G0, G, a1, b1, ?_⟩
  have hA := b4 (Or.inl hfix)
  generalize (VSpec.run ⟨fun _ => d, A⟩ ops).active = S at hA
  rw [DVec.getNNZ_spec b2.act c.rpos c.rpos]
  congr 1
  have hnp := c.nppos
  have e1 : (List.range n).countP (fun j => (DVec.sem n nrank nrank G.active (j + 1)).isSome) =
      ((List.range n).map (fun j => n2v (threads * 16 * nrank) n (j + 1))).countP S := by
    rw [List.countP_map]
    apply List.countP_congr
    intro j hj
    have hj := List.mem_range.mp hj
    have hr := n2v_range (np := threads * 16 * nrank) (n := n) (v := j + 1) (by omega) (by omega)
    have := hA _ hr.1 hr.2
    unfold userSem at this
    rw [v2n_n2v hnp (by omega)] at this
    rw [this]
    simp only [Function.comp]
    cases S (n2v (threads * 16 * nrank) n (j + 1)) <;> simp
  rw [e1, (perm_native hnp).countP_eq, List.countP_map]
  rfl

example : (List.range 100).countP (fun j => (VSpec.run ⟨fun _ => 0, fun _ => true⟩
    ([.setAllInactive, .setActive 5, .setActive 6, .setInactive 6] : List (VOp Nat))).active (j + 1))
    = 1 := by decide

/-- C21 is false of the code: in a freshly loaded graph in which the user has activated only vertex
`u`, the first superstep has a message from EVERY vertex; for `v ≠ u` it is whatever the message
memory contained (`send_message` was never called for it). -/
theorem fresh_graph_everyone_sends {n nrank threads : Nat} (c : Cfg n nrank threads)
    (gv0 : Nat → Nat → Fresh V) (ga0 : Nat → Nat → Fresh Bool) (g1 : Nat → Fresh Bool)
    (d : V) (u : Nat) (hu1 : 1 ≤ u) (hu2 : u ≤ n)
    (gp : GProg T U V E) (g : Nat → Nat → Fresh T) (x : DVec T) (hx : x.WF n nrank nrank) :
    ∃ G0 G x', VGraph.create n nrank threads gv0 ga0 (fun _ => d) = some G0 ∧
      G0.setActive g1 u = some G ∧ G.generate gp g x = some x' ∧
      ∃ stale : Nat → T, ∀ v, 1 ≤ v → v ≤ n →
        userSem n nrank threads x' v =
          some (if v = u then (gp.send d (stale v)).2 else stale v) := by
  obtain ⟨G0, a1, a2, a3, a4⟩ := VGraph.create_spec c gv0 ga0 (fun _ => d)
  obtain ⟨G, b1, b2, b3, b4⟩ := VGraph.setActive_spec c a2 g1 hu1 hu2
  obtain ⟨x', e1, _, _, st, e2⟩ := VGraph.generate_spec c b2 gp g hx
  refine ⟨G0, G, x', a1, b1, e1, st, ?_⟩
  intro v h1 h2
  rw [e2 v, b4 v h1 h2, b3, a3 v h1 h2, a4 v h1 h2]
  by_cases h : v = u
  · simp [h, sendWrapper]
  · simp [h, sendWrapper]

/-- What does hold (the advised use): if `setAllInactive` is called before, only `u` sends. -/
theorem fresh_graph_partial {n nrank threads : Nat} (c : Cfg n nrank threads)
    (gv0 : Nat → Nat → Fresh V) (ga0 : Nat → Nat → Fresh Bool)
    (gv : Nat → Nat → Nat → Fresh V) (ga : Nat → Nat → Nat → Fresh Bool)
    (d : V) (u : Nat) (hu1 : 1 ≤ u) (hu2 : u ≤ n)
    (gp : GProg T U V E) (g : Nat → Nat → Fresh T) (x : DVec T) (hx : x.WF n nrank nrank) :
    ∃ G0 G x', VGraph.create n nrank threads gv0 ga0 (fun _ => d) = some G0 ∧
      G0.runOps gv ga 0 [.setAllInactive, .setActive u] = some G ∧ G.generate gp g x = some x' ∧
      ∀ v, 1 ≤ v → v ≤ n → ((userSem n nrank threads x' v).isSome ↔ v = u) := by
  obtain ⟨G0, G, x', h1, h2, h3, st, h4⟩ := messages_come_from_active_set c gv0 ga0 gv ga d
    (fun _ => false) [.setAllInactive, .setActive u] (by
      intro op h
      simp at h
      rcases h with rfl | rfl
      · trivial
      · exact ⟨hu1, hu2⟩) ⟨.setAllInactive, by simp, trivial⟩ gp g x hx
  refine ⟨G0, G, x', h1, h2, h3, ?_⟩
  intro v hv1 hv2
  rw [h4 v hv1 hv2]
  simp only [VSpec.run, List.foldl, VSpec.step]
  by_cases e : v = u <;> simp [e]

/-- The hypothesis on `x` is met by a freshly constructed message vector. -/
example : ∃ x : DVec Nat, DVec.new 300 2 2 = some x ∧ x.WF 300 2 2 := by
  obtain ⟨x, h1, h2, _⟩ := DVec.new_spec (α := Nat) 300 2 2 (by decide)
  exact ⟨x, h1, h2⟩

/-! ## C05 -/

theorem VecOp.exec_spec {n nseg nrank : Nat} (hs : 0 < nseg) (hr : 0 < nrank)
    (g : Nat → Nat → Fresh α) (op : VecOp α) (hop : op.Valid n) {d : DVec α}
    (hd : d.WF n nseg nrank) {m : Nat → Option α}
    (hm : ∀ w, 1 ≤ w → w ≤ n → d.sem n nseg nrank w = m w) :
    ∃ d', op.exec g d = some d' ∧ DVec.WF n nseg nrank d' ∧
      ∀ w, 1 ≤ w → w ≤ n → DVec.sem n nseg nrank d' w = op.spec m w := by
  cases op with
  | set w x =>
    obtain ⟨d', a1, a2, _, a4⟩ := DVec.set_spec hd hs hr (fun r => g r 0) hop.1 hop.2 x
    refine ⟨d', a1, a2, ?_⟩
    intro u h1 h2; rw [a4 u h1 h2, hm u h1 h2]; rfl
  | unset w =>
    obtain ⟨d', a1, a2, _, a4⟩ := DVec.unset_spec hd hs hr (fun r => g r 0) hop.1 hop.2
    refine ⟨d', a1, a2, ?_⟩
    intro u h1 h2; rw [a4 u h1 h2, hm u h1 h2]; rfl
  | setAll x =>
    obtain ⟨d', a1, a2, _, a4⟩ := DVec.setAll_spec hd hr g (fun _ => x)
    refine ⟨d', a1, a2, ?_⟩
    intro u h1 h2
    obtain ⟨_, _, h⟩ := DVec.sem_const (x := fun _ => x) hs a4 h1 h2
    exact h
  | clear =>
    obtain ⟨d', a1, a2, a3⟩ := DVec.clear_spec hd hr
    refine ⟨d', a1, a2, ?_⟩
    intro u h1 h2
    obtain ⟨p, hp, hlt, _⟩ := locate hs h1 h2
    rw [DVec.sem_of hp, a3 p hlt]; rfl

/-- C05: after any history of `set`/`unset`/`setAll`/`Clear` on a new distributed vector (any number
of segments and ranks) `getNNZ()` returns the number of indices the specification map defines. -/
theorem getNNZ_exact {n nseg nrank : Nat} (hs : 0 < nseg) (hr : 0 < nrank)
    (g : Nat → Nat → Nat → Fresh α) (ops : List (VecOp α)) (hops : ∀ op ∈ ops, op.Valid n) :
    ∃ d0 d, DVec.new n nseg nrank = some d0 ∧
      (ops.zipIdx).foldlM (fun d (op : VecOp α × Nat) => op.1.exec (g op.2) d) d0 = some d ∧
      d.getNNZ = some ((List.range n).countP
        (fun j => (ops.foldl (fun m op => op.spec m) (fun _ => none) (j + 1)).isSome)) := by
  obtain ⟨d0, a1, a2, a3⟩ := DVec.new_spec (α := α) n nseg nrank hs
  have h0 : ∀ w, 1 ≤ w → w ≤ n → d0.sem n nseg nrank w = (fun _ => none : Nat → Option α) w := by
    intro w h1 h2
    obtain ⟨p, hp, hlt, _⟩ := locate hs h1 h2
    rw [DVec.sem_of hp]
    unfold DVec.own
    rw [a3 _ _ (Nat.mod_lt _ hr) hlt, Segment.new_view]
  have key : ∀ (ops : List (VecOp α)), (∀ op ∈ ops, op.Valid n) → ∀ (k : Nat) (d : DVec α)
      (m : Nat → Option α), DVec.WF n nseg nrank d →
      (∀ w, 1 ≤ w → w ≤ n → DVec.sem n nseg nrank d w = m w) →
      ∃ d', (ops.zipIdx k).foldlM (fun d (op : VecOp α × Nat) => op.1.exec (g op.2) d) d = some d' ∧
        DVec.WF n nseg nrank d' ∧
        ∀ w, 1 ≤ w → w ≤ n →
          DVec.sem n nseg nrank d' w = ops.foldl (fun m op => op.spec m) m w := by
    intro ops
    induction ops with
    | nil => intro _ k d m hd hm; exact ⟨d, rfl, hd, hm⟩
    | cons op ops ih =>
      intro hv k d m hd hm
      obtain ⟨d1, b1, b2, b3⟩ := VecOp.exec_spec hs hr (g k) op (hv op List.mem_cons_self) hd hm
      obtain ⟨d2, e1, e2, e3⟩ := ih (fun o ho => hv o (List.mem_cons_of_mem _ ho)) (k + 1) d1 _ b2 b3
      refine ⟨d2, ?_, e2, e3⟩
      rw [List.zipIdx_cons, List.foldlM_cons, b1]
      exact e1
  obtain ⟨d, b1, b2, b3⟩ := key ops hops 0 d0 _ a2 h0
  refine ⟨d0, d, a1, b1, ?_⟩
  rw [DVec.getNNZ_spec b2 hs hr]
  congr 1
  apply List.countP_congr
  intro j hj
  have := List.mem_range.mp hj
  rw [b3 (j + 1) (by omega) (by omega)]

example : (∀ op ∈ ([.setAll 1, .unset 33, .set 33 2, .unset 70] : List (VecOp Nat)), op.Valid 70) ∧
    (List.range 70).countP (fun j => (([.setAll 1, .unset 33, .set 33 2, .unset 70] :
      List (VecOp Nat)).foldl (fun m op => op.spec m) (fun _ => none) (j + 1)).isSome) = 69 := by
  refine ⟨?_, by decide⟩
  intro op h
  simp at h
  rcases h with rfl | rfl | rfl | rfl <;> simp [VecOp.Valid]

/-! ## C45 -/

/-- C45 is false of the code: with 100 vertices on one rank and 8 threads (128 blocks > 100
vertices), writing to vertex 0 changes vertex 1: both have the same internal id. -/
theorem out_of_range_id_aliases :
    vertexToNative 8 1 100 0 = some 1 ∧ vertexToNative 8 1 100 1 = some 1 := by decide

/-- The aliasing at the level of the user's call: on any state of a graph with fewer vertices than
blocks, `setVertexproperty(0, x)` succeeds and changes the property of vertex 1. -/
theorem set_vertex_zero_changes_vertex_one {n nrank threads : Nat} (c : Cfg n nrank threads)
    (hn : 1 ≤ n) (hsmall : n < threads * 16 * nrank) {G : VGraph V} (hG : G.Inv n nrank threads)
    (g : Nat → Fresh V) (x : V) :
    ∃ G', G.setVertexproperty g 0 x = some G' ∧ userSem n nrank threads G'.vp 1 = some x := by
  obtain ⟨G', h1, _, _, h4⟩ := VGraph.setVertexproperty_spec c hG g (u := 1) (by omega) hn x
  refine ⟨G', ?_, by rw [h4 1 (by omega) hn, if_pos rfl]⟩
  rw [← h1]
  have e0 : G.native 0 = some 1 := by
    unfold VGraph.native
    rw [hG.hn, hG.hr, hG.ht]; exact vertexToNative_zero c.tpos c.rpos c.np c.n hsmall
  have e1 : G.native ((1 : Nat) : Int) = some 1 := by
    rw [VGraph.native_eq c hG (by omega) hn]
    unfold v2n
    rw [if_pos (by rw [Nat.div_eq_of_lt hsmall]; omega)]; rfl
  unfold VGraph.setVertexproperty
  rw [e0, e1]

example : Cfg 100 1 8 ∧ 1 ≤ 100 ∧ 100 < 8 * 16 * 1 :=
  ⟨⟨by decide, by decide, by decide, by decide⟩, by decide, by decide⟩

theorem set_native_refused {n nrank threads : Nat} (c : Cfg n nrank threads)
    {G : VGraph V} (hG : G.Inv n nrank threads) (g : Nat → Fresh V) (w : Int)
    (hw : w ≤ 0 ∨ (n : Int) < w) (x : V) :
    eachRank G.vp (fun r y => y.set (g r) w x) = none := by
  unfold eachRank
  have hsz : 0 < G.vp.size := by rw [hG.vp.size]; exact c.rpos
  rw [forLoop_succ_left hsz, Arr.read_some hsz]
  simp only [Option.bind_some]
  have : (G.vp.get 0).set (g 0) w x = none := by
    have hw' := hG.vp.rank 0 c.rpos
    unfold SpVec.set
    rw [hw'.hn, hw'.hseg]
    cases hp : getPartition n nrank w with
    | none => rfl
    | some p =>
      have h := getPartition_some hp
      have := bnd_le (n := n) (nseg := nrank) (i := p + 1)
      omega
  rw [this]; rfl

/-- What does hold of C45: ids above `n` are always refused, and if there are at least as many
vertices as blocks (`threads * 16 * nrank ≤ n`) every id outside `1..n` is refused (assertion
failure or integer overflow before anything is written). Missing: the case of small graphs, which is
refuted above. -/
theorem out_of_range_id_partial {n nrank threads : Nat} (c : Cfg n nrank threads)
    {G : VGraph V} (hG : G.Inv n nrank threads) (g : Nat → Fresh V) (v : Int)
    (hv : (n : Int) < v ∨ (v ≤ 0 ∧ threads * 16 * nrank ≤ n)) (x : V) :
    G.setVertexproperty g v x = none := by
  unfold VGraph.setVertexproperty
  have : G.native v = none ∨ ∃ w, G.native v = some w ∧ (w ≤ 0 ∨ (n : Int) < w) := by
    unfold VGraph.native
    rw [hG.hn, hG.hr, hG.ht]
    rcases hv with hv | ⟨hv, hbig⟩
    · exact vertexToNative_above c.tpos c.rpos c.np c.n hv
    · rcases vertexToNative_nonpos c.tpos c.rpos c.np c.n hbig hv with h | ⟨w, h1, h2⟩
      · exact Or.inl h
      · exact Or.inr ⟨w, h1, Or.inl h2⟩
  rcases this with h | ⟨w, h1, h2⟩
  · rw [h]; rfl
  · rw [h1]
    simp only [Option.bind_eq_bind, Option.bind_some]
    rw [set_native_refused c hG g w h2 x]; rfl

example : Cfg 1000 2 4 ∧ (1000 : Int) < 1001 ∧ (-5 : Int) ≤ 0 ∧ 4 * 16 * 2 ≤ 1000 :=
  ⟨⟨by decide, by decide, by decide, by decide⟩, by decide, by decide, by decide⟩

end GraphMat
