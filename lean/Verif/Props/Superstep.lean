import Verif.Lemmas.StepRel
import Verif.Spec.Samples
import Verif.Props.Vertex
import Verif.Props.Load

/-!
# One superstep

C09 (OUT_EDGES), C10 (IN_EDGES), C11 (ALL_EDGES), C13 (rank independence), C14 (receiver's property), C17
(activity afterwards), C18 (vertices without messages), C20 (refuted: `send_message` cannot veto).

All theorems start from a graph that `Represents` edges, properties and an active set in user ids;
`Graph.load_represents` shows that loading and any calls on vertices produce such graphs, and every
superstep leads to one again.  `represents_observed` says what the interface returns for them.
-/
namespace GraphMat

variable {S T U V E : Type}

/-- What the interface returns for a graph that represents `P`: each vertex has exactly one owner, which
returns `P v`; the other ranks return nothing. -/
theorem represents_observed {n nrank threads : Nat} (c : Cfg n nrank threads) {G : Graph V E} {es : List (Edge E)}
    {P : Nat → V} {A : Nat → Bool} (h : G.Represents n nrank threads es P A) (v : Nat) (h1 : 1 ≤ v) (h2 : v ≤ n) :
    ∃ o, o < nrank ∧ ∀ r, r < nrank → G.vertexNodeOwner r v = some (decide (r = o)) ∧
      G.getVertexproperty r v = some (if r = o then some (P v) else none) := by
  have hw := (c.native h1 h2).2
  refine ⟨ownerOf n nrank nrank (v2n (threads * 16 * nrank) n v), ownerOf_lt c.rpos c.rpos hw.1 hw.2, ?_⟩
  intro r hr
  refine ⟨?_, ?_⟩
  · rw [VGraph.vertexNodeOwner_eq c h.inv h1 h2 hr]
    congr 1; rw [Bool.eq_iff_iff, decide_eq_true_iff, decide_eq_true_iff]; exact eq_comm
  · rw [VGraph.getVertexproperty_eq c h.inv h1 h2 hr (h.props v h1 h2)]
    congr 1
    by_cases e : r = ownerOf n nrank nrank (v2n (threads * 16 * nrank) n v)
    · rw [if_pos e, if_pos e.symm]
    · rw [if_neg e, if_neg (fun h => e h.symm)]

/-- A superstep succeeds and does what the specification allows. -/
theorem superstep_refines {n nrank threads : Nat} (c : Cfg n nrank threads) (env : StepEnv T U V)
    {gp : GProg T U V E} {msg : V → T} {proc : T → E → V → U} (hp1 : gp.Eff env.m1 msg proc)
    (hp2 : gp.Eff env.m2 msg proc) (act : Bool) {G : Graph V E} {es : List (Edge E)} {P : Nat → V} {A : Nat → Bool}
    (hG : G.Represents n nrank threads es P A) {x : DVec T} {y : DVec U} (hs : Scratch n nrank x y) :
    ∃ G' x' y' conv P' A', G.superstep env gp act x y = some (G', x', y', conv) ∧
      G'.Represents n nrank threads es P' A' ∧ Scratch n nrank x' y' ∧
      StepRel gp msg proc act n es P A P' A' conv := by
  obtain ⟨TA, TT, PA, PT, hG⟩ := hG
  obtain ⟨G', x', y', conv, e1, e2, e3, e4, e5⟩ := Graph.superstep_spec c env hp1 hp2 act hG hs
  exact ⟨G', x', y', conv, _, _, e1, ⟨TA, TT, PA, PT, e3⟩, e2, _, e4, fun _ _ _ => rfl, fun _ _ _ => rfl, e5⟩

/-! ## C09, C10, C11 -/

/-- C09: in a superstep with OUT_EDGES vertex `d` receives something iff an active vertex has an edge to it;
what is applied to its property is a reduction of exactly one processed message per such edge. -/
theorem out_edges_superstep {n nrank threads : Nat} (c : Cfg n nrank threads) (env : StepEnv T U V)
    {gp : GProg T U V E} {msg : V → T} {proc : T → E → V → U} (hp : gp.Pure msg proc) (ho : gp.order = .out) (act : Bool)
    {G : Graph V E} {es : List (Edge E)} {P : Nat → V} {A : Nat → Bool}
    (hG : G.Represents n nrank threads es P A) {x : DVec T} {y : DVec U} (hs : Scratch n nrank x y) :
    ∃ G' x' y' conv P' A', ∃ res : Nat → Option U, G.superstep env gp act x y = some (G', x', y', conv) ∧
      G'.Represents n nrank threads es P' A' ∧ Scratch n nrank x' y' ∧
      ∀ d, 1 ≤ d → d ≤ n →
        ((∃ u, res d = some u) ↔ ∃ e ∈ es, e.dst = (d : Int) ∧ A e.src.toNat = true) ∧
        Reduces gp.reduce ((es.filter (fun e => decide (e.dst = (d : Int)) && A e.src.toNat)).map
          (fun e => proc (msg (P e.src.toNat)) e.val (P d))) (res d) ∧
        P' d = match res d with
          | some u => gp.apply u (P d)
          | none => P d := by
  obtain ⟨G', x', y', conv, P', A', e1, e2, e3, res, e4, e5, _⟩ := superstep_refines c env (hp.eff _) (hp.eff _) act hG hs
  refine ⟨G', x', y', conv, P', A', res, e1, e2, e3, ?_⟩
  intro d h1 h2
  have hr := e4 d h1 h2
  rw [ho] at hr
  refine ⟨?_, ?_, ?_⟩
  · have hni : res d = none ↔ outMsgs msg proc es P A d = [] := hr.none_iff
    rw [← outMsgs_ne_nil (msg := msg) (proc := proc) (P := P), Ne, ← hni]
    cases res d <;> simp
  · have : inbox EdgeDir.out msg proc es P A d = (es.filter (fun e => decide (e.dst = (d : Int)) && A e.src.toNat)).map
        (fun e => proc (msg (P e.src.toNat)) e.val (P d)) := by
      show outMsgs msg proc es P A d = _
      unfold outMsgs
      rw [← List.filterMap_eq_map, List.filterMap_filter]
      apply List.filterMap_congr
      intro e _
      by_cases hc : e.dst = (d : Int) ∧ A e.src.toNat = true
      · rw [if_pos hc, if_pos (by simp [hc.1, hc.2])]; rfl
      · rw [if_neg hc, if_neg (by simpa using hc)]
    rw [this] at hr; exact hr
  · rw [e5 d h1 h2]
    cases res d <;> rfl

/-- C10: the same with IN_EDGES: vertex `d` receives along its out-edges, from their destinations. -/
theorem in_edges_superstep {n nrank threads : Nat} (c : Cfg n nrank threads) (env : StepEnv T U V)
    {gp : GProg T U V E} {msg : V → T} {proc : T → E → V → U} (hp : gp.Pure msg proc) (ho : gp.order = .inn) (act : Bool)
    {G : Graph V E} {es : List (Edge E)} {P : Nat → V} {A : Nat → Bool}
    (hG : G.Represents n nrank threads es P A) {x : DVec T} {y : DVec U} (hs : Scratch n nrank x y) :
    ∃ G' x' y' conv P' A', ∃ res : Nat → Option U, G.superstep env gp act x y = some (G', x', y', conv) ∧
      G'.Represents n nrank threads es P' A' ∧ Scratch n nrank x' y' ∧
      ∀ d, 1 ≤ d → d ≤ n →
        ((∃ u, res d = some u) ↔ ∃ e ∈ es, e.src = (d : Int) ∧ A e.dst.toNat = true) ∧
        Reduces gp.reduce ((es.filter (fun e => decide (e.src = (d : Int)) && A e.dst.toNat)).map
          (fun e => proc (msg (P e.dst.toNat)) e.val (P d))) (res d) ∧
        P' d = match res d with
          | some u => gp.apply u (P d)
          | none => P d := by
  obtain ⟨G', x', y', conv, P', A', e1, e2, e3, res, e4, e5, _⟩ := superstep_refines c env (hp.eff _) (hp.eff _) act hG hs
  refine ⟨G', x', y', conv, P', A', res, e1, e2, e3, ?_⟩
  intro d h1 h2
  have hr := e4 d h1 h2
  rw [ho] at hr
  refine ⟨?_, ?_, ?_⟩
  · have hni : res d = none ↔ inMsgs msg proc es P A d = [] := hr.none_iff
    rw [← inMsgs_ne_nil (msg := msg) (proc := proc) (P := P), Ne, ← hni]
    cases res d <;> simp
  · have : inbox EdgeDir.inn msg proc es P A d = (es.filter (fun e => decide (e.src = (d : Int)) && A e.dst.toNat)).map
        (fun e => proc (msg (P e.dst.toNat)) e.val (P d)) := by
      show inMsgs msg proc es P A d = _
      unfold inMsgs
      rw [← List.filterMap_eq_map, List.filterMap_filter]
      apply List.filterMap_congr
      intro e _
      by_cases hc : e.src = (d : Int) ∧ A e.dst.toNat = true
      · rw [if_pos hc, if_pos (by simp [hc.1, hc.2])]; rfl
      · rw [if_neg hc, if_neg (by simpa using hc)]
    rw [this] at hr; exact hr
  · rw [e5 d h1 h2]
    cases res d <;> rfl

/-- C11: with ALL_EDGES vertex `d` receives iff it is adjacent to an active vertex in either direction, and
what is applied is a reduction of one processed message per incident edge and direction (a self loop of an
active vertex counts twice). -/
theorem all_edges_superstep {n nrank threads : Nat} (c : Cfg n nrank threads) (env : StepEnv T U V)
    {gp : GProg T U V E} {msg : V → T} {proc : T → E → V → U} (hp : gp.Pure msg proc) (ho : gp.order = .all) (act : Bool)
    {G : Graph V E} {es : List (Edge E)} {P : Nat → V} {A : Nat → Bool}
    (hG : G.Represents n nrank threads es P A) {x : DVec T} {y : DVec U} (hs : Scratch n nrank x y) :
    ∃ G' x' y' conv P' A', ∃ res : Nat → Option U, G.superstep env gp act x y = some (G', x', y', conv) ∧
      G'.Represents n nrank threads es P' A' ∧ Scratch n nrank x' y' ∧
      ∀ d, 1 ≤ d → d ≤ n →
        ((∃ u, res d = some u) ↔ ∃ e ∈ es, (e.dst = (d : Int) ∧ A e.src.toNat = true) ∨
          (e.src = (d : Int) ∧ A e.dst.toNat = true)) ∧
        Reduces gp.reduce (outMsgs msg proc es P A d ++ inMsgs msg proc es P A d) (res d) ∧
        P' d = match res d with
          | some u => gp.apply u (P d)
          | none => P d := by
  obtain ⟨G', x', y', conv, P', A', e1, e2, e3, res, e4, e5, _⟩ := superstep_refines c env (hp.eff _) (hp.eff _) act hG hs
  refine ⟨G', x', y', conv, P', A', res, e1, e2, e3, ?_⟩
  intro d h1 h2
  have hr := e4 d h1 h2
  rw [ho] at hr
  refine ⟨?_, hr, ?_⟩
  · have h0 : (∃ u, res d = some u) ↔ ¬ res d = none := by cases res d <;> simp
    have hni : res d = none ↔ outMsgs msg proc es P A d ++ inMsgs msg proc es P A d = [] := hr.none_iff
    rw [h0, hni, List.append_eq_nil_iff]
    have h3 := outMsgs_ne_nil (msg := msg) (proc := proc) (es := es) (P := P) (A := A) (d := d)
    have h4 := inMsgs_ne_nil (msg := msg) (proc := proc) (es := es) (P := P) (A := A) (d := d)
    constructor
    · intro h
      by_cases h5 : outMsgs msg proc es P A d = []
      · obtain ⟨e, he, hc⟩ := h4.mp (fun h6 => h ⟨h5, h6⟩)
        exact ⟨e, he, .inr hc⟩
      · obtain ⟨e, he, hc⟩ := h3.mp h5
        exact ⟨e, he, .inl hc⟩
    · rintro ⟨e, he, hc | hc⟩ ⟨h5, h6⟩
      · exact h3.mpr ⟨e, he, hc⟩ h5
      · exact h4.mpr ⟨e, he, hc⟩ h6
  · rw [e5 d h1 h2]
    cases res d <;> rfl

/-- The trace program meets the hypotheses on programs. -/
theorem traceProg_pure (dir : EdgeDir) (all : Bool) :
    (traceProg dir all true).Pure (fun p => p) (fun t e v => t ++ [e] ++ v) :=
  ⟨fun _ _ => rfl, fun _ _ _ _ => rfl, fun h => by cases h⟩

/-- Concrete runs of the model, one superstep on 4 vertices with edges 2→1, 3→1 (values 100, 200), 1→4
(300) and the self loop 4→4 (400); vertices 2, 3 and 4 are active.  The property of vertex 1 becomes the
list of what arrived there. -/
example : sampleRun (traceProg .out false true) 1 4 [⟨2, 1, 100⟩, ⟨3, 1, 200⟩, ⟨1, 4, 300⟩, ⟨4, 4, 400⟩] [2, 3, 4] 1 1 =
    some [some [2, 100, 1, 3, 200, 1], some [2], some [3], some [4, 400, 4]] := by decide +kernel

example : sampleRun (traceProg .inn false true) 1 4 [⟨2, 1, 100⟩, ⟨3, 1, 200⟩, ⟨1, 4, 300⟩, ⟨4, 4, 400⟩] [2, 3, 4] 1 1 =
    some [some [4, 300, 1], some [2], some [3], some [4, 400, 4]] := by decide +kernel

example : sampleRun (traceProg .all false true) 1 4 [⟨2, 1, 100⟩, ⟨3, 1, 200⟩, ⟨1, 4, 300⟩, ⟨4, 4, 400⟩] [2, 3, 4] 1 1 =
    some [some [2, 100, 1, 3, 200, 1, 4, 300, 1], some [2], some [3], some [4, 400, 4, 4, 400, 4]] := by decide +kernel

/-- Graphs and scratch vectors as in the hypotheses exist on two ranks as well: load three edges on 40
vertices, set one property and activate two vertices. -/
example : ∃ (G : Graph Nat Nat) (x : DVec Nat) (y : DVec Nat), Cfg 40 2 1 ∧
    G.Represents 40 2 1 [⟨2, 1, 5⟩, ⟨40, 2, 6⟩, ⟨1, 39, 9⟩] (fun v => if v = 2 then 7 else 3)
      (fun v => if v = 40 then true else if v = 2 then true else false) ∧ Scratch 40 2 x y := by
  have c : Cfg 40 2 1 := ⟨by decide, by decide, by decide, by decide⟩
  obtain ⟨out, G, vg, h1, h2, h3⟩ := Graph.load_represents c (LoadEnv.sample (V := Nat) (E := Nat) 0 0) Sorts.ins_ok
    Sorts.ins_ok (d := 0) rfl (blobs := [[⟨2, 1, 5⟩, ⟨40, 2, 6⟩], [⟨1, 39, 9⟩]]) rfl (by
      intro es hes e he
      simp at hes
      rcases hes with rfl | rfl <;> simp at he
      · rcases he with rfl | rfl <;> simp [Edge.Valid]
      · subst he; simp [Edge.Valid]) (fun _ _ _ => .sample 0) (fun _ _ _ => .sample true)
    (ops := [.setAllProp 3, .setProp 2 7, .setAllInactive, .setActive 2, .setActive 40]) (by
      intro op h
      simp at h
      rcases h with rfl | rfl | rfl | rfl | rfl <;> simp [VOp.Valid]) ⟨.setAllInactive, by simp, trivial⟩
    (fun _ => false)
  obtain ⟨x, y, _, h4⟩ := Graph.newScratch_spec (T := Nat) (U := Nat) c h3.inv (InitEnv.sample 0 0)
  exact ⟨_, x, y, c, h3, h4⟩

/-! ## C13 -/

/-- C13: let the same edges (in any order, divided in any way), properties and active set be held by two
graphs on different numbers of ranks and threads.  If the reduction is associative and commutative, a
superstep gives every vertex the same property and the same activity on both, and both agree whether
anything changed. -/
theorem superstep_same_on_all_configurations {n nrank threads nrank' threads' : Nat} (c : Cfg n nrank threads)
    (c' : Cfg n nrank' threads') (env env' : StepEnv T U V) {gp : GProg T U V E} {msg : V → T} {proc : T → E → V → U}
    (hp : gp.Pure msg proc) (hassoc : ∀ a b c, gp.reduce (gp.reduce a b) c = gp.reduce a (gp.reduce b c))
    (hcomm : ∀ a b, gp.reduce a b = gp.reduce b a) (act : Bool) {G H : Graph V E} {es es' : List (Edge E)}
    (hes : es.Perm es') {P : Nat → V} {A : Nat → Bool} (hG : G.Represents n nrank threads es P A)
    (hH : H.Represents n nrank' threads' es' P A) {x x' : DVec T} {y y' : DVec U} (hs : Scratch n nrank x y)
    (hs' : Scratch n nrank' x' y') :
    ∃ G1 H1 x1 y1 x1' y1' conv P' A' P'' A'', G.superstep env gp act x y = some (G1, x1, y1, conv) ∧
      H.superstep env' gp act x' y' = some (H1, x1', y1', conv) ∧
      G1.Represents n nrank threads es P' A' ∧ H1.Represents n nrank' threads' es' P'' A'' ∧
      ∀ v, 1 ≤ v → v ≤ n → P' v = P'' v ∧ A' v = A'' v := by
  obtain ⟨G1, x1, y1, c1, P', A', a1, a2, a3, a4⟩ := superstep_refines c env (hp.eff _) (hp.eff _) act hG hs
  obtain ⟨H1, x1', y1', c2, P'', A'', b1, b2, b3, b4⟩ := superstep_refines c' env' (hp.eff _) (hp.eff _) act hH hs'
  obtain ⟨d1, d2, d3⟩ := StepRel.unique hassoc hcomm hG.valid hes (fun _ _ _ => rfl) (fun _ _ _ => rfl) a4 b4
  subst d3
  exact ⟨G1, H1, x1, y1, x1', y1', c1, P', A', P'', A'', a1, b1, a2, b2, fun v h1 h2 => ⟨d1 v h1 h2, d2 v h1 h2⟩⟩

/-- Two configurations and an associative, commutative reduction. -/
example : Cfg 40 2 1 ∧ Cfg 40 5 3 ∧ (∀ a b c : Nat, min (min a b) c = min a (min b c)) ∧ ∀ a b : Nat, min a b = min b a :=
  ⟨⟨by decide, by decide, by decide, by decide⟩, ⟨by decide, by decide, by decide, by decide⟩, Nat.min_assoc, Nat.min_comm⟩

/-! ## C14 -/

/-- Reducing singletons by concatenation collects them all. -/
theorem Reduces.collect {β : Type} {l : List β} {r : Option (List β)}
    (h : Reduces (fun a b : List β => a ++ b) (l.map (fun x => [x])) r) : (r.getD []).Perm l := by
  have ht : ∀ t : RTree (List β), t.eval (fun a b => a ++ b) = t.leaves.flatten := by
    intro t
    induction t with
    | leaf u => simp [RTree.eval, RTree.leaves]
    | node a b ha hb => simp [RTree.eval, RTree.leaves, ha, hb]
  rcases h with ⟨h1, rfl⟩ | ⟨t, h1, rfl⟩
  · simp at h1; subst h1; exact .refl _
  · rw [Option.getD_some, ht]
    refine (h1.flatten).trans (.of_eq ?_)
    clear h1
    induction l with
    | nil => rfl
    | cons a l ih => simp [ih]

/-- C14: take any program that uses vertex properties and let its `process_message` only record its
arguments.  The calls recorded for vertex `d` in a superstep are, as a multiset, one per delivered
edge: the sender's message, the edge value and the property `d` had before the superstep. -/
theorem process_sees_receiver_property {n nrank threads : Nat} (c : Cfg n nrank threads)
    (env : StepEnv T (List (T × E × V)) V) {gp : GProg T (List (T × E × V)) V E} {msg : V → T}
    (hsend : ∀ p old, (gp.send p old).2 = msg p) (hneed : gp.needsProp = true)
    (hproc : ∀ t e v old, gp.process t e v old = [(t, e, v)]) (hred : gp.reduce = fun a b => a ++ b) (act : Bool)
    {G : Graph V E} {es : List (Edge E)} {P : Nat → V} {A : Nat → Bool}
    (hG : G.Represents n nrank threads es P A) {x : DVec T} {y : DVec (List (T × E × V))} (hs : Scratch n nrank x y) :
    ∃ G' x' y' conv P' A', ∃ calls : Nat → List (T × E × V), G.superstep env gp act x y = some (G', x', y', conv) ∧
      G'.Represents n nrank threads es P' A' ∧
      ∀ d, 1 ≤ d → d ≤ n →
        (calls d).Perm (inbox gp.order msg (fun t e v => (t, e, v)) es P A d) ∧
        (∀ k ∈ calls d, k.2.2 = P d) ∧
        P' d = if (calls d).isEmpty then P d else gp.apply (calls d) (P d) := by
  have hp : gp.Pure msg (fun t e v => [(t, e, v)]) := ⟨hsend, hproc, fun h => by rw [hneed] at h; cases h⟩
  obtain ⟨G', x', y', conv, P', A', e1, e2, e3, res, e4, e5, _⟩ := superstep_refines c env (hp.eff _) (hp.eff _) act hG hs
  have hout : ∀ d, outMsgs msg (fun t e v => [(t, e, v)]) es P A d =
      (outMsgs msg (fun t e v => (t, e, v)) es P A d).map (fun x => [x]) := by
    intro d
    unfold outMsgs
    rw [List.map_filterMap]
    apply List.filterMap_congr
    intro e _
    by_cases hc : e.dst = (d : Int) ∧ A e.src.toNat = true
    · rw [if_pos hc, if_pos hc]; rfl
    · rw [if_neg hc, if_neg hc]; rfl
  have hin : ∀ d, inMsgs msg (fun t e v => [(t, e, v)]) es P A d =
      (inMsgs msg (fun t e v => (t, e, v)) es P A d).map (fun x => [x]) := by
    intro d
    unfold inMsgs
    rw [List.map_filterMap]
    apply List.filterMap_congr
    intro e _
    by_cases hc : e.src = (d : Int) ∧ A e.dst.toNat = true
    · rw [if_pos hc, if_pos hc]; rfl
    · rw [if_neg hc, if_neg hc]; rfl
  have hinb : ∀ d, inbox gp.order msg (fun t e v => [(t, e, v)]) es P A d =
      (inbox gp.order msg (fun t e v => (t, e, v)) es P A d).map (fun x => [x]) := by
    intro d
    unfold inbox
    cases gp.order
    · exact hout d
    · exact hin d
    · simp only [hout, hin, List.map_append]
  have hmem : ∀ d, ∀ k ∈ inbox gp.order msg (fun t e v => (t, e, v)) es P A d, k.2.2 = P d := by
    intro d k hk
    have ho : ∀ k ∈ outMsgs msg (fun t e v => (t, e, v)) es P A d, k.2.2 = P d := by
      intro k hk
      unfold outMsgs at hk
      rw [List.mem_filterMap] at hk
      obtain ⟨e, _, he⟩ := hk
      split at he
      · injection he with he; rw [← he]
      · cases he
    have hi : ∀ k ∈ inMsgs msg (fun t e v => (t, e, v)) es P A d, k.2.2 = P d := by
      intro k hk
      unfold inMsgs at hk
      rw [List.mem_filterMap] at hk
      obtain ⟨e, _, he⟩ := hk
      split at he
      · injection he with he; rw [← he]
      · cases he
    unfold inbox at hk
    cases hdir : gp.order with
    | out => rw [hdir] at hk; exact ho k hk
    | inn => rw [hdir] at hk; exact hi k hk
    | all =>
      rw [hdir] at hk
      rcases List.mem_append.mp hk with h | h
      · exact ho k h
      · exact hi k h
  refine ⟨G', x', y', conv, P', A', fun d => (res d).getD [], e1, e2, ?_⟩
  intro d h1 h2
  have hr := e4 d h1 h2
  have hni := hr.none_iff
  rw [hinb, hred] at hr
  have hpm := hr.collect
  refine ⟨hpm, fun k hk => hmem d k (hpm.mem_iff.mp hk), ?_⟩
  rw [e5 d h1 h2]
  simp only
  cases hres : res d with
  | none => rfl
  | some u =>
    have hne : u ≠ [] := by
      intro h0
      rw [hres, h0, Option.getD_some] at hpm
      have h5 := hpm.symm.eq_nil
      rw [hinb, h5] at hni
      have := hni.mpr rfl
      rw [hres] at this
      cases this
    show gp.apply u (P d) = _
    rw [Option.getD_some]
    cases u with
    | nil => exact absurd rfl hne
    | cons a u => rfl

/-- C14: a program that declares that it does not need vertex properties gets an object of the library
instead; if that object always has the value `v0` (a default constructor), the superstep is the one in
which `process_message` is called with `v0`. -/
theorem process_without_property {n nrank threads : Nat} (c : Cfg n nrank threads)
    (env : StepEnv T U V) {gp : GProg T U V E} {msg : V → T} {f : T → E → V → U} {v0 : V}
    (hsend : ∀ p old, (gp.send p old).2 = msg p) (hneed : gp.needsProp = false)
    (hproc : ∀ t e v old, gp.process t e v old = f t e v) (hd1 : ∀ i j p nz, env.m1.dummy i j p nz = v0)
    (hd2 : ∀ i j p nz, env.m2.dummy i j p nz = v0) (act : Bool)
    {G : Graph V E} {es : List (Edge E)} {P : Nat → V} {A : Nat → Bool}
    (hG : G.Represents n nrank threads es P A) {x : DVec T} {y : DVec U} (hs : Scratch n nrank x y) :
    ∃ G' x' y' conv P' A', G.superstep env gp act x y = some (G', x', y', conv) ∧
      G'.Represents n nrank threads es P' A' ∧
      StepRel gp msg (fun t e _ => f t e v0) act n es P A P' A' conv := by
  have h1 : gp.Eff env.m1 msg (fun t e _ => f t e v0) :=
    ⟨hsend, fun h => (by rw [hneed] at h; cases h), fun _ i j p nz t e v old => by rw [hproc, hd1]⟩
  have h2 : gp.Eff env.m2 msg (fun t e _ => f t e v0) :=
    ⟨hsend, fun h => (by rw [hneed] at h; cases h), fun _ i j p nz t e v old => by rw [hproc, hd2]⟩
  obtain ⟨G', x', y', conv, P', A', e1, e2, e3, e4⟩ := superstep_refines c env h1 h2 act hG hs
  exact ⟨G', x', y', conv, P', A', e1, e2, e4⟩

/-- With and without the property: `[104]` is the library's object in the sample environment. -/
example : sampleRun (traceProg .out false false) 1 4 [⟨2, 1, 100⟩] [2] 1 1 =
    some [some [2, 100, 104], some [2], some [3], some [4]] := by decide +kernel

/-! ## C17, C18 -/

/-- C17: after a superstep of an ACTIVE_ONLY program the active vertices are exactly those whose property
changed; after one of an ALL_VERTICES program all vertices are active.  (`!=` is only required to be
irreflexive.) -/
theorem activity_after_superstep {n nrank threads : Nat} (c : Cfg n nrank threads) (env : StepEnv T U V)
    {gp : GProg T U V E} {msg : V → T} {proc : T → E → V → U} (hp : gp.Pure msg proc) (hne : ∀ a, gp.ne a a = false)
    {G : Graph V E} {es : List (Edge E)} {P : Nat → V} {A : Nat → Bool}
    (hG : G.Represents n nrank threads es P A) {x : DVec T} {y : DVec U} (hs : Scratch n nrank x y) :
    (∃ G' x' y' conv P' A', G.superstep env gp false x y = some (G', x', y', conv) ∧
      G'.Represents n nrank threads es P' A' ∧
      (∀ v, 1 ≤ v → v ≤ n → (A' v = true ↔ gp.ne (P v) (P' v) = true)) ∧
      (conv = true ↔ ∀ v, 1 ≤ v → v ≤ n → gp.ne (P v) (P' v) = false)) ∧
    (∃ G' x' y' conv P' A', G.superstep env gp true x y = some (G', x', y', conv) ∧
      G'.Represents n nrank threads es P' A' ∧ (∀ v, 1 ≤ v → v ≤ n → A' v = true) ∧
      (conv = true ↔ ∀ v, 1 ≤ v → v ≤ n → gp.ne (P v) (P' v) = false)) := by
  have key : ∀ (o : V) (r : Option U), gotChanged gp.apply gp.ne o r = gp.ne o (afterApply gp.apply o r) := by
    intro o r
    cases r with
    | none => exact (hne o).symm
    | some u => rfl
  refine ⟨?_, ?_⟩
  · obtain ⟨G', x', y', conv, P', A', e1, e2, e3, res, e4, e5, e6, e7⟩ := superstep_refines c env (hp.eff _) (hp.eff _) false hG hs
    refine ⟨G', x', y', conv, P', A', e1, e2, ?_, ?_⟩
    · intro v h1 h2
      rw [e6 v h1 h2, e5 v h1 h2, key, Bool.false_or]
    · rw [e7]
      constructor <;> intro h v h1 h2
      · rw [e5 v h1 h2, ← key]; exact h v h1 h2
      · rw [key, ← e5 v h1 h2]; exact h v h1 h2
  · obtain ⟨G', x', y', conv, P', A', e1, e2, e3, res, e4, e5, e6, e7⟩ := superstep_refines c env (hp.eff _) (hp.eff _) true hG hs
    refine ⟨G', x', y', conv, P', A', e1, e2, ?_, ?_⟩
    · intro v h1 h2
      rw [e6 v h1 h2, Bool.true_or]
    · rw [e7]
      constructor <;> intro h v h1 h2
      · rw [e5 v h1 h2, ← key]; exact h v h1 h2
      · rw [key, ← e5 v h1 h2]; exact h v h1 h2

/-- C18: a vertex at which no message arrives keeps its property; `apply` is called exactly once on a vertex
at which something arrives (its property becomes `apply u old` for one reduced value `u`). -/
theorem untouched_vertices {n nrank threads : Nat} (c : Cfg n nrank threads) (env : StepEnv T U V)
    {gp : GProg T U V E} {msg : V → T} {proc : T → E → V → U} (hp : gp.Pure msg proc) (act : Bool)
    {G : Graph V E} {es : List (Edge E)} {P : Nat → V} {A : Nat → Bool}
    (hG : G.Represents n nrank threads es P A) {x : DVec T} {y : DVec U} (hs : Scratch n nrank x y) :
    ∃ G' x' y' conv P' A', G.superstep env gp act x y = some (G', x', y', conv) ∧
      G'.Represents n nrank threads es P' A' ∧
      ∀ d, 1 ≤ d → d ≤ n →
        (inbox gp.order msg proc es P A d = [] → P' d = P d) ∧
        (inbox gp.order msg proc es P A d ≠ [] →
          ∃ u, Reduces gp.reduce (inbox gp.order msg proc es P A d) (some u) ∧ P' d = gp.apply u (P d)) := by
  obtain ⟨G', x', y', conv, P', A', e1, e2, e3, res, e4, e5, _⟩ := superstep_refines c env (hp.eff _) (hp.eff _) act hG hs
  refine ⟨G', x', y', conv, P', A', e1, e2, ?_⟩
  intro d h1 h2
  have hr := e4 d h1 h2
  refine ⟨?_, ?_⟩
  · intro h
    rw [e5 d h1 h2, hr.none_iff.mpr h]; rfl
  · intro h
    cases hres : res d with
    | none => exact absurd (hr.none_iff.mp hres) h
    | some u =>
      rw [hres] at hr
      exact ⟨u, hr, by rw [e5 d h1 h2, hres]; rfl⟩

/-- Vertex 1 receives, vertex 5 does not. -/
example : inbox .out (fun p : List Nat => p) (fun t (e : Nat) v => t ++ [e] ++ v) [⟨2, 1, 100⟩, ⟨3, 5, 200⟩] (fun v => [v])
      (fun v => v == 2) 1 = [[2, 100, 1]] ∧
    inbox .out (fun p : List Nat => p) (fun t (e : Nat) v => t ++ [e] ++ v) [⟨2, 1, 100⟩, ⟨3, 5, 200⟩] (fun v => [v])
      (fun v => v == 2) 5 = [] := by decide

/-! ## C20 -/

/-- C20 is false: the boolean that `send_message` returns has no effect at all.  Two programs that differ
only in it behave identically in every superstep. -/
theorem send_message_flag_ignored (env : StepEnv T U V) {gp gp' : GProg T U V E}
    (hmsg : ∀ p old, (gp.send p old).2 = (gp'.send p old).2) (ho : gp.order = gp'.order)
    (hn : gp.needsProp = gp'.needsProp) (hpr : gp.process = gp'.process) (hr : gp.reduce = gp'.reduce)
    (ha : gp.apply = gp'.apply) (hne : gp.ne = gp'.ne) (act : Bool) (G : Graph V E) (x : DVec T) (y : DVec U) :
    G.superstep env gp act x y = G.superstep env gp' act x y := by
  have h1 : sendWrapper gp = sendWrapper gp' := by
    funext a v old
    unfold sendWrapper
    rw [hmsg]
  cases gp
  cases gp'
  simp only at ho hn hpr hr ha hne
  subst ho hn hpr hr ha hne
  unfold Graph.superstep
  rw [h1]
  rfl

/-- C20 is false, concretely: `send_message` of this program always returns false, but vertex 1 receives the
message of vertex 2. -/
theorem send_message_cannot_veto :
    sampleRun { traceProg .out false true with send := fun p _ => (false, p) } 1 4 [⟨2, 1, 100⟩] [2] 1 1 =
      some [some [2, 100, 1], some [2], some [3], some [4]] := by decide +kernel

/-- C20, what remains true: a vertex that is not active sends nothing, so a program can suppress a message
only by not being activated. -/
theorem send_message_veto_partial {n nrank threads : Nat} (c : Cfg n nrank threads) (env : StepEnv T U V)
    {gp : GProg T U V E} {msg : V → T} {proc : T → E → V → U} (hp : gp.Pure msg proc) (act : Bool)
    {G : Graph V E} {es : List (Edge E)} {P : Nat → V} {A : Nat → Bool}
    (hG : G.Represents n nrank threads es P A) {x : DVec T} {y : DVec U} (hs : Scratch n nrank x y)
    {d : Nat} (h1 : 1 ≤ d) (h2 : d ≤ n)
    (hq : ∀ e ∈ es, (e.dst = (d : Int) → A e.src.toNat = false) ∧ (e.src = (d : Int) → A e.dst.toNat = false)) :
    ∃ G' x' y' conv P' A', G.superstep env gp act x y = some (G', x', y', conv) ∧
      G'.Represents n nrank threads es P' A' ∧ P' d = P d := by
  obtain ⟨G', x', y', conv, P', A', e1, e2, e3⟩ := untouched_vertices c env hp act hG hs
  refine ⟨G', x', y', conv, P', A', e1, e2, (e3 d h1 h2).1 ?_⟩
  have ho : outMsgs msg proc es P A d = [] := by
    apply Classical.byContradiction
    intro h
    obtain ⟨e, he, hc1, hc2⟩ := outMsgs_ne_nil.mp h
    rw [(hq e he).1 hc1] at hc2; cases hc2
  have hi : inMsgs msg proc es P A d = [] := by
    apply Classical.byContradiction
    intro h
    obtain ⟨e, he, hc1, hc2⟩ := inMsgs_ne_nil.mp h
    rw [(hq e he).2 hc1] at hc2; cases hc2
  unfold inbox
  cases gp.order <;> simp [ho, hi]

/-- The hypothesis on the edges for vertex 1 in the graph of the example above, if only vertex 7 is active. -/
example : ∀ e ∈ ([⟨2, 1, 5⟩, ⟨40, 2, 6⟩, ⟨1, 39, 9⟩, ⟨7, 8, 1⟩] : List (Edge Nat)),
    (e.dst = ((1 : Nat) : Int) → (e.src.toNat == 7) = false) ∧ (e.src = ((1 : Nat) : Int) → (e.dst.toNat == 7) = false) := by decide

end GraphMat
