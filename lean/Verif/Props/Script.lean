import Verif.Model.Script
import Verif.Lemmas.App
import Verif.Props.Run
import Verif.Props.ApplyEdges
import Verif.Props.Reduce
import Verif.Props.Load
import Verif.Lemmas.Compress

/-!
# Whole user programs on a graph (C95)
-/
namespace GraphMat

variable {S T U V E A : Type}

/-- The graph is in state `s`, and the vectors of `graph_program_init` can be used. -/
structure ScriptAt (n nrank threads : Nat) (st : ScriptVars T U V E) (s : GSpec V E) : Prop where
  graph : st.1.Represents n nrank threads s.edges s.prop s.active
  scratch : ∀ xy, st.2 = some xy → Scratch n nrank xy.1 xy.2

theorem length_of_mapM {α β : Type} {f : α → Option β} : ∀ {l : List α} {ys : List β}, l.mapM f = some ys → ys.length = l.length := by
  intro l
  induction l with
  | nil =>
    intro ys h
    cases h
    rfl
  | cons a l ih =>
    intro ys h
    rw [List.mapM_cons] at h
    cases e : f a with
    | none =>
      rw [e] at h
      cases h
    | some b =>
      rw [e] at h
      cases e2 : l.mapM f with
      | none =>
        rw [e2] at h
        cases h
      | some bs =>
        rw [e2] at h
        cases h
        rw [List.length_cons, List.length_cons, ih e2]

section

variable {n nrank threads : Nat}

/-- One call. -/
theorem GOp.exec_spec (c : Cfg n nrank threads) (hfit : n + threads ≤ IMAX) (ce : CallEnv T U V A) {fuel : Nat} (hfuel : fuel ≤ IMAX)
    (op : GOp S T U V E A) (hop : op.Valid n fuel) {st : ScriptVars T U V E} {s : GSpec V E} (h : ScriptAt n nrank threads st s) :
    (∃ st' s' out, op.exec ce nrank fuel st = some (.done (st', out)) ∧ op.Step n nrank fuel s s' out ∧ ScriptAt n nrank threads st' s') ∨
    (∃ st' pr s0 iterations reuse s2 s3 conv, op.exec ce nrank fuel st = some (.more (st', [])) ∧ op = .run pr s0 iterations reuse ∧ iterations ≤ 0 ∧
      s.Runs n pr s0 fuel s2 s3 conv ∧ ∀ b ∈ conv, b = false) := by
  cases op with
  | vertex o =>
    left
    obtain ⟨vg, a1, a2, a3, a4⟩ := VGraph.step_spec c h.graph.inv ce.gv ce.ga (S := ⟨s.prop, s.active⟩) hop h.graph.props
    refine ⟨({ st.1 with toVGraph := vg }, st.2), _, [], ?_, ⟨rfl, rfl⟩, h.graph.onVertices a2 a3 (a4 (.inr h.graph.acts)), h.scratch⟩
    show Option.map _ (Option.map _ (st.1.toVGraph.step ce.gv ce.ga o)) = _
    rw [a1]
    rfl
  | init =>
    left
    obtain ⟨x, y, a1, a2⟩ := Graph.newScratch_spec c h.graph.inv ce.ie
    refine ⟨(st.1, some (x, y)), s, [], ?_, ⟨rfl, rfl⟩, h.graph, ?_⟩
    · show Option.map _ (st.1.newScratch ce.ie) = _
      rw [a1]
      rfl
    · intro xy e
      cases e
      exact a2
  | edges f =>
    left
    obtain ⟨G', Ls, nat, a1, _, _, _, _, _, a2⟩ := apply_to_all_edges c h.graph ce.ser ce.gv ce.gw f
    refine ⟨(G', st.2), _, [], ?_, ⟨rfl, rfl⟩, a2, h.scratch⟩
    show Option.map _ (st.1.applyToAllEdges ce.ser ce.gv ce.gw f) = _
    rw [a1]
    rfl
  | reduce m w op e =>
    left
    obtain ⟨vg, x, a1, a2, a3, a4, a5⟩ := applyReduce_reduces_everything (op := op) (tmp := ce.tmp) (map := fun v _ => (m v, w v)) (fun _ _ => rfl)
      ce.gv c hfit h.graph.inv h.graph.props (fun _ => e)
    refine ⟨({ st.1 with toVGraph := vg }, st.2), _, [.val x], ?_, ⟨rfl, x, rfl, ?_⟩, h.graph.onVertices a2 a3 ?_, h.scratch⟩
    · show Option.map _ (st.1.toVGraph.applyReduceAllVertices ce.gv _ op ce.tmp _) = _
      rw [a1]
      rfl
    · rw [List.map_const', List.length_range] at a5
      exact a5
    · intro v v1 v2
      have := h.graph.acts v v1 v2
      rw [← a4] at this
      exact this
  | get v =>
    left
    obtain ⟨o, o1, o2⟩ := represents_observed c h.graph v hop.1 hop.2
    refine ⟨st, s, _, ?_, ⟨rfl, o, o1, rfl⟩, h⟩
    show Option.map _ ((List.range nrank).mapM (fun r => st.1.toVGraph.getVertexproperty r (v : Int))) = _
    rw [mapM_some (fun r hr => (o2 r (List.mem_range.mp hr)).2)]
    rfl
  | list =>
    left
    obtain ⟨TA, TT, PA, PT, hh⟩ := h.graph
    obtain ⟨Ls, a1, a2⟩ := hh.holds.getEdgelists c (fun e he => hh.valid e he)
    refine ⟨st, s, _, ?_, ⟨rfl, Ls, rfl, ?_, a2⟩, h⟩
    · show Option.map _ ((List.range nrank).mapM (fun r => st.1.getEdgelist r)) = _
      rw [a1]
      rfl
    · rw [length_of_mapM a1, List.length_range]
  | run pr s0 iterations reuse =>
    obtain ⟨⟨msg, proc, hp⟩, hit⟩ := hop
    have hs : ∀ xy, (if reuse then st.2 else none) = some xy → Scratch n nrank xy.1 xy.2 := by
      intro xy e
      split at e
      · exact h.scratch xy e
      · cases e
    have hs' : ∀ x y, Scratch n nrank x y → ∀ xy, (if reuse then st.2.map (fun _ => (x, y)) else st.2) = some xy → Scratch n nrank xy.1 xy.2 := by
      intro x y hxy xy e
      split at e
      · cases e1 : st.2 with
        | none =>
          rw [e1] at e
          cases e
        | some q =>
          rw [e1] at e
          cases e
          exact hxy
      · exact h.scratch xy e
    by_cases hi : 1 ≤ iterations
    · left
      obtain ⟨N, rfl⟩ : ∃ N : Nat, iterations = N := ⟨iterations.toNat, by omega⟩
      obtain ⟨r, P', A', cs, a1, a2, a3, a4, a5, _⟩ := run_executes_exactly_N c ce.ie ce.env hp s0 h.graph hs N (by omega) (by omega) fuel (by omega)
      refine ⟨(r.G, _), ⟨P', A', s.edges⟩, [.ran r.it r.s], ?_, ⟨N, r.s, cs, ⟨msg, proc, hp, rfl, a5⟩, ?_, by rw [a2]⟩, a3, hs' r.x r.y a4⟩
      · show Option.bind (st.1.run ce.ie ce.env pr s0 (N : Int) _ fuel) _ = _
        rw [a1]
        rfl
      · unfold RunEnds
        rw [if_pos hi]
        exact ⟨by omega, rfl⟩
    · rcases run_until_convergence c ce.ie ce.env hp s0 h.graph hs (iterations := iterations) (by omega) fuel hfuel with
        ⟨r, k, P', A', cs, a1, a2, _, hk, a3, a4, a5, a6⟩ | ⟨r, P', A', cs, a1, a2, a3, a5, a6⟩
      · left
        refine ⟨(r.G, _), ⟨P', A', s.edges⟩, [.ran r.it r.s], ?_, ⟨k, r.s, _, ⟨msg, proc, hp, rfl, a5⟩, ?_, by rw [a2]⟩, a3, hs' r.x r.y a4⟩
        · show Option.bind (st.1.run ce.ie ce.env pr s0 iterations _ fuel) _ = _
          rw [a1]
          rfl
        · unfold RunEnds
          rw [if_neg hi]
          exact ⟨hk, cs, rfl, a6⟩
      · right
        refine ⟨(r.G, st.2), pr, s0, iterations, reuse, ⟨P', A', s.edges⟩, r.s, cs, ?_, rfl, by omega, ⟨msg, proc, hp, rfl, a5⟩, a6⟩
        show Option.bind (st.1.run ce.ie ce.env pr s0 iterations _ fuel) _ = _
        rw [a1]
        rfl

/-- A sequence of calls. -/
theorem runScript_spec (c : Cfg n nrank threads) (hfit : n + threads ≤ IMAX) (ce : Nat → CallEnv T U V A) {fuel : Nat} (hfuel : fuel ≤ IMAX) :
    ∀ (ops : List (GOp S T U V E A)) (_ : ∀ op ∈ ops, op.Valid n fuel) (k : Nat) {st : ScriptVars T U V E} {s : GSpec V E}
      (_ : ScriptAt n nrank threads st s),
    (∃ st' s' outs, runScript ce nrank fuel k ops st = some (.done (st', outs)) ∧ GSteps n nrank fuel ops s s' outs ∧ ScriptAt n nrank threads st' s') ∨
    (∃ st' outs, runScript ce nrank fuel k ops st = some (.more (st', outs)) ∧ Endless n nrank fuel ops s outs) := by
  intro ops
  induction ops with
  | nil =>
    intro _ k st s h
    exact .inl ⟨st, s, [], rfl, .nil, h⟩
  | cons op ops ih =>
    intro hops k st s h
    rcases GOp.exec_spec c hfit (ce k) hfuel op (hops op List.mem_cons_self) h with
      ⟨st1, s1, out, a1, a2, a3⟩ | ⟨st1, pr, s0, it, re, s2, s3, conv, a1, rfl, a2, a3, a4⟩
    · rcases ih (fun o ho => hops o (List.mem_cons_of_mem _ ho)) (k + 1) a3 with
        ⟨st', s', outs, b1, b2, b3⟩ | ⟨st', outs, b1, pre, pr, s0, it, re, post, t1, t2, t3, conv, rfl, b2, b3, b4, b5⟩
      · refine .inl ⟨st', s', out ++ outs, ?_, .cons a2 b2, b3⟩
        simp only [runScript, a1, b1, Option.bind_eq_bind, Option.bind_some]
      · refine .inr ⟨st', out ++ outs, ?_, op :: pre, pr, s0, it, re, post, t1, t2, t3, conv, rfl, .cons a2 b2, b3, b4, b5⟩
        simp only [runScript, a1, b1, Option.bind_eq_bind, Option.bind_some]
    · refine .inr ⟨st1, [], ?_, [], pr, s0, it, re, ops, s, s2, s3, conv, rfl, .nil, a2, a3, a4⟩
      simp only [runScript, a1, Option.bind_eq_bind, Option.bind_some]

/-- C95: load a list of edges, make calls on the vertices that determine the active set, then any sequence of calls: functions on vertices and edges, runs of any
vertex programs with or without reused vectors, reductions, reads.  No call fails.  Either all calls return, and what they return is what the
specification allows, or some run until nothing changes has not ended after `fuel` supersteps, all of which changed something. -/
theorem graph_program_correct (c : Cfg n nrank threads) (hfit : n + threads ≤ IMAX) (le : LoadEnv V E) (hsA : le.sA.OK) (hsT : le.sAT.OK) {d : V}
    (hd : le.d = fun _ => d) {blobs : List (List (Edge E))} (hb : blobs.length = nrank) (hin : ∀ es ∈ blobs, ∀ e ∈ es, e.Valid n)
    (gv : Nat → Nat → Nat → Fresh V) (ga : Nat → Nat → Nat → Fresh Bool) {first : List (VOp V)} (hfirst : ∀ op ∈ first, op.Valid n)
    (hfix : ∃ op ∈ first, op.FixesActivity) (A0 : Nat → Bool)
    (ce : Nat → CallEnv T U V A) {fuel : Nat} (hfuel : fuel ≤ IMAX) (ops : List (GOp S T U V E A)) (hops : ∀ op ∈ ops, op.Valid n fuel) :
    ∃ out G G1, Graph.readEdgelist le threads nrank n n blobs = some (out, G) ∧
      G.onVertices (fun vg => vg.runOps gv ga 0 first) = some G1 ∧
      ((∃ st s outs, runScript ce nrank fuel 0 ops (G1, none) = some (.done (st, outs)) ∧
        GSteps n nrank fuel ops ⟨(VSpec.run ⟨fun _ => d, A0⟩ first).prop, (VSpec.run ⟨fun _ => d, A0⟩ first).active, blobs.flatten⟩ s outs) ∨
      (∃ st outs, runScript ce nrank fuel 0 ops (G1, none) = some (.more (st, outs)) ∧
        Endless n nrank fuel ops ⟨(VSpec.run ⟨fun _ => d, A0⟩ first).prop, (VSpec.run ⟨fun _ => d, A0⟩ first).active, blobs.flatten⟩ outs)) := by
  obtain ⟨out, G, a1, a2⟩ := Graph.load_loaded c le hsA hsT hd hb hin
  obtain ⟨G1, b1, b2⟩ := a2.ops c gv ga hfirst hfix A0
  refine ⟨out, G, G1, a1, b1, ?_⟩
  rcases runScript_spec c hfit ce hfuel ops hops 0 (st := (G1, none)) (s := ⟨_, _, _⟩) ⟨b2, fun _ e => by cases e⟩ with
    ⟨st, s, outs, e1, e2, _⟩ | ⟨st, outs, e1, e2⟩
  · exact .inl ⟨st, s, outs, e1, e2⟩
  · exact .inr ⟨st, outs, e1, e2⟩

end

/-! ### A concrete program -/

/-- Some memory contents. -/
def CallEnv.sample (a : Nat) : CallEnv Nat Nat Nat Nat :=
  { gv := fun _ _ => .sample a, gw := fun _ _ => .sample (a + 1), ga := fun _ _ => .sample true, ie := .sample a a,
    env := fun _ => .sample a a a, ser := false, tmp := fun _ _ _ => a }

/-- Distances from the last vertex until nothing changes, then one superstep, then other edge values, a sum, and the values. -/
def scriptSample (n : Nat) : List (GOp Unit Nat Nat Nat Nat Nat) :=
  [.vertex (.setAllProp 90), .vertex (.setProp n 7), .vertex (.setActive n), .init,
    .run { gp := fun _ => minProg, every := fun _ s => s } () (-1) true,
    .run { gp := fun _ => minProg, every := fun _ s => s } () 1 false,
    .edges (fun e s d => e + 2 * s + d), .reduce id id (· + ·) 0, .get 1, .list]

theorem scriptSample_valid (n : Nat) (hn : 1 ≤ n) : ∀ op ∈ scriptSample n, op.Valid n 10 := by
  have hp : ∃ msg proc, ({ gp := fun _ => minProg, every := fun _ s => s } : Program Unit Nat Nat Nat Nat).PureBy msg proc :=
    ⟨fun _ p => p, fun _ t e _ => t + e, fun _ => ⟨fun _ _ => rfl, fun _ _ _ _ => rfl, fun _ _ _ _ _ => rfl⟩⟩
  intro op h
  simp only [scriptSample, List.mem_cons, List.not_mem_nil, or_false] at h
  rcases h with rfl | rfl | rfl | rfl | rfl | rfl | rfl | rfl | rfl | rfl
  all_goals first
    | trivial
    | (simp [GOp.Valid, VOp.Valid]; done)
    | (simp [GOp.Valid, VOp.Valid]; omega)

/-- The hypotheses of `graph_program_correct`. -/
example := graph_program_correct (n := 40) (nrank := 2) (threads := 1) ⟨by decide, by decide, by decide, by decide⟩ (by decide)
  (LoadEnv.sample (V := Nat) (E := Nat) 0 0) Sorts.ins_ok Sorts.ins_ok (d := 0) rfl
  (blobs := [[⟨2, 1, 5⟩, ⟨40, 2, 6⟩], [⟨1, 39, 9⟩]]) rfl (by
    intro es hes e he
    simp at hes
    rcases hes with rfl | rfl <;> simp at he
    · rcases he with rfl | rfl <;> simp [Edge.Valid]
    · subst he; simp [Edge.Valid])
  (fun _ _ _ => .sample 0) (fun _ _ _ => .sample true) (first := [.setAllInactive]) (by simp [VOp.Valid]) ⟨.setAllInactive, by simp, trivial⟩
  (fun _ => false) (fun _ => .sample 1) (fuel := 10) (by decide) (scriptSample 40) (scriptSample_valid 40 (by decide))

/-- Evaluates a program on a graph with 20 vertices: whether it returned, and its results. -/
def sampleScript (nrank threads : Nat) (blobs : List (List (Edge Nat))) (a : Nat) (ops : List (GOp Unit Nat Nat Nat Nat Nat)) (fuel : Nat) :
    Option (Bool × List (GOut Unit Nat Nat Nat)) := do
  let x ← Graph.readEdgelist (LoadEnv.sample (V := Nat) (E := Nat) 0 0) threads nrank 20 20 blobs
  let G ← x.2.onVertices (fun vg => vg.runOps (fun _ _ _ => .sample a) (fun _ _ _ => .sample true) 0 [.setAllInactive])
  match ← runScript (fun _ => .sample a) nrank fuel 0 ops (G, none) with
  | .done r => some (true, r.2)
  | .more r => some (false, r.2)

/-- Evaluated on two ranks; with room for two supersteps the first run does not return. -/
example : sampleScript 2 1 [[⟨2, 1, 5⟩, ⟨20, 2, 6⟩], [⟨1, 19, 9⟩]] 4 (scriptSample 20) 10 = some (true, [.ran 4 (), .ran 1 (), .val 1505,
      .prop [some 18, none], .edges [[⟨2, 1, 49⟩, ⟨20, 2, 33⟩, ⟨1, 19, 72⟩], []]]) ∧
    sampleScript 2 1 [[⟨2, 1, 5⟩, ⟨20, 2, 6⟩], [⟨1, 19, 9⟩]] 4 (scriptSample 20) 2 = some (false, []) := by
  decide +kernel

end GraphMat
