import Verif.Spec.Superstep
import Verif.Spec.Vertex
import Verif.Model.Runtime

/-!
# Specification of whole user programs on a graph

A program calls functions on the vertices and edges of a graph, runs vertex programs, reduces and reads, in any order.  No ranks, tiles, segments or
renumbering: the graph is a list of edges, a map of properties and a set of active vertices.  Only the types of the calls are shared with the model.
-/
namespace GraphMat

variable {S T U V E A : Type}

/-- A call of a user program. -/
inductive GOp (S T U V E A : Type) where
  /-- a function on the vertices -/
  | vertex (op : VOp V)
  /-- `graph_program_init` -/
  | init
  /-- `run_graph_program` of `pr`, whose object is in state `s0`, with or without the vectors of the last `graph_program_init` -/
  | run (pr : Program S T U V E) (s0 : S) (iterations : Int) (reuse : Bool)
  /-- `applyToAllEdges` -/
  | edges (f : E → V → V → E)
  /-- `applyReduceAllVertices`: properties become `w` of themselves, and `op` combines `e` and `m` of them -/
  | reduce (m : V → A) (w : V → V) (op : A → A → A) (e : A)
  /-- `getVertexproperty` on every rank -/
  | get (v : Nat)
  /-- `getEdgelist` on every rank -/
  | list

/-- What a call returns. -/
inductive GOut (S V E A : Type) where
  /-- the number of supersteps and the state of the program object afterwards -/
  | ran (it : Int) (s : S)
  | val (x : A)
  /-- for each rank: the property, if the rank has it -/
  | prop (l : List (Option V))
  /-- for each rank: its edges -/
  | edges (ls : List (List (Edge E)))
  deriving DecidableEq

/-- The state of a graph as the user sees it. -/
structure GSpec (V E : Type) where
  prop : Nat → V
  active : Nat → Bool
  edges : List (Edge E)

/-- The functions of the program do not look at what their output variables contained before. -/
def Program.PureBy (pr : Program S T U V E) (msg : S → V → T) (proc : S → T → E → V → U) : Prop := ∀ s, (pr.gp s).Pure (msg s) (proc s)

/-- Ids exist; programs do not look at uninitialised variables; requested numbers of supersteps are at most `fuel`. -/
def GOp.Valid (n fuel : Nat) : GOp S T U V E A → Prop
  | .vertex op => op.Valid n
  | .run pr _ iterations _ => (∃ msg proc, pr.PureBy msg proc) ∧ iterations ≤ fuel
  | .get v => 1 ≤ v ∧ v ≤ n
  | _ => True

/-- `k` supersteps, after which `conv` lists which of them changed nothing, from a state of the graph. -/
def GSpec.Runs (n : Nat) (s : GSpec V E) (pr : Program S T U V E) (s0 : S) (k : Nat) (s' : GSpec V E) (s1 : S) (conv : List Bool) : Prop :=
  ∃ msg proc, pr.PureBy msg proc ∧ s'.edges = s.edges ∧
    Steps pr.gp pr.every msg proc (pr.gp s0).allVertices n s.edges s.prop (fun v => (pr.gp s0).allVertices || s.active v) s0 k s'.prop s'.active s1 conv

/-- When a run ends within `fuel` supersteps: after the requested number of them, or, if that is not positive, after the first one that changed nothing. -/
def RunEnds (fuel : Nat) (iterations : Int) (k : Nat) (conv : List Bool) : Prop :=
  k ≤ fuel ∧ if 1 ≤ iterations then iterations = k else ∃ cs, conv = cs ++ [true] ∧ ∀ b ∈ cs, b = false

/-- What one call may do and return; the initial value of a reduction takes part in it once for every rank. -/
def GOp.Step (n nrank fuel : Nat) (op : GOp S T U V E A) (s s' : GSpec V E) (out : List (GOut S V E A)) : Prop :=
  match op with
  | .vertex o => s' = { s with prop := (VSpec.step ⟨s.prop, s.active⟩ o).prop, active := (VSpec.step ⟨s.prop, s.active⟩ o).active } ∧ out = []
  | .init => s' = s ∧ out = []
  | .run pr s0 iterations _ => ∃ k s1 conv, s.Runs n pr s0 k s' s1 conv ∧ RunEnds fuel iterations k conv ∧ out = [.ran k s1]
  | .edges f => s' = { s with edges := s.edges.map (fun e => ⟨e.src, e.dst, f e.val (s.prop e.src.toNat) (s.prop e.dst.toNat)⟩) } ∧ out = []
  | .reduce m w op e => s' = { s with prop := fun v => w (s.prop v) } ∧
      ∃ x, out = [.val x] ∧ Reduces op (List.replicate nrank e ++ (List.range n).map (fun j => m (s.prop (j + 1)))) (some x)
  | .get v => s' = s ∧ ∃ o, o < nrank ∧ out = [.prop ((List.range nrank).map (fun r => if r = o then some (s.prop v) else none))]
  | .list => s' = s ∧ ∃ ls, out = [.edges ls] ∧ ls.length = nrank ∧ ls.flatten.Perm s.edges

/-- What a sequence of calls may do and return. -/
inductive GSteps (n nrank fuel : Nat) : List (GOp S T U V E A) → GSpec V E → GSpec V E → List (GOut S V E A) → Prop
  | nil {s} : GSteps n nrank fuel [] s s []
  | cons {op ops s s1 s' out outs} (h : op.Step n nrank fuel s s1 out) (t : GSteps n nrank fuel ops s1 s' outs) :
      GSteps n nrank fuel (op :: ops) s s' (out ++ outs)

/-- The calls up to one of them return, and this one is a run until nothing changes of which `fuel` supersteps all changed something. -/
def Endless (n nrank fuel : Nat) (ops : List (GOp S T U V E A)) (s : GSpec V E) (outs : List (GOut S V E A)) : Prop :=
  ∃ pre pr s0 iterations reuse post s1 s2 s3 conv, ops = pre ++ GOp.run pr s0 iterations reuse :: post ∧ GSteps n nrank fuel pre s s1 outs ∧
    iterations ≤ 0 ∧ s1.Runs n pr s0 fuel s2 s3 conv ∧ ∀ b ∈ conv, b = false

end GraphMat
