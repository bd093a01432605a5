import Verif.Model.App
import Verif.Model.ApplyEdges
import Verif.Model.MapReduce
import Verif.Model.History
import Verif.Spec.Script

/-! # A user program that makes any sequence of calls on a graph -/
namespace GraphMat

variable {S T U V E A : Type}

/-- What memory and uninitialised variables contain during one call (see the functions named at `GOp.exec`), and whether the element type is sent
serialized (/repo/include/GMDP/vectors/DenseSegment.h:271-330). -/
structure CallEnv (T U V A : Type) where
  gv : Nat → Nat → Fresh V
  gw : Nat → Nat → Fresh V
  ga : Nat → Nat → Fresh Bool
  ie : InitEnv T U
  env : Nat → StepEnv T U V
  ser : Bool
  tmp : Nat → Nat → Nat → A

/-- The variables of a user program (as those of /repo/src/PageRank.cpp:128-160): the graph and the vectors made by `graph_program_init`, if it was called. -/
abbrev ScriptVars (T U V E : Type) := Graph V E × Option (DVec T × DVec U)

/-- One call executed by all ranks: the functions of /repo/include/Graph.h:263-316, 371-374 (`VGraph.step`), `graph_program_init`
(/repo/include/GraphMatRuntime.h:59-70), `run_graph_program` (/repo/include/GraphMatRuntime.h:93-279), `applyToAllEdges`
(/repo/include/Graph.h:389-402), `applyReduceAllVertices` (/repo/include/Graph.h:377-381), `getVertexproperty` (/repo/include/Graph.h:358-364),
`getEdgelist` (/repo/include/Graph.h:327-335).  Simplified: all vertex programs of one user program have the same message and
state types; the mapping function of a reduction does not look at its output argument; `graph_program_clear` is not called.
A run that has not ended after `fuel` rounds gives `more`. -/
def GOp.exec (ce : CallEnv T U V A) (nrank fuel : Nat) :
    GOp S T U V E A → ScriptVars T U V E → Option (RunOut (ScriptVars T U V E × List (GOut S V E A)))
  | .vertex op, st => (st.1.onVertices (fun vg => vg.step ce.gv ce.ga op)).map (fun G => .done ((G, st.2), []))
  | .init, st => (st.1.newScratch ce.ie).map (fun xy => .done ((st.1, some xy), []))
  | .run pr s0 iterations reuse, st => do
    let o ← st.1.run ce.ie ce.env pr s0 iterations (if reuse then st.2 else none) fuel
    match o with
    | .done r => some (.done ((r.G, if reuse then st.2.map (fun _ => (r.x, r.y)) else st.2), [.ran r.it r.s]))
    | .more r => some (.more ((r.G, st.2), []))
  | .edges f, st => (st.1.applyToAllEdges ce.ser ce.gv ce.gw f).map (fun G => .done ((G, st.2), []))
  | .reduce m w op e, st => (st.1.toVGraph.applyReduceAllVertices ce.gv (fun v _ => (m v, w v)) op ce.tmp (fun _ => e)).map
      (fun r => .done (({ st.1 with toVGraph := r.1 }, st.2), [.val r.2]))
  | .get v, st => ((List.range nrank).mapM (fun r => st.1.toVGraph.getVertexproperty r (v : Int))).map (fun l => .done (st, [.prop l]))
  | .list, st => ((List.range nrank).mapM (fun r => st.1.getEdgelist r)).map (fun ls => .done (st, [.edges ls]))

/-- A sequence of calls (the functions named at `GOp.exec`, /repo/include/Graph.h:263-402 and
/repo/include/GraphMatRuntime.h:59-279) and what they return; call number `k` finds memory contents `ce k`. -/
def runScript (ce : Nat → CallEnv T U V A) (nrank fuel : Nat) :
    Nat → List (GOp S T U V E A) → ScriptVars T U V E → Option (RunOut (ScriptVars T U V E × List (GOut S V E A)))
  | _, [], st => some (.done (st, []))
  | k, op :: ops, st => do
    match ← op.exec (ce k) nrank fuel st with
    | .more r => some (.more r)
    | .done r =>
      match ← runScript ce nrank fuel (k + 1) ops r.1 with
      | .more q => some (.more (q.1, r.2 ++ q.2))
      | .done q => some (.done (q.1, r.2 ++ q.2))

end GraphMat
