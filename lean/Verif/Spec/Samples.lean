import Verif.Spec.Sorting
import Verif.Model.Runtime
import Verif.Model.History
import Verif.Model.App

/-!
# Garbage for examples

Environments whose fresh memory is filled with arbitrary values, used in the concrete cases beside the
theorems.
-/
namespace GraphMat

/-- Fresh memory full of `x`, with random bits. -/
def Fresh.sample {α : Type} (x : α) : Fresh α := ⟨5, fun _ => x, fun _ => 9, fun _ => x, fun _ => 7⟩

/-- Fresh memory during a product. -/
def MulEnv.sample {T U V : Type} (t : T) (u : U) (v : V) : MulEnv T U V :=
  { serT := false, serU := false, serV := false, gx := fun _ _ => .sample t, gv := fun _ _ => .sample v,
    gy := fun _ _ => .sample u, gq := fun _ _ => .sample u, tmp := fun _ _ _ _ => u, dummy := fun _ _ _ _ => v }

/-- Fresh memory during a superstep. -/
def StepEnv.sample {T U V : Type} (t : T) (u : U) (v : V) : StepEnv T U V :=
  { gx := fun _ _ => .sample t, m1 := .sample t u v, m2 := .sample t u v, ga := fun _ _ => .sample true,
    gb := fun _ _ => .sample false }

/-- Fresh memory before the loop. -/
def InitEnv.sample {T U : Type} (t : T) (u : U) : InitEnv T U :=
  { gx := fun _ _ => .sample t, gy := fun _ _ => .sample u, t := fun _ => t, u := fun _ => u,
    gb := fun _ _ => .sample false }

/-- A program for examples: messages are lists of sender properties, the reduction concatenates, the new
property of a vertex is the list received. -/
def traceProg (dir : EdgeDir) (all need : Bool) : GProg (List Nat) (List Nat) (List Nat) Nat :=
  { order := dir, allVertices := all, needsProp := need, send := fun p _ => (true, p),
    process := fun t e v _ => t ++ [e] ++ v, reduce := fun a b => a ++ b, apply := fun u _ => u, ne := fun a b => a != b }

/-- Load `es` on one rank, give vertex `v` the property `[v]`, activate `act`, run `iters` supersteps of `gp` and
read the properties of all vertices. -/
def sampleRun (gp : GProg (List Nat) (List Nat) (List Nat) Nat) (threads n : Nat) (es : List (Edge Nat)) (act : List Nat)
    (iters : Int) (fuel : Nat) : Option (List (Option (List Nat))) := do
  let r ← Graph.readEdgelist (LoadEnv.sample [0] 0) threads 1 n n [es]
  let vg ← r.2.toVGraph.runOps (fun _ _ _ => .sample [0]) (fun _ _ _ => .sample true) 0
    ([.setAllInactive] ++ (List.range n).map (fun v => VOp.setProp (v + 1) [v + 1]) ++ act.map VOp.setActive)
  let o ← Graph.run (.sample [100] [101]) (fun _ => .sample [102] [103] [104])
    ({ gp := fun _ => gp, every := fun _ s => s } : Program Unit _ _ _ _) () iters none
    { r.2 with toVGraph := vg } fuel
  match o with
  | .more _ => none
  | .done st => (List.range n).mapM (fun v : Nat => st.G.getVertexproperty 0 ((v : Int) + 1))

/-- Fresh memory during a bundled program. -/
def AppEnv.sample {T U V : Type} (t : T) (u : U) (v : V) : AppEnv T U V :=
  { g := fun _ _ => .sample v, gs := fun _ => .sample v, gia := fun _ _ => .sample true, ga := fun _ => .sample true,
    ie := .sample t u, env := fun _ => .sample t u v, gr := fun _ _ => .sample v }

end GraphMat
