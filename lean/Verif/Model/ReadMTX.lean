import Verif.Model.EdgeFile
import Verif.Model.SpMat

/-!
# Loading a graph from files (`ReadMTX`)
-/
namespace GraphMat

variable {V E : Type}

/-- `A_edges.m` and `A_edges.n` after /repo/include/Graph.h:253-257. -/
def squareDims (m n : Int) : Int × Int := if m ≠ n then (max m n, max m n) else (m, n)

/-- `ReadMTX(filename)` on all ranks, /repo/include/Graph.h:248-260: `load_edgelist` with binary format, header and
weights, the dimensions made equal, `ReadEdgelist`; the list is freed afterwards.  The ranks have the same dimensions
after `load_edgelist`; the model stops (`none`) if they had not, because `ReadEdgelist` is modelled for equal
dimensions only. -/
def Graph.readMTX (env : LoadEnv V E) (bt : BinType E) (threads nrank : Nat) (g : Nat → Nat → Edge E)
    (fs : List (List Nat)) : Option (Graph V E) := do
  let els ← loadEdgelist (binReader bt true) true nrank g fs
  let el ← els.head?
  let d := squareDims el.m el.n
  if els.any (fun x => decide (squareDims x.m x.n ≠ d)) then none else
  let m ← natIdx d.1
  let n ← natIdx d.2
  let r ← Graph.readEdgelist env threads nrank m n (els.map EdgeList.list)
  some r.2

end GraphMat
