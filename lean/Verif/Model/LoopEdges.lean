import Verif.Model.Loops
import Verif.Model.LoopBuild
import Verif.Model.EdgeList
import Verif.Model.SpMat
import Verif.Model.SaveVec

/-!
# The parallel loops over edge lists as tasks

As in `Model/Loops.lean`: the renumbering loops of `ReadEdgelist`, `randomize_edgelist_square` and `remove_empty_columns`,
the loop of `Transpose`, and the loops of the two `ingestEdgelist` that find out where edges belong.  An edge is one memory
location; its fields belong to the same iteration.  A failing assertion (`none` in the sequential models) is not
represented here: the theorems assume that the sequential loop has a result.
-/
namespace GraphMat

variable {E : Type}

/-- The arrays: `edges` (`edge_list`, `received_edges`), `tagged` (`tedges`, `tedges2`), `ids` (`mapping`, `new_colids`,
`nodeIds`), `assignment` (`assignment2`) (/repo/include/GMDP/matrices/SpMat.h:102, 119, 134, 222, 236,
/repo/include/GMDP/utils/edgelist.h:338, 374, /repo/include/GMDP/vectors/SpVec.h:161). -/
inductive EdgeArr where
  /-- `edges` -/
  | edges
  /-- `tedges`: edges with `tile_id` -/
  | tagged
  /-- `mapping`, `new_colids`, `nodeIds` -/
  | ids
  /-- `assignment` -/
  | assignment
deriving DecidableEq

/-- The types of the elements (/repo/include/GMDP/matrices/SpMat.h:102, 119, 134). -/
abbrev EdgeArr.Ty (E : Type) : EdgeArr → Type
  | .edges => Edge E
  | .tagged => Edge E × Nat
  | .ids => Nat
  | .assignment => Nat

/-- Programs over these arrays (/repo/include/GMDP/matrices/SpMat.h:119-145). -/
abbrev EdgeCode (E δ : Type) := Code (EdgeArr × Nat) (fun l => EdgeArr.Ty E l.1) δ

/-- The arrays as a function of their names (/repo/include/GMDP/matrices/SpMat.h:102-145). -/
def edgeA (edges : Arr (Edge E)) (tagged : Arr (Edge E × Nat)) (ids assignment : Arr Nat) : (k : EdgeArr) → Arr (EdgeArr.Ty E k)
  | .edges => edges
  | .tagged => tagged
  | .ids => ids
  | .assignment => assignment

/-- `edges[i].src = x` (/repo/include/Graph.h:222). -/
def putSrcC (i : Nat) (x : Int) : EdgeCode E Unit := do
  let e : Edge E ← aload EdgeArr.edges i
  astore EdgeArr.edges i ({ e with src := x } : Edge E)

/-- `edges[i].dst = x` (/repo/include/Graph.h:223). -/
def putDstC (i : Nat) (x : Int) : EdgeCode E Unit := do
  let e : Edge E ← aload EdgeArr.edges i
  astore EdgeArr.edges i ({ e with dst := x } : Edge E)

/-- The loop of `ReadEdgelist`, /repo/include/Graph.h:219-224. -/
def renumberC (threads nrank m : Nat) (i : Nat) : EdgeCode E Unit := do
  let e : Edge E ← aload EdgeArr.edges i
  putSrcC i ((vertexToNative threads nrank m e.src).getD 0)
  let e : Edge E ← aload EdgeArr.edges i
  putDstC i ((vertexToNative threads nrank m e.dst).getD 0)

/-- `mapping[id - 1] + 1`, /repo/include/GMDP/utils/edgelist.h:362-363. -/
def mapIdC (id : Int) : EdgeCode E Int := do
  let x : Nat ← aload EdgeArr.ids (id - 1).toNat
  pure (BitVec.ofNat 32 (x + 1)).toInt

/-- The loop of `randomize_edgelist_square`, /repo/include/GMDP/utils/edgelist.h:360-364. -/
def mappingC (i : Nat) : EdgeCode E Unit := do
  let e : Edge E ← aload EdgeArr.edges i
  let s ← mapIdC e.src
  putSrcC i s
  let e : Edge E ← aload EdgeArr.edges i
  let t ← mapIdC e.dst
  putDstC i t

/-- The last loop of `remove_empty_columns`, /repo/include/GMDP/utils/edgelist.h:399-405 (without the assertions, which load
`dst` again). -/
def columnC (i : Nat) : EdgeCode E Unit := do
  let e : Edge E ← aload EdgeArr.edges i
  let c : Nat ← aload EdgeArr.ids (e.dst - 1).toNat
  putDstC i ((c : Int) + 1)
  let _ : Edge E ← aload EdgeArr.edges i
  let _ : Edge E ← aload EdgeArr.edges i
  pure ()

/-- The loop of `Transpose`, /repo/include/GMDP/matrices/SpMat.h:428-433. -/
def swapC (i : Nat) : EdgeCode E Unit := do
  let e : Edge E ← aload EdgeArr.edges i
  let tmp := e.src
  let e : Edge E ← aload EdgeArr.edges i
  putSrcC i e.dst
  putDstC i tmp

/-- The loop of `get_dimensions`, /repo/include/GMDP/utils/edgelist.h:435-440: what iteration `i` contributes to the two maxima. -/
def idsC (i : Nat) : EdgeCode E (Int × Int) := do
  let e : Edge E ← aload EdgeArr.edges i
  let e' : Edge E ← aload EdgeArr.edges i
  pure (e.src, e'.dst)

/-- First loop of `SpMat::ingestEdgelist`, /repo/include/GMDP/matrices/SpMat.h:120-130: the owner of each edge. -/
def ownerTagC (m n nty ntx : Nat) (i : Nat) : EdgeCode E Unit := do
  let e : Edge E ← aload EdgeArr.edges i
  let ij := (matPartition m n nty ntx e.src e.dst).getD (0, 0)
  let o : Nat ← aload EdgeArr.ids (ij.1 + ij.2 * nty)
  astore EdgeArr.tagged i ((e, o) : Edge E × Nat)

/-- The array `nodeIds` of a matrix, /repo/include/GMDP/matrices/SpMat.h:295-299. -/
def RMat.nodeIds (M : RMat E) : Arr Nat := ⟨M.nty * M.ntx, fun k => (M.node (k % M.nty) (k / M.nty)).getD 0⟩

/-- Third loop of `SpMat::ingestEdgelist`, /repo/include/GMDP/matrices/SpMat.h:223-232: the tile of each edge. -/
def tileTagC (m n nty ntx : Nat) (i : Nat) : EdgeCode E Unit := do
  let e : Edge E ← aload EdgeArr.edges i
  let ij := (matPartition m n nty ntx e.src e.dst).getD (0, 0)
  astore EdgeArr.tagged i ((e, ij.1 + ij.2 * nty) : Edge E × Nat)

/-- Second and fourth loop of `SpMat::ingestEdgelist`, /repo/include/GMDP/matrices/SpMat.h:135-142, 237-244. -/
def untagC (i : Nat) : EdgeCode E Unit := do
  let t : Edge E × Nat ← aload EdgeArr.tagged i
  astore EdgeArr.edges i (t.1 : Edge E)
  astore EdgeArr.assignment i (t.2 : Nat)

/-- The array `nodeIds` of a vector, /repo/include/GMDP/vectors/SpVec.h:83-85. -/
def SpVec.nodeIds {α : Type} (v : SpVec α) : Arr Nat := ⟨v.nseg, fun j => (segOwner v.nrank j).getD 0⟩

/-- The loop of `SpVec::ingestEdgelist`, /repo/include/GMDP/vectors/SpVec.h:162-167. -/
def segTagC (n nseg : Nat) (i : Nat) : EdgeCode E Unit := do
  let e : Edge E ← aload EdgeArr.edges i
  let tile := (getPartition n nseg e.src).getD 0
  let o : Nat ← aload EdgeArr.ids tile
  astore EdgeArr.assignment i (o : Nat)

end GraphMat
