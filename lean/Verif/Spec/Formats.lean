import Verif.Spec.Reduce
import Verif.Spec.Sorting
import Verif.Lemmas.Segment
import Verif.Model.Formats

/-!
# Specification of a tile: its edges, and the product with a segment

Independent of the formats.
-/
namespace GraphMat

variable {E T U V : Type}

/-- The edges (with the one-based ids of the matrix) lie in the `m` x `n` tile behind row `rs` and column `cs`. -/
def EdgesIn (m n rs cs : Nat) (edges : List (Edge E)) : Prop :=
  ∀ e ∈ edges, (rs : Int) < e.src ∧ e.src ≤ (rs : Int) + m ∧ (cs : Int) < e.dst ∧ e.dst ≤ (cs : Int) + n

/-- `get_edges` returned the edges, each once, in some order. -/
def ReturnsEdges (edges : List (Edge E)) (res : Option (List (Edge E))) : Prop := ∃ l, res = some l ∧ l.Perm edges

/-- The products that the edges contribute to row `i` of the tile: one for each edge in that row in whose column the
vector has a value. -/
def rowProducts (rs cs : Nat) (x : Nat → Option T) (pm : E → T → U) (edges : List (Edge E)) (i : Nat) : List U :=
  edges.filterMap (fun e => if e.src = (rs : Int) + i + 1 then (x (e.dst - (cs : Int) - 1).toNat).map (pm e.val) else none)

/-- `mult` is the multiplication with a tile that has the given edges: it does not fail, and in each row it reduces the old
value, if there is one, and all products of the row, each exactly once. -/
def MultipliesBy (m n rs cs : Nat) (edges : List (Edge E)) (pm : E → T → U) (add : U → U → U)
    (mult : Segment T → Segment U → Option (Segment U)) : Prop :=
  ∀ sx sy, sx.WF → sx.Ready → sy.WF → sx.capacity = n → sy.capacity = m →
    ∃ sy', mult sx sy = some sy' ∧ sy'.WF ∧ sy'.Ready ∧ sy'.capacity = m ∧
      ∀ i, Reduces add ((sy.view i).toList ++ rowProducts rs cs sx.view pm edges i) (sy'.view i)

/-- The same with vertex properties: every row has a property, which takes part in the products of the row. -/
def MultipliesBy3 (m n rs cs : Nat) (edges : List (Edge E)) (pm : E → T → V → U) (add : U → U → U)
    (mult : Segment T → Segment V → Segment U → Option (Segment U)) : Prop :=
  ∀ sx sv sy, sx.WF → sx.Ready → sv.WF → sv.Ready → sy.WF → sx.capacity = n → sv.capacity = m → sy.capacity = m →
    ∀ vm : Nat → V, (∀ i, i < m → sv.view i = some (vm i)) →
      ∃ sy', mult sx sv sy = some sy' ∧ sy'.WF ∧ sy'.Ready ∧ sy'.capacity = m ∧
        ∀ i, Reduces add ((sy.view i).toList ++ rowProducts rs cs sx.view (fun e x => pm e x (vm i)) edges i) (sy'.view i)

/-- The value of each row with an associative and commutative reduction. -/
def productOf (rs cs : Nat) (edges : List (Edge E)) (pm : E → T → U) (add : U → U → U) (x : Nat → Option T)
    (y : Nat → Option U) (i : Nat) : Option U := reduceAll add ((y i).toList ++ rowProducts rs cs x pm edges i)

end GraphMat
