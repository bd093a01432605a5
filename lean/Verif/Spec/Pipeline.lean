import Verif.Spec.Paths
import Verif.Spec.Triangles

/-!
# Specification: graphs on their way from the input of the converter to a program

The graph is a list of edges with user ids.  Only the type `Edge` is shared with the model.
-/
namespace GraphMat

variable {E F : Type}

/-- The edges, and with `both` also their reverses. -/
def arcsOf (both : Bool) (l : List (Edge E)) : List (Edge E) :=
  if both then l ++ l.map (fun e => ⟨e.dst, e.src, e.val⟩) else l

/-- Edges between the same two different vertices have the same value. -/
def SameValues (l : List (Edge E)) : Prop :=
  ∀ x ∈ l, ∀ y ∈ l, x.src = y.src → x.dst = y.dst → x.src ≠ x.dst → x = y

/-- The same edge with the value read in another way. -/
def Edge.mapVal (f : E → F) (e : Edge E) : Edge F := ⟨e.src, e.dst, f e.val⟩

/-- The vertices are connected by an edge in one direction or the other. -/
def Adjacent (l : List (Edge E)) (u v : Nat) : Prop := HasEdge l u v ∨ HasEdge l v u

/-- A triangle of the undirected graph: three vertices in increasing order, each two of them connected. -/
def IsClique3 (l : List (Edge E)) (t : Nat × Nat × Nat) : Prop :=
  t.1 < t.2.1 ∧ t.2.1 < t.2.2 ∧ Adjacent l t.1 t.2.1 ∧ Adjacent l t.2.1 t.2.2 ∧ Adjacent l t.1 t.2.2

end GraphMat
