import Verif.Spec.Reduce
import Verif.Spec.Vertex
import Verif.Model.EdgeList

/-!
# Specification of programs that multiply a matrix with vectors

Independent of tiles, segments, ranks and buffers: a matrix is its list of entries, a vector is a partial map.
-/
namespace GraphMat

variable {E T U : Type}

/-- The products that the entries in row `w` of a matrix contribute: one for each entry in whose column the vector has a
value. -/
def matProducts (x : Nat → Option T) (pm : E → T → U) (entries : List (Edge E)) (w : Nat) : List U :=
  entries.filterMap (fun e => if e.src = (w : Int) then (x e.dst.toNat).map (pm e.val) else none)

/-- A call on the vector `x`, a call on the vector `y`, or the multiplication `y += A x`. -/
inductive MulOp (T U : Type) where
  | onX (op : VecOp T)
  | onY (op : VecOp U)
  | mul

/-- The indices of the calls exist: `x` has `n` elements, `y` has `m`. -/
def MulOp.Valid (m n : Nat) : MulOp T U → Prop
  | .onX op => op.Valid n
  | .onY op => op.Valid m
  | .mul => True

/-- What one call may do to the two maps.  The order of additions within one row is not specified. -/
def MulOp.Step (m n : Nat) (entries : List (Edge E)) (pm : E → T → U) (add : U → U → U) (op : MulOp T U)
    (x : Nat → Option T) (y : Nat → Option U) (x' : Nat → Option T) (y' : Nat → Option U) : Prop :=
  match op with
  | .onX o => (∀ w, 1 ≤ w → w ≤ n → x' w = o.spec x w) ∧ ∀ w, 1 ≤ w → w ≤ m → y' w = y w
  | .onY o => (∀ w, 1 ≤ w → w ≤ n → x' w = x w) ∧ ∀ w, 1 ≤ w → w ≤ m → y' w = o.spec y w
  | .mul => (∀ w, 1 ≤ w → w ≤ n → x' w = x w) ∧
      ∀ w, 1 ≤ w → w ≤ m → Reduces add ((y w).toList ++ matProducts x pm entries w) (y' w)

/-- The vector `x` changes only by the calls on it. -/
def MulOp.xSpec : MulOp T U → (Nat → Option T) → (Nat → Option T)
  | .onX o, x => o.spec x
  | _, x => x

/-- The map that `x` holds after a sequence of calls. -/
def xMap (ops : List (MulOp T U)) (x : Nat → Option T) : Nat → Option T := ops.foldl (fun x op => op.xSpec x) x

/-- What a sequence of calls may do. -/
inductive MulSteps (m n : Nat) (entries : List (Edge E)) (pm : E → T → U) (add : U → U → U) :
    List (MulOp T U) → (Nat → Option T) → (Nat → Option U) → (Nat → Option T) → (Nat → Option U) → Prop
  | nil {x x' y y'} (hx : ∀ w, 1 ≤ w → w ≤ n → x' w = x w) (hy : ∀ w, 1 ≤ w → w ≤ m → y' w = y w) :
      MulSteps m n entries pm add [] x y x' y'
  | cons {op ops x y x1 y1 x' y'} (h : op.Step m n entries pm add x y x1 y1)
      (t : MulSteps m n entries pm add ops x1 y1 x' y') : MulSteps m n entries pm add (op :: ops) x y x' y'

end GraphMat
