import Verif.Spec.Mult

/-!
# Specification of programs that multiply with a third vector

As `Spec/Mult.lean`; the product `y += A (x, v)` passes to the function `mul` also the value that `v` has in the row of the
entry.
-/
namespace GraphMat

variable {E T U V : Type}

/-- The products that the entries in row `w` contribute: one for each entry in whose column `x` and in whose row `v` has a
value. -/
def matProducts3 (x : Nat → Option T) (v : Nat → Option V) (pm : E → T → V → U) (entries : List (Edge E)) (w : Nat) : List U :=
  entries.filterMap (fun e => if e.src = (w : Int) then (x e.dst.toNat).bind (fun t => (v w).map (pm e.val t)) else none)

/-- In the row of every entry in whose column `x` has a value, `v` has a value. -/
def Covered (entries : List (Edge E)) (x : Nat → Option T) (v : Nat → Option V) : Prop :=
  ∀ e ∈ entries, (x e.dst.toNat).isSome → (v e.src.toNat).isSome

/-- A call on one of the three vectors, the product `y += A x`, or the product `y += A (x, v)`. -/
inductive Mul3Op (T V U : Type) where
  | onX (op : VecOp T)
  | onV (op : VecOp V)
  | onY (op : VecOp U)
  | mul
  | mul3

/-- The indices of the calls exist: `x` has `n` elements, `v` and `y` have `m`. -/
def Mul3Op.Valid (m n : Nat) : Mul3Op T V U → Prop
  | .onX op => op.Valid n
  | .onV op => op.Valid m
  | .onY op => op.Valid m
  | _ => True

/-- The maps that `x` and `v` hold after a call: they change only by the calls on them. -/
def Mul3Op.inSpec : Mul3Op T V U → (Nat → Option T) × (Nat → Option V) → (Nat → Option T) × (Nat → Option V)
  | .onX o, s => (o.spec s.1, s.2)
  | .onV o, s => (s.1, o.spec s.2)
  | _, s => s

/-- What one call may do to the map that `y` holds.  The order of additions within one row is not specified. -/
def Mul3Op.StepY (m : Nat) (entries : List (Edge E)) (pm : E → T → U) (pm3 : E → T → V → U) (add : U → U → U)
    (op : Mul3Op T V U) (s : (Nat → Option T) × (Nat → Option V)) (y y' : Nat → Option U) : Prop :=
  ∀ w, 1 ≤ w → w ≤ m → match op with
    | .onX _ => y' w = y w
    | .onV _ => y' w = y w
    | .onY o => y' w = o.spec y w
    | .mul => Reduces add ((y w).toList ++ matProducts s.1 pm entries w) (y' w)
    | .mul3 => Reduces add ((y w).toList ++ matProducts3 s.1 s.2 pm3 entries w) (y' w)

/-- The maps that `x` and `v` hold after a sequence of calls. -/
def inMaps (ops : List (Mul3Op T V U)) (s : (Nat → Option T) × (Nat → Option V)) : (Nat → Option T) × (Nat → Option V) :=
  ops.foldl (fun s op => op.inSpec s) s

/-- What a sequence of calls may do to the map that `y` holds. -/
inductive Mul3Steps (m : Nat) (entries : List (Edge E)) (pm : E → T → U) (pm3 : E → T → V → U) (add : U → U → U) :
    List (Mul3Op T V U) → (Nat → Option T) × (Nat → Option V) → (Nat → Option U) → (Nat → Option U) → Prop
  | nil {s y y'} (hy : ∀ w, 1 ≤ w → w ≤ m → y' w = y w) : Mul3Steps m entries pm pm3 add [] s y y'
  | cons {op ops s y y1 y'} (h : op.StepY m entries pm pm3 add s y y1)
      (t : Mul3Steps m entries pm pm3 add ops (op.inSpec s) y1 y') : Mul3Steps m entries pm pm3 add (op :: ops) s y y'

/-! ### Which parts of a vector are in use -/

/-- A vector is stored in parts; `part w` is the part of element `w`.  A part is in use when a call on one of its elements or
on the whole vector has been made after the last `Clear`. -/
def VecOp.inUse {α : Type} (part : Nat → Option Nat) : VecOp α → (Nat → Bool) → Nat → Bool
  | .set w _, u => fun p => decide (part w = some p) || u p
  | .unset w, u => fun p => decide (part w = some p) || u p
  | .setAll _, _ => fun _ => true
  | .clear, _ => fun _ => false

/-- The parts of `x` and of `v` that are in use after a call; after a product all parts of its operands are. -/
def Mul3Op.inUse (partX partV : Nat → Option Nat) : Mul3Op T V U → (Nat → Bool) × (Nat → Bool) → (Nat → Bool) × (Nat → Bool)
  | .onX o, u => (o.inUse partX u.1, u.2)
  | .onV o, u => (u.1, o.inUse partV u.2)
  | .onY _, u => u
  | .mul, u => (fun _ => true, u.2)
  | .mul3, _ => (fun _ => true, fun _ => true)

/-- The operands of a call are stored: each part of the operands is in use, or is sent to another rank (`sharedX`,
`sharedV`). -/
def Mul3Op.Stored (ntx nty : Nat) (sharedX sharedV : Nat → Prop) (op : Mul3Op T V U) (u : (Nat → Bool) × (Nat → Bool)) : Prop :=
  match op with
  | .mul => ∀ p, p < ntx → u.1 p = true ∨ sharedX p
  | .mul3 => (∀ p, p < ntx → u.1 p = true ∨ sharedX p) ∧ ∀ p, p < nty → u.2 p = true ∨ sharedV p
  | _ => True

/-- The operands are stored at every product of a program. -/
def AllStored (ntx nty : Nat) (sharedX sharedV : Nat → Prop) (partX partV : Nat → Option Nat) :
    List (Mul3Op T V U) → (Nat → Bool) × (Nat → Bool) → Prop
  | [], _ => True
  | op :: ops, u => op.Stored ntx nty sharedX sharedV u ∧
      AllStored ntx nty sharedX sharedV partX partV ops (op.inUse partX partV u)

/-- At every product with `v` the values that it needs are there. -/
def AllCovered (entries : List (Edge E)) : List (Mul3Op T V U) → (Nat → Option T) × (Nat → Option V) → Prop
  | [], _ => True
  | op :: ops, s => (match op with | .mul3 => Covered entries s.1 s.2 | _ => True) ∧ AllCovered entries ops (op.inSpec s)

end GraphMat
