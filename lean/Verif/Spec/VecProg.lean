import Verif.Spec.Mult3

/-!
# Specification of programs that use all operations on vectors

A program has vectors `0, 1, 2, …` of one element type and one length, and a square matrix.  Each vector is a partial map from
`1 … n` to values.
-/
namespace GraphMat

variable {E T : Type}

/-- A call of a program. -/
inductive VarOp (E T : Type) where
  /-- `set`, `unset`, `setAll` or `Clear` on vector `i` -/
  | on (i : Nat) (op : VecOp T)
  /-- `Apply` from vector `i` to another vector `j` -/
  | apply (f : T → T) (i j : Nat)
  /-- `Apply` from vector `i` to itself -/
  | applySelf (f : T → T) (i : Nat)
  /-- `IntersectReduce` of vectors `i` and `j` to vector `k` -/
  | intersect (f : T → T → T) (i j k : Nat)
  /-- the product of the matrix and vector `i` is added to vector `j` -/
  | mul (pm : E → T → T) (add : T → T → T) (i j : Nat)
  /-- the product of the matrix and vectors `i` (by columns) and `j` (by rows) is added to vector `k` -/
  | mul3 (pm : E → T → T → T) (add : T → T → T) (i j k : Nat)

/-- Indices of elements exist; outputs are not inputs. -/
def VarOp.Valid (n : Nat) : VarOp E T → Prop
  | .on _ op => op.Valid n
  | .apply _ i j => i ≠ j
  | .applySelf _ _ => True
  | .intersect _ i j k => i ≠ k ∧ j ≠ k
  | .mul _ _ i j => i ≠ j
  | .mul3 _ _ i j k => i ≠ j ∧ i ≠ k ∧ j ≠ k

/-- What one call may do to the maps.  `Apply` replaces the values where its input has values; `IntersectReduce` replaces the
whole output.  The order of additions within one row of a product is not specified. -/
def VarOp.Step (n : Nat) (entries : List (Edge E)) (op : VarOp E T) (s s' : Nat → Nat → Option T) : Prop :=
  ∀ v w, 1 ≤ w → w ≤ n → match op with
    | .on i o => s' v w = if v = i then o.spec (s i) w else s v w
    | .apply f i j => s' v w = if v = j then (match s i w with | some x => some (f x) | none => s j w) else s v w
    | .applySelf f i => s' v w = if v = i then (s i w).map f else s v w
    | .intersect f i j k => s' v w = if v = k then (s i w).bind (fun a => (s j w).map (f a)) else s v w
    | .mul pm add i j =>
      if v = j then Reduces add ((s j w).toList ++ matProducts (s i) pm entries w) (s' j w) else s' v w = s v w
    | .mul3 pm add i j k =>
      if v = k then Reduces add ((s k w).toList ++ matProducts3 (s i) (s j) pm entries w) (s' k w) else s' v w = s v w

/-- What a sequence of calls may do to the maps. -/
inductive VarSteps (n : Nat) (entries : List (Edge E)) :
    List (VarOp E T) → (Nat → Nat → Option T) → (Nat → Nat → Option T) → Prop
  | nil {s} : VarSteps n entries [] s s
  | cons {op ops s s1 s'} (h : op.Step n entries s s1) (t : VarSteps n entries ops s1 s') : VarSteps n entries (op :: ops) s s'

/-! ### The history of the parts of a vector -/

/-- A part of a vector has not been written yet, has been cleared and not been written since, or is in use. -/
inductive PartUse where
  | never
  | cleared
  | used
  deriving DecidableEq

/-- The parts of a vector after a call on it; `part w` is the part of element `w`. -/
def VecOp.use {α : Type} (part : Nat → Option Nat) : VecOp α → (Nat → PartUse) → Nat → PartUse
  | .set w _, u => fun p => if part w = some p then .used else u p
  | .unset w, u => fun p => if part w = some p then .used else u p
  | .setAll _, _ => fun _ => .used
  | .clear, u => fun p => if u p = .never then .never else .cleared

/-- The parts of all vectors after a call: outputs of operations, and operands of products, are in use. -/
def VarOp.use (part : Nat → Option Nat) (op : VarOp E T) (u : Nat → Nat → PartUse) (v : Nat) : Nat → PartUse :=
  match op with
  | .on i o => if v = i then o.use part (u i) else u v
  | .apply _ _ j => if v = j then fun _ => .used else u v
  | .applySelf _ i => if v = i then fun _ => .used else u v
  | .intersect _ _ _ k => if v = k then fun _ => .used else u v
  | .mul _ _ i j => if v = i ∨ v = j then fun _ => .used else u v
  | .mul3 _ _ i j k => if v = i ∨ v = j ∨ v = k then fun _ => .used else u v

/-- The condition on the history of the operands: the input of `Apply` is in use; the inputs of `IntersectReduce` have been
written at least once, and where one of them is cleared the output is not in use; the operands of products are in use or
are sent to another rank (`sharedX`, `sharedV`), and the values that the product needs are there. -/
def VarOp.Safe (nseg : Nat) (sharedX sharedV : Nat → Prop) (entries : List (Edge E)) (op : VarOp E T)
    (u : Nat → Nat → PartUse) (s : Nat → Nat → Option T) : Prop :=
  match op with
  | .apply _ i _ => ∀ p, p < nseg → u i p = .used
  | .intersect _ i j k => ∀ p, p < nseg → u i p ≠ .never ∧ u j p ≠ .never ∧ (u i p = .used ∧ u j p = .used ∨ u k p ≠ .used)
  | .mul _ _ i _ => ∀ p, p < nseg → u i p = .used ∨ sharedX p
  | .mul3 _ _ i j _ => (∀ p, p < nseg → u i p = .used ∨ sharedX p) ∧ (∀ p, p < nseg → u j p = .used ∨ sharedV p) ∧
      Covered entries (s i) (s j)
  | _ => True

/-- The condition holds at every call, whatever the earlier calls of the program did. -/
def AllSafe (n nseg : Nat) (sharedX sharedV : Nat → Prop) (part : Nat → Option Nat) (entries : List (Edge E)) :
    List (VarOp E T) → (Nat → Nat → PartUse) → (Nat → Nat → Option T) → Prop
  | [], _, _ => True
  | op :: ops, u, s => op.Safe nseg sharedX sharedV entries u s ∧
      ∀ s', op.Step n entries s s' → AllSafe n nseg sharedX sharedV part entries ops (op.use part u) s'

end GraphMat
