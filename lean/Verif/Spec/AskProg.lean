import Verif.Spec.VecProg

/-!
# Specification of programs that also ask for results

The programs of `Spec/VecProg`, which may also reduce a vector to one value and ask for its number of entries.
-/
namespace GraphMat

variable {E T A : Type}

/-- A call of a program that may have a result.  `A` is the type of the results of reductions, which need not be that of the elements. -/
inductive AskOp (E T A : Type) where
  /-- a call without a result -/
  | call (op : VarOp E T)
  /-- `MapReduce` of vector `i`: the values become `w` of themselves, and `op` combines `e` and `m` of the values -/
  | reduce (m : T → A) (w : T → T) (op : A → A → A) (e : A) (i : Nat)
  /-- `getNNZ` of vector `i` -/
  | count (i : Nat)

/-- The result of a call. -/
inductive Answer (A : Type) where
  | val (x : A)
  | num (k : Nat)
  deriving DecidableEq

/-- Valid calls. -/
def AskOp.Valid (n : Nat) : AskOp E T A → Prop
  | .call op => op.Valid n
  | _ => True

/-- The mapped values of a vector. -/
def mapValues (n : Nat) (m : T → A) (s : Nat → Option T) : List A := (List.range n).filterMap (fun j => (s (j + 1)).map m)

/-- What one call may do to the maps and what it may answer; the initial value of a reduction takes part in it `copies` times.
The order in which values are combined is not specified. -/
def AskOp.Step (copies n : Nat) (entries : List (Edge E)) (op : AskOp E T A) (s s' : Nat → Nat → Option T) (out : List (Answer A)) : Prop :=
  match op with
  | .call op => op.Step n entries s s' ∧ out = []
  | .reduce m w op e i => (∀ v x, 1 ≤ x → x ≤ n → s' v x = if v = i then (s i x).map w else s v x) ∧
      ∃ x, out = [.val x] ∧ Reduces op (List.replicate copies e ++ mapValues n m (s i)) (some x)
  | .count i => s' = s ∧ out = [.num ((List.range n).countP (fun j => (s i (j + 1)).isSome))]

/-- What a sequence of calls may do and answer. -/
inductive AskSteps (copies n : Nat) (entries : List (Edge E)) :
    List (AskOp E T A) → (Nat → Nat → Option T) → (Nat → Nat → Option T) → List (Answer A) → Prop
  | nil {s} : AskSteps copies n entries [] s s []
  | cons {op ops s s1 s' out outs} (h : op.Step copies n entries s s1 out) (t : AskSteps copies n entries ops s1 s' outs) :
      AskSteps copies n entries (op :: ops) s s' (out ++ outs)

/-- The parts of all vectors after a call: a vector that was reduced is in use. -/
def AskOp.use (part : Nat → Option Nat) (op : AskOp E T A) (u : Nat → Nat → PartUse) (v : Nat) : Nat → PartUse :=
  match op with
  | .call op => op.use part u v
  | .reduce _ _ _ _ i => if v = i then fun _ => .used else u v
  | .count _ => u v

/-- The condition on operands: reductions and counts have none. -/
def AskOp.Safe (nseg : Nat) (sharedX sharedV : Nat → Prop) (entries : List (Edge E)) (op : AskOp E T A)
    (u : Nat → Nat → PartUse) (s : Nat → Nat → Option T) : Prop :=
  match op with
  | .call op => op.Safe nseg sharedX sharedV entries u s
  | _ => True

/-- The condition holds at every call, whatever the earlier calls of the program did. -/
def AsksSafe (copies n nseg : Nat) (sharedX sharedV : Nat → Prop) (part : Nat → Option Nat) (entries : List (Edge E)) :
    List (AskOp E T A) → (Nat → Nat → PartUse) → (Nat → Nat → Option T) → Prop
  | [], _, _ => True
  | op :: ops, u, s => op.Safe nseg sharedX sharedV entries u s ∧
      ∀ s' out, op.Step copies n entries s s' out → AsksSafe copies n nseg sharedX sharedV part entries ops (op.use part u) s'

/-- A reduction combines with an associative and commutative operator and begins with an identity of it. -/
def AskOp.Neutral : AskOp E T A → Prop
  | .reduce _ _ op e _ => (∀ a b c, op (op a b) c = op a (op b c)) ∧ (∀ a b, op a b = op b a) ∧ ∀ a, op e a = a
  | _ => True

end GraphMat
