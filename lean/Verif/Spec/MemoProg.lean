import Verif.Spec.VecProg

/-!
# What programs that use vectors do, without any condition

`Clear` only hides values.  A vector is described by the values it remembers and by the history of its parts; a part shows its values if
it is in use.
-/
namespace GraphMat

variable {E T : Type}

/-- The values a vector remembers, and the history of its parts. -/
structure Memo (T : Type) where
  val : Nat → Option T
  use : Nat → PartUse

/-- Nothing was written yet. -/
def Memo.new : Memo T := ⟨fun _ => none, fun _ => .never⟩

/-- The values that can be seen. -/
def Memo.seen (part : Nat → Option Nat) (m : Memo T) (w : Nat) : Option T :=
  match part w with
  | some p => if m.use p = .used then m.val w else none
  | none => none

/-- All parts have been written at least once. -/
def Memo.written (nseg : Nat) (m : Memo T) : Bool := (List.range nseg).all (fun p => decide (m.use p ≠ .never))

/-- `set` and `unset` change a part and make all of it visible, without the values that were hidden before; `Clear` keeps the values. -/
def VecOp.memo (part : Nat → Option Nat) (op : VecOp T) (m : Memo T) : Memo T where
  val w := match op with
    | .set u _ => if part w = part u then op.spec (m.seen part) w else m.val w
    | .unset u => if part w = part u then op.spec (m.seen part) w else m.val w
    | .setAll x => some x
    | .clear => m.val w
  use := op.use part m.use

/-- The operand of a product: sending a part to other ranks brings it into use, without its hidden values. -/
def Memo.sent (part : Nat → Option Nat) (shared : Nat → Prop) [DecidablePred shared] (m : Memo T) : Memo T where
  val w := if (part w).any (fun p => decide (shared p)) then m.seen part w else m.val w
  use p := if shared p then .used else m.use p

/-- What one call may do; outcome `none`: the program fails.  `Apply` and products use the values their inputs *remember*, and fail if a part of an
input was never written (in products: and is not sent).  `IntersectReduce` changes nothing in parts where one of its inputs is not in use.  The product with a third vector also fails if
a value that it needs is missing. -/
def VarOp.MemoStep (n nseg : Nat) (part : Nat → Option Nat) (sharedX sharedV : Nat → Prop) [DecidablePred sharedX] [DecidablePred sharedV]
    (entries : List (Edge E)) (op : VarOp E T) (s : Nat → Memo T) (o : Option (Nat → Memo T)) : Prop :=
  match op with
  | .on i op => o = some (fun v => if v = i then op.memo part (s i) else s v)
  | .apply f i j => o =
    if (s i).written nseg then
      some (fun v => if v = j then ⟨fun w => match (s i).val w with | some x => some (f x) | none => (s j).seen part w, fun _ => .used⟩ else s v)
    else none
  | .applySelf f i => o = some (fun v => if v = i then ⟨fun w => ((s i).seen part w).map f, fun _ => .used⟩ else s v)
  | .intersect f i j k => o =
    if (s i).written nseg && (s j).written nseg then
      some (fun v => if v = k then
        ⟨fun w => if (part w).any (fun p => decide ((s i).use p = .used ∧ (s j).use p = .used))
          then ((s i).val w).bind (fun a => ((s j).val w).map (f a)) else (s k).seen part w, fun _ => .used⟩ else s v)
    else none
  | .mul pm add i j =>
    if ((s i).sent part sharedX).written nseg then
      ∃ y : Nat → Option T, o = some (fun v => if v = j then ⟨y, fun _ => .used⟩ else if v = i then (s i).sent part sharedX else s v) ∧
        ∀ w, 1 ≤ w → w ≤ n → Reduces add (((s j).seen part w).toList ++ matProducts ((s i).sent part sharedX).val pm entries w) (y w)
    else o = none
  | .mul3 pm add i j k =>
    (((s i).sent part sharedX).written nseg = true ∧ ((s j).sent part sharedV).written nseg = true ∧
        Covered entries ((s i).sent part sharedX).val ((s j).sent part sharedV).val ∧
      ∃ y : Nat → Option T, o = some (fun v => if v = k then ⟨y, fun _ => .used⟩ else if v = j then (s j).sent part sharedV
          else if v = i then (s i).sent part sharedX else s v) ∧
        ∀ w, 1 ≤ w → w ≤ n → Reduces add (((s k).seen part w).toList ++
          matProducts3 ((s i).sent part sharedX).val ((s j).sent part sharedV).val pm entries w) (y w)) ∨
    (¬ (((s i).sent part sharedX).written nseg = true ∧ ((s j).sent part sharedV).written nseg = true ∧
        Covered entries ((s i).sent part sharedX).val ((s j).sent part sharedV).val) ∧ o = none)

/-- What a sequence of calls may do. -/
inductive MemoSteps (n nseg : Nat) (part : Nat → Option Nat) (sharedX sharedV : Nat → Prop) [DecidablePred sharedX] [DecidablePred sharedV]
    (entries : List (Edge E)) : List (VarOp E T) → (Nat → Memo T) → Option (Nat → Memo T) → Prop
  | nil {s} : MemoSteps n nseg part sharedX sharedV entries [] s (some s)
  | fail {op ops s} (h : op.MemoStep n nseg part sharedX sharedV entries s none) :
      MemoSteps n nseg part sharedX sharedV entries (op :: ops) s none
  | cons {op ops s s1 o} (h : op.MemoStep n nseg part sharedX sharedV entries s (some s1))
      (t : MemoSteps n nseg part sharedX sharedV entries ops s1 o) : MemoSteps n nseg part sharedX sharedV entries (op :: ops) s o

end GraphMat
