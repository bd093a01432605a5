import Verif.Spec.Reduce
import Verif.Model.Program

/-!
# Specification of a superstep and of a run

Independent of ranks, tiles, segments and renumbering: the graph is a list of edges with user ids, the
vertex properties are a map `P`, the active vertices a set `A`.  Only the types `Edge`, `EdgeDir` and
`GProg` (the user's functions) are shared with the model.
-/
namespace GraphMat

variable {S T U V E : Type}

/-- The values arriving at `d` along out-edges of active vertices: one per edge `u → d` with `u` active,
computed from `u`'s message, the edge value and `d`'s property. -/
def outMsgs (msg : V → T) (proc : T → E → V → U) (es : List (Edge E)) (P : Nat → V) (A : Nat → Bool) (d : Nat) :
    List U :=
  es.filterMap (fun e => if e.dst = (d : Int) ∧ A e.src.toNat = true
    then some (proc (msg (P e.src.toNat)) e.val (P d)) else none)

/-- The values arriving at `d` against the direction of the edges: one per edge `d → u` with `u` active. -/
def inMsgs (msg : V → T) (proc : T → E → V → U) (es : List (Edge E)) (P : Nat → V) (A : Nat → Bool) (d : Nat) :
    List U :=
  es.filterMap (fun e => if e.src = (d : Int) ∧ A e.dst.toNat = true
    then some (proc (msg (P e.dst.toNat)) e.val (P d)) else none)

/-- Everything that arrives at `d` for a given edge direction. -/
def inbox (dir : EdgeDir) (msg : V → T) (proc : T → E → V → U) (es : List (Edge E)) (P : Nat → V) (A : Nat → Bool)
    (d : Nat) : List U :=
  match dir with
  | .out => outMsgs msg proc es P A d
  | .inn => inMsgs msg proc es P A d
  | .all => outMsgs msg proc es P A d ++ inMsgs msg proc es P A d

/-- The program's `send_message` and `process_message` compute `msg` and `proc` whatever their output
variable contained before, and a program that declares that it does not use the receiver's property does
not use it. -/
structure GProg.Pure (gp : GProg T U V E) (msg : V → T) (proc : T → E → V → U) : Prop where
  send : ∀ p old, (gp.send p old).2 = msg p
  process : ∀ t e v old, gp.process t e v old = proc t e v
  noProp : gp.needsProp = false → ∀ t e v v', proc t e v = proc t e v'

/-- The property of a vertex after the reduced message `r` (if any) is applied. -/
def afterApply (apply : U → V → V) (old : V) : Option U → V
  | none => old
  | some u => apply u old

/-- The vertex received something and its property changed. -/
def gotChanged (apply : U → V → V) (ne : V → V → Bool) (old : V) : Option U → Bool
  | none => false
  | some u => ne old (apply u old)

/-- One superstep on vertices `1..n`: `(P, A)` becomes `(P', A')`; `conv` tells that nothing changed.  The
reduction may be done in any order and bracketing. -/
def StepRel (gp : GProg T U V E) (msg : V → T) (proc : T → E → V → U) (act : Bool) (n : Nat) (es : List (Edge E))
    (P : Nat → V) (A : Nat → Bool) (P' : Nat → V) (A' : Nat → Bool) (conv : Bool) : Prop :=
  ∃ res : Nat → Option U,
    (∀ d, 1 ≤ d → d ≤ n → Reduces gp.reduce (inbox gp.order msg proc es P A d) (res d)) ∧
    (∀ d, 1 ≤ d → d ≤ n → P' d = afterApply gp.apply (P d) (res d)) ∧
    (∀ d, 1 ≤ d → d ≤ n → A' d = (act || gotChanged gp.apply gp.ne (P d) (res d))) ∧
    (conv = true ↔ ∀ d, 1 ≤ d → d ≤ n → gotChanged gp.apply gp.ne (P d) (res d) = false)

/-- `k` supersteps from `(P, A, s)`; `s` is the state of the program object, which `every` changes after
each superstep; `c` lists for each superstep whether nothing changed. -/
inductive Steps (gp : S → GProg T U V E) (every : Int → S → S) (msg : S → V → T) (proc : S → T → E → V → U)
    (act : Bool) (n : Nat) (es : List (Edge E)) (P : Nat → V) (A : Nat → Bool) (s : S) :
    Nat → (Nat → V) → (Nat → Bool) → S → List Bool → Prop
  | zero : Steps gp every msg proc act n es P A s 0 P A s []
  | succ {k : Nat} {P1 P2 : Nat → V} {A1 A2 : Nat → Bool} {s1 : S} {cs : List Bool} {c : Bool} :
      Steps gp every msg proc act n es P A s k P1 A1 s1 cs →
      StepRel (gp s1) (msg s1) (proc s1) act n es P1 A1 P2 A2 c →
      Steps gp every msg proc act n es P A s (k + 1) P2 A2 (every k s1) (cs ++ [c])

end GraphMat
