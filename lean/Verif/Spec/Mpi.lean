import Mathlib.Logic.Function.Basic

/-!
# Message passing

The part of the MPI standard that decides whether a program can get stuck: standard-mode blocking and
non-blocking point-to-point calls on one communicator, `MPI_Waitall`, and collective calls.  A rank is a list of
calls.  Nothing here refers to the model.

The `k`-th message with a tag that a rank sends to another rank (or to itself) is received by the `k`-th receive
that rank posts for the sender and this tag (messages with equal envelope do not overtake each other).  A
standard-mode send may return as soon as the message is buffered, but it may also wait until the matching receive
is posted; which of the two happens is up to the implementation and may differ from call to call.
-/
namespace GraphMat

/-- A call; `L` says which message is meant, the implementation sees only the tag of it. -/
inductive Call (L : Type) where
  | send (dst : Nat) (l : L)
  | recv (src : Nat) (l : L)
  | isend (dst : Nat) (l : L)
  | irecv (src : Nat) (l : L)
  /-- on all requests posted before -/
  | waitall
  /-- any collective operation of all ranks -/
  | coll

variable {L : Type}

/-- The message sent to `d`, if the call sends one. -/
def Call.sentTo (d : Nat) : Call L → Option L
  | .send d' l => if d' = d then some l else none
  | .isend d' l => if d' = d then some l else none
  | _ => none

/-- The message expected from `a`, if the call receives one. -/
def Call.recvFrom (a : Nat) : Call L → Option L
  | .recv a' l => if a' = a then some l else none
  | .irecv a' l => if a' = a then some l else none
  | _ => none

/-- Is it a collective call? -/
def Call.isColl : Call L → Bool
  | .coll => true
  | _ => false

/-- Every receive gets the message it is meant for: what `a` sends to `b` with a tag is, in order, what `b` expects
from `a` with this tag. -/
def Matched (tag : L → Nat) (P : Nat → List (Call L)) : Prop :=
  ∀ a b t, ((P a).filterMap (Call.sentTo b)).filter (fun l => tag l = t) =
    ((P b).filterMap (Call.recvFrom a)).filter (fun l => tag l = t)

/-- How far every rank has got. -/
structure MpiState where
  /-- number of calls that have returned -/
  pc : Nat → Nat
  /-- is the rank inside the next call? -/
  inCall : Nat → Bool

/-- The calls a rank has made so far. -/
def MpiState.made (P : Nat → List (Call L)) (s : MpiState) (r : Nat) : List (Call L) :=
  (P r).take (s.pc r + if s.inCall r then 1 else 0)

/-- Messages with tag `t` handed over by `a` for `b`. -/
def MpiState.sent (tag : L → Nat) (P : Nat → List (Call L)) (s : MpiState) (a b t : Nat) : Nat :=
  (((s.made P a).filterMap (Call.sentTo b)).filter (fun l => tag l = t)).length

/-- Receives posted by `b` for messages of `a` with tag `t`. -/
def MpiState.recvd (tag : L → Nat) (P : Nat → List (Call L)) (s : MpiState) (b a t : Nat) : Nat :=
  (((s.made P b).filterMap (Call.recvFrom a)).filter (fun l => tag l = t)).length

/-- Collective calls made. -/
def MpiState.colls (P : Nat → List (Call L)) (s : MpiState) (r : Nat) : Nat :=
  (s.made P r).countP Call.isColl

/-- May the call `c`, which rank `r` is in, return?  `sync`: sends are never buffered. -/
def MpiState.mayReturn (tag : L → Nat) (P : Nat → List (Call L)) (nrank : Nat) (sync : Bool) (s : MpiState)
    (r : Nat) : Call L → Prop
  | .send d l => sync = true → s.sent tag P r d (tag l) ≤ s.recvd tag P d r (tag l)
  | .recv a l => s.recvd tag P r a (tag l) ≤ s.sent tag P a r (tag l)
  | .isend _ _ => True
  | .irecv _ _ => True
  | .waitall => (sync = true → ∀ d t, d < nrank → s.sent tag P r d t ≤ s.recvd tag P d r t) ∧
      ∀ a t, a < nrank → s.recvd tag P r a t ≤ s.sent tag P a r t
  | .coll => ∀ q, q < nrank → s.colls P r ≤ s.colls P q

/-- One step of one rank: it enters its next call or returns from it. -/
inductive MpiStep (tag : L → Nat) (P : Nat → List (Call L)) (nrank : Nat) (sync : Bool) : MpiState → MpiState → Prop where
  | enter {s : MpiState} (r : Nat) : r < nrank → s.inCall r = false → s.pc r < (P r).length →
      MpiStep tag P nrank sync s { s with inCall := Function.update s.inCall r true }
  | ret {s : MpiState} (r : Nat) (c : Call L) : r < nrank → s.inCall r = true → (P r)[s.pc r]? = some c →
      s.mayReturn tag P nrank sync r c →
      MpiStep tag P nrank sync s { pc := Function.update s.pc r (s.pc r + 1), inCall := Function.update s.inCall r false }

/-- Before the first call. -/
def MpiState.init : MpiState := ⟨fun _ => 0, fun _ => false⟩

/-- All ranks have made all their calls. -/
def MpiState.Done (P : Nat → List (Call L)) (nrank : Nat) (s : MpiState) : Prop :=
  ∀ r, r < nrank → s.pc r = (P r).length ∧ s.inCall r = false

/-- `k` steps. -/
inductive MpiSteps (tag : L → Nat) (P : Nat → List (Call L)) (nrank : Nat) (sync : Bool) : Nat → MpiState → MpiState → Prop where
  | zero (s : MpiState) : MpiSteps tag P nrank sync 0 s s
  | succ {k : Nat} {s t u : MpiState} : MpiSteps tag P nrank sync k s t → MpiStep tag P nrank sync t u →
      MpiSteps tag P nrank sync (k + 1) s u

end GraphMat
