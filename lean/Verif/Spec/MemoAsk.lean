import Verif.Spec.MemoProg
import Verif.Spec.AskProg

/-!
# What programs that also ask for results do, without any condition
-/
namespace GraphMat

variable {E T A : Type}

/-- What one call may do and answer; outcome `none`: the program fails.  A reduction combines the visible values and its initial value, the latter
`copies` times, and brings all parts into use without hidden values; a count looks at visible values. -/
def AskOp.MemoStep (copies n nseg : Nat) (part : Nat → Option Nat) (sharedX sharedV : Nat → Prop) [DecidablePred sharedX] [DecidablePred sharedV]
    (entries : List (Edge E)) (op : AskOp E T A) (s : Nat → Memo T) (o : Option ((Nat → Memo T) × List (Answer A))) : Prop :=
  match op with
  | .call op => ∃ o1, op.MemoStep n nseg part sharedX sharedV entries s o1 ∧ o = o1.map (fun s' => (s', []))
  | .reduce m w op e i => ∃ x, Reduces op (List.replicate copies e ++ mapValues n m ((s i).seen part)) (some x) ∧
      o = some (fun v => if v = i then ⟨fun k => ((s i).seen part k).map w, fun _ => .used⟩ else s v, [.val x])
  | .count i => o = some (s, [.num ((List.range n).countP (fun j => ((s i).seen part (j + 1)).isSome))])

/-- What a sequence of calls may do and answer. -/
inductive MemoAsks (copies n nseg : Nat) (part : Nat → Option Nat) (sharedX sharedV : Nat → Prop) [DecidablePred sharedX] [DecidablePred sharedV]
    (entries : List (Edge E)) : List (AskOp E T A) → (Nat → Memo T) → Option ((Nat → Memo T) × List (Answer A)) → Prop
  | nil {s} : MemoAsks copies n nseg part sharedX sharedV entries [] s (some (s, []))
  | fail {op ops s} (h : op.MemoStep copies n nseg part sharedX sharedV entries s none) :
      MemoAsks copies n nseg part sharedX sharedV entries (op :: ops) s none
  | cons {op ops s s1 out o} (h : op.MemoStep copies n nseg part sharedX sharedV entries s (some (s1, out)))
      (t : MemoAsks copies n nseg part sharedX sharedV entries ops s1 o) :
      MemoAsks copies n nseg part sharedX sharedV entries (op :: ops) s (o.map (fun r => (r.1, out ++ r.2)))

end GraphMat
