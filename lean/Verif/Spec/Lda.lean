import Verif.Spec.Sgd

/-!
# Specification: topic model, in exact arithmetic

Vertices `1..ndoc` are documents, `ndoc+1..n` are words; an edge joins a document and a word, its value is the number
of occurrences.  Each vertex has one expected count per topic.
-/
namespace GraphMat

variable {K : Nat}

/-- The part of topic `i` in weights `w`. -/
def shareOf (w : Fin K → Rat) (i : Fin K) : Rat := w i / ∑ j, w j

/-- The edge joins a document and a word. -/
def Edge.Joins (ndoc : Nat) (e : Edge Int) : Prop :=
  (e.src ≤ ndoc ∧ ndoc < e.dst) ∨ (e.dst ≤ ndoc ∧ ndoc < e.src)

/-- The document of an edge. -/
def docOf (ndoc : Nat) (e : Edge Int) : Nat := if e.src ≤ ndoc then e.src.toNat else e.dst.toNat

/-- The word of an edge. -/
def wordOf (ndoc : Nat) (e : Edge Int) : Nat := if e.src ≤ ndoc then e.dst.toNat else e.src.toNat

/-- At `v`, the occurrences of all edges of `v`, of each the part `q`. -/
def gather (es : List (Edge Int)) (q : Edge Int → Rat) (v : Nat) : Rat :=
  ((es.filter (fun e => decide (e.dst = (v : Int)))).map (fun e => q e * e.val)).sum +
  ((es.filter (fun e => decide (e.src = (v : Int)))).map (fun e => q e * e.val)).sum

/-- The number of occurrences at `v`. -/
def tokensAt (es : List (Edge Int)) (v : Nat) : Rat := gather es (fun _ => 1) v

/-- Total count of a topic over all words. -/
def wordTotal (ndoc n : Nat) (x : Nat → Fin K → Rat) : Fin K → Rat := fun i => ∑ v ∈ Finset.Icc (ndoc + 1) n, x v i

/-- Total count of a topic over all documents. -/
def docTotal (es : List (Edge Int)) (ndoc : Nat) (x : Nat → Fin K → Rat) : Fin K → Rat := fun i =>
  ∑ v ∈ Finset.Icc 1 ndoc, if Rated es v then x v i else 0

/-- Weights of the topics for an occurrence in a document with counts `d` of a word with counts `w`, if the topics
have the total counts `g` and there are `vocab` words. -/
def topicWeight (alpha eta vocab : Rat) (g d w : Fin K → Rat) : Fin K → Rat := fun i =>
  (d i + (alpha - 1)) * (w i + (eta - 1)) / (g i + vocab * (eta - 1))

/-- The topics of the occurrences on edge `e`, given the counts `x`. -/
def edgeTopics (alpha eta vocab : Rat) (ndoc n : Nat) (x : Nat → Fin K → Rat) (e : Edge Int) : Fin K → Rat :=
  topicWeight alpha eta vocab (wordTotal ndoc n x) (x (docOf ndoc e)) (x (wordOf ndoc e))

/-- Initial counts: the topics of the occurrences on an edge are drawn; a vertex without edges keeps what it has. -/
def ldaStart (es : List (Edge Int)) (rnd : Int → Fin K → Rat) (x : Nat → Fin K → Rat) : Nat → Fin K → Rat := fun v i =>
  if Rated es v then gather es (fun e => shareOf (rnd e.val) i) v else x v i

/-- New counts from old. -/
def ldaNext (alpha eta vocab : Rat) (es : List (Edge Int)) (ndoc n : Nat) (x : Nat → Fin K → Rat) :
    Nat → Fin K → Rat := fun v i =>
  if Rated es v then gather es (fun e => shareOf (edgeTopics alpha eta vocab ndoc n x e) i) v else x v i

/-- No count differs by more than a thousandth. -/
def CountsSettled (n : Nat) (x y : Nat → Fin K → Rat) : Prop := ∀ v, 1 ≤ v → v ≤ n → ∀ i, |y v i - x v i| ≤ 1 / 1000

/-- Probability of the word `w` in a document with counts `d`, as the program estimates it (with `eta` used to smooth
both distributions). -/
def wordProb (eta vocab : Rat) (g d w : Fin K → Rat) : Rat :=
  ∑ i, (w i + (eta - 1)) / (g i + vocab * (eta - 1)) * shareOf (fun j => d j + (eta - 1)) i

/-- The reported sum: for each edge, number of occurrences times logarithm of the probability of its end in the
document at its beginning. -/
def logLik (lg : Rat → Rat) (eta vocab : Rat) (es : List (Edge Int)) (ndoc n : Nat) (x : Nat → Fin K → Rat) : Rat :=
  (es.map (fun e => (e.val : Rat) * lg (wordProb eta vocab (wordTotal ndoc n x) (x e.src.toNat) (x e.dst.toNat)))).sum

end GraphMat
