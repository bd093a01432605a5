import Verif.Lemmas.MapReduce
import Verif.Spec.Samples

/-!
# C22: `applyReduceAllVertices`
-/
namespace GraphMat

variable {V T : Type}

/-- The mapped properties of vertices `1..n`. -/
def mapped (n : Nat) (P : Nat → V) (m : V → T) : List T := (List.range n).map (fun j => m (P (j + 1)))

/-- What the call computes on any number of ranks and threads, for an arbitrary operator: a bracketing, in
some order, of the mapped properties of all vertices, each exactly once, *and of the initial value of every
rank*.  The map function may also change the properties (`w`); the result does not depend on the contents of
its uninitialised output variable if the function does not (`hm`). -/
theorem applyReduce_reduces_everything {map : V → T → T × V} {op : T → T → T} {tmp : Nat → Nat → Nat → T} {m : V → T}
    {w : V → V} (hm : ∀ v old, map v old = (m v, w v)) (g : Nat → Nat → Fresh V)
    {n nrank threads : Nat} (c : Cfg n nrank threads) (hfit : n + threads ≤ IMAX) {G : VGraph V}
    (hG : G.Inv n nrank threads) {P : Nat → V} (hP : G.Props n nrank threads P) (init : Nat → T) :
    ∃ G' x, G.applyReduceAllVertices g map op tmp init = some (G', x) ∧ G'.Inv n nrank threads ∧
      G'.Props n nrank threads (fun v => w (P v)) ∧ G'.active = G.active ∧
      Reduces op ((List.range nrank).map init ++ mapped n P m) (some x) := by
  obtain ⟨G', x, h1, h2, h3, h4, l, h5, h6⟩ := VGraph.applyReduce_spec (op := op) (tmp := tmp) hm g c hfit hG hP init
  exact ⟨G', x, h1, h2, h3, h4, h6.reduces.perm h5⟩

/-- C22, the part that holds: if every rank passes in an identity of the operator and the operator is
associative and commutative, the result is the reduction of the mapped properties of all vertices, the same
for every number of ranks and threads.  Missing from C22: other initial values
(`applyReduce_initial_value_counted_per_rank`). -/
theorem applyReduce_is_reduction_partial {map : V → T → T × V} {op : T → T → T} {tmp : Nat → Nat → Nat → T} {m : V → T}
    {w : V → V} (hm : ∀ v old, map v old = (m v, w v)) (g : Nat → Nat → Fresh V)
    {n nrank threads : Nat} (c : Cfg n nrank threads) (hfit : n + threads ≤ IMAX) {G : VGraph V}
    (hG : G.Inv n nrank threads) {P : Nat → V} (hP : G.Props n nrank threads P)
    (hassoc : ∀ a b c, op (op a b) c = op a (op b c)) (hcomm : ∀ a b, op a b = op b a)
    {e : T} (he : ∀ a, op e a = a) :
    ∃ G' x, G.applyReduceAllVertices g map op tmp (fun _ => e) = some (G', x) ∧ G'.Inv n nrank threads ∧
      G'.Props n nrank threads (fun v => w (P v)) ∧ G'.active = G.active ∧ x = (mapped n P m).foldl op e := by
  obtain ⟨G', x, h1, h2, h3, h4, h5⟩ := applyReduce_reduces_everything (op := op) (tmp := tmp) hm g c hfit hG hP
    (fun _ => e)
  refine ⟨G', x, h1, h2, h3, h4, ?_⟩
  have hx := Reduces.unique hassoc hcomm h5
  have hmap : (List.range nrank).map (fun _ => e) = List.replicate nrank e := by
    rw [List.map_const', List.length_range]
  rw [hmap] at hx
  obtain ⟨k, hk⟩ : ∃ k, nrank = k + 1 := ⟨nrank - 1, by have := c.rpos; omega⟩
  rw [hk, List.replicate_succ, List.cons_append] at hx
  simp only [reduceAll, Option.some.injEq] at hx
  rw [hx, List.foldl_append]
  congr 1
  have : ∀ j, (List.replicate j e).foldl op e = e := by
    intro j
    induction j with
    | zero => rfl
    | succ j ih => rw [List.replicate_succ, List.foldl_cons, he]; exact ih
  exact this k

/-- With a single rank the initial value may be anything (as documented: the result is accumulated into it);
only associativity and commutativity are needed. -/
theorem applyReduce_one_rank {map : V → T → T × V} {op : T → T → T} {tmp : Nat → Nat → Nat → T} {m : V → T}
    {w : V → V} (hm : ∀ v old, map v old = (m v, w v)) (g : Nat → Nat → Fresh V)
    {n threads : Nat} (c : Cfg n 1 threads) (hfit : n + threads ≤ IMAX) {G : VGraph V}
    (hG : G.Inv n 1 threads) {P : Nat → V} (hP : G.Props n 1 threads P)
    (hassoc : ∀ a b c, op (op a b) c = op a (op b c)) (hcomm : ∀ a b, op a b = op b a) (e : T) :
    ∃ G' x, G.applyReduceAllVertices g map op tmp (fun _ => e) = some (G', x) ∧
      x = (mapped n P m).foldl op e := by
  obtain ⟨G', x, h1, h2, h3, h4, h5⟩ := applyReduce_reduces_everything (op := op) (tmp := tmp) hm g c hfit hG hP
    (fun _ => e)
  refine ⟨G', x, h1, ?_⟩
  have hx := Reduces.unique hassoc hcomm h5
  simpa [reduceAll] using hx

/-- The vertex part of a graph with properties `1, 2, ..., n`, freshly made, and the sum of the properties
accumulated into `init` on every rank. -/
def sumSample (n nrank threads init : Nat) : Option Nat := do
  let G ← VGraph.create n nrank threads (fun _ _ => Fresh.sample 7) (fun _ _ => Fresh.sample false) (fun _ => 0)
  let G ← (List.range n).foldlM (fun (G : VGraph Nat) (v : Nat) =>
    G.setVertexproperty (fun _ => Fresh.sample 7) ((v : Int) + 1) (v + 1)) G
  let r ← G.applyReduceAllVertices (fun _ _ => Fresh.sample 7) (fun v _ => (v, v)) (· + ·) (fun _ _ _ => 99)
    (fun _ => init)
  some r.2

/-- C22 is false for other initial values: with an associative and commutative operator, the initial value is
counted once per rank, so the result depends on the number of ranks. -/
theorem applyReduce_initial_value_counted_per_rank :
    sumSample 40 1 2 5 = some 825 ∧ sumSample 40 2 2 5 = some 830 ∧ sumSample 40 3 2 5 = some 835 := by
  decide +kernel

/-- With the identity as initial value the number of ranks and threads does not matter. -/
example : sumSample 40 1 1 0 = some 820 ∧ sumSample 40 3 2 0 = some 820 ∧ sumSample 40 2 3 0 = some 820 := by
  decide +kernel

/-- A graph as in the hypotheses. -/
example : ∃ G : VGraph Nat, G.Inv 40 2 3 ∧ G.Props 40 2 3 (fun _ => 9) := by
  obtain ⟨G, _, h2, h3, _⟩ := VGraph.create_spec (V := Nat) (n := 40) (nrank := 2) (threads := 3)
    ⟨by decide, by decide, by decide, by decide⟩ (fun _ _ => Fresh.sample 7) (fun _ _ => Fresh.sample false) (fun _ => 9)
  exact ⟨G, h2, h3⟩

end GraphMat
