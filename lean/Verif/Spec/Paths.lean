import Verif.Model.Tile

/-!
# Specification: walks in a graph

The graph is a list of edges with user ids.  Only the type `Edge` is shared with the model.
-/
namespace GraphMat

variable {E : Type}

/-- There is a walk of `k` edges from `s` to a vertex. -/
inductive Walk (es : List (Edge E)) (s : Nat) : Nat → Nat → Prop
  | refl : Walk es s s 0
  | step {u v k : Nat} (e : Edge E) : Walk es s u k → e ∈ es → e.src = (u : Int) → e.dst = (v : Int) →
      Walk es s v (k + 1)

/-- The least number of edges of a walk from `s` to `v` is `k`. -/
def IsHops (es : List (Edge E)) (s v k : Nat) : Prop := Walk es s v k ∧ ∀ j, Walk es s v j → k ≤ j

/-- There is a walk from `s` to `v`. -/
def Reachable (es : List (Edge E)) (s v : Nat) : Prop := ∃ k, Walk es s v k

/-- There is a walk of `k` edges from `s` to a vertex whose edge values, read as lengths by `len`, add up
to `d`. -/
inductive WWalk (len : E → Nat) (es : List (Edge E)) (s : Nat) : Nat → Nat → Nat → Prop
  | refl : WWalk len es s s 0 0
  | step {u v k d : Nat} (e : Edge E) : WWalk len es s u k d → e ∈ es → e.src = (u : Int) → e.dst = (v : Int) →
      WWalk len es s v (k + 1) (d + len e.val)

/-- The least length of a walk from `s` to `v` is `d`. -/
def IsDist (len : E → Nat) (es : List (Edge E)) (s v d : Nat) : Prop :=
  (∃ k, WWalk len es s v k d) ∧ ∀ k d', WWalk len es s v k d' → d ≤ d'

/-- The largest 32-bit unsigned number. -/
abbrev UMAX : Nat := 4294967295

/-- Lengths are non-negative and walks of at most `n` edges are shorter than the largest
unsigned number. -/
structure NoOverflow (es : List (Edge Int)) (src n : Nat) : Prop where
  nonneg : ∀ e ∈ es, 0 ≤ e.val
  bound : ∀ v k d, k ≤ n → WWalk Int.toNat es src v k d → d < UMAX

/-- The longest walk that ends in `v` has `k` edges. -/
def LongestIn (es : List (Edge E)) (v k : Nat) : Prop :=
  (∃ u, Walk es u v k) ∧ ∀ u j, Walk es u v j → j ≤ k

/-- `v` lies on a cycle or can be reached from one. -/
def BehindCycle (es : List (Edge E)) (v : Nat) : Prop := ∃ u k j, Walk es u u (k + 1) ∧ Walk es u v j

/-- The number of edges into `v`. -/
def inDegree (es : List (Edge E)) (v : Nat) : Nat := es.countP (fun e => decide (e.dst = (v : Int)))

end GraphMat
