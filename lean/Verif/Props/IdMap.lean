import Verif.Lemmas.IdMap

/-!
# C01 (vertex renumbering is a bijection) and the id part of C45

`t` = threads, `s` = number of vector segments (ranks), `n` = number of vertices.  The side
conditions `t*16*s ≤ 2^31-1` and `n ≤ 2^31-1` only say that the numbers fit in a C `int`;
`= some _` includes the claim that no intermediate `int` computation overflows or divides by 0.
-/
namespace GraphMat

/-- C01: renumbering a user id gives an internal id in `1..n`, and translating it back gives
the user's id. -/
theorem vertexToNative_roundtrip (t s n v : Nat) (ht : 0 < t) (hs : 0 < s)
    (hnp : t * 16 * s ≤ 2147483647) (hn : n ≤ 2147483647) (h1 : 1 ≤ v) (hv : v ≤ n) :
    ∃ w : Nat, 1 ≤ w ∧ w ≤ n ∧ vertexToNative t s n v = some (w : Int) ∧
      nativeToVertex t s n w = some (v : Int) := by
  have hNP : 0 < t * 16 * s := Nat.mul_pos (Nat.mul_pos ht (by omega)) hs
  have hr := v2n_range (n := n) hNP h1 hv
  refine ⟨v2n (t * 16 * s) n v, hr.1, hr.2, vertexToNative_eq ht hs hnp hn h1 hv, ?_⟩
  rw [nativeToVertex_eq ht hs hnp hn hr.1 hr.2, n2v_v2n hNP h1]

example : vertexToNative 1 2 100 34 = some 5 ∧ nativeToVertex 1 2 100 5 = some 34 := by decide

/-- C01: every internal id in `1..n` is the image of exactly one user id (surjectivity and
the other inverse law). -/
theorem nativeToVertex_roundtrip (t s n w : Nat) (ht : 0 < t) (hs : 0 < s)
    (hnp : t * 16 * s ≤ 2147483647) (hn : n ≤ 2147483647) (h1 : 1 ≤ w) (hw : w ≤ n) :
    ∃ v : Nat, 1 ≤ v ∧ v ≤ n ∧ nativeToVertex t s n w = some (v : Int) ∧
      vertexToNative t s n v = some (w : Int) := by
  have hNP : 0 < t * 16 * s := Nat.mul_pos (Nat.mul_pos ht (by omega)) hs
  have hr := n2v_range (np := t * 16 * s) (n := n) h1 hw
  refine ⟨n2v (t * 16 * s) n w, hr.1, hr.2, nativeToVertex_eq ht hs hnp hn h1 hw, ?_⟩
  rw [vertexToNative_eq ht hs hnp hn hr.1 hr.2, v2n_n2v hNP h1]

example : ∃ v : Nat, nativeToVertex 2 3 1000 77 = some (v : Int) ∧ v ≠ 77 :=
  ⟨584, by decide, by decide⟩

/-- C01: two different user ids never share an internal id. -/
theorem vertexToNative_injective (t s n u v : Nat) (ht : 0 < t) (hs : 0 < s)
    (hnp : t * 16 * s ≤ 2147483647) (hn : n ≤ 2147483647) (hu1 : 1 ≤ u) (hu : u ≤ n)
    (hv1 : 1 ≤ v) (hv : v ≤ n)
    (h : vertexToNative t s n u = vertexToNative t s n v) : u = v := by
  obtain ⟨w, _, _, hw, hwu⟩ := vertexToNative_roundtrip t s n u ht hs hnp hn hu1 hu
  obtain ⟨w', _, _, hw', hwv⟩ := vertexToNative_roundtrip t s n v ht hs hnp hn hv1 hv
  rw [hw, hw'] at h
  have : w = w' := by injection h with h; omega
  subst this
  rw [hwu] at hwv
  injection hwv with hwv
  omega

example : vertexToNative 1 2 100 34 ≠ vertexToNative 1 2 100 35 := by decide

end GraphMat
