import Verif.Props.FmtMat

/-!
# A size at which the repository's multiplication test fails with COO tiles (C85)
-/
namespace GraphMat

/-- **C85 fails for COO tiles**: the repository's own test of multiplications fails with 513 vertices on 2 ranks if the `int` behind `ia` is 0: the
last tile has one edge, and it is not multiplied. -/
theorem coo_spmv_test_fails :
    testFmtSpmv (cooFmt (.sample (some 0) 9) 1) (cooMult (fun _ _ => .sample 3) (fun _ _ _ => 3) (fun e x _ => e * x) (· + ·)) (· + ·)
      (insSort (edgeCompare (fun a b : Int => decide (a < b)))) (fun a b => decide (a = b)) (fun _ _ => ⟨0, 0, 0⟩) (fun _ => ⟨0, 0, 0⟩) 3
      (fun q => (q + 510) % 513 + 1) 513 (1 : Int) .ins (fun _ _ _ => ⟨0, 0, 0⟩) (fun _ => ⟨fun _ => ⟨0, 0, 0⟩, fun _ => 0, fun _ => .sample 0⟩)
      (.sample 0 0 0) 1 2 513 = some false := by
  decide +kernel

end GraphMat
