import Verif.Model.BinSearch

/-! # The test of the searches, /repo/test/test_binary_search.cpp -/
namespace GraphMat

/-- `REQUIRE(expected == call)` for several calls in a row (/repo/test/test_binary_search.cpp:42-48); `none` if one of the calls
has no defined result. -/
def requireResults : List (Int × Option Int) → Option Bool
  | [] => some true
  | (e, o) :: l => do
    let r ← o
    let b ← requireResults l
    some (decide (e = r) && b)

/-- `int vec[9]`, /repo/test/test_binary_search.cpp:41, 52, 65, 75. -/
def testVec : List Int := [1, 1, 2, 2, 2, 5, 5, 5, 5]

/-- Section "Binary search right border", /repo/test/test_binary_search.cpp:40-49. -/
def testRightBorder (fuel : Nat) : Option Bool :=
  let v := Arr.ofList 0 testVec
  requireResults [(1, rightBorder v 1 9 fuel 0 9), (4, rightBorder v 2 9 fuel 0 9), (-1, rightBorder v 0 9 fuel 0 9),
    (8, rightBorder v 5 9 fuel 0 9), (-1, rightBorder v 3 9 fuel 0 9), (8, rightBorder v 5 9 fuel 3 9), (-1, rightBorder v 5 9 fuel 9 9)]

/-- Section "Binary search left border", /repo/test/test_binary_search.cpp:51-62. -/
def testLeftBorder (fuel : Nat) : Option Bool :=
  let v := Arr.ofList 0 testVec
  requireResults [(0, leftBorder v 1 9 fuel 0 9), (2, leftBorder v 2 9 fuel 0 9), (-1, leftBorder v 0 9 fuel 0 9),
    (5, leftBorder v 5 9 fuel 0 9), (-1, leftBorder v 3 9 fuel 0 9), (5, leftBorder v 5 9 fuel 3 9), (-1, leftBorder v 5 9 fuel 9 9),
    (-1, leftBorder v 6 9 fuel 0 9), (-1, leftBorder v 6 8 fuel 0 8)]

/-- Section "Binary search", /repo/test/test_binary_search.cpp:64-72.  `rest` is what lies behind the array in memory, as far as
reading it is allowed (nothing, according to the language). -/
def testBinarySearch (fuel : Nat) (rest : List Int) : Option Bool :=
  let v := Arr.ofList 0 (testVec ++ rest)
  requireResults [(0, lBinarySearch fuel 0 9 v 1), (2, lBinarySearch fuel 0 9 v 2), (0, lBinarySearch fuel 0 9 v 0),
    (5, lBinarySearch fuel 0 9 v 4), (5, lBinarySearch fuel 0 9 v 5), (9, lBinarySearch fuel 0 9 v 7)]

/-- Section "Linear search", /repo/test/test_binary_search.cpp:74-82. -/
def testLinearSearch (fuel : Nat) : Option Bool :=
  let v := Arr.ofList 0 testVec
  requireResults [(0, lLinearSearch fuel 0 9 v 1), (2, lLinearSearch fuel 0 9 v 2), (0, lLinearSearch fuel 0 9 v 0),
    (5, lLinearSearch fuel 0 9 v 4), (5, lLinearSearch fuel 0 9 v 5), (9, lLinearSearch fuel 0 9 v 7)]

end GraphMat
