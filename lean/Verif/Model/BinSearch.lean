import Verif.Model.Mem

/-!
# Searches in sorted arrays

Models /repo/include/GMDP/utils/binary_search.h.  `none` = failed assertion, read outside the array,
use of an uninitialised variable, or no result after `fuel` steps.  The `long` indices are
integers.
-/
namespace GraphMat

/-- `vec[i]` for a (possibly negative) `long` index, /repo/include/GMDP/utils/binary_search.h:70. -/
def readI (vec : Arr Int) (i : Int) : Option Int := if 0 ≤ i then vec.read i.toNat else none

/-- `binary_search_left_border(vec, val, start, end, len)`,
/repo/include/GMDP/utils/binary_search.h:50-96; `fuel` bounds the recursion depth. -/
def leftBorder (vec : Arr Int) (val : Int) (len : Int) : Nat → Int → Int → Option Int
  | 0, _, _ => none
  | fuel + 1, start, fin => do
    if len = 0 then some (-1) else
    if fin < start then some (-1) else
    if start ≥ len then some (-1) else
    if fin < 0 then some (-1) else
    let mid := start + (fin - start).tdiv 2
    if ¬ (mid < len ∧ 0 ≤ mid) then none else
    let x ← readI vec mid
    if x = val then
      if mid ≤ 0 then some mid
      else do
        let y ← readI vec (mid - 1)
        if y ≠ x then some mid else leftBorder vec val len fuel start (mid - 1)
    else if val < x then leftBorder vec val len fuel start (mid - 1)
    else leftBorder vec val len fuel (mid + 1) fin

/-- `binary_search_right_border(vec, val, start, end, len)`,
/repo/include/GMDP/utils/binary_search.h:111-157. -/
def rightBorder (vec : Arr Int) (val : Int) (len : Int) : Nat → Int → Int → Option Int
  | 0, _, _ => none
  | fuel + 1, start, fin => do
    if len = 0 then some (-1) else
    if fin < start then some (-1) else
    if start ≥ len then some (-1) else
    if fin < 0 then some (-1) else
    let mid := start + (fin - start).tdiv 2
    if ¬ (mid < len ∧ 0 ≤ mid) then none else
    let x ← readI vec mid
    if x = val then
      if mid ≥ len - 1 then some mid
      else do
        let y ← readI vec (mid + 1)
        if y ≠ x then some mid else rightBorder vec val len fuel (mid + 1) fin
    else if val < x then rightBorder vec val len fuel start (mid - 1)
    else rightBorder vec val len fuel (mid + 1) fin

/-- The `while` loop of `l_binary_search`, /repo/include/GMDP/utils/binary_search.h:177-190; `eh` is
the variable of that name (`none` = not yet assigned). -/
def lBinaryLoop (v : Arr Int) (item : Int) : Nat → Int → Int → Option Int → Option Int
  | 0, _, _, _ => none
  | fuel + 1, e1, e2, eh =>
    if e2 ≥ e1 then do
      let eh := e2 - (e2 - e1).tdiv 2
      if eh = 0 then some eh else
      let a ← readI v (eh - 1)
      if a < item then do
        let b ← readI v eh
        if b ≥ item then some eh
        else lBinaryLoop v item fuel (eh + 1) e2 (some eh)
      else do
        let b ← readI v eh
        if b ≥ item then lBinaryLoop v item fuel e1 (eh - 1) (some eh)
        else lBinaryLoop v item fuel (eh + 1) e2 (some eh)
    else eh

/-- `l_binary_search(start, end, v, item)`, /repo/include/GMDP/utils/binary_search.h:173-192. -/
def lBinarySearch (fuel : Nat) (start fin : Int) (v : Arr Int) (item : Int) : Option Int :=
  lBinaryLoop v item fuel start fin none

/-- The `for` loop of `l_linear_search`, /repo/include/GMDP/utils/binary_search.h:209-212, with the
final `return end`. -/
def lLinearLoop (v : Arr Int) (item : Int) (fin : Int) : Nat → Int → Option Int
  | 0, _ => none
  | fuel + 1, i =>
    if i < fin - 1 then do
      let a ← readI v i
      if a < item then do
        let b ← readI v (i + 1)
        if b ≥ item then some (i + 1) else lLinearLoop v item fin fuel (i + 1)
      else lLinearLoop v item fin fuel (i + 1)
    else some fin

/-- `l_linear_search(start, end, v, item)`, /repo/include/GMDP/utils/binary_search.h:207-214. -/
def lLinearSearch (fuel : Nat) (start fin : Int) (v : Arr Int) (item : Int) : Option Int := do
  let a ← readI v 0
  if a ≥ item then some 0 else lLinearLoop v item fin fuel start

end GraphMat
