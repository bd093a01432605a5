/-!
# Specification of merging partial results

Independent of the model.
-/
namespace GraphMat

/-- The reduction of the values of a list, from left to right; nothing if there are none. -/
def reduceAll {α : Type} (add : α → α → α) : List α → Option α
  | [] => none
  | a :: l => some (l.foldl add a)

/-- The values present in a list of optional values. -/
def present {α : Type} (l : List (Option α)) : List α := l.filterMap id

end GraphMat
