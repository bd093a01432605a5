import Verif.Model.ElMem

/-!
# Lives of edge lists

What a program does with edge lists on one rank: making, loading, transforming, filtering and clearing them; and, told
from the numbers of edges alone, how many arrays it forgets.
-/
namespace GraphMat

/-- What happens to an edge list. -/
inductive ElAct where
  /-- `load_edgelist`, `ReadEdges`: the files of this rank have `k` edges -/
  | load (k : Nat)
  /-- `remove_selfedges` -/
  | selfedges (keep : Nat → Bool)
  /-- `remove_duplicate_edges`; with more than one rank, `k` edges are received -/
  | duplicates (k : Nat) (keep : Nat → Bool)
  /-- `shuffle_edges`; `k` edges are received -/
  | shuffle (k : Nat)
  /-- `create_bidirectional_edges` -/
  | bidirectional
  /-- every edge is read or changed -/
  | visit
  /-- `randomize_edgelist_square` -/
  | randomize
  /-- `remove_empty_columns`; the caller releases the indices -/
  | columns
  /-- `filter_edges_by_row` -/
  | rows (keep : Nat → Bool)
  /-- `clear` -/
  | clear

/-- The calls. -/
def ElAct.run (nrank : Nat) : ElAct → ElMem → HeapM ElMem
  | .load k, e => loadEl k e
  | .selfedges keep, e => e.removeSelfedges keep
  | .duplicates k keep, e => e.removeDuplicates nrank k keep
  | .shuffle k, e => e.shuffle k
  | .bidirectional, e => e.bidirectional
  | .visit, e => do
    e.visit
    pure e
  | .randomize, e => do
    e.randomizeSquare
    pure e
  | .columns, e => do
    let p ← e.removeEmptyColumns
    release .mm p
    pure e
  | .rows keep, e => e.filterByRow keep
  | .clear, e => e.clear

/-- How many of the first `n` are kept. -/
def keptOf (keep : Nat → Bool) (n : Nat) : Nat := (List.range n).countP keep

/-- How many edges remain if the first of `n` is always kept. -/
def distinctOf (keep : Nat → Bool) (n : Nat) : Nat := if n = 0 then 0 else 1 + (List.range' 1 (n - 1)).countP keep

/-- The number of edges of a list that had `n`. -/
def ElAct.count (nrank : Nat) : ElAct → Nat → Nat
  | .load k, _ => k
  | .selfedges keep, n => keptOf keep n
  | .duplicates k keep, n => distinctOf keep (if nrank = 1 then n else k)
  | .shuffle k, _ => k
  | .bidirectional, n => n * 2
  | .rows keep, n => keptOf keep n
  | .clear, _ => 0
  | _, n => n

/-- Arrays without edges are never released. -/
def emptied (n n' : Nat) : Nat := if 0 < n ∧ n' = 0 then 1 else 0

/-- How many arrays are forgotten on a list with `n` edges: that of a list that is loaded again, and those whose edges are all
gone. -/
def ElAct.lost : ElAct → Nat → Nat
  | .load k, n => (if 0 < n then 1 else 0) + (if k = 0 then 1 else 0)
  | .selfedges keep, n => emptied n (keptOf keep n)
  | .rows keep, n => emptied n (keptOf keep n)
  | _, _ => 0

/-- One step of a program with edge lists. -/
inductive ElStep where
  /-- a new list without edges -/
  | declare
  /-- a new list with room for `k` edges -/
  | make (k : Nat)
  /-- something happens to the `i`-th list -/
  | act (i : Nat) (a : ElAct)
  /-- `filter_edges`: a new list with some edges of the `i`-th -/
  | filter (i : Nat) (keep : Nat → Bool)

/-- A step; the list holds the edge lists. -/
def ElStep.run (nrank : Nat) : ElStep → List ElMem → HeapM (List ElMem)
  | .declare, es => pure (ElMem.fresh :: es)
  | .make k, es => do
    let e ← newEl k
    pure (e :: es)
  | .act i a, es =>
    match es[i]? with
    | none => pure es
    | some e => do
      let e' ← a.run nrank e
      pure (es.set i e')
  | .filter i keep, es =>
    match es[i]? with
    | none => pure es
    | some e => do
      let e' ← e.filterEdges keep
      pure (e' :: es)

/-- What a step does to the numbers of edges. -/
def ElStep.counts (nrank : Nat) : ElStep → List Nat → List Nat
  | .declare, ns => 0 :: ns
  | .make k, ns => k :: ns
  | .act i a, ns => ns.modify i (a.count nrank)
  | .filter i keep, ns =>
    match ns[i]? with
    | none => ns
    | some n => keptOf keep n :: ns

/-- How many arrays a step forgets. -/
def ElStep.lost : ElStep → List Nat → Nat
  | .act i a, ns => (ns[i]?.map a.lost).getD 0
  | .filter i keep, ns => (ns[i]?.map (fun n => emptied n (keptOf keep n))).getD 0
  | _, _ => 0

/-- The steps one after the other. -/
def runElSteps (nrank : Nat) : List ElStep → List ElMem → HeapM (List ElMem)
  | [], es => pure es
  | op :: ops, es => do
    let es ← op.run nrank es
    runElSteps nrank ops es

/-- How many arrays the steps forget. -/
def lostBy (nrank : Nat) : List ElStep → List Nat → Nat
  | [], _ => 0
  | op :: ops, ns => op.lost ns + lostBy nrank ops (op.counts nrank ns)

/-- All lists are cleared. -/
def clearAll : List ElMem → HeapM Unit
  | [] => pure ()
  | e :: es => do
    let _ ← e.clear
    clearAll es

/-- A whole program: the steps, then all lists are cleared. -/
def elLives (nrank : Nat) (ops : List ElStep) : HeapM Unit := do
  let es ← runElSteps nrank ops []
  clearAll es

/-- How many arrays `graph_converter` forgets on a rank: one if its files have no edges, one if all edges it has are self loops
that are removed. -/
def ConvMem.lost (c : ConvMem) : Nat :=
  (match c.input with
    | .files 0 => 1
    | _ => 0) +
  (match c.loops with
    | none => 0
    | some keep => emptied c.shuffled (keptOf keep c.shuffled))

end GraphMat
