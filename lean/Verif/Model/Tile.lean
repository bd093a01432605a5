import Verif.Model.Segment

/-!
# DCSC tiles

Models /repo/include/GMDP/matrices/DCSCTile.h.  `none` = access outside an array, failed assertion,
division by zero or a loop that never ends.  `__gnu_parallel::sort` is not stable and its result for
equal keys is unspecified: the model takes the sorting function as a parameter, theorems assume only
that its result is a sorted permutation (`SortsBy`).  `omp parallel for` loops are run in index
order here.
-/
namespace GraphMat

variable {E : Type}

/-- `tedge_t<T>`, /repo/include/GMDP/utils/edgelist.h:80-86: an edge with a tile (or partition, or
rank) number.  Inside a tile ids are zero-based and, by the assertions of
/repo/include/GMDP/matrices/DCSCTile.h:296-303, not negative. -/
structure TEdge (E : Type) where
  /-- `src` -/
  src : Nat
  /-- `dst` -/
  dst : Nat
  /-- `tile_id` -/
  tile : Nat
  /-- `val` -/
  val : E
deriving DecidableEq

/-- `compare_dcsc`, /repo/include/GMDP/matrices/DCSCTile.h:40-58. -/
def compareDcsc (a b : TEdge E) : Bool :=
  if a.tile < b.tile then true
  else if a.tile > b.tile then false
  else if a.dst < b.dst then true
  else if a.dst > b.dst then false
  else if a.src < b.src then true
  else if a.src > b.src then false
  else false

/-- What `__gnu_parallel::sort(.., lt)` (e.g. /repo/include/GMDP/matrices/DCSCTile.h:305) guarantees
of a call: a permutation of the input in which no element is less than an earlier one. -/
def SortsBy {α : Type} (lt : α → α → Bool) (f : List α → List α) : Prop :=
  ∀ l, (f l).Perm l ∧ (f l).Pairwise (fun a b => lt b a = false)

/-- `DCSCTile<T>`, /repo/include/GMDP/matrices/DCSCTile.h:60-79.  `name` is dropped. -/
structure Tile (E : Type) where
  /-- `nnz` -/
  nnz : Nat
  /-- `m` -/
  m : Nat
  /-- `n` -/
  n : Nat
  /-- `num_cols` -/
  numCols : Nat
  /-- `num_partitions` -/
  np : Nat
  /-- `vals` -/
  vals : Arr E
  /-- `row_inds` -/
  rowInds : Arr Nat
  /-- `row_pointers` -/
  rp : Arr Nat
  /-- `edge_pointers` -/
  ep : Arr Nat
  /-- `col_starts` -/
  cs : Arr Nat
  /-- `col_ptrs` -/
  colPtrs : Arr Nat
  /-- `col_indices` -/
  colIdx : Arr Nat

/-- Indeterminate contents of the arrays allocated by the constructor,
/repo/include/GMDP/matrices/DCSCTile.h:187, 226, 311, 340-347. -/
structure TileFresh (E : Type) where
  /-- contents of `vals` -/
  vals : Nat → E
  /-- contents of the `int` arrays (first argument: which array) -/
  ints : Nat → Nat → Nat

/-- The constructor `DCSCTile(int _m, int _n)` of an empty tile,
/repo/include/GMDP/matrices/DCSCTile.h:183 (also the `else` branch 375-378 of the main constructor).
The array pointers are uninitialised; `num_cols` is indeterminate (`k`). -/
def Tile.empty (g : TileFresh E) (k m n : Nat) : Tile E :=
  { nnz := 0, m := m, n := n, numCols := k, np := 0, vals := ⟨0, g.vals⟩, rowInds := ⟨0, g.ints 0⟩,
    rp := ⟨0, g.ints 1⟩, ep := ⟨0, g.ints 2⟩, cs := ⟨0, g.ints 3⟩, colPtrs := ⟨0, g.ints 4⟩,
    colIdx := ⟨0, g.ints 5⟩ }

/-- `static_partition(row_pointers, m, num_partitions, 32)`,
/repo/include/GMDP/matrices/DCSCTile.h:185-220 (the branch `round != 1`; the constructor always
passes 32). -/
def staticPartition (g : Nat → Nat) (m np : Nat) : Option (Arr Nat) := do
  if np = 0 then none else
  let n512 := max (m / 32 / np) 1
  let nround := m / 32 - n512 * np
  if ¬ nround < np then none else
  let rp ← (⟨np + 1, g⟩ : Arr Nat).write 0 0
  let st ← forLoop 1 np (rp, nround) (fun p st => do
    let prev ← st.1.read (p - 1)
    let rp ← st.1.write p (prev + (if st.2 > 0 then (n512 + 1) * 32 else n512 * 32))
    let x ← rp.read p
    let rp ← rp.write p (min x m)
    some (rp, st.2 - 1))
  st.1.write np m

/-- The partition search, /repo/include/GMDP/matrices/DCSCTile.h:264-278.  As
`p_half = p_start + (p_end - p_start) = p_end`, the loop walks down from the last partition.  The
argument is `p_end + 1`; `none` = `p_end` became `-1` (reads `row_pointers[-1]`) or nothing
changes any more (`src ≥ row_pointers[p_end + 1]`, an infinite loop). -/
def findPart (rp : Arr Nat) (s : Int) : Nat → Option Nat
  | 0 => none
  | p + 1 => do
    let lo ← rp.read p
    let hi ← rp.read (p + 1)
    if lo ≤ s ∧ s < hi then some p
    else if s < lo then findPart rp s p
    else none

/-- Make the local edge and its partition number, with the assertions,
/repo/include/GMDP/matrices/DCSCTile.h:257-303. -/
def placeEdge (rp : Arr Nat) (np m n rowStart colStart : Nat) (e : Edge E) : Option (TEdge E) := do
  let s := e.src - 1 - (rowStart : Int)
  let d := e.dst - 1 - (colStart : Int)
  let p ← findPart rp s np
  if 0 ≤ s ∧ 0 ≤ d ∧ s < (m : Int) ∧ d < (n : Int) then
    some { src := s.toNat, dst := d.toNat, tile := p, val := e.val }
  else none

/-- The `while` loop of `set_edge_pointers`, /repo/include/GMDP/matrices/DCSCTile.h:230-233; state
`(edge_pointers, p)`.  `fuel` bounds the number of rounds (more than `num_partitions + 1` rounds
leave the arrays). -/
def edgePtrLoop (rp : Arr Nat) (src eid : Nat) : Nat → Arr Nat → Nat → Option (Arr Nat × Nat)
  | 0, _, _ => none
  | fuel + 1, ep, p => do
    let x ← rp.read p
    if src ≥ x then
      let ep ← ep.write p eid
      edgePtrLoop rp src eid fuel ep (p + 1)
    else some (ep, p)

/-- `set_edge_pointers`, /repo/include/GMDP/matrices/DCSCTile.h:222-239. -/
def setEdgePointers (g : Nat → Nat) (edges : List (TEdge E)) (rp : Arr Nat) (np : Nat) :
    Option (Arr Nat) := do
  let st ← forLoop 0 edges.length ((⟨np + 1, g⟩ : Arr Nat), 0) (fun eid st => do
    let e ← edges[eid]?
    edgePtrLoop rp e.src eid (np + 2) st.1 st.2)
  let ep ← st.1.write st.2 edges.length
  forLoop (st.2 + 1) (np + 1) ep (fun p ep => ep.write p edges.length)

/-- Count the columns of partition `p`, /repo/include/GMDP/matrices/DCSCTile.h:314-327; state
`(current_column, num_columns)`. -/
def countCols (edges : List (TEdge E)) (ep : Arr Nat) (p : Nat) : Option Nat := do
  let lo ← ep.read p
  let hi ← ep.read (p + 1)
  let st ← forLoop lo hi ((-1 : Int), 0) (fun eid st => do
    let e ← edges[eid]?
    if st.1 < e.dst then some ((e.dst : Int), st.2 + 1) else some st)
  some st.2

/-- `col_starts` and `total_cols`, /repo/include/GMDP/matrices/DCSCTile.h:330-336. -/
def scanCols (g : Nat → Nat) (ncols : List Nat) (np : Nat) : Option (Arr Nat × Nat) := do
  let st ← forLoop 0 np ((⟨np + 1, g⟩ : Arr Nat), 0) (fun p st => do
    let cs ← st.1.write p st.2
    let k ← ncols[p]?
    some (cs, st.2 + (k + 1)))
  let cs ← st.1.write np st.2
  some (cs, st.2)

/-- The four arrays filled by the build loop, /repo/include/GMDP/matrices/DCSCTile.h:340-347. -/
structure TileBuf (E : Type) where
  /-- `vals` -/
  vals : Arr E
  /-- `row_inds` -/
  rowInds : Arr Nat
  /-- `col_indices` -/
  colIdx : Arr Nat
  /-- `col_ptrs` -/
  colPtrs : Arr Nat

/-- One edge of the build loop, /repo/include/GMDP/matrices/DCSCTile.h:357-367.  `lo` is
`edge_pointers[p]`, `c0` is `col_starts[p]`; the state is (arrays, `current_column`,
`current_column_num + 1`). -/
def buildEdge (edges : List (TEdge E)) (lo c0 eid : Nat) (st : TileBuf E × Int × Nat) :
    Option (TileBuf E × Int × Nat) := do
  let e ← edges[eid]?
  let b := st.1
  let vals ← b.vals.write (lo + (eid - lo)) e.val
  let rowInds ← b.rowInds.write (lo + (eid - lo)) e.src
  let b : TileBuf E := { b with vals := vals, rowInds := rowInds }
  if st.2.1 < e.dst then
    let colIdx ← b.colIdx.write (c0 + st.2.2) e.dst
    let colPtrs ← b.colPtrs.write (c0 + st.2.2) (eid - lo)
    some ({ b with colIdx := colIdx, colPtrs := colPtrs }, (e.dst : Int), st.2.2 + 1)
  else some (b, st.2)

/-- One partition of the build loop, /repo/include/GMDP/matrices/DCSCTile.h:349-371. -/
def buildPart (edges : List (TEdge E)) (ep cs : Arr Nat) (n p : Nat) (b : TileBuf E) :
    Option (TileBuf E) := do
  let lo ← ep.read p
  let hi ← ep.read (p + 1)
  let c0 ← cs.read p
  let c1 ← cs.read (p + 1)
  let st ← forLoop lo hi (b, (-1 : Int), 0) (buildEdge edges lo c0)
  let ncol := c1 - c0 - 1
  let colPtrs ← st.1.colPtrs.write (c0 + ncol) (hi - lo)
  let colIdx ← st.1.colIdx.write (c0 + ncol) (n + 1)
  some { st.1 with colPtrs := colPtrs, colIdx := colIdx }

/-- The constructor `DCSCTile(edges, _m, _n, _nnz, row_start, col_start)`,
/repo/include/GMDP/matrices/DCSCTile.h:241-381.  `threads` is `omp_get_max_threads()`, `sort` the
behaviour of the call of `__gnu_parallel::sort` at line 304. -/
def Tile.build (g : TileFresh E) (threads : Nat) (sort : List (TEdge E) → List (TEdge E))
    (edges : List (Edge E)) (m n rowStart colStart : Nat) : Option (Tile E) := do
  if edges.length > 0 then
    let np := threads * 16
    let rp ← staticPartition (g.ints 1) m np
    let pedges ← edges.mapM (placeEdge rp np m n rowStart colStart)
    let pedges := sort pedges
    let ep ← setEdgePointers (g.ints 2) pedges rp np
    let ncols ← (List.range np).mapM (countCols pedges ep)
    let sc ← scanCols (g.ints 3) ncols np
    let total ← sc.1.read np
    let b : TileBuf E := { vals := ⟨edges.length, g.vals⟩, rowInds := ⟨edges.length, g.ints 0⟩,
                           colIdx := ⟨total, g.ints 5⟩, colPtrs := ⟨total, g.ints 4⟩ }
    let b ← forLoop 0 np b (buildPart pedges ep sc.1 n)
    some { nnz := edges.length, m := m, n := n, numCols := sc.2, np := np, vals := b.vals,
           rowInds := b.rowInds, rp := rp, ep := ep, cs := sc.1, colPtrs := b.colPtrs,
           colIdx := b.colIdx }
  else some (Tile.empty g 0 m n)

/-- `get_edges(edges, row_start, col_start)`, /repo/include/GMDP/matrices/DCSCTile.h:383-399.  The
output array is modelled as the list of the entries written, in order. -/
def Tile.getEdges (t : Tile E) (rowStart colStart : Nat) : Option (List (Edge E)) := do
  let out ← forLoop 0 t.np ([] : List (Edge E)) (fun p out => do
    let c0 ← t.cs.read p
    let c1 ← t.cs.read (p + 1)
    forLoop 0 (c1 - c0 - 1) out (fun j out => do
      let col ← t.colIdx.read (c0 + j)
      let a ← t.colPtrs.read (c0 + j)
      let b ← t.colPtrs.read (c0 + j + 1)
      forLoop a b out (fun nz out => do
        let e0 ← t.ep.read p
        let row ← t.rowInds.read (e0 + nz)
        let v ← t.vals.read (e0 + nz)
        some (out ++ [{ src := (rowStart : Int) + row + 1, dst := (colStart : Int) + col + 1,
                        val := v }]))))
  if out.length = t.nnz then some out else none

end GraphMat
