import Verif.Model.SpMSpV
import Verif.Model.BinSearch

/-!
# The other tile formats: CSR, DCSR, COO, COO-SIMD and hybrid

Models /repo/include/GMDP/matrices/{CSRTile,DCSRTile,COOTile,COOSIMD32Tile,HybridTile}.h and the kernels for them in
/repo/include/GMDP/singlenode/spmspv.h.  `none` = access outside an array, failed assertion, `exit`, division by zero, use
of an uninitialised pointer.  Row, column and entry counts are unbounded (the `int` arithmetic on them does not overflow).
`omp parallel for` loops run in index order; sorting functions are parameters.  Serialisation is in
`Model/FmtSnapshot`; copying and destruction of these tiles are not modelled.

Two constructors (DCSR, COO) read one `int` behind the end of an array.  The parameter `behind` says what happens then:
`none` = undefined, `some x` = the memory there is readable and holds `x`.
-/
namespace GraphMat

variable {E T U V α : Type}

/-- Copy loops `for (i = 0; i < nnz; i++) a[i] = ...;` into a new array, e.g.
/repo/include/GMDP/matrices/CSRTile.h:142-146; `g` is the contents of the new array. -/
def fillFrom (g : Nat → α) (l : List α) : Option (Arr α) :=
  forLoop 0 l.length ⟨l.length, g⟩ (fun i a => do
    let x ← l[i]?
    a.write i x)

/-- An `int` array followed in memory by the value `behind`, if that is readable (see the head of this file;
/repo/include/GMDP/utils/binary_search.h:182-183, /repo/include/GMDP/matrices/DCSRTile.h:184). -/
def Arr.seen (a : Arr Int) : Option Int → Arr Int
  | none => a
  | some x => ⟨a.size + 1, fun i => if i = a.size then x else a.get i⟩

/-- `compare_notrans`, /repo/include/GMDP/matrices/CSRTile.h:42-54; the same order is used at
/repo/include/GMDP/matrices/COOTile.h:42-54, /repo/include/GMDP/matrices/DCSRTile.h:133-138 and
/repo/include/GMDP/matrices/HybridTile.h:82-87. -/
def compareSrcDst (a b : Edge E) : Bool :=
  if a.src < b.src then true
  else if a.src > b.src then false
  else if a.dst < b.dst then true
  else if a.dst > b.dst then false
  else false

/-- Contents of the arrays allocated by the constructors, e.g. /repo/include/GMDP/matrices/CSRTile.h:132-138. -/
structure FmtFresh (E : Type) where
  /-- arrays of edge values -/
  vals : Nat → E
  /-- `int` arrays that may hold negative values (first argument: which array) -/
  ints : Nat → Nat → Int
  /-- other `int` arrays -/
  nats : Nat → Nat → Nat
  /-- edge arrays -/
  edges : Nat → Nat → Edge E

/-! ### CSR -/

/-- `CSRTile<T>`, /repo/include/GMDP/matrices/CSRTile.h:56-65. -/
structure CSR (E : Type) where
  /-- `m` -/
  m : Nat
  /-- `n` -/
  n : Nat
  /-- `nnz` -/
  nnz : Nat
  /-- `a` -/
  a : Arr E
  /-- `ja` (one-based columns) -/
  ja : Arr Int
  /-- `ia` (one-based positions) -/
  ia : Arr Nat

/-- `while ((row < m) && (nz_start == -1))` and the `if` behind it, /repo/include/GMDP/matrices/CSRTile.h:161-180; the first
argument is `m - row`. -/
def csrFindStart (jia : Arr Int) (nnz : Nat) : Nat → Nat → Option Nat
  | 0, _ => some nnz
  | k + 1, row => do
    let first ← jia.read 0
    if (row : Int) + 1 < first then some 0 else
    let last ← readI jia ((nnz : Int) - 1)
    if (row : Int) + 1 > last then some nnz else
    let r ← leftBorder jia ((row : Int) + 1) nnz (nnz + 2) 0 nnz
    if r = -1 then csrFindStart jia nnz k (row + 1) else natIdx r

/-- `while ((jia[i] > current_row) && (current_row < end_row))`, /repo/include/GMDP/matrices/CSRTile.h:186-189; the third
argument is `end_row - current_row`, the state (`ia`, `current_row`). -/
def csrWhile (x : Int) (i : Nat) : Nat → Arr Nat → Nat → Option (Arr Nat × Nat)
  | 0, ia, cur => some (ia, cur)
  | k + 1, ia, cur =>
    if x > cur then do
      let ia ← ia.write cur (i + 1)
      csrWhile x i k ia (cur + 1)
    else some (ia, cur)

/-- One round of the loop that fills `ia`, /repo/include/GMDP/matrices/CSRTile.h:151-195.  After the `break` at line 185 the
remaining rounds of the inner loop would do nothing; here they are run. -/
def csrPart (jia : Arr Int) (nnz m rpp p : Nat) (ia : Arr Nat) : Option (Arr Nat) := do
  let startRow := min (rpp * p) m
  let endRow := min (rpp * (p + 1)) m
  let nz ← csrFindStart jia nnz (m - startRow) startRow
  let ia ← ia.write startRow nz
  let st ← forLoop nz nnz (ia, startRow) (fun i st =>
    if st.2 ≥ endRow then some st
    else do
      let x ← jia.read i
      csrWhile x i (endRow - st.2) st.1 st.2)
  forLoop st.2 endRow st.1 (fun r ia => ia.write r (nnz + 1))

/-- A tile without edges, /repo/include/GMDP/matrices/CSRTile.h:124: the array pointers are uninitialised. -/
def CSR.empty (g : FmtFresh E) (m n : Nat) : CSR E := ⟨m, n, 0, ⟨0, g.vals⟩, ⟨0, g.ints 0⟩, ⟨0, g.nats 0⟩⟩

/-- The constructor, /repo/include/GMDP/matrices/CSRTile.h:126-199; also returns `edges`, which it sorts in place. -/
def CSR.build (g : FmtFresh E) (threads : Nat) (sort : List (Edge E) → List (Edge E)) (edges : List (Edge E))
    (m n rowStart colStart : Nat) : Option (List (Edge E) × CSR E) := do
  if edges.length > 0 then
    let es := sort edges
    let a ← fillFrom g.vals (es.map (·.val))
    let ja ← fillFrom (g.ints 0) (es.map (fun e => e.dst - (colStart : Int)))
    let jia ← fillFrom (g.ints 1) (es.map (fun e => e.src - (rowStart : Int)))
    let np := threads * 4
    if np = 0 then none else
    let rpp := (m + np - 1) / np
    let ia ← forLoop 0 np (⟨m + 1, g.nats 0⟩ : Arr Nat) (csrPart jia es.length m rpp)
    let ia ← ia.write m (es.length + 1)
    some (es, ⟨m, n, es.length, a, ja, ia⟩)
  else some (edges, CSR.empty g m n)

/-- The one-based position `nz` as an array index, e.g. /repo/include/GMDP/matrices/CSRTile.h:210. -/
def pred1 : Nat → Option Nat
  | 0 => none
  | k + 1 => some k

/-- `get_edges`, /repo/include/GMDP/matrices/CSRTile.h:203-217, into an array with `nnz` elements (contents `g`). -/
def CSR.getEdges (t : CSR E) (g : Nat → Edge E) (rowStart colStart : Nat) : Option (List (Edge E)) := do
  let out : Arr (Edge E) := ⟨t.nnz, g⟩
  if t.nnz > 0 then
    let out ← forLoop 0 t.m out (fun i out => do
      let lo ← t.ia.read i
      let hi ← t.ia.read (i + 1)
      forLoop lo hi out (fun nz out => do
        let k ← pred1 nz
        let j ← t.ja.read k
        let v ← t.a.read k
        out.write k { src := (i : Int) + rowStart + 1, dst := j + colStart, val := v }))
    some out.toList
  else some out.toList

/-- The value of a row before it is computed, /repo/include/GMDP/singlenode/spmspv.h:105-110 (and 152-157): `some none` if
`row_exists` is false. -/
def rowValue (row : Nat) (bit : Bool) (st : Arr U × Arr Word) : Option (Option U) :=
  if bit then (st.1.read row).map some else some none

/-- One row of `my_csrspmspv`, /repo/include/GMDP/singlenode/spmspv.h:105-133; state (`yvalue`, `ybit_vector`).  The pair
(`row_exists`, `yval`) is an `Option`: `yval` is uninitialised while `row_exists` is false.  `old` is the contents of
`tmp_mul`. -/
def csrRow (t : CSR E) (mul : E → T → U → U) (add : U → U → U) (old : Nat → U) (xv : Arr T) (xb : Arr Word) (row : Nat)
    (st : Arr U × Arr Word) : Option (Arr U × Arr Word) := do
  let bit ← getBitvector row st.2
  let y0 ← rowValue row bit st
  let lo ← t.ia.read row
  let hi ← t.ia.read (row + 1)
  let r ← forLoop lo hi ((y0, st.2) : Option U × Arr Word) (fun nz r => do
    let k ← pred1 nz
    let j ← t.ja.read k
    let col ← natIdx (j - 1)
    let xbit ← getBitvector col xb
    if xbit then do
      let av ← t.a.read k
      let x ← xv.read col
      match r.1 with
      | some y => some (some (add y (mul av x (old nz))), r.2)
      | none => do
        let bits ← setBitvector row r.2
        some (some (mul av x (old nz)), bits)
    else some r)
  match r.1 with
  | some y => do
    let v ← st.1.write row y
    some (v, r.2)
  | none => some (st.1, r.2)

/-- `my_csrspmspv`, /repo/include/GMDP/singlenode/spmspv.h:88-137. -/
def CSR.spmspv (t : CSR E) (threads : Nat) (mul : E → T → U → U) (add : U → U → U) (old : Nat → U) (xv : Arr T)
    (xb : Arr Word) (st : Arr U × Arr Word) : Option (Arr U × Arr Word) := do
  let np := threads * 4
  if np = 0 then none else
  let rpp := ((t.m + np - 1) / np + 31) / 32 * 32
  forLoop 0 np st (fun p st => forLoop (p * rpp) (min ((p + 1) * rpp) t.m) st (csrRow t mul add old xv xb))

/-! ### DCSR -/

/-- `DCSRTile<T>`, /repo/include/GMDP/matrices/DCSRTile.h:42-55. -/
structure DCSR (E : Type) where
  /-- `m` -/
  m : Nat
  /-- `n` -/
  n : Nat
  /-- `num_rows` -/
  numRows : Nat
  /-- `nnz` -/
  nnz : Nat
  /-- `num_partitions` -/
  np : Nat
  /-- `partition_ptrs` -/
  pp : Arr Nat
  /-- `a` -/
  a : Arr E
  /-- `ja` (zero-based columns) -/
  ja : Arr Int
  /-- `ia` -/
  ia : Arr Nat
  /-- `row_ids` -/
  rowIds : Arr Int

/-- The numbering of the rows, /repo/include/GMDP/matrices/DCSRTile.h:140-152. -/
def dcsrNumber (g : Nat → Nat) (es : List (Edge E)) : Option (Arr Nat) := do
  let tmp ← (⟨es.length, g⟩ : Arr Nat).write 0 0
  forLoop 0 (es.length - 1) tmp (fun i tmp => do
    let e1 ← es[i + 1]?
    let e0 ← es[i]?
    let x ← tmp.read i
    if e1.src > e0.src then tmp.write (i + 1) (x + 1) else tmp.write (i + 1) x)

/-- `row_ids` and `ia`, /repo/include/GMDP/matrices/DCSRTile.h:155-168. -/
def dcsrRows (gi : Nat → Int) (gn : Nat → Nat) (es : List (Edge E)) (rowStart numRows : Nat) (tmp : Arr Nat) :
    Option (Arr Int × Arr Nat) := do
  let e ← es[0]?
  let rowIds ← (⟨numRows, gi⟩ : Arr Int).write 0 (e.src - (rowStart : Int) - 1)
  let ia ← (⟨numRows + 1, gn⟩ : Arr Nat).write 0 0
  let st ← forLoop 0 (es.length - 1) (rowIds, ia) (fun i st => do
    let e1 ← es[i + 1]?
    let e0 ← es[i]?
    if e1.src > e0.src then
      let k ← tmp.read (i + 1)
      let rowIds ← st.1.write k (e1.src - (rowStart : Int) - 1)
      let ia ← st.2.write k (i + 1)
      some (rowIds, ia)
    else some st)
  let ia ← st.2.write numRows es.length
  some (st.1, ia)

/-- `while((new_row < num_rows) && ((row_ids[new_row] / 32) == row32))`, /repo/include/GMDP/matrices/DCSRTile.h:185-188; the
third argument is `num_rows - new_row`. -/
def dcsrSkip (rowIds : Arr Int) (row32 : Int) : Nat → Nat → Option Nat
  | 0, r => some r
  | k + 1, r => do
    let x ← rowIds.read r
    if x.tdiv 32 = row32 then dcsrSkip rowIds row32 k (r + 1) else some r

/-- `partition_ptrs`, /repo/include/GMDP/matrices/DCSRTile.h:171-191.  The read of `row_ids[new_row]` at line 184 can be one
behind the end. -/
def dcsrParts (behind : Option Int) (g : Nat → Nat) (numRows np : Nat) (rowIds : Arr Int) : Option (Arr Nat) := do
  if np = 0 then none else
  let rpp := (numRows + np - 1) / np
  let pp ← (⟨np + 1, g⟩ : Arr Nat).write 0 0
  let pp ← forLoop 1 np pp (fun p pp => do
    let prev ← pp.read (p - 1)
    let r := min (prev + rpp) numRows
    let x ← (rowIds.seen behind).read r
    let r ← dcsrSkip rowIds (x.tdiv 32) (numRows - r) r
    pp.write p r)
  pp.write np numRows

/-- `ja` and `a`, /repo/include/GMDP/matrices/DCSRTile.h:193-203. -/
def dcsrFill (gi : Nat → Int) (gv : Nat → E) (es : List (Edge E)) (colStart numRows : Nat) (ia : Arr Nat) :
    Option (Arr Int × Arr E) :=
  forLoop 0 numRows ((⟨es.length, gi⟩, ⟨es.length, gv⟩) : Arr Int × Arr E) (fun i st => do
    let lo ← ia.read i
    let hi ← ia.read (i + 1)
    forLoop lo hi st (fun j st => do
      let e ← es[j]?
      let ja ← st.1.write j (e.dst - (colStart : Int) - 1)
      let a ← st.2.write j e.val
      some (ja, a)))

/-- A tile without edges, /repo/include/GMDP/matrices/DCSRTile.h:126. -/
def DCSR.empty (g : FmtFresh E) (m n : Nat) : DCSR E :=
  ⟨m, n, 0, 0, 0, ⟨0, g.nats 2⟩, ⟨0, g.vals⟩, ⟨0, g.ints 3⟩, ⟨0, g.nats 1⟩, ⟨0, g.ints 2⟩⟩

/-- The constructor, /repo/include/GMDP/matrices/DCSRTile.h:128-224 (without the `__DEBUG` checks). -/
def DCSR.build (behind : Option Int) (g : FmtFresh E) (threads : Nat) (sort : List (Edge E) → List (Edge E))
    (edges : List (Edge E)) (m n rowStart colStart : Nat) : Option (DCSR E) := do
  if edges.length > 0 then
    let es := sort edges
    let tmp ← dcsrNumber (g.nats 3) es
    let last ← tmp.read (es.length - 1)
    let numRows := last + 1
    let ri ← dcsrRows (g.ints 2) (g.nats 1) es rowStart numRows tmp
    let np := threads * 4
    let pp ← dcsrParts behind (g.nats 2) numRows np ri.1
    let ja ← dcsrFill (g.ints 3) g.vals es colStart numRows ri.2
    some ⟨m, n, numRows, es.length, np, pp, ja.2, ja.1, ri.2, ri.1⟩
  else some (DCSR.empty g m n)

/-- `get_edges`, /repo/include/GMDP/matrices/DCSRTile.h:228-243, with the assertion on the number of edges. -/
def DCSR.getEdges (t : DCSR E) (g : Nat → Edge E) (rowStart colStart : Nat) : Option (List (Edge E)) := do
  let out : Arr (Edge E) := ⟨t.nnz, g⟩
  if t.nnz > 0 then
    let st ← forLoop 0 t.numRows (out, 0) (fun i st => do
      let lo ← t.ia.read i
      let hi ← t.ia.read (i + 1)
      forLoop lo hi st (fun nz st => do
        let r ← t.rowIds.read i
        let j ← t.ja.read nz
        let v ← t.a.read nz
        let out ← st.1.write nz { src := r + rowStart + 1, dst := j + colStart + 1, val := v }
        some (out, st.2 + 1)))
    if st.2 = t.nnz then some st.1.toList else none
  else some out.toList

/-- One row of `my_dcsrspmspv`, /repo/include/GMDP/singlenode/spmspv.h:151-180. -/
def dcsrRow (t : DCSR E) (mul : E → T → U → U) (add : U → U → U) (old : Nat → U) (xv : Arr T) (xb : Arr Word) (i : Nat)
    (st : Arr U × Arr Word) : Option (Arr U × Arr Word) := do
  let r ← t.rowIds.read i
  let row ← natIdx r
  let bit ← getBitvector row st.2
  let y0 ← rowValue row bit st
  let lo ← t.ia.read i
  let hi ← t.ia.read (i + 1)
  let y ← forLoop lo hi (y0 : Option U) (fun nz y => do
    let j ← t.ja.read nz
    let col ← natIdx j
    let xbit ← getBitvector col xb
    if xbit then do
      let av ← t.a.read nz
      let x ← xv.read col
      match y with
      | some y => some (some (add y (mul av x (old nz))))
      | none => some (some (mul av x (old nz)))
    else some y)
  match y with
  | some y => do
    let bits ← setBitvector row st.2
    let v ← st.1.write row y
    some (v, bits)
  | none => some st

/-- `my_dcsrspmspv`, /repo/include/GMDP/singlenode/spmspv.h:140-183. -/
def DCSR.spmspv (t : DCSR E) (mul : E → T → U → U) (add : U → U → U) (old : Nat → U) (xv : Arr T) (xb : Arr Word)
    (st : Arr U × Arr Word) : Option (Arr U × Arr Word) :=
  forLoop 0 t.np st (fun p st => do
    let lo ← t.pp.read p
    let hi ← t.pp.read (p + 1)
    forLoop lo hi st (dcsrRow t mul add old xv xb))

/-! ### COO and COO-SIMD -/

/-- `COOTile<T>`, /repo/include/GMDP/matrices/COOTile.h:56-67, and `COOSIMD32Tile<T>`,
/repo/include/GMDP/matrices/COOSIMD32Tile.h:66-78 (there with `simd_nnz`). -/
structure COO (E : Type) where
  /-- `m` -/
  m : Nat
  /-- `n` -/
  n : Nat
  /-- `nnz` -/
  nnz : Nat
  /-- `num_partitions` -/
  np : Nat
  /-- `a` -/
  a : Arr E
  /-- `ja` (one-based columns) -/
  ja : Arr Int
  /-- `ia` (one-based rows) -/
  ia : Arr Int
  /-- `partition_start` -/
  ps : Arr Nat
  /-- `simd_nnz` -/
  simd : Arr Nat

/-- A tile without edges, /repo/include/GMDP/matrices/COOTile.h:137,
/repo/include/GMDP/matrices/COOSIMD32Tile.h:157. -/
def COO.empty (g : FmtFresh E) (m n : Nat) : COO E :=
  ⟨m, n, 0, 0, ⟨0, g.vals⟩, ⟨0, g.ints 4⟩, ⟨0, g.ints 5⟩, ⟨0, g.nats 4⟩, ⟨0, g.nats 5⟩⟩

/-- `partition_start`, /repo/include/GMDP/matrices/COOTile.h:166-188 and (with `l_linear_search`)
/repo/include/GMDP/matrices/COOSIMD32Tile.h:192-220; `search item` is the call of the search function. -/
def cooParts (search : Int → Option Int) (g : Nat → Nat) (m np rpp nnz : Nat) : Option (Arr Nat) := do
  let ps ← forLoop 0 np (⟨np + 1, g⟩ : Arr Nat) (fun p ps => do
    let startRow := min (p * rpp) m
    let endRow := min ((p + 1) * rpp) m
    let s ← search ((startRow : Int) + 1)
    let _ ← search ((endRow : Int) + 1)
    let s ← natIdx s
    ps.write p s)
  ps.write np nnz

/-- The constructor of COO tiles, /repo/include/GMDP/matrices/COOTile.h:139-190 (without the `__DEBUG` checks). -/
def COO.build (behind : Option Int) (g : FmtFresh E) (threads : Nat) (sort : List (Edge E) → List (Edge E))
    (edges : List (Edge E)) (m n rowStart colStart : Nat) : Option (COO E) := do
  if edges.length > 0 then
    let es := sort edges
    let a ← fillFrom g.vals (es.map (·.val))
    let ja ← fillFrom (g.ints 4) (es.map (fun e => e.dst - (colStart : Int)))
    let ia ← fillFrom (g.ints 5) (es.map (fun e => e.src - (rowStart : Int)))
    let np := threads * 4
    if np = 0 then none else
    let rpp := ((m + np - 1) / np + 31) / 32 * 32
    let ps ← cooParts (lBinarySearch (es.length + 3) 0 es.length (ia.seen behind)) (g.nats 4) m np rpp es.length
    some ⟨m, n, es.length, np, a, ja, ia, ps, ⟨0, g.nats 5⟩⟩
  else some (COO.empty g m n)

/-- `get_edges`, /repo/include/GMDP/matrices/COOTile.h:194-202, /repo/include/GMDP/matrices/COOSIMD32Tile.h:371-379. -/
def COO.getEdges (t : COO E) (rowStart colStart : Nat) : Option (List (Edge E)) :=
  (List.range t.nnz).mapM (fun i => do
    let v ← t.a.read i
    let j ← t.ja.read i
    let r ← t.ia.read i
    some { src := r + rowStart, dst := j + colStart, val := v })

/-- Store or add the product, /repo/include/GMDP/singlenode/spmspv.h:209-219. -/
def cooStore (add : U → U → U) (row : Nat) (bit : Bool) (u : U) (st : Arr U × Arr Word) : Option (Arr U) :=
  if bit then do
    let y ← st.1.read row
    st.1.write row (add y u)
  else st.1.write row u

/-- One entry of `my_coospmspv`, /repo/include/GMDP/singlenode/spmspv.h:196-221. -/
def cooEntry (t : COO E) (mul : E → T → U → U) (add : U → U → U) (old : Nat → U) (xv : Arr T) (xb : Arr Word) (nz : Nat)
    (st : Arr U × Arr Word) : Option (Arr U × Arr Word) := do
  let r ← t.ia.read nz
  let row ← natIdx (r - 1)
  let j ← t.ja.read nz
  let col ← natIdx (j - 1)
  let xbit ← getBitvector col xb
  if xbit then do
    let av ← t.a.read nz
    let x ← xv.read col
    let bit ← getBitvector row st.2
    let yv ← cooStore add row bit (mul av x (old nz)) st
    let bits ← setBitvector row st.2
    some (yv, bits)
  else some st

/-- `my_coospmspv`, /repo/include/GMDP/singlenode/spmspv.h:185-224. -/
def COO.spmspv (t : COO E) (mul : E → T → U → U) (add : U → U → U) (old : Nat → U) (xv : Arr T) (xb : Arr Word)
    (st : Arr U × Arr Word) : Option (Arr U × Arr Word) :=
  forLoop 0 t.np st (fun p st => do
    let lo ← t.ps.read p
    let hi ← t.ps.read (p + 1)
    forLoop lo hi st (cooEntry t mul add old xv xb))

/-- `compare_notrans_coosimd32`, /repo/include/GMDP/matrices/COOSIMD32Tile.h:43-56. -/
def compareSimd (a b : TEdge E) : Bool :=
  if a.tile < b.tile then true
  else if a.tile > b.tile then false
  else if a.dst < b.dst then true
  else if a.dst > b.dst then false
  else if a.src < b.src then true
  else if a.src > b.src then false
  else false

/-- `partition_bin_coosimd32`, /repo/include/GMDP/matrices/COOSIMD32Tile.h:58-63. -/
structure SimdBin where
  /-- `p32` -/
  p32 : Nat
  /-- `num_total` -/
  total : Nat
  /-- `num_left` -/
  left : Nat
  /-- `num_taken` -/
  taken : Nat

/-- The comparison of bins, /repo/include/GMDP/matrices/COOSIMD32Tile.h:265-266. -/
def compareBin (a b : SimdBin) : Bool := decide (a.total > b.total)

/-- The output arrays `ja`, `ia`, `a` of the constructor, /repo/include/GMDP/matrices/COOSIMD32Tile.h:164-169. -/
structure SimdBuf (E : Type) where
  /-- `ja` -/
  ja : Arr Int
  /-- `ia` -/
  ia : Arr Int
  /-- `a` -/
  a : Arr E

/-- Copy edge `eid` of `tmpedges` to position `pos`, /repo/include/GMDP/matrices/COOSIMD32Tile.h:283-285, 303-305. -/
def SimdBuf.put (ts : List (TEdge E)) (b : SimdBuf E) (pos eid : Nat) : Option (SimdBuf E) := do
  let e ← ts[eid]?
  let ja ← b.ja.write pos e.dst
  let ia ← b.ia.write pos e.src
  let a ← b.a.write pos e.val
  some ⟨ja, ia, a⟩

/-- The local edge with its block of 32 rows, /repo/include/GMDP/matrices/COOSIMD32Tile.h:177-180.  Ids below one (which
the partitioning never produces) are not modelled. -/
def simdEdge (rowStart colStart : Nat) (e : Edge E) : Option (TEdge E) := do
  let s ← natIdx (e.src - (rowStart : Int))
  let d ← natIdx (e.dst - (colStart : Int))
  let s1 ← pred1 s
  some { src := s, dst := d, tile := s1 / 32, val := e.val }

/-- `while(current_partition <= new_partition)`, /repo/include/GMDP/matrices/COOSIMD32Tile.h:242-246; the second argument is
`new_partition + 1 - current_partition`. -/
def simdBorderWhile (eid : Nat) : Nat → Arr Nat → Nat → Option (Arr Nat × Nat)
  | 0, bs, cur => some (bs, cur)
  | k + 1, bs, cur => do
    let bs ← bs.write cur eid
    simdBorderWhile eid k bs (cur + 1)

/-- `borders`, /repo/include/GMDP/matrices/COOSIMD32Tile.h:237-252. -/
def simdBorders (g : Nat → Nat) (ia : Arr Int) (startRow npart s e : Nat) : Option (Arr Nat) := do
  let st ← forLoop s e ((⟨npart + 1, g⟩ : Arr Nat), 0) (fun eid st => do
    let x ← ia.read eid
    let newp := (x - (startRow : Int) - 1).tdiv 32
    simdBorderWhile eid (newp + 1 - (st.2 : Int)).toNat st.1 st.2)
  forLoop st.2 (npart + 1) st.1 (fun cur bs => bs.write cur e)

/-- The bins before sorting, /repo/include/GMDP/matrices/COOSIMD32Tile.h:254-262; `num_total` is a difference of `int`s,
here `none` if it is negative. -/
def simdBins (npart : Nat) (bs : Arr Nat) : Option (List SimdBin) :=
  (List.range npart).mapM (fun b => do
    let lo ← bs.read b
    let hi ← bs.read (b + 1)
    if lo ≤ hi then some { p32 := b, total := hi - lo, left := hi - lo, taken := 0 } else none)

/-- One round of the `for` loop in the round-robin assignment, /repo/include/GMDP/matrices/COOSIMD32Tile.h:272-291.
Arguments: the bins from the current one on, `rotation_count`, and the state (arrays, `nnzsimd`, `n_full32`); `s` is
`partition_start[p]`. -/
def simdRound (ts : List (TEdge E)) (bs : Arr Nat) (s : Nat) :
    List SimdBin → Nat → SimdBuf E × Nat × Nat → Option (List SimdBin × SimdBuf E × Nat × Nat)
  | [], _, st => some ([], st)
  | b :: rest, rot, st =>
    if b.left > 0 then do
      let lo ← bs.read b.p32
      let buf ← st.1.put ts (st.2.1 + s) (lo + b.taken)
      let b' := { b with taken := b.taken + 1, left := b.left - 1 }
      let full := if b.left - 1 = 0 then st.2.2 - 1 else st.2.2
      if rot + 1 = 32 then some (b' :: rest, buf, st.2.1 + 1, full)
      else do
        let r ← simdRound ts bs s rest (rot + 1) (buf, st.2.1 + 1, full)
        some (b' :: r.1, r.2)
    else if rot = 32 then some (b :: rest, st)
    else do
      let r ← simdRound ts bs s rest rot st
      some (b :: r.1, r.2)

/-- `while(n_full32 >= 32)`, /repo/include/GMDP/matrices/COOSIMD32Tile.h:270-292; `fuel` bounds the number of rounds. -/
def simdRounds (ts : List (TEdge E)) (bs : Arr Nat) (s : Nat) :
    Nat → List SimdBin × SimdBuf E × Nat × Nat → Option (List SimdBin × SimdBuf E × Nat × Nat)
  | 0, _ => none
  | fuel + 1, st =>
    if st.2.2.2 ≥ 32 then do
      let r ← simdRound ts bs s st.1 0 st.2
      simdRounds ts bs s fuel r
    else some st

/-- The leftover edges, /repo/include/GMDP/matrices/COOSIMD32Tile.h:295-308; state (arrays, `nnzincrement`). -/
def simdRest (ts : List (TEdge E)) (bs : Arr Nat) (s : Nat) (bins : List SimdBin) (st : SimdBuf E × Nat) :
    Option (SimdBuf E × Nat) :=
  bins.foldlM (fun st b => forLoop b.taken b.total st (fun k st => do
    let lo ← bs.read b.p32
    let buf ← st.1.put ts (st.2 + s) (lo + k)
    some (buf, st.2 + 1))) st

/-- One partition of the second loop, /repo/include/GMDP/matrices/COOSIMD32Tile.h:225-318; state (arrays, `simd_nnz`).  The
`exit` at line 313 is `none`. -/
def simdPart (g : Nat → Nat) (sortBins : List SimdBin → List SimdBin) (ts : List (TEdge E)) (ps : Arr Nat) (m rpp p : Nat)
    (st : SimdBuf E × Arr Nat) : Option (SimdBuf E × Arr Nat) := do
  let startRow := min (p * rpp) m
  let endRow := min ((p + 1) * rpp) m
  let s ← ps.read p
  let e ← ps.read (p + 1)
  let npart := (endRow - startRow + 31) / 32
  let bs ← simdBorders g st.1.ia startRow npart s e
  let bins ← simdBins npart bs
  let full := bins.countP (fun b => decide (b.total > 0))
  let r ← simdRounds ts bs s (e - s + 1) (sortBins bins, st.1, 0, full)
  let simd ← st.2.write p r.2.2.1
  let q ← simdRest ts bs s r.1 (r.2.1, r.2.2.1)
  if q.2 + s = e then some (q.1, simd) else none

/-- The constructor of COO-SIMD tiles, /repo/include/GMDP/matrices/COOSIMD32Tile.h:159-367 (without the `__DEBUG`
checks). -/
def COO.buildSimd (g : FmtFresh E) (threads : Nat) (sort : List (TEdge E) → List (TEdge E))
    (sortBins : Nat → List SimdBin → List SimdBin) (edges : List (Edge E)) (m n rowStart colStart : Nat) :
    Option (COO E) := do
  if edges.length > 0 then
    let ts ← edges.mapM (simdEdge rowStart colStart)
    let ts := sort ts
    let ia ← fillFrom (g.ints 5) (ts.map (fun e => (e.src : Int)))
    let np := threads * 4
    if np = 0 then none else
    let rpp := ((m + np - 1) / np + 31) / 32 * 32
    let ps ← cooParts (lLinearSearch (ts.length + 1) 0 ts.length ia) (g.nats 4) m np rpp ts.length
    let st ← forLoop 0 np ((⟨⟨ts.length, g.ints 4⟩, ia, ⟨ts.length, g.vals⟩⟩, ⟨np + 1, g.nats 5⟩) : SimdBuf E × Arr Nat)
      (fun p st => simdPart (g.nats 6) (sortBins p) ts ps m rpp p st)
    some ⟨m, n, ts.length, np, st.1.a, st.1.ja, st.1.ia, ps, st.2⟩
  else some (COO.empty g m n)

/-! ### Hybrid -/

/-- `HybridTile<T>`, /repo/include/GMDP/matrices/HybridTile.h:45-55.  `none` for the part tiles: uninitialised pointers. -/
structure Hybrid (E : Type) where
  /-- `m` -/
  m : Nat
  /-- `n` -/
  n : Nat
  /-- `nnz` -/
  nnz : Nat
  /-- `nnz1` -/
  nnz1 : Nat
  /-- `t1` -/
  t1 : Option (DCSR E)
  /-- `t2` -/
  t2 : Option (COO E)

/-- A tile without edges, /repo/include/GMDP/matrices/HybridTile.h:76. -/
def Hybrid.empty (m n : Nat) : Hybrid E := ⟨m, n, 0, 0, none, none⟩

/-- `ia_lt16` and `ia_gte16`, /repo/include/GMDP/matrices/HybridTile.h:92-108. -/
def hybridCounts (g1 g2 : Nat → Nat) (m : Nat) (ia : Arr Nat) : Option (Arr Nat × Arr Nat) := do
  let lt ← (⟨m + 1, g1⟩ : Arr Nat).write 0 0
  let ge ← (⟨m + 1, g2⟩ : Arr Nat).write 0 0
  forLoop 0 m (lt, ge) (fun i st => do
    let hi ← ia.read (i + 1)
    let lo ← ia.read i
    let k := hi - lo
    let l ← st.1.read i
    let b ← st.2.read i
    if k < 16 then do
      let lt ← st.1.write (i + 1) (l + k)
      let ge ← st.2.write (i + 1) b
      some (lt, ge)
    else do
      let ge ← st.2.write (i + 1) (b + k)
      let lt ← st.1.write (i + 1) l
      some (lt, ge))

/-- `memcpy(out + pos, edges + from, k * sizeof(edge_t<T>))`, /repo/include/GMDP/matrices/HybridTile.h:121, 125. -/
def copyEdges (es : List (Edge E)) (out : Arr (Edge E)) (pos src k : Nat) : Option (Arr (Edge E)) :=
  forLoop 0 k out (fun i out => do
    let e ← es[src + i]?
    out.write (pos + i) e)

/-- The distribution of the edges, /repo/include/GMDP/matrices/HybridTile.h:116-127; state (`edges_lt16`,
`edges_gte16`). -/
def hybridSplit (es : List (Edge E)) (m : Nat) (ia lt ge : Arr Nat) (st : Arr (Edge E) × Arr (Edge E)) :
    Option (Arr (Edge E) × Arr (Edge E)) :=
  forLoop 0 m st (fun i st => do
    let hi ← ia.read (i + 1)
    let lo ← ia.read i
    let k := hi - lo
    let src ← pred1 lo
    if k < 16 then do
      let l ← lt.read i
      if l + k ≤ st.1.size then do
        let o ← copyEdges es st.1 l src k
        some (o, st.2)
      else none
    else do
      let b ← ge.read i
      if b + k ≤ st.2.size then do
        let o ← copyEdges es st.2 b src k
        some (st.1, o)
      else none)

/-- What the library's sorts do in the constructor of a hybrid tile (/repo/include/GMDP/matrices/HybridTile.h:82-133). -/
structure HybridSorts (E : Type) where
  /-- its own sort, line 82 -/
  own : List (Edge E) → List (Edge E)
  /-- the sort of the temporary CSR tile, line 89 -/
  csr : List (Edge E) → List (Edge E)
  /-- the sort of the DCSR part, line 132 -/
  dcsr : List (Edge E) → List (Edge E)
  /-- the sort of the COO-SIMD part, line 133 -/
  simd : List (TEdge E) → List (TEdge E)
  /-- the sorts of bins of the COO-SIMD part -/
  bins : Nat → List SimdBin → List SimdBin

/-- The constructor, /repo/include/GMDP/matrices/HybridTile.h:78-139.  (The matrix calls it with at least one edge only,
/repo/include/GMDP/matrices/SpMat.h:263-268.) -/
def Hybrid.build (behind : Option Int) (g : FmtFresh E) (threads : Nat) (s : HybridSorts E) (edges : List (Edge E))
    (m n rowStart colStart : Nat) : Option (Hybrid E) := do
  let r ← CSR.build g threads s.csr (s.own edges) m n rowStart colStart
  let es := r.1
  let c ← hybridCounts (g.nats 7) (g.nats 8) m r.2.ia
  let n1 ← c.2.read m
  let n2 ← c.1.read m
  if n1 + n2 ≠ es.length then none else
  let st ← hybridSplit es m r.2.ia c.1 c.2 (⟨n2, g.edges 0⟩, ⟨n1, g.edges 1⟩)
  let t1 ← DCSR.build behind g threads s.dcsr st.2.toList m n rowStart colStart
  let t2 ← COO.buildSimd g threads s.simd s.bins st.1.toList m n rowStart colStart
  some ⟨m, n, es.length, n1, some t1, some t2⟩

/-- `get_edges`, /repo/include/GMDP/matrices/HybridTile.h:143-149. -/
def Hybrid.getEdges (t : Hybrid E) (g : Nat → Edge E) (rowStart colStart : Nat) : Option (List (Edge E)) := do
  if t.nnz > 0 then
    let t1 ← t.t1
    let t2 ← t.t2
    let a ← t1.getEdges g rowStart colStart
    let b ← t2.getEdges rowStart colStart
    some (a ++ b)
  else some []

/-! ### `mult_segment` -/

/-- The common frame of the overloads of `mult_segment`, /repo/include/GMDP/singlenode/spmspv.h:241-314: allocate and
initialise the segment of `y`, run `kernel` on the arrays, count. -/
def multWith (g : Fresh U) (kernel : Segment T → Arr U × Arr Word → Option (Arr U × Arr Word)) (sx : Segment T)
    (sy : Segment U) : Option (Segment U) := do
  let sy ← (sy.alloc g).initialize
  let b ← sy.props
  let st ← kernel sx (b.value, b.bits)
  storeResult sy b st

/-- `mult_segment` for CSR tiles, /repo/include/GMDP/singlenode/spmspv.h:265-279. -/
def CSR.mult (t : CSR E) (threads : Nat) (g : Fresh U) (old : Nat → U) (mul : E → T → U → U) (add : U → U → U)
    (sx : Segment T) (sy : Segment U) : Option (Segment U) :=
  multWith g (fun sx st => if t.nnz > 0 then do
    let bx ← sx.props
    t.spmspv threads mul add old bx.value bx.bits st else some st) sx sy

/-- `mult_segment` for COO and COO-SIMD tiles, /repo/include/GMDP/singlenode/spmspv.h:282-314. -/
def COO.mult (t : COO E) (g : Fresh U) (old : Nat → U) (mul : E → T → U → U) (add : U → U → U)
    (sx : Segment T) (sy : Segment U) : Option (Segment U) :=
  multWith g (fun sx st => if t.nnz > 0 then do
    let bx ← sx.props
    t.spmspv mul add old bx.value bx.bits st else some st) sx sy

/-- The kernel part for the DCSR part of a hybrid tile, /repo/include/GMDP/singlenode/spmspv.h:248-253 (there is no
`mult_segment` for DCSR tiles alone). -/
def DCSR.kernel (t : DCSR E) (old : Nat → U) (mul : E → T → U → U) (add : U → U → U)
    (sx : Segment T) (st : Arr U × Arr Word) : Option (Arr U × Arr Word) :=
  if t.nnz > 0 then do
    let bx ← sx.props
    t.spmspv mul add old bx.value bx.bits st else some st

/-- `mult_segment` for hybrid tiles, /repo/include/GMDP/singlenode/spmspv.h:241-262.  It follows the pointers `t1` and `t2`
without looking at `nnz`. -/
def Hybrid.mult (t : Hybrid E) (g : Fresh U) (old1 old2 : Nat → U) (mul : E → T → U → U) (add : U → U → U)
    (sx : Segment T) (sy : Segment U) : Option (Segment U) :=
  multWith g (fun sx st => do
    let t1 ← t.t1
    let st ← t1.kernel old1 mul add sx st
    let t2 ← t.t2
    if t2.nnz > 0 then do
      let bx ← sx.props
      t2.spmspv mul add old2 bx.value bx.bits st
    else some st) sx sy

/-! ### `mult_segment3` for COO tiles -/

/-- One entry of `my_coospmspv3`, /repo/include/GMDP/singlenode/spmspv3.h:106-138: the receiving row must have a vertex property
(the assertion of line 119); the copy `VPVal` (line 118) is read before. -/
def cooEntry3 (t : COO E) (mul : E → T → V → U → U) (add : U → U → U) (old : Nat → U) (xv : Arr T) (xb : Arr Word)
    (vv : Arr V) (vb : Arr Word) (nz : Nat) (st : Arr U × Arr Word) : Option (Arr U × Arr Word) := do
  let r ← t.ia.read nz
  let row ← natIdx (r - 1)
  let j ← t.ja.read nz
  let col ← natIdx (j - 1)
  let xbit ← getBitvector col xb
  if xbit then do
    let v ← vv.read row
    let vbit ← getBitvector row vb
    if !vbit then none else
    let av ← t.a.read nz
    let x ← xv.read col
    let bit ← getBitvector row st.2
    let yv ← cooStore add row bit (mul av x v (old nz)) st
    let bits ← setBitvector row st.2
    some (yv, bits)
  else some st

/-- `my_coospmspv3`, /repo/include/GMDP/singlenode/spmspv3.h:93-140. -/
def COO.spmspv3 (t : COO E) (mul : E → T → V → U → U) (add : U → U → U) (old : Nat → U) (xv : Arr T) (xb : Arr Word)
    (vv : Arr V) (vb : Arr Word) (st : Arr U × Arr Word) : Option (Arr U × Arr Word) :=
  forLoop 0 t.np st (fun p st => do
    let lo ← t.ps.read p
    let hi ← t.ps.read (p + 1)
    forLoop lo hi st (cooEntry3 t mul add old xv xb vv vb))

/-- `mult_segment3` for COO tiles, /repo/include/GMDP/singlenode/spmspv3.h:160-174.  Unlike `mult_segment` it does not look at
`nnz`, so for a tile without edges it uses `num_partitions` and `partition_start`, which were never set
(/repo/include/GMDP/matrices/COOTile.h:137): undefined. -/
def COO.mult3 (t : COO E) (g : Fresh U) (old : Nat → U) (mul : E → T → V → U → U) (add : U → U → U)
    (sx : Segment T) (sv : Segment V) (sy : Segment U) : Option (Segment U) :=
  multWith g (fun sx st => if t.nnz > 0 then do
    let bx ← sx.props
    let bv ← sv.props
    t.spmspv3 mul add old bx.value bx.bits bv.value bv.bits st else none) sx sy

end GraphMat
