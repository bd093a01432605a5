import Verif.Model.SpMat
import Verif.Model.Compress
import Verif.Model.Program

/-!
# Sparse matrix times sparse vector

Models /repo/include/GMDP/singlenode/{spmspv,spmspv3}.h for DCSC tiles,
/repo/include/GMDP/multinode/{spmspv,spmspv3}.h and /repo/include/SPMV.h.

`void (*op_mul)(const Ta&, const Tx&, Ty* c, ..)` becomes a function that also takes the contents of
`*c` before the call.  The prefetch of /repo/include/GMDP/singlenode/spmspv.h:59 and the dead store
`*nnz = m * n` (line 85) are not part of these functions; they are in `Tile.prefetchReads` and
`Tile.deadStore`.  The `omp parallel for` over row partitions runs in partition order here.
-/
namespace GraphMat

variable {α E T U V σ : Type}

/-- One partition of the loop nest shared by `my_spmspv` and `my_spmspv3`: for each stored column with
a message, for each entry of the column, `f p nz_idx row_ind Aval Xval`.
/repo/include/GMDP/singlenode/spmspv.h:50-80, /repo/include/GMDP/singlenode/spmspv3.h:48-83. -/
def Tile.walkPart (t : Tile E) (xv : Arr T) (xb : Arr Word)
    (f : Nat → Nat → Nat → E → T → σ → Option σ) (p : Nat) (st : σ) : Option σ := do
  let c0 ← t.cs.read p
  let e0 ← t.ep.read p
  let c1 ← t.cs.read (p + 1)
  forLoop 0 (c1 - c0 - 1) st (fun j st => do
    let col ← t.colIdx.read (c0 + j)
    let bit ← getBitvector col xb
    if bit then
      let x ← xv.read col
      let a ← t.colPtrs.read (c0 + j)
      let b ← t.colPtrs.read (c0 + j + 1)
      forLoop a b st (fun nz st => do
        let row ← t.rowInds.read (e0 + nz)
        let v ← t.vals.read (e0 + nz)
        f p nz row v x st)
    else some st)

/-- The loop over the partitions, /repo/include/GMDP/singlenode/spmspv.h:48-49,
/repo/include/GMDP/singlenode/spmspv3.h:47-47. -/
def Tile.walk (t : Tile E) (xv : Arr T) (xb : Arr Word)
    (f : Nat → Nat → Nat → E → T → σ → Option σ) (st : σ) : Option σ :=
  forLoop 0 t.np st (t.walkPart xv xb f)

/-- The body of the innermost loop of `my_spmspv`,
/repo/include/GMDP/singlenode/spmspv.h:64-78.  `old` is the content of the uninitialised
`temp_mul_result`. -/
def mulAdd (mul : E → T → U → U) (add : U → U → U) (old : U) (row : Nat) (a : E) (x : T)
    (st : Arr U × Arr Word) : Option (Arr U × Arr Word) := do
  let temp := mul a x old
  let bit ← getBitvector row st.2
  if bit then
    let y ← st.1.read row
    let v ← st.1.write row (add y temp)
    some (v, st.2)
  else
    let v ← st.1.write row temp
    let bits ← setBitvector row st.2
    some (v, bits)

/-- `my_spmspv`, /repo/include/GMDP/singlenode/spmspv.h:39-86; the state is (`yvalue`,
`ybit_vector`).  `mul` may depend on the call (partition, index) because `Mulfn` passes an
uninitialised vertex property. -/
def Tile.spmspv (t : Tile E) (tmp : Nat → Nat → U) (mul : Nat → Nat → E → T → U → U)
    (add : U → U → U) (xv : Arr T) (xb : Arr Word) (st : Arr U × Arr Word) :
    Option (Arr U × Arr Word) :=
  t.walk xv xb (fun p nz row a x st => mulAdd (mul p nz) add (tmp p nz) row a x st) st

/-- The body of the innermost loop of `my_spmspv3`,
/repo/include/GMDP/singlenode/spmspv3.h:62-82, with the assertion that the receiving vertex has a
property.  A first message is computed in place, on top of the stale content of `yvalue`. -/
def mulAdd3 (mul : E → T → V → U → U) (add : U → U → U) (old : U) (vv : Arr V) (vb : Arr Word)
    (row : Nat) (a : E) (x : T) (st : Arr U × Arr Word) : Option (Arr U × Arr Word) := do
  let vbit ← getBitvector row vb
  if !vbit then none else
  let bit ← getBitvector row st.2
  let v ← vv.read row
  let y ← st.1.read row
  if bit then
    let yv ← st.1.write row (add y (mul a x v old))
    some (yv, st.2)
  else
    let yv ← st.1.write row (mul a x v y)
    let bits ← setBitvector row st.2
    some (yv, bits)

/-- `my_spmspv3`, /repo/include/GMDP/singlenode/spmspv3.h:38-90. -/
def Tile.spmspv3 (t : Tile E) (tmp : Nat → Nat → U) (mul : E → T → V → U → U)
    (add : U → U → U) (xv : Arr T) (xb : Arr Word) (vv : Arr V) (vb : Arr Word)
    (st : Arr U × Arr Word) : Option (Arr U × Arr Word) :=
  t.walk xv xb (fun p nz row a x st => mulAdd3 mul add (tmp p nz) vv vb row a x st) st

/-- The end of `mult_segment`: store the arrays and set `nnz = compute_nnz()`,
/repo/include/GMDP/singlenode/spmspv.h:237. -/
def storeResult (s : Segment U) (b : Buffer U) (st : Arr U × Arr Word) : Option (Segment U) := do
  let b := { b with value := st.1, bits := st.2 }
  let k ← ({ s with props := some b } : Segment U).computeNnz
  let b := { b with nnz := (k : Int) }
  some { s with props := some b }

/-- `mult_segment` for DCSC tiles, /repo/include/GMDP/singlenode/spmspv.h:226-238. -/
def multSegment (g : Fresh U) (tmp : Nat → Nat → U) (mul : Nat → Nat → E → T → U → U)
    (add : U → U → U) (t : Tile E) (sx : Segment T) (sy : Segment U) : Option (Segment U) := do
  let sy ← (sy.alloc g).initialize
  let bx ← sx.props
  let b ← sy.props
  let st ← t.spmspv tmp mul add bx.value bx.bits (b.value, b.bits)
  storeResult sy b st

/-- `mult_segment3` for DCSC tiles, /repo/include/GMDP/singlenode/spmspv3.h:143-158. -/
def multSegment3 (g : Fresh U) (tmp : Nat → Nat → U) (mul : E → T → V → U → U)
    (add : U → U → U) (t : Tile E) (sx : Segment T) (sv : Segment V) (sy : Segment U) :
    Option (Segment U) := do
  let sy ← (sy.alloc g).initialize
  let bx ← sx.props
  let bv ← sv.props
  let b ← sy.props
  let st ← t.spmspv3 tmp mul add bx.value bx.bits bv.value bv.bits (b.value, b.bits)
  storeResult sy b st

/-! ### All ranks -/

/-- `std::set<int>::insert` on the increasing list of the elements of the set
(/repo/include/GMDP/matrices/SpMat.h:406). -/
def setInsert (x : Nat) : List Nat → List Nat
  | [] => [x]
  | y :: l => if x < y then x :: y :: l else if x = y then y :: l else y :: setInsert x l

/-- The elements, in iteration order, of a `std::set<int>` after inserting the elements of a list
(/repo/include/GMDP/matrices/SpMat.h:403-407). -/
def rankSet (l : List Nat) : List Nat := l.foldl (fun s x => setInsert x s) []

/-- `row_ranks[i]` of `get_row_ranks`, /repo/include/GMDP/matrices/SpMat.h:402-409. -/
def RMat.rowRanks (M : RMat E) (i : Nat) : Option (List Nat) := do
  let l ← (List.range M.ntx).mapM (fun j => M.node i j)
  some (rankSet l)

/-- `col_ranks[j]` of `get_row_ranks`, /repo/include/GMDP/matrices/SpMat.h:411-418. -/
def RMat.colRanks (M : RMat E) (j : Nat) : Option (List Nat) := do
  let l ← (List.range M.nty).mapM (fun i => M.node i j)
  some (rankSet l)

/-- The pairs visited by `for (j = 0; j < k; j++) for (it = ranks[j].begin(); ...)`, in order
(e.g. /repo/include/GMDP/multinode/spmspv.h:62-64). -/
def rankPairs (k : Nat) (ranks : Nat → Option (List Nat)) : Option (List (Nat × Nat)) := do
  let ls ← (List.range k).mapM (fun j => do
    let l ← ranks j
    some (l.map (fun r => (j, r))))
  some ls.flatten

/-- A segment operation on `segments[p]` of rank `r` (e.g.
/repo/include/GMDP/multinode/spmspv.h:67). -/
def DVec.modSeg (d : DVec α) (r p : Nat) (f : Segment α → Option (Segment α)) : Option (DVec α) := do
  let v ← d.read r
  let v' ← v.modifySeg p f
  d.write r v'

/-- `segments[p]` of rank `r` (e.g. /repo/include/GMDP/multinode/spmspv.h:79). -/
def DVec.seg (d : DVec α) (r p : Nat) : Option (Segment α) := do
  let v ← d.read r
  v.segs.read p

/-- Broadcast of the segments to the ranks that need them: `compress` at the owner, `send_nnz`,
`recv_nnz`, `send_segment`, `recv_segment`, `decompress`,
/repo/include/GMDP/multinode/spmspv.h:61-116 (for the third operand
/repo/include/GMDP/multinode/spmspv3.h:74-83, 99-112, 130-143, 161-170).  `pairs` lists (segment,
rank that needs it).  Every rank executes the same sequence of pairs, so message number `k` from one
rank to another is received by the `k`-th receive; `nrank` is the number of ranks. -/
def DVec.broadcast (ser : Bool) (threads nrank : Nat) (g : Nat → Nat → Fresh α)
    (pairs : List (Nat × Nat)) (d : DVec α) : Option (DVec α) := do
  let d ← pairs.foldlM (fun d jr => do
    let o ← segOwner nrank jr.1
    if o ≠ jr.2 then d.modSeg o jr.1 (fun s => s.compress ser threads (g o jr.1)) else some d) d
  let d ← pairs.foldlM (fun d jr => do
    let o ← segOwner nrank jr.1
    if o ≠ jr.2 then
      let s ← d.seg o jr.1
      let msg ← s.send ser
      d.modSeg jr.2 jr.1 (fun s => s.recv ser threads (g jr.2 jr.1) msg)
    else some d) d
  pairs.foldlM (fun d jr => do
    let o ← segOwner nrank jr.1
    if o ≠ jr.2 then d.modSeg jr.2 jr.1 (fun s => s.decompress ser threads) else some d) d

/-- `for (j = 0; j < k; j++) if (global_myrank != nodeIds[j]) segments[j]->set_uninitialized();` on
every rank, /repo/include/GMDP/multinode/spmspv.h:135-139, 191-195. -/
def DVec.freeNonOwned (k : Nat) (d : DVec α) : Option (DVec α) :=
  eachRank d (fun _ v => forLoop 0 k v (fun j v => do
    let own ← v.owns j
    if own then some v else v.modifySeg j (fun s => some s.setUninitialized)))

/-- The reduction across rows, /repo/include/GMDP/multinode/spmspv.h:142-203.  `pairs` lists
(segment, rank with a partial result). -/
def DVec.reduceRows (ser : Bool) (threads nrank k : Nat) (add : α → α → α) (g gq : Nat → Nat → Fresh α)
    (pairs : List (Nat × Nat)) (d : DVec α) : Option (DVec α) := do
  let d ← pairs.foldlM (fun d ir => do
    let o ← segOwner nrank ir.1
    if o ≠ ir.2 then d.modSeg ir.2 ir.1 (fun s => s.compress ser threads (g ir.2 ir.1)) else some d) d
  let d ← pairs.foldlM (fun d ir => do
    let o ← segOwner nrank ir.1
    if o ≠ ir.2 then
      let s ← d.seg ir.2 ir.1
      let msg ← s.send ser
      d.modSeg o ir.1 (fun s => s.recvQueue ser threads (gq ir.2 ir.1) msg)
    else some d) d
  let d ← d.freeNonOwned k
  eachRank d (fun r v => forLoop 0 k v (fun i v => do
    let own ← v.owns i
    if own then
      v.modifySeg i (fun s => do
        let s ← s.unionReceived ser threads add (g r i)
        some s.setUninitializedReceived)
    else some v))

/-- What one multiplication finds in fresh memory and in uninitialised variables, and which of the
types derive from `Serializable` (/repo/include/GMDP/multinode/spmspv.h:41-206). -/
structure MulEnv (T U V : Type) where
  /-- `T` is serializable -/
  serT : Bool
  /-- `U` is serializable -/
  serU : Bool
  /-- `V` is serializable -/
  serV : Bool
  /-- fresh memory of segments of `x` (rank, segment) -/
  gx : Nat → Nat → Fresh T
  /-- fresh memory of segments of the vertex properties -/
  gv : Nat → Nat → Fresh V
  /-- fresh memory of segments of `y` -/
  gy : Nat → Nat → Fresh U
  /-- fresh memory of receive buffers (sending rank, segment) -/
  gq : Nat → Nat → Fresh U
  /-- contents of `temp_mul_result` (tile row, tile column, partition, index) -/
  tmp : Nat → Nat → Nat → Nat → U
  /-- contents of `dummy` in `Mulfn` -/
  dummy : Nat → Nat → Nat → Nat → V

/-- `SpMSpV(grida, vecx, vecy, mul_fp, add_fp, vsp)` on all ranks,
/repo/include/GMDP/multinode/spmspv.h:41-206.  `nodeIds` is the same on every rank, the partner sets
are computed from rank 0's copy. -/
def DMat.spmspv (env : MulEnv T U V) (threads nrank : Nat) (D : DMat E)
    (mul : Nat → Nat → Nat → Nat → E → T → U → U) (add : U → U → U) (x : DVec T) (y : DVec U) :
    Option (DVec T × DVec U) := do
  let M ← D[0]?
  let colPairs ← rankPairs M.ntx M.colRanks
  let rowPairs ← rankPairs M.nty M.rowRanks
  let x ← x.broadcast env.serT threads nrank env.gx colPairs
  let y ← eachRank y (fun r yv => do
    let xv ← x.read r
    let M ← D[r]?
    M.foldTiles yv (fun i j t yv => do
      let sx ← xv.segs.read j
      yv.modifySeg i (fun sy => multSegment (env.gy r i) (env.tmp i j) (mul i j) add t sx sy)))
  let x ← x.freeNonOwned M.ntx
  let y ← DVec.reduceRows env.serU threads nrank M.nty add env.gy env.gq rowPairs y
  some (x, y)

/-- `SpMSpV3(grida, vecx, vecvp, vecy, mul_fp, add_fp, vsp)` on all ranks,
/repo/include/GMDP/multinode/spmspv3.h:41-267.  The exchanges of `x` and of the vertex properties
alternate phase by phase in the code; they touch different vectors and are run one after the other
here. -/
def DMat.spmspv3 (env : MulEnv T U V) (threads nrank : Nat) (D : DMat E)
    (mul : E → T → V → U → U) (add : U → U → U) (x : DVec T) (vp : DVec V) (y : DVec U) :
    Option (DVec T × DVec V × DVec U) := do
  let M ← D[0]?
  let colPairs ← rankPairs M.ntx M.colRanks
  let rowPairs ← rankPairs M.nty M.rowRanks
  let x ← x.broadcast env.serT threads nrank env.gx colPairs
  let vp ← vp.broadcast env.serV threads nrank env.gv rowPairs
  let y ← eachRank y (fun r yv => do
    let xv ← x.read r
    let vv ← vp.read r
    let M ← D[r]?
    M.foldTiles yv (fun i j t yv => do
      let sx ← xv.segs.read j
      let sv ← vv.segs.read i
      yv.modifySeg i (fun sy => multSegment3 (env.gy r i) (env.tmp i j) mul add t sx sv sy)))
  let x ← x.freeNonOwned M.ntx
  let vp ← vp.freeNonOwned M.nty
  let y ← DVec.reduceRows env.serU threads nrank M.nty add env.gy env.gq rowPairs y
  some (x, vp, y)

/-- `Mulfn(const E& a, const T& b, U* c, void* gpv)`, /repo/include/SPMV.h:41-46: the vertex property
passed to the program is an uninitialised (default-constructed) variable. -/
def mulfn (gp : GProg T U V E) (dummy : V) (a : E) (b : T) (c : U) : U := gp.process b a dummy c

/-- `Mulfn(const E& a, const T& b, const V& v, U* c, void* gpv)`, /repo/include/SPMV.h:48-52. -/
def mulfn3 (gp : GProg T U V E) (a : E) (b : T) (v : V) (c : U) : U := gp.process b a v c

/-- `Addfn(a, b, c, gpv)`, /repo/include/SPMV.h:54-59: `*c = a; reduce_function(*c, b)`.  All callers
pass `c = &a` or do not read `*c` before. -/
def addfn (gp : GProg T U V E) (a b : U) : U := gp.reduce a b

/-- `SpMSpV(G, gp, x, y)` (`m` is `G.A`) and `SpMTSpV(G, gp, x, y)` (`m` is `G.AT`),
/repo/include/SPMV.h:62-97.  The result is `x`, the vertex properties and `y`. -/
def Graph.spmv (env : MulEnv T U V) (gp : GProg T U V E) (G : Graph V E) (m : DMat E) (x : DVec T)
    (y : DVec U) : Option (DVec T × DVec V × DVec U) :=
  if gp.needsProp then
    m.spmspv3 env G.threads G.nrank (mulfn3 gp) (addfn gp) x G.vp y
  else do
    let r ← m.spmspv env G.threads G.nrank (fun i j p nz => mulfn gp (env.dummy i j p nz)) (addfn gp) x y
    some (r.1, G.vp, r.2)

end GraphMat
