import Verif.Model.EdgeList

/-!
# The graphs of the repository's tests

Models /repo/test/generator.h and the functions on edge lists of /repo/test/test_utils.h.  The generators make the whole list on
rank 0 and then spread it over the ranks.  A list over the edge type `T` holds the value `one` (`1` converted to `T`).
-/
namespace GraphMat

variable {E : Type}

/-- `edges[k].src = src; edges[k].dst = dst; edges[k].val = 1; k++`, e.g. /repo/test/generator.h:138-141; the three fields are
written at once here. -/
def putEdge (one : E) (src dst : Int) (s : Arr (Edge E) × Nat) : Option (Arr (Edge E) × Nat) := do
  let a ← s.1.write s.2 ⟨src, dst, one⟩
  some (a, s.2 + 1)

/-- The part of `generate_identity_edgelist` on rank 0, /repo/test/generator.h:47-54. -/
def genIdentity (g : Nat → Edge E) (one : E) (n : Nat) : Option (EdgeList E) := do
  let el := EdgeList.alloc g n n n
  let a ← forLoop 0 n el.edges (fun i a => a.write i ⟨(i : Int) + 1, (i : Int) + 1, one⟩)
  some { el with edges := a }

/-- The part of `generate_upper_triangular_edgelist` on rank 0, /repo/test/generator.h:111-122. -/
def genUpper (g : Nat → Edge E) (one : E) (n : Nat) : Option (EdgeList E) := do
  let p ← csub n 1
  let p ← cmul n p
  let p ← cdiv p 2
  let el := EdgeList.alloc g n n p.toNat
  let r ← forLoop 0 n (el.edges, 0) (fun i s =>
    forLoop (i + 1) n s (fun j s => putEdge one ((i : Int) + 1) ((j : Int) + 1) s))
  some { el with edges := r.1 }

/-- The part of `generate_dense_edgelist` on rank 0, /repo/test/generator.h:133-144. -/
def genDense (g : Nat → Edge E) (one : E) (n : Nat) : Option (EdgeList E) := do
  let p ← cmul n n
  let el := EdgeList.alloc g n n p.toNat
  let r ← forLoop 0 n (el.edges, 0) (fun i s =>
    forLoop 0 n s (fun j s => putEdge one ((i : Int) + 1) ((j : Int) + 1) s))
  some { el with edges := r.1 }

/-- The part of `generate_circular_chain_edgelist` on rank 0, /repo/test/generator.h:155-162. -/
def genChain (g : Nat → Edge E) (one : E) (n : Nat) : Option (EdgeList E) := do
  let el := EdgeList.alloc g n n n
  let a ← forLoop 0 n el.edges (fun i a => do
    let d ← cmod ((i : Int) + 1) n
    a.write i ⟨(i : Int) + 1, d + 1, one⟩)
  some { el with edges := a }

/-- `dst_present`, /repo/test/generator.h:61-71. -/
def dstPresent (dst : Int) (a : Arr (Edge E)) (start stop : Nat) : Option Bool :=
  forLoop start stop false (fun i found =>
    if found then some true else (a.read i).map (fun e => decide (e.dst = dst)))

/-- `do { dst = dist(gen); } while (dst_present(dst, ...))`, /repo/test/generator.h:91-93; `dist q` is the number that
`dist(gen)` gives in its `q`-th call.  The result is the number drawn last and how many calls there were so far; `none` also if
`fuel` draws were not enough. -/
def drawDst (dist : Nat → Nat) (a : Arr (Edge E)) (start stop : Nat) : Nat → Nat → Option (Nat × Nat)
  | 0, _ => none
  | fuel + 1, q => do
    let b ← dstPresent (dist q : Int) a start stop
    if b then drawDst dist a start stop fuel (q + 1) else some (dist q, q + 1)

/-- One round of the inner loop of `generate_random_edgelist`, /repo/test/generator.h:88-98; the state is the array, `k` and the
number of calls of `dist`. -/
def randomEdge (dist : Nat → Nat) (fuel : Nat) (one : E) (avg i : Nat) (s : Arr (Edge E) × Nat × Nat) :
    Option (Arr (Edge E) × Nat × Nat) := do
  let d ← drawDst dist s.1 (i * avg) s.2.1 fuel s.2.2
  let a ← s.1.write s.2.1 ⟨(i : Int) + 1, (d.1 : Int), one⟩
  some (a, s.2.1 + 1, d.2)

/-- The part of `generate_random_edgelist` on rank 0, /repo/test/generator.h:77-100. -/
def genRandom (g : Nat → Edge E) (dist : Nat → Nat) (fuel : Nat) (one : E) (n avg : Nat) : Option (EdgeList E) := do
  let avg := if n < avg then n else avg
  let p ← cmul n avg
  let el := EdgeList.alloc g n n p.toNat
  let r ← forLoop 0 n (el.edges, 0, 0) (fun i s => forLoop 0 avg s (fun _ s => randomEdge dist fuel one avg i s))
  some { el with edges := r.1 }

/-- The lists of all ranks before they are spread: rank 0 has the one it made, the others have an empty one
(e.g. /repo/test/generator.h:131-134). -/
def onRankZero (g : Nat → Nat → Edge E) (nrank : Nat) (el : EdgeList E) : List (EdgeList E) :=
  (List.range nrank).map (fun r => if r = 0 then el else EdgeList.alloc (g r) el.m el.n 0)

/-- One round of the loop that divides the edges, /repo/test/test_utils.h:101-107; the state is `counts` and `remaining`. -/
def distributeCount (points bin : Nat) (s : Arr Nat × Nat) : Option (Arr Nat × Nat) := do
  let c ← s.1.write bin points
  if 0 < s.2 then do
    let x ← c.read bin
    let c ← c.write bin (x + 1)
    some (c, s.2 - 1)
  else some (c, s.2)

/-- `counts` on the root, /repo/test/test_utils.h:97-107, with the assertion. -/
def distributeCounts (nnz nrank : Nat) : Option (Arr Nat) := do
  let points := nnz / nrank
  let remaining := nnz - nrank * points
  if remaining < nrank then do
    let r ← forLoop 0 nrank ((⟨nrank, fun _ => 0⟩ : Arr Nat), remaining) (distributeCount points)
    some r.1
  else none

/-- `positions` on the root, /repo/test/test_utils.h:109-112. -/
def distributePositions (nnz nrank : Nat) (counts : Arr Nat) : Option (Arr Nat) := do
  let p ← forLoop 1 nrank (⟨nrank + 1, fun _ => 0⟩ : Arr Nat) (fun bin p => do
    let x ← p.read (bin - 1)
    let c ← counts.read (bin - 1)
    p.write bin (x + c))
  p.write nrank nnz

/-- What one rank sends to every rank, /repo/test/test_utils.h:86-113, 142-145: `counts[i]` edges from
`edges + positions[i]`; both are 0 except on the root. -/
def distributeOutgoing (root nrank r : Nat) (el : EdgeList E) : Option (List (List (Edge E))) := do
  let counts ← if r = root then distributeCounts el.nnz nrank else some ⟨nrank, fun _ => 0⟩
  let pos ← if r = root then distributePositions el.nnz nrank counts else some ⟨nrank + 1, fun _ => 0⟩
  (List.range nrank).mapM (fun bin => do
    let p ← pos.read bin
    let c ← counts.read bin
    (List.range c).mapM (fun k => el.edges.read (p + k)))

/-- What a rank receives, sender by sender, and its new list, /repo/test/test_utils.h:131-153. -/
def distributeReceive (d : Edge E) (r : Nat) (out : List (List (List (Edge E)))) (el : EdgeList E) : Option (EdgeList E) := do
  let parts ← out.mapM (fun msgs => msgs[r]?)
  let all := parts.flatten
  let _ ← ck (all.length : Int)
  some { edges := Arr.ofList d all, m := el.m, n := el.n, nnz := all.length }

/-- `distribute_edges(root, in, out)`, /repo/test/test_utils.h:83-164, executed by all ranks. -/
def distributeEdges (g : Nat → Edge E) (root : Nat) (els : List (EdgeList E)) : Option (List (EdgeList E)) := do
  let out ← (List.range els.length).mapM (fun r => do
    let el ← els[r]?
    distributeOutgoing root els.length r el)
  (List.range els.length).mapM (fun r => do
    let el ← els[r]?
    distributeReceive (g r) r out el)

/-- The end of the generators of matrices, e.g. /repo/test/generator.h:145-148. -/
def generated (g : Nat → Nat → Edge E) (nrank : Nat) (el : Option (EdgeList E)) : Option (List (EdgeList E)) := do
  let el ← el
  distributeEdges (fun r => g r 0) 0 (onRankZero g nrank el)

/-- `OERecvOffset`, /repo/test/test_utils.h:60-65: `w` is the number of `int`s in an edge; offsets are `int`s. -/
def collectOffsets (w : Nat) (counts : List Nat) : Option (List Int) :=
  counts.dropLast.foldlM (fun (acc : List Int) (c : Nat) => do
    let x ← cmul w c
    let o ← cadd (acc.getLastD 0) x
    some (acc ++ [o])) [0]

/-- `collect_edges(in, out)`, /repo/test/test_utils.h:51-81, executed by all ranks: every rank gets the edges of all ranks, in the order
of the ranks. -/
def collectEdges (g : Nat → Edge E) (w : Nat) (els : List (EdgeList E)) : Option (List (EdgeList E)) := do
  let _ ← collectOffsets w (els.map EdgeList.nnz)
  let _ ← els.mapM (fun el => cmul w el.nnz)
  let all ← els.mapM (fun el => (List.range el.nnz).mapM el.edges.read)
  let _ ← ck (all.flatten.length : Int)
  (List.range els.length).mapM (fun r => do
    let el ← els[r]?
    some { edges := Arr.ofList (g r) all.flatten, m := el.m, n := el.n, nnz := all.flatten.length })

/-- `edge_compare`, /repo/test/test_utils.h:38-49; `lt` is `<` of the edge type. -/
def edgeCompare (lt : E → E → Bool) (a b : Edge E) : Bool :=
  decide (a.src < b.src) || (decide (a.src = b.src) && decide (a.dst < b.dst)) ||
    (decide (a.src = b.src) && decide (a.dst = b.dst) && lt a.val b.val)

end GraphMat
