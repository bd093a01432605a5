import Verif.Model.FmtMat
import Verif.Props.Mult

/-!
# Specification of a distributed matrix: its entries, its transpose, and programs that multiply with it

Independent of the tile format.
-/
namespace GraphMat

variable {E Til T U V : Type}

/-- A way to cut a matrix into tiles and to place them on `nrank` ranks. -/
structure Grid (nrank : Nat) where
  /-- columns of tiles -/
  ntx : Nat
  /-- rows of tiles -/
  nty : Nat
  /-- the partition function of the program -/
  pfn : Nat → Nat → Nat → Option Nat
  /-- the rank it gives for tile `(i, j)` -/
  ow : Nat → Nat → Nat
  hx : 0 < ntx
  hy : 0 < nty
  hpfn : ∀ i j, pfn j i nrank = some (ow i j)
  how : ∀ i j, ow i j < nrank

/-- `get_edges` on all ranks together returns the entries, each once, and `getNNZ` on every rank their number (below 2^32). -/
def HasEntries (F : TileFmt E Til) (D : List (FMat Til)) (nrank : Nat) (entries : List (Edge E)) : Prop :=
  (∃ ls, D.mapM (FMat.getEdges F) = some ls ∧ ls.flatten.Perm entries) ∧
  (entries.length < 2 ^ 32 → FMat.getNNZ F D = some (List.replicate nrank entries.length))

/-- The constructor and `Transpose` (with another grid and other tiles) work, leave the caller's edges in place up to order, and give
matrices with the right entries. -/
def MatrixReads {nrank : Nat} (F F' : TileFmt E Til) (srt srt' : MatSorts E) (m n : Nat) (G G' : Grid nrank)
    (blobs : List (List (Edge E))) : Prop :=
  ∃ out D DT, FMat.ofEdges F m n G.ntx G.nty nrank G.pfn srt blobs = some (out, D) ∧ out.flatten.Perm blobs.flatten ∧
    HasEntries F D nrank blobs.flatten ∧
    FMat.transpose F F' D m n G'.ntx G'.nty nrank G'.pfn srt' = some DT ∧
    HasEntries F' DT nrank (blobs.flatten.map (fun e => { e with src := e.dst, dst := e.src }))

/-- Programs that make two new vectors and then any sequence of `set`, `unset`, `setAll`, `Clear` on them and of multiplications end with
vectors that the specification of `Spec/Mult` allows for a matrix with these entries (see `Warm` for the condition). -/
def ProgramsRun {nrank : Nat} (D : List (FMat Til)) (m n : Nat) (G : Grid nrank) (entries : List (Edge E)) (pm : E → T → U)
    (add : U → U → U) (mult : Nat → Nat → Nat → Nat → Til → Segment T → Segment U → Option (Segment U)) : Prop :=
  ∀ (env : Nat → MulEnv T U U) (gx : Nat → Nat → Nat → Fresh T) (gy : Nat → Nat → Nat → Fresh U) (threads : Nat), 0 < threads →
    ∀ ops : List (MulOp T U), (∀ op ∈ ops, op.Valid m n) → Warm n G.ntx G.nty nrank G.ow ops (fun _ => none) →
    ∃ x0 y0 x y, DVec.new n G.ntx nrank = some x0 ∧ DVec.new m G.nty nrank = some y0 ∧
      FMat.run env gx gy threads nrank D mult add 0 ops (x0, y0) = some (x, y) ∧
      ∃ X Y, MulSteps m n entries pm add ops (fun _ => none) (fun _ => none) X Y ∧
        x.getNNZ = some ((List.range n).countP (fun j => (X (j + 1)).isSome)) ∧
        y.getNNZ = some ((List.range m).countP (fun j => (Y (j + 1)).isSome)) ∧
        (∀ w t, 1 ≤ w → w ≤ n → X w = some t →
          ∃ p, getPartition n G.ntx w = some p ∧ (x.get (p % nrank)).get w = some (some t)) ∧
        ∀ w u, 1 ≤ w → w ≤ m → Y w = some u →
          ∃ p, getPartition m G.nty w = some p ∧ (y.get (p % nrank)).get w = some (some u)

/-- The constructor and `Transpose` give matrices with which programs multiply as with matrices that have the right entries, whichever of the
ways `mults` the calls of `mult_segment` go (they find different memory). -/
def MatrixMultiplies {nrank : Nat} (F F' : TileFmt E Til) (srt srt' : MatSorts E) (m n : Nat) (G G' : Grid nrank)
    (blobs : List (List (Edge E))) (pm : E → T → U) (add : U → U → U)
    (mults : (Nat → Nat → Nat → Nat → Til → Segment T → Segment U → Option (Segment U)) → Prop) : Prop :=
  ∃ out D DT, FMat.ofEdges F m n G.ntx G.nty nrank G.pfn srt blobs = some (out, D) ∧
    FMat.transpose F F' D m n G'.ntx G'.nty nrank G'.pfn srt' = some DT ∧
    ∀ mult, mults mult → ProgramsRun D m n G blobs.flatten pm add mult ∧
      ProgramsRun DT n m G' (blobs.flatten.map (fun e => { e with src := e.dst, dst := e.src })) pm add mult

end GraphMat
