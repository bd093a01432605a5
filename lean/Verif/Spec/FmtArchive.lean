import Verif.Model.FmtArchive
import Verif.Spec.FmtMat

/-!
# Specification of archives of distributed matrices

Independent of the tile format: what a loaded matrix must be able to do.
-/
namespace GraphMat

variable {E Til T U : Type}

/-- A matrix built from edges, saved and loaded by every rank returns these edges and their number, and so does its transpose. -/
def MatrixRestores {nrank : Nat} (F F' : TileFmt E Til) (io : TileIO E Til) (srt srt' : MatSorts E) (m n : Nat) (G G' : Grid nrank)
    (blobs : List (List (Edge E))) : Prop :=
  ∃ out D D' DT, FMat.ofEdges F m n G.ntx G.nty nrank G.pfn srt blobs = some (out, D) ∧
    FMat.reload io (fun i j => G.pfn j i nrank) D = some D' ∧ HasEntries F D' nrank blobs.flatten ∧
    FMat.transpose F F' D' m n G'.ntx G'.nty nrank G'.pfn srt' = some DT ∧
    HasEntries F' DT nrank (blobs.flatten.map (fun e => { e with src := e.dst, dst := e.src }))

/-- Programs multiply with the loaded matrix as with a matrix that has these edges, whichever of the ways `mults` the calls of
`mult_segment` go. -/
def RestoredMultiplies {nrank : Nat} (F : TileFmt E Til) (io : TileIO E Til) (srt : MatSorts E) (m n : Nat) (G : Grid nrank)
    (blobs : List (List (Edge E))) (pm : E → T → U) (add : U → U → U)
    (mults : (Nat → Nat → Nat → Nat → Til → Segment T → Segment U → Option (Segment U)) → Prop) : Prop :=
  ∃ out D D', FMat.ofEdges F m n G.ntx G.nty nrank G.pfn srt blobs = some (out, D) ∧
    FMat.reload io (fun i j => G.pfn j i nrank) D = some D' ∧
    ∀ mult, mults mult → ProgramsRun D' m n G blobs.flatten pm add mult

end GraphMat
