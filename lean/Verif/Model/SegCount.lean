import Verif.Model.Segment
import Verif.Spec.Vertex

/-! # The element count that a segment stores -/
namespace GraphMat

variable {α : Type}

/-- `getNNZ()`, /repo/include/GMDP/vectors/DenseSegment.h:595-598: the stored count, `none` = `properties` is NULL. -/
def Segment.storedNnz (s : Segment α) : Option Int := s.props.map Buffer.nnz

/-- One call on a segment: `set`, `unset`, `setAll` and `set_uninitialized`,
/repo/include/GMDP/vectors/DenseSegment.h:569-576, 600-640. -/
def VecOp.execSeg (g : Fresh α) : VecOp α → Segment α → Option (Segment α)
  | .set w x, s => s.set g w x
  | .unset w, s => s.unset g w
  | .setAll x, s => s.setAll g x
  | .clear, s => some s.setUninitialized

end GraphMat
