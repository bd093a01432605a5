import Verif.Model.CInt

/-!
# Vertex renumbering (`Graph::vertexToNative`, `Graph::nativeToVertex`)

Models /repo/include/Graph.h:111-150, including the C++ evaluation of `int` expressions
(`none` = undefined behaviour: overflow or division by zero).
The `if (true)` wrapper of the C++ functions is dropped.
-/
namespace GraphMat

/-- `Graph::vertexToNative(vertex, nsegments, len)`, /repo/include/Graph.h:111-130.
`threads` is the member `num_threads` (set from `omp_get_max_threads()`,
/repo/include/Graph.h:75 and 216). -/
def vertexToNative (threads nsegments len vertex : Int) : Option Int := do
  let v ← csub vertex 1
  let t16 ← cmul threads 16
  let npartitions ← cmul t16 nsegments
  let height ← cdiv len npartitions
  let vmax ← cmul height npartitions
  if v ≥ vmax then
    cadd v 1
  else
    let col ← cmod v npartitions
    let row ← cdiv v npartitions
    let ch ← cmul col height
    let s ← cadd row ch
    cadd s 1

/-- `Graph::nativeToVertex(vertex, nsegments, len)`, /repo/include/Graph.h:132-150. -/
def nativeToVertex (threads nsegments len vertex : Int) : Option Int := do
  let v ← csub vertex 1
  let t16 ← cmul threads 16
  let npartitions ← cmul t16 nsegments
  let height ← cdiv len npartitions
  let vmax ← cmul height npartitions
  if v ≥ vmax then
    cadd v 1
  else
    let col ← cdiv v height
    let row ← cmod v height
    let rn ← cmul row npartitions
    let s ← cadd col rn
    cadd s 1

end GraphMat
