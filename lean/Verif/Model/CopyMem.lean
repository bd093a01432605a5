import Verif.Model.GraphMem

/-! # Copies of graphs -/
namespace GraphMat

/-- The implicit copy constructor and copy assignment of `Graph`: the class declares only a destructor
(/repo/include/Graph.h:57-107), so every member is copied, pointers as pointers. -/
def GraphMem.copy (g : GraphMem) : GraphMem := g

end GraphMat
