import Verif.Props.Dijkstra
import Verif.Spec.DijkstraLife
/-! # Several graphs and several `Dijkstra` objects (`/repo/include/routingkit/dijkstra.h:11-158`)

`Model/Dijkstra` stores the vectors of the graph in the object. Here the object has pointers to variables, as in the code, and every
call works with what the variables hold at the time of the call. The three vectors of a graph are one variable. -/
namespace RK
open Spec RK.Props

/-- The variables of a program. Graphs that do not exist (any more) are `none`. Of an object there are the pointers (the number of a
graph) and the other members; the field `graph` of the latter is not used. -/
structure DijProgram where
  graphs : Nat → Option TGraph
  objects : Nat → Option (Nat × DijClient)

/-- dijkstra.h:156-158: the object with the graph that its pointers point to. -/
def DijProgram.deref (c : DijClient) (G : TGraph) : DijClient := { c with dij := { c.dij with graph := some (toGraph G) } }

/-- dijkstra.h:11-158. The copy operations are those that the compiler generates; the pointers are copied. In
`reset(first_out, tail, head)` line 43 reads the size of the vector at the old address; then the pointers are replaced. -/
def DijProgram.call (w : DijProgram) : DijLifeOp → Option (DijProgram × DijOut)
  | .setGraph i G => some (⟨changed w.graphs i (some G), w.objects⟩, .unit)
  | .endGraph i => do
    let _ ← w.graphs i
    some (⟨changed w.graphs i none, w.objects⟩, .unit)
  | .construct k i => do
    let G ← w.graphs i
    let d ← Dijkstra.new (toGraph G)
    some (⟨w.graphs, changed w.objects k (some (i, ⟨d, G.time⟩))⟩, .unit)
  | .copy k l => do
    let m ← w.objects l
    some (⟨w.graphs, changed w.objects k (some m)⟩, .unit)
  | .resetGraph k i => do
    let (p, c) ← w.objects k
    let old ← w.graphs p
    let G ← w.graphs i
    let (c', out) ← dijCall (deref c old) (.resetGraph G)
    some (⟨w.graphs, changed w.objects k (some (i, c'))⟩, out)
  | .call k op => do
    let (p, c) ← w.objects k
    let G ← w.graphs p
    let (c', out) ← dijCall (deref c G) op
    some (⟨w.graphs, changed w.objects k (some (p, c'))⟩, out)

end RK
