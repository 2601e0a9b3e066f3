import Verif.Model.RoutePlanner
import Verif.Model.Border
import Verif.Model.TopLevel

/-!
# The graph of the headlands

`RoutePlannerBase::createShortestGraph` (`src/fields2cover/route_planning/route_planner_base.cpp:40-88`)
and the functions of `src/fields2cover/types/Graph2D.cpp` it uses.
-/

namespace F2C.Planner

/-- `int64_t(scale_ * i.distance(j))` with `scale_ = 1e3` (Graph2D.cpp:28-34, Graph2D.h:60); the
conversion is undefined if the value does not fit. -/
noncomputable def scaledDist (a b : RPoint) : Outcome Int :=
  if ⌊1000 * pdist a b⌋ ≤ 9223372036854775807 then .ok ⌊1000 * pdist a b⌋
  else .ub "double to int64_t out of range"

/-- `Graph2D::addEdge(i, j)` (Graph2D.cpp:32-34). -/
noncomputable def addEdgeDist (T : PointTable ℝ) (g : Graph2D ℝ) (a b : RPoint) : Outcome (Graph2D ℝ) := do
  let c ← scaledDist a b
  g.addEdge T a b c

/-- `p.distance(LineString{a, b})` (`OGRGeometry::Distance`, computed by GEOS in the plane): the distance
to the closest point of the segment, heights being ignored. -/
noncomputable def segmentDistance (p a b : RPoint) : ℝ :=
  pdist p (closestInSegment { p with z := 0 } { a with z := 0 } { b with z := 0 })

/-- `g.addEdge(p, cells.closestPointOnBorderTo(p))` (route_planner_base.cpp:47, 48 and 63). -/
noncomputable def linkPoint (T : PointTable ℝ) (cells : Cells ℝ) (g : Graph2D ℝ) (p : RPoint) :
    Outcome (Graph2D ℝ) := do
  let q ← Cells.closestOnBorder p cells
  addEdgeDist T g p q

/-- The edges of one ring (route_planner_base.cpp:55-57); for an empty ring `size() - 1` wraps around and
`getGeometry(0)` throws (LinearRing.cpp:88-94). -/
noncomputable def addRing (T : PointTable ℝ) (g : Graph2D ℝ) (ring : Ring ℝ) : Outcome (Graph2D ℝ) :=
  match ring with
  | [] => .throw .outOfRange
  | ring => foldOutcome (fun g e => addEdgeDist T g e.1 e.2) g (ring.zip ring.tail)

/-- Body of the innermost loop (route_planner_base.cpp:77-81) for the edge between `a` and `b` and the
node `n`. -/
noncomputable def splitAt (T : PointTable ℝ) (dTol : ℝ) (a b : RPoint) (g : Graph2D ℝ) (n : RPoint) :
    Outcome (Graph2D ℝ) :=
  if n.eqv a = false ∧ n.eqv b = false ∧ segmentDistance n a b < dTol then do
    let g ← addEdgeDist T g a n
    let g ← addEdgeDist T g n b
    g.removeEdge T a b
  else .ok g

/-- One edge of the copy (route_planner_base.cpp:75-82). -/
noncomputable def splitEdge (T : PointTable ℝ) (dTol : ℝ) (nodes : List RPoint) (g : Graph2D ℝ)
    (e : Nat × Nat) : Outcome (Graph2D ℝ) := do
  let a ← g.indexToNode e.1
  let b ← g.indexToNode e.2
  foldOutcome (splitAt T dTol a b) g nodes

/-- All edges, as pairs of numbers (`getEdges`, Graph.cpp:48-50). -/
def allEdges (e : EdgeMap) : List (Nat × Nat) := e.flatMap fun s => s.2.map fun d => (s.1, d.1)

/-- One round over a copy of the edges (route_planner_base.cpp:70-84).  The order of the edges is that of
the hash tables: `ord` rearranges them. -/
noncomputable def splitRound (T : PointTable ℝ) (ord : List (Nat × Nat) → List (Nat × Nat)) (dTol : ℝ)
    (nodes : List RPoint) (g : Graph2D ℝ) : Outcome (Graph2D ℝ) :=
  foldOutcome (splitEdge T dTol nodes) g (ord (allEdges g.graph.edges))

/-- `RoutePlannerBase::createShortestGraph` (route_planner_base.cpp:40-88); `ordE` and `ordN` are the
orders in which the hash tables give edges and nodes. -/
noncomputable def createShortestGraph (T : PointTable ℝ) (ordE : List (Nat × Nat) → List (Nat × Nat))
    (ordN : List RPoint → List RPoint) (dTol : ℝ) (rse : Option RPoint) (cells : Cells ℝ)
    (d : SwathsByCells ℝ) : Outcome (Graph2D ℝ) := do
  let g ← foldOutcome (linkPoint T cells) Graph2D.empty
    (d.flatten.flatMap fun s => [s.startPoint, s.endPoint])
  let g ← foldOutcome (addRing T) g ((Cells.iter cells).flatMap Cell.iter)
  let g ← foldOutcome (linkPoint T cells) g rse.toList
  let nodes := ordN g.getNodes
  let g ← splitRound T ordE dTol nodes g
  splitRound T ordE dTol nodes g

/-- `RoutePlannerBase::genRoute(cells, swaths)` (route_planner_base.cpp:21-34). -/
noncomputable def genRouteOn (T : PointTable ℝ) (ordE : List (Nat × Nat) → List (Nat × Nat))
    (ordN : List RPoint → List RPoint) (solve : Graph2D ℝ → Option (List Nat)) (dTol : ℝ)
    (redirect : Bool) (rse : Option RPoint) (cells : Cells ℝ) (d : SwathsByCells ℝ) :
    Outcome (Route ℝ) := do
  let sg ← createShortestGraph T ordE ordN dTol rse cells d
  genRoute T solve sg redirect rse d

end F2C.Planner
