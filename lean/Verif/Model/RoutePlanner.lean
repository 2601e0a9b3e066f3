import Verif.Model.Graph2D
import Verif.Model.Route

/-!
# Route planner

`src/fields2cover/route_planning/route_planner_base.cpp`.  The optimiser (OR-tools) is a parameter.

Simplification: the code passes the graph of shortest paths by reference, and queries fill its
caches.  Here every query is made on the graph as it was built; C15 shows that answers do not depend
on earlier queries.
-/

namespace F2C.Planner

variable {K : Type} [Field K] [LinearOrder K]

/-- Default `INF` of the queries of `Graph2D` (Graph2D.h:49-53): `1 << 30`. -/
def inf : Int := 1073741824

/-- `shortest_graph.shortestPathCost(a, b)`. -/
def spCost (T : PointTable K) (sg : Graph2D K) (a b : Point K) : Outcome Int :=
  (sg.shortestPathCost T a b inf).map Prod.snd

/-- `shortest_graph.shortestPath(a, b)`. -/
def sp (T : PointTable K) (sg : Graph2D K) (a b : Point K) : Outcome (List (Point K)) :=
  (sg.shortestPath T a b inf).map Prod.snd

/-- `mid_p` (route_planner_base.cpp:98). -/
def mid (s : Swath K) : Point K := (s.startPoint.add s.endPoint).smul (1 / 2)

/-- The calls that `createCoverageGraph` makes on the graph: `addEdge(a, b, 0)`,
`addDirectedEdge(a, b, 0)`, `addEdge(a, b, shortest_graph)`, `addDirectedEdge(a, b, shortest_graph)`. -/
inductive CovCmd (K : Type)
  | zeroEdge (a b : Point K)
  | zeroDirected (a b : Point K)
  | viaEdge (a b : Point K)
  | viaDirected (a b : Point K)

/-- Effect of the calls (Graph2D.cpp:12-26 and 36-45). -/
def CovCmd.exec (T : PointTable K) (sg : Graph2D K) (g : Graph2D K) :
    CovCmd K → Outcome (Graph2D K)
  | .zeroEdge a b => g.addEdge T a b 0
  | .zeroDirected a b => g.addDirectedEdge T a b 0
  | .viaEdge a b => do
    let c ← spCost T sg a b
    let g₁ ← g.addDirectedEdge T a b c
    let c' ← spCost T sg b a
    g₁.addDirectedEdge T b a c'
  | .viaDirected a b => do
    let c ← spCost T sg a b
    g.addDirectedEdge T a b c

/-- The point `deposit` (route_planner_base.cpp:130-133). -/
def depot (rse : Option (Point K)) : Point K := rse.getD ⟨-100000000, -100000000, 0⟩

/-- First loop (route_planner_base.cpp:96-107), for one swath. -/
def covSwath (redirect : Bool) (s : Swath K) : List (CovCmd K) :=
  if redirect then [.zeroEdge s.startPoint (mid s), .zeroEdge s.endPoint (mid s)]
  else [.zeroDirected s.startPoint (mid s), .zeroDirected (mid s) s.endPoint]

/-- Second loop (route_planner_base.cpp:109-128), for one pair of swaths. -/
def covPair (redirect : Bool) (s t : Swath K) : List (CovCmd K) :=
  if redirect then
    [.viaEdge s.startPoint t.startPoint, .viaEdge s.endPoint t.endPoint,
      .viaEdge s.startPoint t.endPoint, .viaEdge s.endPoint t.startPoint]
  else [.viaDirected s.endPoint t.startPoint]

/-- Third loop (route_planner_base.cpp:135-145), for one swath. -/
def covDepot (rse : Option (Point K)) (s : Swath K) : List (CovCmd K) :=
  match rse with
  | some p => [.viaEdge s.startPoint p, .viaEdge s.endPoint p]
  | none => [.zeroEdge s.startPoint (depot rse), .zeroEdge s.endPoint (depot rse)]

/-- All calls in order; `l` are the swaths of all cells. -/
def covCmds (redirect : Bool) (rse : Option (Point K)) (l : Swaths K) : List (CovCmd K) :=
  l.flatMap (covSwath redirect) ++ (l.flatMap fun s => l.flatMap fun t => covPair redirect s t) ++
    l.flatMap (covDepot rse)

/-- `RoutePlannerBase::createCoverageGraph` (route_planner_base.cpp:91-147). -/
def createCoverageGraph (T : PointTable K) (sg : Graph2D K) (redirect : Bool)
    (rse : Option (Point K)) (d : SwathsByCells K) : Outcome (Graph2D K) :=
  foldOutcome (CovCmd.exec T sg) Graph2D.empty (covCmds redirect rse d.flatten)

/-- The body of the two cases of the inner loop of `transformSolutionToRoute`
(route_planner_base.cpp:206-211 and 213-219), for the oriented swath. -/
def addFound (T : PointTable K) (sg : Graph2D K) (rse : Option (Point K)) (r : Route K) (s : Swath K) :
    Outcome (Route K) := do
  let r' ← match r.isEmpty, rse with
    | true, some p => do
      let ps ← sp T sg p s.startPoint
      r.addConnectionPoints ps
    | _, _ => Outcome.ok r
  r'.addSwathVia (sp T sg) s

/-- The inner loop of `transformSolutionToRoute` (route_planner_base.cpp:203-221): the first swath with
the given end points is added, reversed if need be.  `getSwath(j)` for `j < sizeTotal()` enumerates
the swaths of all cells (C11). -/
def findSwath (T : PointTable K) (sg : Graph2D K) (rse : Option (Point K)) (ps pe : Point K)
    (r : Route K) : Swaths K → Outcome (Route K)
  | [] => .ok r
  | s :: l => do
    let s' ← s.clone
    if ps.eqv s'.startPoint && pe.eqv s'.endPoint then addFound T sg rse r s'
    else if pe.eqv s'.startPoint && ps.eqv s'.endPoint then addFound T sg rse r s'.reverse
    else findSwath T sg rse ps pe r l

/-- One iteration of the outer loop (route_planner_base.cpp:200-222). -/
def transformStep (T : PointTable K) (sg cov : Graph2D K) (rse : Option (Point K)) (l : Swaths K)
    (ids : List Nat) (r : Route K) (i : Nat) : Outcome (Route K) :=
  match ids[i]?, ids[i + 2]? with
  | some a, some b => do
    let ps ← cov.indexToNode a
    let pe ← cov.indexToNode b
    findSwath T sg rse ps pe r l
  | _, _ => .ub "index out of range"

/-- `RoutePlannerBase::transformSolutionToRoute` (route_planner_base.cpp:193-228).  With fewer than two
ids, `route_ids.size() - 2` wraps around and the loop reads past the end. -/
def transformSolutionToRoute (T : PointTable K) (sg cov : Graph2D K) (rse : Option (Point K))
    (d : SwathsByCells K) (ids : List Nat) : Outcome (Route K) :=
  if ids.length < 2 then .ub "index out of range" else do
    let r ← foldOutcome (transformStep T sg cov rse d.flatten ids) Route.empty
      (List.range (ids.length - 2))
    match rse with
    | some p => do
      let ps ← sp T sg r.endPoint p
      r.addConnectionPoints ps
    | none => return r

/-- `RoutePlannerBase::genRoute` (route_planner_base.cpp:21-34) for a given graph of shortest paths.
`solve` is `computeBestRoute` (route_planner_base.cpp:149-191): OR-tools, which may fail to find a
solution; the code then dereferences a null pointer. -/
def genRoute (T : PointTable K) (solve : Graph2D K → Option (List Nat)) (sg : Graph2D K)
    (redirect : Bool) (rse : Option (Point K)) (d : SwathsByCells K) : Outcome (Route K) := do
  let cov ← createCoverageGraph T sg redirect rse d
  match solve cov with
  | none => .ub "null pointer"
  | some ids => transformSolutionToRoute T sg cov rse d ids

end F2C.Planner
