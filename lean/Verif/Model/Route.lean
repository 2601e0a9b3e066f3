import Verif.Model.Geom
import Verif.Model.Graph

/-!
# Routes

`src/fields2cover/types/Route.cpp`, `src/fields2cover/objectives/rp_obj/rp_objective.cpp` and
`src/fields2cover/objectives/rp_obj/direct_dist_path_obj.cpp`.  A `MultiPoint` is the list of its
points.
-/

namespace F2C

/-- `Route` (include/fields2cover/types/Route.h): `connections_` and `v_swaths_`. -/
structure Route (K : Type) where
  connections : List (List (Point K))
  groups : List (Swaths K)
  deriving DecidableEq, Repr

/-- `v.back() = f(v.back())`; `back` of an empty vector is undefined behaviour. -/
def modifyBack {α : Type} (f : α → α) (l : List α) : Outcome (List α) :=
  match l.getLast? with
  | none => .ub "back of an empty vector"
  | some a => .ok (l.dropLast ++ [f a])

namespace Route

variable {K : Type} [Field K] [LinearOrder K]

/-- Default constructed route. -/
def empty : Route K := ⟨[], []⟩

/-- `Route::isEmpty` (Route.cpp:179-181). -/
def isEmpty (r : Route K) : Bool := r.groups.isEmpty && r.connections.isEmpty

/-- `Route::addConnection()` (Route.cpp:63-67). -/
def addConnection (r : Route K) : Route K :=
  if r.connections.length ≤ r.groups.length then { r with connections := r.connections ++ [[]] }
  else r

/-- `Route::addConnection(const Point&)` (Route.cpp:69-72). -/
def addConnectionPoint (r : Route K) (p : Point K) : Outcome (Route K) := do
  let r' := r.addConnection
  let cs ← modifyBack (fun c => c ++ [p]) r'.connections
  return { r' with connections := cs }

/-- `Route::addConnection(const MultiPoint&)` and `Route::addConnection(const std::vector<Point>&)`
(Route.cpp:74-89). -/
def addConnectionPoints (r : Route K) (ps : List (Point K)) : Outcome (Route K) :=
  let r' := if ps.length < 1 then r.addConnection else r
  foldOutcome addConnectionPoint r' ps

/-- `Route::addSwaths` (Route.cpp:27-36), with `Swaths::append` (Swaths.cpp:121-125). -/
def addSwaths (r : Route K) (s : Swaths K) : Outcome (Route K) := do
  let cs := if r.connections.length = 0 then r.connections ++ [[]] else r.connections
  if cs.length > r.groups.length then return ⟨cs, r.groups ++ [s]⟩
  else
    let gs ← modifyBack (fun g => g ++ s) r.groups
    return ⟨cs, gs⟩

/-- `Route::addConnectedSwaths` (Route.cpp:38-41). -/
def addConnectedSwaths (r : Route K) (ps : List (Point K)) (s : Swaths K) : Outcome (Route K) := do
  let r' ← r.addConnectionPoints ps
  r'.addSwaths s

/-- `Route::addSwath(const Swath&)` (Route.cpp:43-54). -/
def addSwath (r : Route K) (s : Swath K) : Outcome (Route K) := do
  let ns := r.groups.length
  let cs := if r.connections.length = 0 then r.connections ++ [[]] else r.connections
  let gs := if cs.length > ns ∨ ns = 0 then r.groups ++ [[]] else r.groups
  let gs' ← modifyBack (fun g => g ++ [s]) gs
  return ⟨cs, gs'⟩

/-- `Route::startPoint` (Route.cpp:123-130). -/
def startPoint (r : Route K) : Point K :=
  match (r.connections.head?.getD []).head? with
  | some p => p
  | none => match (r.groups.head?.getD []).head? with
    | some s => s.startPoint
    | none => Point.zero

/-- The second and third case of `Route::endPoint` (Route.cpp:136-139). -/
def groupsEnd (r : Route K) : Point K :=
  match (r.groups.getLast?.getD []).getLast? with
  | some s => s.endPoint
  | none => Point.zero

/-- `Route::endPoint` (Route.cpp:132-140). -/
def endPoint (r : Route K) : Point K :=
  if r.connections.length > r.groups.length then
    match (r.connections.getLast?.getD []).getLast? with
    | some p => p
    | none => r.groupsEnd
  else r.groupsEnd

/-- `Route::addSwath(const Swath&, Graph2D&)` (Route.cpp:56-61); the shortest path query on the graph
is a parameter.  Simplification: the change of the caches of the graph is not part of the result. -/
def addSwathVia (sp : Point K → Point K → Outcome (List (Point K))) (r : Route K) (s : Swath K) :
    Outcome (Route K) := do
  let r' ← if r.isEmpty then Outcome.ok r else do
    let ps ← sp r.endPoint s.startPoint
    r.addConnectionPoints ps
  r'.addSwath s

/-- `Route::asLineString` (Route.cpp:154-177). -/
def asLineString (r : Route K) : List (Point K) :=
  if r.isEmpty then []
  else (if r.connections.length > 0 then (r.connections[0]?.getD []) else []) ++
    (List.range r.groups.length).flatMap fun i =>
      ((r.groups[i]?.getD []).flatMap fun s => s.path) ++
      (if r.connections.length > i + 1 then (r.connections[i + 1]?.getD []) else [])

/-- Loop over the groups in `Route::clone` (Route.cpp:185-187). -/
def cloneGroups : List (Swaths K) → Outcome (List (Swaths K))
  | [] => .ok []
  | g :: gs => do
    let g' ← Swaths.clone g
    let gs' ← cloneGroups gs
    return g' :: gs'

/-- `Route::clone` (Route.cpp:183-192). -/
def clone (r : Route K) : Outcome (Route K) := do
  let gs ← cloneGroups r.groups
  return ⟨r.connections, gs⟩

/-- `Route::setSwaths` (Route.cpp:23-25). -/
def setSwaths (r : Route K) (i : Nat) (s : Swaths K) : Outcome (Route K) :=
  if i < r.groups.length then .ok { r with groups := r.groups.set i s }
  else .ub "index out of range"

/-- `Route::setConnection` (Route.cpp:119-121). -/
def setConnection (r : Route K) (i : Nat) (ps : List (Point K)) : Outcome (Route K) :=
  if i < r.connections.length then .ok { r with connections := r.connections.set i ps }
  else .ub "index out of range"

/-- `Route::getSwaths(size_t)` (Route.cpp:15-21). -/
def getSwaths (r : Route K) (i : Nat) : Outcome (Swaths K) :=
  match r.groups[i]? with
  | some g => .ok g
  | none => .ub "index out of range"

/-- `Route::getConnection` (Route.cpp:111-117). -/
def getConnection (r : Route K) (i : Nat) : Outcome (List (Point K)) :=
  match r.connections[i]? with
  | some c => .ok c
  | none => .ub "index out of range"

/-- `Route::getLastConnection` (Route.cpp:91-97). -/
def getLastConnection (r : Route K) : Outcome (List (Point K)) :=
  match r.connections.getLast? with
  | some c => .ok c
  | none => .ub "back of an empty vector"

/-- `Route::getLastSwaths` (Route.cpp:99-105). -/
def getLastSwaths (r : Route K) : Outcome (Swaths K) :=
  match r.groups.getLast? with
  | some g => .ok g
  | none => .ub "back of an empty vector"

/-- `Route::sizeVectorSwaths` (Route.cpp:142-144), the size of `Route::getVectorSwaths` (11-13). -/
def sizeVectorSwaths (r : Route K) : Nat := r.groups.length

/-- `Route::sizeConnections` (Route.cpp:146-148), the size of `Route::getConnections` (107-109). -/
def sizeConnections (r : Route K) : Nat := r.connections.length

/-- `Route::length` (Route.cpp:150-152). -/
noncomputable def length (r : Route ℝ) : ℝ := lineLength r.asLineString

end Route

namespace Swath

/-- `Swath::getInAngle` (Swath.cpp:77-82): a path of one point throws `out_of_range`
(LineString.cpp:83-90). -/
noncomputable def inAngle (s : Swath ℝ) : Outcome ℝ :=
  match s.path with
  | [] => .ok (-1)
  | [_] => .throw .outOfRange
  | a :: b :: _ => .ok (angleFromPoint (b.sub a))

/-- `Swath::getOutAngle` (Swath.cpp:84-90). -/
noncomputable def outAngle (s : Swath ℝ) : Outcome ℝ :=
  match s.path.reverse with
  | [] => .ok (-1)
  | [_] => .throw .outOfRange
  | b :: a :: _ => .ok (angleFromPoint (b.sub a))

end Swath

/-! ### `RPObjective` with the distance between points as the cost of a step -/

namespace RPCost

/-- `computeCost(p1, p2)` (rp_objective.cpp:11-14, direct_dist_path_obj.cpp:11-14); the overloads with
angles (rp_objective.cpp:16-30) ignore them. -/
noncomputable def points (a b : RPoint) : ℝ := pdist a b

/-- `computeCost(const F2CMultiPoint&)` (rp_objective.cpp:63-72) and
`computeCost(const std::vector<F2CPoint>&)` (rp_objective.cpp:55-61). -/
noncomputable def multi (ps : List RPoint) : ℝ :=
  (List.range (ps.length - 1)).foldl
    (fun d i => d + points (ps[i]?.getD Point.zero) (ps[i + 1]?.getD Point.zero)) 0

/-- `computeCost(const F2CSwath&)` (rp_objective.cpp:100-106). -/
noncomputable def swath (s : Swath ℝ) : ℝ := multi s.path

/-- Second loop of `computeCost(const F2CSwaths&)` (rp_objective.cpp:113-116), from `prev` on. -/
noncomputable def gaps : ℝ → Swath ℝ → Swaths ℝ → Outcome ℝ
  | d, _, [] => .ok d
  | d, prev, s :: l => do
    let _ ← prev.outAngle
    let _ ← s.inAngle
    gaps (d + points prev.endPoint s.startPoint) s l

/-- `computeCost(const F2CSwaths&)` (rp_objective.cpp:108-118). -/
noncomputable def swaths (l : Swaths ℝ) : Outcome ℝ :=
  let d := l.foldl (fun d s => d + swath s) 0
  match l with
  | [] => .ok d
  | s :: r => gaps d s r

/-- `computeCost(const F2CSwaths&, const F2CMultiPoint&)` (rp_objective.cpp:74-86). -/
noncomputable def swathsMulti (l : Swaths ℝ) (ps : List RPoint) : Outcome ℝ :=
  match ps with
  | [] => .ok 0
  | p :: _ => match l.getLast? with
    | none => .ub "back of an empty vector"
    | some s => do
      let _ ← s.outAngle
      return points s.endPoint p

/-- `computeCost(const F2CMultiPoint&, const F2CSwaths&)` (rp_objective.cpp:88-98). -/
noncomputable def multiSwaths (ps : List RPoint) (l : Swaths ℝ) : Outcome ℝ :=
  match l with
  | [] => .ub "index out of range"
  | s :: _ => match ps.getLast? with
    | none => .ok 0
    | some p => do
      let _ ← s.inAngle
      return points p s.startPoint

/-- One iteration of the last loop of `computeCost(const F2CRoute&)` (rp_objective.cpp:128-133). -/
noncomputable def routeStep (r : Route ℝ) (d : ℝ) (i : Nat) : Outcome ℝ :=
  match r.connections[i]?, r.groups[i]? with
  | some c, some g => do
    let a ← multiSwaths c g
    if i + 1 < r.connections.length then
      match r.connections[i + 1]? with
      | some c' => do
        let b ← swathsMulti g c'
        return d + a + b
      | none => .ub "index out of range"
    else return d + a
  | _, _ => .ub "index out of range"

/-- `computeCost(const F2CRoute&)` (rp_objective.cpp:120-135). -/
noncomputable def route (r : Route ℝ) : Outcome ℝ := do
  let d₁ ← foldOutcome (fun d g => do let a ← swaths g; return d + a) 0 r.groups
  let d₂ := r.connections.foldl (fun d c => d + multi c) d₁
  foldOutcome (routeStep r) d₂ (List.range r.groups.length)

end RPCost
end F2C
