import Verif.Model.Route
import Verif.Model.Turning

/-!
# Path planning

`src/fields2cover/path_planning/path_planning.cpp`.  A `MultiPoint` is the list of its points.  The turn
planner is a solver with its cache (`Turning.Planner`); the state of the cache is passed along.
-/

namespace F2C

/-- `MultiPoint::getOutAngle(0)` (MultiPoint.cpp:118-125). -/
noncomputable def multiOutAngle0 : List RPoint → Outcome ℝ
  | a :: b :: _ => .ok (angleFromPoint (b.sub a))
  | [_] => .throw .invalidArgument
  | [] => .throw .outOfRange

/-- `MultiPoint::getInAngle(size() - 1)` of a multipoint with points (MultiPoint.cpp:109-116). -/
noncomputable def multiInAngleLast (mp : List RPoint) : Outcome ℝ :=
  match mp.reverse with
  | b :: a :: _ => .ok (angleFromPoint (b.sub a))
  | [_] => .throw .invalidArgument
  | [] => .throw .outOfRange

namespace PP

open Turning

/-- `PathPlanning::planPath(robot, swaths, turn)` (path_planning.cpp:28-44), from swath `s` on.  The
arguments of `createTurn` that can fail are evaluated before the call; which one of two failing ones
decides is not fixed by C++ (both throw the same exception here). -/
noncomputable def planSwathsFrom (solve : Solver) (r : Robot) (t : Planner) (path : Path) (s : Swath ℝ) :
    Swaths ℝ → Outcome (Path × Planner)
  | [] => do
    let path ← path.appendSwath s r.cruise
    return (path, t)
  | s' :: l => do
    let path ← path.appendSwath s r.cruise
    let a1 ← s.outAngle
    let a2 ← s'.inAngle
    let (q, t') ← createTurn solve t r s.endPoint a1 s'.startPoint a2
    let q' ← q.discretize (1 / 10)
    planSwathsFrom solve r t' (path ++ q') s' l

/-- `PathPlanning::planPath(robot, swaths, turn)` (path_planning.cpp:28-44). -/
noncomputable def planSwaths (solve : Solver) (r : Robot) (t : Planner) :
    Swaths ℝ → Outcome (Path × Planner)
  | [] => .ok ([], t)
  | s :: l => planSwathsFrom solve r t [] s l

/-- Interior points of the connection where the direction changes by more than 0.1
(path_planning.cpp:118-125). -/
noncomputable def corners : List RPoint → List RPoint
  | a :: b :: c :: l =>
    if |angleFromPoint (b.sub a) - angleFromPoint (c.sub b)| > 1 / 10 then b :: corners (b :: c :: l)
    else corners (b :: c :: l)
  | _ => []

/-- Position and heading. -/
abbrev Pose := RPoint × ℝ

/-- `p_in` and `p_out` (path_planning.cpp:138-141): on the way from `b` to `a`, at most half of it. -/
noncomputable def pullBack (safe : ℝ) (a b : RPoint) : RPoint :=
  ((a.sub b).smul (min (5 / 10 * pdist b a) safe / pdist b a)).add b

/-- Body of the loop (path_planning.cpp:133-154) for three consecutive points. -/
noncomputable def cornerStep (safe : ℝ) (p1 p2 : RPoint) (path : List Pose) (a b c : RPoint) :
    List Pose :=
  if pdist b a = 0 ∨ pdist b c = 0 then path
  else
    let pIn := pullBack safe a b
    let pOut := pullBack safe c b
    let path :=
      if pdist pIn (path.getLastD (p1, 0)).1 > 3 * safe ∧ pdist pIn p1 > 3 * safe ∧
          pdist pIn p2 > 3 * safe then path ++ [(pIn, angleFromPoint (b.sub a))]
      else path
    if pdist pOut c > 3 * safe ∧ pdist pOut p1 > 3 * safe ∧ pdist pOut p2 > 3 * safe ∧
        pdist pOut pIn > 3 * safe then path ++ [(pOut, angleFromPoint (c.sub b))]
    else path

/-- The loop (path_planning.cpp:132-155). -/
noncomputable def cornerLoop (safe : ℝ) (p1 p2 : RPoint) : List Pose → List RPoint → List Pose
  | path, a :: b :: c :: l => cornerLoop safe p1 p2 (cornerStep safe p1 p2 path a b c) (b :: c :: l)
  | path, _ => path

/-- `PathPlanning::simplifyConnection` (path_planning.cpp:104-158); `safe` is
`getSmoothTurningRadius(robot)`, which comes from the external library. -/
noncomputable def simplify (safe : ℝ) (p1 : RPoint) (a1 : ℝ) (mp : List RPoint) (p2 : RPoint) (a2 : ℝ) :
    List Pose :=
  if pdist p1 p2 < 6 * safe ∨ mp.length < 2 then [(p1, a1), (p2, a2)]
  else if (corners mp).length < 2 then [(p1, a1), (p2, a2)]
  else cornerLoop safe p1 p2 [(p1, a1)] (corners mp) ++ [(p2, a2)]

/-- The turns between consecutive poses (path_planning.cpp:83-89). -/
noncomputable def turnsAlong (solve : Solver) (r : Robot) (t : Planner) (path : Path) :
    List Pose → Outcome (Path × Planner)
  | a :: b :: l => do
    let (q, t') ← createTurn solve t r a.1 a.2 b.1 b.2
    turnsAlong solve r t' (path ++ q) (b :: l)
  | _ => .ok (path, t)

/-- `planPathForConnection` between two poses (path_planning.cpp:75-90). -/
noncomputable def planBetween (solve : Solver) (safe : Robot → ℝ) (r : Robot) (t : Planner)
    (p1 : RPoint) (a1 : ℝ) (mp : List RPoint) (p2 : RPoint) (a2 : ℝ) : Outcome (Path × Planner) :=
  turnsAlong solve r t [] (simplify (safe r) p1 a1 mp p2 a2)

/-- Start of a connection (path_planning.cpp:54-62); `none`: nothing to drive. -/
noncomputable def startPose (s1 : Swaths ℝ) (mp : List RPoint) : Outcome (Option Pose) :=
  match s1.getLast? with
  | some s => do
    let a ← s.outAngle
    return some (s.endPoint, a)
  | none =>
    match mp with
    | [] => .ok none
    | p :: _ => do
      let a ← multiOutAngle0 mp
      return some (p, a)

/-- End of a connection (path_planning.cpp:63-71). -/
noncomputable def endPose (mp : List RPoint) (s2 : Swaths ℝ) : Outcome (Option Pose) :=
  match s2 with
  | s :: _ => do
    let a ← s.inAngle
    return some (s.startPoint, a)
  | [] =>
    match mp.getLast? with
    | none => .ok none
    | some p => do
      let a ← multiInAngleLast mp
      return some (p, a)

/-- `planPathForConnection` between two groups of swaths (path_planning.cpp:46-73). -/
noncomputable def planConnection (solve : Solver) (safe : Robot → ℝ) (r : Robot) (t : Planner)
    (s1 : Swaths ℝ) (mp : List RPoint) (s2 : Swaths ℝ) : Outcome (Path × Planner) := do
  match ← startPose s1 mp with
  | none => .ok ([], t)
  | some a =>
    match ← endPose mp s2 with
    | none => .ok ([], t)
    | some b => planBetween solve safe r t a.1 a.2 mp b.1 b.2

/-- Loop over the groups (path_planning.cpp:15-20); `prev` is group `i - 1`.  A connection that does
not exist is read out of bounds. -/
noncomputable def planGroups (solve : Solver) (safe : Robot → ℝ) (r : Robot) :
    Planner → Path → Swaths ℝ → List (List RPoint) → List (Swaths ℝ) → Outcome (Path × Planner)
  | t, path, _, _, [] => .ok (path, t)
  | _, _, _, [], _ :: _ => .ub "getConnection(i)"
  | t, path, prev, c :: cs, g :: gs => do
    let (q, t1) ← planConnection solve safe r t prev c g
    let (q', t2) ← planSwaths solve r t1 g
    planGroups solve safe r t2 (path ++ q ++ q') g cs gs

/-- `PathPlanning::planPath(robot, route, turn)` (path_planning.cpp:12-26). -/
noncomputable def planRoute (solve : Solver) (safe : Robot → ℝ) (r : Robot) (t : Planner)
    (route : Route ℝ) : Outcome (Path × Planner) := do
  let (path, t1) ← planGroups solve safe r t [] [] route.connections route.groups
  if route.connections.length > route.groups.length then
    match route.groups.getLast?, route.connections.getLast? with
    | some g, some c => do
      let (q, t2) ← planConnection solve safe r t1 g c []
      return (path ++ q, t2)
    | none, _ => .ub "getLastSwaths() of a route without swaths"
    | _, none => .ub "getLastConnection() of a route without connections"
  else return (path, t1)

end PP
end F2C
