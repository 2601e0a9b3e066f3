import Verif.Model.PathSpline
import Verif.Model.Robot

/-!
# Turns

`src/fields2cover/path_planning/turning_base.cpp`, `dubins_curves_cc.cpp` and
`include/fields2cover/path_planning/steer_to_path.hpp`.  The curves themselves come from the external
library steering_functions; they are parameters.
-/

namespace F2C.Turning

/-- Result of `transformToNormalTurn`. -/
structure Normal where
  dist : ℝ
  angle : ℝ
  start : ℝ
  stop : ℝ
  inverted : Bool

/-- `TurningBase::transformToNormalTurn` (turning_base.cpp:11-27). -/
noncomputable def normalTurn (p1 : RPoint) (a1 : ℝ) (p2 : RPoint) (a2 : ℝ) : Normal :=
  let angle := mod2pi (angleFromPoint (p2.sub p1))
  let s := mod2pi (a1 - angle)
  let e := mod2pi (a2 - angle)
  if s > Real.pi then ⟨pdist p1 p2, angle, mod2pi (-s), mod2pi (-e), true⟩
  else ⟨pdist p1 p2, angle, s, e, false⟩

/-- `createSimpleTurn` of the planner in use: robot, discretisation, distance and the two angles. -/
abbrev Solver := Robot → ℝ → ℝ → ℝ → ℝ → Outcome Path

/-- State of a planner (turning_base.h:88-93). -/
structure Planner where
  cache : List (List Int × Path)
  disc : ℝ
  useCache : Bool

/-- A new planner. -/
noncomputable def Planner.default : Planner := ⟨[], 1 / 100, true⟩

/-- `setDiscretization` (turning_base.cpp:118-120). -/
def Planner.setDisc (t : Planner) (d : ℝ) : Planner := { t with disc := d }

/-- `setUsingCache` (turning_base.cpp:126-128). -/
def Planner.setUsingCache (t : Planner) (c : Bool) : Planner := { t with useCache := c }

/-- The key of the cache (turning_base.cpp:83-89). -/
noncomputable def key (r : Robot) (d a b : ℝ) : Outcome (List Int) := do
  let k1 ← Path.toInt (1000 * r.maxCurv)
  let k2 ← Path.toInt (1000 * r.diffCurv)
  let k3 ← Path.toInt (1000 * d)
  let k4 ← Path.toInt (1000 * a)
  let k5 ← Path.toInt (1000 * b)
  return [k1, k2, k3, k4, k5]

/-- `createTurnIfNotCached` (turning_base.cpp:81-97). -/
noncomputable def turnIfNotCached (solve : Solver) (t : Planner) (r : Robot) (d a b : ℝ) :
    Outcome (Path × Planner) := do
  let k ← key r d a b
  match t.cache.lookup k with
  | some p => return (p, t)
  | none => do
    let p ← solve r t.disc d a b
    return (p, { t with cache := (k, p) :: t.cache })

/-- Undoing the mirroring (turning_base.cpp:51-55). -/
noncomputable def mirror (inverted : Bool) (p : Path) : Path :=
  if inverted then
    p.map fun s => { s with point := { s.point with y := -s.point.y }, angle := mod2pi (-s.angle) }
  else p

/-- Undoing rotation and translation (turning_base.cpp:56-59). -/
noncomputable def place (angle : ℝ) (start : RPoint) (p : Path) : Path :=
  p.map fun s => { s with
    point := (rotateFrom ⟨0, 0, 0⟩ angle s.point).add start, angle := mod2pi (s.angle + angle) }

/-- `max_error_dist`, the `float` nearest to 0.05 (turning_base.h:83-86). -/
noncomputable def maxError : ℝ := 13421773 / 268435456

/-- First half of `correctPath` (turning_base.cpp:72-74). -/
noncomputable def correctStart (start : RPoint) : Path → Path
  | [] => []
  | s :: l => (if pdist s.point start < maxError then { s with point := start } else s) :: l

/-- Second half of `correctPath` (turning_base.cpp:75-77). -/
noncomputable def correctEnd (stop : RPoint) (p : Path) : Path :=
  match List.getLast? p with
  | none => p
  | some s => if pdist s.point stop < maxError then p.dropLast ++ [{ s with point := stop }] else p

/-- `correctPath` (turning_base.cpp:65-78). -/
noncomputable def correct (start stop : RPoint) (p : Path) : Path :=
  if List.length p < 2 then p else correctEnd stop (correctStart start p)

/-- What `createTurn` does with the simple turn (turning_base.cpp:49-62). -/
noncomputable def finish (n : Normal) (p1 p2 : RPoint) (p : Path) : Path :=
  if List.length p ≤ 1 then []
  else correct p1 p2 (place n.angle p1 (mirror n.inverted p))

/-- The choice between cache and solver (turning_base.cpp:42-48). -/
noncomputable def simpleTurn (solve : Solver) (t : Planner) (r : Robot) (d a b : ℝ) :
    Outcome (Path × Planner) :=
  if t.useCache then turnIfNotCached solve t r d a b
  else solve r t.disc d a b >>= fun p => .ok (p, t)

/-- `TurningBase::createTurn` (turning_base.cpp:30-63). -/
noncomputable def createTurn (solve : Solver) (t : Planner) (r : Robot) (p1 : RPoint) (a1 : ℝ)
    (p2 : RPoint) (a2 : ℝ) : Outcome (Path × Planner) := do
  let n := normalTurn p1 a1 p2 a2
  let a ← simpleTurn solve t r n.dist n.start n.stop
  return (finish n p1 p2 a.1, a.2)

/-- `isTurnValid` (turning_base.cpp:100-112); `atEnd` and `back` of an empty path are undefined. -/
noncomputable def isTurnValid (p : Path) (dist stop maxDist maxRot : ℝ) : Outcome Bool :=
  open Classical in
  if ∃ s ∈ p, s.point.y < -maxDist then .ok false
  else
    match List.getLast? p with
    | none => .ub "back of an empty path"
    | some s => .ok (decide (1 - maxRot ≤ Real.cos (s.angle - stop) ∧
        |s.atEnd.x - dist| < maxDist ∧ |s.atEnd.y| < maxDist))

/-! ## steering_functions -/

/-- `steer::State`: position, heading, curvature and direction. -/
structure SteerState where
  x : ℝ
  y : ℝ
  theta : ℝ
  kappa : ℝ
  d : ℝ

/-- `static_cast<PathDirection>(curve[i].d)` (steer_to_path.hpp:35).  Simplification: a value that is
not an enumerator is undefined behaviour here (in C++ the enum then has an unnamed value). -/
noncomputable def steerDir (d : ℝ) : Outcome PathDir :=
  if d = 1 then .ok .forward else if d = -1 then .ok .backward else .ub "not a PathDirection"

/-- `steerStatesToPath` (steer_to_path.hpp:21-40). -/
noncomputable def steerToPath (vel : ℝ) : List SteerState → Outcome Path
  | [] => .ok []
  | [a] => do
    let dir ← steerDir a.d
    return [⟨⟨a.x, a.y, 0⟩, a.theta, 0, dir, .turn, vel⟩]
  | a :: b :: l => do
    let dir ← steerDir a.d
    let p ← steerToPath vel (b :: l)
    return ⟨⟨a.x, a.y, 0⟩, a.theta, pdist ⟨a.x, a.y, 0⟩ ⟨b.x, b.y, 0⟩, dir, .turn, vel⟩ :: p

/-- `steer::Control`: (signed) arc length, curvature at the start and its change per metre. -/
structure Control where
  ds : ℝ
  kappa : ℝ
  sigma : ℝ

/-- Loop of `loop_detected` (steer_to_path.hpp:44-57). -/
noncomputable def loopFrom (total absTotal : ℝ) : List Control → Bool
  | [] => decide (|total| > 9 / 10) || decide (absTotal > 15 / 10)
  | c :: cs =>
    if c.kappa ≠ 0 then
      let dr := 5 / 10 * c.ds * c.kappa / Real.pi
      if |dr| > 9 / 10 then true else loopFrom (total + dr) (absTotal + |dr|) cs
    else loopFrom total absTotal cs

/-- `loop_detected` (steer_to_path.hpp:43-57). -/
noncomputable def loopDetected (cs : List Control) : Bool := loopFrom 0 0 cs

/-- What the library computes for limits on curvature and its change: the controls and the states. -/
structure Curves where
  controls : ℝ → ℝ → List Control
  states : ℝ → ℝ → List SteerState

/-- Limits in attempt `n` (dubins_curves_cc.cpp:32-34, 65-67). -/
noncomputable def limits (r : Robot) (n : Nat) : ℝ × ℝ :=
  (r.maxCurv / (1 + 5 / 100 * n), r.diffCurv / (1 + 2 / 10 * n))

/-- The `while (true)` loop (dubins_curves_cc.cpp:31-43, 64-76), from attempt `n` on; `fix` is
`fix_loops`.  Returns the number of the attempt that is used. -/
noncomputable def ccLoop (c : Curves) (r : Robot) (fix : Bool) : Nat → Nat → Outcome Nat
  | 0, _ => .ub "endless loop"
  | fuel + 1, n =>
    if fix ∧ loopDetected (c.controls (limits r n).1 (limits r n).2) ∧ n ≤ 20 then
      ccLoop c r fix fuel (n + 1)
    else .ok n

/-- `DubinsCurvesCC::createSimpleTurn` and `createConstrainedTurn` (dubins_curves_cc.cpp:14-77); the
curves depend on start and end state and the discretisation. -/
noncomputable def ccTurn (c : Curves) (r : Robot) (fix : Bool) (fuel : Nat) : Outcome Path := do
  let n ← ccLoop c r fix fuel 0
  steerToPath r.turnVel (c.states (limits r n).1 (limits r n).2)

end F2C.Turning
