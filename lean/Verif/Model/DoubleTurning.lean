import Verif.Model.DoubleTracks
import Verif.Model.DoubleField
import Verif.Model.Turning

/-!
# Turns in double precision

`src/fields2cover/path_planning/turning_base.cpp:11-97` with every operation rounded; compare `Model/Turning.lean`.  `cos`, `sin`
and `atan2` are those of the C library.  Simplification: no overflow, and no contraction of products and sums into single
operations.
-/

namespace F2C.Dbl

open Turning (Normal Planner Solver)

/-- `Point::distance` between two points (include/fields2cover/types/Geometry_impl.hpp:137-141), as in `Ieee.distance`. -/
noncomputable def dist (fl : ℝ → ℝ) (a b : RPoint) : ℝ :=
  fl √(fl (fl (fl (a.x - b.x) * fl (a.x - b.x)) + fl (fl (a.y - b.y) * fl (a.y - b.y))))

/-- `Point::getAngleFromPoint()` (Point.cpp:136-138, 132-134): the determinant and the scalar product with (1, 0, 0)
(Point.cpp:84-86, 76-78) are rounded. -/
noncomputable def angleFromPoint (fl : ℝ → ℝ) (atan2 : ℝ → ℝ → ℝ) (p : RPoint) : ℝ :=
  mod2pi fl (atan2 (fl (fl (1 * p.y) - fl (0 * p.x))) (fl (fl (fl (1 * p.x) + fl (0 * p.y)) + fl (0 * p.z))))

/-- `TurningBase::transformToNormalTurn` (turning_base.cpp:11-27). -/
noncomputable def normalTurn (fl : ℝ → ℝ) (atan2 : ℝ → ℝ → ℝ) (p1 : RPoint) (a1 : ℝ) (p2 : RPoint) (a2 : ℝ) : Normal :=
  let angle := mod2pi fl (angleFromPoint fl atan2 (subPoint fl p2 p1))
  let s := mod2pi fl (fl (a1 - angle))
  let e := mod2pi fl (fl (a2 - angle))
  if s > pi then ⟨dist fl p1 p2, angle, mod2pi fl (-s), mod2pi fl (-e), true⟩
  else ⟨dist fl p1 p2, angle, s, e, false⟩

/-- Undoing the mirroring (turning_base.cpp:51-55). -/
noncomputable def mirror (fl : ℝ → ℝ) (inverted : Bool) (p : Path) : Path :=
  if inverted then
    p.map fun s => { s with point := { s.point with y := -s.point.y }, angle := mod2pi fl (-s.angle) }
  else p

/-- Undoing rotation and translation (turning_base.cpp:56-59). -/
noncomputable def place (fl cos sin : ℝ → ℝ) (angle : ℝ) (start : RPoint) (p : Path) : Path :=
  p.map fun s => { s with
    point := addPoint fl (rotateFrom fl cos sin Point.zero angle s.point) start, angle := mod2pi fl (fl (s.angle + angle)) }

/-- First half of `correctPath` (turning_base.cpp:72-74). -/
noncomputable def correctStart (fl : ℝ → ℝ) (start : RPoint) : Path → Path
  | [] => []
  | s :: l => (if dist fl s.point start < Turning.maxError then { s with point := start } else s) :: l

/-- Second half of `correctPath` (turning_base.cpp:75-77). -/
noncomputable def correctEnd (fl : ℝ → ℝ) (stop : RPoint) (p : Path) : Path :=
  match List.getLast? p with
  | none => p
  | some s => if dist fl s.point stop < Turning.maxError then p.dropLast ++ [{ s with point := stop }] else p

/-- What `createTurn` does with the simple turn (turning_base.cpp:49-62); `correctPath` (turning_base.cpp:65-78) does nothing
with less than two states, which are not here any more. -/
noncomputable def finish (fl cos sin : ℝ → ℝ) (n : Normal) (p1 p2 : RPoint) (p : Path) : Path :=
  if List.length p ≤ 1 then []
  else correctEnd fl p2 (correctStart fl p1 (place fl cos sin n.angle p1 (mirror fl n.inverted p)))

/-- The key of the cache (turning_base.cpp:83-89). -/
noncomputable def turnKey (fl : ℝ → ℝ) (r : Robot) (d a b : ℝ) : Outcome (List Int) := do
  let k1 ← Path.toInt (fl (1000 * r.maxCurv))
  let k2 ← Path.toInt (fl (1000 * r.diffCurv))
  let k3 ← Path.toInt (fl (1000 * d))
  let k4 ← Path.toInt (fl (1000 * a))
  let k5 ← Path.toInt (fl (1000 * b))
  return [k1, k2, k3, k4, k5]

/-- The simple turn, from the cache or computed (turning_base.cpp:42-48, 81-97). -/
noncomputable def simpleTurn (fl : ℝ → ℝ) (solve : Solver) (t : Planner) (r : Robot) (d a b : ℝ) : Outcome (Path × Planner) :=
  if t.useCache then do
    let k ← turnKey fl r d a b
    match t.cache.lookup k with
    | some p => return (p, t)
    | none => do
      let p ← solve r t.disc d a b
      return (p, { t with cache := (k, p) :: t.cache })
  else do
    let p ← solve r t.disc d a b
    return (p, t)

/-- `TurningBase::createTurn` (turning_base.cpp:30-63). -/
noncomputable def createTurn (fl cos sin : ℝ → ℝ) (atan2 : ℝ → ℝ → ℝ) (solve : Solver) (t : Planner) (r : Robot) (p1 : RPoint)
    (a1 : ℝ) (p2 : RPoint) (a2 : ℝ) : Outcome (Path × Planner) := do
  let n := normalTurn fl atan2 p1 a1 p2 a2
  let a ← simpleTurn fl solve t r n.dist n.start n.stop
  return (finish fl cos sin n p1 p2 a.1, a.2)

end F2C.Dbl
