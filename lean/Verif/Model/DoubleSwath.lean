import Verif.Model.DoublePath
import Verif.Model.DoubleTurning
import Verif.Model.Route

/-!
# The path along a swath in double precision

`Path::appendSwath` (`src/fields2cover/types/Path.cpp:210-223`) and the directions of swaths (`src/fields2cover/types/Swath.cpp:77-90`)
with every operation rounded; compare `Model/Path.lean` and `Model/Route.lean`.  Simplification: no overflow, and no contraction of
products and sums into single operations.
-/

namespace F2C.Dbl

/-- The states of `Path::appendSwath` (Path.cpp:211-221), one per segment; the point of line 214 has height 0. -/
noncomputable def swathStates (fl : ℝ → ℝ) (atan2 : ℝ → ℝ → ℝ) (speed : ℝ) : List RPoint → Path
  | a :: b :: l =>
    { point := a
      angle := angleFromPoint fl atan2 ⟨fl (b.x - a.x), fl (b.y - a.y), 0⟩
      len := dist fl b a
      dir := .forward
      type := .swath
      velocity := speed } :: swathStates fl atan2 speed (b :: l)
  | _ => []

/-- `Path::appendSwath` (Path.cpp:210-223).  For a swath without points the loop bound wraps around and `getPoint(0)` throws
(LineString.cpp:83-88). -/
noncomputable def appendSwath (fl : ℝ → ℝ) (atan2 : ℝ → ℝ → ℝ) (p : Path) (s : Swath ℝ) (speed : ℝ) : Outcome Path :=
  match s.path with
  | [] => .throw .outOfRange
  | line => .ok (p ++ swathStates fl atan2 speed line)

/-- `Swath::getInAngle` (Swath.cpp:77-82): a path of one point throws `out_of_range` (LineString.cpp:83-90). -/
noncomputable def inAngle (fl : ℝ → ℝ) (atan2 : ℝ → ℝ → ℝ) (s : Swath ℝ) : Outcome ℝ :=
  match s.path with
  | [] => .ok (-1)
  | [_] => .throw .outOfRange
  | a :: b :: _ => .ok (angleFromPoint fl atan2 (subPoint fl b a))

/-- `Swath::getOutAngle` (Swath.cpp:84-90). -/
noncomputable def outAngle (fl : ℝ → ℝ) (atan2 : ℝ → ℝ → ℝ) (s : Swath ℝ) : Outcome ℝ :=
  match s.path.reverse with
  | [] => .ok (-1)
  | [_] => .throw .outOfRange
  | b :: a :: _ => .ok (angleFromPoint fl atan2 (subPoint fl b a))

/-- The turn between two swaths (path_planning.cpp:31-39), before it is resampled. -/
noncomputable def turnBetween (fl cos sin : ℝ → ℝ) (atan2 : ℝ → ℝ → ℝ) (solve : Turning.Solver) (t : Turning.Planner) (r : Robot)
    (s s' : Swath ℝ) : Outcome (Path × Turning.Planner) := do
  let a1 ← outAngle fl atan2 s
  let a2 ← inAngle fl atan2 s'
  createTurn fl cos sin atan2 solve t r s.endPoint a1 s'.startPoint a2

end F2C.Dbl
