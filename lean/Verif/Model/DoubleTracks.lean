import Verif.Model.Double
import Verif.Model.SwathGenerator

/-!
# Tracks of a cell in double precision

`src/fields2cover/swath_generator/swath_generator_base.cpp:43-57` from the rotation of the cell to the lines of the tracks, with
every operation rounded; compare `Model/SwathGenerator.lean`.  `cos` and `sin` are those of the C library.  Simplification: no
overflow, and no contraction of products and sums into single operations.
-/

namespace F2C.Dbl

/-- `Point::rotateFromPoint(angle, p)` (Point.cpp:121-131). -/
noncomputable def rotateFrom (fl cos sin : ℝ → ℝ) (c : RPoint) (angle : ℝ) (p : RPoint) : RPoint :=
  let px := fl (p.x - c.x)
  let py := fl (p.y - c.y)
  ⟨fl (fl (fl (px * cos angle) - fl (py * sin angle)) + c.x), fl (fl (fl (px * sin angle) + fl (py * cos angle)) + c.y), 0⟩

/-- `Point::getPointFromAngle` (Point.cpp:145-147). -/
noncomputable def pointFromAngle (fl cos sin : ℝ → ℝ) (p : RPoint) (angle dist : ℝ) : RPoint :=
  ⟨fl (p.x + fl (dist * cos angle)), fl (p.y + fl (dist * sin angle)), 0⟩

/-- `Geometry::getHeight` (include/fields2cover/types/Geometry_impl.hpp:116-120); the envelope is exact. -/
noncomputable def height (fl : ℝ → ℝ) (c : Cell ℝ) : ℝ := fl (c.maxY - c.minY)

/-- `Geometry::getMinSafeLength` (Geometry_impl.hpp:130-135). -/
noncomputable def minSafeLength (fl : ℝ → ℝ) (c : Cell ℝ) : ℝ := fl (fl (c.maxX - c.minX) + fl (c.maxY - c.minY))

/-- `Cell::createStraightLongLine` (Cell.cpp:169-174). -/
noncomputable def straightLongLine (fl cos sin : ℝ → ℝ) (c : Cell ℝ) (p : RPoint) (angle : ℝ) : List RPoint :=
  [pointFromAngle fl cos sin p (fl (pi + angle)) (minSafeLength fl c), pointFromAngle fl cos sin p angle (minSafeLength fl c)]

/-- `line + F2CPoint(0, y)` (Point.h:153-160) followed by the rotation back (swath_generator_base.cpp:55-56). -/
noncomputable def placeTrack (fl cos sin : ℝ → ℝ) (angle y : ℝ) (seed : List RPoint) : List RPoint :=
  (seed.map fun p => (⟨fl (p.x + 0), fl (p.y + y), fl (p.z + 0)⟩ : RPoint)).map (rotateFrom fl cos sin Point.zero angle)

/-- The track lines of a cell (swath_generator_base.cpp:45-57). -/
noncomputable def tracks (fl cos sin : ℝ → ℝ) (allowOverlap : Bool) (angle w : ℝ) (poly : Cell ℝ) :
    Outcome (List (List RPoint)) := do
  let rot : Cell ℝ := poly.map fun ring => ring.map (rotateFrom fl cos sin Point.zero (-angle))
  let seed := straightLongLine fl cos sin rot ⟨rot.minX, rot.minY, 0⟩ 0
  let ys ← trackOffsets fl allowOverlap (height fl rot) w
  return ys.map fun y => placeTrack fl cos sin angle y seed

end F2C.Dbl
