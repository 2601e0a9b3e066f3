import Verif.Model.DoubleTurning

/-!
# Distances to lines and intersections of lines in double precision

`Point::signedDistance2Segment` and `Point::intersectionOfLines` (`src/fields2cover/types/Point.cpp:149-167`) with every operation
rounded; compare `Model/Geom.lean`.  Simplification: no overflow, and no contraction of products and sums into single operations.
-/

namespace F2C.Dbl

/-- `Point::det` (Point.cpp:84-86). -/
noncomputable def det (fl : ℝ → ℝ) (u v : RPoint) : ℝ := fl (fl (u.x * v.y) - fl (u.y * v.x))

/-- Scalar product (Point.cpp:76-78). -/
noncomputable def dot (fl : ℝ → ℝ) (u v : RPoint) : ℝ := fl (fl (fl (u.x * v.x) + fl (u.y * v.y)) + fl (u.z * v.z))

/-- `Point::signedDistance2Segment` (Point.cpp:149-154); for segments whose computed length is not 0. -/
noncomputable def signedDistance (fl : ℝ → ℝ) (p s e : RPoint) : ℝ :=
  fl (-(det fl (subPoint fl e s) (subPoint fl s p)) / fl √(dot fl (subPoint fl e s) (subPoint fl e s)))

/-- Point times number (Point.cpp:72-74). -/
noncomputable def mulPoint (fl : ℝ → ℝ) (p : RPoint) (k : ℝ) : RPoint := ⟨fl (p.x * k), fl (p.y * k), fl (p.z * k)⟩

/-- Point over number (Point.cpp:80-82). -/
noncomputable def divPoint (fl : ℝ → ℝ) (p : RPoint) (k : ℝ) : RPoint := ⟨fl (p.x / k), fl (p.y / k), fl (p.z / k)⟩

/-- `Point::intersectionOfLines` (Point.cpp:157-167). -/
noncomputable def lineIntersection (fl : ℝ → ℝ) (a b c d : RPoint) : RPoint :=
  let den := det fl (subPoint fl b a) (subPoint fl d c)
  if den = 0 then a
  else divPoint fl (subPoint fl (mulPoint fl (subPoint fl d c) (det fl b a)) (mulPoint fl (subPoint fl b a) (det fl d c))) den

end F2C.Dbl
