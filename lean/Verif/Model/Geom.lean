import Mathlib.Analysis.SpecialFunctions.Complex.Arg
import Mathlib.Analysis.SpecialFunctions.Sqrt
import Verif.Model.Point
import Verif.Model.Angle
import Verif.Model.Swath

/-!
# Plane geometry on `ℝ`

Metric functions of `src/fields2cover/types/Point.cpp` and the GDAL functions they rely on.
-/

namespace F2C

/-- Points with real coordinates. -/
abbrev RPoint := Point ℝ

/-- `Point::distance`, i.e. `OGRGeometry::Distance` between two points: planar (GEOS ignores z). -/
noncomputable def pdist (a b : RPoint) : ℝ := √((a.x - b.x) ^ 2 + (a.y - b.y) ^ 2)

/-- `LineString::length`, i.e. `OGRLineString::get_Length`: planar length. -/
noncomputable def lineLength : List RPoint → ℝ
  | [] => 0
  | [_] => 0
  | a :: b :: l => pdist a b + lineLength (b :: l)

/-- `std::atan2(y, x)`. -/
noncomputable def atan2 (y x : ℝ) : ℝ := Complex.arg ⟨x, y⟩

/-- `Point::getAngleFromPoints(end)` (Point.cpp:132-134). -/
noncomputable def angleFromPoints (a b : RPoint) : ℝ := mod2pi (atan2 (Point.det a b) (Point.dot a b))

/-- `Point::getAngleFromPoint()` (Point.cpp:136-138). -/
noncomputable def angleFromPoint (a : RPoint) : ℝ := angleFromPoints ⟨1, 0, 0⟩ a

/-- `Point::getAngleFromPoints(p1, p2, p3)` (Point.cpp:140-143). -/
noncomputable def turnAngle (p1 p2 p3 : RPoint) : ℝ :=
  mod2pi (angleFromPoint (p3.sub p2) - angleFromPoint (p2.sub p1))

/-- `Point::rotateFromPoint(angle, p)` (Point.cpp:121-130): rotates `p` around `c`; the result has
z = 0. -/
noncomputable def rotateFrom (c : RPoint) (angle : ℝ) (p : RPoint) : RPoint :=
  ⟨(p.x - c.x) * Real.cos angle - (p.y - c.y) * Real.sin angle + c.x,
   (p.x - c.x) * Real.sin angle + (p.y - c.y) * Real.cos angle + c.y, 0⟩

/-- `Point::getPointFromAngle` (Point.cpp:145-147); z is dropped. -/
noncomputable def pointFromAngle (p : RPoint) (angle dist : ℝ) : RPoint :=
  ⟨p.x + dist * Real.cos angle, p.y + dist * Real.sin angle, 0⟩

/-- `Point::signedDistance2Segment` (Point.cpp:149-154).  For a degenerate segment the code
divides by zero (result NaN or inf, not undefined behaviour); here the quotient is 0. -/
noncomputable def signedDistance (p s e : RPoint) : ℝ :=
  -(Point.det (e.sub s) (s.sub p)) / √(Point.dot (e.sub s) (e.sub s))

/-- `Point::closestPointInSegment` (Point.cpp:169-175).  For a degenerate segment the code computes
0/0; `min`/`max` of `<algorithm>` then return the bound: `std::min(1.0, NaN) = 1.0`,
so `t = 1`, which is modelled explicitly. -/
noncomputable def closestInSegment (p s e : RPoint) : RPoint :=
  let v := e.sub s
  let u := s.sub p
  let t := if Point.dot v v = 0 then 1 else -(Point.dot v u) / Point.dot v v
  (v.smul (max 0 (min 1 t))).add s

/-- `Point::intersectionOfLines` (Point.cpp:157-167). -/
noncomputable def lineIntersection (a b c d : RPoint) : RPoint :=
  let den := Point.det (b.sub a) (d.sub c)
  if den = 0 then a
  else (((d.sub c).smul (Point.det b a)).sub ((b.sub a).smul (Point.det d c))).sdiv den

namespace Swath

/-- `Swath::operator!=` (Swath.cpp:28-36), with `this = a`. -/
noncomputable def neq (a b : Swath ℝ) : Bool :=
  if b.width ≠ a.width then true
  else
    let tp := a.startPoint
    let sp := if a.hasSameDir b then b.startPoint else b.endPoint
    decide (tp.x ≠ sp.x) || decide (tp.y ≠ sp.y) || decide (lineLength b.path ≠ lineLength a.path)

/-- `Swath::operator==` (Swath.cpp:38-40): note the swapped operands. -/
noncomputable def eq (a b : Swath ℝ) : Bool := !(neq b a)

/-- `Swath::operator<=` (Swath.cpp:55-58). -/
noncomputable def le (a b : Swath ℝ) : Bool :=
  decide (a.id < b.id) || (decide (a.id = b.id) && eq a b)

/-- `Swath::operator>=` (Swath.cpp:50-53). -/
noncomputable def ge (a b : Swath ℝ) : Bool :=
  decide (a.id > b.id) || (decide (a.id = b.id) && eq a b)

end Swath
end F2C
