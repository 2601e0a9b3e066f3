import Verif.Model.DoubleTurning
import Verif.Model.Border

/-!
# Convexity in double precision

`Cell::isConvex` (`src/fields2cover/types/Cell.cpp:141-162`) with every operation rounded; compare `Model/Border.lean`.
Simplification: the area that GDAL computes is a parameter.
-/

namespace F2C.Dbl

/-- `Point::getAngleFromPoints(p1, p2, p3)` (Point.cpp:140-143). -/
noncomputable def turnAngle (fl : ℝ → ℝ) (atan2 : ℝ → ℝ → ℝ) (p1 p2 p3 : RPoint) : ℝ :=
  mod2pi fl (fl (angleFromPoint fl atan2 (subPoint fl p3 p2) - angleFromPoint fl atan2 (subPoint fl p2 p1)))

/-- The loop of `Cell::isConvex` (Cell.cpp:156-160); compare `F2C.sameTurns`. -/
noncomputable def sameTurns (fl : ℝ → ℝ) (atan2 : ℝ → ℝ → ℝ) (inv : Bool) : List RPoint → Bool
  | a :: b :: c :: l =>
    if inv ≠ decide (turnAngle fl atan2 a b c < pi) then false else sameTurns fl atan2 inv (b :: c :: l)
  | _ => true

/-- `Cell::isConvex` (Cell.cpp:141-162); `area` is what `get_Area` returns (line 142).  A ring of two points makes `getAng(0)`
throw `out_of_range` (LinearRing.cpp:88-94). -/
noncomputable def isConvex (fl : ℝ → ℝ) (atan2 : ℝ → ℝ → ℝ) (area : ℝ) (c : Cell ℝ) : Outcome Bool :=
  match c with
  | [] => .ok false
  | border :: holes =>
    if holes ≠ [] ∨ area ≤ 0 then .ok false
    else if border.length < 2 then .ok false
    else match border with
      | p0 :: p1 :: p2 :: l => .ok (sameTurns fl atan2 (decide (pi > turnAngle fl atan2 p0 p1 p2)) (p1 :: p2 :: l))
      | _ => .throw .outOfRange

end F2C.Dbl
