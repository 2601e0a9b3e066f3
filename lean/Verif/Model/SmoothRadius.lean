import Mathlib.Analysis.SpecialFunctions.Trigonometric.Basic
import Mathlib.Analysis.SpecialFunctions.Sqrt
import Verif.Model.Robot

/-! # Radius of smooth turns (`src/fields2cover/path_planning/path_planning.cpp`) -/

namespace F2C.SmoothRadius

/-- `end_of_clothoid` of steering_functions, an external function: from x, y, heading and curvature at the
start, sharpness, direction and length to x, y, heading and curvature at the end. -/
abbrev EndOfClothoid := ℝ → ℝ → ℝ → ℝ → ℝ → ℝ → ℝ → ℝ × ℝ × ℝ × ℝ

/-- `PathPlanning::getSmoothTurningRadius` (path_planning.cpp:94-102); curvatures of 0, by which is divided, are
not treated as in floating point numbers. -/
noncomputable def smoothTurningRadius (lib : EndOfClothoid) (r : Robot) : ℝ :=
  let (x, y, ang, _) := lib 0 0 0 0 r.diffCurv 1 (r.maxCurv / r.diffCurv)
  let xi := x - Real.sin ang / r.maxCurv
  let yi := y + Real.cos ang / r.maxCurv
  Real.sqrt (xi * xi + yi * yi)

end F2C.SmoothRadius
