import Verif.Model.Ieee

/-!
# The limits of a robot, for all values of type `double`

The getter of the turning radius and the setters of the widths and limits (`src/fields2cover/types/Robot.cpp:45-55, 73-95`),
for numbers, infinities and values that are not numbers.  The same setters over the real numbers are in `Model/Robot.lean`.
-/

namespace F2C.Ieee

open Flt

/-- The literal `1e-7` (Robot.cpp:74, 78): the closest double. -/
noncomputable def tiny (fl : ℝ → ℝ) : ℝ := fl (1 / 10 ^ 7)

namespace Robot

/-- `getMinTurningRadius` (Robot.cpp:73-75). -/
noncomputable def minTurningRadius (fl : ℝ → ℝ) (r : Robot) : Flt := div fl (fin 1) (add fl r.maxCurv (fin (tiny fl)))

/-- `setMinTurningRadius` (Robot.cpp:77-79). -/
noncomputable def setMinTurningRadius (fl : ℝ → ℝ) (r : Robot) (rad : Flt) : Robot :=
  { r with maxCurv := div fl (fin 1) (add fl (Flt.abs rad) (fin (tiny fl))) }

/-- `setMaxCurv` (Robot.cpp:85-87). -/
noncomputable def setMaxCurv (r : Robot) (c : Flt) : Robot := { r with maxCurv := Flt.abs c }

/-- `setMaxDiffCurv` (Robot.cpp:93-95). -/
noncomputable def setMaxDiffCurv (r : Robot) (c : Flt) : Robot := { r with diffCurv := Flt.abs c }

/-- The setters of the widths and limits (Robot.cpp:45-47, 53-55, 77-79, 85-87, 93-95), as operations.  Simplification: the
velocities and the name, which none of these functions reads, are left out. -/
inductive Op
  | width (w : Flt) | covWidth (w : Flt) | minRadius (r : Flt) | maxCurv (c : Flt) | diffCurv (c : Flt)

/-- One setter call (Robot.cpp:45-47, 53-55, 77-79, 85-87, 93-95). -/
noncomputable def step (fl : ℝ → ℝ) (r : Robot) : Op → Robot
  | .width w => { r with width := w }
  | .covWidth w => { r with covWidth := w }
  | .minRadius x => r.setMinTurningRadius fl x
  | .maxCurv c => r.setMaxCurv c
  | .diffCurv c => r.setMaxDiffCurv c

/-- A sequence of setter calls (Robot.cpp:45-47, 53-55, 77-79, 85-87, 93-95). -/
noncomputable def run (fl : ℝ → ℝ) (r : Robot) (ops : List Op) : Robot := ops.foldl (step fl) r

end Robot
end F2C.Ieee
