import Verif.Model.DoubleTurning
import Verif.Model.Objectives

/-!
# The estimated number of turns in double precision

`NSwathModified::computeCost(ang, op_width, cell)` (`src/fields2cover/objectives/sg_obj/n_swath_modified.cpp:11-26`) with every
operation rounded; compare `nSwathModified`.  `sin` and `atan2` are those of the C library.  Simplification: no overflow, no
contraction of products and sums into single operations.
-/

namespace F2C.Dbl

open Obj (ringPoint prevIndex)

/-- One term of the sum (n_swath_modified.cpp:21-22). -/
noncomputable def turnTerm (fl sin : ℝ → ℝ) (atan2 : ℝ → ℝ → ℝ) (ang : ℝ) (p p1 : RPoint) : ℝ :=
  fl (dist fl p p1 * |sin (fl (ang - angleFromPoint fl atan2 (subPoint fl p p1)))|)

/-- The inner loop (n_swath_modified.cpp:18-23), for one ring, continuing the sum `acc`. -/
noncomputable def ringTurns (fl sin : ℝ → ℝ) (atan2 : ℝ → ℝ → ℝ) (ang : ℝ) (acc : ℝ) (ring : Ring ℝ) : ℝ :=
  (List.range ring.length).foldl
    (fun t i => fl (t + turnTerm fl sin atan2 ang (ringPoint ring i) (ringPoint ring (prevIndex i ring.length)))) acc

/-- `NSwathModified::computeCost(ang, op_width, cell)` (n_swath_modified.cpp:11-26). -/
noncomputable def nSwathModified (fl sin : ℝ → ℝ) (atan2 : ℝ → ℝ → ℝ) (ang w : ℝ) (cell : Cell ℝ) : ℝ :=
  if cell.flatten = [] ∨ w ≤ 0 then 0 else fl (cell.foldl (ringTurns fl sin atan2 ang) 0 / fl (2 * w))

end F2C.Dbl
