import Mathlib.Analysis.SpecialFunctions.Trigonometric.Basic
import Verif.Model.Border
import Verif.Model.Container

/-!
# Random cells

`src/fields2cover/utils/random.cpp`.  The generator of random numbers is a parameter: the numbers drawn are
inputs.  Constructing a distribution with an empty range is an assertion (random.cpp:23-24) and a
precondition of the standard library; here the ranges of the drawn numbers are hypotheses.
-/

namespace F2C.Rand

/-- The point at distance `r` in direction `a`, counted clockwise from the y axis (random.cpp:54). -/
noncomputable def polar (r a : ℝ) : RPoint := ⟨r * Real.sin a, r * Real.cos a, 0⟩

/-- The points of the loop (random.cpp:51-55) from index `i` on; a draw is the pair of the random radius and
the random number in [0, 1). -/
noncomputable def points (n : Nat) : Nat → List (ℝ × ℝ) → List RPoint
  | _, [] => []
  | i, d :: l => polar d.1 (2 * Real.pi * ((i : ℝ) + d.2) / n) :: points n (i + 1) l

/-- The ring before scaling (random.cpp:50-57): the first point is added again at the end. -/
noncomputable def base (draws : List (ℝ × ℝ)) : Ring ℝ :=
  points draws.length 0 draws ++ (points draws.length 0 draws).take 1

/-- Area of a cell without holes (Geometries_impl.hpp:14-16, `get_Area`). -/
noncomputable def ringArea (ring : Ring ℝ) : ℝ := |shoelace ring| / 2

/-- `Random::generateRandCell(area, n_sides, min_width, max_width)` (random.cpp:43-61); `draws` are the
`n_sides` pairs of random numbers.  If the cell has no area, the scale is a division by zero. -/
noncomputable def generateRandCell (area : ℝ) (n : Int) (draws : List (ℝ × ℝ)) : Outcome (Cell ℝ) :=
  if n ≤ 2 then .throw .invalidArgument
  else if area ≤ 0 then .throw .invalidArgument
  else if ringArea (base draws) = 0 then .ub "division by zero"
  else .ok (scaleLines [base draws] (Real.sqrt (area / ringArea (base draws))))

/-- The loops of `genConvexCell` and `genNonConvexCell` (random.cpp:69-75 and 82-88): cells are generated until
`isConvex` is `want`; `draws k` are the random numbers of round `k`.  Out of `fuel` stands for a loop that
goes on. -/
noncomputable def genUntil (want : Bool) (area : ℝ) (n : Int) (draws : Nat → List (ℝ × ℝ)) :
    Nat → Nat → Outcome (Cell ℝ)
  | 0, _ => .ub "endless loop"
  | fuel + 1, k => do
    let c ← generateRandCell area n (draws k)
    let b ← Cell.isConvex c
    if b = want then return c else genUntil want area n draws fuel (k + 1)

/-- `Random::genConvexCell` (random.cpp:69-75). -/
noncomputable def genConvexCell (area : ℝ) (n : Int) (draws : Nat → List (ℝ × ℝ)) (fuel : Nat) :
    Outcome (Cell ℝ) := genUntil true area n draws fuel 0

/-- `Random::genNonConvexCell` (random.cpp:82-88). -/
noncomputable def genNonConvexCell (area : ℝ) (draws : Nat → List (ℝ × ℝ)) (fuel : Nat) :
    Outcome (Cell ℝ) := genUntil false area 9 draws fuel 0

end F2C.Rand
