import Mathlib.Algebra.Order.Floor.Semiring
import Mathlib.Algebra.Order.Archimedean.Real.Basic
import Verif.Model.Cell

/-!
# Swath generation

`src/fields2cover/swath_generator/swath_generator_base.cpp` and
`src/fields2cover/swath_generator/brute_force.cpp`.
-/

namespace F2C.SG

/-- The `while` loop of `SwathGeneratorBase::generateSwaths` (swath_generator_base.cpp:53-57):
the values of `curve_y` at which a track is added, starting from the current `curve_y = y`;
`slack` is `allow_overlap ? 0.0 : 0.5 * op_width`.  `fuel` bounds the number of rounds; running
out of it stands for a loop that does not end. -/
def trackLoop {K : Type} [Field K] [LinearOrder K] (height w slack : K) :
    Nat → K → Outcome (List K)
  | 0, y => if height > y + slack then .ub "endless loop" else .ok []
  | fuel + 1, y =>
    if height > y + slack then do
      let rest ← trackLoop height w slack fuel (y + w)
      return (y + w) :: rest
    else .ok []

/-- `allow_overlap ? 0.0 : 0.5 * op_width` (swath_generator_base.cpp:53). -/
def slack {K : Type} [Field K] (allowOverlap : Bool) (w : K) : K :=
  if allowOverlap then 0 else 1 / 2 * w

/-- The offsets of all tracks (swath_generator_base.cpp:51-57).  For a positive width
`⌈height / w⌉ + 1` rounds are enough (`trackOffsets_ok`); for other widths the loop either does not
start or never ends, whatever the bound is (`C25_nonpositive_width_never_returns`). -/
def trackOffsets {K : Type} [Field K] [LinearOrder K] [FloorSemiring K]
    (allowOverlap : Bool) (height w : K) : Outcome (List K) :=
  trackLoop height w (slack allowOverlap w) (⌈height / w⌉₊ + 1) (-(1 / 2) * w)

/-- `line + F2CPoint(0, y)` (include/fields2cover/types/Point.h:153-160) followed by the rotation
back (swath_generator_base.cpp:55-56). -/
noncomputable def placeTrack (angle y : ℝ) (seed : List RPoint) : List RPoint :=
  (seed.map fun p => p.add ⟨0, y, 0⟩).map (rotateFrom Point.zero angle)

/-- The track lines of a cell (swath_generator_base.cpp:45-57). -/
noncomputable def tracks (allowOverlap : Bool) (angle w : ℝ) (poly : Cell ℝ) :
    Outcome (List (List RPoint)) := do
  let rot := poly.rotate Point.zero (-angle)
  let seed := rot.createStraightLongLine ⟨rot.minX, rot.minY, 0⟩ 0
  let ys ← trackOffsets allowOverlap rot.height w
  return ys.map fun y => placeTrack angle y seed

/-- `SwathGeneratorBase::generateSwaths(angle, op_width, poly)` (swath_generator_base.cpp:43-62).
`clip poly lines` stands for `poly.getLinesInside(lines)` (Cell.cpp:180-182), a GEOS
intersection. -/
noncomputable def generateSwaths (clip : Cell ℝ → List (List RPoint) → List (List RPoint))
    (allowOverlap : Bool) (angle w : ℝ) (poly : Cell ℝ) : Outcome (Swaths ℝ) := do
  let ts ← tracks allowOverlap angle w poly
  Swaths.appendLines [] (clip poly ts) w .mainland

/-- The loop of the functions for several cells (swath_generator_base.cpp:27-29 and 36-38), `one`
being the function for a single cell. -/
def perCellLoop (one : Cell ℝ → Outcome (Swaths ℝ)) : List (Cell ℝ) → Outcome (SwathsByCells ℝ)
  | [] => .ok []
  | c :: cs => do
    let s ← one c
    let rest ← perCellLoop one cs
    return s :: rest

/-- `SwathGeneratorBase::generateSwaths(angle, op_width, polys)` (swath_generator_base.cpp:33-40)
and `generateBestSwaths(obj, op_width, polys)` (24-31): one group per cell, unless all cells are
empty. -/
def perCell (one : Cell ℝ → Outcome (Swaths ℝ)) (cs : Cells ℝ) : Outcome (SwathsByCells ℝ) :=
  perCellLoop one (Cells.iter cs)

/-- A swath generation objective as seen by the generator
(include/fields2cover/objectives/sg_obj/sg_objective.h): the sign, whether the fast cost is
available, the cost from the angle and the cost from the swaths. -/
structure Objective where
  isMinimizing : Bool
  fastComp : Bool
  fastCost : ℝ → ℝ → Cell ℝ → Outcome ℝ
  swathCost : Cell ℝ → Swaths ℝ → Outcome ℝ

/-- `computeCostWithMinimizingSign` (include/fields2cover/objectives/base_objective.h:25-52). -/
def withSign (isMinimizing : Bool) (cost : ℝ) : ℝ := (if isMinimizing then 1 else -1) * cost

/-- `SwathGeneratorBase::computeCostOfAngle` (swath_generator_base.cpp:65-72). -/
noncomputable def computeCostOfAngle (obj : Objective)
    (gen : ℝ → ℝ → Cell ℝ → Outcome (Swaths ℝ)) (angle w : ℝ) (poly : Cell ℝ) : Outcome ℝ :=
  if obj.fastComp then do
    let c ← obj.fastCost angle w poly
    return withSign obj.isMinimizing c
  else do
    let s ← gen angle w poly
    let c ← obj.swathCost poly s
    return withSign obj.isMinimizing c

/-- `std::transform(ids.begin(), ids.end(), costs.begin(), f)` (brute_force.cpp:38-43) for the ids
`i, i+1, …, i+n-1`. -/
def transformIds (f : Nat → Outcome ℝ) : Nat → Nat → Outcome (List ℝ)
  | 0, _ => .ok []
  | n + 1, i => do
    let c ← f i
    let rest ← transformIds f n (i + 1)
    return c :: rest

/-- `BruteForce::computeBestAngle` (brute_force.cpp:26-47) with `cost` for
`computeCostOfAngle(obj, ·, op_width, poly)`.  Converting 2π/step to `int` is undefined when it
does not fit, a negative count makes the vector constructor throw `length_error`, and with no
candidates `ids[0]` is read out of bounds. -/
noncomputable def computeBestAngle (cost : ℝ → Outcome ℝ) (step : ℝ) : Outcome ℝ :=
  if step = 0 ∨ 2 * Real.pi / step ≥ 2 ^ 31 ∨ 2 * Real.pi / step ≤ -(2 ^ 31) - 1 then
    .ub "conversion of an out-of-range double to int"
  else if 2 * Real.pi / step ≤ -1 then .throw .lengthError
  else do
    let n := ⌊2 * Real.pi / step⌋₊
    let costs ← transformIds (fun i => cost (i * step)) n 0
    if n = 0 then .ub "read past the end of ids" else return (minElement costs : ℝ) * step

/-- `SwathGeneratorBase::generateBestSwaths(obj, op_width, poly)` (swath_generator_base.cpp:19-22)
with the brute force angle search. -/
noncomputable def generateBestSwaths (obj : Objective)
    (clip : Cell ℝ → List (List RPoint) → List (List RPoint)) (allowOverlap : Bool)
    (step w : ℝ) (poly : Cell ℝ) : Outcome (Swaths ℝ) := do
  let angle ← computeBestAngle
    (fun a => computeCostOfAngle obj (generateSwaths clip allowOverlap) a w poly) step
  generateSwaths clip allowOverlap angle w poly

end F2C.SG
