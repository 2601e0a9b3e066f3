import Verif.Model.Ieee

/-!
# Shares of a field, for all values of type `double`

`FieldCoverage`, `Overlaps` and `HGObjective`, which `RemArea` inherits, (`src/fields2cover/objectives/sg_obj/field_coverage.cpp:11-30`,
`sg_obj/overlaps.cpp:11-27`, `objectives/hg_obj/hg_objective.cpp:11-27`) for areas that are numbers, infinite or not numbers.  Simplification: the areas, which
GDAL computes, are parameters.  Over the real numbers they are in `Model/Objectives.lean`.
-/

namespace F2C.Ieee

open Flt

/-- `FieldCoverage::computeCost` (field_coverage.cpp:16-26).  `coveredArea w lines` is the area of the part of the field inside
the lines buffered by `w`, `polyArea` that of the field; `swaths[0]` of an empty collection is undefined behaviour. -/
noncomputable def fieldCoverage (fl : ℝ → ℝ) (coveredArea : Flt → List (List (Point Flt)) → Flt) (polyArea : Flt)
    (l : Swaths Flt) : Outcome Flt :=
  match l with
  | [] => .ub "first element of an empty vector"
  | s :: _ => .ok (div fl (coveredArea (div fl s.width (fin 2)) (l.map Swath.path)) polyArea)

/-- `HGObjective::computeCost(total, rem)` (hg_objective.cpp:24-27); `diffArea` is the area of `total.difference(rem)`. -/
noncomputable def hgCost (fl : ℝ → ℝ) (diffArea totalArea : Flt) : Flt := sub fl (fin 1) (div fl diffArea totalArea)

/-- `computeCostWithMinimizingSign` (include/fields2cover/objectives/base_objective.h:25-46). -/
noncomputable def withSign (fl : ℝ → ℝ) (isMinimizing : Bool) (cost : Flt) : Flt := mul fl (fin (if isMinimizing then 1 else -1)) cost

section Overlaps
variable {A : Type}

/-- The loop over `j` of `Overlaps::computeCost` (overlaps.cpp:20-24), for the values `j, j+1, …` with `n` rounds left;
`inter a b` is the area of the intersection of two covered areas (0 if they do not intersect). -/
noncomputable def overlapInner (fl : ℝ → ℝ) (inter : A → A → Flt) (areas : List A) (i : Nat) : Nat → Nat → Flt → Outcome Flt
  | 0, _, acc => .ok acc
  | n + 1, j, acc =>
    match areas[i]?, areas[j]? with
    | some a, some b => overlapInner fl inter areas i n (j + 1) (add fl acc (inter a b))
    | _, _ => .ub "areas read out of bounds"

/-- The loop over `i`, downwards from `i - 1` to 0 (overlaps.cpp:18-25); `covered k` is `swaths[k].areaCovered(poly)`. -/
noncomputable def overlapOuter (fl : ℝ → ℝ) (inter : A → A → Flt) (covered : Nat → A) : Nat → List A → Flt → Outcome Flt
  | 0, _, acc => .ok acc
  | i + 1, areas, acc => do
    let areas' := areas ++ [covered i]
    let acc' ← overlapInner fl inter areas' i (areas'.length - (i + 1)) (i + 1) acc
    overlapOuter fl inter covered i areas' acc'

/-- `Overlaps::computeCost(Cells, Swaths)` (overlaps.cpp:15-27) for `n` swaths. -/
noncomputable def overlaps (fl : ℝ → ℝ) (inter : A → A → Flt) (covered : Nat → A) (n : Nat) (polyArea : Flt) : Outcome Flt := do
  let s ← overlapOuter fl inter covered n [] (fin 0)
  return div fl s polyArea

end Overlaps

end F2C.Ieee
