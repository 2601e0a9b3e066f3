import Verif.Model.SwathGenerator

/-!
# Objective functions

`src/fields2cover/objectives/sg_obj/*.cpp`, `src/fields2cover/objectives/hg_obj/*.cpp`.
-/

namespace F2C.Obj

/-! ## Base class of the swath objectives -/

/-- The two virtual functions of `SGObjective` that the swath objectives override
(include/fields2cover/objectives/sg_obj/sg_objective.h): `computeCost(Swath)` and
`computeCost(ang, op_width, Cell)`. -/
structure SGObjective where
  swath : Swath ℝ → ℝ
  angle : ℝ → ℝ → Cell ℝ → ℝ

namespace SGObjective

variable (o : SGObjective)

/-- `SGObjective::computeCost(Swaths)` (sg_objective.cpp:15-19). -/
def swaths (l : Swaths ℝ) : ℝ := l.foldl (fun init s => init + o.swath s) 0

/-- `SGObjective::computeCost(SwathsByCells)` (sg_objective.cpp:21-25). -/
def swathsByCells (l : SwathsByCells ℝ) : ℝ := l.foldl (fun init s => init + o.swaths s) 0

/-- `SGObjective::computeCost(Cell)` (sg_objective.cpp:27-29). -/
def cell (c : Cell ℝ) : ℝ := o.angle 0 0 c

/-- `SGObjective::computeCost(Cells)` (sg_objective.cpp:31-35); the iterators see no cells if all are empty
(Cells.cpp:135-137). -/
def cells (c : Cells ℝ) : ℝ := (Cells.iter c).foldl (fun init s => init + o.cell s) 0

/-- `SGObjective::computeCost(Cell, Swath)` (sg_objective.cpp:42-45). -/
def cellSwath (c : Cell ℝ) (s : Swath ℝ) : ℝ := o.cell c + o.swath s

/-- `SGObjective::computeCost(Cells, Swath)` (sg_objective.cpp:47-50). -/
def cellsSwath (c : Cells ℝ) (s : Swath ℝ) : ℝ := o.cells c + o.swath s

/-- `SGObjective::computeCost(Cell, Swaths)` (sg_objective.cpp:52-56). -/
def cellSwaths (c : Cell ℝ) (l : Swaths ℝ) : ℝ := l.foldl (fun init s => init + o.cellSwath c s) 0

/-- `SGObjective::computeCost(Cell, SwathsByCells)` (sg_objective.cpp:58-62). -/
def cellSwathsByCells (c : Cell ℝ) (l : SwathsByCells ℝ) : ℝ :=
  l.foldl (fun init s => init + o.cellSwaths c s) 0

/-- `SGObjective::computeCost(Cells, Swaths)` (sg_objective.cpp:65-69). -/
def cellsSwaths (c : Cells ℝ) (l : Swaths ℝ) : ℝ :=
  l.foldl (fun init s => init + o.cellsSwath c s) 0

/-- `SGObjective::computeCost(Cells, SwathsByCells)` (sg_objective.cpp:71-75). -/
def cellsSwathsByCells (c : Cells ℝ) (l : SwathsByCells ℝ) : ℝ :=
  l.foldl (fun init s => init + o.cellsSwaths c s) 0

end SGObjective

/-- `NSwath` (n_swath.cpp:11-13). -/
def nSwath : SGObjective := ⟨fun _ => 1, fun _ _ _ => 0⟩

/-- `NSwath::computeCost(Swaths)` overrides the sum with the size (n_swath.cpp:15-17). -/
noncomputable def nSwathSwaths (l : Swaths ℝ) : ℝ := (l.length : ℝ)

/-- `SwathLength` (swath_length.cpp:11-13). -/
noncomputable def swathLength : SGObjective := ⟨fun s => lineLength s.path, fun _ _ _ => 0⟩

/-! ## NSwathModified -/

/-- `(i - 1) % n` in 64-bit unsigned arithmetic (n_swath_modified.cpp:20). -/
def prevIndex (i n : Nat) : Nat := ((i + (2 ^ 64 - 1)) % 2 ^ 64) % n

/-- Point `i` of a ring (`getGeometry(i)`); all indices used below are in range. -/
noncomputable def ringPoint (ring : Ring ℝ) (i : Nat) : RPoint := ring.getD i Point.zero

/-- One term of the sum (n_swath_modified.cpp:21-22). -/
noncomputable def turnTerm (ang : ℝ) (p p1 : RPoint) : ℝ :=
  pdist p p1 * |Real.sin (ang - angleFromPoint (p.sub p1))|

/-- The inner loop of `NSwathModified::computeCost` (n_swath_modified.cpp:18-23), for one ring,
continuing the sum `acc`. -/
noncomputable def ringTurns (ang : ℝ) (acc : ℝ) (ring : Ring ℝ) : ℝ :=
  (List.range ring.length).foldl
    (fun t i => t + turnTerm ang (ringPoint ring i) (ringPoint ring (prevIndex i ring.length))) acc

/-- `NSwathModified::computeCost(ang, op_width, cell)` (n_swath_modified.cpp:11-26). -/
noncomputable def nSwathModified (ang w : ℝ) (cell : Cell ℝ) : ℝ :=
  if cell.flatten = [] ∨ w ≤ 0 then 0 else cell.foldl (ringTurns ang) 0 / (2 * w)

/-! ## Overlaps -/

section Overlaps
variable {A : Type}

/-- The loop over `j` of `Overlaps::computeCost` (overlaps.cpp:20-24) for the values
`j, j+1, …` with `n` rounds left; `inter a b` is the area of the intersection of two covered areas
(0 if they do not intersect).  Reading outside of `areas` would be undefined behaviour. -/
def overlapInner (inter : A → A → ℝ) (areas : List A) (i : Nat) : Nat → Nat → ℝ → Outcome ℝ
  | 0, _, acc => .ok acc
  | n + 1, j, acc =>
    match areas[i]?, areas[j]? with
    | some a, some b => overlapInner inter areas i n (j + 1) (acc + inter a b)
    | _, _ => .ub "areas read out of bounds"

/-- The loop over `i`, downwards from `i - 1` to 0 (overlaps.cpp:18-25); `covered k` is
`swaths[k].areaCovered(poly)`. -/
def overlapOuter (inter : A → A → ℝ) (covered : Nat → A) : Nat → List A → ℝ → Outcome ℝ
  | 0, _, acc => .ok acc
  | i + 1, areas, acc => do
    let areas' := areas ++ [covered i]
    let acc' ← overlapInner inter areas' i (areas'.length - (i + 1)) (i + 1) acc
    overlapOuter inter covered i areas' acc'

/-- `Overlaps::computeCost(Cells, Swaths)` (overlaps.cpp:15-27) for `n` swaths. -/
noncomputable def overlaps (inter : A → A → ℝ) (covered : Nat → A) (n : Nat) (polyArea : ℝ) :
    Outcome ℝ := do
  let s ← overlapOuter inter covered n [] 0
  return s / polyArea

end Overlaps

/-! ## Field coverage and headland area -/

/-- `FieldCoverage::computeCost` (field_coverage.cpp:16-26).  `coveredArea w lines` is the area of
the part of the field inside the lines buffered by `w`; `swaths[0]` of an empty collection is
undefined behaviour. -/
noncomputable def fieldCoverage (coveredArea : ℝ → List (List RPoint) → ℝ) (polyArea : ℝ)
    (l : Swaths ℝ) : Outcome ℝ :=
  match l with
  | [] => .ub "first element of an empty vector"
  | s :: _ => .ok (coveredArea (s.width / 2) (l.map Swath.path) / polyArea)

/-- `HGObjective::computeCost(total, rem)` (hg_objective.cpp:24-27), used by `RemArea`;
`diffArea` is the area of `total.difference(rem)`. -/
noncomputable def hgCost (diffArea totalArea : ℝ) : ℝ := 1 - diffArea / totalArea

end F2C.Obj

namespace F2C.HG

variable {R : Type}

/-- `ConstHL::generateHeadlands` (src/fields2cover/headland_generator/constant_headland.cpp:12-15);
`buffer` is `Cells::buffer` (Cells.cpp:242-244), computed by GEOS. -/
def generateHeadlands (buffer : R → ℝ → R) (field : R) (dist : ℝ) : R := buffer field (-dist)

/-- `ConstHL::generateHeadlandArea` (constant_headland.cpp:17-20). -/
def generateHeadlandArea (buffer : R → ℝ → R) (field : R) (w : ℝ) (n : Int) : R :=
  buffer field (-w * n)

/-- `hl.back().buffer(swath_width)` repeated `k` times (constant_headland.cpp:31-33), starting
from the last ring `r`: the rings added. -/
def growRings (buffer : R → ℝ → R) (w : ℝ) : Nat → R → List R
  | 0, _ => []
  | k + 1, r => buffer r w :: growRings buffer w k (buffer r w)

/-- `ConstHL::generateHeadlandSwaths` (constant_headland.cpp:22-36). -/
noncomputable def generateHeadlandSwaths (buffer : R → ℝ → R) (field : R) (w : ℝ) (n : Int)
    (out2in : Bool) : List R :=
  if out2in then
    (List.range n.toNat).map fun i : Nat => buffer field (-w * ((i : ℝ) + 1 / 2))
  else
    let first := buffer field (-w * ((n : ℝ) - 1 / 2))
    first :: growRings buffer w (n.toNat - 1) first

end F2C.HG
