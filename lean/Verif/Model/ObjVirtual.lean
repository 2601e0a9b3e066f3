import Verif.Model.Objectives
import Verif.Model.TopLevel
import Verif.Model.TurnCost

/-!
# All overloads of the objectives

The classes of `src/fields2cover/objectives` with the functions they override: which overload of `computeCost` is
called depends on the class of the object, as all of them are virtual
(include/fields2cover/objectives/sg_obj/sg_objective.h:25-51).  Areas are computed by GEOS and are parameters.
-/

namespace F2C.Obj

/-- An object of a class derived from `SGObjective`: the functions that some class overrides
(field_coverage.h:19-24, overlaps.h:19-22, n_swath.h:17-19, n_swath_modified.h:20-22, swath_length.h). -/
structure VObj where
  isMinimizing : Bool
  isFast : Bool
  swath : Swath ℝ → ℝ
  swaths : Swaths ℝ → ℝ
  angle : ℝ → ℝ → Cell ℝ → ℝ
  cellSwaths : Cell ℝ → Swaths ℝ → Outcome ℝ
  cellsSwaths : Cells ℝ → Swaths ℝ → Outcome ℝ

namespace VObj

/-- `BaseObjective::isMaximizing` (include/fields2cover/objectives/base_objective.h:58). -/
def isMaximizing (o : VObj) : Bool := !o.isMinimizing

/-- The functions of `SGObjective` itself for given costs of a swath and of an angle (sg_objective.cpp:11-75,
sg_objective.h:23, base_objective.h:56): by default both are 0 (sg_objective.cpp:11-13, 37-40). -/
def base (o : SGObjective) : VObj where
  isMinimizing := true
  isFast := false
  swath := o.swath
  swaths := o.swaths
  angle := o.angle
  cellSwaths c l := .ok (o.cellSwaths c l)
  cellsSwaths c l := .ok (o.cellsSwaths c l)

/-- `SGObjective::computeCost(SwathsByCells)` (sg_objective.cpp:21-25): the call for a collection is virtual. -/
def swathsByCells (o : VObj) (g : SwathsByCells ℝ) : ℝ := g.foldl (fun init s => init + o.swaths s) 0

/-- `SGObjective::computeCost(Cell, SwathsByCells)` (sg_objective.cpp:58-62). -/
def cellSwathsByCells (o : VObj) (c : Cell ℝ) (g : SwathsByCells ℝ) : Outcome ℝ :=
  foldOutcome (fun init s => do
    let a ← o.cellSwaths c s
    return init + a) 0 g

/-- `SGObjective::computeCost(Cells, SwathsByCells)` (sg_objective.cpp:71-75). -/
def cellsSwathsByCells (o : VObj) (c : Cells ℝ) (g : SwathsByCells ℝ) : Outcome ℝ :=
  foldOutcome (fun init s => do
    let a ← o.cellsSwaths c s
    return init + a) 0 g

/-- The object as the generator of swaths sees it (swath_generator_base.cpp:65-72): with a fast objective it calls
`computeCost(ang, op_width, cell)`, otherwise `computeCost(Cell, Swaths)`. -/
def forGenerator (o : VObj) : SG.Objective := ⟨o.isMinimizing, o.isFast, fun a w c => .ok (o.angle a w c), o.cellSwaths⟩

end VObj

/-- `NSwath` (n_swath.cpp:11-17). -/
noncomputable def vNSwath : VObj := { VObj.base nSwath with swaths := nSwathSwaths }

/-- `NSwathModified`, derived from `NSwath` (n_swath_modified.h:18-23, n_swath_modified.cpp:11-26). -/
noncomputable def vNSwathModified : VObj :=
  { VObj.base ⟨nSwath.swath, nSwathModified⟩ with isFast := true, swaths := nSwathSwaths }

/-- `SwathLength` (swath_length.cpp:11-13). -/
noncomputable def vSwathLength : VObj := VObj.base swathLength

/-- `FieldCoverage` (field_coverage.cpp:11-30): `covered cells w lines` is the area of the part of the cells inside
of the lines buffered by `w`. -/
noncomputable def vFieldCoverage (area : Cells ℝ → ℝ) (covered : Cells ℝ → ℝ → List (List RPoint) → ℝ) : VObj :=
  { VObj.base ⟨fun _ => 0, fun _ _ _ => 0⟩ with
    isMinimizing := false
    cellSwaths := fun c l => fieldCoverage (covered [c]) (area [c]) l
    cellsSwaths := fun c l => fieldCoverage (covered c) (area c) l }

/-- `Overlaps` (overlaps.cpp:11-27): `around cells s` is `s.areaCovered(cells)`, `inter` the area of an
intersection. -/
noncomputable def vOverlaps {A : Type} (area : Cells ℝ → ℝ) (inter : A → A → ℝ) (around : Cells ℝ → Swath ℝ → A) :
    VObj :=
  { VObj.base ⟨fun _ => 0, fun _ _ _ => 0⟩ with
    cellSwaths := fun c l => overlaps inter (fun i => around [c] (l.getD i Swath.default)) l.length (area [c])
    cellsSwaths := fun c l => overlaps inter (fun i => around c (l.getD i Swath.default)) l.length (area c) }

/-- The objects that `getSGObjPtr` creates (fields2cover.cpp:36-56). -/
noncomputable def vOf {A : Type} (area : Cells ℝ → ℝ) (covered : Cells ℝ → ℝ → List (List RPoint) → ℝ)
    (inter : A → A → ℝ) (around : Cells ℝ → Swath ℝ → A) : Top.ObjKind → VObj
  | .nSwathModified => vNSwathModified
  | .nSwath => vNSwath
  | .swathLength => vSwathLength
  | .fieldCoverage => vFieldCoverage area covered
  | .overlaps => vOverlaps area inter around

/-- `HGObjective::computeCost(Cells, Cells)` (hg_objective.cpp:24-27); `diffArea t r` is the area of
`t.difference(r)`. -/
noncomputable def hgCells (area : Cells ℝ → ℝ) (diffArea : Cells ℝ → Cells ℝ → ℝ) (t r : Cells ℝ) : ℝ :=
  hgCost (diffArea t r) (area t)

/-- `HGObjective::computeCost(Cell, Cell)` (hg_objective.cpp:11-15). -/
noncomputable def hgCellCell (area : Cells ℝ → ℝ) (diffArea : Cells ℝ → Cells ℝ → ℝ) (t r : Cell ℝ) : ℝ :=
  hgCells area diffArea [t] [r]

/-- `HGObjective::computeCost(Cell, Cells)` (hg_objective.cpp:16-19). -/
noncomputable def hgCellCells (area : Cells ℝ → ℝ) (diffArea : Cells ℝ → Cells ℝ → ℝ) (t : Cell ℝ) (r : Cells ℝ) : ℝ :=
  hgCells area diffArea [t] r

/-- `HGObjective::computeCost(Cells, Cell)` (hg_objective.cpp:20-23). -/
noncomputable def hgCellsCell (area : Cells ℝ → ℝ) (diffArea : Cells ℝ → Cells ℝ → ℝ) (t : Cells ℝ) (r : Cell ℝ) : ℝ :=
  hgCells area diffArea t [r]

/-- `RemArea::isMinimizing` (rem_area.cpp:11-13). -/
def remAreaIsMinimizing : Bool := false

/-- `DecompObjective::computeCost` (decomp_objective.cpp:11-13). -/
def decompCost (_ : Cells ℝ) : ℝ := 0

end F2C.Obj

namespace F2C.RPCost

/-- `RPObjective::computeCost(s, p)` (rp_objective.cpp:32-34). -/
noncomputable def swathPoint (s : Swath ℝ) (p : RPoint) : Outcome ℝ := do
  let _ ← s.outAngle
  return points s.endPoint p

/-- `RPObjective::computeCost(p, s)` (rp_objective.cpp:46-48). -/
noncomputable def pointSwath (p : RPoint) (s : Swath ℝ) : Outcome ℝ := do
  let _ ← s.inAngle
  return points p s.startPoint

end F2C.RPCost

namespace F2C.TurnCost

open Turning

/-- `RPObjective::computeCost(s, p, ang)` (rp_objective.cpp:41-44) with the overload for two points with angles
of `CompleteTurnPathObj` (complete_turn_path_obj.h:78-84). -/
noncomputable def swathPose (solve : Solver) (r : Robot) (t : Planner) (s : Swath ℝ) (p : RPoint) (ang : ℝ) :
    Outcome (ℝ × Planner) := do
  let a ← s.outAngle
  turn solve r t s.endPoint a p ang

/-- `RPObjective::computeCost(p, ang, s)` (rp_objective.cpp:50-53) with the same overload. -/
noncomputable def poseSwath (solve : Solver) (r : Robot) (t : Planner) (p : RPoint) (ang : ℝ) (s : Swath ℝ) :
    Outcome (ℝ × Planner) := do
  let a ← s.inAngle
  turn solve r t p ang s.startPoint a

end F2C.TurnCost
