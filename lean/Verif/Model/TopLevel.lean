import Verif.Model.FieldObj
import Verif.Model.Objectives
import Verif.Model.PathPlanning
import Verif.Model.RoutePlanner
import Verif.Model.SwathGenerator

/-!
# The complete planner

`src/fields2cover.cpp`.  What is computed outside of the library or modelled elsewhere with parameters
(GEOS, the routing solver, the curves) is collected in `Env`.
-/

namespace F2C.Top

/-- The objectives `getSGObjPtr` can create (fields2cover.cpp:36-56). -/
inductive ObjKind
  | nSwathModified
  | nSwath
  | swathLength
  | fieldCoverage
  | overlaps
  deriving DecidableEq, Repr

/-- The turn planners `getPPTurningBasePtr` can create (fields2cover.cpp:58-75). -/
inductive TurnKind
  | dubins
  | dubinsCC
  | reedsShepp
  | reedsSheppHC
  deriving DecidableEq, Repr

/-- `Options` (include/fields2cover.h:136-150).  Enumerators are kept as their numbers
(fields2cover.h:80-134), because a variable of an enumeration type can hold others; the members that
nothing reads (decomposition, route planning) are left out. -/
structure Options where
  hgAlg : Int
  hgSwaths : Int
  sgAlg : Int
  sgObj : Int
  sgAngle : ℝ
  ppAlg : Int

/-- Default values (fields2cover.h:136-150). -/
noncomputable def Options.default : Options := ⟨1, 3, 0, 0, 0, 0⟩

/-- `getSGObjPtr` (fields2cover.cpp:36-56); `none` is the null pointer. -/
def getSGObj (code : Int) : Option ObjKind :=
  if code = 0 then some .nSwathModified
  else if code = 1 then some .nSwath
  else if code = 2 then some .swathLength
  else if code = 3 then some .fieldCoverage
  else if code = 4 then some .overlaps
  else none

/-- `getPPTurningBasePtr` (fields2cover.cpp:58-75); `none` is the null pointer. -/
def getTurning (code : Int) : Option TurnKind :=
  if code = 0 then some .dubins
  else if code = 1 then some .dubinsCC
  else if code = 2 then some .reedsShepp
  else if code = 3 then some .reedsSheppHC
  else none

/-- What the planner calls: `Cells::buffer` and `Cell::getLinesInside` (GEOS), the objectives, the table
of points of the graphs, `createShortestGraph` (route_planner_base.cpp:40-88), the routing solver, the curves
and `PathPlanning`'s safe distance. -/
structure Env where
  buffer : Cells ℝ → ℝ → Cells ℝ
  clip : Cell ℝ → List (List RPoint) → List (List RPoint)
  objective : ObjKind → SG.Objective
  table : PointTable ℝ
  shortest : Cells ℝ → SwathsByCells ℝ → Outcome (Graph2D ℝ)
  solve : Graph2D ℝ → Option (List Nat)
  curves : TurnKind → Turning.Solver
  safe : Robot → ℝ

variable (env : Env)

/-- Mainland and headland ring (fields2cover.cpp:88-104).  `floor(0.5*hg_swaths)` is converted to
`size_t`, which is undefined for negative numbers, and used as index without a check.  For a number that is
not an enumerator nothing is assigned. -/
noncomputable def headland (robot : Robot) (cells : Cells ℝ) (opt : Options) :
    Outcome (Cells ℝ × Cells ℝ) :=
  if opt.hgAlg = 0 then .ok (cells, cells)
  else if opt.hgAlg = 1 then
    let mainland := HG.generateHeadlandArea env.buffer cells robot.width opt.hgSwaths
    let rings := HG.generateHeadlandSwaths env.buffer cells robot.width opt.hgSwaths true
    let i : Int := ⌊(1 / 2 : ℝ) * opt.hgSwaths⌋
    if i < 0 then .ub "negative number to size_t"
    else match rings[i.toNat]? with
      | some r => .ok (mainland, r)
      | none => .ub "hl_swaths out of bounds"
  else .ok ([], [])

/-- The swaths (fields2cover.cpp:106-116): step of one degree (brute_force.h:29), no overlap
(swath_generator_base.h:43).  A null objective is dereferenced.  For a number that is not an enumerator
there are no swaths. -/
noncomputable def swaths (robot : Robot) (mainland : Cells ℝ) (opt : Options) :
    Outcome (SwathsByCells ℝ) :=
  if opt.sgAlg = 0 then
    match getSGObj opt.sgObj with
    | some k => SG.perCell (SG.generateBestSwaths (env.objective k) env.clip false (Real.pi / 180)
        robot.covWidth) mainland
    | none => .ub "null pointer"
  else if opt.sgAlg = 1 then
    SG.perCell (SG.generateSwaths env.clip false opt.sgAngle robot.covWidth) mainland
  else .ok []

/-- `planCovRoute(robot, cells, opt)` (fields2cover.cpp:86-119); swaths may be redirected and there is no
start point (route_planner_base.h:39-42). -/
noncomputable def planCovRoute (robot : Robot) (cells : Cells ℝ) (opt : Options) : Outcome (Route ℝ) := do
  let (mainland, ring) ← headland env robot cells opt
  let s ← swaths env robot mainland opt
  let g ← env.shortest ring s
  Planner.genRoute env.table env.solve g true none s

/-- `planCovPath(robot, cells, opt)` (fields2cover.cpp:142-146). -/
noncomputable def planCovPath (robot : Robot) (cells : Cells ℝ) (opt : Options) : Outcome Path := do
  let route ← planCovRoute env robot cells opt
  match getTurning opt.ppAlg with
  | none => .ub "null pointer"
  | some k => do
    let (p, _) ← PP.planRoute (env.curves k) env.safe robot Turning.Planner.default route
    return p

/-- `planCovRoute(robot, field, opt, local_crs)` (fields2cover.cpp:126-134). -/
noncomputable def planFieldRoute (proj : Proj ℝ) (robot : Robot) (field : FieldObj ℝ) (opt : Options)
    (localCrs : Bool) : Outcome (Route ℝ) := do
  let f ← field.clone
  if localCrs then planCovRoute env robot f.cells opt
  else do
    let f ← Transform.toUTM proj f true
    let route ← planCovRoute env robot f.cells opt
    Transform.route proj route f f.prevCrs

/-- `planCovPath(robot, field, opt, local_crs)` (fields2cover.cpp:154-164). -/
noncomputable def planFieldPath (proj : Proj ℝ) (robot : Robot) (field : FieldObj ℝ) (opt : Options)
    (localCrs : Bool) : Outcome Path := do
  let f ← field.clone
  if localCrs then planCovPath env robot f.cells opt
  else do
    let f ← Transform.toUTM proj f true
    let path ← planCovPath env robot f.cells opt
    Transform.path proj path f f.prevCrs

/-- `planCovRoute(robot, cell, opt)` (fields2cover.cpp:81-84); `F2CCells(cell)` holds a copy of the cell
(Cells.cpp:53-55). -/
noncomputable def planCellRoute (robot : Robot) (cell : Cell ℝ) (opt : Options) : Outcome (Route ℝ) :=
  planCovRoute env robot [cell] opt

/-- `planCovPath(robot, cell, opt)` (fields2cover.cpp:136-140). -/
noncomputable def planCellPath (robot : Robot) (cell : Cell ℝ) (opt : Options) : Outcome Path := do
  let route ← planCellRoute env robot cell opt
  match getTurning opt.ppAlg with
  | none => .ub "null pointer"
  | some k => do
    let (p, _) ← PP.planRoute (env.curves k) env.safe robot Turning.Planner.default route
    return p

/-- `planCovRoute(robot, field, local_crs)` (fields2cover.cpp:121-124). -/
noncomputable def planFieldRouteDefault (proj : Proj ℝ) (robot : Robot) (field : FieldObj ℝ) (localCrs : Bool) :
    Outcome (Route ℝ) := planFieldRoute env proj robot field Options.default localCrs

/-- `planCovPath(robot, field, local_crs)` (fields2cover.cpp:148-151). -/
noncomputable def planFieldPathDefault (proj : Proj ℝ) (robot : Robot) (field : FieldObj ℝ) (localCrs : Bool) :
    Outcome Path := planFieldPath env proj robot field Options.default localCrs

end F2C.Top
