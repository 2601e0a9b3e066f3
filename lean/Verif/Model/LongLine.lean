import Verif.Model.Cell
import Verif.Model.Border

/-!
# Long lines

Lines that are meant to leave a cell or a collection of cells (`src/fields2cover/types/Cell.cpp:164-174`,
`Cells.cpp:139-142, 196-206`).
-/

namespace F2C

/-- `Cell::createSemiLongLine` (Cell.cpp:164-167). -/
noncomputable def Cell.createSemiLongLine (c : Cell ℝ) (p : RPoint) (angle : ℝ) : List RPoint :=
  [p, pointFromAngle p angle c.minSafeLength]

/-- `Geometry::getMinSafeLength` (include/fields2cover/types/Geometry_impl.hpp:130-135) of cells: the envelope is that of
all rings together. -/
noncomputable def Cells.minSafeLength (cs : Cells ℝ) : ℝ := Cell.minSafeLength cs.flatten

/-- `Cells::createSemiLongLine` (Cells.cpp:196-199). -/
noncomputable def Cells.createSemiLongLine (cs : Cells ℝ) (p : RPoint) (angle : ℝ) : List RPoint :=
  [p, pointFromAngle p angle (Cells.minSafeLength cs)]

/-- `Cells::createStraightLongLine` (Cells.cpp:201-206). -/
noncomputable def Cells.createStraightLongLine (cs : Cells ℝ) (p : RPoint) (angle : ℝ) : List RPoint :=
  [pointFromAngle p (Real.pi + angle) (Cells.minSafeLength cs), pointFromAngle p angle (Cells.minSafeLength cs)]

/-- `Cells::isConvex` (Cells.cpp:139-142); `size` is 0 if all cells are empty (Cells.cpp:135-137). -/
noncomputable def Cells.isConvex (cs : Cells ℝ) : Outcome Bool :=
  match Cells.iter cs with
  | [c] => Cell.isConvex c
  | _ => .ok false

end F2C
