import Verif.Model.Double
import Verif.Model.FieldObj

/-!
# Fields and their reference points in double precision

`src/fields2cover/types/Field.cpp:13-18,76-80,160-162` with every operation rounded; compare `Model/FieldObj.lean`.
-/

namespace F2C.Dbl

/-- `Point::operator+` (Point.cpp:56-58), as used by `cells + point` (include/fields2cover/types/Point.h:153-160). -/
noncomputable def addPoint (fl : ℝ → ℝ) (a b : Point ℝ) : Point ℝ := ⟨fl (a.x + b.x), fl (a.y + b.y), fl (a.z + b.z)⟩

/-- `Point::operator-` (Point.cpp:60-62), as used by `cells - point` (Point.h:171-178). -/
noncomputable def subPoint (fl : ℝ → ℝ) (a b : Point ℝ) : Point ℝ := ⟨fl (a.x - b.x), fl (a.y - b.y), fl (a.z - b.z)⟩

/-- `Field(cells, id)` (Field.cpp:13-18). -/
noncomputable def makeField (fl : ℝ → ℝ) (cells : Cells ℝ) (id : Text.Str) : Outcome (FieldObj ℝ) :=
  if Cells.isEmpty cells then
    .ok ⟨id, [], [], Point.zero, mapCells (fun p => subPoint fl p Point.zero) cells⟩
  else do
    let r ← cells.firstPoint
    return ⟨id, [], [], r, mapCells (fun p => subPoint fl p r) cells⟩

/-- `Field::getCellsAbsPosition` (Field.cpp:160-162). -/
noncomputable def absCells (fl : ℝ → ℝ) (f : FieldObj ℝ) : Cells ℝ := mapCells (fun p => addPoint fl p f.ref) f.cells

/-- `Field::clone` (Field.cpp:76-80). -/
noncomputable def cloneField (fl : ℝ → ℝ) (f : FieldObj ℝ) : Outcome (FieldObj ℝ) := do
  let n ← makeField fl (absCells fl f) f.id
  return { n with crs := f.crs }

end F2C.Dbl
