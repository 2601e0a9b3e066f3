import Verif.Model.Border

/-!
# Cells made from the geometries of GDAL

Constructors of `Cell` and `Cells` from geometries, and the set operations that use them.
-/

namespace F2C

/-- The geometries of OGR that matter here; `other` stands for every other kind (curves, surfaces, ...). -/
inductive OgrGeom (K : Type) where
  | point (p : Point K)
  | line (l : List (Point K))
  | polygon (c : Cell K)
  | points (ps : List (Point K))
  | lines (ls : List (List (Point K)))
  | polygons (cs : Cells K)
  | collection (gs : List (OgrGeom K))
  | other

namespace OgrGeom

variable {K : Type}

/-- The polygon, if the geometry is one (`wkbFlatten(...) == wkbPolygon`, Cells.cpp:41-42). -/
def asPolygon : OgrGeom K → Option (Cell K)
  | .polygon c => some c
  | _ => none

/-- `Cells(const OGRGeometry*)` (src/fields2cover/types/Cells.cpp:19-50). -/
def toCells : OgrGeom K → Cells K
  | .polygon c => [c]
  | .polygons cs => cs
  | .collection gs => gs.filterMap asPolygon
  | _ => []

/-- `Cell(const OGRGeometry*)` (src/fields2cover/types/Cell.cpp:18-29). -/
def toCell : OgrGeom K → Outcome (Cell K)
  | .polygon c => .ok c
  | _ => .throw .invalidArgument

/-- `destroyResGeom<Cells>` (include/fields2cover/types/Geometry_impl.hpp:279-285) of the result of an operation of
GDAL, as in `Cells::intersection`, `difference`, `unionOp` and `unionCascaded` (Cells.cpp:148-178) and
`getCellsInside` (Cells.cpp:216-218).  GDAL returns a null pointer on failure. -/
def resCells : Option (OgrGeom K) → Outcome (Cells K)
  | none => .ub "null pointer"
  | some g => .ok g.toCells

/-- `destroyResGeom<Cell>` (Geometry_impl.hpp:279-285), as in `Cell::buffer` (Cell.cpp:99-105, 115-117),
`Cell::convexHull` (Cell.cpp:119-121) and `Cells::convexHull` (Cells.cpp:144-146). -/
def resCell : Option (OgrGeom K) → Outcome (Cell K)
  | none => .ub "null pointer"
  | some g => g.toCell

/-- `Cell::buffer(LinearRing, width)` (Cell.cpp:107-113): `grow` and `shrink` are the buffers of the ring taken
as a cell, `diff` the difference. -/
def ringBuffer (grow shrink : Option (OgrGeom K)) (diff : Cell K → Cell K → Option (OgrGeom K)) :
    Outcome (Cell K) := do
  let a ← resCell grow
  let b ← resCell shrink
  let d ← resCells (diff a b)
  return if d.all fun c => c.all List.isEmpty then [] else d.headD []

/-- What GDAL computes with GEOS; null pointers are failures. -/
structure Geos (K : Type) where
  inter : OgrGeom K → OgrGeom K → Option (OgrGeom K)
  diff : OgrGeom K → OgrGeom K → Option (OgrGeom K)
  union : OgrGeom K → OgrGeom K → Option (OgrGeom K)
  buffer : OgrGeom K → K → Option (OgrGeom K)

/-- `Cells::intersection(Cells)` (Cells.cpp:156-158). -/
def intersection (G : Geos K) (a b : Cells K) : Outcome (Cells K) := resCells (G.inter (.polygons a) (.polygons b))

/-- `Cells::intersection(Cell)` (Cells.cpp:152-154): the cell comes first. -/
def intersectionCell (G : Geos K) (a : Cells K) (c : Cell K) : Outcome (Cells K) :=
  resCells (G.inter (.polygon c) (.polygons a))

/-- `Cells::intersection(Cell, Cell)` (Cells.cpp:148-150). -/
def cellIntersection (G : Geos K) (a b : Cell K) : Outcome (Cells K) := resCells (G.inter (.polygon a) (.polygon b))

/-- `Cells::difference(Cells)` (Cells.cpp:160-162). -/
def difference (G : Geos K) (a b : Cells K) : Outcome (Cells K) := resCells (G.diff (.polygons a) (.polygons b))

/-- `Cells::difference(Cell)` (Cells.cpp:164-166). -/
def differenceCell (G : Geos K) (a : Cells K) (c : Cell K) : Outcome (Cells K) :=
  resCells (G.diff (.polygons a) (.polygon c))

/-- `Cells::unionOp(Cells)` (Cells.cpp:168-170). -/
def unionOp (G : Geos K) (a b : Cells K) : Outcome (Cells K) := resCells (G.union (.polygons a) (.polygons b))

/-- `Cells::unionOp(Cell)` (Cells.cpp:172-174). -/
def unionCell (G : Geos K) (a : Cells K) (c : Cell K) : Outcome (Cells K) :=
  resCells (G.union (.polygons a) (.polygon c))

/-- `Cells::getCellsInside` (Cells.cpp:216-218). -/
def cellsInside (G : Geos K) (a b : Cells K) : Outcome (Cells K) := intersection G a b

/-- `Swath::areaCovered()` (src/fields2cover/types/Swath.cpp:106-111) with `Cells::buffer(path, width)`
(include/fields2cover/types/Cells.h:98-104). -/
def swathArea [Field K] (G : Geos K) (path : List (Point K)) (width : K) : Outcome (Cells K) :=
  if path.isEmpty then .ok [] else resCells (G.buffer (.line path) (1 / 2 * width))

/-- `Swath::areaCovered(polys)` (Swath.cpp:113-115). -/
def swathAreaIn [Field K] (G : Geos K) (path : List (Point K)) (width : K) (polys : Cells K) : Outcome (Cells K) := do
  let a ← swathArea G path width
  cellsInside G polys a

end OgrGeom
end F2C
