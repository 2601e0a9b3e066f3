import Verif.Model.Geom

/-!
# Rings and cells

By-value model of `LinearRing`, `Cell` and `Cells` (`include/fields2cover/types/{LinearRing,Cell,
Cells}.h`): a ring is its list of points, a cell its list of rings (the first one is the outer
border), cells a list of cells.  Bounding boxes follow `Geometry_impl.hpp`.
-/

namespace F2C

/-- `LinearRing` (include/fields2cover/types/LinearRing.h): its points. -/
abbrev Ring (K : Type) := List (Point K)

/-- `Cell` (include/fields2cover/types/Cell.h): the rings of the polygon. -/
abbrev Cell (K : Type) := List (Ring K)

/-- `Cells` (include/fields2cover/types/Cells.h). -/
abbrev Cells (K : Type) := List (Cell K)

/-- The rings seen by iterating over a cell: none if the polygon is empty, i.e. if it has only
empty rings (Cell.cpp:89-91 `size`; `OGRCurveCollection::IsEmpty`). -/
def Cell.iter {K : Type} (c : Cell K) : List (Ring K) :=
  if c.all List.isEmpty then [] else c

/-- The cells seen by iterating over cells (Cells.cpp:135-137 `size`;
`OGRGeometryCollection::IsEmpty`). -/
def Cells.iter {K : Type} (cs : Cells K) : List (Cell K) :=
  if cs.all (fun c => c.all List.isEmpty) then [] else cs

/-- The smallest value of a list, 0 for the empty list (an empty `OGREnvelope` is all zero). -/
def listMin {K : Type} [Zero K] [Min K] : List K → K
  | [] => 0
  | a :: l => l.foldl min a

/-- The largest value of a list, 0 for the empty list. -/
def listMax {K : Type} [Zero K] [Max K] : List K → K
  | [] => 0
  | a :: l => l.foldl max a

/-- Position of the first smallest element: `std::min_element(begin, end) - begin`; `best` is the
smallest value so far, at position `bi`, and `i` the position of the head of the list. -/
def minElementFrom {K : Type} [LT K] [DecidableLT K] (best : K) (bi i : Nat) : List K → Nat
  | [] => bi
  | c :: cs => if c < best then minElementFrom c i (i + 1) cs else minElementFrom best bi (i + 1) cs

/-- `std::min_element(begin, end) - begin`; 0 (= `end - begin`) for an empty range. -/
def minElement {K : Type} [LT K] [DecidableLT K] : List K → Nat
  | [] => 0
  | c :: cs => minElementFrom c 0 1 cs

namespace Cell

variable {K : Type} [Field K] [LinearOrder K]

/-- All border points of a cell. -/
def points (c : Cell K) : List (Point K) := c.flatten

/-- `Geometry::getDimMinX` (include/fields2cover/types/Geometry_impl.hpp:88-92). -/
def minX (c : Cell K) : K := listMin (c.points.map (·.x))

/-- `Geometry::getDimMaxX` (Geometry_impl.hpp:95-99). -/
def maxX (c : Cell K) : K := listMax (c.points.map (·.x))

/-- `Geometry::getDimMinY` (Geometry_impl.hpp:102-106). -/
def minY (c : Cell K) : K := listMin (c.points.map (·.y))

/-- `Geometry::getDimMaxY` (Geometry_impl.hpp:109-113). -/
def maxY (c : Cell K) : K := listMax (c.points.map (·.y))

/-- `Geometry::getHeight` (Geometry_impl.hpp:116-120). -/
def height (c : Cell K) : K := c.maxY - c.minY

/-- `Geometry::getMinSafeLength` (Geometry_impl.hpp:130-135). -/
def minSafeLength (c : Cell K) : K := (c.maxX - c.minX) + (c.maxY - c.minY)

end Cell

/-- `Point::rotateFromPoint(angle, Cell)` (include/fields2cover/types/Point.h:105-112): every
point of every ring is rotated; the new cell is built with `Cell::addGeometry`, which closes rings
that are not closed (the rings of a cell always are, Cell.cpp:123-126). -/
noncomputable def Cell.rotate (c : RPoint) (angle : ℝ) (cell : Cell ℝ) : Cell ℝ :=
  cell.map fun ring => ring.map (rotateFrom c angle)

/-- `Cell::createStraightLongLine` (src/fields2cover/types/Cell.cpp:169-174). -/
noncomputable def Cell.createStraightLongLine (c : Cell ℝ) (p : RPoint) (angle : ℝ) :
    List RPoint :=
  [pointFromAngle p (Real.pi + angle) c.minSafeLength, pointFromAngle p angle c.minSafeLength]

end F2C
