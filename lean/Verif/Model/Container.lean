import Verif.Model.Border

/-!
# Containers of geometries

`setGeometry`, `getGeometry` and `size` of `Cells`, `Cell` and `MultiLineString`, and the iterators
of `Geometries` that write changed points back.
-/

namespace F2C

/-- What distinguishes the three containers: the children that count as empty, the geometry used
for padding, and what `addGeometry` does to a child before adding it. -/
structure ContainerOps (α : Type) where
  empty : α → Bool
  pad : α
  norm : α → α

namespace ContainerOps

variable {α : Type} (o : ContainerOps α)

/-- `size()` (src/fields2cover/types/Cells.cpp:135-137, Cell.cpp:89-91, MultiLineString.cpp
`size`): 0 if the geometry is empty, that is if all children are empty. -/
def size (m : List α) : Nat := if m.all o.empty then 0 else m.length

/-- `getGeometry(i)` (Cells.cpp:79-93, Cell.cpp:56-70, MultiLineString.cpp:87-101). -/
def get (m : List α) (i : Nat) : Outcome α :=
  if i ≥ o.size m then .throw .outOfRange
  else match m[i]? with
    | some a => .ok a
    | none => .ub "getGeometryRef out of range"

/-- `addGeometry` (Cells.cpp:126-128, Cell.cpp:123-130, MultiLineString.cpp:120-122). -/
def add (m : List α) (a : α) : List α := m ++ [o.norm a]

/-- The padding loop `for (j = n; j < i; ++j)` (Cells.cpp:105-107, Cell.cpp:82-84,
MultiLineString.cpp:113-115). -/
def padTimes (m : List α) : Nat → List α
  | 0 => m
  | k + 1 => padTimes (o.add m o.pad) k

/-- The rebuilding loop `for (j = 0; j < n; ++j)` (Cells.cpp:98-101, Cell.cpp:75-78,
MultiLineString.cpp:106-109), `k` children being left and `j` the next one. -/
def rebuild (m : List α) (i : Nat) (a : α) : Nat → Nat → List α → Outcome (List α)
  | 0, _, acc => .ok acc
  | k + 1, j, acc =>
    if i = j then rebuild m i a k (j + 1) (o.add acc a)
    else do
      let b ← o.get m j
      rebuild m i a k (j + 1) (o.add acc b)

/-- `setGeometry(i, a)` (Cells.cpp:95-110, Cell.cpp:72-87, MultiLineString.cpp:103-118); the
result is the container afterwards. -/
def set (m : List α) (i : Nat) (a : α) : Outcome (List α) :=
  let n := o.size m
  if i < n then o.rebuild m i a n 0 []
  else if i ≠ n then .ok (o.add (o.padTimes m (i - n)) a)
  else .ok (o.add m a)

end ContainerOps

variable {K : Type} [Field K] [LinearOrder K]

/-- `LinearRing::closeRing` (src/fields2cover/types/LinearRing.cpp:125-134): the first point is
repeated at the end unless the ring is empty or closed. -/
def closeRing (r : Ring K) : Ring K :=
  if r.head? = r.getLast? then r else r ++ r.take 1

/-- `Cells` as a container of cells (Cells.cpp:95-137). -/
def cellsOps : ContainerOps (Cell K) where
  empty := fun c => c.all List.isEmpty
  pad := []
  norm := id

/-- `Cell` as a container of rings (Cell.cpp:72-130): rings are closed when they are added. -/
def cellOps : ContainerOps (Ring K) where
  empty := List.isEmpty
  pad := []
  norm := closeRing

/-- `MultiLineString` as a container of lines (MultiLineString.cpp:71-122). -/
def linesOps : ContainerOps (List (Point K)) where
  empty := List.isEmpty
  pad := []
  norm := id

/-- Loop `for (auto&& p : line) p = f(p)` over the points of a line string, ring or multi point:
`Iterator::update` (include/fields2cover/types/Geometries_impl.hpp:43-58) writes the point back
only if it is `!=` the old one, i.e. differs by 1e-7 or more in a coordinate (Point.cpp:42-50). -/
def forEachPoint (f : Point K → Point K) (line : List (Point K)) : List (Point K) :=
  line.map fun p => if Point.eqv p (f p) then p else f p

/-- `Swath::moveTo` (src/fields2cover/types/Swath.cpp:194-198). -/
def Swath.moveTo (s : Swath K) (v : Point K) : Swath K :=
  { s with path := forEachPoint (fun p => p.add v) s.path }

/-- `operator*=` of line strings, rings and multi points (LineString.cpp:101-105,
LinearRing.cpp:31-35, MultiPoint.cpp:103-107). -/
def scaleLine (line : List (Point K)) (b : K) : List (Point K) :=
  forEachPoint (fun p => p.smul b) line

/-- `Cell::operator*=` and `MultiLineString::operator*=` (Cell.cpp:93-97,
MultiLineString.cpp:39-43); the iterator refers to the children themselves. -/
def scaleLines (ls : List (List (Point K))) (b : K) : List (List (Point K)) :=
  ls.map fun l => scaleLine l b

/-- `Cells::operator*=` (Cells.cpp:57-61). -/
def scaleCells (cs : Cells K) (b : K) : Cells K := cs.map fun c => scaleLines c b

end F2C
