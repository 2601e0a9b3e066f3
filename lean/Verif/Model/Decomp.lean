import Verif.Model.Border

/-!
# Decomposition of fields

`src/fields2cover/decomposition`, `Cell::createLineUntilBorder` and `Cells::splitByLine`.  Intersections,
differences and buffers come from GEOS and are parameters.
-/

namespace F2C.Decomp

/-- What `OGRGeometry::Intersection` may return for a line and a cell. -/
inductive Inter where
  | line (l : List RPoint)
  | lines (ls : List (List RPoint))
  | points (ps : List RPoint)
  | collection (ps : List RPoint) (ls : List (List RPoint))

/-- `MultiLineString::append` (src/fields2cover/types/MultiLineString.cpp:45-69), called by
`MultiLineString::intersection` (include/fields2cover/types/MultiLineString.h:62-68).  Points and geometry
collections have no case: nothing is added.  The cases for polygons cannot arise from a line. -/
def Inter.append : Inter → List (List RPoint)
  | .line l => if l.isEmpty then [] else [l]
  | .lines ls => ls
  | .points _ => []
  | .collection _ _ => []

/-- One step of the search in `Cell::createLineUntilBorder` (src/fields2cover/types/Cell.cpp:199-205):
`best` is the nearest point so far; `none` stands for `min_dist` being the largest `double`. -/
noncomputable def nearer (p : RPoint) (best : Option RPoint) (q : RPoint) : Option RPoint :=
  open Classical in
  if 1 / 100000 < pdist q p ∧ ∀ b, best = some b → pdist q p < pdist b p then some q else best

/-- `Cell::createLineUntilBorder` (Cell.cpp:192-208); `i` is the intersection of the cell with the ray
`createSemiLongLine` (Cell.cpp:164-167).  If no point was found, `best_point` is still `p`. -/
noncomputable def lineUntilBorder (p : RPoint) (i : Inter) : List RPoint :=
  match i.append.flatten.foldl (nearer p) none with
  | none => []
  | some q => if Point.eqv q p then [] else [p, q]

/-- The edges of a ring as pairs of points (boustrophedon_decomp.cpp:18-20). -/
def edges : List RPoint → List (RPoint × RPoint)
  | a :: b :: l => (a, b) :: edges (b :: l)
  | _ => []

/-- `isLinePartOfLinearRing` (src/fields2cover/decomposition/boustrophedon_decomp.cpp:12-34). -/
noncomputable def isEdge (ring line : List RPoint) : Bool :=
  match line.head?, line.getLast? with
  | some a, some b => (edges ring).any fun e =>
      (Point.eqv a e.1 && Point.eqv b e.2) || (Point.eqv a e.2 && Point.eqv b e.1)
  | _, _ => false

/-- The loop `while (isLinePartOfLinearRing(ring, line))` (boustrophedon_decomp.cpp:44-46, 48-50): `ray q` is
`createLineUntilBorder` from `q` in the direction of the loop. -/
noncomputable def follow (ray : RPoint → List RPoint) (ring : List RPoint) :
    Nat → List RPoint → Outcome (List RPoint)
  | 0, _ => .ub "endless loop"
  | k + 1, line =>
    if isEdge ring line then
      match line.getLast? with
      | some q => follow ray ring k (ray q)
      | none => .throw .outOfRange
    else .ok line

/-- The two lines at one corner in `BoustrophedonDecomp::genSplitLines` (boustrophedon_decomp.cpp:43-55). -/
noncomputable def cornerLines (fuel : Nat) (fwd bwd : RPoint → List RPoint) (ring : List RPoint)
    (p : RPoint) : Outcome (List (List RPoint)) := do
  let l1 ← follow fwd ring fuel (fwd p)
  let l2 ← follow bwd ring fuel (bwd p)
  .ok (open Classical in
    if 1 / 100000 < lineLength l1 ∧ 1 / 100000 < lineLength l2 then [l1, l2] else [])

/-- `TrapezoidalDecomp::genSplitLines` (trapezoidal_decomp.cpp:19-33): two lines per corner of every ring;
`ray p back` is `Cells::createLineUntilBorder` (Cells.cpp:237-240) in the split direction or against it. -/
def trapezoidalLines (ray : RPoint → Bool → List RPoint) (cells : Cells ℝ) : List (List RPoint) :=
  (cells.flatten.flatten).flatMap fun p => [ray p false, ray p true]

/-- `Cells::splitByLine(line)` (Cells.cpp:180-186), regions as sets of points; `diff` is
`OGRGeometry::Difference` and `around` the buffer of 1e-8 around a line.  The loop that assigns buffered cells
(Cells.cpp:182-184) has no effect: `getGeometry` hands out an alias (Cells.cpp:63-69), `operator=` rebinds
its pointer (include/fields2cover/types/Geometry_impl.hpp:56-62), and `Iterator::update`
(include/fields2cover/types/Geometries_impl.hpp:42-58) writes back to containers of points only. -/
def splitByLine (diff : Set RPoint → Set RPoint → Set RPoint) (around : List RPoint → Set RPoint)
    (cells : Set RPoint) (line : List RPoint) : Set RPoint := diff cells (around line)

/-- `Cells::splitByLine(lines)` (Cells.cpp:188-194); the loop runs up to `size()`, which is 0 if all lines are empty
(MultiLineString.cpp:31-33). -/
def splitByLines (diff : Set RPoint → Set RPoint → Set RPoint) (around : List RPoint → Set RPoint)
    (cells : Set RPoint) (lines : List (List RPoint)) : Set RPoint :=
  (if lines.all List.isEmpty then [] else lines).foldl (splitByLine diff around) cells

/-- `DecompositionBase::decompose` (src/fields2cover/decomposition/decomposition_base.cpp:12-25): `split` by
the lines of `genSplitLines`, then `merge`, which returns its argument. -/
def decompose (diff : Set RPoint → Set RPoint → Set RPoint) (around : List RPoint → Set RPoint)
    (region : Set RPoint) (splitLines : List (List RPoint)) : Set RPoint :=
  splitByLines diff around region splitLines

end F2C.Decomp
