import Verif.Model.Cell

/-!
# Borders: closest points and convexity

`LineString::closestPointTo`, `LinearRing::closestPointTo`, `Cell(s)::closestPointOnBorderTo` and
`Cell::isConvex`.
-/

namespace F2C

/-- Run `f` on every element, in order. -/
def mapOutcome {α β : Type} (f : α → Outcome β) : List α → Outcome (List β)
  | [] => .ok []
  | a :: l => do
    let b ← f a
    let bs ← mapOutcome f l
    return b :: bs

/-- Candidates of `closestPointTo`: the closest point of every segment
(src/fields2cover/types/LineString.cpp:133-136, LinearRing.cpp:139-142). -/
noncomputable def segmentClosest (p : RPoint) : List RPoint → List RPoint
  | a :: b :: l => closestInSegment p a b :: segmentClosest p (b :: l)
  | _ => []

/-- `ps[std::min_element(dist.begin(), dist.end()) - dist.begin()]` (LineString.cpp:137,
LinearRing.cpp:143, Cell.cpp:217, Cells.cpp:253); reading an empty vector is undefined
behaviour. -/
noncomputable def pickClosest (p : RPoint) (ps : List RPoint) : Outcome RPoint :=
  match ps[minElement (ps.map fun q => pdist q p)]? with
  | some q => .ok q
  | none => .ub "ps[0] of an empty vector"

/-- `LineString::closestPointTo` (LineString.cpp:130-138) and `LinearRing::closestPointTo`
(LinearRing.cpp:136-144).  `size() - 1` wraps around for an empty line, whose first point is then
read with `at`, which throws (LineString.cpp:83-88). -/
noncomputable def closestPointTo (p : RPoint) (line : List RPoint) : Outcome RPoint :=
  match line with
  | [] => .throw .outOfRange
  | line => pickClosest p (segmentClosest p line)

/-- `Cell::closestPointOnBorderTo` (Cell.cpp:210-218). -/
noncomputable def Cell.closestOnBorder (p : RPoint) (c : Cell ℝ) : Outcome RPoint := do
  let ps ← mapOutcome (closestPointTo p) c.iter
  pickClosest p ps

/-- `Cells::closestPointOnBorderTo` (src/fields2cover/types/Cells.cpp:246-254). -/
noncomputable def Cells.closestOnBorder (p : RPoint) (cs : Cells ℝ) : Outcome RPoint := do
  let ps ← mapOutcome (Cell.closestOnBorder p) (Cells.iter cs)
  pickClosest p ps

/-- Twice the signed area of a closed ring (`OGRLineString::get_LinearArea`). -/
noncomputable def shoelace : List RPoint → ℝ
  | a :: b :: l => (a.x * b.y - b.x * a.y) + shoelace (b :: l)
  | _ => 0

/-- The loop of `Cell::isConvex` (Cell.cpp:156-160): every angle of three consecutive points has to
be on the same side of `π` as the first one. -/
noncomputable def sameTurns (inv : Bool) : List RPoint → Bool
  | a :: b :: c :: l =>
    if inv ≠ decide (turnAngle a b c < Real.pi) then false else sameTurns inv (b :: c :: l)
  | _ => true

/-- `Cell::isConvex` (Cell.cpp:141-162).  `get_Area` of a polygon without holes is the area of
its outer ring.  A ring of two points would make `getAng(0)` throw (it has no area, so this
is not reached). -/
noncomputable def Cell.isConvex (c : Cell ℝ) : Outcome Bool :=
  match c with
  | [] => .ok false
  | border :: holes =>
    if holes ≠ [] ∨ |shoelace border| / 2 ≤ 0 then .ok false
    else if border.length < 2 then .ok false
    else match border with
      | p0 :: p1 :: p2 :: l =>
        .ok (sameTurns (decide (Real.pi > turnAngle p0 p1 p2)) (p1 :: p2 :: l))
      | _ => .throw .outOfRange

end F2C
