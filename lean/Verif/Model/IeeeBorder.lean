import Verif.Model.IeeeGraph
import Verif.Model.Border

/-!
# The closest point of a border, for all values of type `double`

`Cell::closestPointOnBorderTo` and `Cells::closestPointOnBorderTo` (`src/fields2cover/types/Cell.cpp:210-218`,
`Cells.cpp:246-254`) with every operation rounded, and with infinities and values that are not numbers.  Compare
`Cell.closestOnBorder` and `Cells.closestOnBorder`, which are exact.
-/

namespace F2C.Ieee

open Flt

/-- `ps[std::min_element(dist.begin(), dist.end()) - dist.begin()]` (Cell.cpp:217, Cells.cpp:253), where `dist` has the
distances of the points to `p`; reading an empty vector is undefined behaviour. -/
noncomputable def pickClosest (fl : ℝ → ℝ) (p : Point Flt) : List (Point Flt) → Outcome (Point Flt)
  | [] => .ub "ps[0] of an empty vector"
  | q :: qs => .ok ((q :: qs).getD (minLoop 0 (distance fl q p) 1 (qs.map (distance fl · p))) q)

/-- `Cell::closestPointOnBorderTo` (Cell.cpp:210-218). -/
noncomputable def cellClosest (fl : ℝ → ℝ) (p : Point Flt) (c : Cell Flt) : Outcome (Point Flt) := do
  let ps ← mapOutcome (closestPointTo fl (distance fl) p) c.iter
  pickClosest fl p ps

/-- `Cells::closestPointOnBorderTo` (Cells.cpp:246-254). -/
noncomputable def cellsClosest (fl : ℝ → ℝ) (p : Point Flt) (cs : Cells Flt) : Outcome (Point Flt) := do
  let ps ← mapOutcome (cellClosest fl p) (Cells.iter cs)
  pickClosest fl p ps

end F2C.Ieee
