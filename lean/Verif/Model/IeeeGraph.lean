import Verif.Model.IeeeGeom

/-!
# Costs of edges and hash values of points, for all values of type `double`

`Graph2D::addEdge(i, j)` and `addDirectedEdge(from, to)` without a cost (`src/fields2cover/types/Graph2D.cpp:28-34`) and
`std::hash<Point>` (`include/fields2cover/types/Point.h:184-188`), with every operation rounded and with infinities and values
that are not numbers.  Compare `Planner.scaledDist` and `hashPoint`, which are exact.
-/

namespace F2C.Ieee

open Flt

namespace Flt

/-- `std::sqrt(a)`, correctly rounded as the standard demands. -/
noncomputable def sqrt (fl : ℝ → ℝ) : Flt → Flt
  | fin x => if x < 0 then nan else fin (fl √x)
  | pinf => pinf
  | _ => nan

/-- Conversion to `int64_t`: undefined unless the number without its fraction is one. -/
noncomputable def toInt64 : Flt → Outcome ℤ
  | fin x =>
    let t := if 0 ≤ x then ⌊x⌋ else ⌈x⌉
    if -2 ^ 63 ≤ t ∧ t < 2 ^ 63 then .ok t else .ub "conversion to int64_t"
  | _ => .ub "conversion to int64_t"

/-- Conversion to `size_t`: undefined unless the number without its fraction is one. -/
noncomputable def toSize : Flt → Outcome ℕ
  | fin x => if -1 < x ∧ x < 2 ^ 64 then .ok ⌊x⌋₊ else .ub "conversion to size_t"
  | _ => .ub "conversion to size_t"

end Flt

/-- `Point::distance` between two points (Geometry_impl.hpp:137-141): `OGRGeometry::Distance`, which GEOS computes in the plane
as the square root of the sum of the squares (from knowledge of that library). -/
noncomputable def distance (fl : ℝ → ℝ) (a b : Point Flt) : Flt :=
  let dx := sub fl a.x b.x
  let dy := sub fl a.y b.y
  Flt.sqrt fl (add fl (mul fl dx dx) (mul fl dy dy))

/-- `int64_t(scale_ * i.distance(j))`, the cost of an edge that is added without one (Graph2D.cpp:28-34); `scale_` is 1e3
(Graph2D.h:60). -/
noncomputable def edgeCost (fl : ℝ → ℝ) (a b : Point Flt) : Outcome ℤ :=
  toInt64 (mul fl (fin 1000) (distance fl a b))

/-- `std::hash<Point>` (Point.h:184-188): `size_t(p.getX() + p.getY() * 1e10 + p.getZ() * 1e20)`; both constants are numbers of
type `double`. -/
noncomputable def hashPoint (fl : ℝ → ℝ) (p : Point Flt) : Outcome ℕ :=
  toSize (add fl (add fl p.x (mul fl p.y (fin (10 ^ 10)))) (mul fl p.z (fin (10 ^ 20))))

end F2C.Ieee
