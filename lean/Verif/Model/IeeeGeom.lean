import Verif.Model.Ieee
import Verif.Model.Geom

/-!
# The closest point of a segment, for all values of type `double`

`Point::closestPointInSegment` (`src/fields2cover/types/Point.cpp:169-175`) with every operation rounded, and with infinities
and values that are not numbers: the division by the square of the length may be a division by zero.
-/

namespace F2C.Ieee

open Flt

namespace Flt

open Classical in
/-- `std::min(a, b)`: the first unless the second is less. -/
noncomputable def min (a b : Flt) : Flt := if lt b a then b else a

end Flt

/-- A point whose coordinates are numbers. -/
def ofPoint (p : RPoint) : Point Flt := ⟨fin p.x, fin p.y, fin p.z⟩

/-- `Point::operator+` (Point.cpp:57-59). -/
noncomputable def padd (fl : ℝ → ℝ) (a b : Point Flt) : Point Flt :=
  ⟨add fl a.x b.x, add fl a.y b.y, add fl a.z b.z⟩

/-- `Point::operator-` (Point.cpp:61-63). -/
noncomputable def psub (fl : ℝ → ℝ) (a b : Point Flt) : Point Flt :=
  ⟨sub fl a.x b.x, sub fl a.y b.y, sub fl a.z b.z⟩

/-- `Point::operator*(double)` (Point.cpp:72-74). -/
noncomputable def pscale (fl : ℝ → ℝ) (a : Point Flt) (t : Flt) : Point Flt :=
  ⟨mul fl a.x t, mul fl a.y t, mul fl a.z t⟩

/-- `Point::operator*(const Point&)` (Point.cpp:76-78).  Simplification: the products are rounded before they are added, as
they are unless the compiler is allowed to contract them. -/
noncomputable def pdot (fl : ℝ → ℝ) (a b : Point Flt) : Flt :=
  add fl (add fl (mul fl a.x b.x) (mul fl a.y b.y)) (mul fl a.z b.z)

/-- `Point::closestPointInSegment` (Point.cpp:169-175).  The divisor is a sum of squares, so that its sign is positive if it
is zero. -/
noncomputable def closestInSegment (fl : ℝ → ℝ) (p s e : Point Flt) : Point Flt :=
  let v := psub fl e s
  let u := psub fl s p
  let t := div fl (neg (pdot fl v u)) (pdot fl v v)
  padd fl (pscale fl v (Flt.max (fin 0) (Flt.min (fin 1) t))) s

/-- Candidates of `closestPointTo`: the closest point of every segment (LineString.cpp:133-136, LinearRing.cpp:139-142). -/
noncomputable def segmentClosest (fl : ℝ → ℝ) (p : Point Flt) : List (Point Flt) → List (Point Flt)
  | a :: b :: l => closestInSegment fl p a b :: segmentClosest fl p (b :: l)
  | _ => []

/-- `LineString::closestPointTo` (LineString.cpp:130-138) and `LinearRing::closestPointTo` (LinearRing.cpp:136-144);
`distance` is `Point::distance`, computed by GEOS.  An empty line throws as in `F2C.closestPointTo`; reading the empty vector of
candidates is undefined behaviour. -/
noncomputable def closestPointTo (fl : ℝ → ℝ) (distance : Point Flt → Point Flt → Flt) (p : Point Flt)
    (line : List (Point Flt)) : Outcome (Point Flt) :=
  match line with
  | [] => .throw .outOfRange
  | line => match segmentClosest fl p line with
    | [] => .ub "ps[0] of an empty vector"
    | q :: qs => .ok ((q :: qs).getD (minLoop 0 (distance q p) 1 (qs.map (distance · p))) q)

end F2C.Ieee
