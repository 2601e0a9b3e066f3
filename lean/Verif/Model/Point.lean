import Mathlib.Algebra.Order.Field.Basic
import Mathlib.Algebra.Order.Field.Rat
import Verif.Model.Outcome

/-!
# Points

`src/fields2cover/types/Point.cpp`.  Coordinates live in an arbitrary linearly ordered field
(`double` idealised: no rounding, no NaN, no infinities).
-/

namespace F2C

/-- `f2c::types::Point` (include/fields2cover/types/Point.h, an `OGRPoint` with x, y, z). -/
@[ext] structure Point (K : Type) where
  x : K
  y : K
  z : K
  deriving DecidableEq, Repr

namespace Point

variable {K : Type} [Field K] [LinearOrder K]

/-- Default constructed point (Point.h: `Point()`; GDAL reads an empty point as zeros). -/
def zero : Point K := ⟨0, 0, 0⟩

/-- Tolerance of `operator==`: Point.cpp:42-46. -/
def tol : K := 1 / 10000000

/-- `Point::operator==` (Point.cpp:42-46). -/
def eqv (a b : Point K) : Bool :=
  decide (|a.x - b.x| < tol) && decide (|a.y - b.y| < tol) && decide (|a.z - b.z| < tol)

/-- `Point::operator<` (Point.cpp:52-55): by x, then by y. -/
def lt (a b : Point K) : Bool :=
  decide (a.x < b.x) || (decide (a.x = b.x) && decide (a.y < b.y))

/-- `Point::operator+` (Point.cpp:57-59). -/
def add (a b : Point K) : Point K := ⟨a.x + b.x, a.y + b.y, a.z + b.z⟩

/-- `Point::operator-` (Point.cpp:61-63). -/
def sub (a b : Point K) : Point K := ⟨a.x - b.x, a.y - b.y, a.z - b.z⟩

/-- `Point::operator*(double)` (Point.cpp:72-74). -/
def smul (a : Point K) (k : K) : Point K := ⟨a.x * k, a.y * k, a.z * k⟩

/-- `Point::operator*(const Point&)`, the dot product (Point.cpp:76-78). -/
def dot (a b : Point K) : K := a.x * b.x + a.y * b.y + a.z * b.z

/-- `Point::operator/(double)` (Point.cpp:80-82); division by zero is not modelled here, callers
check. -/
def sdiv (a : Point K) (k : K) : Point K := ⟨a.x / k, a.y / k, a.z / k⟩

/-- `Point::det` (Point.cpp:84-86). -/
def det (u v : Point K) : K := u.x * v.y - u.y * v.x

end Point
end F2C
