import Mathlib.Analysis.SpecialFunctions.Trigonometric.Basic
import Verif.Model.Outcome

/-!
# Angle utilities

`include/fields2cover/types/Geometry_impl.hpp:173-219,357-360`; `double` is idealised as `ℝ`.
-/

namespace F2C

/-- `std::fmod(a, b)` of the C library: `a - b * trunc (a / b)`. -/
noncomputable def fmod (a b : ℝ) : ℝ :=
  a - b * (if 0 ≤ a / b then (⌊a / b⌋ : ℝ) else (⌈a / b⌉ : ℝ))

/-- `Geometry::mod` (Geometry_impl.hpp:358-360). -/
noncomputable def modF (a b : ℝ) : ℝ := fmod (fmod a b + b) b

/-- `Geometry::mod_2pi` (Geometry_impl.hpp:174-176). -/
noncomputable def mod2pi (a : ℝ) : ℝ := modF a (2 * Real.pi)

/-- `std::round`: halves go away from zero. -/
noncomputable def cround (x : ℝ) : ℤ := if 0 ≤ x then ⌊x + 1 / 2⌋ else ⌈x - 1 / 2⌉

/-- The lambda `getNearVal` (Geometry_impl.hpp:182-183). -/
noncomputable def nearVal (i : ℤ) (v : ℝ) : ℝ := i * (2 * Real.pi) + mod2pi v

/-- `Geometry::getAngContinuity(prev, val)` (Geometry_impl.hpp:179-191).  The turn number is
converted from `double` to `int`; outside of the range of `int` that is undefined behaviour
(simplification: all four candidates have to fit). -/
noncomputable def angContinuity (prev v : ℝ) : Outcome ℝ :=
  let n := cround (prev / (2 * Real.pi))
  if n - 2 < -2147483648 ∨ 2147483647 < n + 1 then .ub "double to int out of range"
  else if |nearVal (n - 1) v - prev| > |nearVal (n - 2) v - prev| then .ok (nearVal (n - 2) v)
  else if |nearVal n v - prev| > |nearVal (n - 1) v - prev| then .ok (nearVal (n - 1) v)
  else if |nearVal (n + 1) v - prev| > |nearVal n v - prev| then .ok (nearVal n v)
  else .ok (nearVal (n + 1) v)

/-- Loop of the vector version (Geometry_impl.hpp:197-199); `prev` is `res[i-1]`. -/
noncomputable def angContinuityFrom (prev : ℝ) : List ℝ → Outcome (List ℝ)
  | [] => .ok []
  | v :: vs => do
    let r ← angContinuity prev v
    let rs ← angContinuityFrom r vs
    return r :: rs

/-- `Geometry::getAngContinuity(vector)` (Geometry_impl.hpp:194-201); `val[0]` of an empty vector
is undefined behaviour. -/
noncomputable def angContinuityList : List ℝ → Outcome (List ℝ)
  | [] => .ub "val[0] of an empty vector"
  | v :: vs => do
    let rs ← angContinuityFrom v vs
    return v :: rs

/-- `Geometry::getAngleDiffAbs` (Geometry_impl.hpp:204-207). -/
noncomputable def angDiffAbs (a b : ℝ) : ℝ := Real.pi - |mod2pi (b - a) - Real.pi|

/-- `Geometry::getAngleAvg` (Geometry_impl.hpp:210-219).  `abs` is taken to be the floating point
overload. -/
noncomputable def angAvg (a b : ℝ) : ℝ :=
  if |mod2pi b - mod2pi a| < Real.pi then (1 / 2) * (mod2pi a + mod2pi b)
  else (1 / 2) * (mod2pi a + mod2pi b) + Real.pi

end F2C
