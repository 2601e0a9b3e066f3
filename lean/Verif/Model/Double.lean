import Mathlib.Data.Real.Archimedean
import Mathlib.Algebra.Order.Round
import Mathlib.Data.Int.Log
import Verif.Model.Angle

/-!
# Angles, tracks and candidate angles in double precision

The other models idealise `double` as `ℝ`.  Here the functions on angles
(`include/fields2cover/types/Geometry_impl.hpp:173-208,357-360`), the loop that places the tracks
(`src/fields2cover/swath_generator/swath_generator_base.cpp:51-57`) and the candidate angles
(`src/fields2cover/swath_generator/brute_force.cpp:26-47`) are written with every operation rounded.
-/

namespace F2C.Dbl

/-- A finite number of type `double` (IEEE 754 binary64): at most 53 binary digits, the last one not below `2^-1074`.
Simplification: there is no largest one, so nothing overflows. -/
def IsDouble (x : ℝ) : Prop := ∃ m e : ℤ, |m| ≤ 2 ^ 53 ∧ -1074 ≤ e ∧ x = m * (2 : ℝ) ^ e

/-- Rounding of the results of operations to a nearest number of type `double`; ties may go either way. -/
structure IsRounding (fl : ℝ → ℝ) : Prop where
  double : ∀ x, IsDouble (fl x)
  nearest : ∀ x d, IsDouble d → |x - fl x| ≤ |x - d|

/-- `boost::math::constants::two_pi<double>()`: the number nearest to 2π. -/
noncomputable def twoPi : ℝ := 7074237752028440 * (2 : ℝ) ^ (-50 : ℤ)

/-- `boost::math::constants::pi<double>()`: the number nearest to π. -/
noncomputable def pi : ℝ := 7074237752028440 * (2 : ℝ) ^ (-51 : ℤ)

/-- `boost::math::constants::degree<double>()`: the number nearest to π / 180, the step of `BruteForce`
(include/fields2cover/swath_generator/brute_force.h:29). -/
noncomputable def degree : ℝ := 5030569068109113 * (2 : ℝ) ^ (-58 : ℤ)

/-- `Geometry::mod` (Geometry_impl.hpp:358-360).  The function `fmod` of the C library is exact; the sum is
rounded. -/
noncomputable def mod (fl : ℝ → ℝ) (a b : ℝ) : ℝ := fmod (fl (fmod a b + b)) b

/-- `Geometry::mod_2pi` (Geometry_impl.hpp:174-176). -/
noncomputable def mod2pi (fl : ℝ → ℝ) (v : ℝ) : ℝ := mod fl v twoPi

/-- `Geometry::getAngleDiffAbs` (Geometry_impl.hpp:204-207). -/
noncomputable def angDiffAbs (fl : ℝ → ℝ) (a b : ℝ) : ℝ := fl (pi - |fl (mod2pi fl (fl (b - a)) - pi)|)

/-- The loop that places the tracks (swath_generator_base.cpp:53-57), from offset `y` on; `slack` is
`allow_overlap ? 0.0 : 0.5 * op_width`.  Out of fuel: more rounds than allowed. -/
noncomputable def trackLoop (fl : ℝ → ℝ) (height w slack : ℝ) : Nat → ℝ → Outcome (List ℝ)
  | 0, y => if height > fl (y + slack) then .ub "endless loop" else .ok []
  | fuel + 1, y =>
    if height > fl (y + slack) then do
      let rest ← trackLoop fl height w slack fuel (fl (y + w))
      return fl (y + w) :: rest
    else .ok []

/-- The offsets of all tracks (swath_generator_base.cpp:51-57).  `⌈height / w⌉ + 1` rounds are enough
(`C115_tracks`) if there are not more than 2^24. -/
noncomputable def trackOffsets (fl : ℝ → ℝ) (allowOverlap : Bool) (height w : ℝ) : Outcome (List ℝ) :=
  trackLoop fl height w (if allowOverlap then 0 else fl (1 / 2 * w)) (⌈height / w⌉₊ + 1) (fl (-(1 / 2) * w))

/-- The number of candidate angles (brute_force.cpp:28-29). -/
noncomputable def candidates (fl : ℝ → ℝ) (step : ℝ) : ℤ := ⌊fl (twoPi / step)⌋

/-- Candidate angle `i` (brute_force.cpp:35). -/
noncomputable def candidate (fl : ℝ → ℝ) (step : ℝ) (i : Nat) : ℝ := fl (i * step)

end F2C.Dbl
