import Mathlib.Analysis.SpecialFunctions.Log.Basic
import Verif.Model.FieldObj
import Verif.Model.Random

/-!
# The generator of random numbers

`src/fields2cover/utils/random.cpp:11-92`.  `S` is the state of `std::mt19937`.  Arithmetic is exact.
-/

namespace F2C.Rand

/-- The engine `mt_` (include/fields2cover/utils/random.h) seen through `std::generate_canonical`: a number from 0 to 1
and the next state. -/
structure Gen (S : Type) where
  unit : S → ℝ × S

variable {S : Type} (g : Gen S)

/-- `Random::getRandomLinear` (random.cpp:22-26), with `std::uniform_real_distribution`.  A failed assertion is an
abort, and without assertions a violated precondition of the distribution. -/
noncomputable def linear (lo hi : ℝ) (s : S) : Outcome (ℝ × S) :=
  if lo < hi then .ok ((g.unit s).1 * (hi - lo) + lo, (g.unit s).2) else .ub "assert(min < max)"

/-- `Random::getRandomDouble` (random.cpp:18-20). -/
noncomputable def double (s : S) : Outcome (ℝ × S) := linear g 0 1 s

/-- `Random::getRandomExp` (random.cpp:28-32).  `none` is NaN: the logarithm of a negative number is NaN, and that of
zero is minus infinity, which is both added and subtracted. -/
noncomputable def exp (lo hi : ℝ) (s : S) : Outcome (Option ℝ × S) :=
  if lo < hi then do
    let d ← double g s
    return (if lo ≤ 0 then none else some (Real.exp ((Real.log hi - Real.log lo) * d.1 + Real.log lo)), d.2)
  else .ub "assert(min < max)"

/-- `Random::getRandomExpDist` (random.cpp:34-37), with `std::exponential_distribution`, whose rate has to be
positive. -/
noncomputable def expDist (rate : ℝ) (s : S) : Outcome (ℝ × S) :=
  if 0 < rate then .ok (-Real.log (1 - (g.unit s).1) / rate, (g.unit s).2)
  else .ub "rate of an exponential distribution"

/-- `Random::getAngleRandom` (random.cpp:39-41). -/
noncomputable def angle (s : S) : Outcome (ℝ × S) := linear g 0 (2 * Real.pi) s

/-- The numbers drawn by the loop of `generateRandCell` (random.cpp:51-53). -/
noncomputable def draws (lo hi : ℝ) : Nat → S → Outcome (List (ℝ × ℝ) × S)
  | 0, s => .ok ([], s)
  | n + 1, s => do
    let r ← linear g lo hi s
    let d ← double g r.2
    let l ← draws lo hi n d.2
    return ((r.1, d.1) :: l.1, l.2)

/-- `Random::generateRandCell` (random.cpp:43-61) with the generator. -/
noncomputable def randCell (area : ℝ) (n : Int) (lo hi : ℝ) (s : S) : Outcome (Cell ℝ × S) :=
  if n ≤ 2 then .throw .invalidArgument
  else if area ≤ 0 then .throw .invalidArgument
  else do
    let d ← draws g lo hi n.toNat s
    let c ← generateRandCell area n d.1
    return (c, d.2)

/-- `Random::generateRandField` (random.cpp:63-67). -/
noncomputable def randField (area : ℝ) (n : Int) (lo hi : ℝ) (s : S) : Outcome (FieldObj ℝ × S) := do
  let c ← randCell g area n lo hi s
  let f ← FieldObj.make [c.1] []
  return (f, c.2)

/-- The loops of `genConvexCell` and `genNonConvexCell` (random.cpp:69-75, 82-88) with the generator; the widths are the
default ones (random.h).  Out of `fuel` stands for a loop that goes on. -/
noncomputable def cellUntil (want : Bool) (area : ℝ) (n : Int) : Nat → S → Outcome (Cell ℝ × S)
  | 0, _ => .ub "endless loop"
  | fuel + 1, s => do
    let c ← randCell g area n (1 / 2) 1 s
    let b ← Cell.isConvex c.1
    if b = want then return c else cellUntil want area n fuel c.2

/-- `Random::genConvexField` (random.cpp:77-80). -/
noncomputable def convexField (area : ℝ) (n : Int) (fuel : Nat) (s : S) : Outcome (FieldObj ℝ × S) := do
  let c ← cellUntil g true area n fuel s
  let f ← FieldObj.make [c.1] []
  return (f, c.2)

/-- `Random::genNonConvexField` (random.cpp:90-92). -/
noncomputable def nonConvexField (area : ℝ) (fuel : Nat) (s : S) : Outcome (FieldObj ℝ × S) := do
  let c ← cellUntil g false area 9 fuel s
  let f ← FieldObj.make [c.1] []
  return (f, c.2)

end F2C.Rand
