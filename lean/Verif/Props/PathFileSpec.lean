import Verif.Model.PathFile

/-! # What is assumed about printing numbers -/

namespace F2C.Props.PathFileSpec

/-- Number of significant digits for a precision (0 counts as 1). -/
def digits (prec : Nat) : Nat := max 1 prec

/-- Printing with a precision and reading again (C++ `<<` and `>>`): a word without white space is
printed, reading gives the nearest number with so many significant digits, and small whole numbers
are exact. -/
structure Sound (io : NumIO) : Prop where
  nonempty : ∀ prec x, io.print prec x ≠ []
  word : ∀ prec x, ∀ c ∈ io.print prec x, c ≠ ' ' ∧ c ≠ '\n'
  near : ∀ prec x, ∃ r, io.parse (io.print prec x) = some r ∧
    |r - x| ≤ 5 / 10 ^ digits prec * |x| ∧
    ∃ m k : ℤ, r = m * (10 : ℝ) ^ k ∧ |m| ≤ 10 ^ digits prec
  exact : ∀ k : ℤ, |k| ≤ 3 → io.parse (io.print 6 k) = some (k : ℝ)

/-- Equal up to the precision. -/
noncomputable def Near (prec : Nat) (a b : ℝ) : Prop := |b - a| ≤ 5 / 10 ^ digits prec * |a|

/-- The same state up to the precision of the numbers. -/
def NearState (prec : Nat) (s t : PathState ℝ) : Prop :=
  Near prec s.point.x t.point.x ∧ Near prec s.point.y t.point.y ∧ Near prec s.point.z t.point.z ∧
  Near prec s.angle t.angle ∧ Near prec s.velocity t.velocity ∧ Near prec s.len t.len ∧
  t.dir = s.dir ∧ t.type = s.type

/-- `n`, not zero, is `v` without its fraction. -/
def IsTrunc (v n : ℝ) : Prop := (0 < n ∧ n ≤ v ∧ v < n + 1) ∨ (n < 0 ∧ n - 1 < v ∧ v ≤ n)

end F2C.Props.PathFileSpec
