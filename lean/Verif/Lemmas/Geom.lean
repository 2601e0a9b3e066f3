import Mathlib.Tactic.Linarith
import Mathlib.Tactic.Ring
import Mathlib.Tactic.NormNum
import Mathlib.Analysis.SpecialFunctions.Complex.Arg
import Verif.Model.Geom
import Verif.Lemmas.Angle

/-! # Lemmas about plane geometry -/

namespace F2C

open Real

theorem pdist_nonneg (a b : RPoint) : 0 ≤ pdist a b := Real.sqrt_nonneg _

theorem pdist_self (a : RPoint) : pdist a a = 0 := by simp [pdist]

theorem pdist_comm (a b : RPoint) : pdist a b = pdist b a := by
  unfold pdist; congr 1; ring

theorem pdist_sq (a b : RPoint) : pdist a b ^ 2 = (a.x - b.x) ^ 2 + (a.y - b.y) ^ 2 :=
  Real.sq_sqrt (by positivity)

theorem pdist_eq_norm (a b : RPoint) : pdist a b = ‖(⟨a.x - b.x, a.y - b.y⟩ : ℂ)‖ := by
  rw [Complex.norm_eq_sqrt_sq_add_sq]; rfl

theorem pdist_triangle (a b c : RPoint) : pdist a c ≤ pdist a b + pdist b c := by
  rw [pdist_eq_norm, pdist_eq_norm, pdist_eq_norm]
  have : (⟨a.x - c.x, a.y - c.y⟩ : ℂ) = ⟨a.x - b.x, a.y - b.y⟩ + ⟨b.x - c.x, b.y - c.y⟩ := by
    apply Complex.ext <;> simp
  rw [this]
  exact norm_add_le _ _

theorem pdist_eq_zero (a b : RPoint) : pdist a b = 0 ↔ a.x = b.x ∧ a.y = b.y := by
  unfold pdist
  rw [Real.sqrt_eq_zero (by positivity)]
  constructor
  · intro h
    constructor <;> nlinarith [sq_nonneg (a.x - b.x), sq_nonneg (a.y - b.y)]
  · rintro ⟨h1, h2⟩; simp [h1, h2]

theorem angleFromPoint_eq (v : RPoint) : angleFromPoint v = mod2pi (Complex.arg ⟨v.x, v.y⟩) := by
  unfold angleFromPoint angleFromPoints atan2 Point.det Point.dot
  simp

theorem polar_x (v : RPoint) : √(v.x ^ 2 + v.y ^ 2) * cos (angleFromPoint v) = v.x := by
  rw [angleFromPoint_eq, cos_mod2pi, ← Complex.norm_eq_sqrt_sq_add_sq (⟨v.x, v.y⟩ : ℂ)]
  exact Complex.norm_mul_cos_arg _

theorem polar_y (v : RPoint) : √(v.x ^ 2 + v.y ^ 2) * sin (angleFromPoint v) = v.y := by
  rw [angleFromPoint_eq, sin_mod2pi, ← Complex.norm_eq_sqrt_sq_add_sq (⟨v.x, v.y⟩ : ℂ)]
  exact Complex.norm_mul_sin_arg _

theorem pdist_polar_x (p q : RPoint) : pdist p q * cos (angleFromPoint (p.sub q)) = p.x - q.x :=
  polar_x (p.sub q)

theorem pdist_polar_y (p q : RPoint) : pdist p q * sin (angleFromPoint (p.sub q)) = p.y - q.y :=
  polar_y (p.sub q)

end F2C
