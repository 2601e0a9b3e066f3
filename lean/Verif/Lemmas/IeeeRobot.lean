import Verif.Model.IeeeRobot
import Verif.Lemmas.IeeeGraph

/-! # Lemmas about the limits of a robot -/

namespace F2C.Ieee

open Flt Dbl

variable {fl : ℝ → ℝ}

/-- The relative error of one rounding, coarsely. -/
theorem fl_coarse (h : IsRounding fl) {y : ℝ} (hy : 1 / 10 ^ 9 ≤ y) :
    y * (1 - 1 / 10 ^ 12) ≤ fl y ∧ fl y ≤ y * (1 + 1 / 10 ^ 12) := by
  have h0 : 0 < y := lt_of_lt_of_le (by norm_num) hy
  have e := h.rel_error y (by
    rw [abs_of_pos h0]
    refine le_trans ?_ hy
    calc (2 : ℝ) ^ (-1022 : ℤ) ≤ (2 : ℝ) ^ (-30 : ℤ) := zpow_le_zpow_right₀ (by norm_num) (by norm_num)
      _ ≤ 1 / 10 ^ 9 := by norm_num)
  rw [abs_of_pos h0] at e
  have e := abs_le.1 e
  have : y / 2 ^ 53 ≤ y * (1 / 10 ^ 12) := by
    rw [div_eq_mul_one_div]
    exact mul_le_mul_of_nonneg_left (by norm_num) h0.le
  constructor <;> nlinarith

theorem tiny_bounds (h : IsRounding fl) :
    1 / 10 ^ 7 * (1 - 1 / 10 ^ 12) ≤ tiny fl ∧ tiny fl ≤ 1 / 10 ^ 7 * (1 + 1 / 10 ^ 12) := fl_coarse h (by norm_num)

theorem tiny_pos (h : IsRounding fl) : 0 < tiny fl := lt_of_lt_of_le (by norm_num) (tiny_bounds h).1

theorem tiny_double (h : IsRounding fl) : IsDouble (tiny fl) := h.double _

/-- The largest radius, and the largest curvature that is set with a radius. -/
theorem isDouble_most : IsDouble (10 ^ 7 + 1 / 1024) := ⟨10 ^ 7 * 1024 + 1, -10, by norm_num, by norm_num, by norm_num⟩

/-- `1 / (a + 1e-7)` for numbers. -/
theorem inv_fin (h : IsRounding fl) {a : ℝ} (ha : 0 ≤ a) :
    ∃ r, div fl (fin 1) (add fl (fin a) (fin (tiny fl))) = fin r ∧ 0 ≤ r ∧ r ≤ 10 ^ 7 + 1 / 1024 ∧ IsDouble r ∧
      (a + tiny fl < huge → r = fl (1 / fl (a + tiny fl))) := by
  have hp := tiny_pos h
  rw [add_fin]
  by_cases hu : huge ≤ a + tiny fl
  · refine ⟨0, ?_, le_rfl, by norm_num, isDouble_zero, fun hh => absurd hu (not_le.2 hh)⟩
    unfold rnd
    rw [if_pos hu]
    rfl
  · have e : rnd fl (a + tiny fl) = fin (fl (a + tiny fl)) := by
      unfold rnd
      have : 0 < huge := lt_of_le_of_lt (by linarith [big_pos]) big_huge
      rw [if_neg hu, if_neg (by linarith)]
    have hs : tiny fl ≤ fl (a + tiny fl) := h.ge (tiny_double h) (by linarith)
    have hs0 : 0 < fl (a + tiny fl) := lt_of_lt_of_le hp hs
    have hq : 1 / fl (a + tiny fl) ≤ 10 ^ 7 + 1 / 1024 := by
      rw [div_le_iff₀ hs0]
      have := (tiny_bounds h).1
      nlinarith
    have hq0 : 0 ≤ 1 / fl (a + tiny fl) := by positivity
    refine ⟨fl (1 / fl (a + tiny fl)), ?_, fl_nonneg h hq0, h.le isDouble_most hq, h.double _, fun _ => rfl⟩
    rw [e, div_fin hs0.ne']
    rw [abs_of_nonneg hq0]
    refine hq.trans ?_
    have : (2 : ℝ) ^ 24 ≤ big := pow_le_pow_right₀ (by norm_num) (by norm_num)
    linarith [big_pos]

/-- Two roundings after one another: `k = fl (1 / fl z)`. -/
theorem inv_coarse (h : IsRounding fl) {z : ℝ} (h1 : 1 / 10 ^ 8 ≤ z) (h2 : z ≤ 10 ^ 8) :
    0 ≤ fl (1 / fl z) ∧ 1 - 3 / 10 ^ 12 ≤ fl (1 / fl z) * z ∧ fl (1 / fl z) * z ≤ 1 + 3 / 10 ^ 12 := by
  obtain ⟨a1, a2⟩ := fl_coarse h (y := z) (by linarith)
  have s0 : 0 < fl z := lt_of_lt_of_le (by nlinarith) a1
  obtain ⟨b1, b2⟩ := fl_coarse h (y := 1 / fl z) (by
    rw [le_div_iff₀ s0]; nlinarith)
  have k0 : 0 ≤ fl (1 / fl z) := fl_nonneg h (by positivity)
  generalize fl (1 / fl z) = k at *
  generalize fl z = s at *
  have c1 : (1 - 1 / 10 ^ 12) ≤ k * s := by
    have := mul_le_mul_of_nonneg_right b1 s0.le
    rwa [mul_right_comm, one_div_mul_cancel s0.ne', one_mul] at this
  have c2 : k * s ≤ (1 + 1 / 10 ^ 12) := by
    have := mul_le_mul_of_nonneg_right b2 s0.le
    rwa [mul_right_comm, one_div_mul_cancel s0.ne', one_mul] at this
  have d1 := mul_le_mul_of_nonneg_left a1 k0
  have d2 := mul_le_mul_of_nonneg_left a2 k0
  refine ⟨k0, ?_, ?_⟩
  · nlinarith
  · nlinarith

/-- The radius that is read back after setting one between 10 cm and 10 m. -/
theorem read_back (h : IsRounding fl) {x : ℝ} (h1 : 1 / 10 ≤ x) (h2 : x ≤ 10) :
    |fl (1 / fl (fl (1 / fl (x + tiny fl)) + tiny fl)) - x| ≤ x / 10 ^ 6 := by
  obtain ⟨t1, t2⟩ := tiny_bounds h
  obtain ⟨k0, k1, k2⟩ := inv_coarse h (z := x + tiny fl) (by linarith) (by linarith)
  generalize fl (1 / fl (x + tiny fl)) = k at *
  generalize tiny fl = t at *
  have k3 : k ≤ 11 := by nlinarith
  obtain ⟨r0, r1, r2⟩ := inv_coarse h (z := k + t) (by linarith) (by linarith)
  generalize fl (1 / fl (k + t)) = r at *
  have z0 : 0 < x + t := by linarith
  have m1 := mul_le_mul_of_nonneg_right r1 z0.le
  have m2 := mul_le_mul_of_nonneg_right r2 z0.le
  have n1 := mul_le_mul_of_nonneg_left k1 r0
  have n2 := mul_le_mul_of_nonneg_left k2 r0
  have u1 : r * (1 - 3 / 10 ^ 12 + t * (x + t)) ≤ (x + t) * (1 + 3 / 10 ^ 12) := by nlinarith
  have u2 : (x + t) * (1 - 3 / 10 ^ 12) ≤ r * (1 + 3 / 10 ^ 12 + t * (x + t)) := by nlinarith
  have q1 : 1 / 10 ^ 7 * (1 - 1 / 10 ^ 12) * x ≤ t * (x + t) := by nlinarith
  have q2 : t * (x + t) ≤ 1 / 10 ^ 7 * (1 + 1 / 10 ^ 12) * x + 2 / 10 ^ 14 := by nlinarith
  rw [abs_le]
  constructor
  · by_contra hc
    push Not at hc
    have hr : r < x * (1 - 1 / 10 ^ 6) := by linarith
    have v : (x + t) * (1 - 3 / 10 ^ 12) ≤ x * (1 - 1 / 10 ^ 6) * (1 + 3 / 10 ^ 12 + (1 / 10 ^ 7 * (1 + 1 / 10 ^ 12) * x + 2 / 10 ^ 14)) := by
      refine u2.trans ?_
      refine mul_le_mul hr.le (by linarith) (by nlinarith) (by nlinarith)
    nlinarith [mul_nonneg (sub_nonneg.2 h1) (sub_nonneg.2 h2)]
  · by_contra hc
    push Not at hc
    have hr : x * (1 + 1 / 10 ^ 6) < r := by linarith
    have v : x * (1 + 1 / 10 ^ 6) * (1 - 3 / 10 ^ 12 + 1 / 10 ^ 7 * (1 - 1 / 10 ^ 12) * x) ≤ (x + t) * (1 + 3 / 10 ^ 12) := by
      refine le_trans ?_ u1
      refine mul_le_mul hr.le (by linarith) (by nlinarith) r0
    nlinarith [mul_nonneg (sub_nonneg.2 h1) (sub_nonneg.2 h2)]

end F2C.Ieee
