import Verif.Lemmas.DoublePath
import Verif.Lemmas.Path

/-! # Lemmas about pieces of sections in double precision -/

namespace F2C.Dbl

variable {fl : ℝ → ℝ}

/-- Error of any operation: relative or that of the smallest numbers. -/
theorem IsRounding.error (h : IsRounding fl) (x : ℝ) : |x - fl x| ≤ |x| / 2 ^ 53 + (2 : ℝ) ^ (-1075 : ℤ) := by
  by_cases hx : (2 : ℝ) ^ (-1022 : ℤ) ≤ |x|
  · exact (h.rel_error x hx).trans (by linarith [two_zpow_pos (-1075)])
  · have h1 := h.abs_error x (-1074) le_rfl (by
      have : (2 : ℝ) ^ (53 : ℕ) * (2 : ℝ) ^ (-1074 : ℤ) = (2 : ℝ) ^ (-1021 : ℤ) := by
        rw [← zpow_natCast, ← zpow_add₀ two_ne_zero]; norm_num
      rw [this]
      refine (not_le.1 hx).le.trans (zpow_le_zpow_right₀ (by norm_num) (by norm_num)))
    have e : (2 : ℝ) ^ (-1074 : ℤ) / 2 = (2 : ℝ) ^ (-1075 : ℤ) := by
      rw [show (-1074 : ℤ) = -1075 + 1 by norm_num, zpow_add₀ two_ne_zero]; norm_num
    rw [e] at h1
    have : 0 ≤ |x| / 2 ^ 53 := by positivity
    linarith

theorem isDouble_nat (n : Nat) (hn : n ≤ 2 ^ 53) : IsDouble n := by
  refine ⟨n, 0, ?_, by norm_num, by simp⟩
  rw [abs_of_nonneg (by positivity)]
  exact_mod_cast hn

/-- The fraction `j / n`. -/
theorem frac_error (h : IsRounding fl) (j n : Nat) (hj : j ≤ n) (hn : 1 ≤ n) (hb : n ≤ 2 ^ 53) :
    0 ≤ fl ((j : ℝ) / n) ∧ fl ((j : ℝ) / n) ≤ 1 ∧ |(j : ℝ) / n - fl ((j : ℝ) / n)| ≤ 1 / 2 ^ 53 := by
  have hn0 : (0 : ℝ) < n := by exact_mod_cast hn
  have hle : (j : ℝ) / n ≤ 1 := by
    rw [div_le_one hn0]
    exact_mod_cast hj
  have h0 : 0 ≤ (j : ℝ) / n := by positivity
  refine ⟨h.ge isDouble_zero h0, h.le (by simpa using isDouble_nat 1 (by norm_num)) hle, ?_⟩
  rcases Nat.eq_zero_or_pos j with rfl | hjp
  · simp only [Nat.cast_zero, zero_div, h.self isDouble_zero, sub_self, abs_zero]
    positivity
  refine (h.rel_error _ ?_).trans ?_
  · rw [abs_of_nonneg h0, le_div_iff₀ hn0]
    have h1 : (n : ℝ) ≤ 2 ^ 53 := by exact_mod_cast hb
    have h2 : (1 : ℝ) ≤ j := by exact_mod_cast hjp
    refine le_trans ?_ h2
    have h3 : (2 : ℝ) ^ (-1022 : ℤ) * n ≤ (2 : ℝ) ^ (-1022 : ℤ) * 2 ^ 53 :=
      mul_le_mul_of_nonneg_left h1 (two_zpow_pos _).le
    refine h3.trans ?_
    rw [← zpow_natCast, ← zpow_add₀ two_ne_zero]
    exact (zpow_le_zpow_right₀ (by norm_num) (by norm_num : (-1022 + (53 : ℕ) : ℤ) ≤ 0)).trans (by simp)
  · rw [abs_of_nonneg h0]
    exact div_le_div_of_nonneg_right hle (by positivity)

/-- Error of one coordinate, in the abstract: `u` is the relative error and `η` the absolute one. -/
theorem coord_bound {u η x a A w e v t τ m p : ℝ} (u0 : 0 ≤ u) (u1 : u ≤ 1 / 1000) (η0 : 0 ≤ η)
    (ha : |a| ≤ A) (t0 : 0 ≤ t) (t1 : t ≤ 1) (ht : |τ - t| ≤ u)
    (hw : |a - w| ≤ u * A + η) (he : |(x + w) - e| ≤ u * |x + w|) (hv : |(e - x) - v| ≤ u * |e - x|)
    (hm : |v * t - m| ≤ u * |v * t| + η) (hp : |(x + m) - p| ≤ u * |x + m|) :
    |p - (x + τ * a)| ≤ u * (3 * |x| + 9 * A) + 4 * η := by
  have A0 : 0 ≤ A := (abs_nonneg a).trans ha
  have X0 : 0 ≤ |x| := abs_nonneg x
  have uA : u * A ≤ A / 1000 := by nlinarith
  have uX : u * |x| ≤ |x| / 1000 := by nlinarith
  have uη : u * η ≤ η / 1000 := by nlinarith
  have uA0 : 0 ≤ u * A := by positivity
  have uX0 : 0 ≤ u * |x| := by positivity
  have uη0 : 0 ≤ u * η := by positivity
  have mono : ∀ {y z : ℝ}, y ≤ z → u * y ≤ u * z := fun hyz => mul_le_mul_of_nonneg_left hyz u0
  have small : ∀ {y : ℝ}, 0 ≤ y → u * y ≤ y / 1000 := fun hy => by nlinarith
  -- sizes
  have W : |w| ≤ A + u * A + η := by
    have : |w| ≤ |a| + |a - w| := by
      have := abs_sub_abs_le_abs_sub w a
      rw [abs_sub_comm] at this
      linarith
    linarith
  have xw : |x + w| ≤ |x| + (A + u * A + η) := (abs_add_le x w).trans (by linarith)
  have he' : |(x + w) - e| ≤ u * |x| + u * A + u * (u * A) + u * η := by
    refine he.trans ((mono xw).trans (le_of_eq (by ring)))
  have uuA : u * (u * A) ≤ u * A / 1000 := small uA0
  have E : |e - x| ≤ A + 3 * (u * A) + u * |x| + 2 * η := by
    have : |e - x| ≤ |w| + |(x + w) - e| := by
      have := abs_sub_abs_le_abs_sub (e - x) w
      rw [show e - x - w = -((x + w) - e) by ring, abs_neg] at this
      linarith
    linarith
  have E0 := abs_nonneg (e - x)
  have V : |v| ≤ |e - x| + u * |e - x| := by
    have := abs_sub_abs_le_abs_sub v (e - x)
    rw [abs_sub_comm v] at this
    linarith
  have uE : u * |e - x| ≤ |e - x| / 1000 := small E0
  have uE2 : u * |e - x| ≤ u * A + 3 * (u * (u * A)) + u * (u * |x|) + 2 * (u * η) :=
    (mono E).trans (le_of_eq (by ring))
  have uuX : u * (u * |x|) ≤ u * |x| / 1000 := small uX0
  have vt : |v * t| ≤ |v| := by
    rw [abs_mul, abs_of_nonneg t0]
    nlinarith [abs_nonneg v]
  have uV : u * |v| ≤ 1001 / 1000 * (u * |e - x|) := by
    have h1 := mono V
    have h2 := small (mul_nonneg u0 E0)
    have : u * (|e - x| + u * |e - x|) = u * |e - x| + u * (u * |e - x|) := by ring
    linarith
  have hm' : |v * t - m| ≤ u * |v| + η := hm.trans (by linarith [mono vt])
  have M : |m| ≤ |v| + u * |v| + η := by
    have := abs_sub_abs_le_abs_sub m (v * t)
    rw [abs_sub_comm] at this
    linarith
  have uM : u * |m| ≤ 1001 / 1000 * (u * |v|) + u * η := by
    have h1 := mono M
    have h2 := small (mul_nonneg u0 (abs_nonneg v))
    have : u * (|v| + u * |v| + η) = u * |v| + u * (u * |v|) + u * η := by ring
    linarith
  have hp' : |(x + m) - p| ≤ u * |x| + u * |m| := by
    refine hp.trans ((mono (abs_add_le x m)).trans (le_of_eq (by ring)))
  -- the terms of the error
  have part : ∀ {y b : ℝ}, |y| ≤ b → |y * t| ≤ b := fun {y b} hy => by
    rw [abs_mul, abs_of_nonneg t0]
    nlinarith [abs_nonneg y]
  have k1 := abs_le.1 hp'
  have k2 := abs_le.1 hm'
  have k3 := abs_le.1 (part hv)
  have k4 := abs_le.1 (part he')
  have k5 := abs_le.1 (part hw)
  have k6 : |a * (τ - t)| ≤ u * A := by
    rw [abs_mul]
    nlinarith [abs_nonneg a, abs_nonneg (τ - t)]
  have k6 := abs_le.1 k6
  have key : p - (x + τ * a) = -((x + m) - p) - (v * t - m) - ((e - x) - v) * t - ((x + w) - e) * t - (a - w) * t
      - a * (τ - t) := by ring
  have goal : u * (3 * |x| + 9 * A) = 3 * (u * |x|) + 9 * (u * A) := by ring
  rw [key, goal, abs_le]
  constructor <;> linarith [k1.1, k1.2, k2.1, k2.2, k3.1, k3.2, k4.1, k4.2, k5.1, k5.2, k6.1, k6.2]

theorem cround_dist (x : ℝ) : |(cround x : ℝ) - x| ≤ 1 / 2 := by
  rw [abs_sub_comm]
  exact cround_near x

/-- The number of pieces is a whole number. -/
theorem nSteps_nat (fl : ℝ → ℝ) (step : ℝ) (s : PathState ℝ) :
    nSteps fl step s = (max 1 (cround |fl (s.len / step)|).toNat : ℕ) := by
  unfold nSteps
  have h0 := cround_nonneg (abs_nonneg (fl (s.len / step)))
  rw [Nat.cast_max, Nat.cast_one]
  congr 1
  exact_mod_cast (Int.toNat_of_nonneg h0).symm

/-- The loop goes through the whole numbers. -/
theorem pieceLoop_ok (h : IsRounding fl) (s : PathState ℝ) (e : RPoint) (n : Nat) (hn : n ≤ 2 ^ 53) :
    ∀ (k j : Nat), j + k = n →
      pieceLoop fl s e n k j = .ok ((List.range k).map fun i => piece fl s e n ((j + i : ℕ) : ℝ)) := by
  intro k
  induction k with
  | zero =>
    intro j hj
    rw [pieceLoop, if_neg (by rw [show j = n by omega]; exact lt_irrefl _)]
    simp
  | succ k ih =>
    intro j hj
    have e1 : fl ((j : ℝ) + 1) = ((j + 1 : ℕ) : ℝ) := by
      rw [← Nat.cast_succ]
      exact h.self (isDouble_nat _ (by omega))
    rw [pieceLoop, if_pos (by exact_mod_cast (by omega : j < n)), e1, ih (j + 1) (by omega), Outcome.ok_bind,
      List.range_succ_eq_map, List.map_cons, List.map_map]
    simp only [Outcome.pure_eq, add_zero, Outcome.ok.injEq, List.cons.injEq, true_and]
    refine List.map_congr_left fun i _ => ?_
    simp only [Function.comp, Nat.succ_eq_add_one]
    congr 2
    omega

/-- The counter of the loop gets stuck. -/
theorem pieceLoop_endless (h : IsRounding fl) (s : PathState ℝ) (e : RPoint) (n : ℝ) (hn : 2 ^ 54 + 4 < n) :
    ∀ (fuel : Nat) (j : ℝ), j ≤ 2 ^ 54 + 4 → pieceLoop fl s e n fuel j = .ub "endless loop" := by
  have stuck : ∀ j : ℝ, j ≤ 2 ^ 54 + 4 → fl (j + 1) ≤ 2 ^ 54 + 4 := by
    intro j hj
    have h1 : fl (2 ^ 54 + 4 + 1) = 2 ^ 54 + 4 := by
      have := h.eq_of_close (2 ^ 54 + 4 + 1) (2 ^ 52 + 1) 2 (by norm_num) (by norm_num) (by norm_num) (by norm_num)
      rw [this]
      norm_num
    rw [← h1]
    exact h.mono (by linarith)
  intro fuel
  induction fuel with
  | zero => intro j hj; rw [pieceLoop, if_pos (lt_of_le_of_lt hj hn)]
  | succ fuel ih =>
    intro j hj
    rw [pieceLoop, if_pos (lt_of_le_of_lt hj hn), ih _ (stuck j hj)]
    rfl

end F2C.Dbl
