import Verif.Lemmas.DoublePath

/-! # Sums and differences that need no rounding -/

namespace F2C.Dbl

variable {fl : ℝ → ℝ}

/-- The representation with as many digits as possible. -/
theorem IsDouble.normal {x : ℝ} (h : IsDouble x) (h0 : x ≠ 0) :
    ∃ m e : ℤ, |m| < 2 ^ 53 ∧ -1074 ≤ e ∧ x = m * (2 : ℝ) ^ e ∧ (2 ^ 52 ≤ |m| ∨ e = -1074) := by
  have key : ∀ (n : Nat) (m e : ℤ), |m| < 2 ^ 53 → e = n - 1074 → x = m * (2 : ℝ) ^ e →
      ∃ m e : ℤ, |m| < 2 ^ 53 ∧ -1074 ≤ e ∧ x = m * (2 : ℝ) ^ e ∧ (2 ^ 52 ≤ |m| ∨ e = -1074) := by
    intro n
    induction n with
    | zero =>
      intro m e hm he hx
      exact ⟨m, e, hm, by omega, hx, .inr (by simpa using he)⟩
    | succ n ih =>
      intro m e hm he hx
      by_cases hb : 2 ^ 52 ≤ |m|
      · exact ⟨m, e, hm, by omega, hx, .inl hb⟩
      · refine ih (m * 2) (e - 1) ?_ (by push_cast at he; omega) ?_
        · rw [abs_mul]
          norm_num at hb ⊢
          omega
        · rw [hx]
          push_cast
          rw [mul_assoc, ← zpow_one_add₀ two_ne_zero]
          congr 2
          ring
  obtain ⟨m, e, hm, he, hx⟩ := h
  rcases hm.lt_or_eq with hlt | heq
  · exact key (e + 1074).toNat m e hlt (by omega) hx
  · rcases abs_choice m with hc | hc
    · refine key (e + 1 + 1074).toNat (2 ^ 52) (e + 1) (by norm_num) (by omega) ?_
      rw [hx, ← hc, heq, zpow_add₀ two_ne_zero]
      norm_num
      ring
    · refine key (e + 1 + 1074).toNat (-2 ^ 52) (e + 1) (by norm_num) (by omega) ?_
      have : m = -2 ^ 53 := by omega
      rw [hx, this, zpow_add₀ two_ne_zero]
      norm_num
      ring

/-- Multiples of `2^e` that are not too large need no rounding. -/
theorem isDouble_of_multiple {x : ℝ} (k e : ℤ) (he : -1074 ≤ e) (hx : x = k * (2 : ℝ) ^ e)
    (hb : |x| ≤ 2 ^ 53 * (2 : ℝ) ^ e) : IsDouble x := by
  refine ⟨k, e, ?_, he, hx⟩
  rw [hx, abs_mul, abs_of_pos (two_zpow_pos e)] at hb
  have := le_of_mul_le_mul_right hb (two_zpow_pos e)
  exact_mod_cast this

theorem multiple_of_le {m e : ℤ} (g : ℤ) (h : e ≤ g) : ∃ k : ℤ, (m : ℝ) * (2 : ℝ) ^ g = k * (2 : ℝ) ^ e := by
  refine ⟨m * 2 ^ (g - e).toNat, ?_⟩
  push_cast
  rw [← zpow_natCast, Int.toNat_of_nonneg (by omega), mul_assoc, ← zpow_add₀ two_ne_zero]
  congr 2
  omega

/-- Large numbers are multiples of large powers of two. -/
theorem IsDouble.large {s : ℝ} (h : IsDouble s) (e : ℤ) (hs : 2 ^ 53 * (2 : ℝ) ^ e ≤ |s|) :
    ∃ k : ℤ, s = k * (2 : ℝ) ^ (e + 1) := by
  have h0 : s ≠ 0 := by
    rintro rfl
    have := two_zpow_pos e
    rw [abs_zero] at hs
    linarith
  obtain ⟨m, g, hm, -, rfl, -⟩ := h.normal h0
  refine multiple_of_le g ?_
  by_contra hc
  have : (2 : ℝ) ^ g ≤ 2 ^ e := zpow_le_zpow_right₀ (by norm_num) (by omega)
  rw [abs_mul, abs_of_pos (two_zpow_pos g)] at hs
  have hm' : |(m : ℝ)| < 2 ^ 53 := by exact_mod_cast hm
  have := two_zpow_pos g
  have : |(m : ℝ)| * 2 ^ g < 2 ^ 53 * 2 ^ g := by gcongr
  linarith

/-- Numbers that are larger are multiples of the last digit. -/
theorem multiple_of_larger {a y : ℝ} {m e : ℤ} (ha : a = m * (2 : ℝ) ^ e) (hn : 2 ^ 52 ≤ |m| ∨ e = -1074)
    (hy : IsDouble y) (hle : |a| ≤ |y|) : ∃ k : ℤ, y = k * (2 : ℝ) ^ e := by
  rcases hn with hn | hn
  · have h1 := two_zpow_pos e
    have hn' : (2 : ℝ) ^ 52 ≤ |(m : ℝ)| := by exact_mod_cast hn
    have := hy.large (e - 1) (by
      rw [ha, abs_mul, abs_of_pos h1] at hle
      rw [zpow_sub_one₀ two_ne_zero]
      nlinarith)
    simpa using this
  · rw [hn]
    exact hy.multiple

/-- Differences of numbers that are within a factor of two of each other are exact (Sterbenz). -/
theorem sub_exact {x r : ℝ} (hx : IsDouble x) (hr : IsDouble r) (h0 : 0 ≤ r) (h1 : r / 2 ≤ x) (h2 : x ≤ 2 * r) :
    IsDouble (x - r) := by
  rcases h0.eq_or_lt with h0 | h0
  · rw [← h0, sub_zero]
    exact hx
  have hx0 : 0 < x := by linarith
  rcases le_total x r with hle | hle
  · obtain ⟨m, e, hm, he, ex, hn⟩ := hx.normal hx0.ne'
    obtain ⟨k, ek⟩ := multiple_of_larger ex hn hr (by rwa [abs_of_pos hx0, abs_of_pos h0])
    refine isDouble_of_multiple (m - k) e he (by rw [ex, ek]; push_cast; ring) ?_
    have hm' : (m : ℝ) ≤ 2 ^ 53 := by exact_mod_cast ((le_abs_self m).trans hm.le)
    have := mul_le_mul_of_nonneg_right hm' (two_zpow_pos e).le
    rw [abs_of_nonpos (by linarith)]
    linarith
  · obtain ⟨m, e, hm, he, ex, hn⟩ := hr.normal h0.ne'
    obtain ⟨k, ek⟩ := multiple_of_larger ex hn hx (by rwa [abs_of_pos hx0, abs_of_pos h0])
    refine isDouble_of_multiple (k - m) e he (by rw [ex, ek]; push_cast; ring) ?_
    have hm' : (m : ℝ) ≤ 2 ^ 53 := by exact_mod_cast ((le_abs_self m).trans hm.le)
    have := mul_le_mul_of_nonneg_right hm' (two_zpow_pos e).le
    rw [abs_of_nonneg (by linarith)]
    linarith

/-- The sum of two numbers less the larger one is exact (Dekker). -/
theorem IsRounding.sum_sub (h : IsRounding fl) {f r : ℝ} (hf : IsDouble f) (hr : IsDouble r) (hle : |f| ≤ |r|) :
    IsDouble (fl (f + r) - r) := by
  by_cases h0 : f = 0
  · rw [h0, zero_add, h.self hr, sub_self]
    exact isDouble_zero
  obtain ⟨m, e, hm, he, ef, hn⟩ := hf.normal h0
  obtain ⟨n, en⟩ := multiple_of_larger ef hn hr hle
  have pe := two_zpow_pos e
  have hm' : |(m : ℝ)| ≤ 2 ^ 53 - 1 := by
    have : |m| ≤ 2 ^ 53 - 1 := by omega
    exact_mod_cast this
  have hfb : |f| ≤ (2 ^ 53 - 1) * (2 : ℝ) ^ e := by
    rw [ef, abs_mul, abs_of_pos pe]
    exact mul_le_mul_of_nonneg_right hm' pe.le
  by_cases hex : |f + r| ≤ 2 ^ 53 * (2 : ℝ) ^ e
  · rw [h.self (isDouble_of_multiple (m + n) e he (by rw [ef, en]; push_cast; ring) hex), add_sub_cancel_right]
    exact hf
  · rw [not_le] at hex
    -- the sum is a multiple of the next power of two
    have hb : IsDouble (2 ^ 53 * (2 : ℝ) ^ e) := ⟨2 ^ 53, e, by norm_num, he, by norm_num⟩
    have hs : 2 ^ 53 * (2 : ℝ) ^ e ≤ |fl (f + r)| := by
      rcases lt_abs.1 hex with h1 | h1
      · exact (h.ge hb h1.le).trans (le_abs_self _)
      · have := h.le hb.neg (x := f + r) (by linarith)
        exact le_trans (by linarith) (neg_le_abs _)
    obtain ⟨k, ek⟩ := (h.double (f + r)).large e hs
    by_cases hodd : ∃ n' : ℤ, r = n' * (2 : ℝ) ^ (e + 1)
    · obtain ⟨n', en'⟩ := hodd
      refine isDouble_of_multiple (k - n') (e + 1) (by omega) (by rw [ek]; conv_lhs => rw [en']
                                                                  push_cast; ring) ?_
      have := h.nearest (f + r) r hr
      have e1 : |f + r - r| = |f| := by rw [add_sub_cancel_right]
      have e2 : fl (f + r) - r = f - (f + r - fl (f + r)) := by ring
      rw [e2, zpow_add_one₀ two_ne_zero]
      have := abs_sub f (f + r - fl (f + r))
      linarith
    · have hrb : |r| < 2 ^ 53 * (2 : ℝ) ^ e := by
        by_contra hc
        exact hodd (hr.large e (not_lt.1 hc))
      refine isDouble_of_multiple (2 * k - n) e he (by
        rw [ek, zpow_add_one₀ two_ne_zero]; conv_lhs => rw [en]
        push_cast; ring) ?_
      have hub : |f + r| ≤ 2 ^ 53 * (2 : ℝ) ^ (e + 1) := by
        rw [zpow_add_one₀ two_ne_zero]
        have := abs_add_le f r
        linarith
      have her := h.abs_error (f + r) (e + 1) (by omega) hub
      have e2 : fl (f + r) - r = f - (f + r - fl (f + r)) := by ring
      rw [e2]
      have := abs_sub f (f + r - fl (f + r))
      rw [zpow_add_one₀ two_ne_zero] at her
      linarith

end F2C.Dbl
