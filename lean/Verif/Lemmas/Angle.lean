import Mathlib.Tactic.Linarith
import Mathlib.Tactic.Ring
import Mathlib.Tactic.FieldSimp
import Mathlib.Tactic.Positivity
import Mathlib.Tactic.LinearCombination
import Verif.Model.Angle

/-! # Lemmas about angles -/

namespace F2C

open Real

theorem fmod_of_nonneg {a b : ℝ} (hb : 0 < b) (ha : 0 ≤ a) : fmod a b = a - b * ⌊a / b⌋ := by
  rw [fmod, if_pos (div_nonneg ha hb.le)]

theorem fmod_bounds {a b : ℝ} (hb : 0 < b) : -b < fmod a b ∧ fmod a b < b := by
  unfold fmod
  have hmul : b * (a / b) = a := by field_simp
  split
  · have h1 := Int.floor_le (a / b)
    have h2 := Int.lt_floor_add_one (a / b)
    constructor
    · nlinarith
    · nlinarith
  · have h1 := Int.le_ceil (a / b)
    have h2 := Int.ceil_lt_add_one (a / b)
    constructor
    · nlinarith
    · nlinarith

theorem fmod_nonneg {a b : ℝ} (hb : 0 < b) (ha : 0 ≤ a) : 0 ≤ fmod a b := by
  rw [fmod_of_nonneg hb ha]
  have hmul : b * (a / b) = a := by field_simp
  have h1 := Int.floor_le (a / b)
  nlinarith

theorem fmod_congr (a b : ℝ) : ∃ k : ℤ, fmod a b = a + k * b := by
  unfold fmod
  split
  · exact ⟨-⌊a / b⌋, by push_cast; ring⟩
  · exact ⟨-⌈a / b⌉, by push_cast; ring⟩

theorem modF_range {a b : ℝ} (hb : 0 < b) : 0 ≤ modF a b ∧ modF a b < b := by
  have h := fmod_bounds (a := a) hb
  refine ⟨fmod_nonneg hb (by linarith), (fmod_bounds hb).2⟩

theorem modF_congr (a b : ℝ) : ∃ k : ℤ, modF a b = a + k * b := by
  obtain ⟨k, hk⟩ := fmod_congr a b
  obtain ⟨m, hm⟩ := fmod_congr (fmod a b + b) b
  refine ⟨m + k + 1, ?_⟩
  rw [modF, hm, hk]; push_cast; ring

theorem two_pi_pos' : (0 : ℝ) < 2 * π := by positivity

theorem mod2pi_nonneg (a : ℝ) : 0 ≤ mod2pi a := (modF_range two_pi_pos').1
theorem mod2pi_lt (a : ℝ) : mod2pi a < 2 * π := (modF_range two_pi_pos').2
theorem mod2pi_congr (a : ℝ) : ∃ k : ℤ, mod2pi a = a + k * (2 * π) := modF_congr _ _

/-- two numbers of `[0, 2π)` that differ by a multiple of `2π` are equal -/
theorem eq_of_congr_of_range {x y : ℝ} (hx0 : 0 ≤ x) (hx : x < 2 * π) (hy0 : 0 ≤ y)
    (hy : y < 2 * π) (h : ∃ k : ℤ, x = y + k * (2 * π)) : x = y := by
  obtain ⟨k, hk⟩ := h
  have hp := two_pi_pos'
  have h1 : (k : ℝ) < 1 := by
    by_contra hc
    push Not at hc
    nlinarith
  have h2 : (-1 : ℝ) < k := by
    by_contra hc
    push Not at hc
    nlinarith
  have h3 : k < 1 := by exact_mod_cast h1
  have h4 : -1 < k := by exact_mod_cast h2
  have : k = 0 := by omega
  rw [hk, this]; simp

theorem mod2pi_unique {a x : ℝ} (hx0 : 0 ≤ x) (hx : x < 2 * π)
    (h : ∃ k : ℤ, x = a + k * (2 * π)) : mod2pi a = x := by
  obtain ⟨k, hk⟩ := h
  obtain ⟨m, hm⟩ := mod2pi_congr a
  refine eq_of_congr_of_range (mod2pi_nonneg a) (mod2pi_lt a) hx0 hx ⟨m - k, ?_⟩
  rw [hm, hk]; push_cast; ring

theorem mod2pi_add_int (a : ℝ) (k : ℤ) : mod2pi (a + k * (2 * π)) = mod2pi a := by
  obtain ⟨m, hm⟩ := mod2pi_congr a
  refine mod2pi_unique (mod2pi_nonneg a) (mod2pi_lt a) ⟨m - k, ?_⟩
  rw [hm]; push_cast; ring

theorem mod2pi_of_range {a : ℝ} (h0 : 0 ≤ a) (h : a < 2 * π) : mod2pi a = a :=
  mod2pi_unique h0 h ⟨0, by simp⟩

theorem mod2pi_mod2pi (a : ℝ) : mod2pi (mod2pi a) = mod2pi a :=
  mod2pi_of_range (mod2pi_nonneg a) (mod2pi_lt a)

theorem mod2pi_eq_iff (a b : ℝ) : mod2pi a = mod2pi b ↔ ∃ k : ℤ, b = a + k * (2 * π) := by
  constructor
  · intro h
    obtain ⟨m, hm⟩ := mod2pi_congr a
    obtain ⟨n, hn⟩ := mod2pi_congr b
    refine ⟨m - n, ?_⟩
    rw [hm, hn] at h
    push_cast; linarith
  · rintro ⟨k, rfl⟩
    exact (mod2pi_add_int a k).symm

theorem cos_mod2pi (a : ℝ) : cos (mod2pi a) = cos a := by
  obtain ⟨k, hk⟩ := mod2pi_congr a
  rw [hk]; exact Real.cos_add_int_mul_two_pi a k

theorem sin_mod2pi (a : ℝ) : sin (mod2pi a) = sin a := by
  obtain ⟨k, hk⟩ := mod2pi_congr a
  rw [hk]; exact Real.sin_add_int_mul_two_pi a k

/-! ## getAngleDiffAbs -/

theorem angDiffAbs_eq (a b : ℝ) :
    angDiffAbs a b = if mod2pi (b - a) ≤ π then mod2pi (b - a) else 2 * π - mod2pi (b - a) := by
  unfold angDiffAbs
  split
  · rename_i h
    rw [abs_of_nonpos (by linarith)]; ring
  · rename_i h
    rw [abs_of_pos (by linarith)]; ring

theorem angDiffAbs_range (a b : ℝ) : 0 ≤ angDiffAbs a b ∧ angDiffAbs a b ≤ π := by
  rw [angDiffAbs_eq]
  have h1 := mod2pi_nonneg (b - a)
  have h2 := mod2pi_lt (b - a)
  split
  · constructor <;> linarith
  · constructor <;> linarith

/-- `angDiffAbs` is the distance of `b - a` to the multiples of `2π`: it is attained ... -/
theorem angDiffAbs_attained (a b : ℝ) : ∃ k : ℤ, angDiffAbs a b = |b - a + k * (2 * π)| := by
  obtain ⟨k, hk⟩ := mod2pi_congr (b - a)
  have h1 := mod2pi_nonneg (b - a)
  have h2 := mod2pi_lt (b - a)
  rw [angDiffAbs_eq]
  split
  · exact ⟨k, by rw [← hk, abs_of_nonneg h1]⟩
  · refine ⟨k - 1, ?_⟩
    have : b - a + ((k - 1 : ℤ) : ℝ) * (2 * π) = mod2pi (b - a) - 2 * π := by
      rw [hk]; push_cast; ring
    rw [this, abs_of_neg (by linarith)]; ring

/-- ... and it is the smallest. -/
theorem angDiffAbs_le (a b : ℝ) (k : ℤ) : angDiffAbs a b ≤ |b - a + k * (2 * π)| := by
  obtain ⟨m, hm⟩ := mod2pi_congr (b - a)
  have h1 := mod2pi_nonneg (b - a)
  have h2 := mod2pi_lt (b - a)
  have hp := two_pi_pos'
  have e : b - a + k * (2 * π) = mod2pi (b - a) + ((k - m : ℤ) : ℝ) * (2 * π) := by
    rw [hm]; push_cast; ring
  rw [e]
  generalize k - m = j
  have hle : angDiffAbs a b ≤ mod2pi (b - a) ∧ angDiffAbs a b ≤ 2 * π - mod2pi (b - a) := by
    rw [angDiffAbs_eq]
    split <;> constructor <;> linarith
  rcases lt_trichotomy j 0 with h | h | h
  · have : (j : ℝ) ≤ -1 := by exact_mod_cast (by omega : j ≤ -1)
    have h3 : mod2pi (b - a) + (j : ℝ) * (2 * π) ≤ mod2pi (b - a) - 2 * π := by nlinarith
    have := neg_le_abs (mod2pi (b - a) + (j : ℝ) * (2 * π))
    linarith [hle.2]
  · subst h
    simp only [Int.cast_zero, zero_mul, add_zero]
    exact hle.1.trans (le_abs_self _)
  · have : (1 : ℝ) ≤ j := by exact_mod_cast (by omega : 1 ≤ j)
    have h3 : mod2pi (b - a) + 2 * π ≤ mod2pi (b - a) + (j : ℝ) * (2 * π) := by nlinarith
    have := le_abs_self (mod2pi (b - a) + (j : ℝ) * (2 * π))
    linarith [hle.1]

/-- characterisation used for the average -/
theorem angDiffAbs_of_small {a b d : ℝ} (k : ℤ) (h : b - a + k * (2 * π) = d) (hd : |d| ≤ π) :
    angDiffAbs a b = |d| := by
  apply le_antisymm
  · rw [← h]; exact angDiffAbs_le a b k
  · obtain ⟨m, hm⟩ := angDiffAbs_attained a b
    rw [hm]
    have hp := Real.pi_pos
    have e : b - a + m * (2 * π) = d + ((m - k : ℤ) : ℝ) * (2 * π) := by
      rw [← h]; push_cast; ring
    rw [e]
    generalize m - k = j
    have h1 := (abs_le.mp hd).1
    have h2 := (abs_le.mp hd).2
    rcases lt_trichotomy j 0 with h | h | h
    · have : (j : ℝ) ≤ -1 := by exact_mod_cast (by omega : j ≤ -1)
      have h3 : d + (j : ℝ) * (2 * π) ≤ d - 2 * π := by nlinarith
      have := neg_le_abs (d + (j : ℝ) * (2 * π))
      linarith
    · subst h; simp
    · have : (1 : ℝ) ≤ j := by exact_mod_cast (by omega : 1 ≤ j)
      have h3 : d + 2 * π ≤ d + (j : ℝ) * (2 * π) := by nlinarith
      have := le_abs_self (d + (j : ℝ) * (2 * π))
      linarith

/-! ## getAngContinuity -/

theorem cround_near (x : ℝ) : |x - cround x| ≤ 1 / 2 := by
  unfold cround
  split
  · have h1 := Int.floor_le (x + 1 / 2)
    have h2 := Int.lt_floor_add_one (x + 1 / 2)
    rw [abs_le]; constructor <;> linarith
  · have h1 := Int.le_ceil (x - 1 / 2)
    have h2 := Int.ceil_lt_add_one (x - 1 / 2)
    rw [abs_le]; constructor <;> linarith

theorem nearVal_congr (i : ℤ) (v : ℝ) : ∃ k : ℤ, nearVal i v = v + k * (2 * π) := by
  obtain ⟨k, hk⟩ := mod2pi_congr v
  exact ⟨i + k, by rw [nearVal, hk]; push_cast; ring⟩

/-- in range, the result is congruent to the value and at most `π` from the previous one -/
theorem angContinuity_spec (prev v : ℝ)
    (h1 : -2147483646 ≤ cround (prev / (2 * π))) (h2 : cround (prev / (2 * π)) ≤ 2147483646) :
    ∃ r, angContinuity prev v = .ok r ∧ (∃ k : ℤ, r = v + k * (2 * π)) ∧ |r - prev| ≤ π := by
  set n := cround (prev / (2 * π)) with hn
  have hp := two_pi_pos'
  have hm0 := mod2pi_nonneg v
  have hm1 := mod2pi_lt v
  have hr := cround_near (prev / (2 * π))
  rw [← hn] at hr
  have hr1 : |prev - n * (2 * π)| ≤ π := by
    have : prev - n * (2 * π) = (prev / (2 * π) - n) * (2 * π) := by field_simp
    rw [this, abs_mul, abs_of_pos hp]
    nlinarith
  obtain ⟨hlo, hhi⟩ := abs_le.mp hr1
  have e0 : nearVal (n - 2) v = n * (2 * π) + mod2pi v - 2 * (2 * π) := by
    rw [nearVal]; push_cast; ring
  have e1 : nearVal (n - 1) v = n * (2 * π) + mod2pi v - (2 * π) := by
    rw [nearVal]; push_cast; ring
  have e2 : nearVal n v = n * (2 * π) + mod2pi v := by rw [nearVal]
  have e3 : nearVal (n + 1) v = n * (2 * π) + mod2pi v + (2 * π) := by
    rw [nearVal]; push_cast; ring
  unfold angContinuity
  simp only [← hn]
  rw [if_neg (by omega)]
  set t := n * (2 * π) + mod2pi v - prev with ht
  have f0 : nearVal (n - 2) v - prev = t - 4 * π := by rw [e0, ht]; ring
  have f1 : nearVal (n - 1) v - prev = t - 2 * π := by rw [e1, ht]; ring
  have f2 : nearVal n v - prev = t := by rw [e2]
  have f3 : nearVal (n + 1) v - prev = t + 2 * π := by rw [e3, ht]; ring
  have ht1 : -π ≤ t := by rw [ht]; linarith
  have ht2 : t < 3 * π := by rw [ht]; linarith
  rw [f0, f1, f2, f3]
  split
  · rename_i h
    exfalso
    have : |t - 4 * π| = 4 * π - t := by rw [abs_of_neg (by linarith)]; ring
    rw [this] at h
    rcases abs_cases (t - 2 * π) with ⟨h5, _⟩ | ⟨h5, _⟩ <;> rw [h5] at h <;> linarith
  · split
    · rename_i h
      refine ⟨_, rfl, nearVal_congr _ _, ?_⟩
      rw [f1]
      rcases abs_cases (t - 2 * π) with ⟨h5, h6⟩ | ⟨h5, h6⟩
      · rw [h5]; linarith
      · rw [h5] at h ⊢
        rcases abs_cases t with ⟨h7, h8⟩ | ⟨h7, h8⟩ <;> rw [h7] at h <;> linarith
    · rename_i h
      split
      · refine ⟨_, rfl, nearVal_congr _ _, ?_⟩
        rw [f2]
        push Not at h
        rw [abs_le]
        constructor
        · exact ht1
        · rcases abs_cases t with ⟨h7, h8⟩ | ⟨h7, h8⟩ <;>
          rcases abs_cases (t - 2 * π) with ⟨h5, h6⟩ | ⟨h5, h6⟩ <;>
          rw [h5, h7] at h <;> linarith
      · rename_i h'
        refine ⟨_, rfl, nearVal_congr _ _, ?_⟩
        rw [f3]
        push Not at h'
        rw [abs_of_nonneg (by linarith)] at h' ⊢
        rcases abs_cases t with ⟨h7, h8⟩ | ⟨h7, h8⟩
        · rw [h7] at h'; linarith
        · linarith

/-! ## getAngleAvg -/

theorem angAvg_spec (a b : ℝ) :
    angDiffAbs a (angAvg a b) = angDiffAbs a b / 2 ∧
    angDiffAbs b (angAvg a b) = angDiffAbs a b / 2 := by
  have hp := Real.pi_pos
  obtain ⟨k, hk⟩ := mod2pi_congr a
  obtain ⟨m, hm⟩ := mod2pi_congr b
  have a0 := mod2pi_nonneg a
  have a1 := mod2pi_lt a
  have b0 := mod2pi_nonneg b
  have b1 := mod2pi_lt b
  set x := mod2pi a
  set y := mod2pi b
  have ha : a = x - k * (2 * π) := by linarith
  have hb : b = y - m * (2 * π) := by linarith
  unfold angAvg
  split
  · rename_i h
    have hd : angDiffAbs a b = |y - x| := by
      refine angDiffAbs_of_small (m - k) ?_ h.le
      rw [ha, hb]; push_cast; ring
    have habs : |(y - x) / 2| = |y - x| / 2 := by rw [abs_div]; norm_num
    have hsm : |(y - x) / 2| ≤ π := by rw [habs]; linarith [abs_nonneg (y - x)]
    rw [hd]
    constructor
    · rw [← habs]
      refine angDiffAbs_of_small (-k) ?_ hsm
      show 1 / 2 * (x + y) - a + _ = _
      rw [ha]; push_cast; ring
    · rw [← habs, ← abs_neg]
      refine angDiffAbs_of_small (-m) ?_ (by rw [abs_neg]; exact hsm)
      show 1 / 2 * (x + y) - b + _ = _
      rw [hb]; push_cast; ring
  · rename_i h
    push Not at h
    rcases le_total x y with hxy | hxy
    · have habs : |y - x| = y - x := abs_of_nonneg (by linarith)
      rw [habs] at h
      have hd : angDiffAbs a b = 2 * π - (y - x) := by
        have : |y - x - 2 * π| = 2 * π - (y - x) := by
          rw [abs_of_nonpos (by linarith)]; ring
        rw [← this]
        refine angDiffAbs_of_small (m - k - 1) ?_ (by rw [this]; linarith)
        rw [ha, hb]; push_cast; ring
      rw [hd]
      constructor
      · have : |(y - x) / 2 - π| = (2 * π - (y - x)) / 2 := by
          rw [abs_of_nonpos (by linarith)]; ring
        rw [← this]
        refine angDiffAbs_of_small (-k - 1) ?_ (by rw [this]; linarith)
        show 1 / 2 * (x + y) + π - a + _ = _
        rw [ha]; push_cast; ring
      · have : |π - (y - x) / 2| = (2 * π - (y - x)) / 2 := by
          rw [abs_of_nonneg (by linarith)]; ring
        rw [← this]
        refine angDiffAbs_of_small (-m) ?_ (by rw [this]; linarith)
        show 1 / 2 * (x + y) + π - b + _ = _
        rw [hb]; push_cast; ring
    · have habs : |y - x| = x - y := by rw [abs_of_nonpos (by linarith)]; ring
      rw [habs] at h
      have hd : angDiffAbs a b = 2 * π - (x - y) := by
        have : |y - x + 2 * π| = 2 * π - (x - y) := by
          rw [abs_of_nonneg (by linarith)]; ring
        rw [← this]
        refine angDiffAbs_of_small (m - k + 1) ?_ (by rw [this]; linarith)
        rw [ha, hb]; push_cast; ring
      rw [hd]
      constructor
      · have : |π - (x - y) / 2| = (2 * π - (x - y)) / 2 := by
          rw [abs_of_nonneg (by linarith)]; ring
        rw [← this]
        refine angDiffAbs_of_small (-k) ?_ (by rw [this]; linarith)
        show 1 / 2 * (x + y) + π - a + _ = _
        rw [ha]; push_cast; ring
      · have : |(x - y) / 2 - π| = (2 * π - (x - y)) / 2 := by
          rw [abs_of_nonpos (by linarith)]; ring
        rw [← this]
        refine angDiffAbs_of_small (-m - 1) ?_ (by rw [this]; linarith)
        show 1 / 2 * (x + y) + π - b + _ = _
        rw [hb]; push_cast; ring

end F2C
