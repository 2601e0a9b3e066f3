import Mathlib.Data.Real.Archimedean
import Mathlib.Analysis.Real.Pi.Bounds
import Verif.Model.Double
import Verif.Lemmas.Angle

/-! # Lemmas about double precision -/

namespace F2C.Dbl

/-! ## There is a rounding -/

theorem two_zpow_pos (e : ℤ) : (0 : ℝ) < (2 : ℝ) ^ e := by positivity

/-- Exponent of the last digit. -/
noncomputable def lastExp (x : ℝ) : ℤ := max (-1074) (Int.log 2 |x| - 52)

/-- A concrete rounding. -/
noncomputable def toNearest (x : ℝ) : ℝ := round (x / (2 : ℝ) ^ lastExp x) * (2 : ℝ) ^ lastExp x

theorem toNearest_le_mul (x : ℝ) (k : ℤ) : |x - toNearest x| ≤ |x - k * (2 : ℝ) ^ lastExp x| := by
  have hp := two_zpow_pos (lastExp x)
  have h := round_le (x / (2 : ℝ) ^ lastExp x) k
  have e : ∀ z : ℝ, |x - z * (2 : ℝ) ^ lastExp x| = |x / (2 : ℝ) ^ lastExp x - z| * (2 : ℝ) ^ lastExp x := by
    intro z
    rw [← abs_of_pos hp, ← abs_mul, abs_of_pos hp, sub_mul, div_mul_cancel₀ _ hp.ne']
  unfold toNearest
  rw [e, e]
  exact mul_le_mul_of_nonneg_right h hp.le

theorem abs_lt_lastExp (x : ℝ) : |x| < (2 : ℝ) ^ 53 * (2 : ℝ) ^ lastExp x := by
  have h := Int.lt_zpow_succ_log_self (b := 2) (by norm_num) |x|
  push_cast at h
  refine lt_of_lt_of_le h ?_
  rw [← zpow_natCast, ← zpow_add₀ two_ne_zero]
  refine zpow_le_zpow_right₀ (by norm_num) ?_
  unfold lastExp
  have := le_max_right (-1074) (Int.log 2 |x| - 52)
  push_cast
  linarith

theorem toNearest_double (x : ℝ) : IsDouble (toNearest x) := by
  refine ⟨_, lastExp x, ?_, le_max_left _ _, rfl⟩
  have hp := two_zpow_pos (lastExp x)
  have h := abs_lt_lastExp x
  have h1 : |x / (2 : ℝ) ^ lastExp x| < 2 ^ 53 := by
    rw [abs_div, abs_of_pos hp, div_lt_iff₀ hp]
    exact h
  rw [abs_lt] at h1
  have h2 := abs_sub_round (x / (2 : ℝ) ^ lastExp x)
  rw [abs_le] at h2 ⊢
  constructor
  · have : (-(2 : ℝ) ^ 53 - 1) < (round (x / (2 : ℝ) ^ lastExp x) : ℝ) := by linarith [h2.2, h1.1]
    have : ((-2 ^ 53 - 1 : ℤ) : ℝ) < (round (x / (2 : ℝ) ^ lastExp x) : ℝ) := by push_cast; linarith
    have := Int.cast_lt.1 this
    omega
  · have : (round (x / (2 : ℝ) ^ lastExp x) : ℝ) < (2 : ℝ) ^ 53 + 1 := by linarith [h2.1, h1.2]
    have : (round (x / (2 : ℝ) ^ lastExp x) : ℝ) < ((2 ^ 53 + 1 : ℤ) : ℝ) := by push_cast; linarith
    have := Int.cast_lt.1 this
    omega

theorem toNearest_nearest (x d : ℝ) (hd : IsDouble d) : |x - toNearest x| ≤ |x - d| := by
  by_cases hx0 : x = 0
  · subst hx0
    simp [toNearest]
  obtain ⟨m, e, hm, he, rfl⟩ := hd
  by_cases h : lastExp x ≤ e
  · obtain ⟨n, hn⟩ := Int.eq_ofNat_of_zero_le (sub_nonneg.2 h)
    have : (m : ℝ) * (2 : ℝ) ^ e = ((m * 2 ^ n : ℤ) : ℝ) * (2 : ℝ) ^ lastExp x := by
      rw [show e = n + lastExp x by omega, zpow_add₀ two_ne_zero, zpow_natCast]
      push_cast; ring
    rw [this]
    exact toNearest_le_mul x _
  · have h := not_le.1 h
    have hlog : lastExp x = Int.log 2 |x| - 52 := by
      unfold lastExp at h ⊢
      apply max_eq_right
      rcases le_total (-1074) (Int.log 2 |x| - 52) with h' | h'
      · exact h'
      · rw [max_eq_left h'] at h; omega
    have hx : 0 < |x| := abs_pos.2 hx0
    have hB : (2 : ℝ) ^ 52 * (2 : ℝ) ^ lastExp x ≤ |x| := by
      have := Int.zpow_log_le_self (b := 2) (by norm_num) hx
      push_cast at this
      rwa [← zpow_natCast, ← zpow_add₀ two_ne_zero, hlog, show ((52 : Nat) : ℤ) + (Int.log 2 |x| - 52) = Int.log 2 |x| by
        push_cast; ring]
    have hd : |(m : ℝ) * (2 : ℝ) ^ e| ≤ (2 : ℝ) ^ 52 * (2 : ℝ) ^ lastExp x := by
      rw [abs_mul, abs_of_pos (two_zpow_pos e)]
      have h1 : |(m : ℝ)| ≤ 2 ^ 53 := by exact_mod_cast hm
      have h2 : (2 : ℝ) ^ e ≤ (2 : ℝ) ^ (lastExp x - 1) := zpow_le_zpow_right₀ (by norm_num) (by omega)
      rw [zpow_sub_one₀ two_ne_zero] at h2
      have := mul_le_mul h1 h2 (two_zpow_pos e).le (by positivity)
      linarith
    rcases le_total 0 x with h0 | h0
    · refine (toNearest_le_mul x (2 ^ 52)).trans ?_
      rw [abs_of_nonneg h0] at hB
      push_cast
      rw [abs_le] at hd
      rw [abs_of_nonneg (by linarith), abs_of_nonneg (by linarith [hd.2])]
      linarith [hd.2]
    · refine (toNearest_le_mul x (-2 ^ 52)).trans ?_
      rw [abs_of_nonpos h0] at hB
      push_cast
      rw [abs_le] at hd
      rw [abs_of_nonpos (by linarith), abs_of_nonpos (by linarith [hd.1])]
      linarith [hd.1]

theorem toNearest_isRounding : IsRounding toNearest := ⟨toNearest_double, toNearest_nearest⟩

/-! ## Facts about every rounding -/

variable {fl : ℝ → ℝ}

theorem IsRounding.self (h : IsRounding fl) {d : ℝ} (hd : IsDouble d) : fl d = d := by
  have := h.nearest d d hd
  rw [sub_self, abs_zero] at this
  have := abs_nonpos_iff.1 this
  linarith

theorem IsRounding.mono (h : IsRounding fl) {x y : ℝ} (hxy : x ≤ y) : fl x ≤ fl y := by
  rcases hxy.lt_or_eq with hlt | rfl
  · by_contra hgt
    have hgt := not_le.1 hgt
    have h1 := h.nearest x (fl y) (h.double y)
    have h2 := h.nearest y (fl x) (h.double x)
    rcases abs_cases (x - fl x) with ⟨a1, b1⟩ | ⟨a1, b1⟩ <;> rcases abs_cases (x - fl y) with ⟨a2, b2⟩ | ⟨a2, b2⟩ <;>
      rcases abs_cases (y - fl x) with ⟨a3, b3⟩ | ⟨a3, b3⟩ <;> rcases abs_cases (y - fl y) with ⟨a4, b4⟩ | ⟨a4, b4⟩ <;>
      linarith
  · exact le_rfl

theorem IsRounding.le (h : IsRounding fl) {x d : ℝ} (hd : IsDouble d) (hx : x ≤ d) : fl x ≤ d := by
  have := h.mono hx
  rwa [h.self hd] at this

theorem IsRounding.ge (h : IsRounding fl) {x d : ℝ} (hd : IsDouble d) (hx : d ≤ x) : d ≤ fl x := by
  have := h.mono hx
  rwa [h.self hd] at this

theorem isDouble_zero : IsDouble 0 := ⟨0, 0, by norm_num, by norm_num, by norm_num⟩

theorem IsDouble.neg {d : ℝ} (h : IsDouble d) : IsDouble (-d) := by
  obtain ⟨m, e, hm, he, rfl⟩ := h
  exact ⟨-m, e, by rwa [abs_neg], he, by push_cast; ring⟩

/-- Absolute error: `e` is an exponent at which `x` has at most 53 digits. -/
theorem IsRounding.abs_error (h : IsRounding fl) (x : ℝ) (e : ℤ) (he : -1074 ≤ e)
    (hx : |x| ≤ (2 : ℝ) ^ 53 * (2 : ℝ) ^ e) : |x - fl x| ≤ (2 : ℝ) ^ e / 2 := by
  have hp := two_zpow_pos e
  have hd : IsDouble (round (x / (2 : ℝ) ^ e) * (2 : ℝ) ^ e) := by
    refine ⟨_, e, ?_, he, rfl⟩
    have h1 : |x / (2 : ℝ) ^ e| ≤ 2 ^ 53 := by
      rw [abs_div, abs_of_pos hp, div_le_iff₀ hp]
      exact hx
    rw [abs_le] at h1
    have h2 := abs_sub_round (x / (2 : ℝ) ^ e)
    rw [abs_le] at h2 ⊢
    constructor
    · have : ((-2 ^ 53 - 1 : ℤ) : ℝ) < (round (x / (2 : ℝ) ^ e) : ℝ) := by push_cast; linarith [h2.2, h1.1]
      have := Int.cast_lt.1 this
      omega
    · have : (round (x / (2 : ℝ) ^ e) : ℝ) < ((2 ^ 53 + 1 : ℤ) : ℝ) := by push_cast; linarith [h2.1, h1.2]
      have := Int.cast_lt.1 this
      omega
  refine (h.nearest x _ hd).trans ?_
  have h2 := abs_sub_round (x / (2 : ℝ) ^ e)
  have : |x - round (x / (2 : ℝ) ^ e) * (2 : ℝ) ^ e| = |x / (2 : ℝ) ^ e - round (x / (2 : ℝ) ^ e)| * (2 : ℝ) ^ e := by
    rw [← abs_of_pos hp, ← abs_mul, abs_of_pos hp, sub_mul, div_mul_cancel₀ _ hp.ne']
  rw [this]
  have := mul_le_mul_of_nonneg_right h2 hp.le
  linarith

/-- Relative error of numbers that are not tiny. -/
theorem IsRounding.rel_error (h : IsRounding fl) (x : ℝ) (hx : (2 : ℝ) ^ (-1022 : ℤ) ≤ |x|) :
    |x - fl x| ≤ |x| / 2 ^ 53 := by
  have hx0 : 0 < |x| := lt_of_lt_of_le (two_zpow_pos _) hx
  have hlog : -1022 ≤ Int.log 2 |x| := by
    have := Int.log_mono_right (b := 2) (two_zpow_pos (-1022)) hx
    rwa [show ((2 : ℝ) ^ (-1022 : ℤ)) = (((2 : Nat) : ℝ) ^ (-1022 : ℤ)) by norm_num, Int.log_zpow (by norm_num)] at this
  have h1 := Int.zpow_log_le_self (b := 2) (by norm_num) hx0
  have h2 := Int.lt_zpow_succ_log_self (b := 2) (by norm_num) |x|
  push_cast at h1 h2
  refine (h.abs_error x (Int.log 2 |x| - 52) (by omega) ?_).trans ?_
  · rw [← zpow_natCast, ← zpow_add₀ two_ne_zero]
    refine h2.le.trans (zpow_le_zpow_right₀ (by norm_num) (by push_cast; linarith))
  · rw [zpow_sub₀ two_ne_zero, div_div, le_div_iff₀ (by positivity)]
    have : ((2 : ℝ) ^ (52 : ℤ)) = 2 ^ 52 := by norm_cast
    rw [this, div_mul_eq_mul_div, div_le_iff₀ (by positivity)]
    linarith

/-- A number close to one with 53 digits is rounded to that one. -/
theorem IsRounding.eq_of_close (h : IsRounding fl) (x : ℝ) (m e : ℤ) (h1 : 2 ^ 52 < m) (h2 : m ≤ 2 ^ 53)
    (he : -1074 ≤ e) (hx : |x - m * (2 : ℝ) ^ e| < (2 : ℝ) ^ e / 2) : fl x = m * (2 : ℝ) ^ e := by
  have hp := two_zpow_pos e
  have hd : IsDouble ((m : ℝ) * (2 : ℝ) ^ e) := ⟨m, e, abs_le.2 ⟨by omega, by omega⟩, he, rfl⟩
  have hn := h.nearest x _ hd
  have hclose : |fl x - m * (2 : ℝ) ^ e| < (2 : ℝ) ^ e := by
    have := abs_sub_le (fl x) x (m * (2 : ℝ) ^ e)
    rw [abs_sub_comm (fl x) x] at this
    linarith
  obtain ⟨m', e', hm', he', hfl⟩ := h.double x
  rw [hfl] at hclose ⊢
  rw [abs_lt] at hclose
  by_cases hle : e ≤ e'
  · obtain ⟨n, hn⟩ := Int.eq_ofNat_of_zero_le (sub_nonneg.2 hle)
    have e1 : (m' : ℝ) * (2 : ℝ) ^ e' = ((m' * 2 ^ n : ℤ) : ℝ) * (2 : ℝ) ^ e := by
      rw [show e' = n + e by omega, zpow_add₀ two_ne_zero, zpow_natCast]
      push_cast; ring
    rw [e1] at hclose ⊢
    have k1 : ((m' * 2 ^ n : ℤ) : ℝ) < ((m + 1 : ℤ) : ℝ) := by
      refine lt_of_mul_lt_mul_right (a := (2 : ℝ) ^ e) ?_ hp.le
      push_cast at hclose ⊢
      linarith [hclose.2]
    have k2 : ((m - 1 : ℤ) : ℝ) < ((m' * 2 ^ n : ℤ) : ℝ) := by
      refine lt_of_mul_lt_mul_right (a := (2 : ℝ) ^ e) ?_ hp.le
      push_cast at hclose ⊢
      linarith [hclose.1]
    have k1 := Int.cast_lt.1 k1
    have k2 := Int.cast_lt.1 k2
    rw [show m' * 2 ^ n = m by omega]
  · exfalso
    have hle := not_le.1 hle
    have b1 : (m' : ℝ) * (2 : ℝ) ^ e' ≤ (2 : ℝ) ^ 52 * (2 : ℝ) ^ e := by
      have a1 : (m' : ℝ) ≤ 2 ^ 53 := by exact_mod_cast (abs_le.1 hm').2
      have a2 : (2 : ℝ) ^ e' ≤ (2 : ℝ) ^ (e - 1) := zpow_le_zpow_right₀ (by norm_num) (by omega)
      rw [zpow_sub_one₀ two_ne_zero] at a2
      have a3 := mul_le_mul_of_nonneg_right a1 (two_zpow_pos e').le
      have a4 := mul_le_mul_of_nonneg_left a2 (by positivity : (0 : ℝ) ≤ 2 ^ 53)
      linarith
    have b2 : ((2 : ℝ) ^ 52 + 1) * (2 : ℝ) ^ e ≤ m * (2 : ℝ) ^ e := by
      refine mul_le_mul_of_nonneg_right ?_ hp.le
      have : ((2 ^ 52 + 1 : ℤ) : ℝ) ≤ m := by exact_mod_cast h1
      push_cast at this
      linarith
    linarith [hclose.1]

/-! ## Constants -/

theorem isDouble_twoPi : IsDouble twoPi := ⟨7074237752028440, -50, by norm_num, by norm_num, by norm_num [twoPi]⟩

theorem isDouble_pi : IsDouble pi := ⟨7074237752028440, -51, by norm_num, by norm_num, by norm_num [pi]⟩

theorem isDouble_two_twoPi : IsDouble (2 * twoPi) :=
  ⟨7074237752028440, -49, by norm_num, by norm_num, by norm_num [twoPi]⟩

theorem twoPi_eq : twoPi = 2 * pi := by norm_num [twoPi, pi]

theorem twoPi_bounds : (6283 / 1000 : ℝ) < twoPi ∧ twoPi < 6284 / 1000 := by
  constructor <;> norm_num [twoPi]

theorem pi_bounds : (31415 / 10000 : ℝ) < pi ∧ pi < 31416 / 10000 := by
  constructor <;> norm_num [pi]

/-- The double is a little less than π. -/
theorem pi_error : 0 < Real.pi - pi ∧ Real.pi - pi < (2 : ℝ) ^ (-52 : ℤ) := by
  have h1 := Real.pi_gt_d20
  have h2 := Real.pi_lt_d20
  constructor <;> norm_num [pi] at h1 h2 ⊢ <;> linarith

/-! ## fmod -/

theorem fmod_small {a b : ℝ} (h1 : -b < a) (h2 : a < b) : fmod a b = a := by
  have hb : 0 < b := by linarith
  unfold fmod
  split
  · rename_i h
    have : ⌊a / b⌋ = 0 := by
      rw [Int.floor_eq_zero_iff]
      exact ⟨h, by rw [div_lt_one hb]; exact h2⟩
    rw [this]; simp
  · rename_i h
    have h := not_le.1 h
    have : ⌈a / b⌉ = 0 := by
      rw [Int.ceil_eq_zero_iff]
      refine ⟨?_, h.le⟩
      rw [lt_div_iff₀ hb]; linarith
    rw [this]; simp

theorem fmod_second {a b : ℝ} (hb : 0 < b) (h1 : b ≤ a) (h2 : a < 2 * b) : fmod a b = a - b := by
  rw [fmod_of_nonneg hb (by linarith)]
  have : ⌊a / b⌋ = 1 := by
    rw [Int.floor_eq_iff]
    push_cast
    exact ⟨by rw [le_div_iff₀ hb]; linarith, by rw [div_lt_iff₀ hb]; linarith⟩
  rw [this]; push_cast; ring

/-! ## mod_2pi -/

theorem sum_bounds (v : ℝ) : 0 < fmod v twoPi + twoPi ∧ fmod v twoPi + twoPi < 2 * twoPi := by
  have := twoPi_bounds
  have := fmod_bounds (a := v) (b := twoPi) (by linarith)
  constructor <;> linarith

theorem mod2pi_range (h : IsRounding fl) (v : ℝ) : 0 ≤ mod2pi fl v ∧ mod2pi fl v < twoPi := by
  have hT := twoPi_bounds
  refine ⟨fmod_nonneg (by linarith) (h.ge isDouble_zero (sum_bounds v).1.le), (fmod_bounds (by linarith)).2⟩

theorem mod2pi_congr (h : IsRounding fl) (v : ℝ) :
    ∃ k : ℤ, |mod2pi fl v - (v + k * twoPi)| ≤ (2 : ℝ) ^ (-50 : ℤ) := by
  have hT := twoPi_bounds
  obtain ⟨j, hj⟩ := fmod_congr v twoPi
  obtain ⟨i, hi⟩ := fmod_congr (fl (fmod v twoPi + twoPi)) twoPi
  have hs := sum_bounds v
  have he := h.abs_error (fmod v twoPi + twoPi) (-49) (by norm_num) (by
    rw [abs_of_pos hs.1]
    refine hs.2.le.trans ?_
    norm_num [twoPi])
  refine ⟨i + j + 1, ?_⟩
  have : mod2pi fl v - (v + ((i + j + 1 : ℤ) : ℝ) * twoPi) = -((fmod v twoPi + twoPi) - fl (fmod v twoPi + twoPi)) := by
    unfold mod2pi mod
    rw [hi]
    push_cast
    linear_combination hj
  rw [this, abs_neg]
  refine he.trans ?_
  norm_num

theorem angDiffAbs_near (a b m : ℝ) (k : ℤ) (h0 : 0 ≤ m) (h1 : m < 2 * Real.pi) :
    |F2C.angDiffAbs a b - (Real.pi - |m - Real.pi|)| ≤ |m - (b - a + k * (2 * Real.pi))| := by
  have e : F2C.angDiffAbs 0 m = Real.pi - |m - Real.pi| := by
    unfold F2C.angDiffAbs
    rw [sub_zero, F2C.mod2pi_of_range h0 h1]
  rw [← e]
  obtain ⟨i, hi⟩ := angDiffAbs_attained a b
  obtain ⟨j, hj⟩ := angDiffAbs_attained 0 m
  have h2 := angDiffAbs_le a b (k + j)
  have h3 := angDiffAbs_le 0 m (i - k)
  rw [abs_le]
  constructor
  · -- from the attained value of the second
    have : |m - 0 + ((i - k : ℤ) : ℝ) * (2 * Real.pi)| ≤
        |m - (b - a + k * (2 * Real.pi))| + |b - a + i * (2 * Real.pi)| := by
      refine le_trans (le_of_eq ?_) (abs_add_le _ _)
      congr 1
      push_cast; ring
    rw [← hi] at this
    linarith
  · have : |b - a + ((k + j : ℤ) : ℝ) * (2 * Real.pi)| ≤
        |m - 0 + j * (2 * Real.pi)| + |m - (b - a + k * (2 * Real.pi))| := by
      rw [abs_sub_comm m]
      refine le_trans (le_of_eq ?_) (abs_add_le _ _)
      congr 1
      push_cast; ring
    rw [← hj] at this
    linarith

/-! ## Tracks -/

/-- Offset of the loop after `i` rounds. -/
noncomputable def offset (fl : ℝ → ℝ) (w y : ℝ) : Nat → ℝ
  | 0 => y
  | i + 1 => fl (offset fl w y i + w)

theorem offset_shift (fl : ℝ → ℝ) (w y : ℝ) (i : Nat) : offset fl w (fl (y + w)) i = offset fl w y (i + 1) := by
  induction i with
  | zero => rfl
  | succ i ih => rw [offset, ih]; rfl

/-- What the loop returns if its condition is false after at most `fuel` rounds. -/
theorem trackLoop_ok (fl : ℝ → ℝ) (H w s : ℝ) : ∀ (fuel : Nat) (y : ℝ), H ≤ fl (offset fl w y fuel + s) →
    ∃ n, n ≤ fuel ∧ trackLoop fl H w s fuel y = .ok ((List.range n).map fun i => offset fl w y (i + 1)) ∧
      H ≤ fl (offset fl w y n + s) ∧ ∀ i < n, fl (offset fl w y i + s) < H := by
  intro fuel
  induction fuel with
  | zero =>
    intro y h
    refine ⟨0, le_rfl, ?_, h, fun i hi => by omega⟩
    rw [trackLoop, if_neg (not_lt.2 (by simpa [offset] using h))]
    rfl
  | succ fuel ih =>
    intro y h
    by_cases hc : H > fl (y + s)
    · obtain ⟨n, hn, e, h1, h2⟩ := ih (fl (y + w)) (by rw [offset_shift]; exact h)
      refine ⟨n + 1, by omega, ?_, ?_, ?_⟩
      · rw [trackLoop, if_pos hc, e]
        simp only [Outcome.ok_bind, Outcome.pure_eq]
        rw [List.range_succ_eq_map, List.map_cons, List.map_map]
        congr 2
        apply List.map_congr_left
        intro i _
        exact offset_shift fl w y (i + 1)
      · rw [← offset_shift]; exact h1
      · intro i hi
        cases i with
        | zero => exact hc
        | succ i => rw [← offset_shift]; exact h2 i (by omega)
    · refine ⟨0, by omega, ?_, not_lt.1 hc, fun i hi => by omega⟩
      rw [trackLoop, if_neg hc]
      rfl

theorem half_double {w : ℝ} (hw : IsDouble w) (h : (2 : ℝ) ^ (-1000 : ℤ) ≤ w) : IsDouble (1 / 2 * w) := by
  obtain ⟨m, e, hm, he, rfl⟩ := hw
  refine ⟨m, e - 1, hm, ?_, ?_⟩
  · have h1 : (m : ℝ) ≤ 2 ^ 53 := by exact_mod_cast (abs_le.1 hm).2
    have h2 := mul_le_mul_of_nonneg_right h1 (two_zpow_pos e).le
    have h3 : (2 : ℝ) ^ (-1000 : ℤ) ≤ (2 : ℝ) ^ (53 + e) := by
      rw [zpow_add₀ two_ne_zero]
      refine h.trans (h2.trans (le_of_eq ?_))
      norm_cast
    have := (zpow_le_zpow_iff_right₀ (by norm_num : (1 : ℝ) < 2)).1 h3
    omega
  · rw [zpow_sub_one₀ two_ne_zero]; ring

/-- Rounding errors add up to at most `i² / 2^53` widths. -/
theorem offset_error (h : IsRounding fl) (w : ℝ) (hw : (2 : ℝ) ^ (-1000 : ℤ) ≤ w) (i : Nat) (hi : i ≤ 2 ^ 24) :
    |offset fl w (-(1 / 2) * w) i - ((i : ℝ) - 1 / 2) * w| ≤ (i : ℝ) ^ 2 / 2 ^ 53 * w := by
  have hw0 : 0 < w := lt_of_lt_of_le (two_zpow_pos _) hw
  induction i with
  | zero =>
    simp only [offset, Nat.cast_zero]
    rw [show -(1 / 2) * w - (0 - 1 / 2) * w = 0 by ring, abs_zero]
    positivity
  | succ i ih =>
    have ih := ih (by omega)
    rw [offset]
    set y := offset fl w (-(1 / 2) * w) i with hy
    have hi' : (i : ℝ) ≤ 2 ^ 24 := by
      have : i ≤ 2 ^ 24 := by omega
      exact_mod_cast this
    have hi0 : (0 : ℝ) ≤ i := by positivity
    have hsq : (i : ℝ) ^ 2 ≤ 2 ^ 24 * i := by nlinarith
    have hsmall : (i : ℝ) ^ 2 / 2 ^ 53 ≤ i / 2 ^ 29 := by
      rw [div_le_div_iff₀ (by positivity) (by positivity)]
      nlinarith
    have hb := abs_le.1 ih
    have he32 : (i : ℝ) ^ 2 / 2 ^ 53 * w ≤ w / 32 := by
      have : (i : ℝ) ^ 2 / 2 ^ 53 ≤ 1 / 32 := by
        refine hsmall.trans ?_
        rw [div_le_div_iff₀ (by positivity) (by positivity)]
        nlinarith
      have := mul_le_mul_of_nonneg_right this hw0.le
      linarith
    have hlow : w / 4 ≤ y + w := by nlinarith [hb.1]
    have hup : y + w ≤ ((i : ℝ) + 1 / 2) * w + (i : ℝ) ^ 2 / 2 ^ 53 * w := by linarith [hb.2]
    have hpos : 0 < y + w := by linarith
    have hr := h.rel_error (y + w) (by
      rw [abs_of_pos hpos]
      refine le_trans ?_ hlow
      have : (2 : ℝ) ^ (-1022 : ℤ) ≤ (2 : ℝ) ^ (-1002 : ℤ) := zpow_le_zpow_right₀ (by norm_num) (by norm_num)
      have e : (2 : ℝ) ^ (-1000 : ℤ) = 4 * (2 : ℝ) ^ (-1002 : ℤ) := by
        rw [show (-1000 : ℤ) = 2 + -1002 by norm_num, zpow_add₀ two_ne_zero]; norm_num
      linarith)
    rw [abs_of_pos hpos] at hr
    have step : |fl (y + w) - (((i + 1 : Nat) : ℝ) - 1 / 2) * w| ≤ (y + w) / 2 ^ 53 + (i : ℝ) ^ 2 / 2 ^ 53 * w := by
      have := abs_sub_le (fl (y + w)) (y + w) ((((i + 1 : Nat) : ℝ) - 1 / 2) * w)
      rw [abs_sub_comm (fl (y + w)) (y + w)] at this
      refine this.trans (add_le_add hr ?_)
      push_cast
      rw [show y + w - ((i : ℝ) + 1 - 1 / 2) * w = y - ((i : ℝ) - 1 / 2) * w by ring]
      exact ih
    refine step.trans ?_
    have : (y + w) / 2 ^ 53 ≤ (((i : ℝ) + 1 / 2) * w + i / 2 ^ 29 * w) / 2 ^ 53 := by
      apply div_le_div_of_nonneg_right _ (by positivity)
      have := mul_le_mul_of_nonneg_right hsmall hw0.le
      linarith
    push_cast
    have e : ((i : ℝ) + 1) ^ 2 / 2 ^ 53 * w - (i : ℝ) ^ 2 / 2 ^ 53 * w
        - (((i : ℝ) + 1 / 2) * w + i / 2 ^ 29 * w) / 2 ^ 53 = ((i + 1 / 2 - i / 2 ^ 29) * w) / 2 ^ 53 := by ring
    have : 0 ≤ ((i + 1 / 2 - i / 2 ^ 29) * w) / 2 ^ 53 := by
      apply div_nonneg (mul_nonneg _ hw0.le) (by positivity)
      have : (i : ℝ) / 2 ^ 29 ≤ i := div_le_self hi0 (by norm_num)
      linarith
    linarith

theorem offset_double (h : IsRounding fl) (w y : ℝ) (hy : IsDouble y) (i : Nat) : IsDouble (offset fl w y i) := by
  cases i with
  | zero => exact hy
  | succ i => exact h.double _

/-- The number that the condition of the loop compares with the height. -/
theorem check_error (h : IsRounding fl) (w : ℝ) (dw : IsDouble w) (hw : (2 : ℝ) ^ (-1000 : ℤ) ≤ w) (overlap : Bool)
    (i : Nat) (hi : i ≤ 2 ^ 24) :
    |fl (offset fl w (-(1 / 2) * w) i + (if overlap then 0 else 1 / 2 * w)) -
      (i - if overlap then 1 / 2 else 0) * w| ≤ w / 16 := by
  have hw0 : 0 < w := lt_of_lt_of_le (two_zpow_pos _) hw
  have he := offset_error h w hw i hi
  have hi' : (i : ℝ) ≤ 2 ^ 24 := by exact_mod_cast hi
  have hi0 : (0 : ℝ) ≤ i := by positivity
  have hsq : (i : ℝ) ^ 2 / 2 ^ 53 ≤ 1 / 32 := by
    rw [div_le_div_iff₀ (by positivity) (by positivity)]
    nlinarith
  have he32 : (i : ℝ) ^ 2 / 2 ^ 53 * w ≤ w / 32 := by
    have := mul_le_mul_of_nonneg_right hsq hw0.le
    linarith
  have dhalf : IsDouble (-(1 / 2) * w) := by
    have := (half_double dw hw).neg
    rwa [← neg_mul] at this
  cases overlap with
  | true =>
    simp only [if_true, add_zero]
    rw [h.self (offset_double h w _ dhalf i)]
    exact he.trans (by linarith)
  | false =>
    simp only [Bool.false_eq_true, if_false, sub_zero]
    cases i with
    | zero =>
      simp only [offset, Nat.cast_zero, zero_mul, sub_zero]
      rw [show -(1 / 2) * w + 1 / 2 * w = 0 by ring, h.self isDouble_zero, abs_zero]
      positivity
    | succ i =>
      set y := offset fl w (-(1 / 2) * w) (i + 1) with hy
      have hb := abs_le.1 (he.trans he32)
      have h1 : (1 : ℝ) ≤ ((i + 1 : Nat) : ℝ) := by exact_mod_cast Nat.succ_le_succ (Nat.zero_le i)
      generalize ((i + 1 : Nat) : ℝ) = k at *
      have hkw : w ≤ k * w := by nlinarith
      have hkw2 : k * w ≤ 2 ^ 24 * w := by nlinarith
      have hlow : w / 4 ≤ y + 1 / 2 * w := by nlinarith [hb.1]
      have hpos : 0 < y + 1 / 2 * w := by linarith
      have hr := h.rel_error (y + 1 / 2 * w) (by
        rw [abs_of_pos hpos]
        refine le_trans ?_ hlow
        have : (2 : ℝ) ^ (-1022 : ℤ) ≤ (2 : ℝ) ^ (-1002 : ℤ) := zpow_le_zpow_right₀ (by norm_num) (by norm_num)
        have e : (2 : ℝ) ^ (-1000 : ℤ) = 4 * (2 : ℝ) ^ (-1002 : ℤ) := by
          rw [show (-1000 : ℤ) = 2 + -1002 by norm_num, zpow_add₀ two_ne_zero]; norm_num
        linarith)
      rw [abs_of_pos hpos] at hr
      have hup : (y + 1 / 2 * w) / 2 ^ 53 ≤ w / 32 := by
        rw [div_le_div_iff₀ (by positivity) (by positivity)]
        nlinarith [hb.2]
      have := abs_sub_le (fl (y + 1 / 2 * w)) (y + 1 / 2 * w) (k * w)
      rw [abs_sub_comm (fl (y + 1 / 2 * w)) (y + 1 / 2 * w)] at this
      refine this.trans ?_
      rw [show y + 1 / 2 * w - k * w = y - (k - 1 / 2) * w by ring]
      linarith [he.trans he32]

theorem trackLoop_endless (fl : ℝ → ℝ) (H w s D : ℝ) (h1 : ∀ y ≤ D, fl (y + w) ≤ D) (h2 : ∀ y ≤ D, fl (y + s) < H) :
    ∀ (fuel : Nat) (y : ℝ), y ≤ D → trackLoop fl H w s fuel y = .ub "endless loop" := by
  intro fuel
  induction fuel with
  | zero => intro y hy; rw [trackLoop, if_pos (h2 y hy)]
  | succ fuel ih =>
    intro y hy
    rw [trackLoop, if_pos (h2 y hy), ih _ (h1 y hy), Outcome.ub_bind]

/-- A power of two that is a barrier for steps of `w`. -/
theorem barrier (h : IsRounding fl) (w : ℝ) (hw : (2 : ℝ) ^ (-1000 : ℤ) ≤ w) :
    ∃ D, 0 ≤ D ∧ D ≤ 2 ^ 55 * w ∧ ∀ t, t ≤ w → ∀ y ≤ D, fl (y + t) ≤ D := by
  have hw0 : 0 < w := lt_of_lt_of_le (two_zpow_pos _) hw
  obtain ⟨n, h1, h2⟩ := exists_mem_Ico_zpow hw0 (by norm_num : (1 : ℝ) < 2)
  have hn : -1001 < n := by
    have h3 : (2 : ℝ) ^ (-1000 : ℤ) < (2 : ℝ) ^ (n + 1) := lt_of_le_of_lt hw h2
    have := (zpow_lt_zpow_iff_right₀ (by norm_num : (1 : ℝ) < 2)).1 h3
    omega
  have e2 : (2 : ℝ) ^ (n + 2) = 4 * (2 : ℝ) ^ n := by rw [zpow_add₀ two_ne_zero]; norm_num; ring
  have e1 : (2 : ℝ) ^ (n + 1) = 2 * (2 : ℝ) ^ n := by rw [zpow_add₀ two_ne_zero]; norm_num; ring
  have hp := two_zpow_pos n
  refine ⟨((2 ^ 53 : ℤ) : ℝ) * (2 : ℝ) ^ (n + 2), by positivity, ?_, fun t ht y hy => ?_⟩
  · rw [e2]; push_cast; nlinarith
  · refine (h.mono (add_le_add hy ht)).trans (le_of_eq ?_)
    refine h.eq_of_close _ (2 ^ 53) (n + 2) (by norm_num) le_rfl (by omega) ?_
    rw [add_sub_cancel_left, abs_of_pos hw0, e2]
    linarith

end F2C.Dbl
