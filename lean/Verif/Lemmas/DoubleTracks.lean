import Verif.Model.DoubleTracks
import Verif.Lemmas.DoubleSteps
import Verif.Lemmas.SwathGenerator

/-! # Rounding errors of rotations and long lines -/

namespace F2C.Dbl

variable {fl : ℝ → ℝ}

/-- Half the spacing of doubles between 1 and 2. -/
noncomputable def u53 : ℝ := 1 / 2 ^ 53

theorem u53_pos : 0 < u53 := by norm_num [u53]

theorem u53_small : u53 ≤ 1 / 10 ^ 15 := by norm_num [u53]

theorem tiny_le : (2 : ℝ) ^ (-1075 : ℤ) ≤ u53 / 1000 := by
  refine le_trans (zpow_le_zpow_right₀ (by norm_num) (by norm_num : (-1075 : ℤ) ≤ -63)) ?_
  norm_num [u53]

theorem IsRounding.err (h : IsRounding fl) (x : ℝ) {B : ℝ} (hx : |x| ≤ B) : |fl x - x| ≤ u53 * B + u53 / 1000 := by
  have := h.error x
  rw [abs_sub_comm] at this
  have e : |x| / 2 ^ 53 ≤ u53 * B := by
    rw [u53, one_div, inv_mul_eq_div]
    exact div_le_div_of_nonneg_right hx (by norm_num)
  linarith [tiny_le]

theorem IsRounding.err_sum (h : IsRounding fl) {a b B : ℝ} (ha : IsDouble a) (hb : IsDouble b) (hx : |a + b| ≤ B) :
    |fl (a + b) - (a + b)| ≤ u53 * B := by
  have := h.sum_error ha hb
  rw [abs_sub_comm] at this
  refine this.trans ?_
  rw [u53, one_div, inv_mul_eq_div]
  exact div_le_div_of_nonneg_right hx (by norm_num)

/-- A product with a factor that is off by a little. -/
theorem prod_err (h : IsRounding fl) {x c C M k : ℝ} (hM : 1 ≤ M) (hx : |x| ≤ M) (hc : |c - C| ≤ k * u53) (hk : 0 ≤ k) (hk' : k ≤ 10)
    (hC : |C| ≤ 1) : |fl (x * c) - x * C| ≤ (k + 2) * u53 * M := by
  have u0 := u53_pos
  have u1 := u53_small
  have hc1 : |c| ≤ 1 + k * u53 := by
    have : c = C + (c - C) := by ring
    rw [this]
    exact (abs_add_le _ _).trans (by linarith)
  have hku : k * u53 ≤ 1 / 10 ^ 14 := by nlinarith
  have h1 : |x * c| ≤ M * (1 + k * u53) := by
    rw [abs_mul]
    exact mul_le_mul hx hc1 (abs_nonneg _) (by linarith)
  have e1 := h.err (x * c) h1
  have e2 : |x * c - x * C| ≤ M * (k * u53) := by
    rw [← mul_sub, abs_mul]
    exact mul_le_mul hx hc (abs_nonneg _) (by linarith)
  have := abs_sub_le (fl (x * c)) (x * c) (x * C)
  have h3 : u53 * (M * (1 + k * u53)) ≤ u53 * (M * (1 + 1 / 10 ^ 14)) := by gcongr
  have h4 : u53 ≤ u53 * M := by nlinarith
  nlinarith

/-- A coordinate of a rotated point. -/
theorem comb_err (h : IsRounding fl) {a b A B M : ℝ} (hM : 1 ≤ M) (ha : IsDouble a) (hb : IsDouble b) (hA : |A| ≤ M) (hB : |B| ≤ M)
    (e1 : |a - A| ≤ 4 * u53 * M) (e2 : |b - B| ≤ 4 * u53 * M) : |fl (a + b) - (A + B)| ≤ 11 * u53 * M := by
  have u0 := u53_pos
  have u1 := u53_small
  have d : |a + b - (A + B)| ≤ 8 * u53 * M := by
    have : a + b - (A + B) = (a - A) + (b - B) := by ring
    rw [this]
    exact (abs_add_le _ _).trans (by linarith)
  have hs : |a + b| ≤ 2 * M + 8 * u53 * M := by
    have : a + b = A + B + (a + b - (A + B)) := by ring
    rw [this]
    have := abs_add_le A B
    exact (abs_add_le _ _).trans (by linarith)
  have e3 := h.err_sum ha hb hs
  have := abs_sub_le (fl (a + b)) (a + b) (A + B)
  have h4 : 8 * u53 * M ≤ M / 100 := by nlinarith
  have : u53 * (2 * M + 8 * u53 * M) ≤ u53 * (3 * M) := by
    apply mul_le_mul_of_nonneg_left _ u0.le
    linarith
  linarith

/-- Sine and cosine of the C library: less than one unit in the last place of numbers from 1 on. -/
structure IsTrig (cos sin : ℝ → ℝ) : Prop where
  cos : ∀ a, IsDouble a → |cos a - Real.cos a| ≤ 2 * u53
  sin : ∀ a, IsDouble a → |sin a - Real.sin a| ≤ 2 * u53

/-- Rotation around the origin. -/
theorem rotate_err (h : IsRounding fl) {cos sin : ℝ → ℝ} (ht : IsTrig cos sin) {angle M : ℝ} (ha : IsDouble angle) (hM : 1 ≤ M)
    {p : RPoint} (dx : IsDouble p.x) (dy : IsDouble p.y) (hx : |p.x| ≤ M) (hy : |p.y| ≤ M) :
    |(rotateFrom fl cos sin Point.zero angle p).x - (p.x * Real.cos angle - p.y * Real.sin angle)| ≤ 11 * u53 * M ∧
    |(rotateFrom fl cos sin Point.zero angle p).y - (p.x * Real.sin angle + p.y * Real.cos angle)| ≤ 11 * u53 * M ∧
    IsDouble (rotateFrom fl cos sin Point.zero angle p).x ∧ IsDouble (rotateFrom fl cos sin Point.zero angle p).y := by
  have hb : ∀ {x C : ℝ}, |x| ≤ M → |C| ≤ 1 → |x * C| ≤ M := by
    intro x C hx hC
    rw [abs_mul]
    have := mul_le_mul hx hC (abs_nonneg _) (by linarith)
    linarith
  have pe : ∀ {x c C : ℝ}, |x| ≤ M → |c - C| ≤ 2 * u53 → |C| ≤ 1 → |fl (x * c) - x * C| ≤ 4 * u53 * M := by
    intro x c C hx hc hC
    have := prod_err h hM hx hc (by norm_num) (by norm_num) hC
    linarith
  have C1 := Real.abs_cos_le_one angle
  have S1 := Real.abs_sin_le_one angle
  have cx := pe hx (ht.cos angle ha) C1
  have cy := pe hy (ht.cos angle ha) C1
  have sx := pe hx (ht.sin angle ha) S1
  have sy := pe hy (ht.sin angle ha) S1
  have e1 := comb_err h hM (h.double (p.x * cos angle)) (h.double (p.y * sin angle)).neg (hb hx C1)
    (B := -(p.y * Real.sin angle)) (by rw [abs_neg]; exact hb hy S1) cx (by
      rw [show -fl (p.y * sin angle) - -(p.y * Real.sin angle) = -(fl (p.y * sin angle) - p.y * Real.sin angle) by ring, abs_neg]
      exact sy)
  have e2 := comb_err h hM (h.double (p.x * sin angle)) (h.double (p.y * cos angle)) (hb hx S1) (hb hy C1) sx cy
  rw [← sub_eq_add_neg, ← sub_eq_add_neg] at e1
  simp only [rotateFrom, Point.zero, sub_zero, add_zero, h.self dx, h.self dy, h.self (h.double _)]
  exact ⟨e1, e2, h.double _, h.double _⟩

/-- A coordinate of a point at a distance from another. -/
theorem point_err (h : IsRounding fl) {p L c C M : ℝ} (hM : 1 ≤ M) (dp : IsDouble p) (hp : |p| ≤ 3 * M) (hL : |L| ≤ 13 * M)
    (hc : |c - C| ≤ 4 * u53) (hC : |C| ≤ 1) : |fl (p + fl (L * c)) - (p + L * C)| ≤ 97 * u53 * M := by
  have u0 := u53_pos
  have u1 := u53_small
  have e1 := prod_err h (by linarith : (1 : ℝ) ≤ 13 * M) hL hc (by norm_num) (by norm_num) hC
  have hLC : |L * C| ≤ 13 * M := by
    rw [abs_mul]
    have := mul_le_mul hL hC (abs_nonneg _) (by linarith)
    linarith
  have hs : |p + fl (L * c)| ≤ 16 * M + (4 + 2) * u53 * (13 * M) := by
    have : p + fl (L * c) = p + (L * C + (fl (L * c) - L * C)) := by ring
    rw [this]
    have := abs_add_le (L * C) (fl (L * c) - L * C)
    exact (abs_add_le _ _).trans (by linarith)
  have e2 := h.err_sum dp (h.double _) hs
  have := abs_sub_le (fl (p + fl (L * c))) (p + fl (L * c)) (p + L * C)
  rw [show p + fl (L * c) - (p + L * C) = fl (L * c) - L * C by ring] at this
  have : u53 * (16 * M + (4 + 2) * u53 * (13 * M)) ≤ u53 * (17 * M) := by
    apply mul_le_mul_of_nonneg_left _ u0.le
    nlinarith
  have : 0 ≤ u53 * M := mul_nonneg u0.le (by linarith)
  linarith

theorem cos_pi_near : |Real.cos pi - -1| ≤ 2 * u53 := by
  obtain ⟨h0, h1⟩ := pi_error
  have e : Real.cos pi = -Real.cos (Real.pi - pi) := by rw [Real.cos_pi_sub, neg_neg]
  rw [e, show -Real.cos (Real.pi - pi) - -1 = 1 - Real.cos (Real.pi - pi) by ring,
    abs_of_nonneg (by linarith [Real.cos_le_one (Real.pi - pi)])]
  have := Real.one_sub_sq_div_two_le_cos (x := Real.pi - pi)
  have h3 : (2 : ℝ) ^ (-52 : ℤ) = 2 * u53 := by norm_num [u53]
  rw [h3] at h1
  have := u53_small
  nlinarith [u53_pos]

theorem sin_pi_near : |Real.sin pi - 0| ≤ 2 * u53 := by
  obtain ⟨h0, h1⟩ := pi_error
  have e : Real.sin pi = Real.sin (Real.pi - pi) := by rw [Real.sin_pi_sub]
  have h3 : (2 : ℝ) ^ (-52 : ℤ) = 2 * u53 := by norm_num [u53]
  rw [e, sub_zero]
  have h4 := Real.sin_lt h0
  have h5 := Real.sin_nonneg_of_nonneg_of_le_pi h0.le (by linarith [pi_bounds])
  rw [abs_of_nonneg h5]
  linarith

/-- The number that the condition of the loop compares with the height, more precisely. -/
theorem check_fine (h : IsRounding fl) (w : ℝ) (dw : IsDouble w) (hw : (2 : ℝ) ^ (-1000 : ℤ) ≤ w) (overlap : Bool)
    (i : Nat) (hi : i ≤ 2 ^ 24) :
    |fl (offset fl w (-(1 / 2) * w) i + (if overlap then 0 else 1 / 2 * w)) -
      (i - if overlap then 1 / 2 else 0) * w| ≤ ((i : ℝ) + 1) ^ 2 * u53 * w := by
  have hw0 : 0 < w := lt_of_lt_of_le (two_zpow_pos _) hw
  have he := offset_error h w hw i hi
  have hi' : (i : ℝ) ≤ 2 ^ 24 := by exact_mod_cast hi
  have hi0 : (0 : ℝ) ≤ i := by positivity
  have u0 := u53_pos
  have dhalf : IsDouble (-(1 / 2) * w) := by
    have := (half_double dw hw).neg
    rwa [← neg_mul] at this
  have heq : (i : ℝ) ^ 2 / 2 ^ 53 * w = (i : ℝ) ^ 2 * u53 * w := by rw [u53]; ring
  rw [heq] at he
  have huw : 0 < u53 * w := mul_pos u0 hw0
  cases overlap with
  | true =>
    simp only [if_true, add_zero]
    rw [h.self (offset_double h w _ dhalf i)]
    refine he.trans ?_
    nlinarith
  | false =>
    simp only [Bool.false_eq_true, if_false, sub_zero]
    have dy := offset_double h w _ dhalf i
    generalize offset fl w (-(1 / 2) * w) i = y at *
    have hb : |y + 1 / 2 * w| ≤ i * w + (i : ℝ) ^ 2 * u53 * w := by
      have : y + 1 / 2 * w = i * w + (y - ((i : ℝ) - 1 / 2) * w) := by ring
      rw [this]
      refine (abs_add_le _ _).trans ?_
      rw [abs_of_nonneg (by positivity : (0 : ℝ) ≤ i * w)]
      linarith
    have e1 := h.err_sum dy (half_double dw hw) hb
    have := abs_sub_le (fl (y + 1 / 2 * w)) (y + 1 / 2 * w) (i * w)
    rw [show y + 1 / 2 * w - i * w = y - ((i : ℝ) - 1 / 2) * w by ring] at this
    refine this.trans ((add_le_add e1 he).trans ?_)
    have hs : (i : ℝ) ^ 2 * u53 ≤ 1 := by
      have : (i : ℝ) ^ 2 ≤ (2 ^ 24) ^ 2 := by gcongr
      have u2 : u53 ≤ 1 / 2 ^ 53 := le_rfl
      calc (i : ℝ) ^ 2 * u53 ≤ (2 ^ 24) ^ 2 * (1 / 2 ^ 53) := by gcongr
        _ ≤ 1 := by norm_num
    have : (i : ℝ) ^ 2 * u53 * w ≤ w := by nlinarith
    have : u53 * (i * w + (i : ℝ) ^ 2 * u53 * w) ≤ u53 * (i * w + w) := by gcongr
    nlinarith

/-- The offsets, with the bound of `check_fine`. -/
theorem offsets_fine (h : IsRounding fl) (overlap : Bool) (H w : ℝ) (dw : IsDouble w) (hw : (2 : ℝ) ^ (-1000 : ℤ) ≤ w)
    (h0 : 0 ≤ H) (h1 : H ≤ (2 ^ 24 - 2) * w) :
    ∃ ys, trackOffsets fl overlap H w = .ok ys ∧ ys.length ≤ 2 ^ 24 ∧
      (∀ y ∈ ys, IsDouble y) ∧
      (∀ (i : Nat) (hi : i < ys.length), |ys[i] - ((i : ℝ) + 1 / 2) * w| ≤ ((i : ℝ) + 1) ^ 2 * u53 * w) ∧
      H ≤ ys.length * w + ((ys.length : ℝ) + 1) ^ 2 * u53 * w ∧
      (ys ≠ [] → ((ys.length : ℝ) - 2) * w < H) ∧ (0 < H → ys ≠ []) := by
  have hw0 : 0 < w := lt_of_lt_of_le (two_zpow_pos _) hw
  have hq : 0 ≤ H / w := by positivity
  have hq1 : H / w ≤ 2 ^ 24 - 2 := by rw [div_le_iff₀ hw0]; exact h1
  have hfuel : ⌈H / w⌉₊ + 1 ≤ 2 ^ 24 := by
    have : ⌈H / w⌉₊ ≤ 2 ^ 24 - 2 := by
      apply Nat.ceil_le.2
      refine hq1.trans (le_of_eq ?_)
      norm_num
    omega
  have dhalf : IsDouble (-(1 / 2) * w) := by
    have := (half_double dw hw).neg
    rwa [← neg_mul] at this
  have hunfold : trackOffsets fl overlap H w =
      trackLoop fl H w (if overlap then 0 else 1 / 2 * w) (⌈H / w⌉₊ + 1) (-(1 / 2) * w) := by
    unfold trackOffsets
    rw [h.self dhalf, h.self (half_double dw hw)]
  have hs : (if overlap then (1 : ℝ) / 2 else 0) ≤ 1 / 2 := by split <;> norm_num
  have hs0 : 0 ≤ (if overlap then (1 : ℝ) / 2 else 0) := by split <;> norm_num
  have hfin : H ≤ fl (offset fl w (-(1 / 2) * w) (⌈H / w⌉₊ + 1) + (if overlap then 0 else 1 / 2 * w)) := by
    have hc := abs_le.1 (check_error h w dw hw overlap (⌈H / w⌉₊ + 1) hfuel)
    have hceil := Nat.le_ceil (H / w)
    rw [div_le_iff₀ hw0] at hceil
    push_cast at hc
    nlinarith [hc.1]
  obtain ⟨n, hn, e, hstop, hgo⟩ := trackLoop_ok fl H w _ _ _ hfin
  refine ⟨_, hunfold.trans e, by simp; omega, ?_, ?_, ?_, ?_, ?_⟩
  · intro y hy
    obtain ⟨i, -, rfl⟩ := List.mem_map.1 hy
    exact h.double _
  · intro i hi
    have hi' : i < n := by simpa using hi
    have := offset_error h w hw (i + 1) (by omega)
    simp only [List.getElem_map, List.getElem_range]
    push_cast at this
    rw [show (i : ℝ) + 1 / 2 = (i : ℝ) + 1 - 1 / 2 by ring, u53]
    refine this.trans (le_of_eq (by ring))
  · have hc := abs_le.1 (check_fine h w dw hw overlap n (by omega))
    simp only [List.length_map, List.length_range]
    have : (n - if overlap then 1 / 2 else 0) * w ≤ n * w := by
      apply mul_le_mul_of_nonneg_right _ hw0.le
      linarith
    linarith [hc.2]
  · intro hne
    simp only [List.length_map, List.length_range]
    have hn0 : n ≠ 0 := by
      rintro rfl
      exact hne rfl
    obtain ⟨k, rfl⟩ := Nat.exists_eq_succ_of_ne_zero hn0
    have hc := abs_le.1 (check_error h w dw hw overlap k (by omega))
    have := hgo k (by omega)
    push_cast
    nlinarith [hc.1]
  · intro hH hnil
    have hn0 : n = 0 := by
      have := congrArg List.length hnil
      simpa using this
    subst hn0
    simp only [offset] at hstop
    cases overlap with
    | true =>
      simp only [if_true, add_zero] at hstop
      rw [h.self dhalf] at hstop
      linarith
    | false =>
      simp only [Bool.false_eq_true, if_false] at hstop
      rw [show -(1 / 2) * w + 1 / 2 * w = 0 by ring, h.self isDouble_zero] at hstop
      linarith

end F2C.Dbl
