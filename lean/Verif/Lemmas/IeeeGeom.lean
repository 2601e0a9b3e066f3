import Verif.Model.IeeeGeom
import Verif.Lemmas.Ieee
import Verif.Lemmas.Border
import Verif.Props.IeeeGeomSpec

/-! # Lemmas about the closest point of a segment in double precision -/

namespace F2C.Ieee

open Flt Dbl Props.SG Props.IeeeGeo

variable {fl : ℝ → ℝ}

/-- The value that limits the parameter to [0, 1], in reals; what is not a number becomes 1. -/
noncomputable def limit : Flt → ℝ
  | nan => 1
  | pinf => 1
  | ninf => 0
  | fin x => Max.max 0 (Min.min 1 x)

theorem limit_eq (t : Flt) : Flt.max (fin 0) (Flt.min (fin 1) t) = fin (limit t) := by
  unfold Flt.max Flt.min
  cases t with
  | nan => simp [limit, lt]
  | ninf => simp [limit, lt]
  | pinf => simp [limit, lt]
  | fin x =>
    simp only [limit]
    by_cases h1 : x < 1
    · have h1' : lt (fin x) (fin 1) := h1
      rw [if_pos h1', min_eq_right h1.le]
      by_cases h0 : 0 < x
      · have h0' : lt (fin 0) (fin x) := h0
        rw [if_pos h0', max_eq_right h0.le]
      · have h0' : ¬ lt (fin 0) (fin x) := h0
        rw [if_neg h0', max_eq_left (not_lt.1 h0)]
    · have h1' : ¬ lt (fin x) (fin 1) := h1
      have h0' : lt (fin 0) (fin 1) := by simp
      rw [if_neg h1', min_eq_left (not_lt.1 h1), max_eq_right zero_le_one, if_pos h0']

theorem limit_range (t : Flt) : 0 ≤ limit t ∧ limit t ≤ 1 := by
  cases t with
  | fin x => exact ⟨le_max_left _ _, max_le zero_le_one (min_le_left _ _)⟩
  | _ => simp [limit]

theorem limit_lip (a b : ℝ) : |Max.max 0 (Min.min 1 a) - Max.max 0 (Min.min 1 b)| ≤ |a - b| := by
  have h := abs_max_sub_max_le_abs (Min.min 1 a) (Min.min 1 b) (0 : ℝ)
  have h2 := abs_min_sub_min_le_max (1 : ℝ) a 1 b
  rw [max_comm 0, max_comm 0]
  refine h.trans (h2.trans ?_)
  simp

/-- Rounding error of any number. -/
theorem round_err (h : IsRounding fl) (x : ℝ) : |fl x - x| ≤ |x| / 2 ^ 53 + (2 : ℝ) ^ (-1075 : ℤ) := by
  rw [abs_sub_comm]
  by_cases hx : (2 : ℝ) ^ (-1022 : ℤ) ≤ |x|
  · have := h.rel_error x hx
    have := two_zpow_pos (-1075)
    linarith
  · have h1 := h.abs_error x (-1074) le_rfl (by
      refine (not_le.1 hx).le.trans ?_
      rw [← zpow_natCast, ← zpow_add₀ two_ne_zero]
      exact zpow_le_zpow_right₀ (by norm_num) (by norm_num))
    have h2 : (2 : ℝ) ^ (-1074 : ℤ) / 2 = (2 : ℝ) ^ (-1075 : ℤ) := by
      rw [show (-1074 : ℤ) = -1075 + 1 by norm_num, zpow_add₀ two_ne_zero, zpow_one]; ring
    have : 0 ≤ |x| / 2 ^ 53 := by positivity
    linarith

theorem small_err {M : ℝ} (hM : (2 : ℝ) ^ (-400 : ℤ) ≤ M) : (2 : ℝ) ^ (-1075 : ℤ) ≤ M / 2 ^ 53 := by
  rw [le_div_iff₀ (by positivity), ← zpow_natCast, ← zpow_add₀ two_ne_zero]
  exact (zpow_le_zpow_right₀ (by norm_num) (by norm_num)).trans hM

theorem pdist_le_coords (p q : RPoint) : pdist p q ≤ |p.x - q.x| + |p.y - q.y| := by
  unfold pdist
  apply Real.sqrt_le_iff.2
  refine ⟨by positivity, ?_⟩
  have h1 := sq_abs (p.x - q.x)
  have h2 := sq_abs (p.y - q.y)
  have h3 := abs_nonneg (p.x - q.x)
  have h4 := abs_nonneg (p.y - q.y)
  nlinarith [mul_nonneg h3 h4]

/-- A product of two coordinates with bounds. -/
theorem mul_err (h : IsRounding fl) {a c V U : ℝ} (ha : |a| ≤ V) (hc : |c| ≤ U)
    (hη : (2 : ℝ) ^ (-1075 : ℤ) ≤ V * U / 2 ^ 53) : |fl (a * c) - a * c| ≤ 2 * (V * U) / 2 ^ 53 := by
  have h1 := round_err h (a * c)
  have h2 : |a * c| ≤ V * U := by
    rw [abs_mul]; exact mul_le_mul ha hc (abs_nonneg _) ((abs_nonneg _).trans ha)
  have h3 : |a * c| / 2 ^ 53 ≤ V * U / 2 ^ 53 := by gcongr
  have : 2 * (V * U) / 2 ^ 53 = V * U / 2 ^ 53 + V * U / 2 ^ 53 := by ring
  linarith

/-- A scalar product of two vectors with bounds. -/
theorem dot_err (h : IsRounding fl) {a b c d V U : ℝ} (ha : |a| ≤ V) (hb : |b| ≤ V) (hc : |c| ≤ U) (hd : |d| ≤ U)
    (hη : (2 : ℝ) ^ (-1075 : ℤ) ≤ V * U / 2 ^ 53) :
    |fl (fl (a * c) + fl (b * d)) - (a * c + b * d)| ≤ 9 * (V * U) / 2 ^ 53 := by
  have h1 := mul_err h ha hc hη
  have h2 := mul_err h hb hd hη
  have hVU : 0 ≤ V * U := mul_nonneg ((abs_nonneg _).trans ha) ((abs_nonneg _).trans hc)
  have m1 : |a * c| ≤ V * U := by
    rw [abs_mul]; exact mul_le_mul ha hc (abs_nonneg _) ((abs_nonneg _).trans ha)
  have m2 : |b * d| ≤ V * U := by
    rw [abs_mul]; exact mul_le_mul hb hd (abs_nonneg _) ((abs_nonneg _).trans hb)
  have h3 := round_err h (fl (a * c) + fl (b * d))
  generalize hp : (2 : ℝ) ^ (-1075 : ℤ) = η at *
  generalize hw : V * U = W at *
  generalize fl (fl (a * c) + fl (b * d)) = r at *
  generalize fl (a * c) = x at *
  generalize fl (b * d) = y at *
  generalize a * c = A at *
  generalize b * d = B at *
  have h4 : |x + y| ≤ 4 * W := by
    rw [abs_le] at *
    constructor <;> linarith [h1.1, h1.2, h2.1, h2.2, m1.1, m1.2, m2.1, m2.2]
  have h5 : |x + y| / 2 ^ 53 ≤ 4 * W / 2 ^ 53 := by gcongr
  have h6 : |r - (x + y)| ≤ 5 * W / 2 ^ 53 := by
    have : 5 * W / 2 ^ 53 = 4 * W / 2 ^ 53 + W / 2 ^ 53 := by ring
    linarith
  rw [abs_le] at *
  constructor <;> linarith [h1.1, h1.2, h2.1, h2.2, h6.1, h6.2]

/-- A quotient of scalar products. -/
theorem quot_err (h : IsRounding fl) {D D' N N' V U : ℝ} (hV : 0 < V) (hVU : V ≤ U) (hN : V ^ 2 ≤ N)
    (hD : |D| ≤ 2 * (V * U)) (hD' : |D' - D| ≤ 9 * (V * U) / 2 ^ 53) (hN' : |N' - N| ≤ 9 * (V * V) / 2 ^ 53) :
    0 < N' ∧ |-D' / N'| ≤ 3 * U / V ∧ |fl (-D' / N') - -D / N| ≤ 58 * (U / V) / 2 ^ 53 := by
  have hU : 0 < U := hV.trans_le hVU
  have hN0 : 0 < N := lt_of_lt_of_le (by positivity) hN
  have hN1 : V ^ 2 / 2 ≤ N' := by
    have := (abs_le.1 hN').1
    nlinarith [sq_nonneg V]
  have hN'0 : 0 < N' := lt_of_lt_of_le (by positivity) hN1
  have key : |-D' / N' - -D / N| ≤ 54 * (U / V) / 2 ^ 53 := by
    have e : -D' / N' - -D / N = (-(D' - D)) / N' + (-D / N) * ((N - N') / N') := by
      field_simp; ring
    rw [e]
    have a1 : |(-(D' - D)) / N'| ≤ 18 * (U / V) / 2 ^ 53 := by
      rw [abs_div, abs_neg, abs_of_pos hN'0, div_le_iff₀ hN'0]
      refine hD'.trans ?_
      have : 18 * (U / V) / 2 ^ 53 * (V ^ 2 / 2) = 9 * (V * U) / 2 ^ 53 := by field_simp; ring
      rw [← this]
      exact mul_le_mul_of_nonneg_left hN1 (by positivity)
    have a2 : |-D / N| ≤ 2 * (U / V) := by
      rw [abs_div, abs_neg, abs_of_pos hN0, div_le_iff₀ hN0]
      refine hD.trans ?_
      have : 2 * (U / V) * V ^ 2 = 2 * (V * U) := by field_simp
      rw [← this]
      exact mul_le_mul_of_nonneg_left hN (by positivity)
    have a3 : |(N - N') / N'| ≤ 18 / 2 ^ 53 := by
      rw [abs_div, abs_of_pos hN'0, div_le_iff₀ hN'0, abs_sub_comm]
      refine hN'.trans ?_
      have : (18 : ℝ) / 2 ^ 53 * (V ^ 2 / 2) = 9 * (V * V) / 2 ^ 53 := by ring
      rw [← this]
      exact mul_le_mul_of_nonneg_left hN1 (by positivity)
    have a4 : |-D / N * ((N - N') / N')| ≤ 2 * (U / V) * (18 / 2 ^ 53) := by
      rw [abs_mul]; exact mul_le_mul a2 a3 (abs_nonneg _) (by positivity)
    refine (abs_add_le _ _).trans ((add_le_add a1 a4).trans (le_of_eq (by ring)))
  have a2 : |-D / N| ≤ 2 * (U / V) := by
    rw [abs_div, abs_neg, abs_of_pos hN0, div_le_iff₀ hN0]
    refine hD.trans ?_
    have : 2 * (U / V) * V ^ 2 = 2 * (V * U) := by field_simp
    rw [← this]
    exact mul_le_mul_of_nonneg_left hN (by positivity)
  have hUV : 1 ≤ U / V := (one_le_div hV).2 hVU
  have hq : |-D' / N'| ≤ 3 * (U / V) := by
    have := abs_le.1 key
    have := abs_le.1 a2
    rw [abs_le]
    constructor <;> linarith
  refine ⟨hN'0, by rw [mul_div_assoc]; exact hq, ?_⟩
  have h1 := round_err h (-D' / N')
  have h2 : |-D' / N'| / 2 ^ 53 ≤ 3 * (U / V) / 2 ^ 53 := by gcongr
  have h3 : (2 : ℝ) ^ (-1075 : ℤ) ≤ (U / V) / 2 ^ 53 := by
    rw [le_div_iff₀ (by positivity), ← zpow_natCast, ← zpow_add₀ two_ne_zero]
    exact (zpow_le_one_of_nonpos₀ (by norm_num) (by norm_num)).trans hUV
  have := abs_sub_le (fl (-D' / N')) (-D' / N') (-D / N)
  have e : 58 * (U / V) / 2 ^ 53 = 3 * (U / V) / 2 ^ 53 + (U / V) / 2 ^ 53 + 54 * (U / V) / 2 ^ 53 := by ring
  linarith

theorem rnd_pow (h : IsRounding fl) {x : ℝ} (k : Nat) (hk : k ≤ 1000) (hx : |x| ≤ 2 ^ k) :
    rnd fl x = fin (fl x) ∧ |fl x| ≤ 2 ^ k := by
  have hb : (2 : ℝ) ^ k ≤ big := pow_le_pow_right₀ (by norm_num) hk
  have hd : IsDouble ((2 : ℝ) ^ k) := ⟨1, k, by norm_num, by omega, by
    rw [Int.cast_one, one_mul]; exact (zpow_natCast 2 k).symm⟩
  exact ⟨rnd_fin (hx.trans (hb.trans (by linarith [big_pos]))), fl_abs_le h hd hx⟩

theorem fl_zero (h : IsRounding fl) : fl 0 = 0 := h.self isDouble_zero

private theorem diff_pow {a b : ℝ} (ha : |a| ≤ 2 ^ 400) (hb : |b| ≤ 2 ^ 400) : |a - b| ≤ 2 ^ 401 := by
  have : (2 : ℝ) ^ 401 = 2 ^ 400 + 2 ^ 400 := by rw [pow_succ]; ring
  rw [this]
  exact (abs_sub a b).trans (add_le_add ha hb)

private theorem mul_pow' {a b : ℝ} (ha : |a| ≤ 2 ^ 401) (hb : |b| ≤ 2 ^ 401) : |a * b| ≤ 2 ^ 802 := by
  rw [abs_mul, show (802 : Nat) = 401 + 401 by norm_num, pow_add]
  exact mul_le_mul ha hb (abs_nonneg _) (by positivity)

private theorem dot_fin (h : IsRounding fl) {a b c d z : ℝ} (ha : |a| ≤ 2 ^ 401) (hb : |b| ≤ 2 ^ 401) (hc : |c| ≤ 2 ^ 401)
    (hd : |d| ≤ 2 ^ 401) :
    pdot fl ⟨fin a, fin b, fin 0⟩ ⟨fin c, fin d, fin z⟩ = fin (fl (fl (a * c) + fl (b * d))) := by
  obtain ⟨h1, h1'⟩ := rnd_pow h 802 (by norm_num) (mul_pow' ha hc)
  obtain ⟨h2, h2'⟩ := rnd_pow h 802 (by norm_num) (mul_pow' hb hd)
  have h3 : |fl (a * c) + fl (b * d)| ≤ 2 ^ 803 := by
    have : (2 : ℝ) ^ 803 = 2 ^ 802 + 2 ^ 802 := by rw [pow_succ]; ring
    rw [this]
    exact (abs_add_le _ _).trans (add_le_add h1' h2')
  obtain ⟨h4, h4'⟩ := rnd_pow h 803 (by norm_num) h3
  have h5 : rnd fl (0 * z) = fin 0 := by
    rw [zero_mul, (rnd_pow h 0 (by norm_num) (by simp)).1, fl_zero h]
  unfold pdot
  rw [mul_fin, mul_fin, mul_fin, h1, h2, h5, add_fin, h4, add_fin, add_zero, (rnd_pow h 803 (by norm_num) h4').1,
    h.self (h.double _)]

/-- The computation has finite values only, except for the quotient. -/
theorem closest_fin (h : IsRounding fl) {p s e : RPoint} (hp : Within (2 ^ 400) p) (hs : Within (2 ^ 400) s)
    (he : Within (2 ^ 400) e) (hz : s.z = e.z) :
    ∃ a b c d : ℝ, a = fl (e.x - s.x) ∧ b = fl (e.y - s.y) ∧ c = fl (s.x - p.x) ∧ d = fl (s.y - p.y) ∧
      ∃ τ, τ = limit (div fl (fin (-fl (fl (a * c) + fl (b * d)))) (fin (fl (fl (a * a) + fl (b * b))))) ∧
      closestInSegment fl (ofPoint p) (ofPoint s) (ofPoint e) =
        ofPoint ⟨fl (fl (a * τ) + s.x), fl (fl (b * τ) + s.y), fl s.z⟩ := by
  refine ⟨_, _, _, _, rfl, rfl, rfl, rfl, _, rfl, ?_⟩
  obtain ⟨a1, a2⟩ := rnd_pow h 401 (by norm_num) (diff_pow he.1 hs.1)
  obtain ⟨b1, b2⟩ := rnd_pow h 401 (by norm_num) (diff_pow he.2.1 hs.2.1)
  obtain ⟨c1, c2⟩ := rnd_pow h 401 (by norm_num) (diff_pow hs.1 hp.1)
  obtain ⟨d1, d2⟩ := rnd_pow h 401 (by norm_num) (diff_pow hs.2.1 hp.2.1)
  obtain ⟨z1, _⟩ := rnd_pow h 401 (by norm_num) (diff_pow hs.2.2 hp.2.2)
  have z0 : rnd fl (e.z - s.z) = fin 0 := by
    rw [← hz, sub_self, (rnd_pow h 0 (by norm_num) (by simp)).1, fl_zero h]
  unfold closestInSegment psub ofPoint
  simp only [sub_fin, a1, b1, c1, d1, z0, z1]
  rw [dot_fin h a2 b2 c2 d2, dot_fin h a2 b2 a2 b2, limit_eq]
  simp only [neg]
  generalize hτ : limit _ = τ
  have hr : |τ| ≤ 1 := by
    have := limit_range (div fl (fin (-fl (fl (fl (e.x - s.x) * fl (s.x - p.x)) + fl (fl (e.y - s.y) * fl (s.y - p.y)))))
      (fin (fl (fl (fl (e.x - s.x) * fl (e.x - s.x)) + fl (fl (e.y - s.y) * fl (e.y - s.y))))))
    rw [hτ] at this
    exact abs_le.2 ⟨by linarith [this.1], this.2⟩
  have coord : ∀ a x : ℝ, |a| ≤ 2 ^ 401 → |x| ≤ 2 ^ 400 →
      add fl (mul fl (fin a) (fin τ)) (fin x) = fin (fl (fl (a * τ) + x)) := by
    intro a x ha hx
    have h1 : |a * τ| ≤ 2 ^ 401 := by
      rw [abs_mul]
      calc |a| * |τ| ≤ 2 ^ 401 * 1 := mul_le_mul ha hr (abs_nonneg _) (by positivity)
        _ = 2 ^ 401 := mul_one _
    obtain ⟨h2, h3⟩ := rnd_pow h 401 (by norm_num) h1
    have h4 : |fl (a * τ) + x| ≤ 2 ^ 402 := by
      have e1 : (2 : ℝ) ^ 402 = 2 ^ 401 + 2 ^ 401 := by rw [pow_succ]; ring
      have e2 : (2 : ℝ) ^ 400 ≤ 2 ^ 401 := pow_le_pow_right₀ (by norm_num) (by norm_num)
      rw [e1]
      exact (abs_add_le _ _).trans (add_le_add h3 (hx.trans e2))
    rw [mul_fin, h2, add_fin, (rnd_pow h 402 (by norm_num) h4).1]
  unfold pscale padd
  simp only
  rw [coord _ _ a2 hs.1, coord _ _ b2 hs.2.1, coord 0 _ (by simp) hs.2.2, zero_mul, fl_zero h, zero_add]

/-- Bounds of a rounded difference. -/
theorem diff_err (h : IsRounding fl) {a b M : ℝ} (hM : (2 : ℝ) ^ (-400 : ℤ) ≤ M) (ha : |a| ≤ M) (hb : |b| ≤ M) :
    |fl (a - b) - (a - b)| ≤ 3 * M / 2 ^ 53 ∧ |fl (a - b)| ≤ 3 * M := by
  have h1 := round_err h (a - b)
  have h2 : |a - b| ≤ 2 * M := (abs_sub a b).trans (by linarith)
  have h3 : |a - b| / 2 ^ 53 ≤ 2 * M / 2 ^ 53 := by gcongr
  have h4 := small_err hM
  have e : 3 * M / 2 ^ 53 = 2 * M / 2 ^ 53 + M / 2 ^ 53 := by ring
  have h5 : |fl (a - b) - (a - b)| ≤ 3 * M / 2 ^ 53 := by linarith
  refine ⟨h5, ?_⟩
  have hM0 : 0 ≤ M := (abs_nonneg _).trans ha
  rw [abs_le] at *
  constructor <;> linarith [h5.1, h5.2, h2.1, h2.2]

/-- Rounding of the last two operations. -/
theorem last_err (h : IsRounding fl) {a τ x M : ℝ} (hM : (2 : ℝ) ^ (-400 : ℤ) ≤ M) (ha : |a| ≤ 3 * M) (h0 : 0 ≤ τ) (h1 : τ ≤ 1)
    (hx : |x| ≤ M) : |fl (fl (a * τ) + x) - (x + τ * a)| ≤ 10 * M / 2 ^ 53 := by
  have hM0 : 0 ≤ M := (abs_nonneg _).trans hx
  have m : |a * τ| ≤ 3 * M := by
    rw [abs_mul, abs_of_nonneg h0]
    calc |a| * τ ≤ 3 * M * 1 := mul_le_mul ha h1 h0 (by linarith)
      _ = 3 * M := mul_one _
  have r1 := round_err h (a * τ)
  have r2 : |a * τ| / 2 ^ 53 ≤ 3 * M / 2 ^ 53 := by gcongr
  have h4 := small_err hM
  have e : 4 * M / 2 ^ 53 = 3 * M / 2 ^ 53 + M / 2 ^ 53 := by ring
  have r3 : |fl (a * τ) - a * τ| ≤ 4 * M / 2 ^ 53 := by linarith
  have r4 : |fl (a * τ) + x| ≤ 5 * M := by
    rw [abs_le] at *
    constructor <;> linarith [r3.1, r3.2, m.1, m.2, hx.1, hx.2]
  have r5 := round_err h (fl (a * τ) + x)
  have r6 : |fl (a * τ) + x| / 2 ^ 53 ≤ 5 * M / 2 ^ 53 := by gcongr
  have e2 : 10 * M / 2 ^ 53 = 4 * M / 2 ^ 53 + (5 * M / 2 ^ 53 + M / 2 ^ 53) := by ring
  have r7 : |fl (fl (a * τ) + x) - (fl (a * τ) + x)| ≤ 5 * M / 2 ^ 53 + M / 2 ^ 53 := by linarith
  rw [mul_comm τ a, e2]
  rw [abs_le] at *
  constructor <;> linarith [r3.1, r3.2, r7.1, r7.2]

/-- The parameter is the one of the exact nearest point of the rounded segment, up to rounding errors. -/
theorem param_err (h : IsRounding fl) {a b c d M : ℝ} (hM : (2 : ℝ) ^ (-400 : ℤ) ≤ M) (ha : |a| ≤ 3 * M) (hb : |b| ≤ 3 * M)
    (hc : |c| ≤ 3 * M) (hd : |d| ≤ 3 * M) (t : ℝ)
    (ht : t = Max.max 0 (Min.min 1 (if a * a + b * b = 0 then 1 else -(a * c + b * d) / (a * a + b * b)))) :
    let τ := limit (div fl (fin (-fl (fl (a * c) + fl (b * d)))) (fin (fl (fl (a * a) + fl (b * b)))))
    |(τ - t) * a| ≤ 174 * M / 2 ^ 53 ∧ |(τ - t) * b| ≤ 174 * M / 2 ^ 53 := by
  intro τ
  have hM0 : 0 < M := (two_zpow_pos _).trans_le hM
  have hτ := limit_range (div fl (fin (-fl (fl (a * c) + fl (b * d)))) (fin (fl (fl (a * a) + fl (b * b)))))
  have ht0 : 0 ≤ t := ht ▸ le_max_left _ _
  have ht1 : t ≤ 1 := ht ▸ max_le zero_le_one (min_le_left _ _)
  have hdiff : |τ - t| ≤ 1 := by
    rw [abs_le]; exact ⟨by linarith [hτ.1], by linarith [hτ.2]⟩
  obtain ⟨V, hV, haV, hbV, hV3⟩ : ∃ V, V = Max.max |a| |b| ∧ |a| ≤ V ∧ |b| ≤ V ∧ V ≤ 3 * M :=
    ⟨_, rfl, le_max_left _ _, le_max_right _ _, max_le ha hb⟩
  have hV0 : 0 ≤ V := (abs_nonneg _).trans haV
  suffices hs : |τ - t| * V ≤ 174 * M / 2 ^ 53 by
    constructor <;> rw [abs_mul]
    · exact (mul_le_mul_of_nonneg_left haV (abs_nonneg _)).trans hs
    · exact (mul_le_mul_of_nonneg_left hbV (abs_nonneg _)).trans hs
  by_cases hsmall : V ≤ M / 2 ^ 53
  · calc |τ - t| * V ≤ 1 * (M / 2 ^ 53) := mul_le_mul hdiff hsmall hV0 zero_le_one
      _ ≤ 174 * M / 2 ^ 53 := by rw [one_mul]; gcongr; linarith
  · have hsmall := not_le.1 hsmall
    have hVpos : 0 < V := lt_of_le_of_lt (by positivity) hsmall
    have hN : V ^ 2 ≤ a * a + b * b := by
      rcases le_total |a| |b| with hab | hab
      · rw [hV, max_eq_right hab, sq_abs]; nlinarith [sq_nonneg a]
      · rw [hV, max_eq_left hab, sq_abs]; nlinarith [sq_nonneg b]
    have hV453 : (2 : ℝ) ^ (-453 : ℤ) ≤ V := by
      refine le_trans ?_ hsmall.le
      rw [le_div_iff₀ (by positivity), ← zpow_natCast, ← zpow_add₀ two_ne_zero]
      exact hM
    have eta : ∀ U, V ≤ U → (2 : ℝ) ^ (-1075 : ℤ) ≤ V * U / 2 ^ 53 := by
      intro U hU
      have h1 : (2 : ℝ) ^ (-906 : ℤ) ≤ V * U := by
        rw [show (-906 : ℤ) = -453 + -453 by norm_num, zpow_add₀ two_ne_zero]
        exact mul_le_mul hV453 (hV453.trans hU) (two_zpow_pos _).le hV0
      rw [le_div_iff₀ (by positivity), ← zpow_natCast, ← zpow_add₀ two_ne_zero]
      exact (zpow_le_zpow_right₀ (by norm_num) (by norm_num)).trans h1
    have dD := dot_err h haV hbV hc hd (eta _ hV3)
    have dN := dot_err h haV hbV haV hbV (eta _ le_rfl)
    have bD : |a * c + b * d| ≤ 2 * (V * (3 * M)) := by
      refine (abs_add_le _ _).trans ?_
      rw [abs_mul, abs_mul]
      have := mul_le_mul haV hc (abs_nonneg _) hV0
      have := mul_le_mul hbV hd (abs_nonneg _) hV0
      linarith
    obtain ⟨q0, q1, q2⟩ := quot_err h hVpos hV3 hN bD dD dN
    have hfin : div fl (fin (-fl (fl (a * c) + fl (b * d)))) (fin (fl (fl (a * a) + fl (b * b)))) =
        fin (fl (-fl (fl (a * c) + fl (b * d)) / fl (fl (a * a) + fl (b * b)))) := by
      refine div_fin q0.ne' (q1.trans ?_)
      have : 3 * (3 * M) / V ≤ 2 ^ 57 := by
        rw [div_le_iff₀ hVpos]
        have := (div_lt_iff₀ (by positivity)).1 hsmall
        nlinarith
      have h57 : (2 : ℝ) ^ 57 ≤ big := pow_le_pow_right₀ (by norm_num) (by norm_num)
      linarith [big_pos]
    have hne : a * a + b * b ≠ 0 := (lt_of_lt_of_le (by positivity) hN).ne'
    rw [if_neg hne] at ht
    have hτe : τ = Max.max 0 (Min.min 1 (fl (-fl (fl (a * c) + fl (b * d)) / fl (fl (a * a) + fl (b * b))))) := by
      show limit _ = _
      rw [hfin]; rfl
    have : |τ - t| ≤ 58 * (3 * M / V) / 2 ^ 53 := by
      rw [hτe, ht]; exact (limit_lip _ _).trans q2
    calc |τ - t| * V ≤ 58 * (3 * M / V) / 2 ^ 53 * V := mul_le_mul_of_nonneg_right this hV0
      _ = 174 * M / 2 ^ 53 := by field_simp; ring

/-- The candidate that is picked has the smallest distance. -/
theorem pick_spec (dist : Point Flt → Flt) (q : Point Flt) (qs : List (Point Flt)) (hn : ∀ x ∈ q :: qs, dist x ≠ nan) :
    (q :: qs).getD (minLoop 0 (dist q) 1 (qs.map dist)) q ∈ q :: qs ∧
    ∀ x ∈ q :: qs, ¬ lt (dist x) (dist ((q :: qs).getD (minLoop 0 (dist q) 1 (qs.map dist)) q)) := by
  have getD : ∀ {j : Nat} (hj : j < (q :: qs).length), (q :: qs).getD j q = (q :: qs)[j] := fun hj => by
    rw [List.getD_eq_getElem?_getD, List.getElem?_eq_getElem hj, Option.getD_some]
  let cost : Nat → Flt := fun j => dist ((q :: qs).getD j q)
  have hmap : (List.range' 1 qs.length).map cost = qs.map dist := by
    refine List.ext_getElem (by simp) fun i h1 h2 => ?_
    have hi : i < qs.length := by simpa using h2
    simp [cost, Nat.add_comm 1 i, List.getD_eq_getElem?_getD, hi]
  obtain ⟨k, hk, e, _, hmin, _⟩ := minLoop_spec cost qs.length 0 1 (by omega) (hn q (by simp))
    (fun j hj => by rw [show j = 0 by omega]; exact Flt.lt_irrefl _) (fun j hj => absurd hj (by omega))
  rw [hmap] at e
  have e' : minLoop 0 (dist q) 1 (qs.map dist) = k := e
  rw [e']
  have hk' : k < (q :: qs).length := by rw [List.length_cons]; omega
  refine ⟨?_, fun x hx => ?_⟩
  · rw [getD hk']; exact List.getElem_mem _
  · obtain ⟨j, hj, rfl⟩ := List.mem_iff_getElem.1 hx
    have := hmin j (by rw [List.length_cons] at hj; omega)
    simp only [cost] at this
    rwa [getD hj] at this

end F2C.Ieee
