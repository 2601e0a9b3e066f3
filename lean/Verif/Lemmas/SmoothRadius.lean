import Mathlib.Analysis.Calculus.Deriv.MeanValue
import Mathlib.Analysis.SpecialFunctions.Integrals.Basic
import Mathlib.MeasureTheory.Integral.IntervalIntegral.FundThmCalculus
import Mathlib.Analysis.SpecialFunctions.Trigonometric.Deriv
import Verif.Model.SmoothRadius

/-! # Clothoids: curves whose curvature grows from zero -/

namespace F2C.SmoothRadius

open Real intervalIntegral

/-- Heading after `s`. -/
noncomputable def hd (σ s : ℝ) : ℝ := σ * s ^ 2 / 2
/-- Position after `s`. -/
noncomputable def px (σ s : ℝ) : ℝ := ∫ t in (0 : ℝ)..s, cos (hd σ t)
noncomputable def py (σ s : ℝ) : ℝ := ∫ t in (0 : ℝ)..s, sin (hd σ t)

theorem hd_cont (σ : ℝ) : Continuous (hd σ) := by unfold hd; fun_prop

theorem hd_deriv (σ s : ℝ) : HasDerivAt (hd σ) (σ * s) s := by
  have := ((hasDerivAt_pow 2 s).const_mul σ).div_const 2
  refine this.congr_deriv ?_
  simp; ring

theorem px_deriv (σ s : ℝ) : HasDerivAt (px σ) (cos (hd σ s)) s :=
  ((continuous_cos.comp (hd_cont σ)).integral_hasStrictDerivAt 0 s).hasDerivAt

theorem py_deriv (σ s : ℝ) : HasDerivAt (py σ) (sin (hd σ s)) s :=
  ((continuous_sin.comp (hd_cont σ)).integral_hasStrictDerivAt 0 s).hasDerivAt

theorem px_zero (σ : ℝ) : px σ 0 = 0 := integral_same
theorem py_zero (σ : ℝ) : py σ 0 = 0 := integral_same

/-- The centre of curvature at the end, seen from the point after `s`, is never behind. -/
theorem ahead {σ s L : ℝ} (hσ : 0 < σ) (hs : 0 < s) (hL : s ≤ L) :
    0 ≤ (px σ L - px σ s) * cos (hd σ s) + (py σ L - py σ s) * sin (hd σ s)
      - sin (hd σ L - hd σ s) / (σ * L) := by
  set g : ℝ → ℝ := fun u => (px σ u - px σ s) * cos (hd σ s) + (py σ u - py σ s) * sin (hd σ s)
      - sin (hd σ u - hd σ s) / (σ * u) - σ * (1 - cos (hd σ u - hd σ s)) / (σ * u) ^ 3 with hg
  have hder : ∀ u, 0 < u → HasDerivAt g (3 * (1 - cos (hd σ u - hd σ s)) / (σ * u ^ 2) ^ 2) u := by
    intro u hu
    have h1 := ((px_deriv σ u).sub_const (px σ s)).mul_const (cos (hd σ s))
    have h2 := ((py_deriv σ u).sub_const (py σ s)).mul_const (sin (hd σ s))
    have h0 := (hd_deriv σ u).sub_const (hd σ s)
    have hk : HasDerivAt (fun u => σ * u) σ u := by
      simpa using (hasDerivAt_id u).const_mul σ
    have hne : σ * u ≠ 0 := by positivity
    have h3 := h0.sin.div hk hne
    have h4 := ((h0.cos.const_sub 1).const_mul σ).div (hk.pow 3) (pow_ne_zero 3 hne)
    refine (((h1.add h2).sub h3).sub h4).congr_deriv ?_
    have hc : cos (hd σ u - hd σ s) = cos (hd σ u) * cos (hd σ s) + sin (hd σ u) * sin (hd σ s) :=
      cos_sub _ _
    rw [← hc, show ((fun u : ℝ => σ * u) ^ 3) u = (σ * u) ^ 3 from rfl]
    field_simp
    ring
  have hmono : MonotoneOn g (Set.Icc s L) := by
    refine monotoneOn_of_deriv_nonneg (convex_Icc s L)
      (fun u hu => (hder u (lt_of_lt_of_le hs hu.1)).continuousAt.continuousWithinAt)
      (fun u hu => ?_) (fun u hu => ?_)
    · rw [interior_Icc] at hu
      exact (hder u (hs.trans hu.1)).differentiableAt.differentiableWithinAt
    · rw [interior_Icc] at hu
      rw [(hder u (hs.trans hu.1)).deriv]
      have := cos_le_one (hd σ u - hd σ s)
      have : 0 ≤ 1 - cos (hd σ u - hd σ s) := by linarith
      positivity
  have h0 : g s = 0 := by simp [hg]
  have h1 := hmono (Set.left_mem_Icc.2 hL) (Set.right_mem_Icc.2 hL) hL
  rw [h0] at h1
  have h2 : 0 ≤ σ * (1 - cos (hd σ L - hd σ s)) / (σ * L) ^ 3 := by
    have := cos_le_one (hd σ L - hd σ s)
    have : 0 ≤ 1 - cos (hd σ L - hd σ s) := by linarith
    have : 0 < L := lt_of_lt_of_le hs hL
    positivity
  simp only [hg] at h1
  linarith

/-- Centre of curvature at the end. -/
noncomputable def cx (σ L : ℝ) : ℝ := px σ L - sin (hd σ L) / (σ * L)
noncomputable def cy (σ L : ℝ) : ℝ := py σ L + cos (hd σ L) / (σ * L)

/-- Squared distance from that centre. -/
noncomputable def d2 (σ L s : ℝ) : ℝ := (px σ s - cx σ L) ^ 2 + (py σ s - cy σ L) ^ 2

theorem d2_antitone {σ L : ℝ} (hσ : 0 < σ) : AntitoneOn (d2 σ L) (Set.Icc 0 L) := by
  have hder : ∀ s, HasDerivAt (d2 σ L) (2 * ((px σ s - cx σ L) * cos (hd σ s) +
      (py σ s - cy σ L) * sin (hd σ s))) s := by
    intro s
    have h1 := ((px_deriv σ s).sub_const (cx σ L)).pow 2
    have h2 := ((py_deriv σ s).sub_const (cy σ L)).pow 2
    refine (h1.add h2).congr_deriv ?_
    simp; ring
  refine antitoneOn_of_deriv_nonpos (convex_Icc 0 L)
      (fun u _ => (hder u).continuousAt.continuousWithinAt)
      (fun u _ => (hder u).differentiableAt.differentiableWithinAt) (fun s hs => ?_)
  rw [interior_Icc] at hs
  rw [(hder s).deriv]
  have h := ahead hσ hs.1 hs.2.le
  rw [sin_sub] at h
  have hk : σ * L ≠ 0 := by have := hs.1.trans hs.2; positivity
  simp only [cx, cy]
  have e : (px σ s - (px σ L - sin (hd σ L) / (σ * L))) * cos (hd σ s) +
      (py σ s - (py σ L + cos (hd σ L) / (σ * L))) * sin (hd σ s) =
      -((px σ L - px σ s) * cos (hd σ s) + (py σ L - py σ s) * sin (hd σ s)
      - (sin (hd σ L) * cos (hd σ s) - cos (hd σ L) * sin (hd σ s)) / (σ * L)) := by
    field_simp
    ring
  rw [e]
  linarith

theorem d2_end {σ L : ℝ} (hσ : 0 < σ) (hL : 0 < L) : d2 σ L L = (1 / (σ * L)) ^ 2 := by
  have hk : σ * L ≠ 0 := by positivity
  simp only [d2, cx, cy]
  have := sin_sq_add_cos_sq (hd σ L)
  field_simp
  ring_nf
  linarith

/-- The chord is not longer than the curve. -/
theorem chord {σ L : ℝ} (hL : 0 ≤ L) : px σ L ^ 2 + py σ L ^ 2 ≤ L ^ 2 := by
  set x := px σ L
  set y := py σ L
  set r := sqrt (x ^ 2 + y ^ 2) with hr
  have hr2 : r ^ 2 = x ^ 2 + y ^ 2 := sq_sqrt (by positivity)
  have hr0 : 0 ≤ r := sqrt_nonneg _
  have hc : Continuous fun t => x * cos (hd σ t) + y * sin (hd σ t) := by
    have := hd_cont σ
    fun_prop
  have h1 : ∫ t in (0 : ℝ)..L, (x * cos (hd σ t) + y * sin (hd σ t)) = x * x + y * y := by
    rw [integral_add, integral_const_mul, integral_const_mul]
    · rfl
    · exact ((continuous_const.mul (continuous_cos.comp (hd_cont σ))).intervalIntegrable _ _)
    · exact ((continuous_const.mul (continuous_sin.comp (hd_cont σ))).intervalIntegrable _ _)
  have h2 : ∫ t in (0 : ℝ)..L, (x * cos (hd σ t) + y * sin (hd σ t)) ≤ ∫ _ in (0 : ℝ)..L, r := by
    refine integral_mono_on hL (hc.intervalIntegrable _ _) (continuous_const.intervalIntegrable _ _)
      fun t _ => ?_
    refine le_of_sq_le_sq ?_ hr0
    rw [hr2]
    have := sin_sq_add_cos_sq (hd σ t)
    nlinarith [sq_nonneg (x * sin (hd σ t) - y * cos (hd σ t))]
  rw [h1, integral_const] at h2
  simp only [sub_zero, smul_eq_mul] at h2
  have h3 : r * r ≤ L * r := by nlinarith
  rcases hr0.eq_or_lt with h | h
  · rw [← hr2, ← h]; simpa using sq_nonneg L
  · have := le_of_mul_le_mul_right h3 h
    rw [← hr2]
    nlinarith

end F2C.SmoothRadius
