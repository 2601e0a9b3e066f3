import Verif.Model.DoubleConvex
import Verif.Lemmas.DoubleGeom
import Verif.Lemmas.DoubleObjective
import Verif.Lemmas.Border

/-! # Lemmas about convexity in double precision -/

namespace F2C.Dbl

open Props Props.TurningSpec Props.Geo

variable {fl : ℝ → ℝ} {atan2 : ℝ → ℝ → ℝ}

/-- The angle is the change of direction between the rounded differences, up to rounding. -/
theorem turnAngle_near (h : IsRounding fl) (ha : IsAtan2 atan2) (a b c : RPoint) :
    NearHeading (1 / 2 ^ 44) (turnAngle fl atan2 a b c)
      (Complex.arg ⟨fl (c.x - b.x), fl (c.y - b.y)⟩ - Complex.arg ⟨fl (b.x - a.x), fl (b.y - a.y)⟩) := by
  obtain ⟨n1, b1⟩ := angle_near' h ha (p := subPoint fl c b) (h.double _) (h.double _)
  obtain ⟨n2, b2⟩ := angle_near' h ha (p := subPoint fl b a) (h.double _) (h.double _)
  unfold turnAngle
  set α := angleFromPoint fl atan2 (subPoint fl c b)
  set β := angleFromPoint fl atan2 (subPoint fl b a)
  have b3 : |α - β| ≤ 14 := (abs_sub _ _).trans (by linarith)
  have e := h.err (α - β) b3
  have u1 := u53_small
  have b4 : |fl (α - β)| ≤ 64 := by
    have := abs_sub_abs_le_abs_sub (fl (α - β)) (α - β)
    have : u53 * 14 + u53 / 1000 ≤ 1 := by linarith
    linarith
  have m := near_mod2pi h b4
  have t : NearHeading (1 / 2 ^ 46) (α - β) (Complex.arg ⟨(subPoint fl c b).x, (subPoint fl c b).y⟩ - β) := by
    have := n1.add_right (-β)
    rwa [← sub_eq_add_neg, ← sub_eq_add_neg] at this
  refine near_mono (near_trans (near_trans (near_trans m (near_of_abs e)) t) (near_sub_left _ n2)) ?_
  norm_num [u53]

/-- The sine of a difference of directions. -/
theorem sin_arg_sub (p q r s : ℝ) (h1 : 0 < √(p ^ 2 + q ^ 2)) (h2 : 0 < √(r ^ 2 + s ^ 2)) :
    Real.sin (Complex.arg ⟨r, s⟩ - Complex.arg ⟨p, q⟩) * (√(p ^ 2 + q ^ 2) * √(r ^ 2 + s ^ 2)) = p * s - q * r := by
  have n : ∀ x y : ℝ, ‖(⟨x, y⟩ : ℂ)‖ = √(x ^ 2 + y ^ 2) := fun x y => by
    rw [Complex.norm_def, Complex.normSq_mk]
    congr 1; ring
  have z1 : (⟨p, q⟩ : ℂ) ≠ 0 := by rw [← norm_pos_iff, n]; exact h1
  have z2 : (⟨r, s⟩ : ℂ) ≠ 0 := by rw [← norm_pos_iff, n]; exact h2
  rw [Real.sin_sub, Complex.sin_arg, Complex.sin_arg, Complex.cos_arg z1, Complex.cos_arg z2, n, n]
  simp only
  field_simp

/-- products of factors that are off a little, not rounded -/
theorem exact_prod_err {a a' b b' : ℝ} (ha : |a' - a| ≤ u53 * |a|) (hb : |b' - b| ≤ u53 * |b|) :
    |a' * b' - a * b| ≤ 3 * u53 * (|a| * |b|) := by
  have u0 := u53_pos
  have u1 := u53_small
  have e1 : a' * b' - a * b = (a' - a) * (b' - b) + (a' - a) * b + a * (b' - b) := by ring
  have P0 : 0 ≤ |a| * |b| := by positivity
  rw [e1]
  have t1 := abs_add_le ((a' - a) * (b' - b) + (a' - a) * b) (a * (b' - b))
  have t2 := abs_add_le ((a' - a) * (b' - b)) ((a' - a) * b)
  rw [abs_mul, abs_mul] at t2
  rw [abs_mul a] at t1
  have c1 : |a' - a| * |b' - b| ≤ (u53 * |a|) * (u53 * |b|) := mul_le_mul ha hb (abs_nonneg _) (by positivity)
  have c2 : |a' - a| * |b| ≤ (u53 * |a|) * |b| := mul_le_mul_of_nonneg_right ha (abs_nonneg _)
  have c3 : |a| * |b' - b| ≤ |a| * (u53 * |b|) := mul_le_mul_of_nonneg_left hb (abs_nonneg _)
  have c4 : (u53 * |a|) * (u53 * |b|) ≤ u53 * (|a| * |b|) := by
    have : u53 * u53 ≤ u53 := by nlinarith
    calc (u53 * |a|) * (u53 * |b|) = (u53 * u53) * (|a| * |b|) := by ring
      _ ≤ _ := mul_le_mul_of_nonneg_right this P0
  linarith

theorem norm_le {p q p' q' : ℝ} (hp : |p' - p| ≤ u53 * |p|) (hq : |q' - q| ≤ u53 * |q|) :
    √(p' ^ 2 + q' ^ 2) ≤ 11 / 10 * √(p ^ 2 + q ^ 2) := by
  have u1 := u53_small
  have k : ∀ {x x' : ℝ}, |x' - x| ≤ u53 * |x| → x' ^ 2 ≤ 121 / 100 * x ^ 2 := by
    intro x x' hx
    have a0 := abs_nonneg x
    have : |x'| ≤ 11 / 10 * |x| := by
      have := abs_sub_abs_le_abs_sub x' x
      have : u53 * |x| ≤ 1 / 10 * |x| := mul_le_mul_of_nonneg_right (by linarith) a0
      linarith
    rw [← sq_abs x', ← sq_abs x]
    nlinarith [abs_nonneg x']
  have hk := k hp
  have hk' := k hq
  rw [Real.sqrt_le_left (by positivity), mul_pow, Real.sq_sqrt (by positivity)]
  linarith

theorem norm_pos {p q : ℝ} (h : p = 0 → q = 0 → False) : 0 < √(p ^ 2 + q ^ 2) := by
  apply Real.sqrt_pos.2
  by_contra hn
  push Not at hn
  have z1 : p ^ 2 = 0 := le_antisymm (by linarith [sq_nonneg q]) (sq_nonneg p)
  have z2 : q ^ 2 = 0 := le_antisymm (by linarith [sq_nonneg p]) (sq_nonneg q)
  exact h (pow_eq_zero_iff (by norm_num) |>.1 z1) (pow_eq_zero_iff (by norm_num) |>.1 z2)

/-- An angle whose sine is not small is on the side of π that its sine says. -/
theorem side_of_sine {θ φ W R c c' : ℝ} (r1 : 0 ≤ θ) (r2 : θ < twoPi) (near : |Real.sin θ - Real.sin φ| ≤ 1 / 2 ^ 44)
    (sn : Real.sin φ * W = c') (W0 : 0 < W) (W1 : W ≤ 2 * R) (cc : |c' - c| ≤ 1 / 2 ^ 50 * R) (hc : R / 2 ^ 40 ≤ |c|)
    (h0 : c ≠ 0) : θ < pi ↔ 0 < c := by
  have tp := twoPi_eq
  obtain ⟨pe1, pe⟩ := pi_error
  have pe2 : Real.pi - pi < 1 / 2 ^ 52 := by
    have e : (2 : ℝ) ^ (-52 : ℤ) = 1 / 2 ^ 52 := by norm_num
    rwa [e] at pe
  clear pe
  obtain ⟨near1, near2⟩ := abs_le.1 near
  obtain ⟨cc1, cc2⟩ := abs_le.1 cc
  have k : (1 : ℝ) / 2 ^ 50 * R ≤ R / 2 ^ 40 - R / 2 ^ 41 := by
    have : 0 ≤ R := by linarith
    have e : R / 2 ^ 40 - R / 2 ^ 41 = 1 / 2 ^ 41 * R := by ring
    rw [e]
    exact mul_le_mul_of_nonneg_right (by norm_num) this
  have w : 1 / 2 ^ 42 * W ≤ R / 2 ^ 41 := by
    have e : R / 2 ^ 41 = 1 / 2 ^ 42 * (2 * R) := by ring
    rw [e]
    exact mul_le_mul_of_nonneg_left W1 (by norm_num)
  have n44 : (1 : ℝ) / 2 ^ 42 - 1 / 2 ^ 44 > 1 / 2 ^ 43 := by norm_num
  have n52 : (1 : ℝ) / 2 ^ 52 < 1 / 2 ^ 43 := by norm_num
  have n43 : (0 : ℝ) < 1 / 2 ^ 43 := by norm_num
  rcases lt_or_gt_of_ne h0 with neg | pos
  · refine ⟨fun hlt => ?_, fun hh => absurd hh (not_lt.2 neg.le)⟩
    exfalso
    rw [abs_of_neg neg] at hc
    have s1 : Real.sin φ ≤ -(1 / 2 ^ 42) := by
      by_contra hn
      push Not at hn
      have := mul_lt_mul_of_pos_right hn W0
      rw [sn, neg_mul] at this
      linarith
    have : 0 ≤ Real.sin θ := Real.sin_nonneg_of_nonneg_of_le_pi r1 (by linarith)
    linarith
  · refine ⟨fun _ => pos, fun _ => ?_⟩
    rw [abs_of_pos pos] at hc
    have s1 : 1 / 2 ^ 42 ≤ Real.sin φ := by
      by_contra hn
      push Not at hn
      have := mul_lt_mul_of_pos_right hn W0
      rw [sn] at this
      linarith
    have s2 : 1 / 2 ^ 43 < Real.sin θ := by linarith
    have lt : θ < Real.pi := by
      by_contra hn
      push Not at hn
      have := Real.sin_nonneg_of_nonneg_of_le_pi (x := θ - Real.pi) (by linarith) (by linarith)
      rw [Real.sin_sub_pi] at this
      linarith
    by_contra hn
    push Not at hn
    have := Real.sin_le (x := Real.pi - θ) (by linarith)
    rw [Real.sin_pi_sub] at this
    linarith

/-- The side to which the path turns, for corners that are not nearly straight. -/
theorem turnAngle_side (h : IsRounding fl) (ha : IsAtan2 atan2) {M : ℝ} {a b c : RPoint} (pa : DoublePoint M a) (pb : DoublePoint M b)
    (pc : DoublePoint M c) (h0 : cross a b c ≠ 0) (hc : pdist a b * pdist b c / 2 ^ 40 ≤ |cross a b c|) :
    turnAngle fl atan2 a b c < pi ↔ 0 < cross a b c := by
  have near := (near_cos_sin (turnAngle_near h ha a b c)).2
  have d1 := diff_err h pb.dx pa.dx
  have d2 := diff_err h pb.dy pa.dy
  have d3 := diff_err h pc.dx pb.dx
  have d4 := diff_err h pc.dy pb.dy
  have r1 : 0 ≤ turnAngle fl atan2 a b c := (mod2pi_range h _).1
  have r2 : turnAngle fl atan2 a b c < twoPi := (mod2pi_range h _).2
  generalize turnAngle fl atan2 a b c = θ at *
  have sw : ∀ p q : RPoint, pdist p q = √((q.x - p.x) ^ 2 + (q.y - p.y) ^ 2) := fun p q => by rw [pdist_comm]; rfl
  rw [sw a b, sw b c] at hc
  have n1 := norm_le d1 d2
  have n2 := norm_le d3 d4
  have e1 := exact_prod_err d1 d4
  have e2 := exact_prod_err d2 d3
  have cs := cross_le (b.x - a.x) (b.y - a.y) (c.x - b.x) (c.y - b.y)
  unfold cross at *
  generalize b.x - a.x = p at *
  generalize b.y - a.y = q at *
  generalize c.x - b.x = r at *
  generalize c.y - b.y = s at *
  generalize fl p = p' at *
  generalize fl q = q' at *
  generalize fl r = r' at *
  generalize fl s = s' at *
  have u0 := u53_pos
  set L1 := √(p ^ 2 + q ^ 2)
  set L2 := √(r ^ 2 + s ^ 2)
  have L10 : 0 ≤ L1 := Real.sqrt_nonneg _
  have L20 : 0 ≤ L2 := Real.sqrt_nonneg _
  have cc : |(p' * s' - q' * r') - (p * s - q * r)| ≤ 3 * u53 * (L1 * L2) := by
    have e : (p' * s' - q' * r') - (p * s - q * r) = (p' * s' - p * s) - (q' * r' - q * r) := by ring
    rw [e]
    refine (abs_sub _ _).trans ?_
    have := mul_le_mul_of_nonneg_left cs (show 0 ≤ 3 * u53 by positivity)
    linarith
  have R0 : 0 ≤ L1 * L2 := by positivity
  have Rpos : 0 < L1 * L2 := by
    refine lt_of_le_of_ne R0 fun e => h0 ?_
    have : |p * s - q * r| ≤ L1 * L2 := by
      refine le_trans ((abs_sub _ _).trans ?_) cs
      rw [abs_mul, abs_mul]
    rw [← e] at this
    exact abs_nonpos_iff.1 this
  have u3 : 3 * u53 * (L1 * L2) ≤ 1 / 2 ^ 50 * (L1 * L2) := mul_le_mul_of_nonneg_right (by norm_num [u53]) R0
  have big : 0 < |p' * s' - q' * r'| := by
    have := abs_sub_abs_le_abs_sub (p * s - q * r) (p' * s' - q' * r')
    rw [abs_sub_comm (p * s - q * r) (p' * s' - q' * r')] at this
    have e : L1 * L2 / 2 ^ 40 = 1 / 2 ^ 40 * (L1 * L2) := by ring
    have : 1 / 2 ^ 50 * (L1 * L2) < 1 / 2 ^ 40 * (L1 * L2) := mul_lt_mul_of_pos_right (by norm_num) Rpos
    linarith
  have c0' : p' * s' - q' * r' ≠ 0 := abs_pos.1 big
  have L1' : 0 < √(p' ^ 2 + q' ^ 2) := norm_pos fun e1 e2 => c0' (by rw [e1, e2]; ring)
  have L2' : 0 < √(r' ^ 2 + s' ^ 2) := norm_pos fun e1 e2 => c0' (by rw [e1, e2]; ring)
  have sn := sin_arg_sub p' q' r' s' L1' L2'
  generalize Complex.arg ⟨r', s'⟩ - Complex.arg ⟨p', q'⟩ = φ at *
  have W0 : 0 < √(p' ^ 2 + q' ^ 2) * √(r' ^ 2 + s' ^ 2) := by positivity
  have W1 : √(p' ^ 2 + q' ^ 2) * √(r' ^ 2 + s' ^ 2) ≤ 2 * (L1 * L2) := by
    refine (mul_le_mul n1 n2 L2'.le (by positivity)).trans ?_
    linarith
  exact side_of_sine r1 r2 near sn W0 W1 (cc.trans u3) hc h0

end F2C.Dbl
