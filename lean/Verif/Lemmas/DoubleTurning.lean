import Mathlib.Analysis.SpecialFunctions.Trigonometric.Bounds
import Verif.Model.DoubleTurning
import Verif.Lemmas.IeeeGraph
import Verif.Lemmas.DoubleTracks
import Verif.Lemmas.DoubleExact
import Verif.Lemmas.Turning
import Verif.Props.Double
import Verif.Props.DoubleTurningSpec

/-! # Lemmas about turns in double precision -/

namespace F2C.Dbl

open Props Props.TurningSpec

variable {fl cos sin : ℝ → ℝ} {atan2 : ℝ → ℝ → ℝ}

theorem near_trans {δ ε a b c : ℝ} (h : NearHeading δ a b) (h' : NearHeading ε b c) : NearHeading (δ + ε) a c := by
  obtain ⟨k, hk⟩ := h
  obtain ⟨l, hl⟩ := h'
  refine ⟨k + l, ?_⟩
  have : a - c + ((k + l : ℤ) : ℝ) * (2 * Real.pi) = (a - b + k * (2 * Real.pi)) + (b - c + l * (2 * Real.pi)) := by
    push_cast; ring
  rw [this]
  exact (abs_add_le _ _).trans (add_le_add hk hl)

theorem near_mono {δ δ' a b : ℝ} (h : NearHeading δ a b) (hd : δ ≤ δ') : NearHeading δ' a b := by
  obtain ⟨k, hk⟩ := h
  exact ⟨k, hk.trans hd⟩

theorem near_of_abs {δ a b : ℝ} (h : |a - b| ≤ δ) : NearHeading δ a b := ⟨0, by simpa using h⟩

theorem near_cos_sin {δ a b : ℝ} (h : NearHeading δ a b) :
    |Real.cos a - Real.cos b| ≤ δ ∧ |Real.sin a - Real.sin b| ≤ δ := by
  obtain ⟨k, hk⟩ := h
  have e : a - b + k * (2 * Real.pi) = a + k * (2 * Real.pi) - b := by ring
  rw [e] at hk
  have h1 := Real.abs_cos_sub_cos_le (a + k * (2 * Real.pi)) b
  have h2 := Real.abs_sin_sub_sin_le (a + k * (2 * Real.pi)) b
  rw [Real.cos_add_int_mul_two_pi] at h1
  rw [Real.sin_add_int_mul_two_pi] at h2
  exact ⟨h1.trans hk, h2.trans hk⟩

theorem near_mod2pi (h : IsRounding fl) {v : ℝ} (hv : |v| ≤ 64) : NearHeading (1 / 2 ^ 47) (mod2pi fl v) v := by
  obtain ⟨k, hk⟩ := C114_direction h v hv
  refine ⟨-k, ?_⟩
  have : mod2pi fl v - v + ((-k : ℤ) : ℝ) * (2 * Real.pi) = mod2pi fl v - (v + k * (2 * Real.pi)) := by push_cast; ring
  rw [this]
  exact hk

theorem mod2pi_abs (h : IsRounding fl) (v : ℝ) : |mod2pi fl v| ≤ 7 := by
  obtain ⟨h1, h2⟩ := mod2pi_range h v
  have := twoPi_bounds
  rw [abs_of_nonneg h1]
  linarith

theorem isDouble_mod2pi (h : IsRounding fl) (v : ℝ) : IsDouble (mod2pi fl v) := by
  obtain ⟨h1, h2⟩ := sum_bounds v
  have d := h.double (fmod v twoPi + twoPi)
  have r1 := h.ge isDouble_zero h1.le
  have r2 := h.le isDouble_two_twoPi h2.le
  unfold mod2pi mod
  have t := twoPi_bounds
  generalize fl (fmod v twoPi + twoPi) = s at *
  rcases lt_or_ge s twoPi with h3 | h3
  · rw [fmod_small (by linarith) h3]
    exact d
  · rcases r2.lt_or_eq with h4 | h4
    · rw [fmod_second (by linarith) h3 h4]
      exact sub_exact d isDouble_twoPi (by linarith) (by linarith) (by linarith)
    · have : fmod s twoPi = 0 := by
        unfold fmod
        rw [h4, mul_div_assoc, div_self (by linarith), mul_one, if_pos (by norm_num)]
        norm_num
        ring
      rw [this]
      exact isDouble_zero

theorem dist_err (h : IsRounding fl) {p q : RPoint} (dx : |p.x - q.x| ≤ 2 ^ 402) (dy : |p.y - q.y| ≤ 2 ^ 402) :
    0 ≤ dist fl p q ∧ |dist fl p q - pdist p q| ≤ 10 / 2 ^ 52 * pdist p q + 1 / 2 ^ 60 := by
  obtain ⟨-, d0, -, c⟩ := Ieee.distance_close_eq h dx dy (z := .fin 0) (z' := .fin 0) (dist fl p q) rfl
  refine ⟨d0, ?_⟩
  have hη : (2 : ℝ) ^ (-329 : ℤ) ≤ 1 / 2 ^ 70 := by
    have : (1 : ℝ) / 2 ^ 70 = 2 ^ (-70 : ℤ) := by norm_num
    rw [this]
    exact zpow_le_zpow_right₀ (by norm_num) (by norm_num)
  have η0 := two_zpow_pos (-329)
  obtain ⟨l1, l2⟩ := c
  have D0 := pdist_nonneg p q
  generalize (2 : ℝ) ^ (-329 : ℤ) = η at *
  rw [abs_le]
  constructor <;> norm_num at * <;> nlinarith

theorem angle_near (h : IsRounding fl) (ha : IsAtan2 atan2) {p : RPoint} (dx : IsDouble p.x) (dy : IsDouble p.y) :
    NearHeading (1 / 2 ^ 45) (mod2pi fl (angleFromPoint fl atan2 p)) (Complex.arg ⟨p.x, p.y⟩) := by
  have e : angleFromPoint fl atan2 p = mod2pi fl (atan2 p.y p.x) := by
    unfold angleFromPoint
    simp only [one_mul, zero_mul, h.self dx, h.self dy, h.self isDouble_zero, sub_zero, add_zero]
  rw [e]
  have n1 := near_mod2pi h (v := mod2pi fl (atan2 p.y p.x)) ((mod2pi_abs h _).trans (by norm_num))
  have n2 := near_mod2pi h (v := atan2 p.y p.x) ((ha.range _ _).trans (by norm_num))
  refine near_mono (near_trans (near_trans n1 n2) (ha.near _ _ dy dx)) ?_
  norm_num [u53]

/-- The way back from the normal form. -/
noncomputable def back (p1 : RPoint) (n : Turning.Normal) : Placement := ⟨n.inverted, n.angle, p1.x, p1.y⟩

theorem normal_dist (p1 p2 : RPoint) (a1 a2 : ℝ) : (normalTurn fl atan2 p1 a1 p2 a2).dist = dist fl p1 p2 := by
  unfold normalTurn; simp only; split <;> rfl

theorem normal_angle (p1 p2 : RPoint) (a1 a2 : ℝ) :
    (normalTurn fl atan2 p1 a1 p2 a2).angle = mod2pi fl (angleFromPoint fl atan2 (subPoint fl p2 p1)) := by
  unfold normalTurn; simp only; split <;> rfl

theorem mod2pi_neg_le (h : IsRounding fl) {s : ℝ} (h1 : pi < s) (h2 : s < twoPi) : mod2pi fl (-s) ≤ pi := by
  have t := twoPi_bounds
  have p := pi_bounds
  have e := twoPi_eq
  unfold mod2pi mod
  rw [fmod_small (a := -s) (by linarith) (by linarith)]
  have r1 := h.le isDouble_pi (x := -s + twoPi) (by linarith)
  have r2 := h.ge isDouble_zero (x := -s + twoPi) (by linarith)
  rw [fmod_small (by linarith) (by linarith)]
  exact r1

theorem normal_ranges (h : IsRounding fl) (p1 p2 : RPoint) (a1 a2 : ℝ) :
    0 ≤ (normalTurn fl atan2 p1 a1 p2 a2).start ∧ (normalTurn fl atan2 p1 a1 p2 a2).start ≤ pi ∧
    0 ≤ (normalTurn fl atan2 p1 a1 p2 a2).stop ∧ (normalTurn fl atan2 p1 a1 p2 a2).stop < twoPi := by
  unfold normalTurn
  simp only
  split
  · rename_i hs
    exact ⟨(mod2pi_range h _).1, mod2pi_neg_le h hs (mod2pi_range h _).2, (mod2pi_range h _).1, (mod2pi_range h _).2⟩
  · rename_i hs
    exact ⟨(mod2pi_range h _).1, not_lt.1 hs, (mod2pi_range h _).1, (mod2pi_range h _).2⟩

private theorem near_diff (h : IsRounding fl) {a α : ℝ} (ha : |a| ≤ 50) (hα : |α| ≤ 7) :
    NearHeading (1 / 2 ^ 46) (mod2pi fl (fl (a - α))) (a - α) := by
  have b : |a - α| ≤ 57 := (abs_sub _ _).trans (by linarith)
  have e := h.err (a - α) b
  have n1 := near_mod2pi h (v := fl (a - α)) (by
    have : fl (a - α) = (a - α) + (fl (a - α) - (a - α)) := by ring
    rw [this]
    refine (abs_add_le _ _).trans ?_
    norm_num [u53] at e ⊢
    linarith)
  refine near_mono (near_trans n1 (near_of_abs e)) ?_
  norm_num [u53]

theorem normal_heading (h : IsRounding fl) (p1 p2 : RPoint) {a1 a2 : ℝ} (h1 : |a1| ≤ 50) (h2 : |a2| ≤ 50) :
    NearHeading (1 / 2 ^ 45) ((back p1 (normalTurn fl atan2 p1 a1 p2 a2)).heading (normalTurn fl atan2 p1 a1 p2 a2).start) a1 ∧
    NearHeading (1 / 2 ^ 45) ((back p1 (normalTurn fl atan2 p1 a1 p2 a2)).heading (normalTurn fl atan2 p1 a1 p2 a2).stop) a2 := by
  unfold normalTurn
  simp only
  set α := mod2pi fl (angleFromPoint fl atan2 (subPoint fl p2 p1))
  have hα : |α| ≤ 7 := mod2pi_abs h _
  have fwd : ∀ {a : ℝ}, |a| ≤ 50 → NearHeading (1 / 2 ^ 45) (mod2pi fl (fl (a - α)) + α) a := by
    intro a ha
    have := (near_diff h ha hα).add_right α
    rw [sub_add_cancel] at this
    exact near_mono this (by norm_num)
  have bwd : ∀ {a : ℝ}, |a| ≤ 50 → NearHeading (1 / 2 ^ 45) (-mod2pi fl (-mod2pi fl (fl (a - α))) + α) a := by
    intro a ha
    have n1 := (near_diff h ha hα).add_right α
    rw [sub_add_cancel] at n1
    have n2 := ((near_mod2pi h (v := -mod2pi fl (fl (a - α))) (by
      rw [abs_neg]; exact (mod2pi_abs h _).trans (by norm_num))).neg).add_right α
    rw [neg_neg] at n2
    exact near_mono (near_trans n2 n1) (by norm_num)
  split
  · simp only [back, Placement.heading, if_true]
    exact ⟨bwd h1, bwd h2⟩
  · simp only [back, Placement.heading, Bool.false_eq_true, if_false]
    exact ⟨fwd h1, fwd h2⟩

theorem big_range {M a b : ℝ} (h2 : M ≤ 2 ^ 400) (ha : |a| ≤ 3 * M) (hb : |b| ≤ M) : |a - b| ≤ 2 ^ 402 := by
  have : (2 : ℝ) ^ 402 = 4 * 2 ^ 400 := by rw [pow_add 2 2 400]; norm_num
  rw [this]
  generalize (2 : ℝ) ^ 400 = B at *
  exact (abs_sub _ _).trans (by linarith)

theorem normal_point (h : IsRounding fl) (ha : IsAtan2 atan2) {M : ℝ} (hM : 1 ≤ M) (hM' : M ≤ 2 ^ 400) {p1 p2 : RPoint}
    (h1 : DoublePoint M p1) (h2 : DoublePoint M p2) (a1 a2 : ℝ) :
    |(normalTurn fl atan2 p1 a1 p2 a2).dist - pdist p1 p2| ≤ M / 2 ^ 46 ∧
    NearXY (M / 2 ^ 42) ((back p1 (normalTurn fl atan2 p1 a1 p2 a2)).map ((normalTurn fl atan2 p1 a1 p2 a2).dist, 0)) (xy p2) := by
  obtain ⟨d0, de⟩ := dist_err h (p := p1) (q := p2)
    (big_range hM' (h1.bx.trans (by linarith)) h2.bx) (big_range hM' (h1.by'.trans (by linarith)) h2.by')
  have u0 := u53_pos
  have P4 : pdist p1 p2 ≤ 4 * M :=
    (by rw [pdist_eq_norm]; exact Complex.norm_le_abs_re_add_abs_im _ : pdist p1 p2 ≤ |p1.x - p2.x| + |p1.y - p2.y|).trans (by
      have := abs_sub p1.x p2.x
      have := abs_sub p1.y p2.y
      linarith [h1.bx, h1.by', h2.bx, h2.by'])
  have dist_near : |dist fl p1 p2 - pdist p1 p2| ≤ M / 2 ^ 46 := de.trans (by norm_num; linarith)
  rw [normal_dist]
  refine ⟨dist_near, ?_⟩
  have ang := angle_near h ha (p := subPoint fl p2 p1) (h.double _) (h.double _)
  obtain ⟨hc, hs⟩ := near_cos_sin ang
  have ex := h.err_sum h2.dx h1.dx.neg (B := 2 * M) (by
    rw [← sub_eq_add_neg]; exact (abs_sub _ _).trans (by linarith [h1.bx, h2.bx]))
  have ey := h.err_sum h2.dy h1.dy.neg (B := 2 * M) (by
    rw [← sub_eq_add_neg]; exact (abs_sub _ _).trans (by linarith [h1.by', h2.by']))
  rw [← sub_eq_add_neg] at ex ey
  have cx := Complex.norm_mul_cos_arg (⟨fl (p2.x - p1.x), fl (p2.y - p1.y)⟩ : ℂ)
  have cy := Complex.norm_mul_sin_arg (⟨fl (p2.x - p1.x), fl (p2.y - p1.y)⟩ : ℂ)
  have nd : |‖(⟨fl (p2.x - p1.x), fl (p2.y - p1.y)⟩ : ℂ)‖ - pdist p1 p2| ≤ 4 * u53 * M := by
    rw [pdist_comm, pdist_eq_norm]
    refine (abs_norm_sub_norm_le _ _).trans ((Complex.norm_le_abs_re_add_abs_im _).trans ?_)
    simp only [Complex.sub_re, Complex.sub_im]
    linarith
  have eα : (normalTurn fl atan2 p1 a1 p2 a2).angle = mod2pi fl (angleFromPoint fl atan2 (subPoint fl p2 p1)) := normal_angle ..
  simp only [subPoint] at hc hs
  simp only [back, NearXY, Placement.map, eα, xy, subPoint]
  set α := mod2pi fl (angleFromPoint fl atan2 ⟨fl (p2.x - p1.x), fl (p2.y - p1.y), fl (p2.z - p1.z)⟩)
  set θ := Complex.arg ⟨fl (p2.x - p1.x), fl (p2.y - p1.y)⟩
  set D := ‖(⟨fl (p2.x - p1.x), fl (p2.y - p1.y)⟩ : ℂ)‖
  have D0 : 0 ≤ D := norm_nonneg _
  have k0 : 0 ≤ M / 2 ^ 46 := by positivity
  have uM : u53 * M = M / 2 ^ 46 / 2 ^ 7 := by norm_num [u53]; ring
  have D5 : D ≤ 5 * M := by
    have := (abs_le.1 nd).2
    have : 4 * u53 * M ≤ M := by nlinarith [u53_small]
    linarith
  have step : ∀ {C c v w : ℝ}, |c - C| ≤ 1 / 2 ^ 45 → |c| ≤ 1 → D * C = v → |v - w| ≤ u53 * (2 * M) →
      |dist fl p1 p2 * c - w| ≤ M / 2 ^ 42 := by
    intro C c v w hcC hc1 hv hw
    have e : dist fl p1 p2 * c - w = (dist fl p1 p2 - pdist p1 p2) * c + (pdist p1 p2 - D) * c + D * (c - C) + (v - w) := by
      rw [← hv]; ring
    rw [e]
    have b1 : |(dist fl p1 p2 - pdist p1 p2) * c| ≤ M / 2 ^ 46 := by
      rw [abs_mul]
      exact (mul_le_of_le_one_right (abs_nonneg _) hc1).trans dist_near
    have b2 : |(pdist p1 p2 - D) * c| ≤ 4 * u53 * M := by
      rw [abs_mul, abs_sub_comm]
      exact (mul_le_of_le_one_right (abs_nonneg _) hc1).trans nd
    have b3 : |D * (c - C)| ≤ 5 * M * (1 / 2 ^ 45) := by
      rw [abs_mul, abs_of_nonneg D0]
      exact mul_le_mul D5 hcC (abs_nonneg _) (by linarith)
    have t1 := abs_add_le ((dist fl p1 p2 - pdist p1 p2) * c + (pdist p1 p2 - D) * c + D * (c - C)) (v - w)
    have t2 := abs_add_le ((dist fl p1 p2 - pdist p1 p2) * c + (pdist p1 p2 - D) * c) (D * (c - C))
    have t3 := abs_add_le ((dist fl p1 p2 - pdist p1 p2) * c) ((pdist p1 p2 - D) * c)
    have q1 : 5 * M * (1 / 2 ^ 45) = 10 * (M / 2 ^ 46) := by ring
    have q2 : M / 2 ^ 42 = 16 * (M / 2 ^ 46) := by ring
    have q3 : 4 * u53 * M = 4 * (M / 2 ^ 46 / 2 ^ 7) := by rw [← uM]; ring
    have q4 : u53 * (2 * M) = 2 * (M / 2 ^ 46 / 2 ^ 7) := by rw [← uM]; ring
    rw [q2]
    norm_num at *
    linarith
  have sx := step hc (Real.abs_cos_le_one _) cx ex
  have sy := step hs (Real.abs_sin_le_one _) cy ey
  have z : (if (normalTurn fl atan2 p1 a1 p2 a2).inverted = true then -(0 : ℝ) else 0) = 0 := by simp
  rw [z]
  constructor
  · refine le_trans (le_of_eq ?_) sx
    congr 1; ring
  · refine le_trans (le_of_eq ?_) sy
    congr 1; ring

/-- The state that a state of the simple turn becomes before the ends are corrected. -/
noncomputable def placed (fl cos sin : ℝ → ℝ) (p1 : RPoint) (n : Turning.Normal) (s : PathState ℝ) : PathState ℝ :=
  let s := if n.inverted then { s with point := { s.point with y := -s.point.y }, angle := mod2pi fl (-s.angle) } else s
  { s with
    point := addPoint fl (rotateFrom fl cos sin Point.zero n.angle s.point) p1, angle := mod2pi fl (fl (s.angle + n.angle)) }

theorem place_mirror (p1 : RPoint) (n : Turning.Normal) (p : Path) :
    place fl cos sin n.angle p1 (mirror fl n.inverted p) = p.map (placed fl cos sin p1 n) := by
  unfold place mirror
  cases h : n.inverted
  · simp only [Bool.false_eq_true, if_false]
    refine List.map_congr_left fun s _ => ?_
    simp [placed, h]
  · simp only [if_true, List.map_map]
    refine List.map_congr_left fun s _ => ?_
    simp [placed, h]

/-- The solver's states: doubles, not further away than `M`, with angles of a few revolutions. -/
theorem placed_near (h : IsRounding fl) (ht : IsTrig cos sin) {M : ℝ} (hM : 1 ≤ M) {p1 : RPoint} (h1 : DoublePoint M p1)
    {n : Turning.Normal} (hn : IsDouble n.angle) (hn' : |n.angle| ≤ 7) {s : PathState ℝ} (hs : DoublePoint M s.point)
    (ha : |s.angle| ≤ 50) : CarriedNear (M / 2 ^ 49) (1 / 2 ^ 45) (back p1 n) s (placed fl cos sin p1 n s) := by
  have u0 := u53_pos
  have u1 := u53_small
  have pos : ∀ {x y : ℝ}, IsDouble x → IsDouble y → |x| ≤ M → |y| ≤ M → ∀ z : ℝ,
      |(addPoint fl (rotateFrom fl cos sin Point.zero n.angle ⟨x, y, z⟩) p1).x -
        (Real.cos n.angle * x - Real.sin n.angle * y + p1.x)| ≤ M / 2 ^ 49 ∧
      |(addPoint fl (rotateFrom fl cos sin Point.zero n.angle ⟨x, y, z⟩) p1).y -
        (Real.sin n.angle * x + Real.cos n.angle * y + p1.y)| ≤ M / 2 ^ 49 := by
    intro x y dx dy bx by' z
    obtain ⟨e1, e2, d1, d2⟩ := rotate_err h ht hn hM (p := ⟨x, y, z⟩) dx dy bx by'
    simp only at e1 e2
    have mul1 : ∀ {a c : ℝ}, |a| ≤ M → |c| ≤ 1 → |a * c| ≤ M := by
      intro a c ha hc
      rw [abs_mul]
      exact (mul_le_of_le_one_right (abs_nonneg _) hc).trans ha
    have C1 := Real.abs_cos_le_one n.angle
    have S1 := Real.abs_sin_le_one n.angle
    have fin : ∀ {v V q : ℝ}, IsDouble v → IsDouble q → |q| ≤ M → |v - V| ≤ 11 * u53 * M → |V| ≤ 2 * M →
        |fl (v + q) - (V + q)| ≤ M / 2 ^ 49 := by
      intro v V q dv dq hq hv hV
      have hvv : |v| ≤ 2 * M + M / 10 := by
        have : v = V + (v - V) := by ring
        rw [this]
        refine (abs_add_le _ _).trans ?_
        have : 11 * u53 * M ≤ M / 10 := by nlinarith
        linarith
      have e := h.err_sum dv dq (B := 4 * M) ((abs_add_le _ _).trans (by linarith))
      have t := abs_sub_le (fl (v + q)) (v + q) (V + q)
      rw [add_sub_add_right_eq_sub] at t
      have q1 : M / 2 ^ 49 = 16 * (u53 * M) := by norm_num [u53]; ring
      have := mul_pos u0 (by linarith : 0 < M)
      rw [q1]
      linarith
    have VX : |x * Real.cos n.angle - y * Real.sin n.angle| ≤ 2 * M := (abs_sub _ _).trans (by linarith [mul1 bx C1, mul1 by' S1])
    have VY : |x * Real.sin n.angle + y * Real.cos n.angle| ≤ 2 * M := (abs_add_le _ _).trans (by linarith [mul1 bx S1, mul1 by' C1])
    have f1 := fin d1 h1.dx h1.bx e1 VX
    have f2 := fin d2 h1.dy h1.by' e2 VY
    constructor
    · refine le_trans (le_of_eq ?_) f1
      simp only [addPoint]
      congr 1; ring
    · refine le_trans (le_of_eq ?_) f2
      simp only [addPoint]
      congr 1; ring
  have head : ∀ {β : ℝ}, |β| ≤ 50 → NearHeading (1 / 2 ^ 46) (mod2pi fl (fl (β + n.angle))) (β + n.angle) := by
    intro β hβ
    have := near_diff h hβ (α := -n.angle) (by rwa [abs_neg])
    rwa [sub_neg_eq_add] at this
  cases hi : n.inverted
  · refine ⟨?_, ?_, ?_, ?_, ?_, ?_⟩
    · simpa [placed, hi, back, NearXY, xy, Placement.map] using pos hs.dx hs.dy hs.bx hs.by' s.point.z
    · simp only [placed, hi, back, Placement.heading, Bool.false_eq_true, if_false]
      exact near_mono (head ha) (by norm_num)
    all_goals simp [placed, hi]
  · refine ⟨?_, ?_, ?_, ?_, ?_, ?_⟩
    · have := pos hs.dx hs.dy.neg hs.bx (by rw [abs_neg]; exact hs.by') s.point.z
      simpa [placed, hi, back, NearXY, xy, Placement.map] using this
    · simp only [placed, hi, back, Placement.heading, if_true]
      have n1 := head (β := mod2pi fl (-s.angle)) ((mod2pi_abs h _).trans (by norm_num))
      have n2 := (near_mod2pi h (v := -s.angle) (by rw [abs_neg]; linarith)).add_right n.angle
      exact near_mono (near_trans n1 n2) (by norm_num)
    all_goals simp [placed, hi]

theorem correct_eq (start stop : RPoint) (f l : PathState ℝ) (mid : Path) :
    correctEnd fl stop (correctStart fl start (f :: (mid ++ [l]))) =
      (if dist fl f.point start < Turning.maxError then { f with point := start } else f) ::
        (mid ++ [if dist fl l.point stop < Turning.maxError then { l with point := stop } else l]) := by
  unfold correctEnd correctStart
  dsimp only
  generalize (if dist fl f.point start < Turning.maxError then _ else f) = f'
  have e : List.getLast? (f' :: (mid ++ [l])) = some l := by rw [← List.cons_append, List.getLast?_append]; rfl
  rw [e]
  dsimp only
  split_ifs with hl
  · rw [← List.cons_append, List.dropLast_concat]
    simp
  · rfl

theorem isDouble_normal (h : IsRounding fl) (p1 p2 : RPoint) (a1 a2 : ℝ) :
    IsDouble (normalTurn fl atan2 p1 a1 p2 a2).dist ∧ IsDouble (normalTurn fl atan2 p1 a1 p2 a2).start ∧
    IsDouble (normalTurn fl atan2 p1 a1 p2 a2).stop := by
  rw [normal_dist]
  refine ⟨h.double _, ?_⟩
  unfold normalTurn
  simp only
  split <;> exact ⟨isDouble_mod2pi h _, isDouble_mod2pi h _⟩

theorem normal_fits (h : IsRounding fl) (ha : IsAtan2 atan2) {M : ℝ} (hM : 1 ≤ M) (hM' : M ≤ 2 ^ 400) {p1 p2 : RPoint} {a1 a2 : ℝ}
    (hp : Poses M p1 a1 p2 a2) : Fits M (normalTurn fl atan2 p1 a1 p2 a2).dist (normalTurn fl atan2 p1 a1 p2 a2).start
      (normalTurn fl atan2 p1 a1 p2 a2).stop := by
  obtain ⟨d1, d2, d3⟩ := isDouble_normal (atan2 := atan2) h p1 p2 a1 a2
  obtain ⟨r1, r2, r3, r4⟩ := normal_ranges (atan2 := atan2) h p1 p2 a1 a2
  have n := (normal_point h ha hM hM' hp.start hp.stop a1 a2).1
  refine ⟨d1, d2, d3, ?_, ?_, r1, r2, r3, r4⟩
  · rw [normal_dist]
    exact (dist_err h (big_range hM' (hp.start.bx.trans (by linarith)) hp.stop.bx)
      (big_range hM' (hp.start.by'.trans (by linarith)) hp.stop.by')).1
  · have := (abs_le.1 n).2
    have := hp.apart
    generalize (normalTurn fl atan2 p1 a1 p2 a2).dist = d at *
    norm_num at *
    linarith

private theorem pdist_le_near {η : ℝ} {p q : RPoint} (h : NearXY η (xy p) (xy q)) : pdist p q ≤ 2 * η := by
  rw [pdist_eq_norm]
  refine (Complex.norm_le_abs_re_add_abs_im _).trans ?_
  have h1 := h.1
  have h2 := h.2
  simp only [xy] at h1 h2
  simp only
  linarith

private theorem abs_le_pdist (p q : RPoint) : |p.x - q.x| ≤ pdist p q ∧ |p.y - q.y| ≤ pdist p q := by
  rw [pdist_eq_norm]
  exact ⟨Complex.abs_re_le_norm (⟨p.x - q.x, p.y - q.y⟩ : ℂ), Complex.abs_im_le_norm (⟨p.x - q.x, p.y - q.y⟩ : ℂ)⟩

theorem close_enough (h : IsRounding fl) {p q : RPoint} (hd : pdist p q ≤ 1 / 20) : dist fl p q < Turning.maxError := by
  obtain ⟨hx, hy⟩ := abs_le_pdist p q
  have b : (1 : ℝ) ≤ 2 ^ 402 := one_le_pow₀ (by norm_num)
  have e : |p.x - q.x| ≤ 2 ^ 402 := by
    generalize (2 : ℝ) ^ 402 = B at *
    linarith
  have e' : |p.y - q.y| ≤ 2 ^ 402 := by
    generalize (2 : ℝ) ^ 402 = B at *
    linarith
  have := (abs_le.1 (dist_err h e e').2).2
  unfold Turning.maxError
  norm_num at *
  linarith

/-- an end of the turn lands near its target -/
theorem end_near {η η' ε : ℝ} {m : Placement} {s s' : PathState ℝ} {δ : ℝ} (hc : CarriedNear η δ m s s') {q r : RPoint}
    (hq : pdist s.point q ≤ ε) (hr : NearXY η' (m.map (xy q)) (xy r)) : pdist s'.point r ≤ 2 * η + ε + 2 * η' := by
  have t1 := pdist_triangle s'.point ⟨(m.map (xy s.point)).1, (m.map (xy s.point)).2, 0⟩ r
  have t2 := pdist_triangle (⟨(m.map (xy s.point)).1, (m.map (xy s.point)).2, 0⟩ : RPoint) ⟨(m.map (xy q)).1, (m.map (xy q)).2, 0⟩ r
  have a := pdist_le_near (p := s'.point) (q := ⟨(m.map (xy s.point)).1, (m.map (xy s.point)).2, 0⟩) hc.position
  have b := pdist_le_near (p := ⟨(m.map (xy q)).1, (m.map (xy q)).2, 0⟩) (q := r) hr
  have c : pdist (⟨(m.map (xy s.point)).1, (m.map (xy s.point)).2, 0⟩ : RPoint) ⟨(m.map (xy q)).1, (m.map (xy q)).2, 0⟩ = pdist s.point q :=
    Placement.map_dist m (xy s.point) (xy q)
  linarith

theorem heading_near {δ a b : ℝ} (m : Placement) (h : NearHeading δ a b) : NearHeading δ (m.heading a) (m.heading b) := by
  unfold Placement.heading
  cases m.flip
  · simpa using h.add_right _
  · simpa using h.neg.add_right _

theorem finish_joins (h : IsRounding fl) (ht : IsTrig cos sin) (ha : IsAtan2 atan2) {M ε δ : ℝ} (hM : 1 ≤ M) (hM' : M ≤ 2 ^ 400)
    (hε : ε + M / 2 ^ 40 ≤ 1 / 20) {p1 p2 : RPoint} {a1 a2 : ℝ} (hp : Poses M p1 a1 p2 a2) {p : Path}
    (hs : Sound ε δ M (normalTurn fl atan2 p1 a1 p2 a2).dist (normalTurn fl atan2 p1 a1 p2 a2).start
      (normalTurn fl atan2 p1 a1 p2 a2).stop p) :
    finish fl cos sin (normalTurn fl atan2 p1 a1 p2 a2) p1 p2 p = [] ∨
      Joins (δ + 1 / 2 ^ 44) p1 a1 p2 a2 (finish fl cos sin (normalTurn fl atan2 p1 a1 p2 a2) p1 p2 p) := by
  by_cases hlen : List.length p ≤ 1
  · left; unfold finish; rw [if_pos hlen]
  right
  obtain ⟨f, mid, l, rfl⟩ := F2C.two_ends p hlen
  obtain ⟨f1, f2, l1, l2⟩ := hs.ends f l rfl (by simp [List.getLast?_cons])
  obtain ⟨b1, b2⟩ := normal_heading (atan2 := atan2) h p1 p2 hp.ha1 hp.ha2
  have np := (normal_point h ha hM hM' hp.start hp.stop a1 a2).2
  have nα : IsDouble (normalTurn fl atan2 p1 a1 p2 a2).angle ∧ |(normalTurn fl atan2 p1 a1 p2 a2).angle| ≤ 7 := by
    rw [normal_angle]
    exact ⟨isDouble_mod2pi h _, mod2pi_abs h _⟩
  have cf := placed_near h ht hM hp.start nα.1 nα.2 (hs.states f (by simp)).1 (hs.states f (by simp)).2
  have cl := placed_near h ht hM hp.start nα.1 nα.2 (hs.states l (by simp)).1 (hs.states l (by simp)).2
  generalize normalTurn fl atan2 p1 a1 p2 a2 = n at *
  have s0 : NearXY 0 ((back p1 n).map (xy ⟨0, 0, 0⟩)) (xy p1) := by
    simp [NearXY, Placement.map, back, xy]
  have k0 : 0 < M / 2 ^ 49 := by positivity
  have k1 : M / 2 ^ 42 = 128 * (M / 2 ^ 49) := by ring
  have k2 : M / 2 ^ 40 = 512 * (M / 2 ^ 49) := by ring
  have ef := end_near cf f1 s0
  have el := end_near cl l1 np
  have gf := close_enough h (p := (placed fl cos sin p1 n f).point) (q := p1) (by linarith)
  have gl := close_enough h (p := (placed fl cos sin p1 n l).point) (q := p2) (by linarith)
  unfold finish
  rw [if_neg hlen, place_mirror, List.map_cons, List.map_append, List.map_singleton, correct_eq, if_pos gf, if_pos gl]
  refine ⟨_, { placed fl cos sin p1 n l with point := p2 }, rfl, ?_, rfl, rfl, ?_, ?_⟩
  · rw [← List.cons_append, List.getLast?_append]; rfl
  · exact near_mono (near_trans (near_trans cf.heading (heading_near _ f2)) b1) (by norm_num; linarith)
  · exact near_mono (near_trans (near_trans cl.heading (heading_near _ l2)) b2) (by norm_num; linarith)

/-! ## the cache -/

theorem toInt_near (h : IsRounding fl) {u v : ℝ} (hu : 0 ≤ u) (hv : 0 ≤ v) {k : ℤ} (eu : Path.toInt (fl (1000 * u)) = .ok k)
    (ev : Path.toInt (fl (1000 * v)) = .ok k) : |u - v| ≤ 1001 / 1000000 := by
  have key : ∀ {w : ℝ}, 0 ≤ w → Path.toInt (fl (1000 * w)) = .ok k →
      (k : ℝ) - 1 / 10000 ≤ 1000 * w ∧ 1000 * w ≤ k + 1 + 1 / 10000 := by
    intro w hw e
    have r := h.ge isDouble_zero (x := 1000 * w) (by linarith)
    unfold Path.toInt at e
    simp only [if_pos r] at e
    split_ifs at e with hk
    injection e with e
    push Not at hk
    have f1 := Int.floor_le (fl (1000 * w))
    have f2 := Int.lt_floor_add_one (fl (1000 * w))
    rw [e] at f1 f2 hk
    have k2 : (k : ℝ) ≤ 2147483647 := by exact_mod_cast hk.2
    have w1 : 1000 * w ≤ 2 ^ 32 := by
      by_contra hc
      push Not at hc
      have d : IsDouble ((2 : ℝ) ^ 32) := by
        exact ⟨1, 32, by norm_num, by norm_num, by norm_num⟩
      have := h.ge d hc.le
      norm_num at this
      linarith
    have e := h.err (1000 * w) (B := 2 ^ 32) (by rw [abs_of_nonneg (by linarith)]; exact w1)
    have := abs_le.1 e
    norm_num [u53] at this
    constructor <;> linarith
  obtain ⟨u1, u2⟩ := key hu eu
  obtain ⟨v1, v2⟩ := key hv ev
  rw [abs_le]
  constructor <;> linarith

theorem turnKey_near (h : IsRounding fl) {r r' : Robot} {M d a b d' a' b' : ℝ} (hf : Fits M d a b) (hf' : Fits M d' a' b') {k : List Int}
    (e : turnKey fl r d a b = .ok k) (e' : turnKey fl r' d' a' b' = .ok k) :
    |d - d'| ≤ 1001 / 1000000 ∧ |a - a'| ≤ 1001 / 1000000 ∧ |b - b'| ≤ 1001 / 1000000 := by
  unfold turnKey at e e'
  obtain ⟨k1, h1, e⟩ := F2C.bind_ok e
  obtain ⟨k2, h2, e⟩ := F2C.bind_ok e
  obtain ⟨k3, h3, e⟩ := F2C.bind_ok e
  obtain ⟨k4, h4, e⟩ := F2C.bind_ok e
  obtain ⟨k5, h5, e⟩ := F2C.bind_ok e
  obtain ⟨k1', h1', e'⟩ := F2C.bind_ok e'
  obtain ⟨k2', h2', e'⟩ := F2C.bind_ok e'
  obtain ⟨k3', h3', e'⟩ := F2C.bind_ok e'
  obtain ⟨k4', h4', e'⟩ := F2C.bind_ok e'
  obtain ⟨k5', h5', e'⟩ := F2C.bind_ok e'
  rw [Outcome.pure_eq] at e e'
  injection e with e
  injection e' with e'
  rw [← e'] at e
  simp only [List.cons.injEq] at e
  obtain ⟨-, -, rfl, rfl, rfl, -⟩ := e
  exact ⟨toInt_near h hf.d0 hf'.d0 h3 h3', toInt_near h hf.a0 hf'.a0 h4 h4', toInt_near h hf.b0 hf'.b0 h5 h5'⟩

theorem simpleTurn_ok {solve : Turning.Solver} {t t' : Turning.Planner} {r : Robot} {d a b : ℝ} {p : Path}
    (h : simpleTurn fl solve t r d a b = .ok (p, t')) :
    (t.useCache = true ∧ ∃ k, turnKey fl r d a b = .ok k ∧
      ((t.cache.lookup k = some p ∧ t' = t) ∨
        (solve r t.disc d a b = .ok p ∧ t' = { t with cache := (k, p) :: t.cache }))) ∨
    (t.useCache = false ∧ solve r t.disc d a b = .ok p ∧ t' = t) := by
  unfold simpleTurn at h
  split_ifs at h with hu
  · left
    obtain ⟨k, hk, h⟩ := F2C.bind_ok h
    refine ⟨hu, k, hk, ?_⟩
    cases hl : t.cache.lookup k with
    | some q =>
      rw [hl] at h
      injection h with h
      injection h with h1 h2
      subst h1 h2
      exact .inl ⟨rfl, rfl⟩
    | none =>
      rw [hl] at h
      obtain ⟨q, hq, h⟩ := F2C.bind_ok h
      injection h with h
      injection h with h1 h2
      subst h1 h2
      exact .inr ⟨hq, rfl⟩
  · right
    obtain ⟨q, hq, h⟩ := F2C.bind_ok h
    injection h with h
    injection h with h1 h2
    subst h1 h2
    exact ⟨by simpa using hu, hq, rfl⟩

theorem createTurn_ok {solve : Turning.Solver} {t t' : Turning.Planner} {r : Robot} {p1 p2 : RPoint} {a1 a2 : ℝ} {q : Path}
    (h : createTurn fl cos sin atan2 solve t r p1 a1 p2 a2 = .ok (q, t')) :
    ∃ p, q = finish fl cos sin (normalTurn fl atan2 p1 a1 p2 a2) p1 p2 p ∧
      simpleTurn fl solve t r (normalTurn fl atan2 p1 a1 p2 a2).dist (normalTurn fl atan2 p1 a1 p2 a2).start
        (normalTurn fl atan2 p1 a1 p2 a2).stop = .ok (p, t') := by
  unfold createTurn at h
  simp only at h
  obtain ⟨⟨p, t1⟩, hp, h⟩ := F2C.bind_ok h
  injection h with h
  injection h with h1 h2
  subst h1 h2
  exact ⟨p, rfl, hp⟩

theorem used_cache (h : IsRounding fl) (ha : IsAtan2 atan2) {M : ℝ} (hM : 1 ≤ M) (hM' : M ≤ 2 ^ 400) {solve : Turning.Solver}
    {t : Turning.Planner} (hu : Used fl cos sin atan2 solve M t) : ∀ k p, (k, p) ∈ t.cache → ∃ r disc d a b,
      Fits M d a b ∧ turnKey fl r d a b = .ok k ∧ solve r disc d a b = .ok p := by
  induction hu with
  | new => intro k p hm; simp [Turning.Planner.default] at hm
  | setDisc d _ ih => exact ih
  | setUsingCache c _ ih => exact ih
  | turn _ hp he ih =>
    intro k p hm
    obtain ⟨p', -, hs⟩ := createTurn_ok he
    rcases simpleTurn_ok hs with ⟨-, k', hk, ⟨-, rfl⟩ | ⟨hsol, rfl⟩⟩ | ⟨-, -, rfl⟩
    · exact ih k p hm
    · simp only [List.mem_cons] at hm
      rcases hm with hm | hm
      · injection hm with e1 e2
        subst e1 e2
        exact ⟨_, _, _, _, _, normal_fits h ha hM hM' hp, hk, hsol⟩
      · exact ih k p hm
    · exact ih k p hm

end F2C.Dbl
