import Verif.Model.DoubleSwath
import Verif.Lemmas.DoubleObjective

/-! # Lemmas about the path along a swath in double precision -/

namespace F2C.Dbl

open Props Props.TurningSpec

variable {fl cos sin : ℝ → ℝ} {atan2 : ℝ → ℝ → ℝ}

theorem pdist_le_four {M : ℝ} {a b : RPoint} (h1 : DoublePoint M a) (h2 : DoublePoint M b) : pdist a b ≤ 4 * M :=
  (by rw [pdist_eq_norm]; exact Complex.norm_le_abs_re_add_abs_im _ : pdist a b ≤ |a.x - b.x| + |a.y - b.y|).trans (by
    have := abs_sub a.x b.x
    have := abs_sub a.y b.y
    linarith [h1.bx, h1.by', h2.bx, h2.by'])

theorem dist_near (h : IsRounding fl) {M : ℝ} (hM : 1 ≤ M) (hM' : M ≤ 2 ^ 400) {a b : RPoint}
    (h1 : DoublePoint M a) (h2 : DoublePoint M b) : 0 ≤ dist fl b a ∧ |dist fl b a - pdist a b| ≤ M / 2 ^ 46 := by
  obtain ⟨d0, de⟩ := dist_err h (p := b) (q := a)
    (big_range hM' (h2.bx.trans (by linarith)) h1.bx) (big_range hM' (h2.by'.trans (by linarith)) h1.by')
  have P4 := pdist_le_four h1 h2
  rw [pdist_comm b a] at de
  exact ⟨d0, de.trans (by norm_num; linarith)⟩

/-- going the computed length in the computed direction -/
theorem reach (h : IsRounding fl) (ha : IsAtan2 atan2) {M : ℝ} (hM : 1 ≤ M) (hM' : M ≤ 2 ^ 400) {a b : RPoint}
    (h1 : DoublePoint M a) (h2 : DoublePoint M b) (z : ℝ) :
    |dist fl b a * Real.cos (angleFromPoint fl atan2 ⟨fl (b.x - a.x), fl (b.y - a.y), z⟩) - (b.x - a.x)| ≤ M / 2 ^ 42 ∧
    |dist fl b a * Real.sin (angleFromPoint fl atan2 ⟨fl (b.x - a.x), fl (b.y - a.y), z⟩) - (b.y - a.y)| ≤ M / 2 ^ 42 := by
  obtain ⟨d0, dn⟩ := dist_near h hM hM' h1 h2
  have u0 := u53_pos
  have P4 := pdist_le_four h1 h2
  obtain ⟨ang, -⟩ := angle_near' h ha (p := ⟨fl (b.x - a.x), fl (b.y - a.y), z⟩) (h.double _) (h.double _)
  obtain ⟨hc, hs⟩ := near_cos_sin ang
  have ex := h.err_sum h2.dx h1.dx.neg (B := 2 * M) (by
    rw [← sub_eq_add_neg]; exact (abs_sub _ _).trans (by linarith [h1.bx, h2.bx]))
  have ey := h.err_sum h2.dy h1.dy.neg (B := 2 * M) (by
    rw [← sub_eq_add_neg]; exact (abs_sub _ _).trans (by linarith [h1.by', h2.by']))
  rw [← sub_eq_add_neg] at ex ey
  have cx := Complex.norm_mul_cos_arg (⟨fl (b.x - a.x), fl (b.y - a.y)⟩ : ℂ)
  have cy := Complex.norm_mul_sin_arg (⟨fl (b.x - a.x), fl (b.y - a.y)⟩ : ℂ)
  have nd : |‖(⟨fl (b.x - a.x), fl (b.y - a.y)⟩ : ℂ)‖ - pdist a b| ≤ 4 * u53 * M := by
    rw [pdist_comm, pdist_eq_norm]
    refine (abs_norm_sub_norm_le _ _).trans ((Complex.norm_le_abs_re_add_abs_im _).trans ?_)
    simp only [Complex.sub_re, Complex.sub_im]
    linarith
  simp only at hc hs
  set α := angleFromPoint fl atan2 ⟨fl (b.x - a.x), fl (b.y - a.y), z⟩
  set θ := Complex.arg ⟨fl (b.x - a.x), fl (b.y - a.y)⟩
  set D := ‖(⟨fl (b.x - a.x), fl (b.y - a.y)⟩ : ℂ)‖
  have D0 : 0 ≤ D := norm_nonneg _
  have k0 : 0 ≤ M / 2 ^ 46 := by positivity
  have uM : u53 * M = M / 2 ^ 46 / 2 ^ 7 := by norm_num [u53]; ring
  have D5 : D ≤ 5 * M := by
    have := (abs_le.1 nd).2
    have : 4 * u53 * M ≤ M := by nlinarith [u53_small]
    linarith
  have step : ∀ {C c v w : ℝ}, |c - C| ≤ 1 / 2 ^ 46 → |c| ≤ 1 → D * C = v → |v - w| ≤ u53 * (2 * M) →
      |dist fl b a * c - w| ≤ M / 2 ^ 42 := by
    intro C c v w hcC hc1 hv hw
    have e : dist fl b a * c - w = (dist fl b a - pdist a b) * c + (pdist a b - D) * c + D * (c - C) + (v - w) := by
      rw [← hv]; ring
    rw [e]
    have b1 : |(dist fl b a - pdist a b) * c| ≤ M / 2 ^ 46 := by
      rw [abs_mul]
      exact (mul_le_of_le_one_right (abs_nonneg _) hc1).trans dn
    have b2 : |(pdist a b - D) * c| ≤ 4 * u53 * M := by
      rw [abs_mul, abs_sub_comm]
      exact (mul_le_of_le_one_right (abs_nonneg _) hc1).trans nd
    have b3 : |D * (c - C)| ≤ 5 * M * (1 / 2 ^ 46) := by
      rw [abs_mul, abs_of_nonneg D0]
      exact mul_le_mul D5 hcC (abs_nonneg _) (by linarith)
    have t1 := abs_add_le ((dist fl b a - pdist a b) * c + (pdist a b - D) * c + D * (c - C)) (v - w)
    have t2 := abs_add_le ((dist fl b a - pdist a b) * c + (pdist a b - D) * c) (D * (c - C))
    have t3 := abs_add_le ((dist fl b a - pdist a b) * c) ((pdist a b - D) * c)
    have q1 : 5 * M * (1 / 2 ^ 46) = 5 * (M / 2 ^ 46) := by ring
    have q2 : M / 2 ^ 42 = 16 * (M / 2 ^ 46) := by ring
    have q3 : 4 * u53 * M = 4 * (M / 2 ^ 46 / 2 ^ 7) := by rw [← uM]; ring
    have q4 : u53 * (2 * M) = 2 * (M / 2 ^ 46 / 2 ^ 7) := by rw [← uM]; ring
    rw [q2]
    norm_num at *
    linarith
  exact ⟨step hc (Real.abs_cos_le_one _) cx ex, step hs (Real.abs_sin_le_one _) cy ey⟩

theorem isDouble_angle (h : IsRounding fl) (p : RPoint) : IsDouble (angleFromPoint fl atan2 p) := isDouble_mod2pi h _

theorem isDouble_dist (h : IsRounding fl) (a b : RPoint) : IsDouble (dist fl a b) := h.double _

/-- one coordinate of the computed end -/
theorem coord_end (h : IsRounding fl) {M x y L c C : ℝ} (hM : 1 ≤ M) (hx : |x| ≤ M) (L0 : 0 ≤ L) (L5 : L ≤ 5 * M)
    (hC : |C| ≤ 1) (hc : |c - C| ≤ 2 * u53) (hr : |L * C - (y - x)| ≤ M / 2 ^ 42) :
    |fl (x + fl (L * c)) - y| ≤ M / 2 ^ 41 := by
  have u0 := u53_pos
  have u1 := u53_small
  have uM : u53 * M = M / 2 ^ 53 := by norm_num [u53]; ring
  have k : u53 ≤ u53 * M := le_mul_of_one_le_right u0.le hM
  have a1 : |L * (c - C)| ≤ 5 * M * (2 * u53) := by
    rw [abs_mul, abs_of_nonneg L0]
    exact mul_le_mul L5 hc (abs_nonneg _) (by linarith)
  have a2 : |L * C| ≤ 5 * M := by
    rw [abs_mul, abs_of_nonneg L0]
    exact (mul_le_of_le_one_right L0 hC).trans L5
  have uM1 : u53 * M ≤ M / 2 ^ 10 := by
    rw [uM]; norm_num; linarith
  have e : L * c = L * (c - C) + L * C := by ring
  have a3 : |L * c| ≤ 6 * M := by
    rw [e]
    refine (abs_add_le _ _).trans ?_
    have : M / 2 ^ 10 ≤ M / 100 := by norm_num; linarith
    linarith
  have r1 := h.err _ a3
  have a4 : |x + fl (L * c)| ≤ 8 * M := by
    have e : x + fl (L * c) = x + ((fl (L * c) - L * c) + L * c) := by ring
    rw [e]
    have t1 := abs_add_le x ((fl (L * c) - L * c) + L * c)
    have t2 := abs_add_le (fl (L * c) - L * c) (L * c)
    have : M / 2 ^ 10 ≤ M / 100 := by norm_num; linarith
    linarith
  have r2 := h.err _ a4
  have e2 : fl (x + fl (L * c)) - y =
      (fl (x + fl (L * c)) - (x + fl (L * c))) + ((fl (L * c) - L * c) + (L * (c - C) + (L * C - (y - x)))) := by ring
  rw [e2]
  have t1 := abs_add_le (fl (x + fl (L * c)) - (x + fl (L * c))) ((fl (L * c) - L * c) + (L * (c - C) + (L * C - (y - x))))
  have t2 := abs_add_le (fl (L * c) - L * c) (L * (c - C) + (L * C - (y - x)))
  have t3 := abs_add_le (L * (c - C)) (L * C - (y - x))
  have q : M / 2 ^ 41 = M / 2 ^ 42 + 2 ^ 11 * (M / 2 ^ 53) := by ring
  rw [q, ← uM]
  have : 0 ≤ u53 * M := by positivity
  norm_num at *
  linarith

theorem dist_le_five (h : IsRounding fl) {M : ℝ} (hM : 1 ≤ M) (hM' : M ≤ 2 ^ 400) {a b : RPoint}
    (h1 : DoublePoint M a) (h2 : DoublePoint M b) : dist fl b a ≤ 5 * M := by
  obtain ⟨-, dn⟩ := dist_near h hM hM' h1 h2
  have := (abs_le.1 dn).2
  have := pdist_le_four h1 h2
  have : M / 2 ^ 46 ≤ M := div_le_self (by linarith) (by norm_num)
  linarith

/-- lengths of the states and of the segments -/
theorem swath_length (h : IsRounding fl) (atan2 : ℝ → ℝ → ℝ) {M : ℝ} (hM : 1 ≤ M) (hM' : M ≤ 2 ^ 400) (speed : ℝ) {N : Nat}
    (hN : N ≤ 2 ^ 50) : ∀ (line : List RPoint) (n : Nat) (acc acc' : ℝ), (∀ p ∈ line, DoublePoint M p) → n + line.length ≤ N + 1 →
      |acc' - acc| ≤ n * (M / 2 ^ 40 + 6 * N * (u53 * M)) → 0 ≤ acc → acc ≤ n * (4 * M) →
      |(swathStates fl atan2 speed line).foldl (fun d s => fl (d + |s.len|)) acc' - (acc + lineLength line)| ≤
        (n + (line.length - 1) : ℕ) * (M / 2 ^ 40 + 6 * N * (u53 * M))
  | [], n, acc, acc', _, _, h1, _, _ => by simpa [swathStates, lineLength] using h1
  | [_], n, acc, acc', _, _, h1, _, _ => by simpa [swathStates, lineLength] using h1
  | a :: b :: l, n, acc, acc', hp, hn, h1, h2, h3 => by
    have pa := hp a (by simp)
    have pb := hp b (by simp)
    obtain ⟨d0, dn⟩ := dist_near h hM hM' pa pb
    have one := foldl_near h hM hN (ι := Unit) (fun _ => pdist a b) (fun _ => |dist fl b a|) [()] n acc acc'
      (by simp at hn ⊢; omega)
      (fun _ _ => ⟨by
        rw [abs_of_nonneg d0]
        refine dn.trans ?_
        norm_num; linarith, pdist_nonneg _ _, pdist_le_four pa pb⟩) h1 h2 h3
    simp only [List.foldl_cons, List.foldl_nil, List.length_singleton] at one
    have := swath_length h atan2 hM hM' speed hN (b :: l) (n + 1) (acc + pdist a b) (fl (acc' + |dist fl b a|))
      (fun p m => hp p (by simp at m ⊢; tauto)) (by simp at hn ⊢; omega) one.1 one.2.1 one.2.2
    simp only [swathStates, List.foldl_cons, lineLength]
    simp only [List.length_cons] at this ⊢
    have e : n + 1 + (l.length + 1 - 1) = n + (l.length + 1 + 1 - 1) := by omega
    rw [e] at this
    rw [← add_assoc]
    exact this

theorem angle_height (p : RPoint) (z : ℝ) :
    angleFromPoint fl atan2 p = angleFromPoint fl atan2 { p with z := z } := by
  unfold angleFromPoint
  simp only [zero_mul]

/-- the heading of the first state is the direction in which the swath is entered -/
theorem inAngle_head (h : IsRounding fl) (speed : ℝ) (s : Swath ℝ) {f : PathState ℝ}
    (hf : List.head? (swathStates fl atan2 speed s.path) = some f) : inAngle fl atan2 s = .ok f.angle ∧ s.startPoint = f.point := by
  unfold inAngle Swath.startPoint
  match hs : s.path with
  | [] => rw [hs] at hf; simp [swathStates] at hf
  | [_] => rw [hs] at hf; simp [swathStates] at hf
  | a :: b :: l =>
    rw [hs] at hf
    simp only [swathStates, List.head?_cons, Option.some.injEq] at hf
    subst hf
    simp only [subPoint]
    refine ⟨?_, by simp⟩
    rw [angle_height _ 0]

theorem last_state (atan2 : ℝ → ℝ → ℝ) (speed : ℝ) : ∀ (pre : List RPoint) (a b : RPoint),
    List.getLast? (swathStates fl atan2 speed (pre ++ [a, b])) = some
      { point := a
        angle := angleFromPoint fl atan2 ⟨fl (b.x - a.x), fl (b.y - a.y), 0⟩
        len := dist fl b a
        dir := .forward
        type := .swath
        velocity := speed }
  | [], a, b => by simp [swathStates]
  | [c], a, b => by simp [swathStates]
  | c :: d :: pre, a, b => by
    have := last_state atan2 speed (d :: pre) a b
    simp only [List.cons_append, swathStates] at this ⊢
    rw [List.getLast?_cons, this]
    simp

theorem outAngle_last (h : IsRounding fl) (speed : ℝ) (s : Swath ℝ) {f : PathState ℝ}
    (hf : List.getLast? (swathStates fl atan2 speed s.path) = some f) : outAngle fl atan2 s = .ok f.angle := by
  unfold outAngle
  match hs : s.path.reverse with
  | [] => rw [List.reverse_eq_nil_iff.1 hs] at hf; simp [swathStates] at hf
  | [x] =>
    have : s.path = [x] := by rw [← List.reverse_reverse s.path, hs]; rfl
    rw [this] at hf; simp [swathStates] at hf
  | b :: a :: l =>
    have e : s.path = l.reverse ++ [a, b] := by rw [← List.reverse_reverse s.path, hs]; simp
    rw [e, last_state] at hf
    simp only [Option.some.injEq] at hf
    subst hf
    simp only [subPoint]
    rw [angle_height _ 0]

end F2C.Dbl
