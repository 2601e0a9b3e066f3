import Verif.Model.DoubleObjective
import Verif.Lemmas.DoubleTurning
import Verif.Lemmas.Objectives

/-! # Lemmas about the estimated number of turns in double precision -/

namespace F2C.Dbl

open Props Props.TurningSpec Props.SG
open Obj (ringPoint prevIndex turnTerm_eq)

variable {fl sin : ℝ → ℝ} {atan2 : ℝ → ℝ → ℝ}

theorem angle_near' (h : IsRounding fl) (ha : IsAtan2 atan2) {p : RPoint} (dx : IsDouble p.x) (dy : IsDouble p.y) :
    NearHeading (1 / 2 ^ 46) (angleFromPoint fl atan2 p) (Complex.arg ⟨p.x, p.y⟩) ∧ |angleFromPoint fl atan2 p| ≤ 7 := by
  have e : angleFromPoint fl atan2 p = mod2pi fl (atan2 p.y p.x) := by
    unfold angleFromPoint
    simp only [one_mul, zero_mul, h.self dx, h.self dy, h.self isDouble_zero, sub_zero, add_zero]
  rw [e]
  have n2 := near_mod2pi h (v := atan2 p.y p.x) ((ha.range _ _).trans (by norm_num))
  refine ⟨near_mono (near_trans n2 (ha.near _ _ dy dx)) ?_, mod2pi_abs h _⟩
  norm_num [u53]

theorem near_sub_left {δ b c : ℝ} (a : ℝ) (h : NearHeading δ b c) : NearHeading δ (a - b) (a - c) := by
  have := h.neg.add_right a
  rwa [neg_add_eq_sub, neg_add_eq_sub] at this

theorem turnTerm_near (h : IsRounding fl) (hsin : ∀ a, IsDouble a → |sin a - Real.sin a| ≤ 2 * u53) (ha : IsAtan2 atan2)
    {M : ℝ} (hM : 1 ≤ M) (hM' : M ≤ 2 ^ 400) {p q : RPoint} (h1 : DoublePoint M p) (h2 : DoublePoint M q) {ang : ℝ}
    (hang : |ang| ≤ 50) :
    |turnTerm fl sin atan2 ang p q - Obj.turnTerm ang p q| ≤ M / 2 ^ 40 ∧ 0 ≤ Obj.turnTerm ang p q ∧ Obj.turnTerm ang p q ≤ 4 * M := by
  have u0 := u53_pos
  have u1 := u53_small
  obtain ⟨d0, de⟩ := dist_err h (p := p) (q := q)
    (big_range hM' (h1.bx.trans (by linarith)) h2.bx) (big_range hM' (h1.by'.trans (by linarith)) h2.by')
  have P4 : pdist p q ≤ 4 * M :=
    (by rw [pdist_eq_norm]; exact Complex.norm_le_abs_re_add_abs_im _ : pdist p q ≤ |p.x - q.x| + |p.y - q.y|).trans (by
      have := abs_sub p.x q.x
      have := abs_sub p.y q.y
      linarith [h1.bx, h1.by', h2.bx, h2.by'])
  have P0 := pdist_nonneg p q
  have dist_near : |dist fl p q - pdist p q| ≤ M / 2 ^ 46 := de.trans (by norm_num; linarith)
  have t0 : 0 ≤ Obj.turnTerm ang p q := mul_nonneg P0 (abs_nonneg _)
  have t4 : Obj.turnTerm ang p q ≤ 4 * M :=
    (mul_le_of_le_one_right P0 (Real.abs_sin_le_one _)).trans P4
  refine ⟨?_, t0, t4⟩
  obtain ⟨an, ab⟩ := angle_near' h ha (p := subPoint fl p q) (h.double _) (h.double _)
  have ex := h.err_sum h1.dx h2.dx.neg (B := 2 * M) (by
    rw [← sub_eq_add_neg]; exact (abs_sub _ _).trans (by linarith [h1.bx, h2.bx]))
  have ey := h.err_sum h1.dy h2.dy.neg (B := 2 * M) (by
    rw [← sub_eq_add_neg]; exact (abs_sub _ _).trans (by linarith [h1.by', h2.by']))
  rw [← sub_eq_add_neg] at ex ey
  have cx := Complex.norm_mul_cos_arg (⟨fl (p.x - q.x), fl (p.y - q.y)⟩ : ℂ)
  have cy := Complex.norm_mul_sin_arg (⟨fl (p.x - q.x), fl (p.y - q.y)⟩ : ℂ)
  have nd : |‖(⟨fl (p.x - q.x), fl (p.y - q.y)⟩ : ℂ)‖ - pdist p q| ≤ 4 * u53 * M := by
    rw [pdist_eq_norm]
    refine (abs_norm_sub_norm_le _ _).trans ((Complex.norm_le_abs_re_add_abs_im _).trans ?_)
    simp only [Complex.sub_re, Complex.sub_im]
    linarith
  simp only [subPoint] at an ab
  unfold turnTerm
  rw [turnTerm_eq]
  simp only [subPoint] at *
  generalize angleFromPoint fl atan2 ⟨fl (p.x - q.x), fl (p.y - q.y), fl (p.z - q.z)⟩ = α at *
  generalize Complex.arg ⟨fl (p.x - q.x), fl (p.y - q.y)⟩ = θ at *
  have D0 : 0 ≤ ‖(⟨fl (p.x - q.x), fl (p.y - q.y)⟩ : ℂ)‖ := norm_nonneg _
  generalize ‖(⟨fl (p.x - q.x), fl (p.y - q.y)⟩ : ℂ)‖ = D at *
  generalize dist fl p q = d at *
  generalize fl (p.x - q.x) = dx at *
  generalize fl (p.y - q.y) = dy at *
  -- the direction
  have b57 : |ang - α| ≤ 57 := (abs_sub _ _).trans (by linarith)
  have eb := h.err (ang - α) b57
  have nb : NearHeading (1 / 2 ^ 45) (fl (ang - α)) (ang - θ) :=
    near_mono (near_trans (near_of_abs eb) (near_sub_left ang an)) (by norm_num [u53])
  have sb := (near_cos_sin nb).2
  have sl := hsin _ (h.double (ang - α))
  have S : |(|sin (fl (ang - α))| - |Real.sin (ang - θ)|)| ≤ 1 / 2 ^ 44 := by
    refine (abs_abs_sub_abs_le _ _).trans ?_
    refine (abs_sub_le _ (Real.sin (fl (ang - α))) _).trans ?_
    refine (add_le_add sl sb).trans ?_
    norm_num [u53]
  have σ0 := abs_nonneg (sin (fl (ang - α)))
  have s1 := Real.abs_sin_le_one (ang - θ)
  generalize |sin (fl (ang - α))| = σ at *
  have σ2 : σ ≤ 2 := by
    have := (abs_le.1 S).2
    norm_num at this
    linarith
  -- the exact value
  have V : D * |Real.sin (ang - θ)| = |Real.sin ang * dx - Real.cos ang * dy| := by
    nth_rewrite 1 [← abs_of_nonneg D0]
    rw [← abs_mul, Real.sin_sub, ← cx, ← cy]
    congr 1; ring
  have W : |D * |Real.sin (ang - θ)| - (|across ang p - across ang q|)| ≤ 4 * u53 * M := by
    rw [V]
    have e : across ang p - across ang q = -(Real.sin ang * (p.x - q.x) - Real.cos ang * (p.y - q.y)) := by
      unfold across; ring
    rw [e, abs_neg]
    refine (abs_abs_sub_abs_le _ _).trans ?_
    have e2 : Real.sin ang * dx - Real.cos ang * dy - (Real.sin ang * (p.x - q.x) - Real.cos ang * (p.y - q.y)) =
        Real.sin ang * (dx - (p.x - q.x)) - Real.cos ang * (dy - (p.y - q.y)) := by ring
    rw [e2]
    refine (abs_sub _ _).trans ?_
    rw [abs_mul, abs_mul]
    have := mul_le_of_le_one_left (abs_nonneg (dx - (p.x - q.x))) (Real.abs_sin_le_one ang)
    have := mul_le_of_le_one_left (abs_nonneg (dy - (p.y - q.y))) (Real.abs_cos_le_one ang)
    linarith
  have uM : u53 * M = M / 2 ^ 46 / 2 ^ 7 := by norm_num [u53]; ring
  have k0 : 0 < M / 2 ^ 46 := by positivity
  have D5 : D ≤ 5 * M := by
    have := (abs_le.1 nd).2
    have : 4 * u53 * M ≤ M := by nlinarith
    linarith
  have dD : |d - D| ≤ M / 2 ^ 46 + 4 * u53 * M := by
    refine (abs_sub_le _ (pdist p q) _).trans ?_
    rw [abs_sub_comm] at nd
    linarith
  have d5 : d ≤ 5 * M := by
    have := (abs_le.1 dist_near).2
    have : M / 2 ^ 46 ≤ M := div_le_self (by linarith) (by norm_num)
    linarith
  have p1 : |d * σ - D * (|Real.sin (ang - θ)|)| ≤ (M / 2 ^ 46 + 4 * u53 * M) * 2 + 5 * M * (1 / 2 ^ 44) := by
    have e : d * σ - D * |Real.sin (ang - θ)| = (d - D) * σ + D * (σ - |Real.sin (ang - θ)|) := by ring
    rw [e]
    refine (abs_add_le _ _).trans (add_le_add ?_ ?_)
    · rw [abs_mul, abs_of_nonneg σ0]
      exact mul_le_mul dD σ2 σ0 (by positivity)
    · rw [abs_mul, abs_of_nonneg D0]
      exact mul_le_mul D5 S (abs_nonneg _) (by linarith)
  have p2 := h.err (d * σ) (B := 10 * M) (by
    rw [abs_mul, abs_of_nonneg d0, abs_of_nonneg σ0]
    nlinarith)
  have f1 := abs_sub_le (fl (d * σ)) (d * σ) |across ang p - across ang q|
  have f2 := abs_sub_le (d * σ) (D * |Real.sin (ang - θ)|) |across ang p - across ang q|
  have um : u53 ≤ u53 * M := le_mul_of_one_le_right u0.le hM
  have q1 : M / 2 ^ 40 = 64 * (M / 2 ^ 46) := by ring
  have q2 : 5 * M * (1 / 2 ^ 44) = 20 * (M / 2 ^ 46) := by ring
  rw [q1]
  rw [q2] at p1
  have q3 : 4 * u53 * M = 4 * (u53 * M) := by ring
  have q4 : u53 * (10 * M) = 10 * (u53 * M) := by ring
  rw [q3] at p1 W
  rw [q4] at p2
  rw [uM] at *
  generalize M / 2 ^ 46 = k at *
  norm_num at *
  linarith

/-- the sum of the code, term by term -/
theorem foldl_near (h : IsRounding fl) {M : ℝ} (hM : 1 ≤ M) {N : Nat} (hN : N ≤ 2 ^ 50) {ι : Type} (t t' : ι → ℝ) :
    ∀ (l : List ι) (n : Nat) (acc acc' : ℝ), n + l.length ≤ N →
      (∀ i ∈ l, |t' i - t i| ≤ M / 2 ^ 40 ∧ 0 ≤ t i ∧ t i ≤ 4 * M) →
      |acc' - acc| ≤ n * (M / 2 ^ 40 + 6 * N * (u53 * M)) → 0 ≤ acc → acc ≤ n * (4 * M) →
      |l.foldl (fun s i => fl (s + t' i)) acc' - l.foldl (fun s i => s + t i) acc| ≤
          (n + l.length : ℕ) * (M / 2 ^ 40 + 6 * N * (u53 * M)) ∧
        0 ≤ l.foldl (fun s i => s + t i) acc ∧ l.foldl (fun s i => s + t i) acc ≤ (n + l.length : ℕ) * (4 * M)
  | [], n, acc, acc', _, _, h1, h2, h3 => by simpa using ⟨h1, h2, h3⟩
  | i :: l, n, acc, acc', hn, ht, h1, h2, h3 => by
    simp only [List.foldl_cons, List.length_cons] at *
    have u0 := u53_pos
    obtain ⟨e1, e2, e3⟩ := ht i (by simp)
    have uM0 : 0 < u53 * M := mul_pos u0 (by linarith)
    have NN : (N : ℝ) ≤ 2 ^ 50 := by exact_mod_cast hN
    have nN : (n : ℝ) + 1 ≤ N := by
      have : n + 1 ≤ N := by omega
      exact_mod_cast this
    have n0 : (0 : ℝ) ≤ n := n.cast_nonneg
    have small : M / 2 ^ 40 + 6 * N * (u53 * M) ≤ M := by
      have : 6 * N * (u53 * M) ≤ 6 * 2 ^ 50 * (u53 * M) := by
        have := mul_le_mul_of_nonneg_right NN uM0.le
        linarith
      refine (add_le_add le_rfl this).trans ?_
      norm_num [u53]
      linarith
    have c5 : |acc' + t' i| ≤ N * (5 * M) := by
      have : acc' + t' i = (acc' - acc) + acc + ((t' i - t i) + t i) := by ring
      rw [this]
      have a1 := abs_add_le ((acc' - acc) + acc) ((t' i - t i) + t i)
      have a2 := abs_add_le (acc' - acc) acc
      have a3 := abs_add_le (t' i - t i) (t i)
      rw [abs_of_nonneg h2] at a2
      rw [abs_of_nonneg e2] at a3
      have b1 : n * (M / 2 ^ 40 + 6 * N * (u53 * M)) ≤ n * M := mul_le_mul_of_nonneg_left small n0
      have b2 : M / 2 ^ 40 ≤ M := div_le_self (by linarith) (by norm_num)
      have b3 : (n + 1 : ℝ) * (5 * M) ≤ N * (5 * M) := mul_le_mul_of_nonneg_right nN (by linarith)
      linarith
    have r := h.err _ c5
    have step : |fl (acc' + t' i) - (acc + t i)| ≤ (n + 1 : ℕ) * (M / 2 ^ 40 + 6 * N * (u53 * M)) := by
      have e : fl (acc' + t' i) - (acc + t i) = (fl (acc' + t' i) - (acc' + t' i)) + ((acc' - acc) + (t' i - t i)) := by ring
      rw [e]
      have a1 := abs_add_le (fl (acc' + t' i) - (acc' + t' i)) ((acc' - acc) + (t' i - t i))
      have a2 := abs_add_le (acc' - acc) (t' i - t i)
      have um : u53 ≤ N * (u53 * M) := by
        have : u53 ≤ u53 * M := le_mul_of_one_le_right u0.le hM
        have : u53 * M ≤ N * (u53 * M) := le_mul_of_one_le_left uM0.le (by linarith)
        linarith
      push_cast
      linarith
    have := foldl_near h hM hN t t' l (n + 1) (acc + t i) (fl (acc' + t' i)) (by omega)
      (fun j hj => ht j (by simp [hj])) step (by linarith) (by push_cast; linarith)
    have e : n + 1 + l.length = n + (l.length + 1) := by omega
    rw [e] at this
    exact this

theorem ringPoint_bound {M : ℝ} {cell : Cell ℝ} (hd : ∀ p ∈ cell.flatten, DoublePoint M p) {r : Ring ℝ} (hr : r ∈ cell) {i : Nat}
    (hi : i < r.length) : DoublePoint M (ringPoint r i) := by
  apply hd
  unfold ringPoint
  rw [List.getD_eq_getElem?_getD, List.getElem?_eq_getElem hi, Option.getD_some]
  exact List.mem_flatten.2 ⟨r, hr, List.getElem_mem _⟩

theorem cell_near (h : IsRounding fl) (hsin : ∀ a, IsDouble a → |sin a - Real.sin a| ≤ 2 * u53) (ha : IsAtan2 atan2)
    {M : ℝ} (hM : 1 ≤ M) (hM' : M ≤ 2 ^ 400) {N : Nat} (hN : N ≤ 2 ^ 50) {ang : ℝ} (hang : |ang| ≤ 50) :
    ∀ (cell : Cell ℝ) (n : Nat) (acc acc' : ℝ), n + cell.flatten.length ≤ N → (∀ p ∈ cell.flatten, DoublePoint M p) →
      |acc' - acc| ≤ n * (M / 2 ^ 40 + 6 * N * (u53 * M)) → 0 ≤ acc → acc ≤ n * (4 * M) →
      |cell.foldl (ringTurns fl sin atan2 ang) acc' - cell.foldl (Obj.ringTurns ang) acc| ≤
          (n + cell.flatten.length : ℕ) * (M / 2 ^ 40 + 6 * N * (u53 * M)) ∧
        0 ≤ cell.foldl (Obj.ringTurns ang) acc ∧ cell.foldl (Obj.ringTurns ang) acc ≤ (n + cell.flatten.length : ℕ) * (4 * M)
  | [], n, acc, acc', _, _, h1, h2, h3 => by simpa using ⟨h1, h2, h3⟩
  | r :: cell, n, acc, acc', hn, hd, h1, h2, h3 => by
    rw [List.flatten_cons, List.length_append] at hn ⊢
    obtain ⟨s1, s2, s3⟩ := foldl_near h hM hN (fun i => Obj.turnTerm ang (ringPoint r i) (ringPoint r (prevIndex i r.length)))
      (fun i => turnTerm fl sin atan2 ang (ringPoint r i) (ringPoint r (prevIndex i r.length))) (List.range r.length) n acc acc'
      (by rw [List.length_range]; omega) (by
        intro i hi
        have hi' := List.mem_range.1 hi
        exact turnTerm_near h hsin ha hM hM' (ringPoint_bound hd (by simp) hi')
          (ringPoint_bound hd (by simp) (Nat.mod_lt _ (by omega))) hang) h1 h2 h3
    rw [List.length_range] at s1 s3
    have := cell_near h hsin ha hM hM' hN hang cell (n + r.length) _ _ (by omega)
      (fun p hp => hd p (by rw [List.flatten_cons]; exact List.mem_append_right _ hp)) s1 s2 s3
    rw [Nat.add_assoc] at this
    exact this

theorem cost_near (h : IsRounding fl) (hsin : ∀ a, IsDouble a → |sin a - Real.sin a| ≤ 2 * u53) (ha : IsAtan2 atan2)
    {M : ℝ} (hM : 1 ≤ M) (hM' : M ≤ 2 ^ 400) {cell : Cell ℝ} (hN : cell.flatten.length ≤ 2 ^ 50)
    (hd : ∀ p ∈ cell.flatten, DoublePoint M p) {ang w : ℝ} (hang : |ang| ≤ 50) (hw : IsDouble w) (w0 : 0 < w) (w1 : w ≤ M) :
    |nSwathModified fl sin atan2 ang w cell - Obj.nSwathModified ang w cell| ≤
      cell.flatten.length * (cell.flatten.length + 512) * M / (2 ^ 50 * w) := by
  unfold nSwathModified Obj.nSwathModified
  by_cases hc : cell.flatten = [] ∨ w ≤ 0
  · rw [if_pos hc, if_pos hc, sub_self, abs_zero]
    positivity
  rw [if_neg hc, if_neg hc]
  push Not at hc
  have e2 : fl (2 * w) = 2 * w := h.self (by
    obtain ⟨m, e, h1, h2, h3⟩ := hw
    exact ⟨m, e + 1, h1, by omega, by rw [h3, zpow_add₀ (by norm_num)]; ring⟩)
  rw [e2]
  obtain ⟨s1, s2, s3⟩ := cell_near h hsin ha hM hM' hN hang cell 0 0 0 (by omega) hd (by simp) le_rfl (by simp)
  rw [Nat.zero_add] at s1 s3
  have n1 : (1 : ℝ) ≤ cell.flatten.length := by
    have := List.length_pos_of_ne_nil hc.1
    exact_mod_cast this
  have NN : (cell.flatten.length : ℝ) ≤ 2 ^ 50 := by exact_mod_cast hN
  generalize (cell.flatten.length : ℝ) = N at *
  generalize cell.foldl (ringTurns fl sin atan2 ang) 0 = S' at *
  generalize cell.foldl (Obj.ringTurns ang) 0 = S at *
  have u0 := u53_pos
  have uM0 : 0 < u53 * M := mul_pos u0 (by linarith)
  have small : M / 2 ^ 40 + 6 * N * (u53 * M) ≤ M := by
    have : 6 * N * (u53 * M) ≤ 6 * 2 ^ 50 * (u53 * M) := by
      have := mul_le_mul_of_nonneg_right NN uM0.le
      linarith
    refine (add_le_add le_rfl this).trans ?_
    norm_num [u53]
    linarith
  have b5 : |S'| ≤ 5 * (N * M) := by
    have e : S' = (S' - S) + S := by ring
    rw [e]
    refine (abs_add_le _ _).trans ?_
    rw [abs_of_nonneg s2]
    have := mul_le_mul_of_nonneg_left small (by linarith : 0 ≤ N)
    linarith
  have r := h.err (S' / (2 * w)) (B := 5 * (N * M) / (2 * w)) (by
    rw [abs_div, abs_of_pos (by linarith : 0 < 2 * w)]
    exact div_le_div_of_nonneg_right b5 (by linarith))
  have f : |fl (S' / (2 * w)) - S / (2 * w)| ≤ u53 * (5 * (N * M) / (2 * w)) + u53 / 1000 +
      N * (M / 2 ^ 40 + 6 * N * (u53 * M)) / (2 * w) := by
    refine (abs_sub_le _ (S' / (2 * w)) _).trans (add_le_add r ?_)
    rw [← sub_div, abs_div, abs_of_pos (by linarith : 0 < 2 * w)]
    exact div_le_div_of_nonneg_right s1 (by linarith)
  refine f.trans ?_
  have g : u53 / 1000 ≤ u53 * (N * M) / (2 * w) := by
    rw [le_div_iff₀ (by linarith)]
    have : w ≤ N * M := w1.trans (le_mul_of_one_le_left (by linarith) n1)
    have := mul_le_mul_of_nonneg_left this u0.le
    have := mul_pos u0 w0
    linarith
  have e : N * (N + 512) * M / (2 ^ 50 * w) = (2 * N * (N + 512) * M / 2 ^ 50) / (2 * w) := by
    field_simp
  rw [e]
  have t : u53 * (5 * (N * M) / (2 * w)) + u53 * (N * M) / (2 * w) + N * (M / 2 ^ 40 + 6 * N * (u53 * M)) / (2 * w) =
      (6 * (u53 * (N * M)) + N * (M / 2 ^ 40 + 6 * N * (u53 * M))) / (2 * w) := by ring
  refine (add_le_add (add_le_add le_rfl g) le_rfl).trans (t.le.trans ?_)
  refine div_le_div_of_nonneg_right ?_ (by linarith)
  have NM : 0 < N * M := by positivity
  have NNM : N * M ≤ N * N * M := by nlinarith
  norm_num [u53]
  nlinarith

end F2C.Dbl
