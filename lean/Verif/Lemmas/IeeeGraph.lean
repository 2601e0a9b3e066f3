import Verif.Model.IeeeGraph
import Verif.Lemmas.IeeeGeom

/-! # Lemmas about costs of edges and hash values in double precision -/

namespace F2C.Ieee

open Flt Dbl Props.IeeeGeo

variable {fl : ℝ → ℝ}

/-- Two numbers that differ by at most the fraction `δ` and the amount `η`. -/
structure Close (δ η x y : ℝ) : Prop where
  le : x ≤ y * (1 + δ) + η
  ge : y ≤ x * (1 + δ) + η

theorem Close.trans {d₁ d₂ d n₁ n₂ n x y z : ℝ} (h₁ : Close d₁ n₁ x y) (h₂ : Close d₂ n₂ y z) (hd₁ : 0 ≤ d₁) (hd₂ : 0 ≤ d₂)
    (b₁ : d₁ ≤ 1) (b₂ : d₂ ≤ 1) (hn₁ : 0 ≤ n₁) (hn₂ : 0 ≤ n₂) (hx : 0 ≤ x) (hz : 0 ≤ z) (hd : d₁ + d₂ + d₁ * d₂ ≤ d)
    (hn : 2 * (n₁ + n₂) ≤ n) : Close d n x z := by
  constructor
  · have a := h₁.le
    have b := mul_le_mul_of_nonneg_right h₂.le (by linarith : 0 ≤ 1 + d₁)
    have c := mul_le_mul_of_nonneg_left hd hz
    have e := mul_le_mul_of_nonneg_left b₁ hn₂
    nlinarith
  · have a := h₂.ge
    have b := mul_le_mul_of_nonneg_right h₁.ge (by linarith : 0 ≤ 1 + d₂)
    have c := mul_le_mul_of_nonneg_left hd hx
    have e := mul_le_mul_of_nonneg_left b₂ hn₁
    nlinarith

theorem Close.add {d n₁ n₂ x y z w : ℝ} (h₁ : Close d n₁ x y) (h₂ : Close d n₂ z w) : Close d (n₁ + n₂) (x + z) (y + w) :=
  ⟨by linarith [h₁.le, h₂.le], by linarith [h₁.ge, h₂.ge]⟩

theorem Close.scale {d n x y c : ℝ} (h : Close d n x y) (hc : 0 ≤ c) : Close d (c * n) (c * x) (c * y) :=
  ⟨by nlinarith [mul_le_mul_of_nonneg_left h.le hc], by nlinarith [mul_le_mul_of_nonneg_left h.ge hc]⟩

theorem Close.mono {d n d' n' x y : ℝ} (h : Close d n x y) (hd : d ≤ d') (hn : n ≤ n') (hx : 0 ≤ x) (hy : 0 ≤ y) :
    Close d' n' x y :=
  ⟨by nlinarith [h.le, mul_le_mul_of_nonneg_left hd hy], by nlinarith [h.ge, mul_le_mul_of_nonneg_left hd hx]⟩

private theorem sq_le {d n x y B : ℝ} (h : x ≤ y * (1 + d) + n) (hx : 0 ≤ x) (hd : 0 ≤ d) (hd1 : d ≤ 1) (hn : 0 ≤ n)
    (hy : 0 ≤ y) (hB : y ≤ B) : x * x ≤ y * y * (1 + 3 * d) + (4 * B * n + n * n) := by
  have h1 : x * x ≤ (y * (1 + d) + n) * (y * (1 + d) + n) := mul_self_le_mul_self hx h
  have h2 : d * d ≤ d := mul_le_of_le_one_left hd hd1
  have h3 := mul_le_mul_of_nonneg_left h2 (mul_nonneg hy hy)
  have h4 : y * (1 + d) * n ≤ 2 * B * n := by
    refine mul_le_mul_of_nonneg_right ?_ hn
    nlinarith
  nlinarith

theorem Close.sq {d n x y B : ℝ} (h : Close d n x y) (hd : 0 ≤ d) (hd1 : d ≤ 1) (hn : 0 ≤ n) (hx : 0 ≤ x) (hy : 0 ≤ y)
    (bx : x ≤ B) (hB : y ≤ B) : Close (3 * d) (4 * B * n + n * n) (x * x) (y * y) :=
  ⟨sq_le h.le hx hd hd1 hn hy hB, sq_le h.ge hy hd hd1 hn hx bx⟩

private theorem sqrt_le' {d n x y : ℝ} (h : x ≤ y * (1 + d) + n * n) (hd : 0 ≤ d) (hn : 0 ≤ n) (hy : 0 ≤ y) :
    √x ≤ √y * (1 + d) + n := by
  have s0 := Real.sqrt_nonneg y
  refine Real.sqrt_le_iff.2 ⟨by positivity, ?_⟩
  have s1 := Real.mul_self_sqrt hy
  have e : (√y * (1 + d) + n) ^ 2 = √y * √y * (1 + d) ^ 2 + 2 * (√y * (1 + d)) * n + n * n := by ring
  rw [e, s1]
  have : 0 ≤ 2 * (√y * (1 + d)) * n := by positivity
  nlinarith [mul_nonneg hy hd, mul_nonneg hy (mul_nonneg hd hd)]

theorem Close.sqrt {d n x y : ℝ} (h : Close d (n * n) x y) (hd : 0 ≤ d) (hn : 0 ≤ n) (hx : 0 ≤ x) (hy : 0 ≤ y) :
    Close d n (√x) (√y) :=
  ⟨sqrt_le' h.le hd hn hy, sqrt_le' h.ge hd hn hx⟩

/-- Rounding. -/
theorem close_fl (h : IsRounding fl) (x : ℝ) : Close (1 / 2 ^ 52) ((2 : ℝ) ^ (-1074 : ℤ)) |x| |fl x| := by
  have h1 := round_err h x
  have h2 := abs_sub_abs_le_abs_sub (fl x) x
  have h3 := abs_sub_abs_le_abs_sub x (fl x)
  rw [abs_sub_comm] at h3
  have e : (2 : ℝ) ^ (-1074 : ℤ) = 2 * (2 : ℝ) ^ (-1075 : ℤ) := by
    rw [show (-1074 : ℤ) = 1 + -1075 by norm_num, zpow_add₀ two_ne_zero, zpow_one]
  have ht := two_zpow_pos (-1075)
  rw [e]
  generalize (2 : ℝ) ^ (-1075 : ℤ) = t at *
  have hx := abs_nonneg x
  have hf := abs_nonneg (fl x)
  constructor
  · norm_num at *
    linarith
  · norm_num at *
    linarith

theorem close_fl' (h : IsRounding fl) {x : ℝ} (hx : 0 ≤ x) : Close (1 / 2 ^ 52) ((2 : ℝ) ^ (-1074 : ℤ)) x (fl x) := by
  have := close_fl h x
  rwa [abs_of_nonneg hx, abs_of_nonneg (h.ge isDouble_zero hx)] at this

theorem fl_nonneg (h : IsRounding fl) {x : ℝ} (hx : 0 ≤ x) : 0 ≤ fl x := h.ge isDouble_zero hx

set_option exponentiation.threshold 2500 in
private theorem square_close (h : IsRounding fl) {a : ℝ} (ha : |a| ≤ 2 ^ 402) :
    mul fl (rnd fl a) (rnd fl a) = fin (fl (fl a * fl a)) ∧ fl (fl a * fl a) ≤ 2 ^ 804 ∧ 0 ≤ fl (fl a * fl a) ∧
      Close (5 / 2 ^ 52) ((2 : ℝ) ^ (-667 : ℤ)) (a ^ 2) (fl (fl a * fl a)) := by
  obtain ⟨e1, b1⟩ := rnd_pow h 402 (by norm_num) ha
  have b2 : |fl a * fl a| ≤ 2 ^ 804 := by
    rw [abs_mul]
    refine (mul_le_mul b1 b1 (abs_nonneg _) (by positivity)).trans (by norm_num)
  obtain ⟨e2, b3⟩ := rnd_pow h 804 (by norm_num) b2
  have p0 : 0 ≤ fl (fl a * fl a) := fl_nonneg h (mul_self_nonneg _)
  refine ⟨by rw [e1, mul_fin, e2], (le_abs_self _).trans b3, p0, ?_⟩
  have c1 := (close_fl h a).sq (by norm_num) (by norm_num) (two_zpow_pos _).le (abs_nonneg _) (abs_nonneg _) ha b1
  rw [abs_mul_abs_self, abs_mul_abs_self] at c1
  have c2 := close_fl' h (mul_self_nonneg (fl a))
  have c1 := c1.mono (d' := 3 / 2 ^ 52) (n' := (2 : ℝ) ^ (-669 : ℤ)) (by norm_num) (by norm_num) (mul_self_nonneg _)
    (mul_self_nonneg _)
  rw [pow_two]
  exact c1.trans c2 (by norm_num) (by norm_num) (by norm_num) (by norm_num) (two_zpow_pos _).le (two_zpow_pos _).le
    (mul_self_nonneg _) p0 (by norm_num) (by norm_num)

set_option exponentiation.threshold 2500 in
/-- The distance of two points. -/
theorem distance_close_eq (h : IsRounding fl) {p q : RPoint} {z z' : Flt} (dx : |p.x - q.x| ≤ 2 ^ 402)
    (dy : |p.y - q.y| ≤ 2 ^ 402) (d : ℝ)
    (hd : d = fl √(fl (fl (fl (p.x - q.x) * fl (p.x - q.x)) + fl (fl (p.y - q.y) * fl (p.y - q.y))))) :
    distance fl ⟨fin p.x, fin p.y, z⟩ ⟨fin q.x, fin q.y, z'⟩ = fin d ∧ 0 ≤ d ∧ d ≤ 2 ^ 403 ∧
      Close (9 / 2 ^ 52) ((2 : ℝ) ^ (-329 : ℤ)) (pdist p q) d := by
  obtain ⟨ex, lx, zx, cx⟩ := square_close h dx
  obtain ⟨ey, ly, zy, cy⟩ := square_close h dy
  set X := fl (fl (p.x - q.x) * fl (p.x - q.x)) with hX
  set Y := fl (fl (p.y - q.y) * fl (p.y - q.y)) with hY
  have s0 : 0 ≤ X + Y := add_nonneg zx zy
  obtain ⟨es, bs⟩ := rnd_pow h 805 (by norm_num) (x := X + Y) (by
    rw [abs_of_nonneg s0]
    exact (add_le_add lx ly).trans (by norm_num))
  have f0 := fl_nonneg h s0
  have c3 := (cx.add cy).trans (close_fl' h s0) (d := 7 / 2 ^ 52) (n := (2 : ℝ) ^ (-331 : ℤ) * (2 : ℝ) ^ (-331 : ℤ)) (by norm_num)
    (by norm_num) (by norm_num) (by norm_num) (add_nonneg (two_zpow_pos _).le (two_zpow_pos _).le) (two_zpow_pos _).le
    (by positivity) f0 (by norm_num) (by norm_num)
  have c4 := c3.sqrt (by norm_num) (two_zpow_pos _).le (by positivity) f0
  have r0 := Real.sqrt_nonneg (fl (X + Y))
  have c5 := c4.trans (close_fl' h r0) (d := 9 / 2 ^ 52) (n := (2 : ℝ) ^ (-329 : ℤ)) (by norm_num) (by norm_num) (by norm_num)
    (by norm_num) (two_zpow_pos _).le (two_zpow_pos _).le (Real.sqrt_nonneg _) (fl_nonneg h r0) (by norm_num) (by norm_num)
  have hr : |√(fl (X + Y))| ≤ 2 ^ 403 := by
    rw [abs_of_nonneg r0]
    refine Real.sqrt_le_iff.2 ⟨by norm_num, ?_⟩
    rw [abs_of_nonneg f0] at bs
    exact bs.trans (by norm_num)
  have hf := (rnd_pow h 403 (by norm_num) hr).2
  subst hd
  refine ⟨?_, fl_nonneg h r0, (le_abs_self _).trans hf, c5⟩
  simp only [distance, sub_fin]
  rw [ex, ey, add_fin, es]
  simp only [Flt.sqrt]
  rw [if_neg (not_lt.2 f0)]

theorem distance_close (h : IsRounding fl) {p q : RPoint} {z z' : Flt} (dx : |p.x - q.x| ≤ 2 ^ 402) (dy : |p.y - q.y| ≤ 2 ^ 402) :
    ∃ d : ℝ, distance fl ⟨fin p.x, fin p.y, z⟩ ⟨fin q.x, fin q.y, z'⟩ = fin d ∧ 0 ≤ d ∧ d ≤ 2 ^ 403 ∧
      Close (9 / 2 ^ 52) ((2 : ℝ) ^ (-329 : ℤ)) (pdist p q) d :=
  ⟨_, distance_close_eq h dx dy _ rfl⟩

set_option exponentiation.threshold 2500 in
private theorem diff_range {a b : ℝ} (ha : |a| ≤ 2 ^ 51) (hb : |b| ≤ 2 ^ 51) : |a - b| ≤ 2 ^ 402 :=
  ((abs_sub a b).trans (add_le_add ha hb)).trans (by norm_num)

set_option exponentiation.threshold 2500 in
/-- The value that is converted to the cost of an edge. -/
theorem scaled_close (h : IsRounding fl) {p q : RPoint} {z z' : Flt} (px : |p.x| ≤ 2 ^ 51) (py : |p.y| ≤ 2 ^ 51)
    (qx : |q.x| ≤ 2 ^ 51) (qy : |q.y| ≤ 2 ^ 51) :
    ∃ P : ℝ, mul fl (fin 1000) (distance fl ⟨fin p.x, fin p.y, z⟩ ⟨fin q.x, fin q.y, z'⟩) = fin P ∧ 0 ≤ P ∧
      Close (11 / 2 ^ 52) ((2 : ℝ) ^ (-317 : ℤ)) (1000 * pdist p q) P := by
  obtain ⟨d, e, d0, d1, c5⟩ := distance_close h (z := z) (z' := z') (diff_range px qx) (diff_range py qy)
  have c6 := c5.scale (c := 1000) (by norm_num)
  have t0 : 0 ≤ 1000 * d := mul_nonneg (by norm_num) d0
  have c7 := c6.trans (close_fl' h t0) (d := 11 / 2 ^ 52) (n := (2 : ℝ) ^ (-317 : ℤ)) (by norm_num) (by norm_num) (by norm_num)
    (by norm_num) (mul_nonneg (by norm_num) (two_zpow_pos _).le) (two_zpow_pos _).le (mul_nonneg (by norm_num) (Real.sqrt_nonneg _))
    (fl_nonneg h t0) (by norm_num) (by norm_num)
  have ht := (rnd_pow h 413 (by norm_num) (x := 1000 * d) (by
    rw [abs_of_nonneg t0]
    exact (mul_le_mul_of_nonneg_left d1 (by norm_num)).trans (by norm_num))).1
  exact ⟨_, by rw [e, mul_fin, ht], fl_nonneg h t0, c7⟩

/-! ## Values that cannot be converted -/

/-- If it is a number, it is at least `t`. -/
def AtLeast (t : ℝ) (v : Flt) : Prop := ∀ x, v = fin x → t ≤ x

/-- If it is a number, it is at most `t`. -/
def AtMost (t : ℝ) (v : Flt) : Prop := ∀ x, v = fin x → x ≤ t

theorem rnd_eq_fin {x y : ℝ} (e : rnd fl x = fin y) : y = fl x := by
  unfold rnd at e
  split_ifs at e
  exact (Flt.fin.inj e).symm

theorem AtLeast.rnd (h : IsRounding fl) {t x : ℝ} (ht : IsDouble t) (hx : t ≤ x) : AtLeast t (rnd fl x) := fun y e => by
  rw [rnd_eq_fin e]
  exact h.ge ht hx

theorem AtMost.rnd (h : IsRounding fl) {t x : ℝ} (ht : IsDouble t) (hx : x ≤ t) : AtMost t (rnd fl x) := fun y e => by
  rw [rnd_eq_fin e]
  exact h.le ht hx

theorem add_eq_fin {a b : Flt} {x : ℝ} (e : add fl a b = fin x) : ∃ u v, a = fin u ∧ b = fin v ∧ x = fl (u + v) := by
  cases a <;> cases b <;> simp only [add, reduceCtorEq] at e
  exact ⟨_, _, rfl, rfl, rnd_eq_fin e⟩

theorem mul_eq_fin {a b : Flt} {x : ℝ} (e : mul fl a b = fin x) : ∃ u v, a = fin u ∧ b = fin v ∧ x = fl (u * v) := by
  cases a <;> cases b <;> simp only [mul, signed, reduceCtorEq] at e <;> try (split_ifs at e)
  exact ⟨_, _, rfl, rfl, rnd_eq_fin e⟩

theorem AtLeast.add (h : IsRounding fl) {a b : Flt} {s t r : ℝ} (ha : AtLeast s a) (hb : AtLeast t b) (hr : IsDouble r)
    (hst : r ≤ s + t) : AtLeast r (add fl a b) := fun x e => by
  obtain ⟨u, v, rfl, rfl, rfl⟩ := add_eq_fin e
  exact h.ge hr (by linarith [ha u rfl, hb v rfl])

theorem AtMost.add (h : IsRounding fl) {a b : Flt} {s t r : ℝ} (ha : AtMost s a) (hb : AtMost t b) (hr : IsDouble r)
    (hst : s + t ≤ r) : AtMost r (add fl a b) := fun x e => by
  obtain ⟨u, v, rfl, rfl, rfl⟩ := add_eq_fin e
  exact h.le hr (by linarith [ha u rfl, hb v rfl])

theorem square_atLeast (h : IsRounding fl) {d : Flt} {t : ℝ} (ht : 0 ≤ t) (hd : ∀ x, d = fin x → t ≤ |x|)
    (ht2 : IsDouble (t * t)) : AtLeast (t * t) (mul fl d d) := fun x e => by
  obtain ⟨u, v, e1, e2, rfl⟩ := mul_eq_fin e
  cases e1
  cases e2
  refine h.ge ht2 ?_
  have := mul_self_le_mul_self ht (hd u rfl)
  rwa [abs_mul_abs_self] at this

theorem toInt64_ub {v : Flt} (h : AtLeast (2 ^ 63) v) : (toInt64 v).isUb = true := by
  cases v with
  | fin x =>
    have hx := h x rfl
    have h0 : 0 ≤ x := le_trans (by norm_num) hx
    have hf : (2 ^ 63 : ℤ) ≤ ⌊x⌋ := Int.le_floor.2 (by norm_num at hx ⊢; exact hx)
    simp only [toInt64, if_pos h0]
    rw [if_neg (fun hc => absurd hc.2 (not_lt.2 hf))]
    rfl
  | _ => rfl

theorem toSize_ub {v : Flt} (h : AtLeast (2 ^ 64) v ∨ AtMost (-1) v) : (toSize v).isUb = true := by
  cases v with
  | fin x =>
    simp only [toSize]
    rw [if_neg]
    · rfl
    · rintro ⟨h1, h2⟩
      rcases h with h | h
      · exact absurd h2 (not_lt.2 (h x rfl))
      · exact absurd h1 (not_lt.2 (h x rfl))
  | _ => rfl

theorem isDouble_pow (k : Nat) : IsDouble ((2 : ℝ) ^ k) := ⟨1, k, by norm_num, by omega, by
  rw [Int.cast_one, one_mul]; exact (zpow_natCast 2 k).symm⟩

/-- A difference of coordinates that is large or no number makes the conversion undefined. -/
theorem cost_ub (h : IsRounding fl) {a b : Point Flt} (hd : (∀ x, sub fl a.x b.x = fin x → 2 ^ 54 ≤ |x|) ∨
    ∀ x, sub fl a.y b.y = fin x → 2 ^ 54 ≤ |x|) : (edgeCost fl a b).isUb = true := by
  have two : (2 : ℝ) ^ 108 = 2 ^ 54 * 2 ^ 54 := by norm_num
  have big : ∀ {d : Flt}, (∀ x, d = fin x → 2 ^ 54 ≤ |x|) → AtLeast (2 ^ 108) (mul fl d d) := fun hd => by
    rw [two]
    exact square_atLeast h (by positivity) hd (two ▸ isDouble_pow 108)
  have small : ∀ d : Flt, AtLeast 0 (mul fl d d) := fun d => by
    have := square_atLeast h (d := d) le_rfl (fun x _ => abs_nonneg x) (by rw [mul_zero]; exact isDouble_zero)
    rwa [mul_zero] at this
  have hs : AtLeast (2 ^ 108) (add fl (mul fl (sub fl a.x b.x) (sub fl a.x b.x)) (mul fl (sub fl a.y b.y) (sub fl a.y b.y))) := by
    rcases hd with hd | hd
    · exact (big hd).add h (small _) (isDouble_pow 108) (by simp)
    · exact (small _).add h (big hd) (isDouble_pow 108) (by simp)
  have hr : AtLeast (2 ^ 54) (distance fl a b) := by
    simp only [distance]
    revert hs
    generalize add fl (mul fl (sub fl a.x b.x) (sub fl a.x b.x)) (mul fl (sub fl a.y b.y) (sub fl a.y b.y)) = v
    intro hs x e
    cases v with
    | fin s =>
      simp only [Flt.sqrt] at e
      split_ifs at e
      cases e
      refine h.ge (isDouble_pow 54) (Real.le_sqrt_of_sq_le ?_)
      exact le_trans (by norm_num) (hs s rfl)
    | _ => simp [Flt.sqrt] at e
  refine toInt64_ub fun x e => ?_
  obtain ⟨u, v, e1, e2, rfl⟩ := mul_eq_fin e
  cases e1
  have := hr v e2
  exact h.ge (isDouble_pow 63) (by norm_num at *; linarith)

end F2C.Ieee
