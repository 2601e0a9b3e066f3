import Verif.Model.DoubleGeom
import Verif.Lemmas.DoubleSwath

/-! # Lemmas about distances to lines and intersections of lines in double precision -/

namespace F2C.Dbl

open Props Props.TurningSpec

variable {fl : ℝ → ℝ}

theorem fl_err (h : IsRounding fl) (x : ℝ) : |fl x - x| ≤ u53 * |x| + u53 / 1000 := h.err x le_rfl

/-- products of factors that are off a little -/
theorem mul_err (h : IsRounding fl) {a a' b b' : ℝ} (ha : |a' - a| ≤ u53 * |a|) (hb : |b' - b| ≤ u53 * |b|) :
    |fl (a' * b') - a * b| ≤ 4 * u53 * (|a| * |b|) + u53 / 1000 := by
  have u0 := u53_pos
  have u1 := u53_small
  have e1 : a' * b' - a * b = (a' - a) * (b' - b) + (a' - a) * b + a * (b' - b) := by ring
  have P0 : 0 ≤ |a| * |b| := by positivity
  have b1 : |a' * b' - a * b| ≤ (21 / 10) * u53 * (|a| * |b|) := by
    rw [e1]
    have t1 := abs_add_le ((a' - a) * (b' - b) + (a' - a) * b) (a * (b' - b))
    have t2 := abs_add_le ((a' - a) * (b' - b)) ((a' - a) * b)
    rw [abs_mul, abs_mul] at t2
    rw [abs_mul a] at t1
    have c1 : |a' - a| * |b' - b| ≤ (u53 * |a|) * (u53 * |b|) := mul_le_mul ha hb (abs_nonneg _) (by positivity)
    have c2 : |a' - a| * |b| ≤ (u53 * |a|) * |b| := mul_le_mul_of_nonneg_right ha (abs_nonneg _)
    have c3 : |a| * |b' - b| ≤ |a| * (u53 * |b|) := mul_le_mul_of_nonneg_left hb (abs_nonneg _)
    have c4 : (u53 * |a|) * (u53 * |b|) ≤ u53 / 10 * (|a| * |b|) := by
      have : u53 * u53 ≤ u53 / 10 := by nlinarith
      calc (u53 * |a|) * (u53 * |b|) = (u53 * u53) * (|a| * |b|) := by ring
        _ ≤ _ := mul_le_mul_of_nonneg_right this P0
    linarith
  have f := fl_err h (a' * b')
  have b2 : |a' * b'| ≤ (11 / 10) * (|a| * |b|) := by
    have : a' * b' = (a' * b' - a * b) + a * b := by ring
    rw [this]
    refine (abs_add_le _ _).trans ?_
    rw [abs_mul a b]
    have : (21 / 10) * u53 * (|a| * |b|) ≤ 1 / 10 * (|a| * |b|) := mul_le_mul_of_nonneg_right (by linarith) P0
    linarith
  have b3 : u53 * |a' * b'| ≤ u53 * ((11 / 10) * (|a| * |b|)) := mul_le_mul_of_nonneg_left b2 u0.le
  have e : fl (a' * b') - a * b = (fl (a' * b') - a' * b') + (a' * b' - a * b) := by ring
  rw [e]
  have := abs_add_le (fl (a' * b') - a' * b') (a' * b' - a * b)
  have uP : 0 ≤ u53 * (|a| * |b|) := by positivity
  linarith

/-- differences of numbers that are off a little -/
theorem sub_err (h : IsRounding fl) {x y x' y' E F : ℝ} (hx : |x' - x| ≤ E) (hy : |y' - y| ≤ F) :
    |fl (x' - y') - (x - y)| ≤ (1 + u53) * (E + F) + u53 * (|x| + |y|) + u53 / 1000 := by
  have u0 := u53_pos
  have f := fl_err h (x' - y')
  have b : |x' - y'| ≤ (E + F) + (|x| + |y|) := by
    have e : x' - y' = (x' - x) - (y' - y) + (x - y) := by ring
    rw [e]
    have t1 := abs_add_le ((x' - x) - (y' - y)) (x - y)
    have t2 := abs_sub (x' - x) (y' - y)
    have t3 := abs_sub x y
    linarith
  have b3 : u53 * |x' - y'| ≤ u53 * ((E + F) + (|x| + |y|)) := mul_le_mul_of_nonneg_left b u0.le
  have e : fl (x' - y') - (x - y) = (fl (x' - y') - (x' - y')) + ((x' - x) - (y' - y)) := by ring
  rw [e]
  have t1 := abs_add_le (fl (x' - y') - (x' - y')) ((x' - x) - (y' - y))
  have t2 := abs_sub (x' - x) (y' - y)
  linarith

/-- Cauchy and Schwarz -/
theorem cross_le (a b c d : ℝ) : |a| * |d| + |b| * |c| ≤ √(a ^ 2 + b ^ 2) * √(c ^ 2 + d ^ 2) := by
  rw [← Real.sqrt_mul (by positivity)]
  apply Real.le_sqrt_of_sq_le
  have : (|a| * |d| + |b| * |c|) ^ 2 + (|a| * |c| - |b| * |d|) ^ 2 = (a ^ 2 + b ^ 2) * (c ^ 2 + d ^ 2) := by
    have h1 := sq_abs a
    have h2 := sq_abs b
    have h3 := sq_abs c
    have h4 := sq_abs d
    rw [← h1, ← h2, ← h3, ← h4]
    ring
  nlinarith [sq_nonneg (|a| * |c| - |b| * |d|)]

/-- determinants of vectors that are off a little -/
theorem det_err (h : IsRounding fl) {u u' v v' : RPoint} (hux : |u'.x - u.x| ≤ u53 * |u.x|) (huy : |u'.y - u.y| ≤ u53 * |u.y|)
    (hvx : |v'.x - v.x| ≤ u53 * |v.x|) (hvy : |v'.y - v.y| ≤ u53 * |v.y|) :
    |det fl u' v' - (u.x * v.y - u.y * v.x)| ≤ 6 * u53 * (√(u.x ^ 2 + u.y ^ 2) * √(v.x ^ 2 + v.y ^ 2)) + u53 / 200 := by
  have u0 := u53_pos
  have u1 := u53_small
  have s := sub_err h (mul_err h hux hvy) (mul_err h huy hvx)
  rw [abs_mul, abs_mul] at s
  have c := cross_le u.x u.y v.x v.y
  have c0 : 0 ≤ |u.x| * |v.y| + |u.y| * |v.x| := by positivity
  refine s.trans ?_
  generalize √(u.x ^ 2 + u.y ^ 2) * √(v.x ^ 2 + v.y ^ 2) = Q at *
  set X := |u.x| * |v.y|
  set Y := |u.y| * |v.x|
  have k1 : u53 * (X + Y) ≤ u53 * Q := mul_le_mul_of_nonneg_left c u0.le
  have k2 : 0 ≤ u53 * (X + Y) := by positivity
  have e : (1 + u53) * (4 * u53 * X + u53 / 1000 + (4 * u53 * Y + u53 / 1000)) + u53 * (X + Y) + u53 / 1000 =
      5 * (u53 * (X + Y)) + 3 * (u53 / 1000) + u53 * (4 * (u53 * (X + Y)) + 2 * (u53 / 1000)) := by ring
  rw [e]
  have k3 : u53 * (4 * (u53 * (X + Y)) + 2 * (u53 / 1000)) ≤ 1 / 10 * (4 * (u53 * (X + Y)) + 2 * (u53 / 1000)) :=
    mul_le_mul_of_nonneg_right (by linarith) (by positivity)
  linarith

theorem diff_err (h : IsRounding fl) {a b : ℝ} (ha : IsDouble a) (hb : IsDouble b) : |fl (a - b) - (a - b)| ≤ u53 * |a - b| := by
  have := h.err_sum ha hb.neg (B := |a - b|) (by rw [← sub_eq_add_neg])
  rwa [← sub_eq_add_neg] at this

/-- quotients of numbers that are off a little -/
theorem div_err (h : IsRounding fl) {N N' D D' E q : ℝ} (hD : D ≠ 0) (hq : q * D = N) (hN : |N' - N| ≤ E)
    (hDD : |D' - D| ≤ |D| / 10) :
    |fl (N' / D') - q| ≤ (12 / 10) * (E + |q| * |D' - D|) / |D| + u53 * (|q| + 1 / 1000) := by
  have u0 := u53_pos
  have u1 := u53_small
  have D0 : 0 < |D| := abs_pos.2 hD
  have lower : 9 / 10 * |D| ≤ |D'| := by
    have := abs_sub_abs_le_abs_sub D D'
    rw [abs_sub_comm] at this
    linarith
  have D0' : 0 < |D'| := by linarith
  have Dne : D' ≠ 0 := abs_pos.1 D0'
  have e : N' / D' - q = ((N' - N) - q * (D' - D)) / D' := by
    rw [← hq]; field_simp; ring
  have E0 : 0 ≤ E + |q| * |D' - D| := add_nonneg ((abs_nonneg _).trans hN) (by positivity)
  have b1 : |N' / D' - q| ≤ (E + |q| * |D' - D|) / (9 / 10 * |D|) := by
    rw [e, abs_div]
    have t := abs_sub (N' - N) (q * (D' - D))
    rw [abs_mul q] at t
    exact div_le_div₀ E0 (by linarith) (by positivity) lower
  have b2 : (E + |q| * |D' - D|) / (9 / 10 * |D|) = 10 / 9 * ((E + |q| * |D' - D|) / |D|) := by
    field_simp
  have f := fl_err h (N' / D')
  set R := (E + |q| * |D' - D|) / |D|
  have R0 : 0 ≤ R := div_nonneg E0 D0.le
  rw [b2] at b1
  have b3 : |N' / D'| ≤ 10 / 9 * R + |q| := by
    have : N' / D' = (N' / D' - q) + q := by ring
    rw [this]
    exact (abs_add_le _ _).trans (by linarith)
  have b4 : u53 * |N' / D'| ≤ u53 * (10 / 9 * R + |q|) := mul_le_mul_of_nonneg_left b3 u0.le
  have e2 : fl (N' / D') - q = (fl (N' / D') - N' / D') + (N' / D' - q) := by ring
  rw [e2]
  have t := abs_add_le (fl (N' / D') - N' / D') (N' / D' - q)
  have b5 : u53 * (10 / 9 * R) ≤ 1 / 20 * R := by
    have := mul_le_mul_of_nonneg_right (show u53 * (10 / 9) ≤ 1 / 20 by linarith) R0
    linarith
  have b6 : (12 / 10) * (E + |q| * |D' - D|) / |D| = 12 / 10 * R := by rw [mul_div_assoc]
  rw [b6]
  linarith

/-- products of which one factor is off by a given amount -/
theorem mul_err' (h : IsRounding fl) {a a' b b' F B : ℝ} (ha : |a' - a| ≤ u53 * |a|) (hb : |b' - b| ≤ F) (hB : |b| ≤ B)
    (hF : F ≤ B / 10) : |fl (a' * b') - a * b| ≤ |a| * (F + 12 / 5 * u53 * B) + u53 / 1000 := by
  have u0 := u53_pos
  have u1 := u53_small
  have a0 := abs_nonneg a
  have B0 : 0 ≤ B := (abs_nonneg b).trans hB
  have b1 : |b'| ≤ 11 / 10 * B := by
    have : b' = (b' - b) + b := by ring
    rw [this]
    exact (abs_add_le _ _).trans (by linarith)
  have a1 : |a'| ≤ 12 / 11 * |a| := by
    have : a' = (a' - a) + a := by ring
    rw [this]
    refine (abs_add_le _ _).trans ?_
    have : u53 * |a| ≤ 1 / 11 * |a| := mul_le_mul_of_nonneg_right (by linarith) a0
    linarith
  have p : |a' * b'| ≤ 12 / 10 * (|a| * B) := by
    rw [abs_mul]
    refine (mul_le_mul a1 b1 (abs_nonneg _) (by positivity)).trans (le_of_eq (by ring))
  have f := fl_err h (a' * b')
  have f2 : u53 * |a' * b'| ≤ u53 * (12 / 10 * (|a| * B)) := mul_le_mul_of_nonneg_left p u0.le
  have d : |a' * b' - a * b| ≤ u53 * |a| * (11 / 10 * B) + |a| * F := by
    have e : a' * b' - a * b = (a' - a) * b' + a * (b' - b) := by ring
    rw [e]
    refine (abs_add_le _ _).trans ?_
    rw [abs_mul, abs_mul]
    exact add_le_add (mul_le_mul ha b1 (abs_nonneg _) (by positivity)) (mul_le_mul_of_nonneg_left hb a0)
  have e : fl (a' * b') - a * b = (fl (a' * b') - a' * b') + (a' * b' - a * b) := by ring
  rw [e]
  have t := abs_add_le (fl (a' * b') - a' * b') (a' * b' - a * b)
  have : 0 ≤ u53 * (|a| * B) := by positivity
  linarith

/-- sums of numbers that are off a little -/
theorem add_err (h : IsRounding fl) {x y x' y' E F : ℝ} (hx : |x' - x| ≤ E) (hy : |y' - y| ≤ F) :
    |fl (x' + y') - (x + y)| ≤ (1 + u53) * (E + F) + u53 * (|x| + |y|) + u53 / 1000 := by
  have := sub_err h (y := -y) (y' := -y') hx (F := F) (by rw [← abs_neg]; convert hy using 2; ring)
  rwa [sub_neg_eq_add, sub_neg_eq_add, abs_neg] at this

/-- lengths in space of vectors that are off a little -/
theorem norm_err (h : IsRounding fl) {w w' : RPoint} (hx : |w'.x - w.x| ≤ u53 * |w.x|) (hy : |w'.y - w.y| ≤ u53 * |w.y|)
    (hz : |w'.z - w.z| ≤ u53 * |w.z|) (hl : 1 / 64 ≤ √(w.x ^ 2 + w.y ^ 2 + w.z ^ 2)) :
    |fl √(dot fl w' w') - √(w.x ^ 2 + w.y ^ 2 + w.z ^ 2)| ≤ 38 * u53 * √(w.x ^ 2 + w.y ^ 2 + w.z ^ 2) := by
  have u0 := u53_pos
  have u1 := u53_small
  have a := add_err h (add_err h (mul_err h hx hx) (mul_err h hy hy)) (mul_err h hz hz)
  have sq : ∀ t : ℝ, |t| * |t| = t ^ 2 := fun t => by rw [← abs_mul, ← pow_two, abs_of_nonneg (sq_nonneg t)]
  have sq' : ∀ t : ℝ, |t * t| = t ^ 2 := fun t => by rw [abs_mul, sq]
  rw [sq, sq, sq, sq', sq', sq', show w.x * w.x + w.y * w.y = w.x ^ 2 + w.y ^ 2 by ring,
    abs_of_nonneg (show (0 : ℝ) ≤ w.x ^ 2 + w.y ^ 2 by positivity), show w.z * w.z = w.z ^ 2 by ring] at a
  change |dot fl w' w' - _| ≤ _ at a
  set L := √(w.x ^ 2 + w.y ^ 2 + w.z ^ 2) with hL
  have LS : L ^ 2 = w.x ^ 2 + w.y ^ 2 + w.z ^ 2 := Real.sq_sqrt (by positivity)
  rw [← LS] at a
  have X0 := sq_nonneg w.x
  have Y0 := sq_nonneg w.y
  have Z0 := sq_nonneg w.z
  have L0 : 0 < L := by linarith
  have k : |dot fl w' w' - L ^ 2| ≤ u53 * (36 * L ^ 2) := by
    refine a.trans ?_
    have L2 : 1 / 4096 ≤ L ^ 2 := by nlinarith
    generalize w.x ^ 2 = X at *
    generalize w.y ^ 2 = Y at *
    generalize w.z ^ 2 = Z at *
    rw [LS] at L2 ⊢
    have e : (1 + u53) * ((1 + u53) * (4 * u53 * X + u53 / 1000 + (4 * u53 * Y + u53 / 1000)) + u53 * (X + Y) + u53 / 1000 +
        (4 * u53 * Z + u53 / 1000)) + u53 * (X + Y + Z) + u53 / 1000 =
        u53 * ((1 + u53) * ((1 + u53) * (4 * X + 4 * Y + 2 / 1000) + (X + Y) + 4 * Z + 2 / 1000) + (X + Y + Z) + 1 / 1000) := by
      ring
    rw [e]
    refine mul_le_mul_of_nonneg_left ?_ u0.le
    have c1 : (1 + u53) * (4 * X + 4 * Y + 2 / 1000) ≤ 11 / 10 * (4 * X + 4 * Y + 2 / 1000) :=
      mul_le_mul_of_nonneg_right (by linarith) (by positivity)
    have c2 : (1 + u53) * ((1 + u53) * (4 * X + 4 * Y + 2 / 1000) + (X + Y) + 4 * Z + 2 / 1000) ≤
        11 / 10 * (11 / 10 * (4 * X + 4 * Y + 2 / 1000) + (X + Y) + 4 * Z + 2 / 1000) :=
      mul_le_mul (by linarith) (by linarith) (by positivity) (by norm_num)
    linarith
  have r : |√(dot fl w' w') - L| ≤ u53 * (36 * L) := by
    have s0 := Real.sqrt_nonneg (dot fl w' w')
    have dpos : 0 ≤ dot fl w' w' := by
      have := (abs_le.1 k).1
      nlinarith [sq_nonneg L]
    have e : dot fl w' w' - L ^ 2 = (√(dot fl w' w') - L) * (√(dot fl w' w') + L) := by
      have := Real.sq_sqrt dpos
      nlinarith
    rw [e, abs_mul, abs_of_pos (show 0 < √(dot fl w' w') + L by linarith)] at k
    have : |√(dot fl w' w') - L| * L ≤ u53 * (36 * L) * L := by
      refine le_trans (mul_le_mul_of_nonneg_left (by linarith) (abs_nonneg _)) (k.trans (le_of_eq (by ring)))
    exact le_of_mul_le_mul_right this L0
  have f := fl_err h √(dot fl w' w')
  rw [abs_of_nonneg (Real.sqrt_nonneg _)] at f
  have r' := abs_le.1 r
  have b : √(dot fl w' w') ≤ 11 / 10 * L := by nlinarith
  have t := abs_sub_le (fl √(dot fl w' w')) √(dot fl w' w') L
  have m := mul_le_mul_of_nonneg_left b u0.le
  have n : u53 / 1000 ≤ u53 * (64 / 1000 * L) := by
    have := mul_le_mul_of_nonneg_left (show (1 : ℝ) / 1000 ≤ 64 / 1000 * L by linarith) u0.le
    linarith
  have : 0 ≤ u53 * L := by positivity
  linarith

end F2C.Dbl
