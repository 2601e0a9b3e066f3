import Verif.Lemmas.IeeeGraph

/-! # C137 and C138: costs of edges and hash values of points in double precision -/

namespace F2C.Props

open Ieee Ieee.Flt Dbl

variable {fl : ℝ → ℝ}

/-! ## C137 -/

/-- C137: between points with coordinates of at most `M` the cost is the distance in whole millimetres, up to one millimetre
too little, and up to the error of the calculation, `M` times 2^-36, too much or too little.  The heights do not matter.
Partial: the coordinates are limited, and without the error the claim is wrong (`C137_too_much`). -/
theorem C137_cost_partial (h : IsRounding fl) (M : ℝ) (h1 : 1 ≤ M) (h2 : M ≤ 2 ^ 51) (p q : RPoint) (z z' : Flt)
    (px : |p.x| ≤ M) (py : |p.y| ≤ M) (qx : |q.x| ≤ M) (qy : |q.y| ≤ M) :
    ∃ c : ℤ, edgeCost fl ⟨fin p.x, fin p.y, z⟩ ⟨fin q.x, fin q.y, z'⟩ = .ok c ∧ 0 ≤ c ∧
      1000 * pdist p q - 1 - M / 2 ^ 36 < c ∧ (c : ℝ) ≤ 1000 * pdist p q + M / 2 ^ 36 := by
  obtain ⟨P, e, P0, hP⟩ := scaled_close h (z := z) (z' := z') (px.trans h2) (py.trans h2) (qx.trans h2) (qy.trans h2)
  have d1 : pdist p q ≤ 3 * M := by
    unfold pdist
    refine Real.sqrt_le_iff.2 ⟨by linarith, ?_⟩
    rw [abs_le] at px py qx qy
    have a1 : (p.x - q.x) ^ 2 ≤ (2 * M) ^ 2 := sq_le_sq' (by linarith [px.1, qx.2]) (by linarith [px.2, qx.1])
    have a2 : (p.y - q.y) ^ 2 ≤ (2 * M) ^ 2 := sq_le_sq' (by linarith [py.1, qy.2]) (by linarith [py.2, qy.1])
    nlinarith
  have d0 : 0 ≤ pdist p q := pdist_nonneg _ _
  have hη : (2 : ℝ) ^ (-317 : ℤ) ≤ 1 / 2 ^ 60 := by
    have : (1 : ℝ) / 2 ^ 60 = 2 ^ (-60 : ℤ) := by norm_num
    rw [this]
    exact zpow_le_zpow_right₀ (by norm_num) (by norm_num)
  have hη0 := two_zpow_pos (-317)
  obtain ⟨l1, l2⟩ := hP
  generalize (2 : ℝ) ^ (-317 : ℤ) = η at *
  have up : P ≤ 1000 * pdist p q + M / 2 ^ 36 := by
    norm_num at *
    linarith
  have down : 1000 * pdist p q - M / 2 ^ 36 ≤ P := by
    norm_num at *
    linarith
  have small : P < 2 ^ 63 := by
    norm_num at *
    linarith
  have fl0 : 0 ≤ ⌊P⌋ := Int.floor_nonneg.2 P0
  have fl1 : ⌊P⌋ < 2 ^ 63 := Int.floor_lt.2 (by norm_num at small ⊢; exact small)
  refine ⟨⌊P⌋, ?_, fl0, by linarith [Int.lt_floor_add_one P], (Int.floor_le P).trans up⟩
  unfold edgeCost
  rw [e]
  simp only [toInt64, if_pos P0]
  rw [if_pos ⟨le_trans (by norm_num) fl0, fl1⟩]

/-- C137: the cost is the same in both directions.  The rounding has to treat numbers and their negatives alike, as
that of the hardware does. -/
theorem C137_symmetric (hodd : ∀ x, fl (-x) = -fl x) (a b : Point Flt) : edgeCost fl a b = edgeCost fl b a := by
  have hr : ∀ x, rnd fl (-x) = Flt.neg (rnd fl x) := by
    intro x
    have hh : (0 : ℝ) < huge := lt_of_le_of_lt (by linarith [big_pos]) big_huge
    unfold rnd
    by_cases g1 : huge ≤ x
    · rw [if_pos g1, if_neg (by linarith), if_pos (by linarith)]
      rfl
    · rw [if_neg g1]
      by_cases g2 : x ≤ -huge
      · rw [if_pos g2, if_pos (by linarith)]
        rfl
      · rw [if_neg g2, if_neg (by linarith), if_neg (fun g => g1 (by linarith)), hodd]
        rfl
  have hs : ∀ u v : Flt, sub fl u v = Flt.neg (sub fl v u) := by
    intro u v
    cases u <;> cases v <;> try rfl
    rw [sub_fin, sub_fin, ← hr, neg_sub]
  have hm : ∀ u : Flt, mul fl (Flt.neg u) (Flt.neg u) = mul fl u u := by
    intro u
    cases u <;> try rfl
    simp only [Flt.neg, mul_fin, neg_mul_neg]
  unfold edgeCost distance
  simp only
  rw [hs a.x, hs a.y, hm, hm]

/-- C137: points that are further apart than 2^54 metres in one coordinate, or that have a coordinate which is infinite or no
number: the conversion is undefined, whatever the other coordinates. -/
theorem C137_undefined (h : IsRounding fl) (a b : Point Flt) :
    ((∀ u v, a.x = fin u → b.x = fin v → 2 ^ 54 ≤ |u - v|) ∨ ∀ u v, a.y = fin u → b.y = fin v → 2 ^ 54 ≤ |u - v|) →
    (edgeCost fl a b).isUb = true := by
  have key : ∀ s t : Flt, (∀ u v, s = fin u → t = fin v → 2 ^ 54 ≤ |u - v|) → ∀ x, sub fl s t = fin x → 2 ^ 54 ≤ |x| := by
    intro s t hst x e
    obtain ⟨u, w, e1, e2, rfl⟩ := add_eq_fin e
    cases t <;> simp only [Flt.neg, reduceCtorEq] at e2
    cases e2
    have h1 := hst _ _ e1 rfl
    rcases le_abs.1 h1 with g | g
    · exact (h.ge (isDouble_pow 54) g).trans (le_abs_self _)
    · have := h.le (isDouble_pow 54).neg (x := u - _) (by linarith)
      exact le_abs.2 (.inr (by rw [sub_eq_add_neg] at this; linarith))
  rintro (g | g)
  · exact cost_ub h (.inl (key _ _ g))
  · exact cost_ub h (.inr (key _ _ g))

/-- C137 is false without the error of the calculation: these two points are less than 9 millimetres apart, but the cost is 9. -/
theorem C137_too_much : ∃ p q : RPoint, IsDouble p.x ∧ IsDouble q.x ∧ 1000 * pdist p q < 9 ∧
    ∀ fl, IsRounding fl → edgeCost fl (ofPoint p) (ofPoint q) = .ok 9 := by
  have dq : IsDouble ((5188146770730811 : ℤ) * (2 : ℝ) ^ (-59 : ℤ)) :=
    ⟨5188146770730811, -59, by norm_num, by norm_num, rfl⟩
  refine ⟨⟨0, 0, 0⟩, ⟨(5188146770730811 : ℤ) * (2 : ℝ) ^ (-59 : ℤ), 0, 0⟩, isDouble_zero, dq, ?_, ?_⟩
  · unfold pdist
    rw [zero_sub, sub_zero, neg_sq, zero_pow two_ne_zero, add_zero, Real.sqrt_sq (by positivity)]
    norm_num
  · intro fl h
    have z0 := fl_zero h
    have e1 : fl (0 - (5188146770730811 : ℤ) * (2 : ℝ) ^ (-59 : ℤ)) = -((5188146770730811 : ℤ) * (2 : ℝ) ^ (-59 : ℤ)) := by
      rw [zero_sub]
      exact h.self dq.neg
    have e2 := h.eq_of_close (-((5188146770730811 : ℤ) * (2 : ℝ) ^ (-59 : ℤ)) * -((5188146770730811 : ℤ) * (2 : ℝ) ^ (-59 : ℤ)))
      5976745079881894 (-66) (by norm_num) (by norm_num) (by norm_num) (by rw [abs_lt]; norm_num)
    have e3 : fl √((5976745079881894 : ℤ) * (2 : ℝ) ^ (-66 : ℤ)) = (5188146770730811 : ℤ) * (2 : ℝ) ^ (-59 : ℤ) := by
      refine h.eq_of_close _ _ _ (by norm_num) (by norm_num) (by norm_num) ?_
      rw [abs_lt]
      constructor
      · have : (5188146770730811 : ℤ) * (2 : ℝ) ^ (-59 : ℤ) - (2 : ℝ) ^ (-59 : ℤ) / 2 < √((5976745079881894 : ℤ) * (2 : ℝ) ^ (-66 : ℤ)) :=
          Real.lt_sqrt_of_sq_lt (by norm_num)
        linarith
      · rw [sub_lt_iff_lt_add]
        rw [Real.sqrt_lt' (by positivity)]
        norm_num
    have e4 := h.eq_of_close (1000 * ((5188146770730811 : ℤ) * (2 : ℝ) ^ (-59 : ℤ))) 5066549580791808 (-49) (by norm_num)
      (by norm_num) (by norm_num) (by rw [abs_lt]; norm_num)
    have r : ∀ {x : ℝ}, |x| ≤ 2 ^ 10 → rnd fl x = fin (fl x) := fun hx => (rnd_pow h 10 (by norm_num) hx).1
    simp only [edgeCost, distance, ofPoint, sub_fin]
    rw [r (by rw [abs_le]; norm_num), r (by norm_num), e1, sub_zero, z0, mul_fin, mul_fin, mul_zero,
      r (by rw [abs_le]; norm_num), r (by norm_num), z0, e2, add_fin, add_zero, r (by rw [abs_le]; norm_num),
      h.self ⟨5976745079881894, -66, by norm_num, by norm_num, rfl⟩]
    simp only [Flt.sqrt]
    rw [if_neg (not_lt.2 (by positivity)), e3, mul_fin, r (by rw [abs_le]; norm_num), e4]
    have e9 : ((5066549580791808 : ℤ) : ℝ) * (2 : ℝ) ^ (-49 : ℤ) = ((9 : ℤ) : ℝ) := by norm_num
    rw [e9]
    simp only [toInt64]
    rw [if_pos (by norm_num), Int.floor_intCast, if_pos (by norm_num)]

/-- A rounding that treats numbers and their negatives alike. -/
theorem exists_odd_rounding : ∃ fl, IsRounding fl ∧ ∀ x, fl (-x) = -fl x := by
  have t := toNearest_isRounding
  refine ⟨fun x => if 0 ≤ x then toNearest x else -toNearest (-x), ⟨fun x => ?_, fun x d hd => ?_⟩, fun x => ?_⟩
  · split_ifs
    · exact t.double x
    · exact (t.double (-x)).neg
  · split_ifs
    · exact t.nearest x d hd
    · have := t.nearest (-x) (-d) hd.neg
      rw [abs_sub_comm, abs_sub_comm x d]
      rw [show toNearest (-x) = - -toNearest (-x) by rw [neg_neg]] at this
      rwa [neg_sub_neg, neg_sub_neg] at this
  · dsimp only
    rcases lt_trichotomy x 0 with g | rfl | g
    · rw [if_pos (by linarith), if_neg (by linarith), neg_neg]
    · simp [fl_zero t]
    · rw [if_neg (by linarith), if_pos g.le, neg_neg]

/-- Two points of a field in UTM coordinates, 5 metres apart: a cost from 4999 to 5000 millimetres. -/
example (h : IsRounding fl) : ∃ c : ℤ,
    edgeCost fl ⟨fin 500000, fin 5800000, nan⟩ ⟨fin 500003, fin 5800004, fin 7⟩ = .ok c ∧ (c = 4999 ∨ c = 5000) := by
  obtain ⟨c, e, -, h1, h2⟩ := C137_cost_partial h (2 ^ 23) (by norm_num) (by norm_num) ⟨500000, 5800000, 0⟩
    ⟨500003, 5800004, 0⟩ nan (fin 7) (by rw [abs_le]; norm_num) (by rw [abs_le]; norm_num) (by rw [abs_le]; norm_num)
    (by rw [abs_le]; norm_num)
  have d : pdist ⟨500000, 5800000, 0⟩ ⟨500003, 5800004, 0⟩ = 5 := by
    unfold pdist
    rw [show ((500000 : ℝ) - 500003) ^ 2 + (5800000 - 5800004) ^ 2 = 5 ^ 2 by norm_num, Real.sqrt_sq (by norm_num)]
  rw [d] at h1 h2
  refine ⟨c, e, ?_⟩
  have g1 : ((4998 : ℤ) : ℝ) < c := by norm_num at *; linarith
  have g2 : (c : ℝ) < ((5001 : ℤ) : ℝ) := by norm_num at *; linarith
  have g1 := Int.cast_lt.1 g1
  have g2 := Int.cast_lt.1 g2
  omega

example : ∃ fl, IsRounding fl ∧ ∀ a b, edgeCost fl a b = edgeCost fl b a := by
  obtain ⟨fl, h, ho⟩ := exists_odd_rounding
  exact ⟨fl, h, C137_symmetric ho⟩

example (h : IsRounding fl) : (edgeCost fl ⟨nan, fin 0, fin 0⟩ ⟨fin 3, fin 0, fin 0⟩).isUb = true :=
  C137_undefined h _ _ (.inl (by simp))

example (h : IsRounding fl) : (edgeCost fl ⟨fin 0, fin (2 ^ 60), fin 0⟩ ⟨fin 3, fin 0, pinf⟩).isUb = true :=
  C137_undefined h _ _ (.inr (by
    intro u v e1 e2
    cases e1
    cases e2
    rw [sub_zero, abs_of_pos] <;> norm_num))

/-! ## C138 -/

/-- C138: the hash value is defined for points in the first quadrant that are at most 2^-7 metres high, with an x coordinate of
at most 2^60 and a y coordinate of at most 10^9, and up to 2^13 it is x + 10^10 y + 10^20 z.  Partial: for other points see the theorems below. -/
theorem C138_defined_partial (h : IsRounding fl) (p : RPoint) (x0 : 0 ≤ p.x) (x1 : p.x ≤ 2 ^ 60) (y0 : 0 ≤ p.y)
    (y1 : p.y ≤ 10 ^ 9) (z0 : 0 ≤ p.z) (z1 : p.z ≤ 1 / 2 ^ 7) : ∃ n : ℕ, Ieee.hashPoint fl (ofPoint p) = .ok n ∧
      |(n : ℝ) - (p.x + p.y * 10 ^ 10 + p.z * 10 ^ 20)| ≤ 2 ^ 13 := by
  have r : ∀ {x d : ℝ}, IsDouble d → d ≤ 2 ^ 64 → 0 ≤ x → x ≤ d → rnd fl x = fin (fl x) ∧ 0 ≤ fl x ∧ fl x ≤ d := by
    intro x d hd d2 g0 g1
    exact ⟨(rnd_pow h 64 (by norm_num) (by rw [abs_of_nonneg g0]; exact g1.trans d2)).1, fl_nonneg h g0, h.le hd g1⟩
  obtain ⟨e1, a0, a1⟩ := r (x := p.y * 10 ^ 10) (d := 2 ^ 63 + 2 ^ 61) ⟨5, 61, by norm_num, by norm_num, by norm_num⟩
    (by norm_num) (by positivity) (by norm_num at *; linarith)
  obtain ⟨e2, b0, b1⟩ := r (x := p.z * 10 ^ 20) (d := 2 ^ 60) (isDouble_pow 60) (by norm_num) (by positivity)
    (by norm_num at *; linarith)
  obtain ⟨e3, c0, c1⟩ := r (x := p.x + fl (p.y * 10 ^ 10)) (d := 2 ^ 63 + 2 ^ 62) ⟨3, 62, by norm_num, by norm_num, by norm_num⟩
    (by norm_num) (by positivity) (by norm_num at *; linarith)
  obtain ⟨e4, d0, d1⟩ := r (x := fl (p.x + fl (p.y * 10 ^ 10)) + fl (p.z * 10 ^ 20)) (d := 2 ^ 63 + 2 ^ 62 + 2 ^ 61)
    ⟨7, 61, by norm_num, by norm_num, by norm_num⟩ (by norm_num) (by positivity) (by norm_num at *; linarith)
  refine ⟨⌊fl (fl (p.x + fl (p.y * 10 ^ 10)) + fl (p.z * 10 ^ 20))⌋₊, ?_, ?_⟩
  · simp only [Ieee.hashPoint, ofPoint]
    rw [mul_fin, mul_fin, e1, e2, add_fin, e3, add_fin, e4]
    simp only [toSize]
    rw [if_pos ⟨by linarith, lt_of_le_of_lt d1 (by norm_num)⟩]
  · have er : ∀ {x : ℝ}, 0 ≤ x → x ≤ 2 ^ 64 → |x - fl x| ≤ 2 ^ 10 := fun {x} g0 g1 => by
      refine (h.abs_error x 11 (by norm_num) ?_).trans (by norm_num)
      rw [abs_of_nonneg g0]
      exact g1.trans (by norm_num)
    have k1 := er (x := p.y * 10 ^ 10) (by positivity) (by norm_num at *; linarith)
    have k2 := er (x := p.z * 10 ^ 20) (by positivity) (by norm_num at *; linarith)
    have k3 := er (x := p.x + fl (p.y * 10 ^ 10)) (by positivity) (by norm_num at *; linarith)
    have k4 := er (x := fl (p.x + fl (p.y * 10 ^ 10)) + fl (p.z * 10 ^ 20)) (by positivity) (by norm_num at *; linarith)
    have f1 := Nat.floor_le d0
    have f2 := Nat.lt_floor_add_one (fl (fl (p.x + fl (p.y * 10 ^ 10)) + fl (p.z * 10 ^ 20)))
    rw [abs_le] at *
    constructor <;> norm_num at * <;> linarith [k1.1, k1.2, k2.1, k2.2, k3.1, k3.2, k4.1, k4.2]

/-- C138: a point that is a fifth of a metre high or more, with x and y not negative, has no hash value: undefined behaviour. -/
theorem C138_high (h : IsRounding fl) (p : RPoint) (x0 : 0 ≤ p.x) (y0 : 0 ≤ p.y) (z0 : 1 / 5 ≤ p.z) :
    (Ieee.hashPoint fl (ofPoint p)).isUb = true := by
  refine toSize_ub (.inl ?_)
  have d0 := isDouble_zero
  refine AtLeast.add h (s := 0) (t := 2 ^ 64) (AtLeast.add h (s := 0) (t := 0) ?_ ?_ d0 (by simp)) ?_ (isDouble_pow 64) (by simp)
  · intro x e
    cases e
    exact x0
  · exact AtLeast.rnd h d0 (mul_nonneg y0 (by positivity))
  · exact AtLeast.rnd h (isDouble_pow 64) (by norm_num at *; linarith)

/-- C138: neither has a point a metre or more south of the origin of the coordinates, unless it is above the plane or further
than 10^9 metres east. -/
theorem C138_south (h : IsRounding fl) (p : RPoint) (x0 : p.x ≤ 10 ^ 9) (y0 : p.y ≤ -1) (z0 : p.z ≤ 0) :
    (Ieee.hashPoint fl (ofPoint p)).isUb = true := by
  refine toSize_ub (.inr ?_)
  have d10 : IsDouble (-10 ^ 10) := ⟨-10 ^ 10, 0, by norm_num, by norm_num, by norm_num⟩
  have d1 : IsDouble (-1) := ⟨-1, 0, by norm_num, by norm_num, by norm_num⟩
  refine AtMost.add h (s := -1) (t := 0) (AtMost.add h (s := 10 ^ 9) (t := -10 ^ 10) ?_ ?_ d1 (by norm_num)) ?_ d1 (by simp)
  · intro x e
    cases e
    exact x0
  · exact AtMost.rnd h d10 (by linarith)
  · exact AtMost.rnd h isDouble_zero (mul_nonpos_of_nonpos_of_nonneg z0 (by positivity))

/-- C138: points less than a metre west of the origin all have the hash value 0, though the number converted is negative. -/
theorem C138_west (h : IsRounding fl) (x : ℝ) (hx : IsDouble x) (x0 : -1 < x) (x1 : x < 0) :
    Ieee.hashPoint fl (ofPoint ⟨x, 0, 0⟩) = .ok 0 := by
  have z0 : rnd fl 0 = fin 0 := by rw [(rnd_pow h 0 (by norm_num) (by simp)).1, fl_zero h]
  have ex : rnd fl x = fin x := by
    rw [(rnd_pow h 0 (by norm_num) (by rw [abs_le]; constructor <;> linarith)).1, h.self hx]
  have e : Ieee.hashPoint fl (ofPoint ⟨x, 0, 0⟩) = toSize (fin x) := by
    simp only [Ieee.hashPoint, ofPoint, mul_fin, add_fin, zero_mul, z0, add_zero, ex]
  rw [e]
  show (if -1 < x ∧ x < 2 ^ 64 then _ else _) = _
  rw [if_pos ⟨x0, x1.trans (by positivity)⟩, Nat.floor_of_nonpos x1.le]

example : Ieee.hashPoint toNearest (ofPoint ⟨-(1 / 4), 0, 0⟩) = .ok 0 :=
  C138_west toNearest_isRounding _ ⟨-1, -2, by norm_num, by norm_num, by norm_num⟩ (by norm_num) (by norm_num)

/-- C138: nor has a point with a coordinate that is infinite or no number. -/
theorem C138_no_number (p : Point Flt) (hp : (∀ u, p.x ≠ fin u) ∨ (∀ u, p.y ≠ fin u) ∨ ∀ u, p.z ≠ fin u) :
    (Ieee.hashPoint fl p).isUb = true := by
  refine toSize_ub (.inl fun x e => ?_)
  exfalso
  obtain ⟨u, v, e1, e2, -⟩ := add_eq_fin e
  obtain ⟨s, t, e3, e4, -⟩ := add_eq_fin e1
  obtain ⟨a, b, e5, -⟩ := mul_eq_fin e2
  obtain ⟨c, d, e6, -⟩ := mul_eq_fin e4
  rcases hp with g | g | g
  · exact g _ e3
  · exact g _ e6
  · exact g _ e5

/-- C138 is false: points of a field in UTM coordinates that are a metre apart, and so do not compare equal, have the same hash
value. -/
theorem C138_same_value : ∃ p q : RPoint, 1 ≤ pdist p q ∧ ∀ fl, IsRounding fl →
    Ieee.hashPoint fl (ofPoint p) = .ok 58000000000500000 ∧ Ieee.hashPoint fl (ofPoint q) = .ok 58000000000500000 := by
  have key : ∀ fl, IsRounding fl → ∀ x : ℝ, |x| < 4 →
      Ieee.hashPoint fl (ofPoint ⟨500000 + x, 5800000, 0⟩) = .ok 58000000000500000 := by
    intro fl h x hx
    have z0 := fl_zero h
    rw [abs_lt] at hx
    have e1 : fl (5800000 * 10 ^ 10) = 5800000 * 10 ^ 10 :=
      h.self ⟨7250000000000000, 3, by norm_num, by norm_num, by norm_num⟩
    have e2 := h.eq_of_close (500000 + x + 5800000 * 10 ^ 10) 7250000000062500 3 (by norm_num) (by norm_num) (by norm_num)
      (by rw [abs_lt]; constructor <;> norm_num <;> linarith [hx.1, hx.2])
    have r : ∀ {x : ℝ}, |x| ≤ 2 ^ 64 → rnd fl x = fin (fl x) := fun hx => (rnd_pow h 64 (by norm_num) hx).1
    have e9 : ((7250000000062500 : ℤ) : ℝ) * (2 : ℝ) ^ (3 : ℤ) = ((58000000000500000 : ℕ) : ℝ) := by norm_num
    have e3 : fl ((58000000000500000 : ℕ) : ℝ) = ((58000000000500000 : ℕ) : ℝ) := by
      rw [← e9]
      exact h.self ⟨7250000000062500, 3, by norm_num, by norm_num, rfl⟩
    simp only [Ieee.hashPoint, ofPoint]
    rw [mul_fin, mul_fin, zero_mul, r (by rw [abs_le]; norm_num), r (by norm_num), e1, z0, add_fin,
      r (by rw [abs_le]; constructor <;> norm_num <;> linarith [hx.1, hx.2]), e2, e9, add_fin, add_zero,
      r (by rw [abs_le]; norm_num), e3]
    simp only [toSize]
    rw [if_pos (by norm_num), Nat.floor_natCast]
  refine ⟨⟨500000 + 0, 5800000, 0⟩, ⟨500000 + 1, 5800000, 0⟩, ?_, fun fl h => ⟨key fl h 0 (by norm_num), key fl h 1 (by norm_num)⟩⟩
  unfold pdist
  rw [Real.le_sqrt' one_pos]
  norm_num

example (h : IsRounding fl) : ∃ n, Ieee.hashPoint fl (ofPoint ⟨500000, 5800000, 0⟩) = .ok n :=
  (C138_defined_partial h _ (by norm_num) (by norm_num) (by norm_num) (by norm_num) le_rfl (by norm_num)).imp
    fun _ hn => hn.1

example (h : IsRounding fl) : (Ieee.hashPoint fl (ofPoint ⟨10, 20, 1⟩)).isUb = true :=
  C138_high h _ (by norm_num) (by norm_num) (by norm_num)

example (h : IsRounding fl) : (Ieee.hashPoint fl (ofPoint ⟨10, -20, 0⟩)).isUb = true :=
  C138_south h _ (by norm_num) (by norm_num) le_rfl

example : (Ieee.hashPoint fl ⟨fin 0, nan, fin 0⟩).isUb = true := C138_no_number _ (.inr (.inl (by simp)))

end F2C.Props
