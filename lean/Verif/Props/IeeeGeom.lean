import Verif.Lemmas.IeeeGeom

/-! # C136: the closest point of a segment in double precision -/

namespace F2C.Props

open Ieee Ieee.Flt Dbl SG IeeeGeo

variable {fl : ℝ → ℝ}

/-- C136: for all segments, however short, and all points with coordinates of at most `M`, the result is a point with numbers
as coordinates, on the segment and nearest to the given point up to 2^-44 times `M`.  Partial: both ends have the same height,
and `M` is neither extremely small nor extremely large (`C136_overflow`); without the error the claim is wrong
(`C136_off_segment`). -/
theorem C136_nearest_partial (h : IsRounding fl) (M : ℝ) (h1 : (2 : ℝ) ^ (-400 : ℤ) ≤ M) (h2 : M ≤ 2 ^ 400) (p s e : RPoint)
    (hp : Within M p) (hs : Within M s) (he : Within M e) (hz : s.z = e.z) :
    ∃ q : RPoint, Ieee.closestInSegment fl (ofPoint p) (ofPoint s) (ofPoint e) = ofPoint q ∧ q.z = fl s.z ∧
      (∃ r, OnSegment s e r ∧ pdist q r ≤ M / 2 ^ 48) ∧
      ∀ r, OnSegment s e r → pdist p q ≤ pdist p r + M / 2 ^ 44 := by
  have hM0 : 0 < M := (two_zpow_pos _).trans_le h1
  have wide : ∀ {x : RPoint}, Within M x → Within (2 ^ 400) x := fun hx => ⟨hx.1.trans h2, hx.2.1.trans h2, hx.2.2.trans h2⟩
  obtain ⟨a, b, c, d, ea, eb, ec, ed, τ, hτ, hq⟩ := closest_fin h (wide hp) (wide hs) (wide he) hz
  have da := diff_err h h1 he.1 hs.1
  have db := diff_err h h1 he.2.1 hs.2.1
  have dc := diff_err h h1 hs.1 hp.1
  have dd := diff_err h h1 hs.2.1 hp.2.1
  rw [← ea] at da
  rw [← eb] at db
  rw [← ec] at dc
  rw [← ed] at dd
  have hr := limit_range (div fl (fin (-fl (fl (a * c) + fl (b * d)))) (fin (fl (fl (a * a) + fl (b * b)))))
  rw [← hτ] at hr
  have lx := last_err h h1 da.2 hr.1 hr.2 hs.1
  have ly := last_err h h1 db.2 hr.1 hr.2 hs.2.1
  have scale : ∀ {x y t : ℝ}, 0 ≤ t → t ≤ 1 → |x - y| ≤ 3 * M / 2 ^ 53 → |t * x - t * y| ≤ 3 * M / 2 ^ 53 := by
    intro x y t t0 t1 hxy
    rw [← mul_sub, abs_mul, abs_of_nonneg t0]
    exact (mul_le_of_le_one_left (abs_nonneg _) t1).trans hxy
  refine ⟨_, hq, rfl, ?_, ?_⟩
  · refine ⟨⟨s.x + τ * (e.x - s.x), s.y + τ * (e.y - s.y), 0⟩, ⟨τ, hr.1, hr.2, rfl, rfl⟩, ?_⟩
    refine (pdist_le_coords _ _).trans ?_
    have kx := scale hr.1 hr.2 da.1
    have ky := scale hr.1 hr.2 db.1
    have e48 : M / 2 ^ 48 = 32 * M / 2 ^ 53 := by ring
    have e13 : ∀ n : ℝ, n * M / 2 ^ 53 = n * (M / 2 ^ 53) := fun n => mul_div_assoc _ _ _
    have m0 : 0 ≤ M / 2 ^ 53 := by positivity
    rw [e48]
    simp only [e13] at *
    have gx : |fl (fl (a * τ) + s.x) - (s.x + τ * (e.x - s.x))| ≤ 13 * (M / 2 ^ 53) := by
      rw [abs_le] at *
      constructor <;> linarith [lx.1, lx.2, kx.1, kx.2]
    have gy : |fl (fl (b * τ) + s.y) - (s.y + τ * (e.y - s.y))| ≤ 13 * (M / 2 ^ 53) := by
      rw [abs_le] at *
      constructor <;> linarith [ly.1, ly.2, ky.1, ky.2]
    linarith
  · rintro r ⟨t, t0, t1, rx, ry⟩
    -- the exact problem with the rounded differences
    let p' : RPoint := ⟨s.x - c, s.y - d, 0⟩
    let s' : RPoint := ⟨s.x, s.y, 0⟩
    let e' : RPoint := ⟨s.x + a, s.y + b, 0⟩
    have hc := closestInSegment_coords p' s' e'
    have ep : closeParam p' s' e' =
        Max.max 0 (Min.min 1 (if a * a + b * b = 0 then 1 else -(a * c + b * d) / (a * a + b * b))) := by
      unfold closeParam
      simp [p', s', e', Point.dot, Point.sub]
    have hpar := param_err h h1 da.2 db.2 dc.2 dd.2 _ ep
    simp only at hpar
    rw [← hτ] at hpar
    generalize closeParam p' s' e' = t' at *
    have hmin := closest_min p' s' e' rfl (q := ⟨s.x + t * a, s.y + t * b, 0⟩) ⟨t, t0, t1, by simp [s', e'], by simp [s', e']⟩
    have t1' := pdist_triangle p p' ⟨fl (fl (a * τ) + s.x), fl (fl (b * τ) + s.y), fl s.z⟩
    have t2' := pdist_triangle p' (F2C.closestInSegment p' s' e') ⟨fl (fl (a * τ) + s.x), fl (fl (b * τ) + s.y), fl s.z⟩
    have t3' := pdist_triangle p' p ⟨s.x + t * a, s.y + t * b, 0⟩
    have t4' := pdist_triangle p r ⟨s.x + t * a, s.y + t * b, 0⟩
    have b1 := pdist_le_coords p p'
    have b2 := pdist_le_coords p' p
    have b3 := pdist_le_coords r ⟨s.x + t * a, s.y + t * b, 0⟩
    have b4 := pdist_le_coords (F2C.closestInSegment p' s' e') ⟨fl (fl (a * τ) + s.x), fl (fl (b * τ) + s.y), fl s.z⟩
    rw [hc.1, hc.2.1] at b4
    rw [rx, ry] at b3
    simp only [p', s', e'] at b1 b2 b3 b4
    have kx := scale t0 t1 da.1
    have ky := scale t0 t1 db.1
    have e44 : M / 2 ^ 44 = 512 * M / 2 ^ 53 := by ring
    have e13 : ∀ n : ℝ, n * M / 2 ^ 53 = n * (M / 2 ^ 53) := fun n => mul_div_assoc _ _ _
    have m0 : 0 ≤ M / 2 ^ 53 := by positivity
    rw [e44]
    simp only [e13] at *
    have g1 : |p.x - (s.x - c)| ≤ 3 * (M / 2 ^ 53) := by
      rw [show p.x - (s.x - c) = c - (s.x - p.x) by ring]; exact dc.1
    have g2 : |p.y - (s.y - d)| ≤ 3 * (M / 2 ^ 53) := by
      rw [show p.y - (s.y - d) = d - (s.y - p.y) by ring]; exact dd.1
    have g3 : |s.x + t * (e.x - s.x) - (s.x + t * a)| ≤ 3 * (M / 2 ^ 53) := by
      rw [abs_sub_comm, show s.x + t * a - (s.x + t * (e.x - s.x)) = t * a - t * (e.x - s.x) by ring]; exact kx
    have g4 : |s.y + t * (e.y - s.y) - (s.y + t * b)| ≤ 3 * (M / 2 ^ 53) := by
      rw [abs_sub_comm, show s.y + t * b - (s.y + t * (e.y - s.y)) = t * b - t * (e.y - s.y) by ring]; exact ky
    have g5 : |s.x + t' * (s.x + a - s.x) - fl (fl (a * τ) + s.x)| ≤ 184 * (M / 2 ^ 53) := by
      have := hpar.1
      rw [show s.x + t' * (s.x + a - s.x) - fl (fl (a * τ) + s.x) =
        -((τ - t') * a) - (fl (fl (a * τ) + s.x) - (s.x + τ * a)) by ring]
      rw [abs_le] at *
      constructor <;> linarith [this.1, this.2, lx.1, lx.2]
    have g6 : |s.y + t' * (s.y + b - s.y) - fl (fl (b * τ) + s.y)| ≤ 184 * (M / 2 ^ 53) := by
      have := hpar.2
      rw [show s.y + t' * (s.y + b - s.y) - fl (fl (b * τ) + s.y) =
        -((τ - t') * b) - (fl (fl (b * τ) + s.y) - (s.y + τ * b)) by ring]
      rw [abs_le] at *
      constructor <;> linarith [this.1, this.2, ly.1, ly.2]
    rw [abs_sub_comm] at b2
    rw [abs_sub_comm (s.y - d)] at b2
    linarith

example : (2 : ℝ) ^ (-400 : ℤ) ≤ 8 ∧ (8 : ℝ) ≤ 2 ^ 400 ∧ Within 8 ⟨1, 3, 0⟩ ∧ Within 8 ⟨0, 0, 0⟩ ∧ Within 8 ⟨4, -7, 0⟩ ∧
    IsRounding toNearest := by
  refine ⟨(zpow_le_one_of_nonpos₀ (by norm_num) (by norm_num)).trans (by norm_num),
    le_trans (by norm_num : (8 : ℝ) ≤ 2 ^ 3) (pow_le_pow_right₀ (by norm_num) (by norm_num)), ?_, ?_, ?_, toNearest_isRounding⟩ <;>
  · unfold Within
    norm_num

/-- C136, segments without length: the result is the segment's point, exactly and whatever the given point, which may be
infinite or not a number. -/
theorem C136_same_ends (h : IsRounding fl) (p : Point Flt) (s : RPoint) (hx : IsDouble s.x) (hy : IsDouble s.y)
    (hz : IsDouble s.z) (hs : Within (2 ^ 400) s) :
    Ieee.closestInSegment fl p (ofPoint s) (ofPoint s) = ofPoint s := by
  have z0 : rnd fl 0 = fin 0 := by rw [(rnd_pow h 0 (by norm_num) (by simp)).1, fl_zero h]
  have self : ∀ {x : ℝ}, IsDouble x → |x| ≤ 2 ^ 400 → rnd fl x = fin x := by
    intro x hd hb
    rw [(rnd_pow h 400 (by norm_num) hb).1, h.self hd]
  unfold Ieee.closestInSegment
  simp only [limit_eq]
  generalize limit _ = τ
  simp only [psub, pscale, padd, ofPoint, sub_fin, sub_self, z0, mul_fin, zero_mul, add_fin, zero_add, self hx hs.1,
    self hy hs.2.1, self hz hs.2.2]

example : IsDouble 3 ∧ Within (2 ^ 400) ⟨3, 3, 3⟩ := by
  have : (3 : ℝ) ≤ 2 ^ 400 := le_trans (by norm_num : (3 : ℝ) ≤ 2 ^ 2) (pow_le_pow_right₀ (by norm_num) (by norm_num))
  exact ⟨⟨3, 0, by norm_num, by norm_num, by norm_num⟩, by simpa [Within] using this⟩

/-- C136, what is not a number gets lost: if a coordinate of the given point is not a number, the result is not marked as such
but is the end of the segment, up to rounding. -/
theorem C136_nan_point (h : IsRounding fl) (M : ℝ) (h1 : (2 : ℝ) ^ (-400 : ℤ) ≤ M) (h2 : M ≤ 2 ^ 400) (p : Point Flt)
    (hp : p.x = nan ∨ p.y = nan ∨ p.z = nan) (s e : RPoint) (hs : Within M s) (he : Within M e) :
    ∃ q : RPoint, Ieee.closestInSegment fl p (ofPoint s) (ofPoint e) = ofPoint q ∧ pdist q e ≤ M / 2 ^ 48 := by
  have hM0 : 0 < M := (two_zpow_pos _).trans_le h1
  have fin401 : ∀ {x y : ℝ}, |x| ≤ M → |y| ≤ M → rnd fl (x - y) = fin (fl (x - y)) ∧ |fl (x - y)| ≤ 2 ^ 401 := by
    intro x y hx hy
    refine rnd_pow h 401 (by norm_num) ?_
    have : (2 : ℝ) ^ 401 = 2 ^ 400 + 2 ^ 400 := by rw [pow_succ]; ring
    rw [this]
    exact (abs_sub x y).trans (add_le_add (hx.trans h2) (hy.trans h2))
  obtain ⟨a1, a2⟩ := fin401 he.1 hs.1
  obtain ⟨b1, b2⟩ := fin401 he.2.1 hs.2.1
  obtain ⟨c1, c2⟩ := fin401 he.2.2 hs.2.2
  have hn : ∀ v : Point Flt, pdot fl v (psub fl (ofPoint s) p) = nan := by
    intro v
    unfold pdot psub
    rcases hp with hp | hp | hp <;> simp [hp, Ieee.Flt.sub, neg]
  have e1 : Ieee.closestInSegment fl p (ofPoint s) (ofPoint e) =
      padd fl (pscale fl (psub fl (ofPoint e) (ofPoint s)) (fin 1)) (ofPoint s) := by
    unfold Ieee.closestInSegment
    simp only [hn, limit_eq]
    rfl
  have coord : ∀ a x : ℝ, IsDouble a → |a| ≤ 2 ^ 401 → |x| ≤ M →
      add fl (mul fl (fin a) (fin 1)) (fin x) = fin (fl (a + x)) := by
    intro a x hd ha hx
    have h4 : |a + x| ≤ 2 ^ 402 := by
      have e1 : (2 : ℝ) ^ 402 = 2 ^ 401 + 2 ^ 401 := by rw [pow_succ]; ring
      have e2 : (2 : ℝ) ^ 400 ≤ 2 ^ 401 := pow_le_pow_right₀ (by norm_num) (by norm_num)
      rw [e1]
      exact (abs_add_le _ _).trans (add_le_add ha ((hx.trans h2).trans e2))
    rw [mul_fin, mul_one, (rnd_pow h 401 (by norm_num) ha).1, h.self hd, add_fin, (rnd_pow h 402 (by norm_num) h4).1]
  refine ⟨⟨fl (fl (e.x - s.x) + s.x), fl (fl (e.y - s.y) + s.y), fl (fl (e.z - s.z) + s.z)⟩, ?_, ?_⟩
  · rw [e1]
    simp only [padd, pscale, psub, ofPoint, sub_fin, a1, b1, c1]
    rw [coord _ _ (h.double _) a2 hs.1, coord _ _ (h.double _) b2 hs.2.1, coord _ _ (h.double _) c2 hs.2.2]
  · have step : ∀ x y : ℝ, |x| ≤ M → |y| ≤ M → |fl (fl (x - y) + y) - x| ≤ 13 * M / 2 ^ 53 := by
      intro x y hx hy
      obtain ⟨k1, k2⟩ := diff_err h h1 hx hy
      have k3 := last_err h h1 k2 zero_le_one le_rfl hy
      rw [mul_one, one_mul, h.self (h.double _)] at k3
      have e13 : ∀ n : ℝ, n * M / 2 ^ 53 = n * (M / 2 ^ 53) := fun n => mul_div_assoc _ _ _
      simp only [e13] at *
      rw [abs_le] at *
      constructor <;> linarith [k1.1, k1.2, k3.1, k3.2]
    refine (pdist_le_coords _ _).trans ?_
    have s1 := step _ _ he.1 hs.1
    have s2 := step _ _ he.2.1 hs.2.1
    have e48 : M / 2 ^ 48 = 32 * M / 2 ^ 53 := by ring
    have e13 : ∀ n : ℝ, n * M / 2 ^ 53 = n * (M / 2 ^ 53) := fun n => mul_div_assoc _ _ _
    have m0 : 0 ≤ M / 2 ^ 53 := by positivity
    rw [e48]
    simp only [e13] at *
    linarith

example : (⟨nan, fin 0, fin 0⟩ : Point Flt).x = nan ∧ Within 8 ⟨0, 0, 0⟩ ∧ Within 8 ⟨4, -7, 5⟩ := by
  refine ⟨rfl, ?_, ?_⟩ <;> · unfold Within; norm_num

/-- C136: coordinates of 2^600 overflow, and the farthest point of the segment is returned instead of the closest. -/
theorem C136_overflow (h : IsRounding fl) : ∃ p s e : RPoint, OnSegment s e s ∧ IsDouble p.x ∧ IsDouble e.x ∧
    Ieee.closestInSegment fl (ofPoint p) (ofPoint s) (ofPoint e) = ofPoint e ∧ pdist p e = 2 * pdist p s ∧ 0 < pdist p s := by
  have d600 : IsDouble ((2 : ℝ) ^ 600) := ⟨1, 600, by norm_num, by norm_num, by
    rw [Int.cast_one, one_mul]; exact (zpow_natCast 2 600).symm⟩
  have hB : (0 : ℝ) < 2 ^ 600 := by positivity
  have hBB : huge ≤ (2 : ℝ) ^ 600 * 2 ^ 600 := by
    rw [← pow_add]
    exact (sub_le_self _ (by positivity)).trans (pow_le_pow_right₀ (by norm_num) (by norm_num))
  have z0 : rnd fl 0 = fin 0 := by rw [(rnd_pow h 0 (by norm_num) (by simp)).1, fl_zero h]
  have r600 : rnd fl ((2 : ℝ) ^ 600) = fin (2 ^ 600) := by
    rw [(rnd_pow h 600 (by norm_num) (by rw [abs_of_pos hB])).1, h.self d600]
  refine ⟨⟨-2 ^ 600, 0, 0⟩, ⟨0, 0, 0⟩, ⟨2 ^ 600, 0, 0⟩, ⟨0, le_rfl, zero_le_one, by simp, by simp⟩, d600.neg, d600, ?_, ?_, ?_⟩
  · have rinf : rnd fl ((2 : ℝ) ^ 600 * 2 ^ 600) = pinf := by unfold rnd; rw [if_pos hBB]
    unfold Ieee.closestInSegment
    simp only [limit_eq, psub, ofPoint, sub_fin, sub_zero, zero_sub, neg_neg, r600, z0, pdot, mul_fin, zero_mul, rinf]
    have e : div fl (neg (add fl (add fl pinf (fin 0)) (fin 0))) (add fl (add fl pinf (fin 0)) (fin 0)) = nan := rfl
    rw [e]
    simp only [limit, pscale, padd, mul_fin, mul_one, add_fin, add_zero, r600, z0]
  all_goals
    generalize (2 : ℝ) ^ 600 = B at *
    have e1 : pdist ⟨-B, 0, 0⟩ ⟨0, 0, 0⟩ = B := by
      unfold pdist
      simp only
      rw [show (-B - 0) ^ 2 + ((0 : ℝ) - 0) ^ 2 = B ^ 2 by ring, Real.sqrt_sq hB.le]
    have e2 : pdist ⟨-B, 0, 0⟩ ⟨B, 0, 0⟩ = 2 * B := by
      unfold pdist
      simp only
      rw [show (-B - B) ^ 2 + ((0 : ℝ) - 0) ^ 2 = (2 * B) ^ 2 by ring, Real.sqrt_sq (by linarith)]
    rw [e1]
    first | rw [e2] | exact hB

/-- C136: without the allowance for rounding errors the claim is wrong.  The point returned is not on the segment, and is closer
than any point of it. -/
theorem C136_off_segment (h : IsRounding fl) : ∃ p s e q : RPoint, IsDouble s.x ∧ IsDouble e.x ∧
    Ieee.closestInSegment fl (ofPoint p) (ofPoint s) (ofPoint e) = ofPoint q ∧ ¬ OnSegment s e q ∧
    ∀ r, OnSegment s e r → pdist p q < pdist p r := by
  have hε : (0 : ℝ) < 2 ^ (-60 : ℤ) := by positivity
  have d1 : IsDouble (1 : ℝ) := ⟨1, 0, by norm_num, by norm_num, by norm_num⟩
  have dε : IsDouble ((2 : ℝ) ^ (-60 : ℤ)) := ⟨1, -60, by norm_num, by norm_num, by norm_num⟩
  have v1 : fl (-2 ^ (-60 : ℤ) - -1) = 1 := by
    rw [h.eq_of_close _ (2 ^ 53) (-53) (by norm_num) le_rfl (by norm_num) (by norm_num [abs_lt])]
    norm_num
  have le1 : (2 : ℝ) ^ (-60 : ℤ) ≤ 1 := zpow_le_one_of_nonpos₀ (by norm_num) (by norm_num)
  have r1 : rnd fl (-2 ^ (-60 : ℤ) - -1) = fin 1 := by
    rw [(rnd_pow h 1 (by norm_num) (by rw [abs_le]; constructor <;> linarith)).1, v1]
  have z0 : rnd fl 0 = fin 0 := by rw [(rnd_pow h 0 (by norm_num) (by simp)).1, fl_zero h]
  have o1 : rnd fl 1 = fin 1 := by rw [(rnd_pow h 0 (by norm_num) (by simp)).1, h.self d1]
  have m1 : rnd fl (-1) = fin (-1) := by rw [(rnd_pow h 0 (by norm_num) (by simp)).1, h.self d1.neg]
  have key : ∀ r : RPoint, OnSegment ⟨-1, 0, 0⟩ ⟨-2 ^ (-60 : ℤ), 0, 0⟩ r → r.x < 0 := by
    rintro r ⟨t, t0, t1, hx, _⟩
    simp only at hx
    generalize (2 : ℝ) ^ (-60 : ℤ) = E at *
    rw [hx]
    nlinarith
  refine ⟨⟨0, 0, 0⟩, ⟨-1, 0, 0⟩, ⟨-2 ^ (-60 : ℤ), 0, 0⟩, ⟨0, 0, 0⟩, d1.neg, dε.neg, ?_, ?_, ?_⟩
  · unfold Ieee.closestInSegment
    simp only [limit_eq, psub, ofPoint, sub_fin, sub_zero, r1, z0, m1, pdot, mul_fin, mul_neg, mul_one, mul_zero, o1,
      add_fin, add_zero, neg, neg_neg]
    have e : div fl (fin 1) (fin 1) = fin 1 := by
      show (if (1 : ℝ) = 0 then _ else rnd fl (1 / 1)) = _
      rw [if_neg one_ne_zero, div_one, o1]
    rw [e]
    simp [limit, pscale, padd, mul_fin, o1, z0, add_fin]
  · intro hq
    exact absurd (key _ hq) (lt_irrefl _)
  · intro r hr
    have := key r hr
    unfold pdist
    apply Real.sqrt_lt_sqrt (by positivity)
    simp only
    nlinarith [sq_nonneg (0 - r.y)]

private theorem candidates_spec (h : IsRounding fl) (M : ℝ) (h1 : (2 : ℝ) ^ (-400 : ℤ) ≤ M) (h2 : M ≤ 2 ^ 400) (p : RPoint)
    (hp : Within M p) : ∀ line : List RPoint, (∀ x ∈ line, Within M x) → (∀ x ∈ line, ∀ y ∈ line, x.z = y.z) →
    ∃ qs : List RPoint, Ieee.segmentClosest fl (ofPoint p) (line.map ofPoint) = qs.map ofPoint ∧
      qs.length = line.length - 1 ∧
      (∀ q ∈ qs, Within (2 * M) q ∧ ∃ r, OnLine line r ∧ pdist q r ≤ M / 2 ^ 48) ∧
      ∀ r, OnLine line r → ∃ q ∈ qs, pdist p q ≤ pdist p r + M / 2 ^ 44 := by
  have hM0 : 0 < M := (two_zpow_pos _).trans_le h1
  intro line
  induction line with
  | nil => intro _ _; exact ⟨[], rfl, rfl, by simp, by simp [OnLine]⟩
  | cons a l ih =>
    intro hw hz
    cases l with
    | nil => exact ⟨[], rfl, rfl, by simp, by simp [OnLine]⟩
    | cons b l =>
      obtain ⟨qs, e, hl, hon, hbest⟩ := ih (fun x hx => hw x (List.mem_cons_of_mem _ hx))
        (fun x hx y hy => hz x (List.mem_cons_of_mem _ hx) y (List.mem_cons_of_mem _ hy))
      have ha := hw a (by simp)
      have hb := hw b (by simp)
      obtain ⟨q, eq, qz, ⟨r, hr, hqr⟩, hq⟩ := C136_nearest_partial h M h1 h2 p a b hp ha hb (hz a (by simp) b (by simp))
      refine ⟨q :: qs, ?_, by simp [hl], ?_, ?_⟩
      · simp only [List.map_cons] at e ⊢
        rw [Ieee.segmentClosest, e, eq]
      · intro x hx
        rcases List.mem_cons.1 hx with rfl | hx
        · refine ⟨?_, r, Or.inl hr, hqr⟩
          obtain ⟨t, t0, t1, rx, ry⟩ := hr
          have k48 : M / 2 ^ 48 ≤ M / 2 := by
            apply div_le_div_of_nonneg_left hM0.le (by norm_num) (by norm_num)
          have cx : |x.x - r.x| ≤ pdist x r := by
            unfold pdist; exact Real.abs_le_sqrt (by nlinarith [sq_nonneg (x.y - r.y)])
          have cy : |x.y - r.y| ≤ pdist x r := by
            unfold pdist; exact Real.abs_le_sqrt (by nlinarith [sq_nonneg (x.x - r.x)])
          have conv : ∀ u v : ℝ, |u| ≤ M → |v| ≤ M → |u + t * (v - u)| ≤ M := by
            intro u v hu hv
            rw [abs_le] at *
            constructor <;> nlinarith [hu.1, hu.2, hv.1, hv.2]
          have dx := conv _ _ ha.1 hb.1
          have dy := conv _ _ ha.2.1 hb.2.1
          rw [← rx] at dx
          rw [← ry] at dy
          have dz : |x.z| ≤ 2 * M := by
            rw [qz]
            have k := round_err h a.z
            have k2 := small_err h1
            have k3 : |a.z| / 2 ^ 53 ≤ M / 2 ^ 53 := by gcongr; exact ha.2.2
            have k4 : M / 2 ^ 53 ≤ M / 2 := by
              apply div_le_div_of_nonneg_left hM0.le (by norm_num) (by norm_num)
            have := ha.2.2
            rw [abs_le] at *
            constructor <;> linarith [k.1, k.2]
          have cx' := cx.trans (hqr.trans k48)
          have cy' := cy.trans (hqr.trans k48)
          refine ⟨?_, ?_, dz⟩ <;> rw [abs_le] at *
          · constructor <;> linarith [cx'.1, cx'.2, dx.1, dx.2]
          · constructor <;> linarith [cy'.1, cy'.2, dy.1, dy.2]
        · obtain ⟨k1, r', hr', hd⟩ := hon x hx
          exact ⟨k1, r', Or.inr hr', hd⟩
      · intro r' hr'
        rcases hr' with hr' | hr'
        · exact ⟨q, by simp, hq r' hr'⟩
        · obtain ⟨x, hx, hd⟩ := hbest r' hr'
          exact ⟨x, List.mem_cons_of_mem _ hx, hd⟩

/-- C136, lines and rings: the result is on the line and nearest to the given point up to 2^-43 times `M`, if the computed
distances are correct up to 2^-46 times `M`.  Partial as `C136_nearest_partial`. -/
theorem C136_line_partial (h : IsRounding fl) (M : ℝ) (h1 : (2 : ℝ) ^ (-400 : ℤ) ≤ M) (h2 : M ≤ 2 ^ 400)
    (distance : Point Flt → Point Flt → Flt) (p : RPoint) (hp : Within M p)
    (hdist : ∀ q, Within (2 * M) q → ∃ d, distance (ofPoint q) (ofPoint p) = fin d ∧ |d - pdist q p| ≤ M / 2 ^ 46)
    (line : List RPoint) (hn : 2 ≤ line.length) (hw : ∀ x ∈ line, Within M x) (hz : ∀ x ∈ line, ∀ y ∈ line, x.z = y.z) :
    ∃ q : RPoint, Ieee.closestPointTo fl distance (ofPoint p) (line.map ofPoint) = .ok (ofPoint q) ∧ Within (2 * M) q ∧
      (∃ r, OnLine line r ∧ pdist q r ≤ M / 2 ^ 48) ∧
      ∀ r, OnLine line r → pdist p q ≤ pdist p r + M / 2 ^ 43 := by
  obtain ⟨qs, e, hl, hon, hbest⟩ := candidates_spec h M h1 h2 p hp line hw hz
  match line, hn with
  | a :: b :: l, _ =>
    cases qs with
    | nil => simp at hl
    | cons q qs =>
      have hnn : ∀ x ∈ ofPoint q :: qs.map ofPoint, distance x (ofPoint p) ≠ nan := by
        intro x hx
        rw [← List.map_cons] at hx
        obtain ⟨y, hy, rfl⟩ := List.mem_map.1 hx
        obtain ⟨d, hd, _⟩ := hdist y (hon y hy).1
        rw [hd]; simp
      obtain ⟨hmem, hmin⟩ := pick_spec (distance · (ofPoint p)) (ofPoint q) (qs.map ofPoint) hnn
      have e0 : Ieee.closestPointTo fl distance (ofPoint p) ((a :: b :: l).map ofPoint) =
          .ok ((ofPoint q :: qs.map ofPoint).getD (minLoop 0 (distance (ofPoint q) (ofPoint p)) 1
            ((qs.map ofPoint).map (distance · (ofPoint p)))) (ofPoint q)) := by
        unfold Ieee.closestPointTo
        simp only [List.map_cons] at e ⊢
        rw [e]
      rw [e0]
      generalize (ofPoint q :: qs.map ofPoint).getD _ (ofPoint q) = y at *
      rw [← List.map_cons] at hmem
      obtain ⟨x, hx, rfl⟩ := List.mem_map.1 hmem
      refine ⟨x, rfl, (hon x hx).1, (hon x hx).2, fun r hr => ?_⟩
      obtain ⟨x', hx', hle⟩ := hbest r hr
      have := hmin (ofPoint x') (by rw [← List.map_cons]; exact List.mem_map_of_mem hx')
      obtain ⟨d, hd, hd'⟩ := hdist x (hon x hx).1
      obtain ⟨d', hd1, hd1'⟩ := hdist x' (hon x' hx').1
      simp only [hd, hd1, lt_fin, not_lt] at this
      have hM0 : 0 < M := (two_zpow_pos _).trans_le h1
      have k1 : M / 2 ^ 44 = 16 * (M / 2 ^ 48) := by ring
      have k2 : M / 2 ^ 43 = 32 * (M / 2 ^ 48) := by ring
      have k3 : M / 2 ^ 46 = 4 * (M / 2 ^ 48) := by ring
      rw [k3] at hd' hd1'
      have k0 : 0 < M / 2 ^ 48 := by positivity
      rw [pdist_comm p x'] at hle
      rw [pdist_comm p x]
      rw [k1] at hle
      rw [k2]
      have := (abs_le.1 hd').1
      have := (abs_le.1 hd1').2
      linarith

example : 2 ≤ [(⟨0, 0, 0⟩ : RPoint), ⟨4, 0, 0⟩, ⟨4, 4, 0⟩].length ∧ (∀ x ∈ [(⟨0, 0, 0⟩ : RPoint), ⟨4, 0, 0⟩, ⟨4, 4, 0⟩], Within 8 x) ∧
    ∀ q, Within (2 * 8) q → ∃ d, (fun a b : Point Flt => match a, b with
      | ⟨fin x, fin y, _⟩, ⟨fin x', fin y', _⟩ => fin √((x - x') ^ 2 + (y - y') ^ 2)
      | _, _ => nan) (ofPoint q) (ofPoint ⟨1, 3, 0⟩) = fin d ∧ |d - pdist q ⟨1, 3, 0⟩| ≤ 8 / 2 ^ 46 := by
  refine ⟨by simp, ?_, fun q _ => ⟨pdist q ⟨1, 3, 0⟩, rfl, by rw [sub_self, abs_zero]; positivity⟩⟩
  intro x hx
  simp only [List.mem_cons, List.not_mem_nil, or_false] at hx
  rcases hx with rfl | rfl | rfl <;> · unfold Within; norm_num

/-- C136, what is not a number gets lost on lines too: the result is the end of the first segment, up to rounding, if a distance
to a point with a coordinate that is not a number is not a number. -/
theorem C136_line_nan (h : IsRounding fl) (M : ℝ) (h1 : (2 : ℝ) ^ (-400 : ℤ) ≤ M) (h2 : M ≤ 2 ^ 400)
    (distance : Point Flt → Point Flt → Flt) (p : Point Flt) (hp : p.x = nan ∨ p.y = nan ∨ p.z = nan)
    (hdist : ∀ q, distance q p = nan) (a b : RPoint) (l : List RPoint) (ha : Within M a) (hb : Within M b) :
    ∃ q : RPoint, Ieee.closestPointTo fl distance p ((a :: b :: l).map ofPoint) = .ok (ofPoint q) ∧ pdist q b ≤ M / 2 ^ 48 := by
  obtain ⟨q, hq, hd⟩ := C136_nan_point h M h1 h2 p hp a b ha hb
  refine ⟨q, ?_, hd⟩
  unfold Ieee.closestPointTo
  simp only [List.map_cons, Ieee.segmentClosest, hdist, minLoop_nan]
  simp [hq]

example : ∀ q : Point Flt, (fun a b : Point Flt => Ieee.Flt.add toNearest a.x b.x) q ⟨nan, fin 0, fin 0⟩ = nan := by
  intro q; simp

/-- C136: a line without points throws, a line of one point reads an empty vector. -/
theorem C136_short_lines (distance : Point Flt → Point Flt → Flt) (p a : Point Flt) :
    Ieee.closestPointTo fl distance p [] = .throw .outOfRange ∧ (Ieee.closestPointTo fl distance p [a]).isUb := by
  constructor
  · rfl
  · simp [Ieee.closestPointTo, Ieee.segmentClosest]

end F2C.Props
