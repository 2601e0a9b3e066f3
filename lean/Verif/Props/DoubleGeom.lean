import Verif.Lemmas.DoubleGeom
import Verif.Props.GeometrySpec

/-! # C143: distances to lines and intersections of lines in double precision -/

namespace F2C.Props

open Dbl TurningSpec Geo

variable {fl : ℝ → ℝ}

namespace DoubleGeomSpec

/-- The distance of `p` from the line through `s` and `e`, positive on its left. -/
noncomputable def offLine (s e p : RPoint) : ℝ := cross s e p / pdist s e

/-- The length in space of the segment from `s` to `e`. -/
noncomputable def length3 (s e : RPoint) : ℝ := √((e.x - s.x) ^ 2 + (e.y - s.y) ^ 2 + (e.z - s.z) ^ 2)

/-- The area spanned by the directions from `a` to `b` and from `c` to `d`. -/
def spanned (a b c d : RPoint) : ℝ := (b.x - a.x) * (d.y - c.y) - (b.y - a.y) * (d.x - c.x)

end DoubleGeomSpec

open DoubleGeomSpec

private theorem pdist_swap (a b : RPoint) : √((b.x - a.x) ^ 2 + (b.y - a.y) ^ 2) = pdist a b := by
  rw [pdist_comm]; rfl

private theorem cross_bound (s e p : RPoint) : |cross s e p| ≤ pdist s e * pdist p s := by
  have c := cross_le (e.x - s.x) (e.y - s.y) (p.x - s.x) (p.y - s.y)
  rw [pdist_swap s e, pdist_swap s p, pdist_comm s p] at c
  refine le_trans ?_ c
  have : cross s e p = (e.x - s.x) * (p.y - s.y) - (e.y - s.y) * (p.x - s.x) := by unfold cross; ring
  rw [this, ← abs_mul, ← abs_mul]
  exact abs_sub _ _

/-- C143, distance: for a level segment of at least 1/64 m, the signed distance computed with doubles is right up to 2^-47 of the distance
of the point from the start of the segment (plus a metre), however large the coordinates are. -/
theorem C143_distance_partial (h : IsRounding fl) {M : ℝ} (hM : 1 ≤ M) (hM' : M ≤ 2 ^ 400) (p s e : RPoint) (hp : DoublePoint M p)
    (hs : DoublePoint M s) (he : DoublePoint M e) (hz : s.z = e.z) (hlen : 1 / 64 ≤ pdist s e) :
    |Dbl.signedDistance fl p s e - offLine s e p| ≤ (pdist p s + 1) / 2 ^ 47 := by
  have u0 := u53_pos
  have u1 := u53_small
  obtain ⟨L0, Le⟩ := dist_err h (p := e) (q := s)
    (big_range hM' (he.bx.trans (by linarith)) hs.bx) (big_range hM' (he.by'.trans (by linarith)) hs.by')
  have len : fl √(Dbl.dot fl (subPoint fl e s) (subPoint fl e s)) = Dbl.dist fl e s := by
    unfold Dbl.dot Dbl.dist subPoint
    simp only [hz, sub_self, h.self isDouble_zero, mul_zero, add_zero, h.self (h.double _)]
  have de := det_err h (u := ⟨e.x - s.x, e.y - s.y, 0⟩) (u' := subPoint fl e s) (v := ⟨s.x - p.x, s.y - p.y, 0⟩) (v' := subPoint fl s p)
    (diff_err h he.dx hs.dx) (diff_err h he.dy hs.dy) (diff_err h hs.dx hp.dx) (diff_err h hs.dy hp.dy)
  simp only at de
  rw [pdist_swap s e, pdist_swap p s] at de
  have cr : (e.x - s.x) * (s.y - p.y) - (e.y - s.y) * (s.x - p.x) = -cross s e p := by unfold cross; ring
  rw [cr] at de
  have cb := cross_bound s e p
  rw [pdist_comm e s] at Le
  unfold Dbl.signedDistance
  rw [len]
  set L := pdist s e
  set T := pdist p s
  set L' := Dbl.dist fl e s
  set d := Dbl.det fl (subPoint fl e s) (subPoint fl s p)
  have T0 : 0 ≤ T := pdist_nonneg _ _
  have Lpos : 0 < L := by linarith
  have hN : |-d - cross s e p| ≤ 6 * u53 * (L * T) + u53 / 200 := by
    rw [← abs_neg]
    refine le_of_eq_of_le ?_ de
    congr 1; ring
  have LL : |L' - L| ≤ 22 * u53 * L := by
    refine Le.trans ?_
    have : u53 = 1 / 2 ^ 53 := rfl
    rw [this]
    norm_num
    linarith
  have q0 : |offLine s e p| ≤ T := by
    unfold offLine
    rw [abs_div, abs_of_pos Lpos, div_le_iff₀ Lpos, mul_comm]
    exact cb
  have r := div_err h (N := cross s e p) (N' := -d) (D := L) (D' := L') (q := offLine s e p) Lpos.ne'
    (by unfold offLine; exact div_mul_cancel₀ _ Lpos.ne') hN (by
      rw [abs_of_pos Lpos]
      refine LL.trans ?_
      have := mul_le_mul_of_nonneg_right (show 22 * u53 ≤ 1 / 10 by linarith) Lpos.le
      linarith)
  refine r.trans ?_
  rw [abs_of_pos Lpos]
  have n1 : |offLine s e p| * |L' - L| ≤ T * (22 * u53 * L) := mul_le_mul q0 LL (abs_nonneg _) T0
  have n2 : 12 / 10 * (6 * u53 * (L * T) + u53 / 200 + |offLine s e p| * |L' - L|) / L ≤ u53 * (34 * T + 1 / 2) := by
    rw [div_le_iff₀ Lpos]
    have w1 : u53 * (1 / 64) ≤ u53 * L := mul_le_mul_of_nonneg_left hlen u0.le
    have w2 : 0 ≤ u53 * (L * T) := by positivity
    linarith
  have n3 : u53 * (|offLine s e p| + 1 / 1000) ≤ u53 * (T + 1 / 1000) := mul_le_mul_of_nonneg_left (by linarith) u0.le
  have e47 : (T + 1) / 2 ^ 47 = 64 * (u53 * (T + 1)) := by unfold u53; ring
  rw [e47]
  have : 0 ≤ u53 * T := by positivity
  linarith

/-- C143, what is computed for any segment, also a sloped one: the area spanned by the point and the segment on the ground over the length
of the segment in space, up to the same error; so it is the distance from the line on the ground only if the segment is level. -/
theorem C143_sloped (h : IsRounding fl) {M : ℝ} (p s e : RPoint) (hp : DoublePoint M p)
    (hs : DoublePoint M s) (he : DoublePoint M e) (hsz : IsDouble s.z) (hez : IsDouble e.z) (hlen : 1 / 64 ≤ length3 s e) :
    |Dbl.signedDistance fl p s e - cross s e p / length3 s e| ≤ (pdist p s + 1) / 2 ^ 47 := by
  have u0 := u53_pos
  have u1 := u53_small
  have LL := norm_err h (w := ⟨e.x - s.x, e.y - s.y, e.z - s.z⟩) (w' := subPoint fl e s) (diff_err h he.dx hs.dx)
    (diff_err h he.dy hs.dy) (diff_err h hez hsz) hlen
  simp only at LL
  change |_ - length3 s e| ≤ 38 * u53 * length3 s e at LL
  have de := det_err h (u := ⟨e.x - s.x, e.y - s.y, 0⟩) (u' := subPoint fl e s) (v := ⟨s.x - p.x, s.y - p.y, 0⟩) (v' := subPoint fl s p)
    (diff_err h he.dx hs.dx) (diff_err h he.dy hs.dy) (diff_err h hs.dx hp.dx) (diff_err h hs.dy hp.dy)
  simp only at de
  rw [pdist_swap s e, pdist_swap p s] at de
  have cr : (e.x - s.x) * (s.y - p.y) - (e.y - s.y) * (s.x - p.x) = -cross s e p := by unfold cross; ring
  rw [cr] at de
  have cb := cross_bound s e p
  have l3 : pdist s e ≤ length3 s e := by
    rw [← pdist_swap s e]
    exact Real.sqrt_le_sqrt (by linarith [sq_nonneg (e.z - s.z)])
  unfold Dbl.signedDistance
  set L := length3 s e
  set T := pdist p s
  set L' := fl √(Dbl.dot fl (subPoint fl e s) (subPoint fl e s))
  set d := Dbl.det fl (subPoint fl e s) (subPoint fl s p)
  have T0 : 0 ≤ T := pdist_nonneg _ _
  have Lpos : 0 < L := by linarith
  have LT : pdist s e * T ≤ L * T := mul_le_mul_of_nonneg_right l3 T0
  have hN : |-d - cross s e p| ≤ 6 * u53 * (L * T) + u53 / 200 := by
    rw [← abs_neg]
    refine le_trans (le_of_eq_of_le ?_ de) ?_
    · congr 1; ring
    · have := mul_le_mul_of_nonneg_left LT (show 0 ≤ 6 * u53 by positivity)
      linarith
  have q0 : |cross s e p / L| ≤ T := by
    rw [abs_div, abs_of_pos Lpos, div_le_iff₀ Lpos, mul_comm]
    exact cb.trans LT
  have r := div_err h (N := cross s e p) (N' := -d) (D := L) (D' := L') (q := cross s e p / L) Lpos.ne'
    (div_mul_cancel₀ _ Lpos.ne') hN (by
      rw [abs_of_pos Lpos]
      refine LL.trans ?_
      have := mul_le_mul_of_nonneg_right (show 38 * u53 ≤ 1 / 10 by linarith) Lpos.le
      linarith)
  refine r.trans ?_
  rw [abs_of_pos Lpos]
  have n1 : |cross s e p / L| * |L' - L| ≤ T * (38 * u53 * L) := mul_le_mul q0 LL (abs_nonneg _) T0
  have n2 : 12 / 10 * (6 * u53 * (L * T) + u53 / 200 + |cross s e p / L| * |L' - L|) / L ≤ u53 * (54 * T + 1 / 2) := by
    rw [div_le_iff₀ Lpos]
    have w1 : u53 * (1 / 64) ≤ u53 * L := mul_le_mul_of_nonneg_left hlen u0.le
    have w2 : 0 ≤ u53 * (L * T) := by positivity
    linarith
  have n3 : u53 * (|cross s e p / L| + 1 / 1000) ≤ u53 * (T + 1 / 1000) := mul_le_mul_of_nonneg_left (by linarith) u0.le
  have e47 : (T + 1) / 2 ^ 47 = 64 * (u53 * (T + 1)) := by unfold u53; ring
  rw [e47]
  have : 0 ≤ u53 * T := by positivity
  linarith

/-- C143, side: the sign is right for points that are further from the line than this error. -/
theorem C143_side_partial (h : IsRounding fl) {M : ℝ} (hM : 1 ≤ M) (hM' : M ≤ 2 ^ 400) (p s e : RPoint) (hp : DoublePoint M p)
    (hs : DoublePoint M s) (he : DoublePoint M e) (hz : s.z = e.z) (hlen : 1 / 64 ≤ pdist s e)
    (hfar : (pdist p s + 1) / 2 ^ 47 < |offLine s e p|) :
    (0 < Dbl.signedDistance fl p s e ↔ 0 < cross s e p) ∧ (Dbl.signedDistance fl p s e < 0 ↔ cross s e p < 0) := by
  have r := abs_le.1 (C143_distance_partial h hM hM' p s e hp hs he hz hlen)
  have L : 0 < pdist s e := by linarith
  have s1 : 0 < offLine s e p ↔ 0 < cross s e p := by unfold offLine; exact div_pos_iff_of_pos_right L
  have s2 : offLine s e p < 0 ↔ cross s e p < 0 := by unfold offLine; rw [div_lt_iff₀ L, zero_mul]
  rw [← s1, ← s2]
  have t0 : 0 ≤ (pdist p s + 1) / 2 ^ 47 := by have := pdist_nonneg p s; positivity
  rcases lt_abs.1 hfar with h1 | h1
  · exact ⟨⟨fun _ => by linarith, fun _ => by linarith⟩, ⟨fun _ => by linarith, fun _ => by linarith⟩⟩
  · exact ⟨⟨fun _ => by linarith, fun _ => by linarith⟩, ⟨fun _ => by linarith, fun _ => by linarith⟩⟩

/-- C143, intersection: for segments of at least 1/64 m that are not parallel up to 2^-20, the intersection computed with doubles is right
up to 2^-46 of the square of the largest coordinate times the sum of the lengths over the area spanned. -/
theorem C143_intersection_partial (h : IsRounding fl) {M : ℝ} (hM : 1 ≤ M) (a b c d P : RPoint) (ha : DoublePoint M a)
    (hb : DoublePoint M b) (hc : DoublePoint M c) (hd : DoublePoint M d) (h1 : 1 / 64 ≤ pdist a b) (h2 : 1 / 64 ≤ pdist c d)
    (hpar : pdist a b * pdist c d / 2 ^ 20 ≤ |spanned a b c d|) (hP1 : OnInfiniteLine a b P) (hP2 : OnInfiniteLine c d P)
    (hPx : |P.x| ≤ M) (hPy : |P.y| ≤ M) :
    |(Dbl.lineIntersection fl a b c d).x - P.x| ≤ M ^ 2 * (pdist a b + pdist c d) / (2 ^ 46 * |spanned a b c d|) ∧
    |(Dbl.lineIntersection fl a b c d).y - P.y| ≤ M ^ 2 * (pdist a b + pdist c d) / (2 ^ 46 * |spanned a b c d|) := by
  have u0 := u53_pos
  have u1 := u53_small
  have M2 : 1 ≤ M ^ 2 := one_le_pow₀ hM
  have den := det_err h (u := ⟨b.x - a.x, b.y - a.y, 0⟩) (u' := subPoint fl b a) (v := ⟨d.x - c.x, d.y - c.y, 0⟩) (v' := subPoint fl d c)
    (diff_err h hb.dx ha.dx) (diff_err h hb.dy ha.dy) (diff_err h hd.dx hc.dx) (diff_err h hd.dy hc.dy)
  simp only at den
  rw [pdist_swap a b, pdist_swap c d, show (b.x - a.x) * (d.y - c.y) - (b.y - a.y) * (d.x - c.x) = spanned a b c d from rfl] at den
  have m1 := pdist_le_four ha hb
  have m2 := pdist_le_four hc hd
  have bx1 : |b.x - a.x| ≤ pdist a b := by rw [← pdist_swap a b]; exact Real.abs_le_sqrt (by nlinarith [sq_nonneg (b.y - a.y)])
  have by1 : |b.y - a.y| ≤ pdist a b := by rw [← pdist_swap a b]; exact Real.abs_le_sqrt (by nlinarith [sq_nonneg (b.x - a.x)])
  have bx2 : |d.x - c.x| ≤ pdist c d := by rw [← pdist_swap c d]; exact Real.abs_le_sqrt (by nlinarith [sq_nonneg (d.y - c.y)])
  have by2 : |d.y - c.y| ≤ pdist c d := by rw [← pdist_swap c d]; exact Real.abs_le_sqrt (by nlinarith [sq_nonneg (d.x - c.x)])
  -- determinants of positions
  have pos : ∀ {p q : RPoint}, DoublePoint M p → DoublePoint M q →
      |Dbl.det fl p q - (p.x * q.y - p.y * q.x)| ≤ 13 * u53 * M ^ 2 ∧ |p.x * q.y - p.y * q.x| ≤ 2 * M ^ 2 := by
    intro p q hp hq
    have e := det_err h (u := p) (u' := p) (v := q) (v' := q) (by simpa using by positivity) (by simpa using by positivity)
      (by simpa using by positivity) (by simpa using by positivity)
    have n : ∀ {p : RPoint}, DoublePoint M p → √(p.x ^ 2 + p.y ^ 2) ≤ √2 * M := by
      intro p hp
      rw [Real.sqrt_le_left (by positivity), mul_pow, Real.sq_sqrt (by norm_num)]
      have := sq_le_sq' (abs_le.1 hp.bx).1 (abs_le.1 hp.bx).2
      have := sq_le_sq' (abs_le.1 hp.by').1 (abs_le.1 hp.by').2
      linarith
    have pr : √(p.x ^ 2 + p.y ^ 2) * √(q.x ^ 2 + q.y ^ 2) ≤ 2 * M ^ 2 := by
      refine (mul_le_mul (n hp) (n hq) (Real.sqrt_nonneg _) (by positivity)).trans (le_of_eq ?_)
      have := Real.mul_self_sqrt (show (0 : ℝ) ≤ 2 by norm_num)
      calc √2 * M * (√2 * M) = √2 * √2 * M ^ 2 := by ring
        _ = _ := by rw [this]
    constructor
    · have := mul_le_mul_of_nonneg_left pr (show 0 ≤ 6 * u53 by positivity)
      have : u53 ≤ u53 * M ^ 2 := le_mul_of_one_le_right u0.le M2
      linarith
    · have c := cross_le p.x p.y q.x q.y
      rw [← abs_mul, ← abs_mul] at c
      exact (abs_sub _ _).trans (c.trans pr)
  obtain ⟨e1, B1⟩ := pos hb ha
  obtain ⟨e2, B2⟩ := pos hd hc
  -- where the point is
  have X : P.x * spanned a b c d = (d.x - c.x) * (b.x * a.y - b.y * a.x) - (b.x - a.x) * (d.x * c.y - d.y * c.x) := by
    obtain ⟨t, tx, ty⟩ := hP1
    obtain ⟨r, rx, ry⟩ := hP2
    have k1 : P.x * (b.y - a.y) - P.y * (b.x - a.x) = -(b.x * a.y - b.y * a.x) := by rw [tx, ty]; ring
    have k2 : P.x * (d.y - c.y) - P.y * (d.x - c.x) = -(d.x * c.y - d.y * c.x) := by rw [rx, ry]; ring
    unfold spanned
    linear_combination (b.x - a.x) * k2 - (d.x - c.x) * k1
  have Y : P.y * spanned a b c d = (d.y - c.y) * (b.x * a.y - b.y * a.x) - (b.y - a.y) * (d.x * c.y - d.y * c.x) := by
    obtain ⟨t, tx, ty⟩ := hP1
    obtain ⟨r, rx, ry⟩ := hP2
    have k1 : P.x * (b.y - a.y) - P.y * (b.x - a.x) = -(b.x * a.y - b.y * a.x) := by rw [tx, ty]; ring
    have k2 : P.x * (d.y - c.y) - P.y * (d.x - c.x) = -(d.x * c.y - d.y * c.x) := by rw [rx, ry]; ring
    unfold spanned
    linear_combination (b.y - a.y) * k2 - (d.y - c.y) * k1
  set L1 := pdist a b
  set L2 := pdist c d
  set D := spanned a b c d
  set D' := Dbl.det fl (subPoint fl b a) (subPoint fl d c)
  have LL : 1 / 4096 ≤ L1 * L2 := by
    have := mul_le_mul h1 h2 (by norm_num) (by linarith)
    linarith
  have Dpos : 0 < |D| := lt_of_lt_of_le (by positivity) hpar
  have den' : |D' - D| ≤ 27 * u53 * (L1 * L2) := by
    refine den.trans ?_
    have := mul_le_mul_of_nonneg_left LL u0.le
    linarith
  have dd : 27 * u53 * (L1 * L2) ≤ |D| / 10 := by
    have : 27 * u53 * (L1 * L2) ≤ 27 * u53 * (2 ^ 20 * |D|) := mul_le_mul_of_nonneg_left (by
      rw [div_le_iff₀ (by positivity)] at hpar; linarith) (by positivity)
    refine this.trans ?_
    have := mul_le_mul_of_nonneg_right (show 27 * u53 * 2 ^ 20 ≤ 1 / 10 by norm_num [u53]) Dpos.le
    linarith
  have Dne : D ≠ 0 := abs_pos.1 Dpos
  have Dne' : D' ≠ 0 := by
    intro h0
    rw [h0, zero_sub, abs_neg] at den'
    linarith
  have upper : |D| ≤ L1 * L2 := by
    have cs := cross_le (b.x - a.x) (b.y - a.y) (d.x - c.x) (d.y - c.y)
    rw [pdist_swap a b, pdist_swap c d, ← abs_mul, ← abs_mul] at cs
    exact (abs_sub _ _).trans cs
  have LS : L1 * L2 ≤ 2 * M * (L1 + L2) := by
    have t1 := mul_le_mul_of_nonneg_right m1 (show 0 ≤ L2 by linarith)
    have t2 := mul_le_mul_of_nonneg_left m2 (show 0 ≤ L1 by linarith)
    linarith
  have coord : ∀ {v v' w w' q : ℝ}, |v' - v| ≤ u53 * |v| → |w' - w| ≤ u53 * |w| → |v| ≤ L2 → |w| ≤ L1 → |q| ≤ M →
      q * D = v * (b.x * a.y - b.y * a.x) - w * (d.x * c.y - d.y * c.x) →
      |fl (fl (fl (v' * Dbl.det fl b a) - fl (w' * Dbl.det fl d c)) / D') - q| ≤ M ^ 2 * (L1 + L2) / (2 ^ 46 * |D|) := by
    intro v v' w w' q hv hw hvL hwL hq hqD
    have FB : 13 * u53 * M ^ 2 ≤ 2 * M ^ 2 / 10 := by
      have := mul_le_mul_of_nonneg_right (show 13 * u53 ≤ 2 / 10 by linarith) (show 0 ≤ M ^ 2 by positivity)
      linarith
    have p1 := mul_err' h hv e1 B1 FB
    have p2 := mul_err' h hw e2 B2 FB
    have s := sub_err h p1 p2
    have x1 : |v * (b.x * a.y - b.y * a.x)| ≤ |v| * (2 * M ^ 2) := by
      rw [abs_mul]; exact mul_le_mul_of_nonneg_left B1 (abs_nonneg _)
    have x2 : |w * (d.x * c.y - d.y * c.x)| ≤ |w| * (2 * M ^ 2) := by
      rw [abs_mul]; exact mul_le_mul_of_nonneg_left B2 (abs_nonneg _)
    set uM := u53 * M ^ 2 with huM
    have uM0 : 0 < uM := by positivity
    have uu : u53 ≤ uM := le_mul_of_one_le_right u0.le M2
    have k1 : uM * |v| ≤ uM * L2 := mul_le_mul_of_nonneg_left hvL uM0.le
    have k2 : uM * |w| ≤ uM * L1 := mul_le_mul_of_nonneg_left hwL uM0.le
    have S0 : uM * (1 / 32) ≤ uM * (L1 + L2) := mul_le_mul_of_nonneg_left (by linarith) uM0.le
    have N := s.trans (c := 23 * uM * (L1 + L2)) (by
      have q1 : |v| * (13 * u53 * M ^ 2 + 12 / 5 * u53 * (2 * M ^ 2)) = 89 / 5 * (uM * |v|) := by rw [huM]; ring
      have q2 : |w| * (13 * u53 * M ^ 2 + 12 / 5 * u53 * (2 * M ^ 2)) = 89 / 5 * (uM * |w|) := by rw [huM]; ring
      rw [q1, q2]
      have v0 : 0 ≤ uM * |v| := by positivity
      have w0 : 0 ≤ uM * |w| := by positivity
      have r1 : u53 * (|v * (b.x * a.y - b.y * a.x)| + |w * (d.x * c.y - d.y * c.x)|) ≤ 2 * (uM * |v|) + 2 * (uM * |w|) := by
        refine (mul_le_mul_of_nonneg_left (add_le_add x1 x2) u0.le).trans (le_of_eq ?_)
        rw [huM]; ring
      set Z := 89 / 5 * (uM * |v|) + u53 / 1000 + (89 / 5 * (uM * |w|) + u53 / 1000) with hZ
      have r2 : u53 * Z ≤ 1 / 10 * Z := mul_le_mul_of_nonneg_right (by linarith) (by positivity)
      have r3 : (1 + u53) * Z = Z + u53 * Z := by ring
      rw [r3]
      linarith)
    have r := div_err h Dne hqD N (den'.trans dd)
    refine r.trans ?_
    have g : |q| * |D' - D| ≤ M * (27 * u53 * (L1 * L2)) := mul_le_mul hq den' (abs_nonneg _) (by linarith)
    have g2 : M * (27 * u53 * (L1 * L2)) ≤ 54 * uM * (L1 + L2) := by
      have := mul_le_mul_of_nonneg_left LS (show 0 ≤ M * (27 * u53) by positivity)
      rw [huM]
      linarith
    have g3 : u53 * (|q| + 1 / 1000) ≤ 4 * uM * (L1 + L2) / |D| := by
      rw [le_div_iff₀ Dpos]
      have : u53 * (|q| + 1 / 1000) ≤ 2 * u53 * M := by
        have := mul_le_mul_of_nonneg_left (show |q| + 1 / 1000 ≤ 2 * M by linarith) u0.le
        linarith
      have : u53 * (|q| + 1 / 1000) * |D| ≤ 2 * u53 * M * (2 * M * (L1 + L2)) :=
        mul_le_mul this (upper.trans LS) Dpos.le (by positivity)
      refine this.trans (le_of_eq ?_)
      rw [huM]; ring
    have g4 : 12 / 10 * (23 * uM * (L1 + L2) + |q| * |D' - D|) / |D| ≤ 12 / 10 * (77 * uM * (L1 + L2)) / |D| :=
      div_le_div_of_nonneg_right (by linarith) Dpos.le
    refine (add_le_add g4 g3).trans ?_
    rw [← add_div]
    have fin : M ^ 2 * (L1 + L2) / (2 ^ 46 * |D|) = 128 * uM * (L1 + L2) / |D| := by
      rw [huM, u53]; field_simp; norm_num
    rw [fin]
    refine div_le_div_of_nonneg_right ?_ Dpos.le
    have : 0 ≤ uM * (L1 + L2) := by linarith
    linarith
  have unf : Dbl.lineIntersection fl a b c d = divPoint fl (subPoint fl (mulPoint fl (subPoint fl d c) (Dbl.det fl b a))
      (mulPoint fl (subPoint fl b a) (Dbl.det fl d c))) D' := by
    unfold Dbl.lineIntersection
    simp only
    rw [if_neg Dne']
  rw [unf]
  exact ⟨coord (diff_err h hd.dx hc.dx) (diff_err h hb.dx ha.dx) bx2 bx1 hPx X,
    coord (diff_err h hd.dy hc.dy) (diff_err h hb.dy ha.dy) by2 by1 hPy Y⟩

/-- C143, intersection is false in general: of a segment of a millimetre and one of a metre that cross at a right angle in the start of the
first, in coordinates of the size of UTM coordinates, the computed intersection is 37.5 cm away, however the operations are rounded to
nearest. -/
theorem C143_intersection_off : ∃ a b c d : RPoint, DoublePoint (2 ^ 23) a ∧ DoublePoint (2 ^ 23) b ∧ DoublePoint (2 ^ 23) c ∧
    DoublePoint (2 ^ 23) d ∧ OnInfiniteLine a b a ∧ OnInfiniteLine c d a ∧ spanned a b c d = pdist a b * pdist c d ∧
    pdist a b = 1 / 1024 ∧ pdist c d = 1 ∧
    ∀ fl, IsRounding fl → pdist (Dbl.lineIntersection fl a b c d) a = 3 / 8 := by
  have dbl : ∀ (m e : ℤ), |m| ≤ 2 ^ 53 → -1074 ≤ e → IsDouble (m * (2 : ℝ) ^ e) := fun m e h1 h2 => ⟨m, e, h1, h2, rfl⟩
  have x1 : IsDouble (1048576 : ℝ) := by have := dbl 1048576 0 (by norm_num) (by norm_num); norm_num at this; exact this
  have x2 : IsDouble (1073741825 / 1024 : ℝ) := by
    have := dbl 1073741825 (-10) (by norm_num) (by norm_num); norm_num at this; exact this
  have y1 : IsDouble (33554435 / 8 : ℝ) := by have := dbl 33554435 (-3) (by norm_num) (by norm_num); norm_num at this; exact this
  have y2 : IsDouble (4194304 : ℝ) := by have := dbl 4194304 0 (by norm_num) (by norm_num); norm_num at this; exact this
  have y3 : IsDouble (4194305 : ℝ) := by have := dbl 4194305 0 (by norm_num) (by norm_num); norm_num at this; exact this
  refine ⟨⟨1048576, 33554435 / 8, 0⟩, ⟨1073741825 / 1024, 33554435 / 8, 0⟩, ⟨1048576, 4194304, 0⟩, ⟨1048576, 4194305, 0⟩,
    ⟨x1, y1, by norm_num, by norm_num [abs_le]⟩, ⟨x2, y1, by norm_num [abs_le], by norm_num [abs_le]⟩, ⟨x1, y2, by norm_num, by norm_num⟩,
    ⟨x1, y3, by norm_num, by norm_num⟩, ⟨0, by norm_num⟩, ⟨3 / 8, by norm_num⟩, ?_, ?_, ?_, ?_⟩
  · have e1 : pdist (⟨1048576, 33554435 / 8, 0⟩ : RPoint) ⟨1073741825 / 1024, 33554435 / 8, 0⟩ = 1 / 1024 := by
      unfold pdist
      rw [Real.sqrt_eq_iff_mul_self_eq (by positivity) (by norm_num)]
      norm_num
    have e2 : pdist (⟨1048576, 4194304, 0⟩ : RPoint) ⟨1048576, 4194305, 0⟩ = 1 := by
      unfold pdist
      rw [Real.sqrt_eq_iff_mul_self_eq (by positivity) (by norm_num)]
      norm_num
    rw [e1, e2]
    norm_num [spanned]
  · unfold pdist
    rw [Real.sqrt_eq_iff_mul_self_eq (by positivity) (by norm_num)]
    norm_num
  · unfold pdist
    rw [Real.sqrt_eq_iff_mul_self_eq (by positivity) (by norm_num)]
    norm_num
  · intro fl h
    have s0 := h.self isDouble_zero
    have self : ∀ {x : ℝ} (m e : ℤ), |m| ≤ 2 ^ 53 → -1074 ≤ e → x = m * (2 : ℝ) ^ e → fl x = x := by
      intro x m e h1 h2 hx
      exact h.self ⟨m, e, h1, h2, hx⟩
    have f1 : fl (1 / 1024) = 1 / 1024 := self 1 (-10) (by norm_num) (by norm_num) (by norm_num)
    have f2 : fl 1 = 1 := self 1 0 (by norm_num) (by norm_num) (by norm_num)
    have f3 : fl (1073741825 / 1024 * (33554435 / 8)) = 4398046511104 + 393216 + 4096 := by
      rw [h.eq_of_close _ (2 ^ 52 + 3 * 2 ^ 27 + 2 ^ 22) (-10) (by norm_num) (by norm_num) (by norm_num) (by norm_num [abs_lt])]
      norm_num
    have f4 : fl (33554435 / 8 * 1048576) = 4398046511104 + 393216 := by
      rw [self (33554435) 17 (by norm_num) (by norm_num) (by norm_num)]
      norm_num
    have f5 : fl 4096 = 4096 := self 4096 0 (by norm_num) (by norm_num) (by norm_num)
    have f6 : fl (1048576 * 4194304) = 4398046511104 := by
      rw [self 1 42 (by norm_num) (by norm_num) (by norm_num)]
      norm_num
    have f7 : fl (4194305 * 1048576) = 4398047559680 := by
      rw [self 4194305 20 (by norm_num) (by norm_num) (by norm_num)]
      norm_num
    have f8 : fl (-1048576) = -1048576 := self (-1048576) 0 (by norm_num) (by norm_num) (by norm_num)
    have f9 : fl (-1024) = -1024 := self (-1024) 0 (by norm_num) (by norm_num) (by norm_num)
    have f10 : fl 1024 = 1024 := self 1024 0 (by norm_num) (by norm_num) (by norm_num)
    have f11 : fl 1048576 = 1048576 := h.self x1
    have f12 : fl 4194304 = 4194304 := h.self y2
    have u : subPoint fl (⟨1073741825 / 1024, 33554435 / 8, 0⟩ : RPoint) ⟨1048576, 33554435 / 8, 0⟩ = ⟨1 / 1024, 0, 0⟩ := by
      unfold subPoint
      simp only [sub_self, s0]
      rw [show (1073741825 / 1024 - 1048576 : ℝ) = 1 / 1024 by norm_num, f1]
    have v : subPoint fl (⟨1048576, 4194305, 0⟩ : RPoint) ⟨1048576, 4194304, 0⟩ = ⟨0, 1, 0⟩ := by
      unfold subPoint
      simp only [sub_self, s0]
      rw [show (4194305 - 4194304 : ℝ) = 1 by norm_num, f2]
    have d0 : Dbl.det fl (⟨1 / 1024, 0, 0⟩ : RPoint) ⟨0, 1, 0⟩ = 1 / 1024 := by
      unfold Dbl.det
      simp only [mul_one, mul_zero, s0, sub_zero, f1]
    have d1 : Dbl.det fl (⟨1073741825 / 1024, 33554435 / 8, 0⟩ : RPoint) ⟨1048576, 33554435 / 8, 0⟩ = 4096 := by
      unfold Dbl.det
      simp only
      rw [f3, f4, show (4398046511104 + 393216 + 4096 - (4398046511104 + 393216) : ℝ) = 4096 by norm_num, f5]
    have d2 : Dbl.det fl (⟨1048576, 4194305, 0⟩ : RPoint) ⟨1048576, 4194304, 0⟩ = -1048576 := by
      unfold Dbl.det
      simp only
      rw [f6, f7, show (4398046511104 - 4398047559680 : ℝ) = -1048576 by norm_num, f8]
    have r : Dbl.lineIntersection fl (⟨1048576, 33554435 / 8, 0⟩ : RPoint) ⟨1073741825 / 1024, 33554435 / 8, 0⟩ ⟨1048576, 4194304, 0⟩
        ⟨1048576, 4194305, 0⟩ = ⟨1048576, 4194304, 0⟩ := by
      unfold Dbl.lineIntersection
      simp only
      rw [u, v, d0, d1, d2, if_neg (by norm_num)]
      unfold mulPoint subPoint divPoint
      simp only [zero_mul, one_mul, s0, f5, sub_zero, zero_sub]
      rw [show (1 / 1024 * -1048576 : ℝ) = -1024 by norm_num, f9, neg_neg, f10,
        show (1024 / (1 / 1024) : ℝ) = 1048576 by norm_num, f11, show (4096 / (1 / 1024) : ℝ) = 4194304 by norm_num, f12]
      simp [s0]
    rw [r]
    unfold pdist
    rw [Real.sqrt_eq_iff_mul_self_eq (by positivity) (by norm_num)]
    norm_num

/-! ## examples -/

private theorem utm_point' {x y : ℤ} (hx : |(x : ℝ)| ≤ 2 ^ 23) (hy : |(y : ℝ)| ≤ 2 ^ 23) : DoublePoint (2 ^ 23) ⟨x, y, 0⟩ := by
  have bd : ∀ {x : ℤ}, |(x : ℝ)| ≤ 2 ^ 23 → IsDouble x := by
    intro x hx
    have : |x| ≤ 2 ^ 23 := by exact_mod_cast hx
    refine ⟨x, 0, ?_, by norm_num, by norm_num⟩
    norm_num at *
    omega
  exact ⟨bd hx, bd hy, hx, hy⟩

/-- the corners of a field in UTM coordinates: 300 m east and 400 m north of the first one -/
private theorem utm_sw : DoublePoint (2 ^ 23) ⟨500000, 4000000, 0⟩ := by
  exact_mod_cast utm_point' (x := 500000) (y := 4000000) (by norm_num) (by norm_num)
private theorem utm_se : DoublePoint (2 ^ 23) ⟨500300, 4000000, 0⟩ := by
  exact_mod_cast utm_point' (x := 500300) (y := 4000000) (by norm_num) (by norm_num)
private theorem utm_ne : DoublePoint (2 ^ 23) ⟨500300, 4000400, 0⟩ := by
  exact_mod_cast utm_point' (x := 500300) (y := 4000400) (by norm_num) (by norm_num)
private theorem utm_nw : DoublePoint (2 ^ 23) ⟨500000, 4000400, 0⟩ := by
  exact_mod_cast utm_point' (x := 500000) (y := 4000400) (by norm_num) (by norm_num)

private theorem diag : pdist (⟨500000, 4000000, 0⟩ : RPoint) ⟨500300, 4000400, 0⟩ = 500 := by
  unfold pdist
  rw [Real.sqrt_eq_iff_mul_self_eq (by positivity) (by norm_num)]
  norm_num

private theorem diag' : pdist (⟨500300, 4000000, 0⟩ : RPoint) ⟨500000, 4000400, 0⟩ = 500 := by
  unfold pdist
  rw [Real.sqrt_eq_iff_mul_self_eq (by positivity) (by norm_num)]
  norm_num

private theorem side' : pdist (⟨500300, 4000000, 0⟩ : RPoint) ⟨500000, 4000000, 0⟩ = 300 := by
  unfold pdist
  rw [Real.sqrt_eq_iff_mul_self_eq (by positivity) (by norm_num)]
  norm_num

/-- the south east corner is 240 m to the right of the diagonal -/
example : |Dbl.signedDistance toNearest ⟨500300, 4000000, 0⟩ ⟨500000, 4000000, 0⟩ ⟨500300, 4000400, 0⟩ - (-240)| ≤ 301 / 2 ^ 47 := by
  have := C143_distance_partial toNearest_isRounding (M := 2 ^ 23) (by norm_num) (pow_le_pow_right₀ (by norm_num) (by norm_num)) _ _ _
    utm_se utm_sw utm_ne rfl (by rw [diag]; norm_num)
  rw [side', offLine, diag] at this
  norm_num [cross] at this ⊢
  exact this

example : Dbl.signedDistance toNearest ⟨500300, 4000000, 0⟩ ⟨500000, 4000000, 0⟩ ⟨500300, 4000400, 0⟩ < 0 :=
  (C143_side_partial toNearest_isRounding (M := 2 ^ 23) (by norm_num) (pow_le_pow_right₀ (by norm_num) (by norm_num)) _ _ _
    utm_se utm_sw utm_ne rfl (by rw [diag]; norm_num) (by rw [side', offLine, diag]; norm_num [cross, abs_of_nonpos])).2.2 (by norm_num [cross])

/-- the end of the segment is 1200 m higher, so that its length in space is 1300 m: 240 m become 1200 / 13 m -/
example : |Dbl.signedDistance toNearest ⟨500300, 4000000, 0⟩ ⟨500000, 4000000, 0⟩ ⟨500300, 4000400, 1200⟩ - (-(1200 / 13))| ≤
    301 / 2 ^ 47 := by
  have l : length3 ⟨500000, 4000000, 0⟩ ⟨500300, 4000400, 1200⟩ = 1300 := by
    unfold length3
    rw [show ((500300 : ℝ) - 500000) ^ 2 + (4000400 - 4000000) ^ 2 + (1200 - 0) ^ 2 = 1300 ^ 2 by norm_num]
    exact Real.sqrt_sq (by norm_num)
  have := C143_sloped toNearest_isRounding (M := 2 ^ 23) ⟨500300, 4000000, 0⟩ ⟨500000, 4000000, 0⟩ ⟨500300, 4000400, 1200⟩
    utm_se utm_sw ⟨utm_ne.dx, utm_ne.dy, utm_ne.bx, utm_ne.by'⟩ isDouble_zero ⟨1200, 0, by norm_num, by norm_num, by norm_num⟩
    (by rw [l]; norm_num)
  rw [side', l] at this
  norm_num [cross] at this ⊢
  exact this

/-- the diagonals of the field meet in its middle, up to 5 mm -/
example : |(Dbl.lineIntersection toNearest ⟨500000, 4000000, 0⟩ ⟨500300, 4000400, 0⟩ ⟨500300, 4000000, 0⟩ ⟨500000, 4000400, 0⟩).x - 500150|
    ≤ 1 / 200 := by
  refine (C143_intersection_partial toNearest_isRounding (M := 2 ^ 23) (by norm_num) _ _ _ _ ⟨500150, 4000200, 0⟩ utm_sw utm_ne utm_se utm_nw
    (by rw [diag]; norm_num) (by rw [diag']; norm_num) (by rw [diag, diag']; norm_num [spanned]) ⟨1 / 2, by norm_num⟩ ⟨1 / 2, by norm_num⟩
    (by norm_num) (by norm_num)).1.trans ?_
  rw [diag, diag']
  norm_num [spanned]

end F2C.Props
