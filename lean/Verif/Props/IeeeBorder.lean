import Verif.Lemmas.IeeeBorder
import Verif.Props.IeeeGeom

/-! # C139: the closest point of a border in double precision -/

namespace F2C.Props

open Ieee Ieee.Flt Dbl SG IeeeGeo

variable {fl : ℝ → ℝ}

/-- A ring with at least two points, in the plane of height `z`, with coordinates of at most `M`. -/
def GoodRing (M z : ℝ) (r : List RPoint) : Prop := 2 ≤ r.length ∧ ∀ x ∈ r, Within M x ∧ x.z = z

/-- C139, one cell: the computed closest point on the border is on the border, up to 2^-48 times `M`, and nearest to the given
point, up to 2^-42 times `M`.  Partial as `C139_border_partial`. -/
theorem C139_cell_partial (h : IsRounding fl) (M z : ℝ) (h1 : (2 : ℝ) ^ (-250 : ℤ) ≤ M) (h2 : M ≤ 2 ^ 400) (p : RPoint)
    (hp : Within M p) (c : Cell ℝ) (hne : c ≠ []) (hc : ∀ r ∈ c, GoodRing M z r) :
    ∃ q : RPoint, Ieee.cellClosest fl (ofPoint p) (c.map (List.map ofPoint)) = .ok (ofPoint q) ∧ Within (2 * M) q ∧
      (∃ r ∈ c, ∃ b, OnLine r b ∧ pdist q b ≤ M / 2 ^ 48) ∧
      ∀ r ∈ c, ∀ b, OnLine r b → pdist p q ≤ pdist p b + (M / 2 ^ 43 + M / 2 ^ 45) := by
  have h0 : (2 : ℝ) ^ (-400 : ℤ) ≤ M := (zpow_le_zpow_right₀ (by norm_num) (by norm_num)).trans h1
  obtain ⟨qs, e, m1, m2⟩ := mapOutcome_points (f := Ieee.closestPointTo fl (Ieee.distance fl) (ofPoint p)) (List.map ofPoint)
    (R := fun r q => Within (2 * M) q ∧ (∃ b, OnLine r b ∧ pdist q b ≤ M / 2 ^ 48) ∧
      ∀ b, OnLine r b → pdist p q ≤ pdist p b + M / 2 ^ 43) c (fun r hr =>
    C136_line_partial h M h0 h2 (Ieee.distance fl) p hp (fun q hq => distance_err h M h1 h2 p q hp hq) r (hc r hr).1
      (fun x hx => ((hc r hr).2 x hx).1) (fun x hx y hy => (((hc r hr).2 x hx).2).trans ((hc r hr).2 y hy).2.symm))
  have hit : Cell.iter (c.map (List.map ofPoint)) = c.map (List.map ofPoint) := by
    unfold Cell.iter
    rw [if_neg]
    intro hall
    obtain ⟨r, hr⟩ := List.exists_mem_of_ne_nil c hne
    have := List.all_eq_true.1 hall _ (List.mem_map_of_mem hr)
    have h3 := (hc r hr).1
    cases r with
    | nil => simp at h3
    | cons a r => simp at this
  have hqs : qs ≠ [] := by
    obtain ⟨r, hr⟩ := List.exists_mem_of_ne_nil c hne
    obtain ⟨q, hq, -⟩ := m2 r hr
    exact List.ne_nil_of_mem hq
  obtain ⟨x, hx, ex, near⟩ := pick_near h M h1 h2 p hp qs hqs (fun q hq => by
    obtain ⟨r, -, g, -⟩ := m1 q hq
    exact g)
  obtain ⟨r, hr, g1, g2, -⟩ := m1 x hx
  refine ⟨x, ?_, g1, ⟨r, hr, g2⟩, fun r' hr' b hb => ?_⟩
  · unfold Ieee.cellClosest
    rw [hit, e, Outcome.ok_bind, ex]
  · obtain ⟨q, hq, -, -, k⟩ := m2 r' hr'
    linarith [k b hb, near q hq]

/-- C139: the closest point on the borders of cells, computed with doubles, is on a border, up to 2^-48 times `M`, and nearest
to the given point, up to 2^-42 times `M`.  Partial: all points of the borders have the same height, no ring has less than two
points, no cell is without rings, and `M` is neither extremely small nor extremely large. -/
theorem C139_border_partial (h : IsRounding fl) (M z : ℝ) (h1 : (2 : ℝ) ^ (-250 : ℤ) ≤ M) (h2 : M ≤ 2 ^ 400) (p : RPoint)
    (hp : Within M p) (cs : Cells ℝ) (hne : cs ≠ []) (hcs : ∀ c ∈ cs, c ≠ [] ∧ ∀ r ∈ c, GoodRing M z r) :
    ∃ q : RPoint, Ieee.cellsClosest fl (ofPoint p) (cs.map (List.map (List.map ofPoint))) = .ok (ofPoint q) ∧
      (∃ c ∈ cs, ∃ r ∈ c, ∃ b, OnLine r b ∧ pdist q b ≤ M / 2 ^ 48) ∧
      ∀ c ∈ cs, ∀ r ∈ c, ∀ b, OnLine r b → pdist p q ≤ pdist p b + M / 2 ^ 42 := by
  have hM0 : 0 < M := (two_zpow_pos _).trans_le h1
  obtain ⟨qs, e, m1, m2⟩ := mapOutcome_points (f := Ieee.cellClosest fl (ofPoint p)) (List.map (List.map ofPoint))
    (R := fun (c : Cell ℝ) q => Within (2 * M) q ∧ (∃ r ∈ c, ∃ b, OnLine r b ∧ pdist q b ≤ M / 2 ^ 48) ∧
      ∀ r ∈ c, ∀ b, OnLine r b → pdist p q ≤ pdist p b + (M / 2 ^ 43 + M / 2 ^ 45)) cs
    (fun c hc => C139_cell_partial h M z h1 h2 p hp c (hcs c hc).1 (hcs c hc).2)
  have hit : Cells.iter (cs.map (List.map (List.map ofPoint))) = cs.map (List.map (List.map ofPoint)) := by
    unfold Cells.iter
    rw [if_neg]
    intro hall
    obtain ⟨c, hc⟩ := List.exists_mem_of_ne_nil cs hne
    have := List.all_eq_true.1 hall _ (List.mem_map_of_mem hc)
    obtain ⟨r, hr⟩ := List.exists_mem_of_ne_nil c (hcs c hc).1
    have := List.all_eq_true.1 this _ (List.mem_map_of_mem hr)
    have h3 := ((hcs c hc).2 r hr).1
    cases r with
    | nil => simp at h3
    | cons a r => simp at this
  have hqs : qs ≠ [] := by
    obtain ⟨c, hc⟩ := List.exists_mem_of_ne_nil cs hne
    obtain ⟨q, hq, -⟩ := m2 c hc
    exact List.ne_nil_of_mem hq
  obtain ⟨x, hx, ex, near⟩ := pick_near h M h1 h2 p hp qs hqs (fun q hq => by
    obtain ⟨r, -, g, -⟩ := m1 q hq
    exact g)
  obtain ⟨c, hc, -, g2, -⟩ := m1 x hx
  refine ⟨x, ?_, ⟨c, hc, g2⟩, fun c' hc' r hr b hb => ?_⟩
  · unfold Ieee.cellsClosest
    rw [hit, e, Outcome.ok_bind, ex]
  · obtain ⟨q, hq, -, -, k⟩ := m2 c' hc'
    have k1 : M / 2 ^ 43 = 4 * (M / 2 ^ 45) := by ring
    have k2 : M / 2 ^ 42 = 8 * (M / 2 ^ 45) := by ring
    have k0 : 0 < M / 2 ^ 45 := by positivity
    linarith [k r hr b hb, near q hq]

/-- A field of 49 m with a triangular hole, and a second field beside it. -/
private def twoFields : Cells ℝ :=
  [[[⟨0, 0, 0⟩, ⟨49, 0, 0⟩, ⟨49, 49, 0⟩, ⟨0, 49, 0⟩, ⟨0, 0, 0⟩], [⟨10, 10, 0⟩, ⟨20, 10, 0⟩, ⟨10, 20, 0⟩, ⟨10, 10, 0⟩]],
    [[⟨60, 0, 0⟩, ⟨80, 0, 0⟩, ⟨80, 30, 0⟩, ⟨60, 0, 0⟩]]]

private theorem twoFields_good : ∀ c ∈ twoFields, c ≠ [] ∧ ∀ r ∈ c, GoodRing 100 0 r := by
  simp [twoFields, GoodRing, Within]
  norm_num [abs_le]

example : ∃ q : RPoint,
    Ieee.cellsClosest toNearest (ofPoint ⟨30, 7, 0⟩) (twoFields.map (List.map (List.map ofPoint))) = .ok (ofPoint q) ∧
      pdist ⟨30, 7, 0⟩ q ≤ 7 + 100 / 2 ^ 42 := by
  obtain ⟨q, e, -, hq⟩ := C139_border_partial toNearest_isRounding 100 0
    ((zpow_le_one_of_nonpos₀ (by norm_num) (by norm_num)).trans (by norm_num))
    (le_trans (by norm_num : (100 : ℝ) ≤ 2 ^ 7) (pow_le_pow_right₀ (by norm_num) (by norm_num))) ⟨30, 7, 0⟩
    (by norm_num [Within]) twoFields (by simp [twoFields]) twoFields_good
  refine ⟨q, e, (hq _ (List.mem_cons_self) _ (List.mem_cons_self) ⟨30, 0, 0⟩
    (Or.inl ⟨30 / 49, by norm_num, by norm_num, by norm_num, by norm_num⟩)).trans ?_⟩
  have : pdist ⟨30, 7, 0⟩ ⟨30, 0, 0⟩ = 7 := by
    unfold pdist
    rw [show ((30 : ℝ) - 30) ^ 2 + (7 - 0) ^ 2 = 7 ^ 2 by norm_num, Real.sqrt_sq (by norm_num)]
  rw [this]

/-- C139, what is not a number gets lost: the closest point to a point with a coordinate that is not a number is not marked as
such but is, up to rounding, the second point of the first ring of the first cell. -/
theorem C139_nan (h : IsRounding fl) (M : ℝ) (h1 : (2 : ℝ) ^ (-400 : ℤ) ≤ M) (h2 : M ≤ 2 ^ 400) (p : Point Flt)
    (hp : p.x = nan ∨ p.y = nan) (a b : RPoint) (l : List RPoint) (c : Cell ℝ) (cs : Cells ℝ)
    (hw : ∀ d ∈ (((a :: b :: l) :: c) :: cs : Cells ℝ), d ≠ [] ∧ ∀ r ∈ d, 2 ≤ r.length ∧ ∀ x ∈ r, Within M x) :
    ∃ q : RPoint, Ieee.cellsClosest fl p ((((a :: b :: l) :: c) :: cs).map (List.map (List.map ofPoint))) = .ok (ofPoint q) ∧
      pdist q b ≤ M / 2 ^ 48 := by
  have line : ∀ r : List RPoint, 2 ≤ r.length → (∀ x ∈ r, Within M x) →
      ∃ q, Ieee.closestPointTo fl (Ieee.distance fl) p (r.map ofPoint) = .ok (ofPoint q) ∧ ∀ u v w, r = u :: v :: w → pdist q v ≤ M / 2 ^ 48 := by
    intro r hr hx
    match r, hr, hx with
    | u :: v :: w, _, hx =>
      obtain ⟨q, e, hq⟩ := C136_line_nan h M h1 h2 (Ieee.distance fl) p (hp.imp_right Or.inl) (distance_nan hp) u v w
        (hx u (by simp)) (hx v (by simp))
      refine ⟨q, e, ?_⟩
      rintro _ _ _ ⟨⟩
      exact hq
  have cell : ∀ d : Cell ℝ, d ≠ [] → (∀ r ∈ d, 2 ≤ r.length ∧ ∀ x ∈ r, Within M x) →
      ∃ q, Ieee.cellClosest fl p (d.map (List.map ofPoint)) = .ok (ofPoint q) ∧
        ∀ u v w e, d = (u :: v :: w) :: e → pdist q v ≤ M / 2 ^ 48 := by
    intro d hd hr
    cases d with
    | nil => exact absurd rfl hd
    | cons r d =>
      obtain ⟨q, e, hq⟩ := line r (hr r (by simp)).1 (hr r (by simp)).2
      obtain ⟨qs, e', -⟩ := mapOutcome_points (f := Ieee.closestPointTo fl (Ieee.distance fl) p) (List.map ofPoint)
        (R := fun _ _ => True) d (fun r' hr' => by
          obtain ⟨q, e, -⟩ := line r' (hr r' (by simp [hr'])).1 (hr r' (by simp [hr'])).2
          exact ⟨q, e, trivial⟩)
      refine ⟨q, ?_, ?_⟩
      · have hit : Cell.iter ((r :: d).map (List.map ofPoint)) = r.map ofPoint :: d.map (List.map ofPoint) := by
          unfold Cell.iter
          rw [if_neg]
          · rfl
          · have := (hr r (by simp)).1
            cases r with
            | nil => simp at this
            | cons _ _ => simp
        unfold Ieee.cellClosest
        rw [hit, mapOutcome, e, Outcome.ok_bind, e', Outcome.ok_bind]
        exact pick_nan hp _ _
      · rintro u v w f ⟨⟩
        exact hq _ _ _ rfl
  obtain ⟨q, e, hq⟩ := cell ((a :: b :: l) :: c) (hw _ List.mem_cons_self).1 (hw _ List.mem_cons_self).2
  obtain ⟨qs, e', -⟩ := mapOutcome_points (f := Ieee.cellClosest fl p) (List.map (List.map ofPoint))
    (R := fun _ _ => True) cs (fun d hd => by
      obtain ⟨q, e, -⟩ := cell d (hw d (by simp [hd])).1 (hw d (by simp [hd])).2
      exact ⟨q, e, trivial⟩)
  refine ⟨q, ?_, hq _ _ _ _ rfl⟩
  have hit : Cells.iter ((((a :: b :: l) :: c) :: cs).map (List.map (List.map ofPoint))) =
      ((a :: b :: l) :: c).map (List.map ofPoint) :: cs.map (List.map (List.map ofPoint)) := by
    unfold Cells.iter
    rw [if_neg]
    · rfl
    · simp
  unfold Ieee.cellsClosest
  rw [hit, mapOutcome, e, Outcome.ok_bind, e', Outcome.ok_bind]
  exact pick_nan hp _ _

example : ∃ q : RPoint,
    Ieee.cellsClosest toNearest ⟨nan, fin 7, fin 0⟩ (twoFields.map (List.map (List.map ofPoint))) = .ok (ofPoint q) ∧
      pdist q ⟨49, 0, 0⟩ ≤ 100 / 2 ^ 48 :=
  C139_nan toNearest_isRounding 100
    ((zpow_le_one_of_nonpos₀ (by norm_num) (by norm_num)).trans (by norm_num))
    (le_trans (by norm_num : (100 : ℝ) ≤ 2 ^ 7) (pow_le_pow_right₀ (by norm_num) (by norm_num))) _ (Or.inl rfl) _ _ _ _ _
    (fun d hd => ⟨(twoFields_good d hd).1, fun r hr =>
      ⟨((twoFields_good d hd).2 r hr).1, fun x hx => (((twoFields_good d hd).2 r hr).2 x hx).1⟩⟩)

/-- C139: cells without points read an empty vector, and so does a cell with a ring of one point. -/
theorem C139_empty (p a : Point Flt) : (Ieee.cellsClosest fl p []).isUb ∧ (Ieee.cellClosest fl p []).isUb ∧
    (Ieee.cellClosest fl p [[a]]).isUb := by
  refine ⟨?_, ?_, ?_⟩
  · simp [Ieee.cellsClosest, Cells.iter, mapOutcome, Ieee.pickClosest]
  · simp [Ieee.cellClosest, Cell.iter, mapOutcome, Ieee.pickClosest]
  · simp [Ieee.cellClosest, Cell.iter, mapOutcome, Ieee.closestPointTo, Ieee.segmentClosest]

/-- C139: a point on the border need not be its own closest point.  The border of the triangle (0,0), (49,0), (0,49) goes
through (1,0), but the closest point computed for (1,0) is another one. -/
theorem C139_not_itself (h : IsRounding fl) : ∃ (p : RPoint) (r : List RPoint) (q : RPoint), OnLine r p ∧ r.head? = r.getLast? ∧
    (∀ x ∈ p :: r, IsDouble x.x ∧ IsDouble x.y ∧ IsDouble x.z) ∧
    Ieee.cellsClosest fl (ofPoint p) [[r.map ofPoint]] = .ok (ofPoint q) ∧ q ≠ p := by
  have dn : ∀ n : ℤ, |n| ≤ 2 ^ 53 → IsDouble (n : ℝ) := fun n hn => ⟨n, 0, hn, by norm_num, by simp⟩
  have d0 : IsDouble (0 : ℝ) := isDouble_zero
  have d1 : IsDouble (1 : ℝ) := by simpa using dn 1 (by norm_num)
  have d49 : IsDouble (49 : ℝ) := by simpa using dn 49 (by norm_num)
  have d2401 : IsDouble (2401 : ℝ) := by simpa using dn 2401 (by norm_num)
  have rs : ∀ {x : ℝ}, IsDouble x → |x| ≤ 2 ^ 20 → rnd fl x = fin x := fun hx hb => by
    rw [(rnd_pow h 20 (by norm_num) hb).1, h.self hx]
  have z0 : rnd fl 0 = fin 0 := rs d0 (by norm_num)
  have e1 : rnd fl 1 = fin 1 := rs d1 (by norm_num)
  have en1 : rnd fl (-1) = fin (-1) := rs d1.neg (by norm_num)
  have e49 : rnd fl 49 = fin 49 := rs d49 (by norm_num)
  have en49 : rnd fl (-49) = fin (-49) := rs d49.neg (by norm_num)
  have e2401 : rnd fl 2401 = fin 2401 := rs d2401 (by norm_num)
  have k1 : fl (49 / 2401) = 5882252574524729 / 2 ^ 58 := by
    rw [h.eq_of_close _ 5882252574524729 (-58) (by norm_num) (by norm_num) (by norm_num) (by norm_num [abs_lt])]
    norm_num
  have k2 : fl (49 * (5882252574524729 / 2 ^ 58)) = 1 - 1 / 2 ^ 53 := by
    rw [h.eq_of_close _ (2 ^ 53 - 1) (-53) (by norm_num) (by norm_num) (by norm_num) (by norm_num [abs_lt])]
    norm_num
  have k3 : fl (1 - 1 / 2 ^ 53) = 1 - 1 / 2 ^ 53 := by
    rw [← k2]
    exact h.self (h.double _)
  have r1 : rnd fl (49 / 2401) = fin (5882252574524729 / 2 ^ 58) := by
    rw [(rnd_pow h 0 (by norm_num) (by norm_num [abs_le])).1, k1]
  have r2 : rnd fl (49 * (5882252574524729 / 2 ^ 58)) = fin (1 - 1 / 2 ^ 53) := by
    rw [(rnd_pow h 0 (by norm_num) (by norm_num [abs_le])).1, k2]
  have r3 : rnd fl (1 - 1 / 2 ^ 53) = fin (1 - 1 / 2 ^ 53) := by
    rw [(rnd_pow h 0 (by norm_num) (by norm_num [abs_le])).1, k3]
  have c1 : Ieee.closestInSegment fl (ofPoint ⟨1, 0, 0⟩) (ofPoint ⟨0, 0, 0⟩) (ofPoint ⟨49, 0, 0⟩) =
      ofPoint ⟨1 - 1 / 2 ^ 53, 0, 0⟩ := by
    unfold Ieee.closestInSegment
    have q : (49 : ℝ) * 49 = 2401 := by norm_num
    simp only [limit_eq, psub, ofPoint, sub_fin, sub_zero, zero_sub, z0, en1, e49, pdot, mul_fin, mul_neg, mul_one, mul_zero,
      add_fin, add_zero, en49, neg, neg_neg, q, e2401]
    have e : div fl (fin 49) (fin 2401) = fin (5882252574524729 / 2 ^ 58) := by
      show (if (2401 : ℝ) = 0 then _ else rnd fl (49 / 2401)) = _
      rw [if_neg (by norm_num), r1]
    rw [e]
    have l : limit (fin (5882252574524729 / 2 ^ 58)) = 5882252574524729 / 2 ^ 58 := by
      norm_num [limit]
    simp only [l, pscale, padd, mul_fin, r2, zero_mul, z0, add_fin, add_zero, r3]
  let r : List RPoint := [⟨0, 0, 0⟩, ⟨49, 0, 0⟩, ⟨0, 49, 0⟩, ⟨0, 0, 0⟩]
  let p : RPoint := ⟨1, 0, 0⟩
  have hw : ∀ x ∈ r, Within 49 x ∧ x.z = 0 := by
    intro x hx
    simp only [r, List.mem_cons, List.not_mem_nil, or_false] at hx
    rcases hx with rfl | rfl | rfl | rfl <;> norm_num [Within]
  have b1 : (2 : ℝ) ^ (-250 : ℤ) ≤ 49 := (zpow_le_one_of_nonpos₀ (by norm_num) (by norm_num)).trans (by norm_num)
  have b1' : (2 : ℝ) ^ (-400 : ℤ) ≤ 49 := (zpow_le_one_of_nonpos₀ (by norm_num) (by norm_num)).trans (by norm_num)
  have b2 : (49 : ℝ) ≤ 2 ^ 400 := le_trans (by norm_num : (49 : ℝ) ≤ 2 ^ 6) (pow_le_pow_right₀ (by norm_num) (by norm_num))
  have hp : Within 49 p := by norm_num [Within, p]
  obtain ⟨q, e, -⟩ := C139_border_partial h 49 0 b1 b2 p hp [[r]] (by simp) (by
    intro c hc
    rw [List.mem_singleton] at hc
    subst hc
    exact ⟨by simp, fun r' hr' => by
      rw [List.mem_singleton] at hr'
      subst hr'
      exact ⟨by simp [r], hw⟩⟩)
  refine ⟨p, r, q, ?_, rfl, ?_, e, ?_⟩
  · exact Or.inl ⟨1 / 49, by norm_num, by norm_num, by norm_num [p], by norm_num [p]⟩
  · intro x hx
    simp only [p, r, List.mem_cons, List.not_mem_nil, or_false] at hx
    rcases hx with rfl | rfl | rfl | rfl | rfl <;> exact ⟨by assumption, by assumption, by assumption⟩
  · rintro rfl
    have e2 : Ieee.cellsClosest fl (ofPoint p) [[r.map ofPoint]] = .ok (ofPoint p) := e
    have far : ∀ s f : RPoint, s ∈ r → f ∈ r → (∀ b, OnSegment s f b → 1 / 2 ≤ pdist p b) →
        Ieee.closestInSegment fl (ofPoint p) (ofPoint s) (ofPoint f) ≠ ofPoint p := by
      intro s f hs hf hb hq
      obtain ⟨q, e, -, ⟨b, hon, hd⟩, -⟩ := C136_nearest_partial h 49 b1' b2 p s f hp (hw s hs).1 (hw f hf).1
        ((hw s hs).2.trans (hw f hf).2.symm)
      rw [hq] at e
      have : p = q := by
        simpa [ofPoint, Point.ext_iff] using e
      subst this
      have := hb b hon
      norm_num at hd this
      linarith
    have key : ofPoint p ∉ Ieee.segmentClosest fl (ofPoint p) (r.map ofPoint) := by
      simp only [r, List.map_cons, List.map_nil, Ieee.segmentClosest, List.mem_cons, List.not_mem_nil, or_false, not_or]
      refine ⟨?_, Ne.symm (far _ _ (by simp [r]) (by simp [r]) ?_), Ne.symm (far _ _ (by simp [r]) (by simp [r]) ?_)⟩
      · rw [c1]
        simp only [ofPoint, p, Point.mk.injEq, fin.injEq, and_true]
        norm_num
      · rintro b ⟨t, t0, t1, hx, hy⟩
        refine Real.le_sqrt_of_sq_le ?_
        simp only [p] at *
        nlinarith [sq_nonneg (b.x - 1 - b.y), sq_nonneg (1 - b.x + b.y)]
      · rintro b ⟨t, t0, t1, hx, hy⟩
        refine Real.le_sqrt_of_sq_le ?_
        simp only [p] at *
        nlinarith [sq_nonneg (b.y)]
    unfold Ieee.cellsClosest at e2
    have hit : Cells.iter [[r.map ofPoint]] = [[r.map ofPoint]] := by
      simp [Cells.iter, r]
    rw [hit, mapOutcome] at e2
    cases e3 : Ieee.cellClosest fl (ofPoint p) [r.map ofPoint] with
    | throw _ => rw [e3] at e2; simp at e2
    | ub _ => rw [e3] at e2; simp at e2
    | ok w =>
      rw [e3, Outcome.ok_bind, mapOutcome, Outcome.ok_bind] at e2
      simp only [Outcome.pure_eq, Outcome.ok_bind] at e2
      have m1 := pick_mem e2
      rw [List.mem_singleton] at m1
      subst m1
      unfold Ieee.cellClosest at e3
      have hit : Cell.iter [r.map ofPoint] = [r.map ofPoint] := by
        simp [Cell.iter, r]
      rw [hit, mapOutcome] at e3
      cases e4 : Ieee.closestPointTo fl (Ieee.distance fl) (ofPoint p) (r.map ofPoint) with
      | throw _ => rw [e4] at e3; simp at e3
      | ub _ => rw [e4] at e3; simp at e3
      | ok w =>
        rw [e4, Outcome.ok_bind, mapOutcome, Outcome.ok_bind] at e3
        simp only [Outcome.pure_eq, Outcome.ok_bind] at e3
        have m1 := pick_mem e3
        rw [List.mem_singleton] at m1
        subst m1
        exact key (line_mem e4)

end F2C.Props
