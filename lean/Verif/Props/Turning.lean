import Mathlib.Analysis.Real.Pi.Bounds
import Verif.Lemmas.Turning
import Verif.Lemmas.TurningCC

/-! # C30-C32, C42, C43: turns -/

namespace F2C.Props

open Real Turning TurningSpec

set_option linter.unusedSimpArgs false

/-- a simple "turn" for examples: drive straight to the end; turn on the spot -/
noncomputable def lineSolver : Solver := fun r disc d a b =>
  .ok [⟨⟨0, 0, 0⟩, a, disc, .forward, .turn, r.turnVel⟩, ⟨⟨d, 0, 0⟩, b, 0, .forward, .turn, r.turnVel⟩]

/-! ## C30 -/

/-- C30, partial: if the turn is computed, i.e. the cache is switched off or does not know it, and the
solver is accurate to 5 cm, then the result is empty or joins the two poses exactly.  Missing: turns
taken from the cache, see `C30_cached` and `C30_cached_wrong_angle`. -/
theorem C30_computed_partial (solve : Solver) (t t' : Planner) (r : Robot) (p1 : RPoint) (a1 : ℝ)
    (p2 : RPoint) (a2 : ℝ) (q : Path)
    (hacc : ∀ d a b p, solve r t.disc d a b = .ok p → Accurate (1 / 20) d a b p)
    (hnew : t.useCache = false ∨ t.cache = [])
    (h : createTurn solve t r p1 a1 p2 a2 = .ok (q, t')) :
    q = [] ∨ Joins 0 p1 a1 p2 a2 q := by
  obtain ⟨p, rfl, hp⟩ := createTurn_ok h
  have hs : solve r t.disc (normalTurn p1 a1 p2 a2).dist (normalTurn p1 a1 p2 a2).start
      (normalTurn p1 a1 p2 a2).stop = .ok p := by
    rcases hp with ⟨hu, hc⟩ | ⟨_, _, hs⟩
    · rcases hnew with hn | hn
      · rw [hn] at hu; cases hu
      · obtain ⟨k, _, h1 | h1⟩ := turnIfNotCached_ok hc
        · rw [hn] at h1; simp at h1
        · exact h1.2.1
    · exact hs
  have ha := hacc _ _ _ _ hs
  apply finish_joins
  intro f l hf hl
  obtain ⟨h1, h2, h3, h4⟩ := ha f l hf hl
  have e : (1 : ℝ) / 20 < maxError := by unfold maxError; norm_num
  rw [normal_dist] at h3
  exact ⟨lt_of_le_of_lt h1 e, nearHeading_zero.2 h2, lt_of_le_of_lt h3 e, nearHeading_zero.2 h4⟩

/-- C30, for any history of the planner: with a solver that is accurate to 4.9 cm a turn is empty or
starts and ends exactly in the two positions; the headings are right up to 1 mrad.  (The earlier
requests have non-negative distance and angles, as all those of `createTurn` have.) -/
theorem C30_cached (solve : Solver) (t t' : Planner) (hist : List Request) (r : Robot) (p1 : RPoint)
    (a1 : ℝ) (p2 : RPoint) (a2 : ℝ) (q : Path) (ht : Reach solve t hist)
    (hpos : ∀ q ∈ hist, 0 ≤ q.dist ∧ 0 ≤ q.start ∧ 0 ≤ q.stop)
    (hacc : ∀ (q : Request) p, q.answer solve = .ok p → Accurate (49 / 1000) q.dist q.start q.stop p)
    (h : createTurn solve t r p1 a1 p2 a2 = .ok (q, t')) :
    q = [] ∨ Joins (1 / 1000) p1 a1 p2 a2 q := by
  obtain ⟨p, rfl, hp⟩ := createTurn_ok h
  obtain ⟨r1, r2, r3, r4⟩ := normal_ranges p1 p2 a1 a2
  have hd : 0 ≤ (normalTurn p1 a1 p2 a2).dist := by rw [normal_dist]; exact pdist_nonneg _ _
  have hs : ∃ q0 : Request, q0.answer solve = .ok p ∧
      |q0.dist - (normalTurn p1 a1 p2 a2).dist| ≤ 1 / 1000 ∧
      |q0.start - (normalTurn p1 a1 p2 a2).start| ≤ 1 / 1000 ∧
      |q0.stop - (normalTurn p1 a1 p2 a2).stop| ≤ 1 / 1000 := by
    rcases hp with ⟨hu, hc⟩ | ⟨_, _, hs⟩
    · obtain ⟨q0, hq, ⟨_, _, k3, k4, k5⟩, hans⟩ := cached_answer ht hc
      have hq0 : 0 ≤ q0.dist ∧ 0 ≤ q0.start ∧ 0 ≤ q0.stop := by
        rcases List.mem_cons.1 hq with rfl | hq
        · exact ⟨hd, r1, r3⟩
        · exact hpos q0 hq
      exact ⟨q0, hans, thousandths_near hq0.1 hd k3, thousandths_near hq0.2.1 r1 k4,
        thousandths_near hq0.2.2 r3 k5⟩
    · exact ⟨⟨r, t.disc, _, _, _⟩, hs, by norm_num, by norm_num, by norm_num⟩
  obtain ⟨q0, hans, d1, d2, d3⟩ := hs
  apply finish_joins
  intro f l hf hl
  obtain ⟨h1, h2, h3, h4⟩ := hacc q0 p hans f l hf hl
  have e : (1 : ℝ) / 20 < maxError := by unfold maxError; norm_num
  have near : ∀ x y z : ℝ, SameHeading x y → |y - z| ≤ 1 / 1000 → NearHeading (1 / 1000) x z := by
    rintro x y z ⟨k, rfl⟩ hyz
    refine ⟨k, ?_⟩
    have : x - z + k * (2 * π) = x + k * (2 * π) - z := by ring
    rw [this]; exact hyz
  refine ⟨by linarith, near _ _ _ h2 d2, ?_, near _ _ _ h4 d3⟩
  have htri := pdist_triangle l.point ⟨q0.dist, 0, 0⟩ ⟨pdist p1 p2, 0, 0⟩
  have hlast : pdist (⟨q0.dist, 0, 0⟩ : RPoint) ⟨pdist p1 p2, 0, 0⟩ ≤ 1 / 1000 := by
    rw [normal_dist] at d1
    unfold pdist at d1 ⊢
    simp only [sub_self, ne_eq, OfNat.ofNat_ne_zero, not_false_eq_true, zero_pow, add_zero,
      Real.sqrt_sq_eq_abs]
    exact d1
  linarith

/-- C30, for any solver, accurate or not: the turn is the simple turn of the solver moved as a whole.  Only
the two ends are corrected, and only if they are about 5 cm or less away from where they belong. -/
theorem C30_only_ends_moved (solve : Solver) (t t' : Planner) (r : Robot) (p1 : RPoint) (a1 : ℝ)
    (p2 : RPoint) (a2 : ℝ) (q : Path) (hc : t.useCache = false)
    (h : createTurn solve t r p1 a1 p2 a2 = .ok (q, t')) :
    ∃ d a b p, solve r t.disc d a b = .ok p ∧ ((List.length p ≤ 1 ∧ q = []) ∨
      ∃ (m : Placement) (f l f' l' : PathState ℝ) (mid mid' : Path),
        p = f :: (mid ++ [l]) ∧ q = f' :: (mid' ++ [l']) ∧
        CarriedEnd m p1 f f' ∧ CarriedEnd m p2 l l' ∧
        List.Forall₂ (fun s s' => Carried m s s' ∧ xy s'.point = m.map (xy s.point)) mid mid') := by
  obtain ⟨p, rfl, hp⟩ := createTurn_ok h
  have hs : solve r t.disc (normalTurn p1 a1 p2 a2).dist (normalTurn p1 a1 p2 a2).start
      (normalTurn p1 a1 p2 a2).stop = .ok p := by
    rcases hp with ⟨hu, -⟩ | ⟨_, _, hs⟩
    · rw [hc] at hu; cases hu
    · exact hs
  refine ⟨_, _, _, p, hs, ?_⟩
  by_cases hlen : List.length p ≤ 1
  · exact .inl ⟨hlen, by unfold finish; rw [if_pos hlen]⟩
  right
  obtain ⟨f, mid, l, rfl⟩ := two_ends p hlen
  generalize normalTurn p1 a1 p2 a2 = n
  have hcar : ∀ s, Carried (back p1 n) s (placed p1 n s) := fun s =>
    have hr := placed_rest p1 n s
    ⟨placed_heading p1 n s, hr.1, hr.2.1, hr.2.2.1, hr.2.2.2⟩
  have hoff : ∀ s p, (back p1 n).off s p = pdist (placed p1 n s).point p := fun s p => by
    unfold Placement.off
    rw [← placed_xy]; rfl
  have hend : ∀ s target, CarriedEnd (back p1 n) target s
      (if pdist (placed p1 n s).point target < maxError then { placed p1 n s with point := target }
        else placed p1 n s) := by
    intro s target
    have hs := hcar s
    split
    · rename_i hlt
      refine ⟨⟨hs.1, hs.2, hs.3, hs.4, hs.5⟩, .inl ⟨?_, rfl⟩⟩
      rw [hoff]; refine hlt.le.trans ?_; unfold maxError; norm_num
    · rename_i hlt
      refine ⟨hs, .inr ⟨?_, placed_xy p1 n s⟩⟩
      rw [hoff]; refine le_trans ?_ (not_lt.1 hlt); unfold maxError; norm_num
  refine ⟨back p1 n, f, l, _, _, mid, mid.map (placed p1 n), rfl, ?_, hend f p1, hend l p2, ?_⟩
  · unfold finish correct
    rw [if_neg hlen, place_mirror, if_neg (by simp), List.map_cons, List.map_append, List.map_singleton]
    unfold correctStart correctEnd
    simp only
    rw [← List.cons_append, List.getLast?_append]
    simp only [List.getLast?_singleton, Option.some_or, List.dropLast_concat]
    split <;> simp
  · rw [List.forall₂_map_right_iff]
    exact List.forall₂_same.2 fun s _ => ⟨hcar s, placed_xy p1 n s⟩

/-- C30: what the solver leaves in the last state is where the path ends: with a last state of
length 0 (C43) the path as a whole ends in the end position. -/
theorem C30_end_of_path (δ : ℝ) (p1 : RPoint) (a1 : ℝ) (p2 : RPoint) (a2 : ℝ) (q : Path)
    (h : Joins δ p1 a1 p2 a2 q) (hlast : ∀ l, List.getLast? q = some l → l.len = 0) :
    ∃ e, q.atEnd = .ok e ∧ xy e = xy p2 := by
  obtain ⟨f, l, _, hl, _, hp, _⟩ := h
  refine ⟨l.atEnd, by unfold Path.atEnd; rw [hl], ?_⟩
  unfold PathState.atEnd pointFromAngle xy
  simp [hlast l hl, hp]

theorem lineSolver_accurate (ε : ℝ) (hε : 0 ≤ ε) (r : Robot) (disc d a b : ℝ) (p : Path)
    (h : lineSolver r disc d a b = .ok p) : Accurate ε d a b p := by
  unfold lineSolver at h
  injection h with h
  subst h
  intro f l hf hl
  simp only [List.head?_cons, Option.some.injEq, List.getLast?_cons_cons, List.getLast?_singleton]
    at hf hl
  subst hf; subst hl
  simp only [pdist_self]
  exact ⟨hε, SameHeading.refl _, hε, SameHeading.refl _⟩

private theorem line_uncached (r : Robot) (p1 p2 : RPoint) (a1 a2 disc : ℝ) :
    createTurn lineSolver ⟨[], disc, false⟩ r p1 a1 p2 a2 =
      .ok (finish (normalTurn p1 a1 p2 a2) p1 p2
        [⟨⟨0, 0, 0⟩, (normalTurn p1 a1 p2 a2).start, disc, .forward, .turn, r.turnVel⟩,
         ⟨⟨(normalTurn p1 a1 p2 a2).dist, 0, 0⟩, (normalTurn p1 a1 p2 a2).stop, 0, .forward, .turn,
           r.turnVel⟩], ⟨[], disc, false⟩) := rfl

example (p1 p2 : RPoint) (a1 a2 : ℝ) : ∃ d a b p, lineSolver Robot.default 1 d a b = .ok p ∧
    ((List.length p ≤ 1 ∧ finish (normalTurn p1 a1 p2 a2) p1 p2 p = []) ∨
      ∃ m f f', List.head? p = some f ∧ CarriedEnd m p1 f f') := by
  obtain ⟨d, a, b, p, h1, h2⟩ :=
    C30_only_ends_moved lineSolver _ _ _ p1 a1 p2 a2 _ rfl (line_uncached Robot.default p1 p2 a1 a2 1)
  refine ⟨d, a, b, p, h1, ?_⟩
  rcases h2 with ⟨h, -⟩ | ⟨m, f, l, f', l', mid, mid', rfl, -, h, -⟩
  · exact .inl ⟨h, by unfold finish; rw [if_pos h]⟩
  · exact .inr ⟨m, f, f', rfl, h⟩

/-- The turn from (1, 2) heading 1 to (5, 5) heading 4 exists and is not empty. -/
example : ∃ q t', createTurn lineSolver ⟨[], 1, false⟩ Robot.default ⟨1, 2, 0⟩ 1 ⟨5, 5, 0⟩ 4 =
    .ok (q, t') ∧ q ≠ [] ∧ Joins 0 ⟨1, 2, 0⟩ 1 ⟨5, 5, 0⟩ 4 q := by
  have h := line_uncached Robot.default ⟨1, 2, 0⟩ ⟨5, 5, 0⟩ 1 4 1
  refine ⟨_, _, h, ?_⟩
  rcases C30_computed_partial lineSolver _ _ _ _ _ _ _ _
    (fun d a b p => lineSolver_accurate (1 / 20) (by norm_num) _ _ d a b p) (.inl rfl) h with hh | hh
  · exfalso
    have := congrArg List.length hh
    rw [show ([⟨⟨0, 0, 0⟩, (normalTurn ⟨1, 2, 0⟩ 1 ⟨5, 5, 0⟩ 4).start, 1, .forward, .turn,
      Robot.default.turnVel⟩, ⟨⟨(normalTurn ⟨1, 2, 0⟩ 1 ⟨5, 5, 0⟩ 4).dist, 0, 0⟩,
      (normalTurn ⟨1, 2, 0⟩ 1 ⟨5, 5, 0⟩ 4).stop, 0, .forward, .turn, Robot.default.turnVel⟩] : Path) =
      ⟨⟨0, 0, 0⟩, (normalTurn ⟨1, 2, 0⟩ 1 ⟨5, 5, 0⟩ 4).start, 1, .forward, .turn,
      Robot.default.turnVel⟩ :: ([] ++ [⟨⟨(normalTurn ⟨1, 2, 0⟩ 1 ⟨5, 5, 0⟩ 4).dist, 0, 0⟩,
      (normalTurn ⟨1, 2, 0⟩ 1 ⟨5, 5, 0⟩ 4).stop, 0, .forward, .turn, Robot.default.turnVel⟩]) from rfl,
      finish_spec _ _ _ _ _ _ _ (by rw [pdist_self]; unfold maxError; norm_num)
        (by rw [normal_dist, pdist_self]; unfold maxError; norm_num)] at this
    simp at this
  · refine ⟨?_, hh⟩
    rintro hq
    obtain ⟨f, l, hf, _⟩ := hh
    rw [hq] at hf; cases hf

/-- A new planner with the cache on. -/
example : ∃ q t', createTurn lineSolver Planner.default Robot.default ⟨1, 2, 0⟩ 1 ⟨5, 5, 0⟩ 4 =
    .ok (q, t') ∧ (q = [] ∨ Joins (1 / 1000) ⟨1, 2, 0⟩ 1 ⟨5, 5, 0⟩ 4 q) := by
  obtain ⟨r1, r2, r3, r4⟩ := normal_ranges ⟨1, 2, 0⟩ ⟨5, 5, 0⟩ 1 4
  have hp := Real.pi_lt_d2
  have hd : (normalTurn ⟨1, 2, 0⟩ 1 ⟨5, 5, 0⟩ 4).dist = 5 := by
    rw [normal_dist]; unfold pdist
    rw [show ((1 : ℝ) - 5) ^ 2 + (2 - 5) ^ 2 = 5 ^ 2 by norm_num, Real.sqrt_sq (by norm_num)]
  obtain ⟨k, hk⟩ := key_defined Robot.default (normalTurn ⟨1, 2, 0⟩ 1 ⟨5, 5, 0⟩ 4).dist
    (normalTurn ⟨1, 2, 0⟩ 1 ⟨5, 5, 0⟩ 4).start (normalTurn ⟨1, 2, 0⟩ 1 ⟨5, 5, 0⟩ 4).stop (by
    rw [hd]
    simp only [Robot.default, List.mem_cons, List.not_mem_nil, or_false, forall_eq_or_imp, forall_eq]
    refine ⟨by norm_num [abs_of_pos], by norm_num [abs_of_pos], by norm_num [abs_of_pos], ?_, ?_⟩
    · rw [abs_of_nonneg r1]; linarith
    · rw [abs_of_nonneg r3]; linarith)
  have hc := turn_new lineSolver Planner.default Robot.default _ _ _ k _ hk rfl rfl
  obtain ⟨q, t', h⟩ : ∃ q t', createTurn lineSolver Planner.default Robot.default ⟨1, 2, 0⟩ 1
      ⟨5, 5, 0⟩ 4 = .ok (q, t') := by
    unfold createTurn simpleTurn
    simp only [show Planner.default.useCache = true from rfl, if_true]
    rw [hc, Outcome.ok_bind]; exact ⟨_, _, rfl⟩
  exact ⟨q, t', h, C30_cached lineSolver _ _ [] _ _ _ _ _ _ Reach.new (by simp)
    (fun q p hq => lineSolver_accurate (49 / 1000) (by norm_num) _ _ _ _ _ p hq) h⟩

/-! ## C31 -/

/-- C31: distance and ranges. -/
theorem C31_ranges (p1 p2 : RPoint) (a1 a2 : ℝ) :
    (normalTurn p1 a1 p2 a2).dist = pdist p1 p2 ∧
    0 ≤ (normalTurn p1 a1 p2 a2).angle ∧ (normalTurn p1 a1 p2 a2).angle < 2 * π ∧
    0 ≤ (normalTurn p1 a1 p2 a2).start ∧ (normalTurn p1 a1 p2 a2).start ≤ π ∧
    0 ≤ (normalTurn p1 a1 p2 a2).stop ∧ (normalTurn p1 a1 p2 a2).stop < 2 * π := by
  refine ⟨normal_dist _ _ _ _, ?_, ?_, normal_ranges _ _ _ _⟩
  · rw [normal_angle]; exact mod2pi_nonneg _
  · rw [normal_angle]; exact mod2pi_lt _

/-- C31: mirroring (if inverted), rotating by the angle and moving to the start point takes the
normal turn, from the origin along the x axis, back to the original one. -/
theorem C31_invertible (p1 p2 : RPoint) (a1 a2 : ℝ) :
    ∃ m : Placement, m.flip = (normalTurn p1 a1 p2 a2).inverted ∧
      m.rot = (normalTurn p1 a1 p2 a2).angle ∧ (m.dx, m.dy) = xy p1 ∧
      m.map (0, 0) = xy p1 ∧ m.map ((normalTurn p1 a1 p2 a2).dist, 0) = xy p2 ∧
      SameHeading (m.heading (normalTurn p1 a1 p2 a2).start) a1 ∧
      SameHeading (m.heading (normalTurn p1 a1 p2 a2).stop) a2 :=
  ⟨back p1 (normalTurn p1 a1 p2 a2), rfl, rfl, rfl, (normal_back_points p1 p2 a1 a2).1,
    (normal_back_points p1 p2 a1 a2).2, (normal_back_heading p1 p2 a1 a2).1,
    (normal_back_heading p1 p2 a1 a2).2⟩

/-- C31, partial: turns that are moved copies of each other have the same normal form, if start and
end differ, and for mirrored copies also the normal start angle is neither 0 nor π.  Missing: the
excluded cases, where it is false, see `C31_mirror_differs` and `C31_same_point_differs`. -/
theorem C31_canonical_partial (m : Placement) (p1 p2 q1 q2 : RPoint) (a1 a2 b1 b2 : ℝ)
    (h1 : xy q1 = m.map (xy p1)) (h2 : xy q2 = m.map (xy p2))
    (g1 : SameHeading b1 (m.heading a1)) (g2 : SameHeading b2 (m.heading a2))
    (hd : ¬ (p1.x = p2.x ∧ p1.y = p2.y))
    (hm : m.flip = true → (normalTurn p1 a1 p2 a2).start ≠ 0 ∧ (normalTurn p1 a1 p2 a2).start ≠ π) :
    (normalTurn q1 b1 q2 b2).dist = (normalTurn p1 a1 p2 a2).dist ∧
    (normalTurn q1 b1 q2 b2).start = (normalTurn p1 a1 p2 a2).start ∧
    (normalTurn q1 b1 q2 b2).stop = (normalTurn p1 a1 p2 a2).stop ∧
    (normalTurn q1 b1 q2 b2).inverted = ((normalTurn p1 a1 p2 a2).inverted != m.flip) :=
  normal_moved m p1 p2 q1 q2 a1 a2 b1 b2 h1 h2 g1 g2 hd hm

/-- A left turn by 2 rad after 5 m, moved, and mirrored. -/
example : (normalTurn ⟨1, 1, 0⟩ 1 ⟨6, 1, 0⟩ 2).start =
    (normalTurn ⟨3, 2, 0⟩ (1 + π / 2) ⟨3, 7, 0⟩ (2 + π / 2)).start := by
  refine ((C31_canonical_partial ⟨false, π / 2, 4, 1⟩ ⟨1, 1, 0⟩ ⟨6, 1, 0⟩ _ _ 1 2 _ _ ?_ ?_
    (SameHeading.refl _) (SameHeading.refl _) (by norm_num) (by simp)).2.1).symm
  · simp [xy, Placement.map]; norm_num
  · simp [xy, Placement.map]; norm_num

/-- C31 fails for mirrored copies if the start heading points along the line between the points: the
mirror image of a turn that ends to the left of the line has another end angle. -/
theorem C31_mirror_differs :
    (normalTurn ⟨0, 0, 0⟩ 0 ⟨1, 0, 0⟩ (π / 2)).stop = π / 2 ∧
    (normalTurn ⟨0, 0, 0⟩ (-0) ⟨1, 0, 0⟩ (-(π / 2))).stop = 3 * π / 2 := by
  have hp := Real.pi_pos
  have ha : angleFromPoint (Point.sub ⟨1, 0, 0⟩ ⟨0, 0, 0⟩) = 0 := angle_unit
  have h0 : mod2pi 0 = 0 := mod2pi_of_range (le_refl _) (by linarith)
  have h1 : mod2pi (-(π / 2)) = 3 * π / 2 :=
    mod2pi_unique (by linarith) (by linarith) ⟨1, by push_cast; ring⟩
  unfold normalTurn
  simp only [ha, h0, sub_zero, neg_zero]
  rw [if_neg (by linarith), if_neg (by linarith)]
  exact ⟨mod2pi_of_range (by linarith) (by linarith), h1⟩

/-- C31 fails for rotated copies if the turn ends where it starts. -/
theorem C31_same_point_differs :
    (normalTurn ⟨0, 0, 0⟩ 0 ⟨0, 0, 0⟩ 0).start = 0 ∧
    (normalTurn ⟨0, 0, 0⟩ (π / 2) ⟨0, 0, 0⟩ (π / 2)).start = π / 2 := by
  have hp := Real.pi_pos
  have ha : angleFromPoint (Point.sub (⟨0, 0, 0⟩ : RPoint) ⟨0, 0, 0⟩) = 0 := angle_null
  have h0 : mod2pi 0 = 0 := mod2pi_of_range (le_refl _) (by linarith)
  have h1 : mod2pi (π / 2) = π / 2 := mod2pi_of_range (by linarith) (by linarith)
  unfold normalTurn
  simp only [ha, h0, sub_zero, h1]
  rw [if_neg (by linarith), if_neg (by linarith)]
  exact ⟨rfl, rfl⟩

/-! ## C32 -/

/-- C32: whatever happened before, a cached answer is what the solver said (with the discretisation of
that time) about this request or an earlier one that agrees with it in the limits of the robot, the
distance and the angles, all cut to thousandths. -/
theorem C32_answer_of_alike (solve : Solver) (t t' : Planner) (hist : List Request)
    (h : Reach solve t hist) (r : Robot) (d a b : ℝ) (p : Path)
    (hc : turnIfNotCached solve t r d a b = .ok (p, t')) :
    ∃ q ∈ (⟨r, t.disc, d, a, b⟩ :: hist : List Request),
      Alike q ⟨r, t.disc, d, a, b⟩ ∧ q.answer solve = .ok p :=
  cached_answer h hc

/-- C32, partial: the cache is invisible if the numbers fit into an `int` and the solver says the same
about all earlier requests that agree up to thousandths; in particular if they are the same.  Missing:
any other requests, where the statement is false, see `C32_velocity`, `C32_discretization`,
`C32_rounding`. -/
theorem C32_transparent_partial (solve : Solver) (t : Planner) (hist : List Request)
    (h : Reach solve t hist) (r : Robot) (d a b : ℝ)
    (hr : ∀ v ∈ [r.maxCurv, r.diffCurv, d, a, b], |v| ≤ 2000000)
    (hsame : ∀ q ∈ hist, Alike q ⟨r, t.disc, d, a, b⟩ →
      q.answer solve = solve r t.disc d a b) :
    (turnIfNotCached solve t r d a b).map Prod.fst = solve r t.disc d a b := by
  obtain ⟨k, hk⟩ := key_defined r d a b hr
  cases hl : t.cache.lookup k with
  | some p =>
    obtain ⟨q, hq, h2, h3⟩ := reach_cache h k p (lookup_mem hl)
    have e := hsame q hq (alike_of_key h2 hk)
    unfold turnIfNotCached
    rw [hk, Outcome.ok_bind]
    simp only [hl]
    rw [← e, h3]; rfl
  | none =>
    unfold turnIfNotCached
    rw [hk, Outcome.ok_bind]
    simp only [hl]
    cases solve r t.disc d a b <;> rfl

/-- Asking twice for the same turn gives the same path. -/
example (r : Robot) (h1 : r.maxCurv = 1) (h2 : r.diffCurv = 1) :
    ∃ p t, turnIfNotCached lineSolver Planner.default r 3 1 2 = .ok (p, t) ∧
      (turnIfNotCached lineSolver t r 3 1 2).map Prod.fst = .ok p := by
  have hr : ∀ v ∈ [r.maxCurv, r.diffCurv, 3, 1, 2], |v| ≤ 2000000 := by
    rw [h1, h2]
    simp only [List.mem_cons, List.not_mem_nil, or_false, forall_eq_or_imp, forall_eq]
    norm_num [abs_of_pos]
  obtain ⟨k, hk⟩ := key_defined r 3 1 2 hr
  have hc := turn_new lineSolver Planner.default r 3 1 2 k _ hk rfl rfl
  refine ⟨_, _, hc, ?_⟩
  rw [C32_transparent_partial lineSolver _ _ (Reach.call Reach.new hc) r 3 1 2 hr]
  · rfl
  · intro q hq _
    simp only [List.mem_singleton] at hq
    subst hq; rfl

/-- one cached turn, then another one with the same key -/
private theorem second (r r' : Robot) (disc' d a b d' a' b' : ℝ) (k : List Int)
    (hk : key r d a b = .ok k) (hk' : key r' d' a' b' = .ok k) :
    ∃ p t, turnIfNotCached lineSolver Planner.default r d a b = .ok (p, t) ∧
      turnIfNotCached lineSolver (t.setDisc disc') r' d' a' b' = .ok (p, t.setDisc disc') ∧
      lineSolver r (1 / 100) d a b = .ok p := by
  have hc := turn_new lineSolver Planner.default r d a b k _ hk rfl rfl
  refine ⟨_, _, hc, ?_, rfl⟩
  unfold turnIfNotCached
  rw [hk', Outcome.ok_bind]
  simp [Planner.setDisc, List.lookup_cons]

/-- C32 fails if the turn velocity of the robot is changed between two calls: the second path has the
old velocity. -/
theorem C32_velocity : ∃ (t : Planner) (hist : List Request) (r : Robot) (p : Path),
    Reach lineSolver t hist ∧ r.turnVel = 2 ∧
    turnIfNotCached lineSolver t r 3 1 2 = .ok (p, t) ∧
    (∀ s ∈ p, s.velocity = 1) ∧ lineSolver r t.disc 3 1 2 ≠ .ok p := by
  obtain ⟨k, hk⟩ := key_defined Robot.default 3 1 2 (by
    simp only [Robot.default]
    intro v hv; simp at hv; rcases hv with rfl | rfl | rfl | rfl | rfl <;> norm_num [abs_of_pos])
  have hk' : key (Robot.default.setTurnVel 2) 3 1 2 = .ok k := hk
  obtain ⟨p, t, h1, h2, h3⟩ := second Robot.default (Robot.default.setTurnVel 2) (1 / 100) 3 1 2 3 1 2
    k hk hk'
  refine ⟨_, _, _, p, Reach.setDisc (1 / 100) (Reach.call Reach.new h1), rfl, h2, ?_, ?_⟩
  · unfold lineSolver at h3
    injection h3 with h3
    subst h3
    intro s hs
    simp only [List.mem_cons, List.not_mem_nil, or_false] at hs
    rcases hs with rfl | rfl <;> rfl
  · unfold lineSolver at h3 ⊢
    injection h3 with h3
    subst h3
    intro he
    injection he with he
    simp [Robot.turnVel, Robot.setTurnVel, Robot.default] at he

/-- C32 fails if the discretisation is changed between two calls. -/
theorem C32_discretization : ∃ (t : Planner) (hist : List Request) (p : Path),
    Reach lineSolver t hist ∧ t.disc = 5 ∧
    turnIfNotCached lineSolver t Robot.default 3 1 2 = .ok (p, t) ∧
    lineSolver Robot.default (1 / 100) 3 1 2 = .ok p ∧ lineSolver Robot.default 5 3 1 2 ≠ .ok p := by
  obtain ⟨k, hk⟩ := key_defined Robot.default 3 1 2 (by
    simp only [Robot.default]
    intro v hv; simp at hv; rcases hv with rfl | rfl | rfl | rfl | rfl <;> norm_num [abs_of_pos])
  obtain ⟨p, t, h1, h2, h3⟩ := second Robot.default Robot.default 5 3 1 2 3 1 2 k hk hk
  refine ⟨_, _, p, Reach.setDisc 5 (Reach.call Reach.new h1), rfl, h2, h3, ?_⟩
  unfold lineSolver at h3 ⊢
  injection h3 with h3
  subst h3
  intro he
  injection he with he
  norm_num at he

/-- C32 fails for turns that differ by less than a millimetre. -/
theorem C32_rounding : ∃ (t : Planner) (hist : List Request) (p : Path),
    Reach lineSolver t hist ∧ t.disc = 1 / 100 ∧
    turnIfNotCached lineSolver t Robot.default (30001 / 10000) 1 2 = .ok (p, t) ∧
    lineSolver Robot.default (1 / 100) 3 1 2 = .ok p ∧
    lineSolver Robot.default (1 / 100) (30001 / 10000) 1 2 ≠ .ok p := by
  have hr : ∀ d : ℝ, (d = 3 ∨ d = 30001 / 10000) →
      ∀ v ∈ [Robot.default.maxCurv, Robot.default.diffCurv, d, 1, 2], |v| ≤ 2000000 := by
    simp only [Robot.default]
    intro d hd v hv
    rcases hd with rfl | rfl <;> simp at hv <;> rcases hv with rfl | rfl | rfl | rfl | rfl <;>
      norm_num [abs_of_pos]
  obtain ⟨k, hk⟩ := key_defined Robot.default 3 1 2 (hr _ (.inl rfl))
  obtain ⟨k', hk'⟩ := key_defined Robot.default (30001 / 10000) 1 2 (hr _ (.inr rfl))
  have e : k' = k := by
    rw [key_ok hk, key_ok hk']
    have : thousandths (30001 / 10000) = thousandths 3 := by
      unfold thousandths
      rw [if_pos (by norm_num), if_pos (by norm_num)]
      norm_num [Int.floor_eq_iff]
    rw [this]
  rw [e] at hk'
  obtain ⟨p, t, h1, h2, h3⟩ := second Robot.default Robot.default (1 / 100) 3 1 2 (30001 / 10000) 1 2
    k hk hk'
  refine ⟨_, _, p, Reach.setDisc (1 / 100) (Reach.call Reach.new h1), rfl, h2, h3, ?_⟩
  unfold lineSolver at h3 ⊢
  injection h3 with h3
  subst h3
  intro he
  injection he with he
  norm_num at he

/-- C30 fails with the cache: a turn that is 0.5 mrad different from an earlier one starts with the
heading of the earlier one, although the solver is exact. -/
theorem C30_cached_wrong_angle : ∃ (t t' : Planner) (hist : List Request) (q : Path),
    Reach lineSolver t hist ∧
    createTurn lineSolver t Robot.default ⟨0, 0, 0⟩ 0 ⟨1, 0, 0⟩ 0 = .ok (q, t') ∧
    q ≠ [] ∧ ¬ Joins 0 ⟨0, 0, 0⟩ 0 ⟨1, 0, 0⟩ 0 q := by
  have hp := Real.pi_gt_three
  have ha : angleFromPoint (Point.sub ⟨1, 0, 0⟩ ⟨0, 0, 0⟩) = 0 := angle_unit
  have h0 : mod2pi 0 = 0 := mod2pi_of_range (le_refl _) (by linarith)
  have hd : pdist ⟨0, 0, 0⟩ ⟨1, 0, 0⟩ = 1 := by unfold pdist; norm_num
  have hn : normalTurn ⟨0, 0, 0⟩ 0 ⟨1, 0, 0⟩ 0 = ⟨1, 0, 0, 0, false⟩ := by
    unfold normalTurn
    simp only [ha, h0, sub_zero, hd]
    rw [if_neg (by linarith)]
  have hr : ∀ a : ℝ, (a = 0 ∨ a = 1 / 2000) →
      ∀ v ∈ [Robot.default.maxCurv, Robot.default.diffCurv, 1, a, 0], |v| ≤ 2000000 := by
    simp only [Robot.default]
    simp only [List.mem_cons, List.not_mem_nil, or_false, forall_eq_or_imp, forall_eq]
    norm_num [abs_of_pos]
  obtain ⟨k, hk⟩ := key_defined Robot.default 1 (1 / 2000) 0 (hr _ (.inr rfl))
  obtain ⟨k', hk'⟩ := key_defined Robot.default 1 0 0 (hr _ (.inl rfl))
  have e : k' = k := by
    rw [key_ok hk, key_ok hk']
    have : thousandths 0 = thousandths (1 / 2000) := by
      unfold thousandths
      rw [if_pos (by norm_num), if_pos (by norm_num)]
      norm_num [Int.floor_eq_iff]
    rw [this]
  rw [e] at hk'
  obtain ⟨p, t, h1, h2, h3⟩ := second Robot.default Robot.default (1 / 100) 1 (1 / 2000) 0 1 0 0
    k hk hk'
  have hu : t.useCache = true := by
    obtain ⟨_, _, h4 | h4⟩ := turnIfNotCached_ok h1
    · rw [h4.2]; rfl
    · rw [h4.2.2]; rfl
  have hc : createTurn lineSolver (t.setDisc (1 / 100)) Robot.default ⟨0, 0, 0⟩ 0 ⟨1, 0, 0⟩ 0 =
      .ok (finish ⟨1, 0, 0, 0, false⟩ ⟨0, 0, 0⟩ ⟨1, 0, 0⟩ p, t.setDisc (1 / 100)) := by
    unfold createTurn simpleTurn
    have hu' : (t.setDisc (1 / 100)).useCache = true := hu
    simp only [hn, hu', if_true]
    rw [h2, Outcome.ok_bind]; rfl
  refine ⟨_, _, _, _, Reach.setDisc (1 / 100) (Reach.call Reach.new h1), hc, ?_⟩
  have hfin : finish ⟨1, 0, 0, 0, false⟩ ⟨0, 0, 0⟩ ⟨1, 0, 0⟩ p =
      [⟨⟨0, 0, 0⟩, 1 / 2000, 1 / 100, .forward, .turn, 1⟩,
       ⟨⟨1, 0, 0⟩, 0, 0, .forward, .turn, 1⟩] := by
    unfold lineSolver at h3
    injection h3 with h3
    subst h3
    have hm : mod2pi (1 / 2000) = 1 / 2000 := mod2pi_of_range (by norm_num) (by linarith)
    have hm' : mod2pi 2000⁻¹ = 2000⁻¹ := by rw [← one_div]; exact hm
    simp [finish, place, mirror, correct, correctStart, correctEnd, rotateFrom, Point.add, h0, hm,
      hm', Robot.turnVel, Robot.default]
  rw [hfin]
  refine ⟨by simp, ?_⟩
  rintro ⟨f, l, hf, _, _, _, h4, _⟩
  simp only [List.head?_cons, Option.some.injEq] at hf
  subst hf
  obtain ⟨k, hk⟩ := nearHeading_zero.1 h4
  simp only at hk
  have hk1 : -1 < (k : ℝ) := by
    by_contra hcon
    have : (k : ℝ) * (2 * π) ≤ -1 * (2 * π) :=
      mul_le_mul_of_nonneg_right (not_lt.1 hcon) (by linarith)
    linarith
  have hk2 : (k : ℝ) < 0 := by
    by_contra hcon
    have : 0 ≤ (k : ℝ) * (2 * π) := mul_nonneg (not_lt.1 hcon) (by linarith)
    linarith
  have a1 : (-1 : ℤ) < k := by exact_mod_cast hk1
  have a2 : k < (0 : ℤ) := by exact_mod_cast hk2
  omega

/-! ## C42 -/

/-- C42: the loop detector says that a list of controls loops if and only if they turn by more than 0.9
revolutions one by one or in total, or by more than 1.5 in absolute terms. -/
theorem C42_loop_detector (cs : List Control) : loopDetected cs = true ↔ Loops cs :=
  loopDetected_iff cs

/-- C42: the search for a turn ends after at most 22 attempts (numbers 0 to 21) and uses the curve of
the last attempt; all earlier attempts loop, and the last one does not, unless it is number 21. -/
theorem C42_search (c : Curves) (r : Robot) (fuel : Nat) (hf : 22 ≤ fuel) :
    ∃ n, n ≤ 21 ∧
      ccTurn c r true fuel = steerToPath r.turnVel (c.states (limits r n).1 (limits r n).2) ∧
      (∀ m < n, Loops (c.controls (limits r m).1 (limits r m).2)) ∧
      (¬ Loops (c.controls (limits r n).1 (limits r n).2) ∨ n = 21) := by
  obtain ⟨n, hn, h21, _, hall, hlast⟩ := ccLoop_spec c r fuel 0 (by omega) (by omega)
  refine ⟨n, h21, ?_, fun m hm => hall m (Nat.zero_le _) hm, hlast⟩
  unfold ccTurn
  rw [hn]; rfl

/-- C42: without loop fixing there is one attempt, with the limits of the robot itself. -/
theorem C42_no_loop_fixing (c : Curves) (r : Robot) (fuel : Nat) (hf : 1 ≤ fuel) :
    ccTurn c r false fuel = steerToPath r.turnVel (c.states r.maxCurv r.diffCurv) := by
  obtain ⟨m, rfl⟩ : ∃ m, fuel = m + 1 := ⟨fuel - 1, by omega⟩
  unfold ccTurn ccLoop
  rw [if_neg (by simp)]
  simp [limits]

/-- C42: no attempt uses a curvature or a change of curvature above the limits of the robot, and
neither is ever 0 if the limit is not. -/
theorem C42_limits (r : Robot) (n : Nat) :
    |(limits r n).1| ≤ |r.maxCurv| ∧ |(limits r n).2| ≤ |r.diffCurv| ∧
    (0 ≤ r.maxCurv → 0 ≤ (limits r n).1 ∧ (limits r n).1 ≤ r.maxCurv) ∧
    (0 ≤ r.diffCurv → 0 ≤ (limits r n).2 ∧ (limits r n).2 ≤ r.diffCurv) ∧
    (0 < r.maxCurv → 0 < (limits r n).1) ∧ (0 < r.diffCurv → 0 < (limits r n).2) := by
  have h1 : (1 : ℝ) ≤ 1 + 5 / 100 * n := by
    have : (0 : ℝ) ≤ n := Nat.cast_nonneg n
    linarith
  have h2 : (1 : ℝ) ≤ 1 + 2 / 10 * n := by
    have : (0 : ℝ) ≤ n := Nat.cast_nonneg n
    linarith
  unfold limits
  simp only
  refine ⟨?_, ?_, fun h => ⟨by positivity, div_le_self h h1⟩, fun h => ⟨by positivity, div_le_self h h2⟩,
    fun h => by positivity, fun h => by positivity⟩
  · rw [abs_div, abs_of_pos (lt_of_lt_of_le one_pos h1)]
    exact div_le_self (abs_nonneg _) h1
  · rw [abs_div, abs_of_pos (lt_of_lt_of_le one_pos h2)]
    exact div_le_self (abs_nonneg _) h2

/-- A library whose curves always loop: the search ends with attempt 21. -/
example : ∃ n, n ≤ 21 ∧ ¬ n < 21 ∧
    ccLoop ⟨fun _ _ => [⟨2 * π, 1, 0⟩], fun _ _ => []⟩ Robot.default true 22 0 = .ok n := by
  obtain ⟨n, hn, h21, _, _, hlast⟩ :=
    ccLoop_spec ⟨fun _ _ => [⟨2 * π, 1, 0⟩], fun _ _ => []⟩ Robot.default 22 0 (by omega) (by omega)
  refine ⟨n, h21, ?_, hn⟩
  intro hlt
  rcases hlast with h | h
  · apply h
    left
    refine ⟨⟨2 * π, 1, 0⟩, List.mem_singleton.2 rfl, ?_⟩
    have : revolutions ⟨2 * π, 1, 0⟩ = 1 := by
      unfold revolutions
      have := Real.pi_ne_zero
      field_simp
    rw [this]; norm_num
  · omega

/-- What the detector does not see: it ignores that the curvature changes, so a spiral that starts
straight and turns by more than a full revolution is not a loop for it. -/
theorem C42_spiral_not_detected :
    loopDetected [⟨4, 0, 1⟩] = false ∧ 2 * π < headingChange ⟨4, 0, 1⟩ := by
  constructor
  · rw [Bool.eq_false_iff, ne_eq, loopDetected_iff]
    rintro (⟨c, hc, h⟩ | h | h)
    · simp only [List.mem_singleton] at hc
      subst hc
      simp [revolutions] at h
      norm_num at h
    · simp [revolutions] at h
      norm_num at h
    · simp [revolutions] at h
      norm_num at h
  · unfold headingChange
    have := Real.pi_lt_d2
    norm_num
    linarith

/-! ## C43 -/

/-- C43: one state per point of the curve, in order, with its position and heading, the given velocity
and type TURN, driving forward for direction 1 and backward for -1; every state reaches to the next
one, and the length of the path is that of the polyline. -/
theorem C43_states (vel : ℝ) (ss : List SteerState) (hd : ∀ s ∈ ss, s.d = 1 ∨ s.d = -1) :
    ∃ p, steerToPath vel ss = .ok p ∧
      List.Forall₂ (fun s t => t.point = ⟨s.x, s.y, 0⟩ ∧ t.angle = s.theta ∧ t.velocity = vel ∧
        t.type = .turn ∧ (t.dir = .forward ↔ s.d = 1) ∧ 0 ≤ t.len) ss p ∧
      (∀ (i : Nat) (t u : PathState ℝ), p[i]? = some t → p[i + 1]? = some u →
        t.len = pdist t.point u.point) ∧
      (∀ t, List.getLast? p = some t → t.len = 0) ∧
      p.totalLength = lineLength (ss.map fun s => ⟨s.x, s.y, 0⟩) :=
  steerToPath_spec vel ss hd

/-- C43: the path is at most as long as the curve. -/
theorem C43_length (vel : ℝ) (ss : List SteerState) (hd : ∀ s ∈ ss, s.d = 1 ∨ s.d = -1)
    (curve : ℝ → RPoint) (len : ℝ) (hl : 0 ≤ len) (ts : List ℝ) (hc : OnCurve curve len ts ss)
    (p : Path) (h : steerToPath vel ss = .ok p) : p.totalLength ≤ len := by
  obtain ⟨p', h', _, _, _, hlen⟩ := steerToPath_spec vel ss hd
  rw [h] at h'
  injection h' with h'
  subst h'
  rw [hlen]
  exact onCurve_length hl hc

/-- Three states on the x axis, on a straight curve of length 4. -/
example : OnCurve (fun t => ⟨t, 0, 0⟩) 4 [0, 1, 3] [⟨0, 0, 0, 0, 1⟩, ⟨1, 0, 0, 0, 1⟩, ⟨3, 0, 0, 0, 1⟩] where
  speed s t := by
    unfold pdist
    simp only [sub_self, ne_eq, OfNat.ofNat_ne_zero, not_false_eq_true, zero_pow, add_zero,
      Real.sqrt_sq_eq_abs]
    rw [abs_sub_comm]
  sorted := by simp
  inside := by simp; norm_num
  points := rfl

example : ∃ p, steerToPath 2 [⟨0, 0, 0, 0, 1⟩, ⟨3, 4, 0, 0, 1⟩, ⟨3, 10, 0, 0, -1⟩] = .ok p ∧
    p.totalLength = 11 := by
  obtain ⟨p, hp, _, _, _, hl⟩ := C43_states 2
    [⟨0, 0, 0, 0, 1⟩, ⟨3, 4, 0, 0, 1⟩, ⟨3, 10, 0, 0, -1⟩] (by simp)
  refine ⟨p, hp, hl.trans ?_⟩
  have h5 : √(25 : ℝ) = 5 := by
    rw [show (25 : ℝ) = 5 ^ 2 by norm_num]; exact Real.sqrt_sq (by norm_num)
  have h6 : √(36 : ℝ) = 6 := by
    rw [show (36 : ℝ) = 6 ^ 2 by norm_num]; exact Real.sqrt_sq (by norm_num)
  simp only [List.map_cons, List.map_nil, lineLength, pdist]
  norm_num [h5, h6]

end F2C.Props
