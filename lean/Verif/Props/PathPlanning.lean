import Verif.Lemmas.PathPlanning
import Verif.Props.Route

/-!
# C38-C40: path planning

`solve` is the turn planner's own algorithm (any), `t` the planner with its cache after any history of
calls (`Reach`), `safe` the smooth turning radius from the external library.
-/

namespace F2C.Props

open Real Turning PP TurningSpec PathPlanningSpec RouteSpec

/-- A turn planner for examples: two states, of one metre and of nothing. -/
noncomputable def stepSolver : Solver := fun r _ d a b =>
  .ok [⟨⟨0, 0, 0⟩, a, 1, .forward, .turn, r.turnVel⟩, ⟨⟨d, 0, 0⟩, b, 0, .forward, .turn, r.turnVel⟩]

theorem stepSolver_turns : TurnsOnly stepSolver := by
  intro q p h s hs
  unfold Request.answer stepSolver at h
  injection h with h
  subst h
  simp only [List.mem_cons, List.not_mem_nil, or_false] at hs
  rcases hs with rfl | rfl <;> rfl

theorem stepSolver_good : GoodSolver stepSolver := by
  intro q
  refine ⟨rfl, fun p h => ?_⟩
  unfold Request.answer stepSolver at h
  injection h with h
  subst h
  refine ⟨?_, by simp, ?_⟩
  · simp only [List.mem_cons, List.not_mem_nil, or_false, forall_eq_or_imp, forall_eq]
    norm_num
  · rw [lengthOf_cons, lengthOf_cons]
    simp [PathSpec.lengthOf]

/-! ## C38 -/

/-- C38: a planned path drives the swaths in order, one state per segment, with only turn states in
between. -/
theorem C38_drives (solve : Solver) (hs : TurnsOnly solve) (t t' : Planner) (hist : List Request)
    (ht : Reach solve t hist) (r : Robot) (l : Swaths ℝ) (p : Path)
    (h : planSwaths solve r t l = .ok (p, t')) : Drives r.cruise l p :=
  (planSwaths_drives hs r l ht h).1

/-- C38: without the turns exactly the segments of the swaths are left. -/
theorem C38_without_turns (solve : Solver) (hs : TurnsOnly solve) (t t' : Planner)
    (hist : List Request) (ht : Reach solve t hist) (r : Robot) (l : Swaths ℝ) (p : Path)
    (h : planSwaths solve r t l = .ok (p, t')) :
    ∃ parts : List Path, List.Forall₂ (SwathDriven r.cruise) l parts ∧
      p.filter (fun s => s.type = .swath) = parts.flatten :=
  drives_filter (C38_drives solve hs t t' hist ht r l p h)

/-- C38 for whole routes: the swaths of all groups are driven, in order, and nothing else is. -/
theorem C38_route (solve : Solver) (hs : TurnsOnly solve) (safe : Robot → ℝ) (t t' : Planner)
    (hist : List Request) (ht : Reach solve t hist) (r : Robot) (route : Route ℝ) (p : Path)
    (h : planRoute solve safe r t route = .ok (p, t')) :
    ∃ parts : List Path, List.Forall₂ (SwathDriven r.cruise) route.groups.flatten parts ∧
      p.filter (fun s => s.type = .swath) = parts.flatten := by
  unfold planRoute at h
  obtain ⟨⟨q, t1⟩, h1, h⟩ := bind_ok h
  obtain ⟨⟨w, hw, parts, hp, hf⟩, hist1, ht1⟩ := planGroups_filter hs safe r _ t t1 hist [] q [] _ ht h1
  rw [List.nil_append] at hw
  subst hw
  refine ⟨parts, hp, ?_⟩
  simp only at h
  split at h
  · split at h
    · obtain ⟨⟨q2, t2⟩, h2, h⟩ := bind_ok h
      injection h with h
      injection h with e1 e2
      obtain ⟨hq, _⟩ := planConnection_turns hs safe r ht1 h2
      have e : q2.filter (fun s => s.type = .swath) = [] := by
        rw [List.filter_eq_nil_iff]
        intro x hx
        simp [hq x hx]
      rw [← e1, List.filter_append, e, hf, List.append_nil]
    · cases h
    · cases h
  · injection h with h
    injection h with e1 e2
    rw [← e1, hf]

/-- C38: and there is such a path: for a turn planner that always answers, swaths of two or more points
near each other, and a robot with sensible limits, planning succeeds. -/
theorem C38_exists (solve : Solver) (hs : GoodSolver solve) (ha : Answers solve) (hturn : TurnsOnly solve)
    (t : Planner) (hist : List Request) (ht : Reach solve t hist) (r : Robot)
    (h1 : |r.maxCurv| ≤ 2000000) (h2 : |r.diffCurv| ≤ 2000000) (c : RPoint) (l : Swaths ℝ)
    (hl : ∀ s ∈ l, SwathNear c s ∧ 2 ≤ s.path.length) :
    ∃ p t', planSwaths solve r t l = .ok (p, t') ∧ Drives r.cruise l p := by
  cases l with
  | nil => exact ⟨[], t, rfl, .nil⟩
  | cons s l =>
    obtain ⟨p, t', h⟩ := planSwathsFrom_ok hs ha r h1 h2 c l s t hist [] ht hl
    exact ⟨p, t', h, C38_drives solve hturn t t' hist ht r _ p h⟩

theorem stepSolver_answers : Answers stepSolver := fun q => ⟨_, rfl, fun h => by simp at h⟩

/-- Two parallel swaths of 4 m, with the cache on. -/
example : ∃ p t', planSwaths stepSolver Robot.default Planner.default
    [⟨0, [⟨0, 0, 0⟩, ⟨4, 0, 0⟩], 3, true, .mainland⟩, ⟨1, [⟨4, 3, 0⟩, ⟨0, 3, 0⟩], 3, false, .mainland⟩] =
      .ok (p, t') ∧
    Drives 1 [⟨0, [⟨0, 0, 0⟩, ⟨4, 0, 0⟩], 3, true, .mainland⟩,
      ⟨1, [⟨4, 3, 0⟩, ⟨0, 3, 0⟩], 3, false, .mainland⟩] p := by
  have near : ∀ x y : ℝ, |x| ≤ 4 → |y| ≤ 4 → Near ⟨0, 0, 0⟩ ⟨x, y, 0⟩ := by
    intro x y hx hy
    unfold Near pdist
    rw [Real.sqrt_le_left (by norm_num)]
    have := abs_le.1 hx; have := abs_le.1 hy
    nlinarith
  have key := C38_exists stepSolver stepSolver_good stepSolver_answers stepSolver_turns
    Planner.default [] .new Robot.default (by norm_num [Robot.default]) (by norm_num [Robot.default])
    ⟨0, 0, 0⟩
    [⟨0, [⟨0, 0, 0⟩, ⟨4, 0, 0⟩], 3, true, .mainland⟩, ⟨1, [⟨4, 3, 0⟩, ⟨0, 3, 0⟩], 3, false, .mainland⟩]
    (by
      intro s hs
      simp only [List.mem_cons, List.not_mem_nil, or_false] at hs
      rcases hs with rfl | rfl
      · exact ⟨⟨near 0 0 (by norm_num) (by norm_num), near 4 0 (by norm_num) (by norm_num)⟩, by simp⟩
      · exact ⟨⟨near 4 3 (by norm_num) (by norm_num), near 0 3 (by norm_num) (by norm_num)⟩, by simp⟩)
  exact key

/-- A route with one swath. -/
example : ∃ p t', planRoute stepSolver (fun _ => 2) Robot.default Planner.default
    ⟨[[]], [[⟨0, [⟨0, 0, 0⟩, ⟨4, 0, 0⟩], 3, true, .mainland⟩]]⟩ = .ok (p, t') ∧ p.length = 1 :=
  ⟨_, _, rfl, rfl⟩

/-! ## C39 -/

/-- C39 is false: a route that only has a connection is read out of bounds. -/
theorem C39_only_connections_ub : ∃ (ops : List (ROp ℝ)) (route : Route ℝ), ∀ (solve : Solver)
    (safe : Robot → ℝ) (r : Robot) (t : Planner),
    run (fun _ _ => []) ops = .ok route ∧ (planRoute solve safe r t route).isUb = true :=
  ⟨[.connectionPoint ⟨0, 0, 0⟩], ⟨[[⟨0, 0, 0⟩]], []⟩, fun _ _ _ _ => ⟨rfl, rfl⟩⟩

/-- C39, partial: every route built through the API that has swaths (or has neither swaths nor
connections) and lies within 1000 km of some point is planned without undefined behaviour, if the turn
planner causes none; exceptions are possible, see below.  Missing: routes with connections only
(`C39_only_connections_ub`). -/
theorem C39_partial (sp : RPoint → RPoint → List RPoint) (ops : List (ROp ℝ)) (route : Route ℝ)
    (hr : run sp ops = .ok route) (hg : route.groups ≠ [] ∨ route.connections = [])
    (solve : Solver) (hs : GoodSolver solve) (safe : Robot → ℝ) (r : Robot) (hsafe : 0 ≤ safe r)
    (h1 : |r.maxCurv| ≤ 2000000) (h2 : |r.diffCurv| ≤ 2000000) (t : Planner) (hist : List Request)
    (ht : Reach solve t hist) (c : RPoint) (hn : ∀ g ∈ route.groups, ∀ s ∈ g, SwathNear c s)
    (hm : ∀ mp ∈ route.connections, ∀ p ∈ mp, Near c p) :
    (planRoute solve safe r t route).isUb = false := by
  obtain ⟨route', e, hl, _⟩ := C18_alternates sp ops
  rw [hr] at e
  injection e with e
  subst e
  unfold planRoute
  obtain ⟨u1, k1⟩ := planGroups_notUb hs safe r hsafe h1 h2 c route.groups t hist [] []
    route.connections ht hl (by simp) hn hm
  refine bind_notUb u1 fun x hx => ?_
  obtain ⟨path, t1⟩ := x
  obtain ⟨hist1, ht1⟩ := k1 path t1 hx
  simp only
  split
  · rename_i hgt
    cases hg1 : route.groups.getLast? with
    | none =>
      exfalso
      rw [List.getLast?_eq_none_iff] at hg1
      rcases hg with hg | hg
      · exact hg hg1
      · rw [hg] at hgt; simp at hgt
    | some g =>
      cases hc : route.connections.getLast? with
      | none =>
        exfalso
        rw [List.getLast?_eq_none_iff] at hc
        rw [hc] at hgt; simp at hgt
      | some mp =>
        exact bind_notUb (planConnection_notUb hs safe r hsafe h1 h2 c t1 hist1 g [] mp ht1
          (hn g (List.mem_of_getLast? hg1)) (by simp) (hm mp (List.mem_of_getLast? hc))).1
          fun _ _ => rfl
  · rfl

/-- A depot, a swath, and the way back. -/
example : ∃ route, run (fun _ _ => []) [.connectionPoint ⟨0, 0, 0⟩,
      .swath ⟨0, [⟨0, 0, 0⟩, ⟨4, 0, 0⟩], 3, true, .mainland⟩, .connectionPoints [⟨4, 0, 0⟩, ⟨0, 4, 0⟩]] =
      .ok route ∧
    (planRoute stepSolver (fun _ => 2) Robot.default Planner.default route).isUb = false := by
  have near : ∀ x y : ℝ, |x| ≤ 4 → |y| ≤ 4 → Near ⟨0, 0, 0⟩ ⟨x, y, 0⟩ := by
    intro x y hx hy
    unfold Near pdist
    rw [Real.sqrt_le_left (by norm_num)]
    have := abs_le.1 hx; have := abs_le.1 hy
    nlinarith
  have hrun : run (fun _ _ => []) [.connectionPoint (⟨0, 0, 0⟩ : RPoint),
      .swath ⟨0, [⟨0, 0, 0⟩, ⟨4, 0, 0⟩], 3, true, .mainland⟩, .connectionPoints [⟨4, 0, 0⟩, ⟨0, 4, 0⟩]] =
      .ok ⟨[[⟨0, 0, 0⟩], [⟨4, 0, 0⟩, ⟨0, 4, 0⟩]],
        [[⟨0, [⟨0, 0, 0⟩, ⟨4, 0, 0⟩], 3, true, .mainland⟩]]⟩ := rfl
  refine ⟨_, hrun, C39_partial _ _ _ hrun (.inl (by simp)) stepSolver stepSolver_good (fun _ => 2)
    Robot.default (by norm_num) (by norm_num [Robot.default]) (by norm_num [Robot.default])
    Planner.default [] .new ⟨0, 0, 0⟩ ?_ ?_⟩
  · simp only [List.mem_cons, List.not_mem_nil, or_false, forall_eq_or_imp, forall_eq]
    exact ⟨near 0 0 (by norm_num) (by norm_num), near 4 0 (by norm_num) (by norm_num)⟩
  · simp only [List.mem_cons, List.not_mem_nil, or_false, forall_eq_or_imp, forall_eq]
    exact ⟨near 0 0 (by norm_num) (by norm_num), near 4 0 (by norm_num) (by norm_num),
      near 0 4 (by norm_num) (by norm_num)⟩

/-- C39: a swath without points anywhere in the first group is answered by an exception. -/
theorem C39_empty_swath_throws (solve : Solver) (r : Robot) (t : Planner) (s : Swath ℝ) (l : Swaths ℝ)
    (h : s.path = []) : planSwaths solve r t (s :: l) = .throw .outOfRange := by
  have e : (Path.appendSwath [] s r.cruise) = .throw .outOfRange := by
    unfold Path.appendSwath; simp [h]
  cases l <;> simp only [planSwaths, planSwathsFrom] <;> rw [e, Outcome.throw_bind]

/-- C39: so is a swath of one point that another swath follows. -/
theorem C39_one_point_swath_throws (solve : Solver) (r : Robot) (t : Planner) (s s' : Swath ℝ)
    (l : Swaths ℝ) (a : RPoint) (h : s.path = [a]) :
    planSwaths solve r t (s :: s' :: l) = .throw .outOfRange := by
  have e : Path.appendSwath [] s r.cruise = .ok ([] ++ Path.swathStates r.cruise s.path) := by
    unfold Path.appendSwath; simp [h]
  have e' : s.outAngle = .throw .outOfRange := by unfold Swath.outAngle; rw [h]; rfl
  simp only [planSwaths, planSwathsFrom]
  rw [e, Outcome.ok_bind, e', Outcome.throw_bind]

/-- C39: and a connection of one point that no swath is at the start of. -/
theorem C39_one_point_connection_throws (solve : Solver) (safe : Robot → ℝ) (r : Robot) (t : Planner)
    (a : RPoint) (s2 : Swaths ℝ) :
    planConnection solve safe r t [] [a] s2 = .throw .invalidArgument := rfl

/-! ## C40 -/

/-- C40, partial: the way points start and end with the given poses, there are at least two, and every
one in between lies on a chord of the connection that jumps over no bend.  Missing: that it lies on the
connection itself (`C40_off_connection`). -/
theorem C40_partial (safe : ℝ) (hs : 0 ≤ safe) (p1 : RPoint) (a1 : ℝ) (mp : List RPoint) (p2 : RPoint)
    (a2 : ℝ) : ∃ mid : List Pose, simplify safe p1 a1 mp p2 a2 = (p1, a1) :: (mid ++ [(p2, a2)]) ∧
      ∀ w ∈ mid, OnChord mp w.1 := by
  obtain ⟨mid, e, h⟩ := simplify_spec safe hs p1 a1 mp p2 a2
  refine ⟨mid, e, fun w hw => ?_⟩
  obtain ⟨a, b, hab, hseg⟩ := h w hw
  obtain ⟨i, j, hij, hi, hj, hk⟩ := (corners_chords mp).2 a b hab
  exact ⟨i, j, a, b, hij, hi, hj, hseg, hk⟩

/-- C40: if the connection bends at each of its interior points, the way points do lie on it. -/
theorem C40_bent_everywhere (safe : ℝ) (hs : 0 ≤ safe) (p1 : RPoint) (a1 : ℝ) (mp : List RPoint)
    (p2 : RPoint) (a2 : ℝ) (hb : ∀ k, k + 2 < mp.length → Bent mp k) :
    ∃ mid : List Pose, simplify safe p1 a1 mp p2 a2 = (p1, a1) :: (mid ++ [(p2, a2)]) ∧
      ∀ w ∈ mid, OnLine mp w.1 := by
  obtain ⟨mid, e, h⟩ := C40_partial safe hs p1 a1 mp p2 a2
  refine ⟨mid, e, fun w hw => ?_⟩
  obtain ⟨i, j, a, b, hij, hi, hj, hseg, hk⟩ := h w hw
  have hjl : j < mp.length := by
    by_contra hcon
    rw [List.getElem?_eq_none (by omega)] at hj
    cases hj
  have : j = i + 1 := by
    by_contra hne
    exact hk i (by omega) (by omega) (hb i (by omega))
  subst this
  exact ⟨i, a, b, hi, hj, hseg⟩

private theorem angle_east {L z : ℝ} (h : 0 < L) : angleFromPoint ⟨L, 0, z⟩ = 0 := by
  rw [angleFromPoint_eq]
  have : (⟨L, 0⟩ : ℂ) = (L : ℂ) := by apply Complex.ext <;> simp
  simp only [this]
  rw [Complex.arg_ofReal_of_nonneg h.le]
  exact mod2pi_of_range (le_refl _) (by positivity)

private theorem angle_north {L z : ℝ} (h : 0 < L) : angleFromPoint ⟨0, L, z⟩ = π / 2 := by
  rw [angleFromPoint_eq]
  have : (⟨0, L⟩ : ℂ) = (L : ℂ) * Complex.I := by apply Complex.ext <;> simp
  simp only [this]
  rw [Complex.arg_real_mul _ h, Complex.arg_I]
  exact mod2pi_of_range (by positivity) (by linarith [Real.pi_pos])

private theorem angle_flat {x y z : ℝ} (hx : 0 < x) (hy : 0 ≤ y) (h : 20 * y ≤ x) :
    0 ≤ angleFromPoint ⟨x, y, z⟩ ∧ angleFromPoint ⟨x, y, z⟩ ≤ 1 / 10 := by
  have hx' := polar_x ⟨x, y, z⟩
  have hy' := polar_y ⟨x, y, z⟩
  have h0 : 0 ≤ angleFromPoint ⟨x, y, z⟩ := by rw [angleFromPoint_eq]; exact mod2pi_nonneg _
  have h2 : angleFromPoint ⟨x, y, z⟩ < 2 * π := by rw [angleFromPoint_eq]; exact mod2pi_lt _
  simp only at hx' hy'
  have hd : x ≤ √(x ^ 2 + y ^ 2) := Real.le_sqrt_of_sq_le (by nlinarith)
  generalize √(x ^ 2 + y ^ 2) = d at *
  generalize angleFromPoint ⟨x, y, z⟩ = θ at *
  have hdp : 0 < d := by linarith
  have hc : 0 < cos θ := by
    by_contra hcon
    have := mul_nonpos_of_nonneg_of_nonpos hdp.le (not_lt.1 hcon)
    linarith
  have hsn : 0 ≤ sin θ := by
    by_contra hcon
    have := mul_neg_of_pos_of_neg hdp (not_le.1 hcon)
    linarith
  refine ⟨h0, ?_⟩
  have hπ : θ ≤ π / 2 := by
    by_contra hcon
    have hcon := not_le.1 hcon
    by_cases h3 : θ ≤ π + π / 2
    · have := Real.cos_nonpos_of_pi_div_two_le_of_le hcon.le h3
      linarith
    · have h4 : sin θ = - sin (2 * π - θ) := by rw [Real.sin_two_pi_sub]; ring
      have h5 : 0 < sin (2 * π - θ) := Real.sin_pos_of_pos_of_lt_pi (by linarith)
        (by linarith [not_le.1 h3, Real.pi_pos])
      linarith
  by_contra hcon
  have hcon := not_le.1 hcon
  have h6 := Real.mul_le_sin h0 hπ
  have hp4 := Real.pi_le_four
  have h7 : (1 : ℝ) / 2 ≤ 2 / π := by
    rw [div_le_div_iff₀ (by norm_num) Real.pi_pos]; linarith
  have h8 : 1 / 20 < sin θ := by
    have : 1 / 2 * θ ≤ 2 / π * θ := mul_le_mul_of_nonneg_right h7 h0
    linarith
  have : d * (1 / 20) < d * sin θ := mul_lt_mul_of_pos_left h8 hdp
  linarith

/-- A connection with a right angle. -/
example : ∀ k, k + 2 < [(⟨0, 0, 0⟩ : RPoint), ⟨100, 0, 0⟩, ⟨100, 70, 0⟩].length →
    Bent [⟨0, 0, 0⟩, ⟨100, 0, 0⟩, ⟨100, 70, 0⟩] k := by
  intro k hk
  obtain rfl : k = 0 := by simp at hk; omega
  refine ⟨⟨0, 0, 0⟩, ⟨100, 0, 0⟩, ⟨100, 70, 0⟩, rfl, rfl, rfl, ?_⟩
  simp only [Point.sub]
  norm_num only
  rw [angle_north (by norm_num : (0 : ℝ) < 70), angle_east (by norm_num : (0 : ℝ) < 100),
    abs_of_nonpos] <;> linarith [Real.pi_gt_three]

/-- C40 is false: where the connection bends gently the way point cuts the corner. -/
theorem C40_off_connection : ∃ (safe : ℝ) (mp : List RPoint) (p1 p2 : RPoint) (a1 a2 : ℝ),
    0 < safe ∧ mp.head? = some p1 ∧ mp.getLast? = some p2 ∧
    ∃ w ∈ simplify safe p1 a1 mp p2 a2, ¬ OnLine mp w.1 := by
  have hp3 := Real.pi_gt_three
  refine ⟨101, [⟨0, -1000, 0⟩, ⟨0, 0, 0⟩, ⟨100, 0, 0⟩, ⟨200, 5, 0⟩, ⟨200, 105, 0⟩, ⟨1300, 105, 0⟩],
    ⟨0, -1000, 0⟩, ⟨1300, 105, 0⟩, 0, 0, by norm_num, rfl, rfl, ?_⟩
  have hcorners : corners [⟨0, -1000, 0⟩, ⟨0, 0, 0⟩, ⟨100, 0, 0⟩, ⟨200, 5, 0⟩, ⟨200, 105, 0⟩,
      ⟨1300, 105, 0⟩] = [⟨0, 0, 0⟩, ⟨200, 5, 0⟩, ⟨200, 105, 0⟩] := by
    simp only [corners, Point.sub]
    norm_num only
    obtain ⟨f0, f1⟩ := angle_flat (x := 100) (y := 5) (z := 0) (by norm_num) (by norm_num) (by norm_num)
    rw [angle_north (by norm_num : (0 : ℝ) < 1000), angle_east (by norm_num : (0 : ℝ) < 100),
      angle_north (by norm_num : (0 : ℝ) < 100), angle_east (by norm_num : (0 : ℝ) < 1100)]
    rw [if_pos (by rw [abs_of_nonneg] <;> linarith),
      if_neg (by rw [abs_of_nonpos] <;> linarith), if_pos (by rw [abs_of_nonpos] <;> linarith),
      if_pos (by rw [abs_of_nonneg] <;> linarith)]
  have far : ∀ (a b : RPoint) (r : ℝ), 0 ≤ r → r ^ 2 < (a.x - b.x) ^ 2 + (a.y - b.y) ^ 2 →
      r < pdist a b := fun a b r hr h => Real.lt_sqrt_of_sq_lt h
  refine ⟨(⟨100, 5 / 2, 0⟩, angleFromPoint (Point.sub ⟨200, 5, 0⟩ ⟨0, 0, 0⟩)), ?_, ?_⟩
  · unfold simplify
    rw [hcorners, if_neg, if_neg (by simp)]
    · have hin : pullBack 101 ⟨0, 0, 0⟩ ⟨200, 5, 0⟩ = (⟨100, 5 / 2, 0⟩ : RPoint) := by
        have h1 : pdist ⟨200, 5, 0⟩ ⟨0, 0, 0⟩ < 202 := by
          unfold pdist
          rw [Real.sqrt_lt' (by norm_num)]
          norm_num
        have h0 := far ⟨200, 5, 0⟩ ⟨0, 0, 0⟩ 1 (by norm_num) (by norm_num)
        unfold pullBack
        rw [min_eq_left (by linarith), mul_div_assoc, div_self (by linarith)]
        simp only [Point.add, Point.smul, Point.sub]
        norm_num
      apply List.mem_append_left
      unfold cornerLoop cornerStep
      rw [if_neg, hin]
      · simp only
        have h1 := far ⟨100, 5 / 2, 0⟩ ⟨0, -1000, 0⟩ 303 (by norm_num) (by norm_num)
        have h2 := far ⟨100, 5 / 2, 0⟩ ⟨1300, 105, 0⟩ 303 (by norm_num) (by norm_num)
        have hcond : pdist ⟨100, 5 / 2, 0⟩ (List.getLastD [(⟨0, -1000, 0⟩, 0)]
            ((⟨0, -1000, 0⟩, 0) : Pose)).1 > 3 * 101 ∧
            pdist ⟨100, 5 / 2, 0⟩ ⟨0, -1000, 0⟩ > 3 * 101 ∧
            pdist ⟨100, 5 / 2, 0⟩ ⟨1300, 105, 0⟩ > 3 * 101 :=
          ⟨by show pdist ⟨100, 5 / 2, 0⟩ ⟨0, -1000, 0⟩ > 3 * 101; linarith, by linarith, by linarith⟩
        rw [if_pos hcond]
        unfold cornerLoop
        split <;> simp
      · have h0 := far ⟨200, 5, 0⟩ ⟨0, 0, 0⟩ 1 (by norm_num) (by norm_num)
        have h1 := far ⟨200, 5, 0⟩ ⟨200, 105, 0⟩ 1 (by norm_num) (by norm_num)
        rintro (h | h) <;> linarith
    · have h0 := far ⟨0, -1000, 0⟩ ⟨1300, 105, 0⟩ 700 (by norm_num) (by norm_num)
      rintro (h | h)
      · linarith
      · simp at h
  · rintro ⟨i, a, b, ha, hb, s, h0, h1, hx, hy⟩
    match i, ha, hb with
    | 0, ha, hb => 
      simp at ha hb; subst ha; subst hb
      simp only at hx hy; linarith
    | 1, ha, hb => 
      simp at ha hb; subst ha; subst hb
      simp only at hx hy; linarith
    | 2, ha, hb => 
      simp at ha hb; subst ha; subst hb
      simp only at hx hy; linarith
    | 3, ha, hb => 
      simp at ha hb; subst ha; subst hb
      simp only at hx hy; linarith
    | 4, ha, hb => 
      simp at ha hb; subst ha; subst hb
      simp only at hx hy; linarith
    | i + 5, ha, hb => simp at hb

end F2C.Props
