import Verif.Lemmas.TurnCost
import Verif.Props.PathPlanning
import Verif.Props.Route

/-!
# C85: the cost with all turns computed

C85: the complete-turn objective gives the length of the path that the path planner makes for the same robot and
turn planner.
-/

namespace F2C.Props

open Turning PP TurningSpec PathPlanningSpec PathSpec RouteSpec RouteL

private theorem sum_swaths (l : Swaths ℝ) :
    l.foldl (fun d s => d + RPCost.swath s) 0 = (l.map fun s => lineLength s.path).sum := by
  have : RPCost.swath = fun s => lineLength s.path := by
    funext s
    exact multi_eq s.path
  rw [this, foldl_sum, zero_add]

/-- C85, swaths: if the planner makes a path for the swaths, the objective (with a turn planner in the same
state) gives a cost, leaves the turn planner in the same state, and the cost is the length of the path but for
less than a centimetre per turn (such short turns are deleted when a path is discretized, C35). -/
theorem C85_swaths_partial (solve : Solver) (hs : GoodSolver solve) (t t' : Planner) (hist : List Request)
    (ht : Reach solve t hist) (r : Robot) (l : Swaths ℝ) (p : Path)
    (h : planSwaths solve r t l = .ok (p, t')) :
    ∃ c, TurnCost.swaths solve r t l = .ok (c, t') ∧ lengthOf p ≤ c ∧
      c - ((l.length - 1 : ℕ) : ℝ) / 100 ≤ lengthOf p := by
  cases l with
  | nil =>
    cases h
    exact ⟨0, rfl, by simp [lengthOf], by simp [lengthOf]⟩
  | cons s l =>
    obtain ⟨g, e1, e2, e3⟩ := gaps_of_plan hs r l s t t' hist [] p ht h
    have h0 : lengthOf ([] : Path) = 0 := by simp [lengthOf]
    refine ⟨_, e1 _, ?_, ?_⟩
    · rw [sum_swaths]; linarith
    · rw [sum_swaths, List.length_cons, Nat.add_sub_cancel]; linarith

/-- C85: the cost is the length of the swaths and of the turns, one between any two consecutive swaths. -/
theorem C85_value (solve : Solver) (t : Planner) (r : Robot) (s s' : Swath ℝ) (l : Swaths ℝ) (a1 a2 : ℝ)
    (q : Path) (t1 t2 : Planner) (c : ℝ) (h1 : s.outAngle = .ok a1) (h2 : s'.inAngle = .ok a2)
    (hq : createTurn solve t r s.endPoint a1 s'.startPoint a2 = .ok (q, t1))
    (hc : TurnCost.swaths solve r t1 (s' :: l) = .ok (c, t2)) :
    TurnCost.between solve r t s s' = .ok (lengthOf q, t1) ∧
      TurnCost.swaths solve r t (s :: s' :: l) = .ok (lineLength s.path + lengthOf q + c, t2) := by
  have key : ∀ (l : Swaths ℝ) (s : Swath ℝ) (t t' : Planner) (d c e : ℝ),
      TurnCost.gaps solve r t d s l = .ok (c, t') → TurnCost.gaps solve r t (d + e) s l = .ok (c + e, t') := by
    intro l
    induction l with
    | nil =>
      intro s t t' d c e h
      cases h
      rfl
    | cons s' l ih =>
      intro s t t' d c e h
      unfold TurnCost.gaps at h ⊢
      obtain ⟨a1, h1, h⟩ := bind_ok h
      obtain ⟨a2, h2, h⟩ := bind_ok h
      obtain ⟨⟨x, t1⟩, h3, h⟩ := bind_ok h
      rw [h1, Outcome.ok_bind, h2, Outcome.ok_bind, h3, Outcome.ok_bind]
      have := ih s' t1 t' (d + x) c e h
      show TurnCost.gaps solve r t1 (d + e + x) s' l = _
      rwa [add_right_comm]
  have hturn : TurnCost.turn solve r t s.endPoint a1 s'.startPoint a2 = .ok (lengthOf q, t1) := by
    rw [TurnCost.turn, hq]
    show Outcome.ok (q.totalLength, t1) = _
    rw [totalLength_eq]
  constructor
  · rw [TurnCost.between, h1, Outcome.ok_bind, h2, Outcome.ok_bind, hturn]
  · have := key l s' t1 t2 _ c (lineLength s.path + lengthOf q) hc
    unfold TurnCost.swaths
    show TurnCost.gaps solve r t _ s (s' :: l) = _
    rw [TurnCost.gaps, h1, Outcome.ok_bind, h2, Outcome.ok_bind, hturn]
    show TurnCost.gaps solve r t1 (_ + lengthOf q) s' l = _
    rw [sum_swaths] at this ⊢
    rw [show ((s :: s' :: l).map fun s => lineLength s.path).sum + lengthOf q =
      ((s' :: l).map fun s => lineLength s.path).sum + (lineLength s.path + lengthOf q) by
        rw [List.map_cons (l := s' :: l), List.sum_cons]; ring, this]
    congr 2
    ring

/-- The two swaths of the examples below. -/
def laneA : Swath ℝ := ⟨0, [⟨0, 0, 0⟩, ⟨4, 0, 0⟩], 3, true, .mainland⟩
def laneB : Swath ℝ := ⟨1, [⟨4, 3, 0⟩, ⟨0, 3, 0⟩], 3, false, .mainland⟩

private theorem lanes_near : ∀ s ∈ [laneA, laneB], SwathNear ⟨0, 0, 0⟩ s ∧ 2 ≤ s.path.length := by
  have near : ∀ x y : ℝ, |x| ≤ 4 → |y| ≤ 4 → Near ⟨0, 0, 0⟩ ⟨x, y, 0⟩ := by
    intro x y hx hy
    unfold Near pdist
    rw [Real.sqrt_le_left (by norm_num)]
    have := abs_le.1 hx; have := abs_le.1 hy
    nlinarith
  intro s hs
  simp only [List.mem_cons, List.not_mem_nil, or_false] at hs
  rcases hs with rfl | rfl
  · exact ⟨⟨near 0 0 (by norm_num) (by norm_num), near 4 0 (by norm_num) (by norm_num)⟩, by simp [laneA]⟩
  · exact ⟨⟨near 4 3 (by norm_num) (by norm_num), near 0 3 (by norm_num) (by norm_num)⟩, by simp [laneB]⟩

private theorem lanes_turn : ∃ (a1 a2 : ℝ) (q : Path) (t' : Planner), laneA.outAngle = .ok a1 ∧
    laneB.inAngle = .ok a2 ∧
    createTurn stepSolver Planner.default Robot.default laneA.endPoint a1 laneB.startPoint a2 = .ok (q, t') ∧
    lengthOf q = 1 := by
  have d : pdist laneA.endPoint laneB.startPoint ≤ 2000000 := by
    norm_num [laneA, laneB, Swath.endPoint, Swath.startPoint, pdist]
    rw [Real.sqrt_le_left (by norm_num)]
    norm_num
  obtain ⟨q, t', h⟩ := createTurn_defined stepSolver_answers Planner.default Robot.default
    (by norm_num [Robot.default]) (by norm_num [Robot.default]) laneA.endPoint laneB.startPoint
    (angleFromPoint (Point.sub ⟨4, 0, 0⟩ ⟨0, 0, 0⟩)) (angleFromPoint (Point.sub ⟨0, 3, 0⟩ ⟨4, 3, 0⟩)) d
  refine ⟨_, _, q, t', rfl, rfl, h, ?_⟩
  obtain ⟨_, w, p, hw, rfl⟩ := createTurn_answer .new h
  unfold Request.answer stepSolver at hw
  cases hw
  rcases finish_rest (normalTurn laneA.endPoint (angleFromPoint (Point.sub ⟨4, 0, 0⟩ ⟨0, 0, 0⟩))
    laneB.startPoint (angleFromPoint (Point.sub ⟨0, 3, 0⟩ ⟨4, 3, 0⟩))) laneA.endPoint laneB.startPoint
    [⟨⟨0, 0, 0⟩, w.start, 1, .forward, .turn, w.robot.turnVel⟩,
      ⟨⟨w.dist, 0, 0⟩, w.stop, 0, .forward, .turn, w.robot.turnVel⟩] with h0 | h0
  · exfalso
    have := congrArg List.length h0
    revert this
    unfold finish correct
    rw [if_neg (by simp), if_neg (by simp [place, mirror]; split <;> simp)]
    intro this
    have e := (correctEnd_rest laneB.startPoint _).length_eq.trans this
    have e' := (correctStart_rest laneA.endPoint _).length_eq.trans e
    rw [place_mirror] at e'
    simp at e'
  · generalize finish _ _ _ _ = z at h0 ⊢
    cases h0 with
    | cons h1 h0 => cases h0 with
      | cons h2 h0 =>
        cases h0
        rw [lengthOf_cons, lengthOf_cons, h1.1.1, h2.1.1]
        simp [lengthOf]

/-- Two parallel swaths of 4 m. -/
example : ∃ p t' c, planSwaths stepSolver Robot.default Planner.default [laneA, laneB] = .ok (p, t') ∧
    TurnCost.swaths stepSolver Robot.default Planner.default [laneA, laneB] = .ok (c, t') ∧
    lengthOf p ≤ c ∧ c - 1 / 100 ≤ lengthOf p := by
  obtain ⟨p, t', h, -⟩ := C38_exists stepSolver stepSolver_good stepSolver_answers stepSolver_turns
    Planner.default [] .new Robot.default (by norm_num [Robot.default]) (by norm_num [Robot.default])
    ⟨0, 0, 0⟩ [laneA, laneB] lanes_near
  obtain ⟨c, h1, h2, h3⟩ := C85_swaths_partial stepSolver stepSolver_good _ _ [] .new _ _ _ h
  exact ⟨p, t', c, h, h1, h2, by simpa using h3⟩

private theorem lanes_length : lineLength laneA.path = 4 ∧ lineLength laneB.path = 4 := by
  constructor <;> norm_num [laneA, laneB, lineLength, pdist]
  all_goals
    rw [show (16 : ℝ) = 4 ^ 2 by norm_num, Real.sqrt_sq (by norm_num)]

/-- The turn of 1 m is counted. -/
example : ∃ t', TurnCost.swaths stepSolver Robot.default Planner.default [laneA, laneB] = .ok (9, t') := by
  obtain ⟨a1, a2, q, t', h1, h2, hq, hl⟩ := lanes_turn
  refine ⟨t', ?_⟩
  have := (C85_value stepSolver Planner.default Robot.default laneA laneB [] a1 a2 q t' t'
    (lineLength laneB.path) h1 h2 hq (by
      rw [TurnCost.swaths]
      show Outcome.ok (_, t') = _
      rw [sum_swaths]
      simp)).2
  rw [this, hl, lanes_length.1, lanes_length.2]
  norm_num

/-- C85 is false of routes: no turn between a swath and a connection is computed.  The route of two groups with
nothing in between, built by the API: the planner drives the turn `q` from the first to the second swath, the
objective counts nothing for it. -/
theorem C85_route_misses_turns (solve : Solver) (safe : Robot → ℝ) (t t' : Planner) (r : Robot)
    (sp : RPoint → RPoint → List RPoint) (s1 s2 : Swath ℝ) (a1 a2 : ℝ) (q : Path)
    (h1 : s1.outAngle = .ok a1) (h2 : s2.inAngle = .ok a2) (hp1 : s1.path ≠ []) (hp2 : s2.path ≠ [])
    (hq : createTurn solve t r s1.endPoint a1 s2.startPoint a2 = .ok (q, t')) :
    ∃ route p, run sp [.swath s1, .connection, .swath s2] = .ok route ∧
      planRoute solve safe r t route = .ok (p, t') ∧
      lengthOf p = lineLength s1.path + lengthOf q + lineLength s2.path ∧
      TurnCost.route solve r t route = .ok (lineLength s1.path + lineLength s2.path, t) := by
  obtain ⟨x1, l1, e1⟩ := List.exists_cons_of_ne_nil hp1
  obtain ⟨x2, l2, e2⟩ := List.exists_cons_of_ne_nil hp2
  have ha : ∀ (p : Path) (s : Swath ℝ), s.path ≠ [] → ∀ v, p.appendSwath s v = .ok (p ++ Path.swathStates v s.path) := by
    intro p s hs v
    unfold Path.appendSwath
    split
    · contradiction
    · rfl
  have hplan : ∀ (s : Swath ℝ) (t : Planner), s.path ≠ [] →
      planSwaths solve r t [s] = .ok (Path.swathStates r.cruise s.path, t) := by
    intro s t hs
    rw [planSwaths, planSwathsFrom, ha _ _ hs]
    rfl
  refine ⟨⟨[[], []], [[s1], [s2]]⟩,
    Path.swathStates r.cruise s1.path ++ q ++ Path.swathStates r.cruise s2.path, ?_, ?_, ?_, ?_⟩
  · simp [run, foldOutcome, ROp.exec, Route.addConnection, Route.addSwath, Route.empty, modifyBack]
  · have hc0 : planConnection solve safe r t [] [] [s1] = .ok ([], t) := by
      simp [planConnection, startPose]
    have hc1 : planConnection solve safe r t [s1] [] [s2] = .ok (q, t') := by
      simp only [planConnection, startPose, List.getLast?_singleton, h1, Outcome.ok_bind, Outcome.pure_eq, endPose,
        h2, planBetween, simplify, List.length_nil]
      rw [if_pos (by right; norm_num), turnsAlong, hq]
      simp [turnsAlong]
    simp only [planRoute, planGroups, hc0, hc1, hplan _ _ hp1, hplan _ _ hp2, Outcome.ok_bind, List.length_cons,
      List.length_nil, lt_irrefl, if_false, Outcome.pure_eq, List.nil_append]
  · rw [lengthOf_append, lengthOf_append, swathStates_length, swathStates_length]
  · have hs : ∀ (s : Swath ℝ) (t : Planner), TurnCost.swaths solve r t [s] = .ok (lineLength s.path, t) := by
      intro s t
      rw [TurnCost.swaths]
      show Outcome.ok (_, t) = _
      rw [sum_swaths]
      simp
    simp [TurnCost.route, foldOutcome, hs, RPCost.routeStep, RPCost.multiSwaths, RPCost.swathsMulti,
      List.range_succ, RPCost.multi]

/-- C85 is false of routes, in numbers: the path of the route with two groups is 9 m long, its cost is 8 m. -/
theorem C85_route_false : ∃ (route : Route ℝ) (p : Path) (t' : Planner),
    run (fun _ _ => []) [.swath laneA, .connection, .swath laneB] = .ok route ∧
    planRoute stepSolver (fun _ => 2) Robot.default Planner.default route = .ok (p, t') ∧ lengthOf p = 9 ∧
    TurnCost.route stepSolver Robot.default Planner.default route = .ok (8, Planner.default) := by
  obtain ⟨a1, a2, q, t', h1, h2, hq, hl⟩ := lanes_turn
  obtain ⟨route, p, e1, e2, e3, e4⟩ := C85_route_misses_turns stepSolver (fun _ => 2) Planner.default t'
    Robot.default (fun _ _ => []) laneA laneB a1 a2 q h1 h2 (by simp [laneA]) (by simp [laneB]) hq
  refine ⟨route, p, t', e1, e2, ?_, ?_⟩
  · rw [e3, hl, lanes_length.1, lanes_length.2]; norm_num
  · rw [e4, lanes_length.1, lanes_length.2]; norm_num

/-- The groups cost `c` in total, each one computed with the turn planner that the one before left. -/
inductive GroupsCost (solve : Solver) (r : Robot) : Planner → List (Swaths ℝ) → ℝ → Planner → Prop
  | nil (t) : GroupsCost solve r t [] 0 t
  | cons {t t1 t2 g gs a c} : TurnCost.swaths solve r t g = .ok (a, t1) → GroupsCost solve r t1 gs c t2 →
      GroupsCost solve r t (g :: gs) (a + c) t2

private theorem fold_cost {solve : Solver} {r : Robot} {t t' : Planner} {gs : List (Swaths ℝ)} {c : ℝ}
    (h : GroupsCost solve r t gs c t') : ∀ d, foldOutcome (fun (x : ℝ × Planner) g => do
      let (a, t') ← TurnCost.swaths solve r x.2 g
      return (x.1 + a, t')) (d, t) gs = .ok (d + c, t') := by
  induction h with
  | nil t => intro d; simp [foldOutcome]
  | cons h1 h2 ih =>
    intro d
    unfold foldOutcome
    rw [h1]
    refine (ih _).trans ?_
    rw [add_assoc]

/-- C85, value for routes: on top of the groups, the cost has the length of all the rest of the route's line, with
no turn to or from the points of a connection. -/
theorem C85_route_value (solve : Solver) (t t' : Planner) (r : Robot) (sp : RPoint → RPoint → List RPoint)
    (ops : List (ROp ℝ)) (rt : Route ℝ) (c : ℝ) (h : run sp ops = .ok rt)
    (hg : ∀ g ∈ rt.groups, g ≠ [] ∧ ∀ s ∈ g, 2 ≤ s.path.length)
    (hj : ∀ i g g', rt.groups[i]? = some g → rt.groups[i + 1]? = some g' →
      rt.connections[i + 1]? = some [] →
      ∀ s ∈ g.getLast?, ∀ t ∈ g'.head?, pdist s.endPoint t.startPoint = 0)
    (hc : GroupsCost solve r t rt.groups c t') :
    TurnCost.route solve r t rt = .ok (c +
      (lineLength rt.asLineString - (rt.groups.map fun g => lineLength (g.flatMap fun s => s.path)).sum), t') := by
  have h20 := C20_cost_is_length_partial sp ops rt h hg hj
  unfold RPCost.route at h20
  simp only [fold_groups rt.groups (fun g h => (hg g h).2), Outcome.ok_bind] at h20
  have hinv := run_ok sp ops
  obtain ⟨r₀, h3, h4⟩ := hinv
  rw [h] at h3
  injection h3 with h3
  subst h3
  unfold TurnCost.route
  rw [fold_cost hc]
  simp only [Outcome.ok_bind]
  obtain ⟨cs, gs⟩ := rt
  obtain ⟨h1, h2⟩ := h4
  simp only at h1 h2 hg hj h20 ⊢
  cases cs with
  | nil =>
    have : gs = [] := by simpa using h1
    subst this
    simp [foldOutcome, Route.length] at h20 ⊢
    linarith
  | cons k cs =>
    rw [fold_route gs k cs _ hg (by simpa using h1), foldl_sum] at h20 ⊢
    simp only [Outcome.ok.injEq, Route.length] at h20
    rw [← h20]
    show Outcome.ok (_, t') = _
    congr 2
    show _ = c + (0 + (List.map (fun g => lineLength (gpts g)) gs).sum + _ + _ -
      (List.map (fun g => lineLength (gpts g)) gs).sum)
    ring

/-- A route of 2 m to a swath of 4 m and of 3 m after it: no turn is counted. -/
example (solve : Solver) (r : Robot) (t : Planner) : ∃ rt,
    run (fun _ _ => []) [.connectionPoint ⟨-2, 0, 0⟩, .swath laneA, .connectionPoint ⟨4, 3, 0⟩] = .ok rt ∧
    TurnCost.route solve r t rt = .ok (9, t) := by
  have h : run (fun _ _ => []) [.connectionPoint ⟨-2, 0, 0⟩, .swath laneA, .connectionPoint ⟨4, 3, 0⟩] =
      .ok ⟨[[⟨-2, 0, 0⟩], [⟨4, 3, 0⟩]], [[laneA]]⟩ := by
    simp [run, foldOutcome, ROp.exec, Route.addConnectionPoint, Route.addConnection, Route.addSwath, Route.empty,
      modifyBack]
  refine ⟨_, h, ?_⟩
  have hs : TurnCost.swaths solve r t [laneA] = .ok (4, t) := by
    rw [TurnCost.swaths]
    show Outcome.ok (_, t) = _
    rw [sum_swaths]
    simp [lanes_length.1]
  rw [C85_route_value solve t t r _ _ _ _ h (by simp [laneA]) (by
    intro i g g' hi hi' _ s hs t ht
    rcases i with _ | i <;> simp at hi') (.cons hs (.nil t))]
  have e : lineLength (Route.asLineString ⟨[[⟨-2, 0, 0⟩], [⟨4, 3, 0⟩]], [[laneA]]⟩) = 9 := by
    rw [C19_concatenation _ _ _ h]
    norm_num [interleave, laneA, lineLength, pdist]
    rw [show (16 : ℝ) = 4 ^ 2 by norm_num, show (4 : ℝ) = 2 ^ 2 by norm_num, show (9 : ℝ) = 3 ^ 2 by norm_num,
      Real.sqrt_sq (by norm_num), Real.sqrt_sq (by norm_num), Real.sqrt_sq (by norm_num)]
    norm_num
  rw [e]
  simp [lanes_length.1]

/-- C85, routes of one group and no way points: as for swaths. -/
theorem C85_route_partial (solve : Solver) (hs : GoodSolver solve) (safe : Robot → ℝ) (t t' : Planner)
    (hist : List Request) (ht : Reach solve t hist) (r : Robot) (l : Swaths ℝ) (hl : l ≠ []) (p : Path)
    (h : planRoute solve safe r t ⟨[[]], [l]⟩ = .ok (p, t')) :
    ∃ c, TurnCost.route solve r t ⟨[[]], [l]⟩ = .ok (c, t') ∧ lengthOf p ≤ c ∧
      c - ((l.length - 1 : ℕ) : ℝ) / 100 ≤ lengthOf p := by
  have hc : planConnection solve safe r t [] [] l = .ok ([], t) := by simp [planConnection, startPose]
  simp only [planRoute, planGroups, hc, Outcome.ok_bind, List.length_cons, List.length_nil, lt_irrefl,
    if_false, gt_iff_lt, List.nil_append] at h
  obtain ⟨⟨q, t1⟩, h1, h⟩ := bind_ok h
  obtain ⟨⟨q2, t2⟩, h2, h1⟩ := bind_ok h1
  cases h1
  cases h
  obtain ⟨c, e1, e2⟩ := C85_swaths_partial solve hs t _ hist ht r l _ h2
  refine ⟨c, ?_, e2⟩
  obtain ⟨s, l', rfl⟩ := List.exists_cons_of_ne_nil hl
  simp [TurnCost.route, foldOutcome, e1, RPCost.routeStep, RPCost.multiSwaths, List.range_succ, RPCost.multi]

example : ∃ p t' c, planRoute stepSolver (fun _ => 2) Robot.default Planner.default ⟨[[]], [[laneA, laneB]]⟩ =
      .ok (p, t') ∧
    TurnCost.route stepSolver Robot.default Planner.default ⟨[[]], [[laneA, laneB]]⟩ = .ok (c, t') ∧
    c - 1 / 100 ≤ lengthOf p := by
  obtain ⟨p, t', h, -⟩ := C38_exists stepSolver stepSolver_good stepSolver_answers stepSolver_turns
    Planner.default [] .new Robot.default (by norm_num [Robot.default]) (by norm_num [Robot.default])
    ⟨0, 0, 0⟩ [laneA, laneB] lanes_near
  have hp : planRoute stepSolver (fun _ => 2) Robot.default Planner.default ⟨[[]], [[laneA, laneB]]⟩ =
      .ok (p, t') := by
    simp [planRoute, planGroups, planConnection, startPose, h]
  obtain ⟨c, e1, e2, e3⟩ := C85_route_partial stepSolver stepSolver_good (fun _ => 2) Planner.default t' [] .new
    Robot.default [laneA, laneB] (by simp) p hp
  exact ⟨p, t', c, hp, e1, by simpa using e3⟩

end F2C.Props
