import Verif.Lemmas.RouteCost
import Mathlib.Tactic.NormNum

/-!
# Properties C18–C20: routes
-/

namespace F2C.Props

open RouteSpec RouteL Outcome

variable {K : Type} [Field K] [LinearOrder K]

/-! ## C18 -/

/-- C18: every sequence of calls returns normally (so no call runs into an empty vector), and the
route has as many connections as groups or one more. -/
theorem C18_alternates (sp : Point K → Point K → List (Point K)) (ops : List (ROp K)) :
    ∃ r, run sp ops = .ok r ∧ r.groups.length ≤ r.connections.length ∧
      r.connections.length ≤ r.groups.length + 1 := by
  obtain ⟨r, h, h'⟩ := run_ok sp ops
  exact ⟨r, h, h'.1, h'.2⟩

/-- C18: no swath is lost, added or reordered. -/
theorem C18_swaths_kept (sp : Point K → Point K → List (Point K)) (ops : List (ROp K)) :
    ∃ r, run sp ops = .ok r ∧ r.groups.flatten = ops.flatMap ROp.added := by
  induction ops using List.reverseRecOn with
  | nil => exact ⟨_, rfl, rfl⟩
  | append_singleton ops o ih =>
    obtain ⟨r, h1, h2⟩ := ih
    obtain ⟨r₀, h3, h4⟩ := run_ok sp ops
    rw [h1] at h3
    injection h3 with h3
    subst h3
    obtain ⟨r', e, i, -, f, -⟩ := exec_spec sp r h4 o
    exact ⟨r', by rw [run_concat, h1, Outcome.ok_bind, e], by rw [f, h2]; simp⟩

/-- Two swaths and several points, for the examples. -/
def rs1 : Swath ℚ := ⟨3, [⟨0, 0, 0⟩, ⟨0, 5, 0⟩], 2, true, .mainland⟩
/-- The second one. -/
def rs2 : Swath ℚ := ⟨4, [⟨2, 5, 0⟩, ⟨2, 0, 0⟩], 2, true, .mainland⟩

/-- A sequence of calls that uses all functions. -/
def demoOps : List (ROp ℚ) :=
  [.connectionPoint ⟨9, 9, 0⟩, .connectionPoint ⟨8, 8, 0⟩, .swath rs1, .swaths [rs2, rs1], .connection,
    .connectionPoints [], .swathVia rs2, .connectedSwaths [⟨1, 1, 0⟩] [rs1], .swathVia rs2,
    .connectionPoints [⟨7, 7, 0⟩]]

/-- `C18_alternates` is not only about trivial routes. -/
example : (run (fun a b => [a, b]) demoOps).map (fun r => (r.connections.length, r.groups.map List.length))
    = .ok (5, [3, 1, 1, 1]) := by decide +kernel

/-! ## C19 -/

/-- C19: the line string of a built route lists connection 0, group 0, connection 1, ... -/
theorem C19_concatenation (sp : Point K → Point K → List (Point K)) (ops : List (ROp K))
    (r : Route K) (h : run sp ops = .ok r) :
    r.asLineString = interleave r.connections r.groups := by
  obtain ⟨r₀, h3, h4⟩ := run_ok sp ops
  rw [h] at h3
  injection h3 with h3
  subst h3
  exact asLineString_eq r h4

/-- C19: each call appends exactly its own points; a swath added through a graph is preceded by the
path from the end of the route to its start. -/
theorem C19_call_appends (sp : Point K → Point K → List (Point K)) (ops : List (ROp K)) (o : ROp K)
    (r : Route K) (h : run sp ops = .ok r) :
    ∃ r', run sp (ops ++ [o]) = .ok r' ∧ r'.asLineString = r.asLineString ++
      o.points sp (if ops = [] then none else some r.endPoint) := by
  obtain ⟨r₀, h3, h4⟩ := run_ok sp ops
  rw [h] at h3
  injection h3 with h3
  subst h3
  obtain ⟨r', e, i, s, -⟩ := exec_spec sp r h4 o
  refine ⟨r', by rw [run_concat, h, Outcome.ok_bind, e], ?_⟩
  rw [asLineString_eq r h4, asLineString_eq r' i, s]
  congr 2
  by_cases hops : ops = []
  · rw [if_pos hops, if_pos ((run_isEmpty sp ops r h).2 hops)]
  · rw [if_neg hops, if_neg (fun he => hops ((run_isEmpty sp ops r h).1 he))]

/-- C19: without the graph, the line string is the concatenation of all parts in order. -/
theorem C19_no_point_lost (sp : Point K → Point K → List (Point K)) (ops : List (ROp K))
    (hv : ∀ o ∈ ops, ∀ s, o ≠ .swathVia s) :
    ∃ r, run sp ops = .ok r ∧ r.asLineString = ops.flatMap fun o => o.points sp none := by
  induction ops using List.reverseRecOn with
  | nil => exact ⟨_, rfl, rfl⟩
  | append_singleton ops o ih =>
    obtain ⟨r, h1, h2⟩ := ih (fun o ho => hv o (by simp [ho]))
    obtain ⟨r', h3, h4⟩ := C19_call_appends sp ops o r h1
    refine ⟨r', h3, ?_⟩
    rw [h4, h2]
    have : ∀ e, o.points sp e = o.points sp none := by
      intro e
      cases o with
      | swathVia s => exact absurd rfl (hv _ (by simp) s)
      | _ => rfl
    rw [this]
    simp

example : (run (fun a b => [a, b]) demoOps).map (fun r => r.asLineString.map fun p => (p.x, p.y))
    = .ok [(9, 9), (8, 8), (0, 0), (0, 5), (2, 5), (2, 0), (0, 0), (0, 5), (0, 5), (2, 5), (2, 5), (2, 0),
      (1, 1), (0, 0), (0, 5), (0, 5), (2, 5), (2, 5), (2, 0), (7, 7)] := by decide +kernel

/-- C19 (part): if no empty collection of swaths and no swath without points is added, `startPoint`
and `endPoint` are the first and the last point of the line string (the default point if there is
none).  Missing: routes with such parts, for which it is false, see below. -/
theorem C19_ends_partial (sp : Point K → Point K → List (Point K)) (ops : List (ROp K))
    (hp : ∀ o ∈ ops, o.proper) :
    ∃ r, run sp ops = .ok r ∧ r.startPoint = r.asLineString.head?.getD Point.zero ∧
      r.endPoint = r.asLineString.getLast?.getD Point.zero := by
  obtain ⟨r, h, hi⟩ := run_ok sp ops
  have hpr := run_proper sp ops r h hp
  refine ⟨r, h, ?_, ?_⟩
  · rw [asLineString_eq r hi, startPoint_eq r hi hpr]
  · rw [asLineString_eq r hi, endPoint_eq r hi hpr]

example : ∀ o ∈ demoOps, o.proper := by
  unfold demoOps
  simp [ROp.proper, rs1, rs2]

/-- C19 is false in general: after an empty group, the first point of the route is not found. -/
theorem C19_false_for_empty_group :
    ∃ (ops : List (ROp ℚ)) (r : Route ℚ), run (fun _ _ => []) ops = .ok r ∧
      r.asLineString = [⟨4, 4, 0⟩] ∧ r.startPoint = Point.zero := by
  refine ⟨[.swaths [], .connectionPoint ⟨4, 4, 0⟩], ⟨[[], [⟨4, 4, 0⟩]], [[]]⟩, ?_, ?_, ?_⟩ <;>
    decide +kernel

/-- The same at the other end. -/
theorem C19_false_for_empty_last_group :
    ∃ (ops : List (ROp ℚ)) (r : Route ℚ), run (fun _ _ => []) ops = .ok r ∧
      r.asLineString = [⟨4, 4, 0⟩] ∧ r.endPoint = Point.zero := by
  refine ⟨[.connectionPoint ⟨4, 4, 0⟩, .swaths []], ⟨[[⟨4, 4, 0⟩]], [[]]⟩, ?_, ?_, ?_⟩ <;>
    decide +kernel

/-- C19: the length of a route made of parts is the length of the line through all their points. -/
theorem C19_length (sp : RPoint → RPoint → List RPoint) (ops : List (ROp ℝ))
    (hv : ∀ o ∈ ops, ∀ s, o ≠ .swathVia s) :
    ∃ r, run sp ops = .ok r ∧ r.length = lineLength (ops.flatMap fun o => o.points sp none) := by
  obtain ⟨r, h1, h2⟩ := C19_no_point_lost sp ops hv
  exact ⟨r, h1, by rw [Route.length, h2]⟩

/-- C19: a clone of a route lists the same points (cloning throws for swaths without a positive
width, see C09). -/
theorem C19_clone (r r' : Route K) (h : r.clone = .ok r') : r'.asLineString = r.asLineString := by
  obtain ⟨cs, gs⟩ := r
  unfold Route.clone at h
  cases h1 : Route.cloneGroups gs with
  | ok gs' =>
    simp only [h1, Outcome.ok_bind, Outcome.pure_eq] at h
    injection h with h
    subst h
    have h2 := cloneGroups_path gs gs' h1
    have hl : gs'.length = gs.length := by simpa using congrArg List.length h2
    have he : gs'.isEmpty = gs.isEmpty := by
      cases gs <;> cases gs' <;> simp at hl ⊢
    have h3 : ∀ i : Nat, ((gs'[i]?.getD []).flatMap fun s : Swath K => s.path) =
        ((gs[i]?.getD []).flatMap fun s : Swath K => s.path) := by
      intro i
      have := congrArg (fun l => (l[i]?.getD []).flatten) h2
      simp only [List.getElem?_map] at this
      cases e1 : gs'[i]? <;> cases e2 : gs[i]? <;> simp_all [List.flatMap]
    unfold Route.asLineString Route.isEmpty
    simp only [hl, he, h3]
  | throw e => simp [h1] at h
  | ub e => simp [h1] at h

/-! ## C20 -/

/-- C20 (part): with the direct distance, the cost of a built route is its length, provided every group
has a swath, every swath has two points, and groups with no points between them touch.  Missing:
routes without these properties, for which the cost is smaller, an exception is thrown or an empty
vector is accessed, see below. -/
theorem C20_cost_is_length_partial (sp : RPoint → RPoint → List RPoint) (ops : List (ROp ℝ))
    (r : Route ℝ) (h : run sp ops = .ok r)
    (hg : ∀ g ∈ r.groups, g ≠ [] ∧ ∀ s ∈ g, 2 ≤ s.path.length)
    (hj : ∀ i g g', r.groups[i]? = some g → r.groups[i + 1]? = some g' →
      r.connections[i + 1]? = some [] →
      ∀ s ∈ g.getLast?, ∀ t ∈ g'.head?, pdist s.endPoint t.startPoint = 0) :
    RPCost.route r = .ok r.length := by
  obtain ⟨r₀, h3, h4⟩ := run_ok sp ops
  rw [h] at h3
  injection h3 with h3
  subst h3
  refine route_cost r h4 hg ?_
  obtain ⟨cs, gs⟩ := r
  simp only at hg hj ⊢
  clear h h4
  have key : ∀ (gs : List (Swaths ℝ)) (ds : List (List RPoint)),
      (∀ g ∈ gs, g ≠ [] ∧ ∀ s ∈ g, 2 ≤ s.path.length) →
      (∀ i g g', gs[i]? = some g → gs[i + 1]? = some g' → ds[i]? = some [] →
      ∀ s ∈ g.getLast?, ∀ t ∈ g'.head?, pdist s.endPoint t.startPoint = 0) → RouteL.Joined ds gs := by
    intro gs
    induction gs with
    | nil => intro ds _ _; cases ds <;> simp [RouteL.Joined]
    | cons g gs ih =>
      intro ds hg hj
      cases ds with
      | nil => simp [RouteL.Joined]
      | cons d ds =>
        cases gs with
        | nil => simp [RouteL.Joined]
        | cons g' gs =>
          refine ⟨?_, ih ds (fun x hx => hg x (by simp [hx])) fun i a b ha hb hc =>
            hj (i + 1) a b (by simpa using ha) (by simpa using hb) (by simpa using hc)⟩
          rintro rfl
          have h1 := hg g (by simp)
          have h2 := hg g' (by simp)
          unfold gap
          rw [gpts_last h1.1 (fun s h => path_ne (h1.2 s h)),
            gpts_head h2.1 (fun s h => path_ne (h2.2 s h))]
          exact hj 0 g g' (by simp) (by simp) (by simp) _
            (by rw [List.getLast?_eq_some_getLast h1.1]; rfl) _
            (by rw [List.head?_eq_some_head h2.1]; rfl)
  refine key gs cs.tail hg fun i a b ha hb hc => hj i a b ha hb ?_
  rwa [List.getElem?_tail] at hc

/-- A swath along the x axis. -/
noncomputable def sx (a b : ℝ) : Swath ℝ := ⟨0, [⟨a, 0, 0⟩, ⟨b, 0, 0⟩], 1, true, .mainland⟩

/-- The hypotheses of `C20_cost_is_length_partial` hold for a route with two groups, an empty
connection where they touch, and points before and after. -/
example : ∃ r, run (fun _ _ => []) [.connectionPoint ⟨-1, 0, 0⟩, .swath (sx 0 2), .connection,
      .swath (sx 2 5), .connectionPoint ⟨9, 0, 0⟩] = .ok r ∧ RPCost.route r = .ok r.length := by
  obtain ⟨r, h1, -⟩ := C18_alternates (fun _ _ => []) [ROp.connectionPoint (⟨-1, 0, 0⟩ : RPoint),
    .swath (sx 0 2), .connection, .swath (sx 2 5), .connectionPoint ⟨9, 0, 0⟩]
  have h2 : r = ⟨[[⟨-1, 0, 0⟩], [], [⟨9, 0, 0⟩]], [[sx 0 2], [sx 2 5]]⟩ := by
    have := h1.symm
    simpa [run, foldOutcome, ROp.exec, Route.addConnectionPoint, Route.addConnection, Route.addSwath,
      Route.empty, modifyBack] using this
  refine ⟨r, h1, C20_cost_is_length_partial _ _ r h1 ?_ ?_⟩
  · rw [h2]; simp [sx]
  · intro i g g' hi hi' _ s hs t ht
    rw [h2] at hi hi'
    match i with
    | 0 =>
      simp at hi hi'
      subst hi hi'
      simp at hs ht
      subst hs ht
      simp [pdist, sx, Swath.endPoint, Swath.startPoint]
    | 1 => simp at hi'
    | n + 2 => simp at hi

/-- C20 is false in general: the way across an empty connection between groups is not counted. -/
theorem C20_false_for_empty_connection :
    ∃ r, run (fun _ _ => []) [.swath (sx 0 1), .connection, .swath (sx 5 6)] = .ok r ∧
      RPCost.route r = .ok 2 ∧ r.length = 6 := by
  refine ⟨⟨[[], []], [[sx 0 1], [sx 5 6]]⟩, ?_, ?_, ?_⟩
  · simp [run, foldOutcome, ROp.exec, Route.addConnection, Route.addSwath, Route.empty, modifyBack]
  · have h1 : RPCost.swaths [sx 0 1] = .ok 1 := by
      rw [swaths_eq _ (by simp [sx])]
      simp [gpts, sx, lineLength, pdist]
    have h2 : RPCost.swaths [sx 5 6] = .ok 1 := by
      rw [swaths_eq _ (by simp [sx])]
      simp [gpts, sx, lineLength, pdist]
      norm_num
    simp [RPCost.route, foldOutcome, h1, h2, RPCost.routeStep, RPCost.multiSwaths,
      RPCost.swathsMulti, List.range_succ, RPCost.multi]
    norm_num
  · simp [Route.length, Route.asLineString, Route.isEmpty, sx, lineLength, pdist, List.range_succ]
    norm_num
    rw [show (16 : ℝ) = 4 ^ 2 by norm_num, Real.sqrt_sq (by norm_num)]
    norm_num

/-- An empty group makes the computation of the cost access an empty vector. -/
theorem C20_empty_group_ub :
    ∃ r, run (fun _ _ => []) [.swaths ([] : Swaths ℝ)] = .ok r ∧ (RPCost.route r).isUb = true := by
  refine ⟨⟨[[]], [[]]⟩, by simp [run, foldOutcome, ROp.exec, Route.addSwaths, Route.empty], ?_⟩
  simp [RPCost.route, foldOutcome, RPCost.swaths, RPCost.routeStep, RPCost.multiSwaths,
    List.range_succ]

/-- A swath of one point makes it throw. -/
theorem C20_single_point_throws :
    ∃ r, run (fun _ _ => []) [.connectionPoint (⟨0, 0, 0⟩ : RPoint),
        .swath ⟨0, [⟨1, 0, 0⟩], 1, true, .mainland⟩] = .ok r ∧
      RPCost.route r = .throw .outOfRange := by
  refine ⟨⟨[[⟨0, 0, 0⟩]], [[⟨0, [⟨1, 0, 0⟩], 1, true, .mainland⟩]]⟩, ?_, ?_⟩
  · simp [run, foldOutcome, ROp.exec, Route.addConnectionPoint, Route.addConnection, Route.addSwath,
      Route.empty, modifyBack]
  · simp [RPCost.route, foldOutcome, RPCost.swaths, RPCost.gaps, RPCost.routeStep,
      RPCost.multiSwaths, List.range_succ, Swath.inAngle]

end F2C.Props
