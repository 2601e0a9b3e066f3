import Verif.Lemmas.Turning
import Verif.Props.FieldObj
import Verif.Props.TopLevel
import Verif.Props.Transform

/-!
# Property C84: planning for a field

C84: the plan for a field is the plan for its cells, in the coordinates of the field.
-/

namespace F2C.Props

open F2C.SG
open Text FieldSpec
open Top PlannerSpec Graph2DSpec

/-! ## Local coordinates -/

/-- C84: what is planned for a field with closed rings, in local coordinates, is the plan for its cells
relative to their first point, whatever the reference point of the field is. -/
theorem C84_local_value (env : Env) (proj : Proj ℝ) (robot : Robot) (f : FieldObj ℝ) (opt : Options)
    (hw : WellFormed f.cells) (p : Point ℝ) (hp : First f.cells p) :
    planFieldRoute env proj robot f opt true =
        planCovRoute env robot (onPoints (fun q => ⟨q.x - p.x, q.y - p.y, q.z - p.z⟩) f.cells) opt ∧
      planFieldPath env proj robot f opt true =
        planCovPath env robot (onPoints (fun q => ⟨q.x - p.x, q.y - p.y, q.z - p.z⟩) f.cells) opt := by
  obtain ⟨g, hg⟩ := C52_clone_succeeds f hw
  have hc : g.cells = onPoints (fun q => ⟨q.x - p.x, q.y - p.y, q.z - p.z⟩) f.cells := by
    have h1 := hg
    unfold FieldObj.clone at h1
    rw [FieldObj.make_first (FieldObj.first_absCells hp)] at h1
    cases h1
    show mapCells _ f.absCells = _
    rw [mapCells_eq f.absCells_normal, FieldObj.absCells, mapCells_eq hw.normal, onPoints_onPoints]
    congr 1
    funext q
    ext <;> simp [Point.sub, Point.add]
  unfold planFieldRoute planFieldPath
  rw [hg]
  simp only [Outcome.ok_bind, if_true, hc, and_self]

/-- C84, partial: for a field whose cells begin at its reference point (as the constructor stores them) the
plan is the one for the cells of the field.  Missing: other reference points, for which this is false
(`C84_other_ref`). -/
theorem C84_local_partial (env : Env) (proj : Proj ℝ) (robot : Robot) (f : FieldObj ℝ) (opt : Options)
    (hw : WellFormed f.cells) (h0 : First f.cells ⟨0, 0, 0⟩) :
    planFieldRoute env proj robot f opt true = planCovRoute env robot f.cells opt ∧
      planFieldPath env proj robot f opt true = planCovPath env robot f.cells opt := by
  have h := C84_local_value env proj robot f opt hw _ h0
  rwa [onPoints_id (fun q => by simp)] at h

/-- C84: the overloads.  A field that is one cell starting at the origin, planned in local coordinates with
the default options, gives what the cell alone gives. -/
theorem C84_overloads (env : Env) (proj : Proj ℝ) (robot : Robot) (c : Cell ℝ) (name crs prev : Str) (ref : Point ℝ)
    (hw : WellFormed [c]) (h0 : First [c] ⟨0, 0, 0⟩) :
    planFieldRouteDefault env proj robot ⟨name, crs, prev, ref, [c]⟩ true =
        planCellRoute env robot c Options.default ∧
      planFieldPathDefault env proj robot ⟨name, crs, prev, ref, [c]⟩ true =
        planCellPath env robot c Options.default :=
  C84_local_partial env proj robot ⟨name, crs, prev, ref, [c]⟩ Options.default hw h0

/-! ## Other coordinate systems -/

private theorem utm_and_back {proj : Proj ℝ} (hc : Consistent proj) {f c g : FieldObj ℝ} (hcrs : f.crs ≠ [])
    (hcl : f.clone = .ok c) (hg : Transform.toUTM proj c true = .ok g) {back : Point ℝ → Point ℝ}
    (hb : coordTransf proj g.crs g.prevCrs = .ok back) :
    g.prevCrs = f.crs ∧ (∃ a b, g.crs = a ++ "UTM:".toList ++ b) ∧
      onPoints (fun q => back ⟨q.x + g.ref.x, q.y + g.ref.y, q.z + g.ref.z⟩) g.cells = f.absCells := by
  obtain ⟨-, h2, -, h4, -, -⟩ := FieldObj.clone_ok hcl
  obtain ⟨m, hp⟩ := toUTM_moved hc (by rwa [h2]) hg
  obtain ⟨z, n, e, hname⟩ := toUTM_name hg
  refine ⟨hp.trans h2, ?_, ?_⟩
  · rw [hname]
    exact contains_iff.1 (isUTM_utmName z n e)
  · obtain ⟨a, b, t, ha, hb', ht, e1, e2⟩ := m.ex
    obtain ⟨b2, a2, hb2, ha2, hback⟩ := coordTransf_ok hb
    rw [hb'] at hb2
    cases hb2
    rw [hp, ha] at ha2
    cases ha2
    obtain ⟨v, hv, hcomp⟩ := hc.comp a b a t back ht hback
    have hid : ∀ q, back (t q) = q := fun q => by rw [← hcomp, hc.stay a v hv]
    have hn : onPoints (fun q => q.add g.ref) g.cells = g.absCells := by
      by_cases he : Cells.isEmpty c.cells = true
      · have hce : c.cells = [] := by
          unfold FieldObj.clone at hcl
          by_cases h : Cells.isEmpty f.absCells = true
          · rw [FieldObj.make_empty h] at hcl
            cases hcl
            rfl
          · exfalso
            rw [FieldObj.isEmpty_absCells] at h
            have h5 := FieldObj.isEmpty_absCells c
            rw [h4, FieldObj.isEmpty_absCells, he] at h5
            exact h h5
        rw [FieldObj.absCells, m.empty he, hce]
        rfl
      · rw [m.cells (by simpa using he), onPoints_onPoints]
        exact onPoints_id (fun q => Point.sub_add_cancel' q g.ref) _
    have : onPoints (fun q => back ⟨q.x + g.ref.x, q.y + g.ref.y, q.z + g.ref.z⟩) g.cells =
        onPoints back (onPoints (fun q => q.add g.ref) g.cells) := by
      rw [onPoints_onPoints]
      rfl
    rw [this, hn, e1, onPoints_onPoints, onPoints_id hid, h4]

/-- C84, route in the system of the field: the route is planned for the field in UTM coordinates and every point
of it is moved by the same map that takes the cells in UTM back to where the field is. -/
theorem C84_route_other_system (env : Env) (proj : Proj ℝ) (hc : Consistent proj) (robot : Robot) (f : FieldObj ℝ)
    (opt : Options) (hcrs : f.crs ≠ []) (r' : Route ℝ)
    (h : planFieldRoute env proj robot f opt false = .ok r') :
    ∃ (utm : Str) (ref : Point ℝ) (cells : Cells ℝ) (t : Point ℝ → Point ℝ) (r : Route ℝ),
      (∃ a b, utm = a ++ "UTM:".toList ++ b) ∧ coordTransf proj utm f.crs = .ok t ∧
      onPoints (fun q => t ⟨q.x + ref.x, q.y + ref.y, q.z + ref.z⟩) cells = f.absCells ∧
      planCovRoute env robot cells opt = .ok r ∧
      r'.connections = r.connections.map (fun c => c.map fun q => t ⟨q.x + ref.x, q.y + ref.y, q.z + ref.z⟩) ∧
      r'.groups = r.groups.map fun g => g.map fun s => ⟨s.id, s.path.map fun q =>
        t ⟨q.x + ref.x, q.y + ref.y, q.z + ref.z⟩, s.width, true, .mainland⟩ := by
  unfold planFieldRoute at h
  obtain ⟨c, hcl, h⟩ := bind_ok h
  rw [if_neg (by simp)] at h
  obtain ⟨g, hg, h⟩ := bind_ok h
  obtain ⟨r, hr, h⟩ := bind_ok h
  have hw : ∀ x ∈ r.groups, ∀ s ∈ x, 0 < s.width := by
    unfold Transform.route Route.clone at h
    obtain ⟨_, h1, -⟩ := bind_ok h
    obtain ⟨gs, h2, -⟩ := bind_ok h1
    exact cloneGroups_width _ _ h2
  obtain ⟨t, ht⟩ : ∃ t, coordTransf proj g.crs g.prevCrs = .ok t := by
    unfold Transform.route at h
    obtain ⟨_, -, h1⟩ := bind_ok h
    obtain ⟨t, h2, -⟩ := bind_ok h1
    exact ⟨t, h2⟩
  obtain ⟨h1, h2, h3⟩ := utm_and_back hc hcrs hcl hg ht
  obtain ⟨r2, k1, k2, k3⟩ := C83_route_value proj g g.prevCrs t ht r hw
  rw [k1] at h
  cases h
  exact ⟨g.crs, g.ref, g.cells, t, r, h2, h1 ▸ ht, h3, hr, k2, k3⟩

/-- C84, path in the system of the field: the points of the path planned in UTM coordinates, and the end of its
last section, moved by the same map. -/
theorem C84_path_other_system (env : Env) (proj : Proj ℝ) (hc : Consistent proj) (robot : Robot) (f : FieldObj ℝ)
    (opt : Options) (hcrs : f.crs ≠ []) (p' : Path) (hne : p' ≠ [])
    (h : planFieldPath env proj robot f opt false = .ok p') :
    ∃ (utm : Str) (ref : Point ℝ) (cells : Cells ℝ) (t : Point ℝ → Point ℝ) (p : Path) (e : List (Point ℝ)),
      (∃ a b, utm = a ++ "UTM:".toList ++ b) ∧ coordTransf proj utm f.crs = .ok t ∧
      onPoints (fun q => t ⟨q.x + ref.x, q.y + ref.y, q.z + ref.z⟩) cells = f.absCells ∧
      planCovPath env robot cells opt = .ok p ∧
      (∀ s, List.getLast? p = some s → e = if 0 < s.len then [s.atEnd] else []) ∧
      List.map (fun s => s.point) p' = (List.map (fun s => s.point) p ++ e).map fun q =>
        t ⟨q.x + ref.x, q.y + ref.y, q.z + ref.z⟩ := by
  unfold planFieldPath at h
  obtain ⟨c, hcl, h⟩ := bind_ok h
  rw [if_neg (by simp)] at h
  obtain ⟨g, hg, h⟩ := bind_ok h
  obtain ⟨p, hp, h⟩ := bind_ok h
  obtain ⟨t, e, ht, he, hpts⟩ := C56_points proj g g.prevCrs p p' hne h
  obtain ⟨h1, h2, h3⟩ := utm_and_back hc hcrs hcl hg ht
  exact ⟨g.crs, g.ref, g.cells, t, p, e, h2, h1 ▸ ht, h3, hp, he, hpts⟩

/-- C84: a field without coordinate system whose first point cannot be a pair of longitude and latitude is not
planned in UTM: the planner throws. -/
theorem C84_no_system (env : Env) (proj : Proj ℝ) (robot : Robot) (f : FieldObj ℝ) (opt : Options)
    (hw : WellFormed f.cells) (hcrs : f.crs = []) (p : Point ℝ) (hp : First f.absCells p)
    (hout : 180 ≤ |p.x| ∨ 90 ≤ |p.y|) :
    planFieldRoute env proj robot f opt false = .throw .invalidArgument ∧
      planFieldPath env proj robot f opt false = .throw .invalidArgument := by
  obtain ⟨c, hcl⟩ := C52_clone_succeeds f hw
  obtain ⟨-, h2, -, h4, -, h6⟩ := FieldObj.clone_ok hcl
  have hr : c.ref = p := by
    refine (h6 ?_).unique hp
    rw [← FieldObj.isEmpty_absCells]
    exact hp.not_isEmpty
  have h0 : Point.eqv c.ref ⟨0, 0, 0⟩ = false := by
    rw [hr]
    rcases hout with h | h
    · have : ¬ |p.x - 0| < (Point.tol : ℝ) := by
        rw [sub_zero, Point.tol]
        norm_num
        linarith
      rw [Point.eqv, decide_eq_false this]
      rfl
    · have : ¬ |p.y - 0| < (Point.tol : ℝ) := by
        rw [sub_zero, Point.tol]
        norm_num
        linarith
      rw [Point.eqv, decide_eq_false (p := |p.y - 0| < _) this, Bool.and_false]
      rfl
  have hno : ¬ (c.ref.x < 180 ∧ c.ref.x > -180 ∧ c.ref.y < 90 ∧ c.ref.y > -90) := by
    rw [hr]
    rintro ⟨a1, a2, a3, a4⟩
    rcases hout with h | h
    · exact absurd (abs_lt.2 ⟨a2, a1⟩) (not_lt.2 h)
    · exact absurd (abs_lt.2 ⟨a4, a3⟩) (not_lt.2 h)
  have heu : ¬ (true = true ∧ Transform.inEurope c.ref = true) := by
    rintro ⟨-, h⟩
    simp only [Transform.inEurope, decide_eq_true_eq] at h
    refine hno ⟨?_, ?_, ?_, ?_⟩ <;> linarith [h.1, h.2.1, h.2.2.1, h.2.2.2]
  have hu : Transform.toUTM proj c true = .throw .invalidArgument := by
    unfold Transform.toUTM
    rw [if_neg (fun h => h.1 (h2.trans hcrs)), if_pos (h2.trans hcrs)]
    have : Transform.guessGps c true = .throw .invalidArgument := by
      simp only [Transform.guessGps, h0, Bool.false_eq_true, if_false, Outcome.ok_bind]
      rw [if_neg (by simpa using heu), if_neg hno]
    rw [this]
    rfl
  unfold planFieldRoute planFieldPath
  rw [hcl]
  simp only [Outcome.ok_bind, Bool.false_eq_true, if_false, hu, Outcome.throw_bind, and_self]

/-! ## Examples -/

/-- A triangle with its first edge from (`x`, `y`) to (`x` + 2, `y`). -/
private def triangleAt (x y : ℝ) : Cells ℝ := [[[⟨x, y, 0⟩, ⟨x + 2, y, 0⟩, ⟨x + 2, y + 2, 0⟩, ⟨x, y, 0⟩]]]

private theorem triangleAt_wellFormed (x y : ℝ) : WellFormed (triangleAt x y) := by
  intro c hc
  rw [triangleAt, List.mem_singleton] at hc
  subst hc
  refine ⟨by simp, fun r hr => ?_⟩
  rw [List.mem_singleton.1 hr]
  exact ⟨by simp, by simp⟩

/-- The line inside of a cell is its first edge, and the headland is a way of 3 m between the ends of it. -/
private noncomputable def edgeEnv (solve : Graph2D ℝ → Option (List Nat)) : Env := {
  lineEnv solve with
  clip := fun c _ => [c.flatten.take 2]
  shortest := fun c _ => match c.flatten.flatten with
    | p :: q :: _ => run ⟨fun _ => .ok 0, fun l p => (l.find? fun e => e.1.eqv p).map Prod.snd⟩ [.add p q 3000]
    | _ => .ok Graph2D.empty }

private noncomputable def edgeRobot : Robot := { Robot.default with width := 2, covWidth := 2 }

private noncomputable def edgeOpt : Options := { Options.default with hgAlg := 0, sgAlg := 1 }

private theorem edge_route {solve : Graph2D ℝ → Option (List Nat)} (hsolve : AvoidsMissing solve) (x y : ℝ)
    (hx : 0 ≤ x) : ∃ (r : Route ℝ) (s : Swath ℝ), planCovRoute (edgeEnv solve) edgeRobot (triangleAt x y) edgeOpt = .ok r ∧
      r.groups = [[s]] ∧ s.width = 2 ∧ (s.path = [⟨x, y, 0⟩, ⟨x + 2, y, 0⟩] ∨ s.path = [⟨x + 2, y, 0⟩, ⟨x, y, 0⟩]) := by
  have hlaw : (edgeEnv solve).table.IsLawful := lineEnv_lawful solve
  obtain ⟨ts, gs, h1, h2, h3, -, h4⟩ := C71_complete_planner_partial (edgeEnv solve) edgeRobot (triangleAt x y)
    (triangleAt x y) (triangleAt x y) edgeOpt
    hlaw hsolve rfl (C60_none _ _ _ _ rfl) (show (0 : ℝ) < 2 by norm_num)
    (by simp [triangleAt])
  have hp : gs.flatten.map Swath.path = [[⟨x, y, 0⟩, ⟨x + 2, y, 0⟩]] := by
    rw [h2]
    rfl
  obtain ⟨s, hs⟩ : ∃ s, gs.flatten = [s] := by
    rw [← List.length_eq_one_iff, ← List.length_map (f := Swath.path), hp]
    rfl
  have hpath : s.path = [⟨x, y, 0⟩, ⟨x + 2, y, 0⟩] := by simpa [hs] using hp
  have hst : s.startPoint = ⟨x, y, 0⟩ := by simp [Swath.startPoint, hpath]
  have hen : s.endPoint = ⟨x + 2, y, 0⟩ := by simp [Swath.endPoint, hpath]
  set es : List (PEdit ℝ) := [.add ⟨x, y, 0⟩ ⟨x + 2, y, 0⟩ 3000] with hes
  have hnodes : nodes es = [⟨x, y, 0⟩, ⟨x + 2, y, 0⟩] := by
    simp [nodes, hes, PEdit.points, firsts]
  have hsep : Separated (nodes es) := by
    rw [hnodes]
    intro p hp q hq h
    simp only [List.mem_cons, List.not_mem_nil, or_false] at hp hq
    rcases hp with rfl | rfl <;> rcases hq with rfl | rfl <;> first
      | rfl
      | (simp [Point.eqv, Point.tol] at h; norm_num at h)
  have hh : HashOk (edgeEnv solve).table (nodes es) := fun p _ => rfl
  have hr : RemovesKnown es := PlannerL.removesKnown_of_none (by simp [hes])
  have hu : Undirected (2 ^ 30) es := by simp [Undirected, hes]
  obtain ⟨sg, -, -, -, hsg, -⟩ := C13_between_points (edgeEnv solve).table hlaw es (2 ^ 30) hsep hh
    hr hu (by norm_num) (by norm_num) ⟨x, y, 0⟩ ⟨x, y, 0⟩ (by simp [hnodes]) (by simp [hnodes])
  have hends : ends none gs.flatten = [⟨x, y, 0⟩, ⟨x + 2, y, 0⟩] := by
    simp [ends, hs, hst, hen]
  have hc : Connects (edgeEnv solve).table sg (ends none gs.flatten) := by
    refine C22_headland_connects _ hlaw es sg hsep hh hr hu hsg _ (by simp [hends, hnodes]) ?_
    intro a ha b hb
    simp only [hends, List.mem_cons, List.not_mem_nil, or_false] at ha hb
    rcases ha with rfl | rfl <;> rcases hb with rfl | rfl
    · exact ⟨0, .nil _, by norm_num⟩
    · exact ⟨3000 + 0, .cons (b := ⟨x + 2, y, 0⟩) (by simp [PEdge, hes, costAfter]) (.nil _), by norm_num⟩
    · exact ⟨3000 + 0, .cons (b := ⟨x, y, 0⟩) (by simp [PEdge, hes, costAfter]) (.nil _), by norm_num⟩
    · exact ⟨0, .nil _, by norm_num⟩
  have hdist : Distinct none gs.flatten := by
    have k : ∀ (u v : RPoint), (1 : ℝ) ≤ |u.x - v.x| → u.eqv v = false := by
      intro u v h
      have : ¬ |u.x - v.x| < (Point.tol : ℝ) := by
        rw [Point.tol]
        norm_num
        linarith
      simp [Point.eqv, this]
    simp only [Distinct, tourPoints, hs, List.flatMap_cons, List.flatMap_nil, List.append_nil, hst, hen, middle, home,
      Option.getD_none, List.cons_append, List.nil_append, List.pairwise_cons, List.mem_cons, List.not_mem_nil,
      or_false, forall_eq_or_imp, forall_eq, List.Pairwise.nil, and_true, implies_true, IsEmpty.forall_iff]
    refine ⟨⟨k _ _ ?_, k _ _ ?_, k _ _ ?_⟩, ⟨k _ _ ?_, k _ _ ?_⟩, k _ _ ?_⟩ <;> rw [le_abs] <;> simp only [] <;>
      first
      | (left; linarith)
      | (right; linarith)
  obtain ⟨r, order, r1, r2, r3⟩ := h4 sg hsg (by simp [hs]) (by simp [hs]) hdist (fun p _ => rfl) hc
  rw [hs] at r2
  obtain ⟨o, ho⟩ : ∃ o, order = [o] := by
    rw [← List.length_eq_one_iff, ← List.length_map (f := Prod.fst), r2.length_eq]
    rfl
  subst ho
  have ho1 : o.1 = s := by simpa using r2
  have hw := h3 s (by simp [hs])
  refine ⟨r, driven o, r1, r3, ?_, ?_⟩
  · rw [driven]
    split <;> rw [ho1] <;> exact hw
  · rw [driven]
    split
    · right
      simp [Swath.reverse, ho1, hpath]
    · left
      simp [ho1, hpath]

/-- C84 is false for a field whose reference point is not its first point: the swath of the plan is not where
the cells of the field are (it is at the beginning of the local coordinates of a clone). -/
theorem C84_other_ref : ∃ (env : Env) (robot : Robot) (f : FieldObj ℝ) (opt : Options) (r r' : Route ℝ)
    (s s' : Swath ℝ), WellFormed f.cells ∧ (∀ proj, planFieldRoute env proj robot f opt true = .ok r) ∧
      planCovRoute env robot f.cells opt = .ok r' ∧ r.groups = [[s]] ∧ r'.groups = [[s']] ∧
      (∀ p ∈ s.path, p.x ≤ 2) ∧ ∀ p ∈ s'.path, 5 ≤ p.x := by
  obtain ⟨solve, hsolve⟩ := exists_optimiser (K := ℝ)
  obtain ⟨r, s, h1, h2, -, h3⟩ := edge_route hsolve 0 0 le_rfl
  obtain ⟨r', s', k1, k2, -, k3⟩ := edge_route hsolve 5 0 (by norm_num)
  refine ⟨edgeEnv solve, edgeRobot, ⟨[], [], [], ⟨0, 0, 0⟩, triangleAt 5 0⟩, edgeOpt, r, r', s, s',
    triangleAt_wellFormed 5 0, fun proj => ?_, k1, h2, k2, ?_, ?_⟩
  · rw [(C84_local_value _ proj _ _ _ (triangleAt_wellFormed 5 0) ⟨5, 0, 0⟩ ⟨_, _, _, rfl⟩).1, ← h1]
    congr 1
    simp [onPoints, triangleAt]
  · rcases h3 with h | h <;> rw [h] <;> simp
  · rcases k3 with h | h <;> rw [h] <;> simp <;> norm_num

/-- Local coordinates, with a reference point far from the origin. -/
example : ∃ (env : Env) (r : Route ℝ) (s : Swath ℝ), ∀ proj,
    planFieldRoute env proj edgeRobot ⟨[], [], [], ⟨5, 52, 0⟩, triangleAt 0 0⟩ edgeOpt true = .ok r ∧
      r.groups = [[s]] ∧ ∀ p ∈ s.path, p.x ≤ 2 := by
  obtain ⟨solve, hsolve⟩ := exists_optimiser (K := ℝ)
  obtain ⟨r, s, h1, h2, -, h3⟩ := edge_route hsolve 0 0 le_rfl
  refine ⟨edgeEnv solve, r, s, fun proj => ⟨?_, h2, ?_⟩⟩
  · rw [(C84_local_partial _ proj _ ⟨[], [], [], ⟨5, 52, 0⟩, triangleAt 0 0⟩ _ (triangleAt_wellFormed 0 0)
      ⟨_, _, _, rfl⟩).1]
    exact h1
  · rcases h3 with h | h <;> rw [h] <;> simp

example (env : Env) (proj : Proj ℝ) :
    planFieldRouteDefault env proj edgeRobot ⟨[], [], [], ⟨5, 52, 0⟩, triangleAt 0 0⟩ true =
      planCellRoute env edgeRobot [[⟨0, 0, 0⟩, ⟨0 + 2, 0, 0⟩, ⟨0 + 2, 0 + 2, 0⟩, ⟨0, 0, 0⟩]] Options.default :=
  (C84_overloads env proj edgeRobot _ _ _ _ _ (triangleAt_wellFormed 0 0) ⟨_, _, _, rfl⟩).1

/-- A field in metres that has no coordinate system. -/
example (env : Env) (proj : Proj ℝ) : planFieldRoute env proj edgeRobot
    ⟨[], [], [], ⟨500000, 5800000, 0⟩, triangleAt 0 0⟩ edgeOpt false = .throw .invalidArgument := by
  refine (C84_no_system env proj _ _ _ (triangleAt_wellFormed 0 0) rfl ⟨500000, 5800000, 0⟩ ?_ ?_).1
  · have := FieldObj.first_absCells (f := ⟨[], [], [], ⟨500000, 5800000, 0⟩, triangleAt 0 0⟩) (p := ⟨0, 0, 0⟩)
      ⟨_, _, _, rfl⟩
    simpa [Point.add] using this
  · left
    norm_num

private def stay : Proj ℝ := fun _ _ => some id

private theorem stay_consistent : Consistent stay :=
  ⟨fun _ _ h _ => by cases h; rfl, fun _ _ _ _ _ h1 h2 => ⟨id, rfl, fun _ => by cases h1; cases h2; rfl⟩⟩

/-- Planning in UTM, with a projection that changes nothing: the route comes back in absolute coordinates. -/
example : ∃ (env : Env) (r : Route ℝ) (s : Swath ℝ),
    planFieldRoute env stay edgeRobot ⟨[], Transform.wgs84, [], ⟨5, 52, 0⟩, triangleAt 0 0⟩ edgeOpt false = .ok r ∧
      r.groups = [[s]] ∧ ∀ p ∈ s.path, 5 ≤ p.x ∧ p.x ≤ 7 ∧ p.y = 52 := by
  obtain ⟨solve, hsolve⟩ := exists_optimiser (K := ℝ)
  obtain ⟨r, s, h1, h2, hwid, h3⟩ := edge_route hsolve 0 0 le_rfl
  set f : FieldObj ℝ := ⟨[], Transform.wgs84, [], ⟨5, 52, 0⟩, triangleAt 0 0⟩ with hf
  have hw : WellFormed f.cells := triangleAt_wellFormed 0 0
  have hfirst : First f.cells ⟨0, 0, 0⟩ := ⟨_, _, _, rfl⟩
  have habs : First f.absCells ⟨5, 52, 0⟩ := by
    have := FieldObj.first_absCells hfirst
    simpa [Point.add, hf] using this
  have hcl : f.clone = .ok f := by
    unfold FieldObj.clone
    rw [FieldObj.make_first habs]
    show Outcome.ok _ = _
    have : mapCells (fun p => p.sub ⟨5, 52, 0⟩) f.absCells = f.cells := by
      rw [mapCells_eq f.absCells_normal, FieldObj.absCells, mapCells_eq hw.normal, onPoints_onPoints]
      exact onPoints_id (fun p => Point.add_sub_cancel'' p _) _
    rw [this, hf]
  have hany : ∀ a b : Str, (∃ x, Crs.sptRef a false = .ok x) → (∃ x, Crs.sptRef b false = .ok x) →
      coordTransf stay a b = .ok id := by
    rintro a b ⟨x, hx⟩ ⟨z, hz⟩
    rw [coordTransf, hx, Outcome.ok_bind, hz, Outcome.ok_bind]
    rfl
  have hwgs : ∃ x, Crs.sptRef Transform.wgs84 false = .ok x := ⟨.epsg 4326, by decide +kernel⟩
  obtain ⟨g, g', hg, -⟩ := C55_succeeds stay stay_consistent (fun _ _ => rfl) f true hwgs (by
    intro dst hd t ht p hp
    obtain ⟨_, _, _, _, e⟩ := coordTransf_ok ht
    cases e
    have : p = ⟨5, 52, 0⟩ := by
      rcases hp with rfl | hp
      · rfl
      · exact hp.unique habs
    rw [this]
    norm_num) hw
  obtain ⟨m, hprev⟩ := toUTM_moved stay_consistent (show f.crs ≠ [] by decide) hg
  obtain ⟨a, b, t, ha, hb, ht, e1, -⟩ := m.ex
  cases ht
  have hne : Cells.isEmpty f.cells = false := hfirst.not_isEmpty
  have hid : onPoints id f.absCells = f.absCells := onPoints_id (fun _ => rfl) _
  rw [hid] at e1
  have hgref : g.ref = ⟨5, 52, 0⟩ := by
    have := m.first hne
    rw [e1] at this
    exact this.unique habs
  have hgc : g.cells = triangleAt 0 0 := by
    rw [m.cells hne, e1, hgref, FieldObj.absCells, mapCells_eq hw.normal, onPoints_onPoints]
    exact onPoints_id (fun p => Point.add_sub_cancel'' p _) _
  obtain ⟨r', k1, k2, k3⟩ := C83_route_value stay g g.prevCrs id (hany _ _ ⟨_, hb⟩ (by rw [hprev]; exact hwgs)) r (by
    intro x hx s' hs'
    rw [h2, List.mem_singleton] at hx
    rw [hx, List.mem_singleton] at hs'
    rw [hs', hwid]
    norm_num)
  have hplan : planFieldRoute (edgeEnv solve) stay edgeRobot f edgeOpt false = .ok r' := by
    unfold planFieldRoute
    rw [hcl]
    simp only [Outcome.ok_bind, Bool.false_eq_true, if_false, hg, hgc, h1, k1]
  refine ⟨edgeEnv solve, r', _, hplan, k3.trans (by rw [h2]; rfl), ?_⟩
  rcases h3 with h | h <;> simp [h, hgref] <;> norm_num

end F2C.Props
