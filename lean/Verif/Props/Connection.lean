import Verif.Props.ConnectionSpec
import Verif.Props.PathPlanning
import Verif.Props.Turning

/-! # C82: driving a connection -/

namespace F2C.Props

open F2C.PP Turning TurningSpec PathPlanningSpec ConnectionSpec

theorem turnsAlong_via {δ : ℝ} {solve : Solver} {r : Robot} (good : Planner → Prop)
    (hgood : ∀ t t' p1 a1 p2 a2 q, good t → createTurn solve t r p1 a1 p2 a2 = .ok (q, t') →
      good t' ∧ (q = [] ∨ Joins δ p1 a1 p2 a2 q)) (l : List Pose) :
    ∀ (a : Pose) (t t' : Planner) (path p : Path), good t →
      turnsAlong solve r t path (a :: l) = .ok (p, t') → ∃ q, p = path ++ q ∧ Via δ (a :: l) q := by
  induction l with
  | nil =>
    intro a t t' path p _ h
    unfold turnsAlong at h
    injection h with h
    injection h with h1 h2
    exact ⟨[], by simp [h1], .last a⟩
  | cons b l ih =>
    intro a t t' path p ht h
    unfold turnsAlong at h
    obtain ⟨⟨q, t1⟩, hc, h⟩ := bind_ok h
    obtain ⟨hg, hj⟩ := hgood _ _ _ _ _ _ _ ht hc
    obtain ⟨w, hw, hv⟩ := ih b t1 t' _ p hg h
    exact ⟨q ++ w, by rw [hw]; simp, .leg a b l q w hj hv⟩

/-- **C82**, cache off: with a solver accurate to 5 cm a connection is driven from the start pose through
way points to the end pose, position and heading exact at each of them. -/
theorem C82_way_points (solve : Solver) (safe : Robot → ℝ) (r : Robot) (hs : 0 ≤ safe r) (t t' : Planner)
    (hc : t.useCache = false) (p1 : RPoint) (a1 : ℝ) (mp : List RPoint) (p2 : RPoint) (a2 : ℝ) (p : Path)
    (hacc : ∀ d a b p, solve r t.disc d a b = .ok p → Accurate (1 / 20) d a b p)
    (h : planBetween solve safe r t p1 a1 mp p2 a2 = .ok (p, t')) :
    ∃ mid : List (RPoint × ℝ), Via 0 ((p1, a1) :: (mid ++ [(p2, a2)])) p ∧ ∀ w ∈ mid, OnChord mp w.1 := by
  obtain ⟨mid, e, hm⟩ := C40_partial (safe r) hs p1 a1 mp p2 a2
  rw [planBetween, e] at h
  obtain ⟨q, hq, hv⟩ := turnsAlong_via (fun s => s.useCache = false ∧ s.disc = t.disc) (fun s s' _ _ _ _ q hg hk => by
    refine ⟨?_, C30_computed_partial solve s s' r _ _ _ _ q (by rw [hg.2]; exact hacc) (.inl hg.1) hk⟩
    obtain ⟨_, _, hp⟩ := createTurn_ok hk
    rcases hp with ⟨hu, -⟩ | ⟨_, hs', -⟩
    · rw [hg.1] at hu; cases hu
    · subst hs'; exact hg) _ _ t t' [] p ⟨hc, rfl⟩ h
  rw [List.nil_append] at hq
  exact ⟨mid, hq ▸ hv, hm⟩

/-- **C82**, for any history of the planner, with the cache on: positions are exact, headings right up to
1 mrad. -/
theorem C82_cached (solve : Solver) (safe : Robot → ℝ) (r : Robot) (hs : 0 ≤ safe r) (t t' : Planner)
    (hist : List Request) (ht : Reach solve t hist)
    (hpos : ∀ q ∈ hist, 0 ≤ q.dist ∧ 0 ≤ q.start ∧ 0 ≤ q.stop)
    (hacc : ∀ (q : Request) p, q.answer solve = .ok p → Accurate (49 / 1000) q.dist q.start q.stop p)
    (p1 : RPoint) (a1 : ℝ) (mp : List RPoint) (p2 : RPoint) (a2 : ℝ) (p : Path)
    (h : planBetween solve safe r t p1 a1 mp p2 a2 = .ok (p, t')) :
    ∃ mid : List (RPoint × ℝ), Via (1 / 1000) ((p1, a1) :: (mid ++ [(p2, a2)])) p ∧
      ∀ w ∈ mid, OnChord mp w.1 := by
  obtain ⟨mid, e, hm⟩ := C40_partial (safe r) hs p1 a1 mp p2 a2
  rw [planBetween, e] at h
  obtain ⟨q, hq, hv⟩ := turnsAlong_via (fun s => ∃ hist, Reach solve s hist ∧
      ∀ q ∈ hist, 0 ≤ q.dist ∧ 0 ≤ q.start ∧ 0 ≤ q.stop) (fun s s' b1 c1 b2 c2 q hg hk => by
    obtain ⟨hi, hr, hp⟩ := hg
    refine ⟨?_, C30_cached solve s s' hi r _ _ _ _ q hr hp hacc hk⟩
    obtain ⟨r1, r2, r3, r4⟩ := normal_ranges b1 b2 c1 c2
    have hd : 0 ≤ (normalTurn b1 c1 b2 c2).dist := by rw [normal_dist]; exact pdist_nonneg _ _
    obtain ⟨_, _, hcase⟩ := createTurn_ok hk
    rcases hcase with ⟨hu, -⟩ | ⟨_, hs', -⟩
    · refine ⟨_, .turn hr hu hk, fun w hw => ?_⟩
      rcases List.mem_cons.1 hw with rfl | hw
      · exact ⟨hd, r1, r3⟩
      · exact hp w hw
    · subst hs'; exact ⟨hi, hr, hp⟩) _ _ t t' [] p ⟨hist, ht, hpos⟩ h
  rw [List.nil_append] at hq
  exact ⟨mid, hq ▸ hv, hm⟩

theorem stepSolver_accurate (ε : ℝ) (hε : 0 ≤ ε) (r : Robot) (disc d a b : ℝ) (p : Path)
    (h : stepSolver r disc d a b = .ok p) : Accurate ε d a b p := by
  unfold stepSolver at h
  injection h with h
  subst h
  intro f l hf hl
  simp only [List.head?_cons, Option.some.injEq, List.getLast?_cons_cons, List.getLast?_singleton]
    at hf hl
  subst hf; subst hl
  simp only [pdist_self]
  exact ⟨hε, ⟨0, by simp⟩, hε, ⟨0, by simp⟩⟩

/-- A connection without points between two poses: planning succeeds and the path joins them. -/
example (p1 p2 : RPoint) (a1 a2 : ℝ) : ∃ p t', planBetween stepSolver (fun _ => 1) Robot.default
    ⟨[], 1, false⟩ p1 a1 [] p2 a2 = .ok (p, t') ∧ Joins 0 p1 a1 p2 a2 p := by
  obtain ⟨q, t', hk⟩ : ∃ q t', createTurn stepSolver ⟨[], 1, false⟩ Robot.default p1 a1 p2 a2 = .ok (q, t') :=
    ⟨_, _, rfl⟩
  refine ⟨q, t', ?_, ?_⟩
  · rw [planBetween, simplify, if_pos (.inr (by simp)), turnsAlong, hk, Outcome.ok_bind]
    simp only [turnsAlong, List.nil_append]
  · refine (C30_computed_partial stepSolver _ _ Robot.default p1 a1 p2 a2 _
      (fun d a b p h => stepSolver_accurate _ (by norm_num) _ _ d a b p h) (.inl rfl) hk).resolve_left fun h0 => ?_
    obtain ⟨d, a, b, p, hp, ⟨hl, -⟩ | ⟨_, _, _, _, _, _, _, -, hq, -⟩⟩ :=
      C30_only_ends_moved stepSolver _ _ Robot.default p1 a1 p2 a2 q rfl hk
    · unfold stepSolver at hp
      injection hp with hp
      subst hp
      simp at hl
    · rw [h0] at hq
      cases hq

/-- `C82_way_points` on a connection that makes a corner. -/
example (p : Path) (t' : Planner)
    (h : planBetween stepSolver (fun _ => 1) Robot.default ⟨[], 1, false⟩ ⟨0, 0, 0⟩ 0
      [⟨100, 0, 0⟩, ⟨100, 70, 0⟩] ⟨200, 70, 0⟩ 0 = .ok (p, t')) :
    ∃ mid : List (RPoint × ℝ), Via 0 ((⟨0, 0, 0⟩, 0) :: (mid ++ [(⟨200, 70, 0⟩, 0)])) p ∧
      ∀ w ∈ mid, OnChord [⟨100, 0, 0⟩, ⟨100, 70, 0⟩] w.1 :=
  C82_way_points stepSolver _ _ zero_le_one _ _ rfl _ _ _ _ _ p
    (fun d a b p h => stepSolver_accurate _ (by norm_num) _ _ d a b p h) h

/-- The planning in it does succeed. -/
example : ∃ p t', planBetween stepSolver (fun _ => 1) Robot.default ⟨[], 1, false⟩ ⟨0, 0, 0⟩ 0
    [⟨100, 0, 0⟩, ⟨100, 70, 0⟩] ⟨200, 70, 0⟩ 0 = .ok (p, t') := by
  have key : ∀ (l : List Pose) (path : Path), ∃ p t',
      turnsAlong stepSolver Robot.default ⟨[], 1, false⟩ path l = .ok (p, t') := by
    intro l
    induction l with
    | nil => exact fun _ => ⟨_, _, rfl⟩
    | cons a l ih =>
      cases l with
      | nil => exact fun _ => ⟨_, _, rfl⟩
      | cons b l =>
        intro path
        have hk : createTurn stepSolver ⟨[], 1, false⟩ Robot.default a.1 a.2 b.1 b.2 =
            .ok (_, ⟨[], 1, false⟩) := rfl
        rw [turnsAlong, hk]
        exact ih _
  exact key _ []

/-- `C82_cached` with a new planner, whose cache is on. -/
example (p1 p2 : RPoint) (a1 a2 : ℝ) (mp : List RPoint) (p : Path) (t' : Planner)
    (h : planBetween stepSolver (fun _ => 1) Robot.default Planner.default p1 a1 mp p2 a2 = .ok (p, t')) :
    ∃ mid : List (RPoint × ℝ), Via (1 / 1000) ((p1, a1) :: (mid ++ [(p2, a2)])) p ∧ ∀ w ∈ mid, OnChord mp w.1 :=
  C82_cached stepSolver _ _ zero_le_one _ _ [] Reach.new (by simp)
    (fun q p hq => stepSolver_accurate (49 / 1000) (by norm_num) _ _ _ _ _ p hq) _ _ _ _ _ _ h

end F2C.Props
