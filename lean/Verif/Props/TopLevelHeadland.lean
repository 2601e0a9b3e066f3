import Verif.Props.ShortestGraph
import Verif.Props.TopLevel

/-! # C71 with the headland graph of the code -/

namespace F2C.Props

open Graph2DSpec PlannerSpec Planner HeadSpec Outcome Top F2C.SG

/-- C71 (part): the complete planner with the real headland graph.  The conditions are those of
`C71_complete_planner_partial`, with "the graph connects all swath ends" replaced by conditions on the
ring: it hangs together, and its points and the swath ends are distinguishable, have a defined hash
value, and are few and near enough. -/
theorem C71_on_headland_partial (env : Env) (robot : Robot) (cells mainland ring : Cells ℝ) (opt : Options)
    (ordE : List (Nat × Nat) → List (Nat × Nat)) (hE : ∀ l, (ordE l).Perm l)
    (ordN : List RPoint → List RPoint) (hN : ∀ l, (ordN l).Perm l)
    (hsg : ∀ c d, env.shortest c d = createShortestGraph env.table ordE ordN (1 / 10000) none c d)
    (hT : env.table.IsLawful) (hsolve : AvoidsMissing env.solve) (h1 : opt.sgAlg = 1)
    (hh : Top.headland env robot cells opt = .ok (mainland, ring)) (hw : 0 < robot.covWidth)
    (hcells : ∀ c ∈ mainland, c.flatten ≠ []) (hu : Usable ring) (htog : Together ring) :
    ∃ (ts : Cell ℝ → List (List RPoint)) (gs : SwathsByCells ℝ),
      (∀ c ∈ mainland, tracks false opt.sgAngle robot.covWidth c = .ok (ts c)) ∧
      (gs.flatten.map Swath.path = mainland.flatMap fun c =>
        if ∀ l ∈ env.clip c (ts c), l = [] then [] else env.clip c (ts c)) ∧
      (∀ s ∈ gs.flatten, s.width = robot.covWidth) ∧
      ∀ (S : List RPoint) (D : ℝ), gs.flatten ≠ [] → gs.flatten.length ≤ 300000 →
        Contains ring (ends none gs.flatten) S → Separated S → HashOk env.table S →
        (∀ a ∈ S, ∀ b ∈ S, pdist a b ≤ D) → S.length * (1000 * D) < 2 ^ 30 →
        Distinct none gs.flatten → HashOk env.table (tourPoints none gs.flatten) →
        ∃ (r : Route ℝ) (order : List (Swath ℝ × Bool)), planCovRoute env robot cells opt = .ok r ∧
          (order.map Prod.fst).Perm gs.flatten ∧ r.groups = order.map fun x => [driven x] := by
  obtain ⟨ts, gs, k1, k2, k3, -, k4⟩ :=
    C71_complete_planner_partial env robot cells mainland ring opt hT hsolve h1 hh hw hcells
  refine ⟨ts, gs, k1, k2, k3, ?_⟩
  intro S D hne hlen hS hsep hhash hD hcost hdist hhash'
  obtain ⟨g, m1, m2, -⟩ := C73_headland_ways_partial env.table hT ordE hE ordN hN (1 / 10000) (by norm_num) none ring
    gs hu htog S hS hsep hhash D hD hcost
  exact k4 g ((hsg ring gs).trans m1) hne hlen hdist hhash' m2

/-- The example of C71 with one track across a square and the headland graph of the code. -/
noncomputable def squareEnv (solve : Graph2D ℝ → Option (List Nat)) : Env := {
  lineEnv solve with
  clip := fun _ _ => [[gridPoint 1 0, gridPoint 1 4]]
  shortest := fun c d => createShortestGraph (lineEnv solve).table id id (1 / 10000) none c d }

/-- The hypotheses can be met. -/
example : ∃ (env : Env) (robot : Robot) (opt : Options) (r : Route ℝ)
    (order : List (Swath ℝ × Bool)), planCovRoute env robot [[demoRing 0]] opt = .ok r ∧
      order.map (fun x => x.1.path) = [[gridPoint 1 0, gridPoint 1 4]] ∧ r.groups = order.map fun x => [driven x] := by
  obtain ⟨solve, hsolve⟩ := exists_optimiser (K := ℝ)
  set robot : Robot := { Robot.default with width := 2, covWidth := 2 } with hrobot
  set opt : Options := { Options.default with hgAlg := 0, sgAlg := 1 } with hopt
  obtain ⟨f1, f2, -, -⟩ := demo_facts
  obtain ⟨ts, gs, h1, h2, h3, h4⟩ := C71_on_headland_partial (squareEnv solve) robot [[demoRing 0]] [[demoRing 0]]
    [[demoRing 0]] opt id (fun l => List.Perm.refl l) id (fun l => List.Perm.refl l) (fun _ _ => rfl)
    (lineEnv_lawful solve) hsolve rfl (C60_none _ _ _ _ rfl) (show (0 : ℝ) < 2 by norm_num)
    (by simp [demoRing]) f1 f2
  have hp : gs.flatten.map Swath.path = [[gridPoint 1 0, gridPoint 1 4]] := by
    rw [h2]
    rfl
  obtain ⟨s, hs⟩ : ∃ s, gs.flatten = [s] := by
    rw [← List.length_eq_one_iff, ← List.length_map (f := Swath.path), hp]
    rfl
  have hpath : s.path = [gridPoint 1 0, gridPoint 1 4] := by simpa [hs] using hp
  have hst : s.startPoint = gridPoint 1 0 := by simp [Swath.startPoint, hpath]
  have hen : s.endPoint = gridPoint 1 4 := by simp [Swath.endPoint, hpath]
  have hends : ends none gs.flatten = [gridPoint 1 0, gridPoint 1 4] := by
    simp [ends, hs, hst, hen]
  have hS := demo_contains [0] (by simp) (ends none gs.flatten) (by
    rw [hends]
    intro p hp
    simp only [List.mem_cons, List.not_mem_nil, or_false] at hp
    rcases hp with rfl | rfl
    · exact ⟨rfl, 0, by simp, (demoRing_on 0 1 (by norm_num) (by norm_num)).1⟩
    · exact ⟨rfl, 0, by simp, (demoRing_on 0 1 (by norm_num) (by norm_num)).2⟩)
  have hgrid : ∀ p ∈ ends none gs.flatten ++ corners (List.map (fun x => [demoRing x]) [0]),
      ∃ a b : ℤ, p = gridPoint a b ∧ 0 ≤ a ∧ a ≤ 1000 ∧ 0 ≤ b ∧ b ≤ 1000 := by
    rw [hends]
    intro p hp
    simp only [corners, List.map_cons, List.map_nil, List.flatten_cons, List.flatten_nil, List.append_nil, demoRing,
      List.cons_append, List.nil_append, List.mem_cons, List.not_mem_nil, or_false] at hp
    rcases hp with rfl | rfl | rfl | rfl | rfl | rfl | rfl <;> exact ⟨_, _, rfl, by norm_num⟩
  obtain ⟨r, order, r1, r2, r3⟩ := h4 _ 2000 (by simp [hs]) (by simp [hs]) hS
    (separated_grid fun p hp => by obtain ⟨a, b, e, -⟩ := hgrid p hp; exact ⟨a, b, e⟩) (fun p _ => rfl)
    (dist_grid hgrid) (by rw [hends]; simp [corners, demoRing]; norm_num) (by
      simp [Distinct, tourPoints, hs, hst, hen, middle, home, Point.eqv, Point.tol, gridPoint]
      norm_num) (fun p _ => rfl)
  refine ⟨_, _, _, r, order, r1, ?_, r3⟩
  have := (r2.map Swath.path)
  rw [hp, List.map_map] at this
  exact List.perm_singleton.1 this

end F2C.Props
