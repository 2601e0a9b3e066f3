import Verif.Model.TopLevel
import Verif.Props.RoutePlanner
import Verif.Props.SwathGenerator

/-!
# Properties C60 and C71: the complete planner
-/

namespace F2C.Props

open F2C.SG
open Top PlannerSpec Graph2DSpec

/-! ## C60: the headland -/

/-- **C60**, headland: with at least one ring asked for, the ring that is driven exists, and lies in the
middle of the headland: its depth is `w * (⌊n / 2⌋ + 1/2)`, which is more than 0 and less than the width of
the headland. -/
theorem C60_ring_partial (env : Env) (robot : Robot) (cells : Cells ℝ) (opt : Options) (h1 : opt.hgAlg = 1)
    (hn : 1 ≤ opt.hgSwaths) (hw : 0 < robot.width) :
    ∃ d : ℝ, Top.headland env robot cells opt =
        .ok (env.buffer cells (-(robot.width * opt.hgSwaths)), env.buffer cells (-d)) ∧
      0 < d ∧ d < robot.width * opt.hgSwaths ∧ |d - robot.width * opt.hgSwaths / 2| ≤ robot.width / 2 := by
  obtain ⟨n, hn'⟩ : ∃ n : Nat, opt.hgSwaths = n := ⟨opt.hgSwaths.toNat, by omega⟩
  have hfl : ⌊(1 / 2 : ℝ) * opt.hgSwaths⌋ = ((n / 2 : Nat) : Int) := by
    rw [hn', Int.floor_eq_iff]
    have a := Nat.div_add_mod n 2
    have b : n % 2 = 0 ∨ n % 2 = 1 := by omega
    have a' : (n : ℝ) = 2 * ((n / 2 : Nat) : ℝ) + ((n % 2 : Nat) : ℝ) := by exact_mod_cast a.symm
    generalize n / 2 = m at a'
    rcases b with b | b <;> rw [b] at a' <;> constructor <;> push_cast at a' ⊢ <;> linarith
  have hlt : n / 2 < n := by omega
  have hle : (n : ℝ) = 2 * ((n / 2 : Nat) : ℝ) + ((n % 2 : Nat) : ℝ) := by
    exact_mod_cast (Nat.div_add_mod n 2).symm
  have hb : n % 2 = 0 ∨ n % 2 = 1 := by omega
  have hn1 : (1 : ℝ) ≤ n := by
    have : 1 ≤ n := by omega
    exact_mod_cast this
  refine ⟨robot.width * (((n / 2 : Nat) : ℝ) + 1 / 2), ?_, by positivity, ?_, ?_⟩
  · unfold Top.headland
    rw [if_neg (by omega), if_pos h1]
    simp only [hfl]
    rw [if_neg (by omega)]
    simp only [HG.generateHeadlandArea, HG.generateHeadlandSwaths, if_true, Int.toNat_natCast]
    rw [List.getElem?_map, List.getElem?_range (by omega)]
    simp only [Option.map_some]
    rw [show -robot.width * (opt.hgSwaths : ℝ) = -(robot.width * opt.hgSwaths) by ring,
      show -robot.width * (((n / 2 : Nat) : ℝ) + 1 / 2) = -(robot.width * (((n / 2 : Nat) : ℝ) + 1 / 2)) by ring]
  · rw [hn']
    have h2 : ((n / 2 : Nat) : ℝ) + 1 ≤ n := by exact_mod_cast hlt
    push_cast
    nlinarith
  · rw [hn', abs_le]
    push_cast
    rcases hb with b | b <;> rw [b] at hle <;> push_cast at hle <;> rw [hle] <;> constructor <;>
      nlinarith

/-- C60, headland: without a headland the whole field is mainland, and its borders are driven. -/
theorem C60_none (env : Env) (robot : Robot) (cells : Cells ℝ) (opt : Options) (h0 : opt.hgAlg = 0) :
    Top.headland env robot cells opt = .ok (cells, cells) := by
  unfold Top.headland
  rw [if_pos h0]

/-- **C60** is false if a headland of no rings is asked for (0 is what a caller who wants no headland may
write): the list of rings is read out of bounds.  The statement covers every environment, robot and field. -/
theorem C60_no_rings_ub (env : Env) (robot : Robot) (cells : Cells ℝ) (opt : Options) (h1 : opt.hgAlg = 1)
    (hn : opt.hgSwaths ≤ 0) : (planCovRoute env robot cells opt).isUb = true ∧
      (planCovPath env robot cells opt).isUb = true := by
  have hh : (Top.headland env robot cells opt).isUb = true := by
    unfold Top.headland
    rw [if_neg (by omega), if_pos h1]
    simp only [HG.generateHeadlandSwaths, if_true]
    have : opt.hgSwaths.toNat = 0 := by omega
    rw [this]
    split <;> rfl
  have hr : (planCovRoute env robot cells opt).isUb = true := by
    unfold planCovRoute
    cases h : Top.headland env robot cells opt with
    | ok x => rw [h] at hh; simp [Outcome.isUb] at hh
    | throw e => rw [h] at hh; simp [Outcome.isUb] at hh
    | ub m => rfl
  refine ⟨hr, ?_⟩
  unfold planCovPath
  cases h : planCovRoute env robot cells opt with
  | ok x => rw [h] at hr; simp [Outcome.isUb] at hr
  | throw e => rw [h] at hr; simp [Outcome.isUb] at hr
  | ub m => rfl

/-! ## C60: the objective and the turn planner -/

/-- The objectives in the order of the enumeration `SGObjFunc`. -/
def objectives : List ObjKind := [.nSwathModified, .nSwath, .swathLength, .fieldCoverage, .overlaps]

/-- The curves in the order of the enumeration `PPAlg`. -/
def curveKinds : List TurnKind := [.dubins, .dubinsCC, .reedsShepp, .reedsSheppHC]

theorem getSGObj_eq (n : Nat) : getSGObj n = objectives[n]? := by
  match n with
  | 0 | 1 | 2 | 3 | 4 => rfl
  | n + 5 =>
    unfold getSGObj objectives
    rw [if_neg (by omega), if_neg (by omega), if_neg (by omega), if_neg (by omega), if_neg (by omega)]
    rfl

theorem getTurning_eq (n : Nat) : getTurning n = curveKinds[n]? := by
  match n with
  | 0 | 1 | 2 | 3 => rfl
  | n + 4 =>
    unfold getTurning curveKinds
    rw [if_neg (by omega), if_neg (by omega), if_neg (by omega), if_neg (by omega)]
    rfl

/-- **C60**, objective: with the search for the best angle, the swaths of every cell are those at a whole
number of degrees at which the cost of the objective with the chosen number is best among all whole numbers
of degrees (whenever its cost is defined at these). -/
theorem C60_objective_partial (env : Env) (robot : Robot) (mainland : Cells ℝ) (opt : Options) (n : Nat)
    (kind : ObjKind) (h0 : opt.sgAlg = 0) (hn : opt.sgObj = n) (hk : objectives[n]? = some kind)
    (c : Cell ℝ → ℝ → ℝ)
    (hc : ∀ cell ∈ mainland, ∀ j : Nat, j < 360 → rawCost (env.objective kind)
      (generateSwaths env.clip false) robot.covWidth cell (j * (Real.pi / 180)) =
        .ok (c cell (j * (Real.pi / 180))))
    (gs : SwathsByCells ℝ) (hne : ∃ cell ∈ mainland, cell.flatten ≠ [])
    (h : swaths env robot mainland opt = .ok gs) :
    List.Forall₂ (fun cell g => ∃ k : Nat, k < 360 ∧
      generateSwaths env.clip false (k * (Real.pi / 180)) robot.covWidth cell = .ok g ∧
      ∀ j : Nat, j < 360 → NoWorse (env.objective kind).isMinimizing (c cell (k * (Real.pi / 180)))
        (c cell (j * (Real.pi / 180)))) mainland gs := by
  have hpi := Real.pi_pos
  have hcand : ∀ j : Nat, ((j : ℝ) + 1) * (Real.pi / 180) ≤ 2 * Real.pi ↔ j < 360 := by
    intro j
    constructor
    · intro h
      have : (j : ℝ) + 1 ≤ 360 := by
        by_contra hcon
        push Not at hcon
        have := mul_lt_mul_of_pos_right hcon (show 0 < Real.pi / 180 by positivity)
        linarith
      have : j + 1 ≤ 360 := by exact_mod_cast this
      omega
    · intro h
      have : (j : ℝ) + 1 ≤ 360 := by
        have : j + 1 ≤ 360 := by omega
        exact_mod_cast this
      calc ((j : ℝ) + 1) * (Real.pi / 180) ≤ 360 * (Real.pi / 180) :=
            mul_le_mul_of_nonneg_right this (by positivity)
        _ = 2 * Real.pi := by ring
  unfold swaths at h
  rw [if_pos h0, hn, getSGObj_eq, hk] at h
  have h2 := perCell_ok _ _ _ (iter_of_exists hne) h
  have hmem : List.Forall₂ (fun cell g => cell ∈ mainland ∧ generateBestSwaths (env.objective kind) env.clip
      false (Real.pi / 180) robot.covWidth cell = .ok g) mainland gs := by
    rw [List.forall₂_iff_get] at h2 ⊢
    exact ⟨h2.1, fun i h h' => ⟨List.get_mem _ _, h2.2 i h h'⟩⟩
  refine hmem.imp ?_
  rintro cell g ⟨hm, hg⟩
  obtain ⟨k, k1, k2, k3, -⟩ := C26_brute_force_optimal (env.objective kind) (generateSwaths env.clip false)
    robot.covWidth cell (Real.pi / 180) (by positivity) (by linarith)
    (by rw [show 2 * Real.pi / (Real.pi / 180) = 360 by field_simp; norm_num]; norm_num) (c cell)
    (fun j hj => hc cell hm j ((hcand j).1 hj))
  refine ⟨k, (hcand k).1 k2, ?_, fun j hj => k3 j ((hcand j).2 hj)⟩
  rw [← C26_best_swaths _ _ _ _ _ _ _ k1]
  exact hg

/-- C60, objective: a number without objective is a null pointer that is dereferenced. -/
theorem C60_unknown_objective_ub (env : Env) (robot : Robot) (cells mainland ring : Cells ℝ) (opt : Options)
    (h0 : opt.sgAlg = 0) (hn : opt.sgObj < 0 ∨ 5 ≤ opt.sgObj)
    (hh : Top.headland env robot cells opt = .ok (mainland, ring)) :
    (planCovRoute env robot cells opt).isUb = true := by
  have : getSGObj opt.sgObj = none := by
    unfold getSGObj
    rw [if_neg (by omega), if_neg (by omega), if_neg (by omega), if_neg (by omega), if_neg (by omega)]
  unfold planCovRoute
  rw [hh, Outcome.ok_bind]
  simp only [swaths, if_pos h0, this, Outcome.ub_bind, Outcome.isUb]

/-- **C60**, turn planner: the path follows the planned route with the curves of the chosen number, starting
without stored turns. -/
theorem C60_curves (env : Env) (robot : Robot) (cells : Cells ℝ) (opt : Options) (n : Nat)
    (kind : TurnKind) (hn : opt.ppAlg = n) (hk : curveKinds[n]? = some kind) (path : Path) :
    planCovPath env robot cells opt = .ok path ↔ ∃ route t, planCovRoute env robot cells opt = .ok route ∧
      PP.planRoute (env.curves kind) env.safe robot ⟨[], 1 / 100, true⟩ route = .ok (path, t) := by
  change _ ↔ ∃ route t, planCovRoute env robot cells opt = .ok route ∧
      PP.planRoute (env.curves kind) env.safe robot Turning.Planner.default route = .ok (path, t)
  unfold planCovPath
  rw [hn, getTurning_eq, hk]
  cases h : planCovRoute env robot cells opt with
  | throw e => simp
  | ub m => simp
  | ok route =>
    rw [Outcome.ok_bind]
    simp only [Outcome.ok.injEq, exists_eq_left', ← exists_and_left]
    cases h' : PP.planRoute (env.curves kind) env.safe robot Turning.Planner.default route with
    | throw e => simp [h']
    | ub m => simp [h']
    | ok x =>
      obtain ⟨p, t⟩ := x
      simp [h']

/-- C60, turn planner: a number without curves is a null pointer that is dereferenced. -/
theorem C60_unknown_curves_ub (env : Env) (robot : Robot) (cells : Cells ℝ) (opt : Options) (route : Route ℝ)
    (hn : opt.ppAlg < 0 ∨ 4 ≤ opt.ppAlg) (hr : planCovRoute env robot cells opt = .ok route) :
    (planCovPath env robot cells opt).isUb = true := by
  have : getTurning opt.ppAlg = none := by
    unfold getTurning
    rw [if_neg (by omega), if_neg (by omega), if_neg (by omega), if_neg (by omega)]
  unfold planCovPath
  rw [hr, Outcome.ok_bind, this]
  rfl

/-- C60: options that do not belong to the chosen algorithms change nothing. -/
theorem C60_unused_options (env : Env) (robot : Robot) (cells : Cells ℝ) (opt opt' : Options)
    (h1 : opt'.hgAlg = opt.hgAlg) (h2 : opt.hgAlg ≠ 0 → opt'.hgSwaths = opt.hgSwaths)
    (h3 : opt'.sgAlg = opt.sgAlg) (h4 : opt.sgAlg = 0 → opt'.sgObj = opt.sgObj)
    (h5 : opt.sgAlg ≠ 0 → opt'.sgAngle = opt.sgAngle) :
    planCovRoute env robot cells opt' = planCovRoute env robot cells opt := by
  have hh : Top.headland env robot cells opt' = Top.headland env robot cells opt := by
    unfold Top.headland
    rw [h1]
    by_cases h : opt.hgAlg = 0
    · rw [if_pos h, if_pos h]
    · rw [if_neg h, if_neg h, h2 h]
  have hs : ∀ m, swaths env robot m opt' = swaths env robot m opt := by
    intro m
    unfold swaths
    rw [h3]
    by_cases h : opt.sgAlg = 0
    · rw [if_pos h, if_pos h, h4 h]
    · rw [if_neg h, if_neg h, h5 h]
  unfold planCovRoute
  rw [hh]
  simp only [hs]

/-- For the examples: an environment in which the buffer keeps the cells and nothing is inside of them. -/
noncomputable def noEnv : Env := {
  buffer := fun c _ => c
  clip := fun _ _ => []
  objective := fun _ => ⟨true, true, fun a _ _ => .ok a, fun _ _ => .ok 0⟩
  table := ⟨hashPoint, fun _ _ => none⟩
  shortest := fun _ _ => .ok Graph2D.empty
  solve := fun _ => none
  curves := fun _ _ _ _ _ _ => .ok []
  safe := fun _ => 0 }

example : ∃ d : ℝ, Top.headland noEnv { Robot.default with width := 2 } [[]] Options.default =
    .ok (noEnv.buffer [[]] (-(2 * ((3 : Int) : ℝ))), noEnv.buffer [[]] (-d)) ∧ 0 < d ∧ d < 2 * ((3 : Int) : ℝ) ∧
      |d - 2 * ((3 : Int) : ℝ) / 2| ≤ 2 / 2 :=
  C60_ring_partial noEnv { Robot.default with width := 2 } [[]] Options.default rfl (by decide)
    (show (0 : ℝ) < 2 by norm_num)

example : (planCovRoute noEnv Robot.default [[]] { Options.default with hgSwaths := 0 }).isUb = true :=
  (C60_no_rings_ub noEnv _ _ _ rfl (le_refl 0)).1

/-- The hypotheses of `C60_objective_partial` can be met, with the angle itself as cost. -/
example : ∃ gs, swaths noEnv { Robot.default with covWidth := 2 } [[[⟨0, 0, 0⟩, ⟨3, 0, 0⟩, ⟨0, 3, 0⟩, ⟨0, 0, 0⟩]]]
    Options.default = .ok gs := by
  have hpi := Real.pi_pos
  set cell : Cell ℝ := [[⟨0, 0, 0⟩, ⟨3, 0, 0⟩, ⟨0, 3, 0⟩, ⟨0, 0, 0⟩]] with hcell
  obtain ⟨k, k1, -⟩ := C26_brute_force_optimal (noEnv.objective .nSwathModified) (generateSwaths noEnv.clip false)
    2 cell (Real.pi / 180) (by positivity) (by linarith)
    (by rw [show 2 * Real.pi / (Real.pi / 180) = 360 by field_simp; norm_num]; norm_num) (fun a => a)
    (fun j _ => rfl)
  obtain ⟨_, ss, _, h2, _⟩ := C25_generated_numbers noEnv.clip false (k * (Real.pi / 180)) 2 cell (by norm_num)
    (by simp [hcell])
  refine ⟨[ss], ?_⟩
  unfold swaths
  rw [if_pos (show Options.default.sgAlg = 0 from rfl)]
  show perCell (generateBestSwaths (noEnv.objective .nSwathModified) noEnv.clip false (Real.pi / 180) 2) [cell] = _
  exact perCell_of_forall₂ _ _ _ (iter_of_forall (by simp [hcell])) (.cons (by rw [C26_best_swaths _ _ _ _ _ _ _ k1]; exact h2) .nil)

/-! ## C71 -/

/-- **C71.** If the field can be shrunk to cells that have a border, the complete planner with a given angle
returns a route in which every piece of track inside of the mainland is driven exactly once, in one of the two
directions, with the width of the robot.  (Pieces without points are no swaths if a cell has only such pieces.)  Besides what C21 asks for nothing is assumed. -/
theorem C71_complete_planner_partial (env : Env) (robot : Robot) (cells mainland ring : Cells ℝ) (opt : Options)
    (hT : env.table.IsLawful) (hsolve : AvoidsMissing env.solve) (h1 : opt.sgAlg = 1)
    (hh : Top.headland env robot cells opt = .ok (mainland, ring)) (hw : 0 < robot.covWidth)
    (hcells : ∀ c ∈ mainland, c.flatten ≠ []) :
    ∃ (ts : Cell ℝ → List (List RPoint)) (gs : SwathsByCells ℝ),
      (∀ c ∈ mainland, tracks false opt.sgAngle robot.covWidth c = .ok (ts c)) ∧
      (gs.flatten.map Swath.path = mainland.flatMap fun c =>
        if ∀ l ∈ env.clip c (ts c), l = [] then [] else env.clip c (ts c)) ∧
      (∀ s ∈ gs.flatten, s.width = robot.covWidth) ∧ swaths env robot mainland opt = .ok gs ∧
      ∀ sg, env.shortest ring gs = .ok sg → gs.flatten ≠ [] → gs.flatten.length ≤ 300000 →
        Distinct none gs.flatten → HashOk env.table (tourPoints none gs.flatten) →
        Connects env.table sg (ends none gs.flatten) →
        ∃ (r : Route ℝ) (order : List (Swath ℝ × Bool)), planCovRoute env robot cells opt = .ok r ∧
          (order.map Prod.fst).Perm gs.flatten ∧ r.groups = order.map fun x => [driven x] := by
  classical
  have hgen := fun c (hc : c ∈ mainland) =>
    C25_generated_numbers env.clip false opt.sgAngle robot.covWidth c hw (hcells c hc)
  choose! ts ss k1 k2 k3 k3' k4 using hgen
  have hf : ∀ m : Cells ℝ, (∀ c ∈ m, c ∈ mainland) → List.Forall₂ (fun c g =>
      generateSwaths env.clip false opt.sgAngle robot.covWidth c = .ok g) m (m.map ss) := by
    intro m
    induction m with
    | nil => intro _; exact .nil
    | cons c m ih =>
      intro hm
      exact .cons (k2 c (hm c (List.mem_cons_self ..))) (ih fun x hx => hm x (List.mem_cons_of_mem _ hx))
  have hgs := perCell_of_forall₂ _ _ _ (iter_of_forall hcells) (hf mainland fun _ h => h)
  have hwid : ∀ s ∈ SwathsByCells.flatten (mainland.map ss), s.width = robot.covWidth := by
    intro s hs
    rw [SwathsByCells_flatten_eq] at hs
    obtain ⟨g, hg, hsg⟩ := List.mem_flatten.1 hs
    obtain ⟨c, hc, rfl⟩ := List.mem_map.1 hg
    obtain ⟨i, hi, rfl⟩ := List.getElem_of_mem hsg
    exact (k4 c hc i hi).2.1
  have hs : swaths env robot mainland opt = .ok (mainland.map ss) := by
    unfold swaths
    rw [if_neg (by omega), if_pos h1]
    exact hgs
  refine ⟨ts, mainland.map ss, k1, ?_, hwid, hs, ?_⟩
  · rw [SwathsByCells_flatten_eq, List.map_flatten, List.map_map, List.flatMap_def]
    congr 1
    refine List.map_congr_left fun c hc => ?_
    simp only [Function.comp]
    by_cases h : ∀ l ∈ env.clip c (ts c), l = []
    · rw [if_pos h, k3' c hc h, List.map_nil]
    · rw [if_neg h]
      exact k3 c hc (by simpa using h)
  · intro sg hsg hne hn hd hhash hc
    obtain ⟨r, order, r1, r2, r3, -⟩ := C21_each_swath_once_partial env.table hT sg true none _ env.solve
      hsolve hne hn (fun s hs => by rw [hwid s hs]; exact hw) hd hhash hc
    refine ⟨r, order, ?_, r2, r3⟩
    unfold planCovRoute
    rw [hh, Outcome.ok_bind]
    simp only [hs, Outcome.ok_bind, hsg]
    exact r1

/-- **C71** is false for the hash function of the code: the complete planner sets no start point, so that
`genRoute` puts (-1e8, -1e8) into the graph, whose hash is undefined; no run is free of undefined
behaviour and ends with a route. -/
theorem C71_depot_undefined (env : Env) (robot : Robot) (cells : Cells ℝ) (opt : Options)
    (hT : env.table.IsStrict) (hs : ∀ cov ids, env.solve cov = some ids → IsTour cov ids) :
    (planCovRoute env robot cells opt).isOk = false := by
  unfold planCovRoute
  cases h1 : Top.headland env robot cells opt with
  | throw e => rfl
  | ub m => rfl
  | ok x =>
    obtain ⟨mainland, ring⟩ := x
    simp only [Outcome.ok_bind]
    cases h2 : swaths env robot mainland opt with
    | throw e => simp only [Outcome.throw_bind]; rfl
    | ub m => simp only [Outcome.ub_bind]; rfl
    | ok s =>
      simp only [Outcome.ok_bind]
      cases h3 : env.shortest ring s with
      | throw e => simp only [Outcome.throw_bind]; rfl
      | ub m => simp only [Outcome.ub_bind]; rfl
      | ok g =>
        simp only [Outcome.ok_bind]
        by_cases hd : s.flatten = []
        · have := C21_no_swaths_ub env.table g true none s hd env.solve hs
          cases h4 : Planner.genRoute env.table env.solve g true none s with
          | ok x => rw [h4] at this; simp [Outcome.isUb] at this
          | throw e => rfl
          | ub m => rfl
        · exact C21_default_depot_never_ok env.table hT g true s hd env.solve

/-- For the example: a planning environment in which one line is inside of every cell, and the headland is a
way of 3 m between its ends. -/
noncomputable def lineEnv (solve : Graph2D ℝ → Option (List Nat)) : Env := {
  noEnv with
  clip := fun _ _ => [[⟨0, 0, 0⟩, ⟨2, 0, 0⟩]]
  table := ⟨fun _ => .ok 0, fun l p => (l.find? fun e => e.1.eqv p).map Prod.snd⟩
  shortest := fun _ _ => run ⟨fun _ => .ok 0, fun l p => (l.find? fun e => e.1.eqv p).map Prod.snd⟩
    [.add ⟨0, 0, 0⟩ ⟨2, 0, 0⟩ 3000]
  solve := solve }

theorem lineEnv_lawful (solve : Graph2D ℝ → Option (List Nat)) : (lineEnv solve).table.IsLawful where
  sound l p i h := by
    simp only [lineEnv, Option.map_eq_some_iff] at h
    obtain ⟨e, he, rfl⟩ := h
    exact ⟨e.1, List.mem_of_find?_eq_some he, by simpa using List.find?_some he⟩
  complete l p q i hm he _ := by
    simp only [lineEnv, Option.isSome_map, List.find?_isSome]
    exact ⟨(q, i), hm, he⟩

theorem lineEnv_connects (solve : Graph2D ℝ → Option (List Nat)) (ring : Cells ℝ) (gs : SwathsByCells ℝ)
    (s : Swath ℝ) (hs : gs.flatten = [s]) (hst : s.startPoint = ⟨0, 0, 0⟩) (hen : s.endPoint = ⟨2, 0, 0⟩)
    (hsolve : AvoidsMissing solve) (hw : 0 < s.width) :
    ∃ sg, (lineEnv solve).shortest ring gs = .ok sg ∧ Connects (lineEnv solve).table sg (ends none gs.flatten) ∧
      Distinct none gs.flatten ∧ ∃ r x, Planner.genRoute (lineEnv solve).table solve sg true none gs = .ok r ∧
        r.groups = [[driven (s, x)]] ∧ r.connections = [[]] := by
  set es : List (PEdit ℝ) := [.add ⟨0, 0, 0⟩ ⟨2, 0, 0⟩ 3000] with hes
  have hnodes : nodes es = [⟨0, 0, 0⟩, ⟨2, 0, 0⟩] := by
    simp [nodes, hes, PEdit.points, firsts]
  have hsep : Separated (nodes es) := by
    rw [hnodes]
    intro p hp q hq h
    simp only [List.mem_cons, List.not_mem_nil, or_false] at hp hq
    rcases hp with rfl | rfl <;> rcases hq with rfl | rfl <;> first
      | rfl
      | (simp [Point.eqv, Point.tol] at h; norm_num at h)
  have hh : HashOk (lineEnv solve).table (nodes es) := fun p _ => rfl
  have hr : RemovesKnown es := PlannerL.removesKnown_of_none (by simp [hes])
  have hu : Undirected (2 ^ 30) es := by simp [Undirected, hes]
  obtain ⟨sg, -, -, -, hsg, -⟩ := C13_between_points (lineEnv solve).table (lineEnv_lawful solve) es (2 ^ 30) hsep hh
    hr hu (by norm_num) (by norm_num) ⟨0, 0, 0⟩ ⟨0, 0, 0⟩ (by simp [hnodes]) (by simp [hnodes])
  have hends : ends none gs.flatten = [⟨0, 0, 0⟩, ⟨2, 0, 0⟩] := by
    simp [ends, hs, hst, hen]
  have hV : ∀ p ∈ ends none gs.flatten, p ∈ nodes es := by simp [hends, hnodes]
  have hwalk : ∀ a ∈ ends none gs.flatten, ∀ b ∈ ends none gs.flatten, ∃ t, PWalk es a b t ∧ t < 2 ^ 30 := by
    intro a ha b hb
    simp only [hends, List.mem_cons, List.not_mem_nil, or_false] at ha hb
    rcases ha with rfl | rfl <;> rcases hb with rfl | rfl
    · exact ⟨0, .nil _, by norm_num⟩
    · exact ⟨3000 + 0, .cons (b := ⟨2, 0, 0⟩) (by simp [PEdge, hes, costAfter]) (.nil _), by norm_num⟩
    · exact ⟨3000 + 0, .cons (b := ⟨0, 0, 0⟩) (by simp [PEdge, hes, costAfter]) (.nil _), by norm_num⟩
    · exact ⟨0, .nil _, by norm_num⟩
  have hdist : Distinct none gs.flatten := by
    simp [Distinct, tourPoints, hs, hst, hen, middle, home, Point.eqv, Point.tol]
    norm_num
  refine ⟨sg, hsg, C22_headland_connects _ (lineEnv_lawful solve) es sg hsep hh hr hu hsg _ hV hwalk, hdist, ?_⟩
  obtain ⟨r, order, r1, r2, r3, r4, -⟩ := C22_connections_partial (lineEnv solve).table (lineEnv_lawful solve) es sg
    hsep hh hr hu hsg true none gs solve hV hwalk hsolve (by simp [hs]) (by simp [hs]) (by simpa [hs] using hw) hdist
    (fun p _ => rfl)
  rw [hs] at r2
  obtain ⟨⟨s', x⟩, hx, rfl⟩ := List.map_eq_singleton_iff.1 (List.perm_singleton.1 r2)
  subst hx
  refine ⟨r, x, r1, r3, ?_⟩
  cases hcn : r.connections with
  | nil => rw [hcn] at r4; exact r4.elim
  | cons c cs =>
    rw [hcn] at r4
    obtain ⟨rfl, hl⟩ := r4
    cases hl with
    | stop _ => rfl
    | home h _ => cases h

/-- The hypotheses of C71 can be met. -/
example : ∃ (env : Env) (robot : Robot) (cells : Cells ℝ) (opt : Options) (r : Route ℝ)
    (order : List (Swath ℝ × Bool)), planCovRoute env robot cells opt = .ok r ∧
      order.map (fun x => x.1.path) = [[⟨0, 0, 0⟩, ⟨2, 0, 0⟩]] ∧ r.groups = order.map fun x => [driven x] := by
  obtain ⟨solve, hsolve⟩ := exists_optimiser (K := ℝ)
  set robot : Robot := { Robot.default with width := 2, covWidth := 2 } with hrobot
  set cell : Cell ℝ := [[⟨0, 0, 0⟩, ⟨2, 0, 0⟩, ⟨2, 2, 0⟩, ⟨0, 0, 0⟩]] with hcell
  set opt : Options := { Options.default with hgAlg := 0, sgAlg := 1 } with hopt
  obtain ⟨ts, gs, h1, h2, h3, hsw, h4⟩ := C71_complete_planner_partial (lineEnv solve) robot [cell] [cell] [cell] opt
    (lineEnv_lawful solve) hsolve rfl (C60_none _ _ _ _ rfl) (show (0 : ℝ) < 2 by norm_num)
    (by simp [hcell])
  have hp : gs.flatten.map Swath.path = [[⟨0, 0, 0⟩, ⟨2, 0, 0⟩]] := by
    rw [h2]
    simp [lineEnv]
  obtain ⟨s, hs⟩ : ∃ s, gs.flatten = [s] := by
    rw [← List.length_eq_one_iff, ← List.length_map (f := Swath.path), hp]
    rfl
  have hpath : s.path = [⟨0, 0, 0⟩, ⟨2, 0, 0⟩] := by simpa [hs] using hp
  have hst : s.startPoint = ⟨0, 0, 0⟩ := by simp [Swath.startPoint, hpath]
  have hen : s.endPoint = ⟨2, 0, 0⟩ := by simp [Swath.endPoint, hpath]
  obtain ⟨sg, hsg, hc, hdist, -⟩ := lineEnv_connects solve [cell] gs s hs hst hen hsolve
    (by rw [h3 s (by simp [hs])]; exact (show (0 : ℝ) < 2 by norm_num))
  obtain ⟨r, order, r1, r2, r3⟩ := h4 sg hsg (by simp [hs]) (by simp [hs]) hdist (fun p _ => rfl) hc
  refine ⟨_, _, _, _, r, order, r1, ?_, r3⟩
  have := (r2.map Swath.path)
  rw [hp, List.map_map] at this
  exact List.perm_singleton.1 this

end F2C.Props
