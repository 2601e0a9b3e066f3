import Verif.Lemmas.ObjVirtual
import Verif.Props.Objectives
import Verif.Props.TopLevel

/-!
# Property theorems C111 and C112: all overloads of the objectives, and the swaths that the generator chooses
-/

namespace F2C.Props

open SG F2C.SG F2C.Obj F2C.Top Obj

/-! ## C111 -/

/-- **C111**, sign: field coverage is maximised, all other objectives of swaths are minimised; with the sign
applied, the smaller value is always the better one. -/
theorem C111_sign {A : Type} (area : Cells ℝ → ℝ) (covered : Cells ℝ → ℝ → List (List RPoint) → ℝ)
    (inter : A → A → ℝ) (around : Cells ℝ → Swath ℝ → A) (k : ObjKind) (a b : ℝ) :
    ((vOf area covered inter around k).isMinimizing = true ↔ k ≠ .fieldCoverage) ∧
    ((vOf area covered inter around k).isMaximizing = true ↔ k = .fieldCoverage) ∧
    (withSign (vOf area covered inter around k).isMinimizing a ≤ withSign (vOf area covered inter around k).isMinimizing b ↔
      if k = .fieldCoverage then b ≤ a else a ≤ b) := by
  cases k <;> simp [vOf, vNSwath, vNSwathModified, vSwathLength, vFieldCoverage, vOverlaps, VObj.base,
    VObj.isMaximizing, withSign]

/-- **C111**, signed cost: it is the cost itself, or the cost with the sign changed for field coverage. -/
theorem C111_signed_cost {A : Type} (area : Cells ℝ → ℝ) (covered : Cells ℝ → ℝ → List (List RPoint) → ℝ)
    (inter : A → A → ℝ) (around : Cells ℝ → Swath ℝ → A) (k : ObjKind) (a : ℝ) :
    withSign (vOf area covered inter around k).isMinimizing a = if k = .fieldCoverage then -a else a := by
  cases k <;> simp [vOf, vNSwath, vNSwathModified, vSwathLength, vFieldCoverage, vOverlaps, VObj.base, withSign]

example : withSign (vOf (A := Unit) (fun _ => 0) (fun _ _ _ => 0) (fun _ _ => 0) (fun _ _ => ()) .fieldCoverage).isMinimizing
    (3 / 4) = -(3 / 4) := C111_signed_cost _ _ _ _ .fieldCoverage _

/-- **C111**, one cell: for every objective the cost of swaths in a cell is that of the same swaths in a collection
of this one cell. -/
theorem C111_one_cell {A : Type} (area : Cells ℝ → ℝ) (covered : Cells ℝ → ℝ → List (List RPoint) → ℝ)
    (inter : A → A → ℝ) (around : Cells ℝ → Swath ℝ → A) (k : ObjKind) (c : Cell ℝ) (l : Swaths ℝ)
    (g : SwathsByCells ℝ) :
    (vOf area covered inter around k).cellSwaths c l = (vOf area covered inter around k).cellsSwaths [c] l ∧
    (vOf area covered inter around k).cellSwathsByCells c g =
      (vOf area covered inter around k).cellsSwathsByCells [c] g := by
  have hb : ∀ o : SGObjective, o.angle 0 0 c = 0 → ∀ l, (o.cellSwaths c l) = (o.cellsSwaths [c] l) := by
    intro o h0 l
    obtain ⟨-, -, a, b, -, -⟩ := C67_costs_add_up o c [c] l []
    have : o.cells [c] = 0 := by
      by_cases hc : c.flatten = []
      · exact (C67_cells o [c]).2 (by simpa using hc)
      · rw [(C67_cells o [c]).1 ⟨c, by simp, hc⟩]; simp [h0]
    rw [a, b, this, SGObjective.cell, h0]
  have h1 : ∀ l, (vOf area covered inter around k).cellSwaths c l =
      (vOf area covered inter around k).cellsSwaths [c] l := by
    intro l
    cases k
    · exact congrArg _ (hb ⟨nSwath.swath, nSwathModified⟩ (by simp [nSwathModified]) l)
    · exact congrArg _ (hb nSwath rfl l)
    · exact congrArg _ (hb swathLength rfl l)
    · rfl
    · rfl
  refine ⟨h1 l, ?_⟩
  unfold VObj.cellSwathsByCells VObj.cellsSwathsByCells
  simp only [h1]

/-- **C111**: asked without the cells, coverage and overlaps cost nothing, whatever the swaths are; nor does any
angle. -/
theorem C111_without_cells {A : Type} (area : Cells ℝ → ℝ) (covered : Cells ℝ → ℝ → List (List RPoint) → ℝ)
    (inter : A → A → ℝ) (around : Cells ℝ → Swath ℝ → A) (k : ObjKind) (hk : k = .fieldCoverage ∨ k = .overlaps)
    (s : Swath ℝ) (l : Swaths ℝ) (g : SwathsByCells ℝ) (a w : ℝ) (c : Cell ℝ) :
    (vOf area covered inter around k).swath s = 0 ∧ (vOf area covered inter around k).swaths l = 0 ∧
    (vOf area covered inter around k).swathsByCells g = 0 ∧ (vOf area covered inter around k).angle a w c = 0 := by
  have h0 : ∀ l : Swaths ℝ, (SGObjective.swaths ⟨fun _ => 0, fun _ _ _ => 0⟩ l) = 0 := by
    intro l
    unfold SGObjective.swaths
    induction l with
    | nil => rfl
    | cons s l ih => simpa using ih
  have h1 : ∀ o : VObj, (∀ l, o.swaths l = 0) → ∀ g : SwathsByCells ℝ, o.swathsByCells g = 0 := by
    intro o ho g
    unfold VObj.swathsByCells
    induction g with
    | nil => rfl
    | cons l g ih => simpa [ho] using ih
  rcases hk with rfl | rfl
  · exact ⟨rfl, h0 l, h1 _ h0 g, rfl⟩
  · exact ⟨rfl, h0 l, h1 _ h0 g, rfl⟩

example : (vOf (A := Unit) (fun _ => 0) (fun _ _ _ => 7) (fun _ _ => 0) (fun _ _ => ()) .fieldCoverage).swaths
    [Swath.default] = 0 :=
  (C111_without_cells _ _ _ _ .fieldCoverage (.inl rfl) Swath.default _ [] 0 0 []).2.1

/-- **C111**, groups, for the objectives about single swaths: the number of swaths and their length, through every
overload with a cell or cells. -/
theorem C111_groups_count_and_length (c : Cell ℝ) (cs : Cells ℝ) (g : SwathsByCells ℝ) :
    vNSwath.cellSwathsByCells c g = .ok (List.flatten g).length ∧ vNSwath.cellsSwathsByCells cs g = .ok (List.flatten g).length ∧
    vNSwath.swathsByCells g = (List.flatten g).length ∧
    vNSwathModified.cellSwathsByCells c g = .ok (List.flatten g).length ∧
    vNSwathModified.swathsByCells g = (List.flatten g).length ∧
    vSwathLength.cellSwathsByCells c g = .ok ((List.flatten g).map fun s => lineLength s.path).sum ∧
    vSwathLength.cellsSwathsByCells cs g = .ok ((List.flatten g).map fun s => lineLength s.path).sum ∧
    vSwathLength.swathsByCells g = ((List.flatten g).map fun s => lineLength s.path).sum := by
  have hlen : ((g.map fun l => (l.length : ℝ)).sum) = (((List.flatten g).length : ℕ) : ℝ) := by
    induction g with
    | nil => simp
    | cons a g ih => simp [ih]
  have hsum : ((g.map fun l : Swaths ℝ => (l.map fun s => lineLength s.path).sum).sum)
      = ((List.flatten g).map fun s => lineLength s.path).sum := by
    clear hlen
    induction g with
    | nil => simp
    | cons a g ih => simp [ih]
  have hone : ∀ l : Swaths ℝ, (l.map fun _ => (1 : ℝ)).sum = l.length := by
    intro l; simp
  have z1 : ∀ o : SGObjective, (∀ a b c, o.angle a b c = 0) → ∀ cs, o.cells cs = 0 := by
    intro o h cs
    by_cases hc : ∃ c ∈ cs, c.flatten ≠ []
    · rw [(C67_cells o cs).1 hc]; simp [h]
    · exact (C67_cells o cs).2 (by simpa using hc)
  have w1 : ∀ l, vNSwath.cellSwaths c l = .ok (l.length : ℝ) := by
    intro l; exact congrArg _ (C67_count_and_length c l []).1
  have w2 : ∀ l, vNSwath.cellsSwaths cs l = .ok (l.length : ℝ) := by
    intro l
    refine congrArg Outcome.ok (?_ : nSwath.cellsSwaths cs l = _)
    obtain ⟨-, -, -, b, -, -⟩ := C67_costs_add_up nSwath c cs l []
    rw [b, z1 nSwath (fun _ _ _ => rfl), mul_zero, zero_add]
    exact hone l
  have w3 : ∀ l, vNSwathModified.cellSwaths c l = .ok (l.length : ℝ) := by
    intro l
    refine congrArg Outcome.ok (?_ : SGObjective.cellSwaths ⟨nSwath.swath, nSwathModified⟩ c l = _)
    obtain ⟨-, -, b, -, -, -⟩ := C67_costs_add_up ⟨nSwath.swath, nSwathModified⟩ c cs l []
    rw [b, SGObjective.cell]
    simp only [nSwathModified, le_refl, or_true, if_true, mul_zero, zero_add]
    exact hone l
  have w4 : ∀ l, vSwathLength.cellSwaths c l = .ok (l.map fun s => lineLength s.path).sum := by
    intro l
    refine congrArg Outcome.ok (?_ : swathLength.cellSwaths c l = _)
    obtain ⟨-, -, b, -, -, -⟩ := C67_costs_add_up swathLength c cs l []
    rw [b]; simp [SGObjective.cell, swathLength]
  have w5 : ∀ l, vSwathLength.cellsSwaths cs l = .ok (l.map fun s => lineLength s.path).sum := by
    intro l
    refine congrArg Outcome.ok (?_ : swathLength.cellsSwaths cs l = _)
    obtain ⟨-, -, -, b, -, -⟩ := C67_costs_add_up swathLength c cs l []
    rw [b, z1 swathLength (fun _ _ _ => rfl)]; simp [swathLength]
  refine ⟨?_, ?_, ?_, ?_, ?_, ?_, ?_, ?_⟩
  · rw [VObj.cellSwathsByCells, foldOutcome_sum _ _ _ (fun a _ => w1 a), zero_add, hlen]
  · rw [VObj.cellsSwathsByCells, foldOutcome_sum _ _ _ (fun a _ => w2 a), zero_add, hlen]
  · rw [VObj.swathsByCells, foldl_add_eq, zero_add]; exact hlen
  · rw [VObj.cellSwathsByCells, foldOutcome_sum _ _ _ (fun a _ => w3 a), zero_add, hlen]
  · rw [VObj.swathsByCells, foldl_add_eq, zero_add]; exact hlen
  · rw [VObj.cellSwathsByCells, foldOutcome_sum _ _ _ (fun a _ => w4 a), zero_add, hsum]
  · rw [VObj.cellsSwathsByCells, foldOutcome_sum _ _ _ (fun a _ => w5 a), zero_add, hsum]
  · exact (C67_count_and_length c [] g).2.2.2.2.2

/-- **C111**, groups, for the field coverage: the shares of the groups are added; a group without swaths is
undefined behaviour. -/
theorem C111_groups_coverage (area : Cells ℝ → ℝ) (covered : Cells ℝ → ℝ → List (List RPoint) → ℝ) (cs : Cells ℝ)
    (g : SwathsByCells ℝ) :
    ((∀ l ∈ g, l ≠ []) → (vFieldCoverage area covered).cellsSwathsByCells cs g =
      .ok ((g.map fun l => covered cs ((l.headD Swath.default).width / 2) (l.map fun s => s.path)).sum / area cs)) ∧
    ((∃ l ∈ g, l = []) → ((vFieldCoverage area covered).cellsSwathsByCells cs g).isUb = true) := by
  constructor
  · intro h
    rw [VObj.cellsSwathsByCells, foldOutcome_sum _
      (fun l => covered cs ((l.headD Swath.default).width / 2) (l.map fun s => s.path) / area cs), zero_add]
    · congr 1
      simp only [div_eq_mul_inv]
      rw [List.sum_map_mul_right]
    · intro l hl
      obtain ⟨s, r, rfl⟩ := List.exists_cons_of_ne_nil (h l hl)
      rfl
  · rintro ⟨l, hl, rfl⟩
    unfold VObj.cellsSwathsByCells
    generalize (0 : ℝ) = d
    induction g generalizing d with
    | nil => simp at hl
    | cons a g ih =>
      rw [foldOutcome]
      cases a with
      | nil => rfl
      | cons s r =>
        exact ih (by simpa using hl) _

/-- **C111** is false for the field coverage of groups: it is no share of the field.  Whenever the coverage of some
swaths is above one half, that of two groups of these swaths is above 1. -/
theorem C111_coverage_above_one (area : Cells ℝ → ℝ) (covered : Cells ℝ → ℝ → List (List RPoint) → ℝ)
    (cs : Cells ℝ) (l : Swaths ℝ) (v : ℝ) (h : (vFieldCoverage area covered).cellsSwaths cs l = .ok v)
    (hv : 1 / 2 < v) :
    ∃ u, (vFieldCoverage area covered).cellsSwathsByCells cs [l, l] = .ok u ∧ 1 < u := by
  refine ⟨v + v, ?_, by linarith⟩
  rw [VObj.cellsSwathsByCells, foldOutcome_sum _ (fun _ => v) _ (by simpa using h)]
  simp

/-- **C111** is false for the overlaps of groups: overlaps between different groups are not counted.  With one swath
in each group the cost is 0, whatever the swaths are. -/
theorem C111_overlaps_between_groups {A : Type} (area : Cells ℝ → ℝ) (inter : A → A → ℝ)
    (around : Cells ℝ → Swath ℝ → A) (cs : Cells ℝ) (l : Swaths ℝ) :
    (vOverlaps area inter around).cellsSwathsByCells cs (l.map fun s => [s]) = .ok 0 := by
  rw [VObj.cellsSwathsByCells, foldOutcome_sum _ (fun _ => 0)]
  · rw [zero_add, List.sum_eq_zero (by simp)]
  · intro g hg
    obtain ⟨s, -, rfl⟩ := List.mem_map.1 hg
    show overlaps _ _ 1 _ = _
    rw [C28_exact_value]
    simp

/-- **C111**, headlands: a single cell counts as a collection of one cell, and of two remaining areas of the same
field the larger one is the better one. -/
theorem C111_headland (A : Set RPoint → ℝ) (hA : IsArea A) (set : Cells ℝ → Set RPoint) (area : Cells ℝ → ℝ)
    (harea : ∀ c, area c = A (set c)) (diffArea : Cells ℝ → Cells ℝ → ℝ)
    (hdiff : ∀ t r, diffArea t r = A (set t \ set r)) (t r : Cell ℝ) (ts rs rs' : Cells ℝ) (h0 : 0 < A (set ts)) :
    hgCellCell area diffArea t r = hgCells area diffArea [t] [r] ∧
    hgCellCells area diffArea t rs = hgCells area diffArea [t] rs ∧
    hgCellsCell area diffArea ts r = hgCells area diffArea ts [r] ∧
    hgCells area diffArea ts rs * A (set ts) = A (set ts ∩ set rs) ∧
    (withSign remAreaIsMinimizing (hgCells area diffArea ts rs) ≤
      withSign remAreaIsMinimizing (hgCells area diffArea ts rs') ↔
      A (set ts ∩ set rs') ≤ A (set ts ∩ set rs)) := by
  have e : ∀ rs, hgCells area diffArea ts rs * A (set ts) = A (set ts ∩ set rs) := by
    intro rs
    rw [hgCells, hdiff, harea]
    exact (C68_headland_is_fraction A hA (set ts) (set rs) h0).1
  refine ⟨rfl, rfl, rfl, e rs, ?_⟩
  rw [← e rs, ← e rs', mul_le_mul_iff_left₀ h0]
  simp [withSign, remAreaIsMinimizing]

/-- **C111**, decompositions: the objective does not distinguish them. -/
theorem C111_decomp (a b : Cells ℝ) : decompCost a = decompCost b := rfl

/-- **C111**, between a swath and a point: the distance from its end, or to its start. -/
theorem C111_swath_point (s : Swath ℝ) (p q r : RPoint) (l : List RPoint) (h : s.path = q :: (l ++ [r])) :
    RPCost.swathPoint s p = .ok (pdist r p) ∧ RPCost.pointSwath p s = .ok (pdist p q) := by
  constructor
  · obtain ⟨x, m, hx⟩ : ∃ x m, (q :: l).reverse = x :: m := List.exists_cons_of_ne_nil (by simp)
    have : s.path.reverse = r :: x :: m := by rw [h, ← hx]; simp
    have h1 : s.outAngle = .ok (angleFromPoint (r.sub x)) := by unfold Swath.outAngle; rw [this]
    have h2 : s.endPoint = r := by
      unfold Swath.endPoint
      rw [h, show (q :: (l ++ [r])).getLast? = some r from List.getLast?_concat (l := q :: l)]
      rfl
    rw [RPCost.swathPoint, h1, h2]
    rfl
  · obtain ⟨x, m, hx⟩ : ∃ x m, l ++ [r] = x :: m := List.exists_cons_of_ne_nil (by simp)
    simp [RPCost.pointSwath, Swath.inAngle, h, hx, Swath.startPoint, RPCost.points]

/-- **C111**, between a swath and a point with a direction, when turns are computed: the length of the turn. -/
theorem C111_swath_pose (solve : Turning.Solver) (r : Robot) (t : Turning.Planner) (s : Swath ℝ) (p a b : RPoint)
    (l : List RPoint) (ang : ℝ) :
    (s.path = l ++ [a, b] → TurnCost.swathPose solve r t s p ang =
      (Turning.createTurn solve t r b (angleFromPoint (b.sub a)) p ang).map fun x => (x.1.totalLength, x.2)) ∧
    (s.path = a :: b :: l → TurnCost.poseSwath solve r t p ang s =
      (Turning.createTurn solve t r p ang a (angleFromPoint (b.sub a))).map fun x => (x.1.totalLength, x.2)) := by
  constructor
  · intro h
    have h1 : s.outAngle = .ok (angleFromPoint (b.sub a)) := by
      unfold Swath.outAngle; rw [h]; simp
    have h2 : s.endPoint = b := by simp [Swath.endPoint, h]
    rw [TurnCost.swathPose, h1, Outcome.ok_bind, h2, TurnCost.turn]
    cases Turning.createTurn solve t r b (angleFromPoint (b.sub a)) p ang <;> rfl
  · intro h
    have h1 : s.inAngle = .ok (angleFromPoint (b.sub a)) := by
      unfold Swath.inAngle; rw [h]
    have h2 : s.startPoint = a := by simp [Swath.startPoint, h]
    rw [TurnCost.poseSwath, h1, Outcome.ok_bind, h2, TurnCost.turn]
    cases Turning.createTurn solve t r p ang a (angleFromPoint (b.sub a)) <;> rfl

/-- Two groups of the same swath that covers three quarters of the field: the coverage is 3/2. -/
example : (vFieldCoverage (fun _ => 4) (fun _ _ _ => 3)).cellsSwathsByCells [rect 3]
    [[Swath.default], [Swath.default]] = .ok (3 / 2) := by
  rw [(C111_groups_coverage _ _ _ _).1 (by simp)]
  norm_num

example : RPCost.swathPoint ⟨0, [⟨0, 0, 0⟩, ⟨3, 0, 0⟩], 1, true, .mainland⟩ ⟨3, 2, 0⟩ = .ok (pdist ⟨3, 0, 0⟩ ⟨3, 2, 0⟩) :=
  (C111_swath_point _ _ ⟨0, 0, 0⟩ _ [] rfl).1

/-! ## C112 -/

/-- **C112**, number of swaths: with `NSwath` the generator returns the swaths of one of the candidate angles, and
at no other candidate angle there are fewer. -/
theorem C112_fewest (clip : Cell ℝ → List (List RPoint) → List (List RPoint)) (overlap : Bool) (w : ℝ)
    (poly : Cell ℝ) (step : ℝ) (hw : 0 < w) (hne : poly.flatten ≠ []) (h0 : 0 < step) (h1 : step ≤ 2 * Real.pi)
    (h2 : 2 * Real.pi / step < 2 ^ 31) :
    ∃ (k : Nat) (ss : Swaths ℝ), generateBestSwaths vNSwath.forGenerator clip overlap step w poly = .ok ss ∧
      Candidate step k ∧ generateSwaths clip overlap (k * step) w poly = .ok ss ∧
      ∀ (j : Nat) (ss' : Swaths ℝ), Candidate step j → generateSwaths clip overlap (j * step) w poly = .ok ss' →
        ss.length ≤ ss'.length := by
  obtain ⟨k, ss, a, b, c, d⟩ := best_of vNSwath rfl (fun l => l.length) clip overlap w poly step hw hne h0 h1 h2
    (fun j ss _ _ => congrArg _ (C67_count_and_length poly ss []).1)
  refine ⟨k, ss, a, b, c, fun j ss' hj hs => ?_⟩
  have := d j ss' hj hs
  simpa [NoWorse, vNSwath, VObj.base] using this

/-- **C112**, length: with `SwathLength` at no other candidate angle the swaths are shorter in total. -/
theorem C112_shortest (clip : Cell ℝ → List (List RPoint) → List (List RPoint)) (overlap : Bool) (w : ℝ)
    (poly : Cell ℝ) (step : ℝ) (hw : 0 < w) (hne : poly.flatten ≠ []) (h0 : 0 < step) (h1 : step ≤ 2 * Real.pi)
    (h2 : 2 * Real.pi / step < 2 ^ 31) :
    ∃ (k : Nat) (ss : Swaths ℝ), generateBestSwaths vSwathLength.forGenerator clip overlap step w poly = .ok ss ∧
      Candidate step k ∧ generateSwaths clip overlap (k * step) w poly = .ok ss ∧
      ∀ (j : Nat) (ss' : Swaths ℝ), Candidate step j → generateSwaths clip overlap (j * step) w poly = .ok ss' →
        (ss.map fun s => lineLength s.path).sum ≤ (ss'.map fun s => lineLength s.path).sum := by
  obtain ⟨k, ss, a, b, c, d⟩ := best_of vSwathLength rfl (fun l => (l.map fun s => lineLength s.path).sum) clip overlap
    w poly step hw hne h0 h1 h2 (fun j ss _ _ => congrArg _ (C67_count_and_length poly ss []).2.2.2.2.1)
  refine ⟨k, ss, a, b, c, fun j ss' hj hs => ?_⟩
  have := d j ss' hj hs
  simpa [NoWorse, vSwathLength, VObj.base] using this

/-- **C112**, coverage: with `FieldCoverage` at no other candidate angle a larger part of the field lies in the
buffer of the swaths.  Missing: cells that have no swaths at some candidate angle, where the search is undefined
(`C68_thin_field_ub`). -/
theorem C112_coverage_partial (A : Set RPoint → ℝ) (set : Cells ℝ → Set RPoint) (area : Cells ℝ → ℝ)
    (harea : ∀ c, area c = A (set c)) (buffer : ℝ → List (List RPoint) → Set RPoint)
    (covered : Cells ℝ → ℝ → List (List RPoint) → ℝ) (hcov : ∀ c d ls, covered c d ls = A (set c ∩ buffer d ls))
    (clip : Cell ℝ → List (List RPoint) → List (List RPoint)) (overlap : Bool) (w : ℝ)
    (poly : Cell ℝ) (step : ℝ) (hw : 0 < w) (hne : poly.flatten ≠ []) (h0 : 0 < step) (h1 : step ≤ 2 * Real.pi)
    (h2 : 2 * Real.pi / step < 2 ^ 31) (hpos : 0 < A (set [poly]))
    (hsome : ∀ (j : Nat) (ss : Swaths ℝ), Candidate step j →
      generateSwaths clip overlap (j * step) w poly = .ok ss → ss ≠ []) :
    ∃ (k : Nat) (ss : Swaths ℝ),
      generateBestSwaths (vFieldCoverage area covered).forGenerator clip overlap step w poly = .ok ss ∧
      Candidate step k ∧ generateSwaths clip overlap (k * step) w poly = .ok ss ∧
      ∀ (j : Nat) (ss' : Swaths ℝ), Candidate step j → generateSwaths clip overlap (j * step) w poly = .ok ss' →
        A (set [poly] ∩ buffer (w / 2) (ss'.map fun s => s.path)) ≤
          A (set [poly] ∩ buffer (w / 2) (ss.map fun s => s.path)) := by
  have hwidth : ∀ a ss, generateSwaths clip overlap a w poly = .ok ss → ∀ s ∈ ss, s.width = w := by
    intro a ss h s hs
    obtain ⟨ts, ss', -, e, -, -, hi⟩ := C25_generated_numbers clip overlap a w poly hw hne
    rw [h] at e
    cases e
    obtain ⟨i, hi', rfl⟩ := List.getElem_of_mem hs
    exact (hi i hi').2.1
  obtain ⟨k, ss, a, b, c, d⟩ := best_of (vFieldCoverage area covered) rfl
    (fun l => A (set [poly] ∩ buffer (w / 2) (l.map fun s => s.path)) / A (set [poly])) clip overlap
    w poly step hw hne h0 h1 h2 (fun j ss hj hs => by
      obtain ⟨s, r, rfl⟩ := List.exists_cons_of_ne_nil (hsome j ss hj hs)
      show fieldCoverage (covered [poly]) (area [poly]) (s :: r) = _
      rw [fieldCoverage, hcov, harea, hwidth _ _ hs s (by simp)])
  refine ⟨k, ss, a, b, c, fun j ss' hj hs => ?_⟩
  have := d j ss' hj hs
  simp only [NoWorse, vFieldCoverage, Bool.false_eq_true, if_false] at this
  exact (div_le_div_iff_of_pos_right hpos).1 this

/-- **C112**, in the complete planner with the search for the best angle: every cell of the mainland is covered by
as few swaths as at the best of the 360 whole degrees if `N_SWATH` (1) is chosen, and by swaths that are as short
as possible if `SWATH_LENGTH` (2) is. -/
theorem C112_planner {A : Type} (area : Cells ℝ → ℝ) (covered : Cells ℝ → ℝ → List (List RPoint) → ℝ)
    (inter : A → A → ℝ) (around : Cells ℝ → Swath ℝ → A) (env : Env)
    (hobj : env.objective = fun k => (vOf area covered inter around k).forGenerator) (robot : Robot)
    (mainland : Cells ℝ) (opt : Options) (h0 : opt.sgAlg = 0) (hw : 0 < robot.covWidth)
    (hcells : ∀ c ∈ mainland, c.flatten ≠ []) :
    (opt.sgObj = 1 → ∃ gs, Top.swaths env robot mainland opt = .ok gs ∧ List.Forall₂ (fun cell g =>
      (∃ k : Nat, k < 360 ∧ generateSwaths env.clip false (k * (Real.pi / 180)) robot.covWidth cell = .ok g) ∧
      ∀ (j : Nat) (g' : Swaths ℝ), j < 360 →
        generateSwaths env.clip false (j * (Real.pi / 180)) robot.covWidth cell = .ok g' →
        g.length ≤ g'.length) mainland gs) ∧
    (opt.sgObj = 2 → ∃ gs, Top.swaths env robot mainland opt = .ok gs ∧ List.Forall₂ (fun cell g =>
      (∃ k : Nat, k < 360 ∧ generateSwaths env.clip false (k * (Real.pi / 180)) robot.covWidth cell = .ok g) ∧
      ∀ (j : Nat) (g' : Swaths ℝ), j < 360 →
        generateSwaths env.clip false (j * (Real.pi / 180)) robot.covWidth cell = .ok g' →
        (g.map fun s => lineLength s.path).sum ≤ (g'.map fun s => lineLength s.path).sum) mainland gs) := by
  have hpi := Real.pi_pos
  have hcand : ∀ j : Nat, Candidate (Real.pi / 180) j ↔ j < 360 := by
    intro j
    unfold Candidate
    have e : ((j : ℝ) + 1) * (Real.pi / 180) ≤ 2 * Real.pi ↔ (j : ℝ) + 1 ≤ 360 := by
      rw [show (2 : ℝ) * Real.pi = 360 * (Real.pi / 180) by ring]
      exact mul_le_mul_iff_left₀ (by positivity)
    rw [e]
    constructor
    · intro h
      have : j + 1 ≤ 360 := by exact_mod_cast h
      omega
    · intro h
      have : j + 1 ≤ 360 := by omega
      exact_mod_cast this
  have hsteps : 2 * Real.pi / (Real.pi / 180) < 2 ^ 31 := by
    rw [show 2 * Real.pi / (Real.pi / 180) = 360 by field_simp; norm_num]; norm_num
  have hall : ∀ (R : Cell ℝ → Swaths ℝ → Prop) (one : Cell ℝ → Outcome (Swaths ℝ)),
      (∀ c ∈ mainland, ∃ ss, one c = .ok ss ∧ R c ss) →
      ∃ gs, perCell one mainland = .ok gs ∧ List.Forall₂ R mainland gs := by
    intro R one h
    choose! f hf hR using h
    refine ⟨mainland.map f, perCell_of_forall₂ _ _ _ (iter_of_forall hcells) ?_, ?_⟩
    · rw [List.forall₂_map_right_iff, List.forall₂_same]; exact hf
    · rw [List.forall₂_map_right_iff, List.forall₂_same]; exact hR
  constructor
  · intro h
    unfold Top.swaths
    rw [if_pos h0, h, show getSGObj 1 = some .nSwath from rfl]
    refine hall _ _ fun c hc => ?_
    obtain ⟨k, ss, a, b, e, d⟩ := C112_fewest env.clip false robot.covWidth c (Real.pi / 180) hw (hcells c hc)
      (by positivity) (by linarith) hsteps
    refine ⟨ss, by rw [hobj]; exact a, ⟨k, (hcand k).1 b, e⟩, fun j g' hj => d j g' ((hcand j).2 hj)⟩
  · intro h
    unfold Top.swaths
    rw [if_pos h0, h, show getSGObj 2 = some .swathLength from rfl]
    refine hall _ _ fun c hc => ?_
    obtain ⟨k, ss, a, b, e, d⟩ := C112_shortest env.clip false robot.covWidth c (Real.pi / 180) hw (hcells c hc)
      (by positivity) (by linarith) hsteps
    refine ⟨ss, by rw [hobj]; exact a, ⟨k, (hcand k).1 b, e⟩, fun j g' hj => d j g' ((hcand j).2 hj)⟩

/-- A rectangle and two candidate angles, 0 and 180 degrees. -/
example : ∃ ss, generateBestSwaths vNSwath.forGenerator (fun _ ls => ls) false Real.pi 1 (rect 3) = .ok ss := by
  have hpi := Real.pi_pos
  obtain ⟨-, ss, h, -⟩ := C112_fewest (fun _ ls => ls) false 1 (rect 3) Real.pi one_pos (by simp [rect]) hpi
    (by linarith) (by rw [mul_div_assoc, div_self hpi.ne']; norm_num)
  exact ⟨ss, h⟩

/-- Coverage with one swath at every angle. -/
example : ∃ ss, generateBestSwaths (vFieldCoverage (fun _ => twoPlots Set.univ) (fun _ _ _ => twoPlots (Set.univ ∩ Set.univ))).forGenerator
    (fun _ _ => [[⟨0, 0, 0⟩, ⟨9, 0, 0⟩]]) false Real.pi 1 (rect 3) = .ok ss := by
  have hpi := Real.pi_pos
  obtain ⟨-, ss, h, -⟩ := C112_coverage_partial twoPlots (fun _ => Set.univ) _ (fun _ => rfl) (fun _ _ => Set.univ) _
    (fun _ _ _ => rfl) (fun _ _ => [[⟨0, 0, 0⟩, ⟨9, 0, 0⟩]]) false 1 (rect 3) Real.pi one_pos (by simp [rect]) hpi
    (by linarith) (by rw [mul_div_assoc, div_self hpi.ne']; norm_num) (by simp [twoPlots]; norm_num)
    (fun j ss _ hs => by
      obtain ⟨ts, ss', -, e, h3, -⟩ := C25_generated_numbers (fun _ _ => [[⟨0, 0, 0⟩, ⟨9, 0, 0⟩]]) false (j * Real.pi) 1
        (rect 3) one_pos (by simp [rect])
      rw [hs] at e
      cases e
      rintro rfl
      have := h3 ⟨_, List.mem_cons_self .., by simp⟩
      simp at this)
  exact ⟨ss, h⟩

/-- The complete planner on a rectangle, with `N_SWATH`. -/
example : ∃ gs, Top.swaths { noEnv with objective := fun k =>
      (vOf (fun _ => 1) (fun _ _ _ => 1) (fun _ _ : Unit => 0) (fun _ _ => ()) k).forGenerator }
    { Robot.default with width := 2, covWidth := 2 } [rect 3] { Options.default with sgObj := 1 } = .ok gs := by
  obtain ⟨gs, h, -⟩ := (C112_planner (fun _ => 1) (fun _ _ _ => 1) (fun _ _ : Unit => 0) (fun _ _ => ())
    { noEnv with objective := fun k =>
      (vOf (fun _ => 1) (fun _ _ _ => 1) (fun _ _ : Unit => 0) (fun _ _ => ()) k).forGenerator } rfl
    { Robot.default with width := 2, covWidth := 2 } [rect 3] { Options.default with sgObj := 1 } rfl
    (show (0 : ℝ) < 2 by norm_num) (by simp [rect])).1 rfl
  exact ⟨gs, h⟩

end F2C.Props
