import Verif.Lemmas.PathPlanning
import Verif.Lemmas.RouteCost
import Verif.Model.TurnCost

/-! # Lemmas about the cost with all turns computed -/

namespace F2C

open Turning Props.TurningSpec Props.PathPlanningSpec Props.PathSpec

theorem swathStates_length (v : ℝ) (l : List RPoint) : lengthOf (Path.swathStates v l) = lineLength l := by
  induction l with
  | nil => simp [Path.swathStates, lineLength, lengthOf]
  | cons a l ih =>
    cases l with
    | nil => simp [Path.swathStates, lineLength, lengthOf]
    | cons b l =>
      rw [Path.swathStates, lengthOf_cons, ih, lineLength, pdist_comm b a, abs_of_nonneg (pdist_nonneg _ _)]

theorem populate_zero_not_ok (p q : Path) (n : Int) (h3 : 3 ≤ List.length p) (h0 : ∀ s ∈ p, s.len = 0) :
    p.populate n ≠ .ok q := by
  intro h
  unfold Path.populate at h
  rw [if_neg (by omega)] at h
  cases hl : List.getLast? p with
  | none => rw [List.getLast?_eq_none_iff] at hl; subst hl; simp at h3
  | some last =>
    rw [hl] at h
    simp only at h
    have hk : Path.knots p last = [{ last with point := last.atEnd, len := 0 }] := by
      unfold Path.knots
      have : List.filter (fun s => decide (s.len ≠ 0)) p = [] := by
        rw [List.filter_eq_nil_iff]
        intro s hs; simp [h0 s hs]
      rw [this]; rfl
    rw [hk] at h
    obtain ⟨ang, -, h⟩ := bind_ok h
    obtain ⟨sx, hsx, -⟩ := bind_ok h
    exact absurd hsx (by simp [Spline.make, Spline.setPoints, Path.arcs])

/-- discretizing keeps the length, or deletes a path of less than a centimetre -/
theorem discretize_length (p q : Path) (hlen : ∀ s ∈ p, 0 ≤ s.len)
    (hang : ∀ s ∈ p, |s.angle| ≤ 1000000000) (hsize : List.length p ≤ 1000000000)
    (hL : lengthOf p ≤ 20000000) (h : p.discretize (1 / 10) = .ok q) :
    lengthOf q = lengthOf p ∨ lengthOf q = 0 ∧ lengthOf p < 1 / 100 := by
  by_cases h3 : 3 ≤ List.length p
  · by_cases hpos : ∃ s ∈ p, 0 < s.len
    · by_cases hd : 10 * lengthOf p < 1 / 10
      · rw [Props.C35_discretize_destroys p (1 / 10) (by norm_num) h3 hlen hpos hang hsize hd] at h
        cases h
        right
        exact ⟨by simp [lengthOf], by linarith⟩
      · obtain ⟨q', hq, -, e⟩ := Props.C35_discretize_partial p (1 / 10) (by norm_num) h3 hlen hang hsize
          (not_lt.1 hd) (by linarith)
        rw [hq] at h
        cases h
        left
        rwa [totalLength_eq, totalLength_eq] at e
    · exfalso
      have h0 : ∀ s ∈ p, s.len = 0 := fun s hs =>
        le_antisymm (not_lt.1 fun h => hpos ⟨s, hs, h⟩) (hlen s hs)
      unfold Path.discretize at h
      rw [if_pos (by omega), if_neg (by norm_num)] at h
      obtain ⟨n, -, h⟩ := bind_ok h
      obtain ⟨q', hq, -⟩ := bind_ok h
      exact populate_zero_not_ok p q' n h3 h0 hq
  · left
    unfold Path.discretize at h
    split at h
    · rw [if_neg (by norm_num)] at h
      obtain ⟨n, -, h⟩ := bind_ok h
      obtain ⟨q', hq, h⟩ := bind_ok h
      unfold Path.populate at hq
      rw [if_pos (by omega)] at hq
      cases hq
      cases h
      have := Props.C34_length p (1 / 10) hlen
      rwa [totalLength_eq, totalLength_eq] at this
    · cases h
      rfl

theorem turn_discretize_length {solve : Solver} (hs : GoodSolver solve) {t t' : Planner}
    {hist : List Request} (ht : Reach solve t hist) {r : Robot} {p1 p2 : RPoint} {a1 a2 : ℝ} {q q' : Path}
    (h : createTurn solve t r p1 a1 p2 a2 = .ok (q, t')) (hq : q.discretize (1 / 10) = .ok q') :
    lengthOf q' = lengthOf q ∨ lengthOf q' = 0 ∧ lengthOf q < 1 / 100 := by
  obtain ⟨_, w, p, hw, rfl⟩ := createTurn_answer ht h
  obtain ⟨g1, g2, g3⟩ := (hs w).2 p hw
  have hp := Real.pi_le_four
  rcases finish_rest (normalTurn p1 a1 p2 a2) p1 p2 p with h0 | h0
  · rw [h0] at hq ⊢
    exact discretize_length [] _ (by simp) (by simp) (by simp) (by simp [lengthOf]) hq
  · refine discretize_length _ _ (fun s hsq => ?_) (fun s hsq => ?_) ?_ ?_ hq
    · obtain ⟨s', hs', ⟨e, _⟩, _⟩ := forall₂_mem_right h0 hsq
      rw [e]; exact g1 s' hs'
    · obtain ⟨s', hs', _, e1, e2⟩ := forall₂_mem_right h0 hsq
      rw [abs_of_nonneg e1]; linarith
    · rw [← h0.length_eq]; exact g2
    · rw [forall₂_lengthOf (h0.imp fun _ _ h => h.1.1)]; exact g3

/-- the cost follows the planned path -/
theorem gaps_of_plan {solve : Solver} (hs : GoodSolver solve) (r : Robot) (l : Swaths ℝ) :
    ∀ (s : Swath ℝ) (t t' : Planner) (hist : List Request) (path p : Path), Reach solve t hist →
      PP.planSwathsFrom solve r t path s l = .ok (p, t') →
      ∃ g, (∀ d, TurnCost.gaps solve r t d s l = .ok (d + g, t')) ∧
        lengthOf p ≤ lengthOf path + ((s :: l).map fun s => lineLength s.path).sum + g ∧
        lengthOf path + ((s :: l).map fun s => lineLength s.path).sum + g - l.length / 100 ≤ lengthOf p := by
  induction l with
  | nil =>
    intro s t t' hist path p ht h
    unfold PP.planSwathsFrom at h
    obtain ⟨q, hq, h⟩ := bind_ok h
    cases h
    rw [appendSwath_ok hq, lengthOf_append, swathStates_length]
    refine ⟨0, fun d => by simp [TurnCost.gaps], ?_, ?_⟩ <;> simp
  | cons s' l ih =>
    intro s t t' hist path p ht h
    unfold PP.planSwathsFrom at h
    obtain ⟨path', hp, h⟩ := bind_ok h
    obtain ⟨a1, h1, h⟩ := bind_ok h
    obtain ⟨a2, h2, h⟩ := bind_ok h
    obtain ⟨⟨q, t1⟩, hc, h⟩ := bind_ok h
    obtain ⟨q', hq, h⟩ := bind_ok h
    obtain ⟨⟨hist', ht'⟩, -⟩ := createTurn_answer ht hc
    obtain ⟨g, e1, e2, e3⟩ := ih s' t1 t' hist' _ p ht' h
    refine ⟨lengthOf q + g, fun d => ?_, ?_, ?_⟩
    · rw [TurnCost.gaps, h1, Outcome.ok_bind, h2, Outcome.ok_bind, TurnCost.turn, hc]
      show TurnCost.gaps solve r t1 (d + q.totalLength) s' l = _
      rw [e1, totalLength_eq, add_assoc]
    all_goals
      rw [appendSwath_ok hp, lengthOf_append, lengthOf_append, swathStates_length] at e2 e3
      have := lengthOf_nonneg q
      rw [List.map_cons, List.sum_cons]
      try simp only [List.length_cons, Nat.cast_add, Nat.cast_one]
      rcases turn_discretize_length hs ht hc hq with e | ⟨e, e'⟩
      · rw [e] at e2 e3; linarith
      · rw [e] at e2 e3; linarith

end F2C
