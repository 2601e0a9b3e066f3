import Verif.Model.ObjVirtual
import Verif.Props.SwathGenerator

/-! # Lemmas about the overloads of the objectives -/

namespace F2C.Props

open SG F2C.SG F2C.Obj

theorem foldOutcome_sum {α : Type} (f : α → Outcome ℝ) (v : α → ℝ) (l : List α) (h : ∀ a ∈ l, f a = .ok (v a)) :
    ∀ d : ℝ, foldOutcome (fun init s => do
      let a ← f s
      return init + a) d l = .ok (d + (l.map v).sum) := by
  induction l with
  | nil => intro d; simp [foldOutcome]
  | cons a l ih =>
    intro d
    rw [foldOutcome, h a (by simp)]
    refine (ih (fun b hb => h b (by simp [hb])) (d + v a)).trans ?_
    simp [add_assoc]

/-- The angles that the search tries. -/
def Candidate (step : ℝ) (j : Nat) : Prop := ((j : ℝ) + 1) * step ≤ 2 * Real.pi

theorem best_of (o : VObj) (hfast : o.isFast = false) (meas : Swaths ℝ → ℝ)
    (clip : Cell ℝ → List (List RPoint) → List (List RPoint)) (overlap : Bool) (w : ℝ) (poly : Cell ℝ) (step : ℝ)
    (hw : 0 < w) (hne : poly.flatten ≠ []) (h0 : 0 < step) (h1 : step ≤ 2 * Real.pi)
    (h2 : 2 * Real.pi / step < 2 ^ 31)
    (hcost : ∀ j ss, Candidate step j → generateSwaths clip overlap (j * step) w poly = .ok ss →
      o.cellSwaths poly ss = .ok (meas ss)) :
    ∃ k ss, generateBestSwaths o.forGenerator clip overlap step w poly = .ok ss ∧ Candidate step k ∧
      generateSwaths clip overlap (k * step) w poly = .ok ss ∧
      ∀ j ss', Candidate step j → generateSwaths clip overlap (j * step) w poly = .ok ss' →
        NoWorse o.isMinimizing (meas ss) (meas ss') := by
  choose ss hss using fun a : ℝ => (C25_generated_numbers clip overlap a w poly hw hne)
  have hgen : ∀ a, ∃ x, generateSwaths clip overlap a w poly = .ok x := by
    intro a
    obtain ⟨x, -, h, -⟩ := hss a
    exact ⟨x, h⟩
  choose g hg using hgen
  obtain ⟨k, k1, k2, k3, -⟩ := C26_brute_force_optimal o.forGenerator (generateSwaths clip overlap) w poly step h0 h1 h2
    (fun a => meas (g a)) (fun j hj => by
      unfold rawCost
      rw [if_neg (by simp [VObj.forGenerator, hfast]), hg, Outcome.ok_bind]
      exact hcost j _ hj (hg _))
  refine ⟨k, g (k * step), ?_, k2, hg _, fun j ss' hj hs => ?_⟩
  · rw [C26_best_swaths _ _ _ _ _ _ _ k1]; exact hg _
  · have := k3 j hj
    rw [hg] at hs
    cases hs
    exact this

end F2C.Props
