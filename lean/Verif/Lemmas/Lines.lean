import Verif.Lemmas.Angle
import Verif.Lemmas.Geom
import Verif.Lemmas.Turning
import Verif.Model.Lines

/-! # Lemmas about points, segments and directions of lines -/

namespace F2C.Lines

open Real

variable {K : Type} [Field K] [LinearOrder K]

theorem get_lt {l : List (Point K)} {i : Nat} (h : i < l.length) : get l i = .ok l[i] := by
  unfold get
  rw [List.getElem?_eq_getElem h]

theorem get_ge {l : List (Point K)} {i : Nat} (h : l.length ≤ i) : get l i = .throw .outOfRange := by
  unfold get
  rw [List.getElem?_eq_none h]

theorem wrapSub_of_le {n k : Nat} (h : k ≤ n) : wrapSub n k = n - k := if_pos h

theorem segmentsFrom_eq (l : List (Point K)) : ∀ k i, i + k < l.length →
    ∃ segs, segmentsFrom l k i = .ok segs ∧ segs.length = k ∧
      ∀ j a b, j < k → l[i + j]? = some a → l[i + j + 1]? = some b → segs[j]? = some [a, b] := by
  intro k
  induction k with
  | zero => intro i h; exact ⟨[], rfl, rfl, fun j _ _ hj => absurd hj (by omega)⟩
  | succ k ih =>
    intro i h
    obtain ⟨segs, h1, h2, h3⟩ := ih (i + 1) (by omega)
    refine ⟨[l[i], l[i + 1]] :: segs, ?_, by simp [h2], ?_⟩
    · rw [segmentsFrom, get_lt (by omega), Outcome.ok_bind, get_lt (by omega), Outcome.ok_bind, h1]
      rfl
    · intro j a b hj ha hb
      rcases j with _ | j
      · rw [Nat.add_zero] at ha hb
        rw [List.getElem?_eq_getElem (by omega)] at ha hb
        cases ha
        cases hb
        rfl
      · rw [List.getElem?_cons_succ]
        exact h3 j a b (by omega) (by rw [← ha]; congr 1; omega) (by rw [← hb]; congr 1; omega)

/-- opposite vectors have opposite directions -/
theorem angle_neg (a b : RPoint) (h : pdist a b ≠ 0) :
    Props.TurningSpec.SameHeading (angleFromPoint (b.sub a)) (angleFromPoint (a.sub b) + π) := by
  have hx := pdist_polar_x a b
  have hy := pdist_polar_y a b
  have hx' := pdist_polar_x b a
  have hy' := pdist_polar_y b a
  rw [pdist_comm b a] at hx' hy'
  apply sameHeading_of_cos_sin
  · rw [cos_add_pi]
    apply mul_left_cancel₀ h
    linarith
  · rw [sin_add_pi]
    apply mul_left_cancel₀ h
    linarith

end F2C.Lines
