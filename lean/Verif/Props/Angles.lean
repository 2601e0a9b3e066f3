import Mathlib.Analysis.Real.Pi.Bounds
import Verif.Lemmas.Angle

/-! # Property theorems C44 - C47: angle utilities -/

namespace F2C.Props

open Real

/-- Two angles denote the same direction. -/
def SameAngle (a b : ℝ) : Prop := ∃ k : ℤ, b = a + k * (2 * π)

/-- **C44.** `mod_2pi` picks the representative in `[0, 2π)`; it is idempotent and takes the same
value exactly on angles that denote the same direction. -/
theorem C44_mod_2pi_canonical (a b : ℝ) :
    (0 ≤ mod2pi a ∧ mod2pi a < 2 * π) ∧ SameAngle a (mod2pi a) ∧
    mod2pi (mod2pi a) = mod2pi a ∧ (mod2pi a = mod2pi b ↔ SameAngle a b) :=
  ⟨⟨mod2pi_nonneg a, mod2pi_lt a⟩, mod2pi_congr a, mod2pi_mod2pi a, mod2pi_eq_iff a b⟩

/-- a negative angle is wrapped upwards -/
example : mod2pi (-π) = π :=
  mod2pi_unique pi_pos.le (by linarith [pi_pos]) ⟨1, by push_cast; ring⟩

/-- **C45.** `getAngleDiffAbs` is a metric on directions with values in `[0, π]`. -/
theorem C45_angle_diff_metric (a b c : ℝ) :
    (0 ≤ angDiffAbs a b ∧ angDiffAbs a b ≤ π) ∧
    angDiffAbs a b = angDiffAbs b a ∧
    (angDiffAbs a b = 0 ↔ SameAngle a b) ∧
    angDiffAbs a c ≤ angDiffAbs a b + angDiffAbs b c := by
  refine ⟨angDiffAbs_range a b, ?_, ?_, ?_⟩
  · have key : ∀ x y, angDiffAbs x y ≤ angDiffAbs y x := by
      intro x y
      obtain ⟨k, hk⟩ := angDiffAbs_attained y x
      have := angDiffAbs_le x y (-k)
      rw [hk, ← abs_neg]
      convert this using 2
      push_cast; ring
    exact le_antisymm (key a b) (key b a)
  · constructor
    · intro h
      obtain ⟨k, hk⟩ := angDiffAbs_attained a b
      rw [h] at hk
      have := abs_eq_zero.mp hk.symm
      exact ⟨-k, by push_cast; linarith⟩
    · rintro ⟨k, rfl⟩
      have := angDiffAbs_le a (a + k * (2 * π)) (-k)
      have h0 : a + k * (2 * π) - a + ((-k : ℤ) : ℝ) * (2 * π) = 0 := by push_cast; ring
      rw [h0, abs_zero] at this
      exact le_antisymm this (angDiffAbs_range _ _).1
  · obtain ⟨k, hk⟩ := angDiffAbs_attained a b
    obtain ⟨m, hm⟩ := angDiffAbs_attained b c
    have h := angDiffAbs_le a c (k + m)
    rw [hk, hm]
    refine h.trans ?_
    have : c - a + ((k + m : ℤ) : ℝ) * (2 * π)
        = (b - a + k * (2 * π)) + (c - b + m * (2 * π)) := by push_cast; ring
    rw [this]
    exact abs_add_le _ _

/-- **C45**, exact value: the smallest rotation that takes one direction to the other. -/
theorem C45_angle_diff_is_least (a b : ℝ) :
    (∃ d, SameAngle b (a + d) ∧ |d| = angDiffAbs a b) ∧
    ∀ d, SameAngle b (a + d) → angDiffAbs a b ≤ |d| := by
  constructor
  · obtain ⟨k, hk⟩ := angDiffAbs_attained a b
    exact ⟨b - a + k * (2 * π), ⟨k, by ring⟩, hk.symm⟩
  · rintro d ⟨k, hk⟩
    have := angDiffAbs_le a b k
    have e : b - a + k * (2 * π) = d := by linarith
    rwa [e] at this

/-- opposite directions -/
example : angDiffAbs 0 π = π := by
  have := angDiffAbs_of_small (a := 0) (b := π) (d := π) 0 (by simp)
    (by rw [abs_of_pos pi_pos])
  rwa [abs_of_pos pi_pos] at this

/-- one step of the list version below -/
private theorem continuity_from (prev : ℝ) (vs : List ℝ)
    (hb : |prev| + vs.length * π ≤ 13000000000) :
    ∃ rs, angContinuityFrom prev vs = .ok rs ∧ List.Forall₂ SameAngle vs rs ∧
      List.IsChain (fun x y => |y - x| ≤ π) (prev :: rs) := by
  induction vs generalizing prev with
  | nil => exact ⟨[], rfl, .nil, List.isChain_singleton _⟩
  | cons v vs ih =>
    have hp := pi_pos
    have hp3 := pi_gt_three
    have hlen : (0 : ℝ) ≤ vs.length := by positivity
    have hb' : |prev| + (vs.length * π + π) ≤ 13000000000 := by
      have : ((v :: vs).length : ℝ) * π = vs.length * π + π := by
        simp only [List.length_cons]; push_cast; ring
      rw [this] at hb; exact hb
    have hn := cround_near (prev / (2 * π))
    have hq : |prev / (2 * π)| ≤ 2147483645 + 1 / 2 := by
      rw [abs_div, abs_of_pos two_pi_pos', div_le_iff₀ two_pi_pos']
      have : (0 : ℝ) ≤ vs.length * π := by positivity
      have h4 := Real.pi_gt_d2
      nlinarith
    obtain ⟨q1, q2⟩ := abs_le.mp hq
    obtain ⟨n1, n2⟩ := abs_le.mp hn
    have hlo : -2147483646 ≤ cround (prev / (2 * π)) := by
      have : (-2147483646 : ℝ) ≤ cround (prev / (2 * π)) := by linarith
      exact_mod_cast this
    have hhi : cround (prev / (2 * π)) ≤ 2147483646 := by
      have : (cround (prev / (2 * π)) : ℝ) ≤ 2147483646 := by linarith
      exact_mod_cast this
    obtain ⟨r, e, hc, hd⟩ := angContinuity_spec prev v hlo hhi
    have hr : |r| ≤ |prev| + π := by
      have := abs_add_le (r - prev) prev
      have e2 : r - prev + prev = r := by ring
      rw [e2] at this; linarith
    obtain ⟨rs, e2, h3, h4⟩ := ih r (by linarith)
    refine ⟨r :: rs, ?_, .cons hc h3, List.isChain_cons_cons.mpr ⟨hd, h4⟩⟩
    simp [angContinuityFrom, e, e2]

/-- **C46.** For every non-empty list of angles of moderate size (so that the number of turns fits
in an `int`), the continuous version has the same directions and no jump larger than `π`. -/
theorem C46_angle_continuity (v : ℝ) (vs : List ℝ)
    (hb : |v| + vs.length * π ≤ 13000000000) :
    ∃ rs, angContinuityList (v :: vs) = .ok (v :: rs) ∧ List.Forall₂ SameAngle vs rs ∧
      List.IsChain (fun x y => |y - x| ≤ π) (v :: rs) := by
  obtain ⟨rs, e, h1, h2⟩ := continuity_from v vs hb
  exact ⟨rs, by simp [angContinuityList, e], h1, h2⟩

/-- **C46**, precondition the code relies on: an empty vector is undefined behaviour. -/
theorem C46_empty_ub : (angContinuityList []).isUb = true := rfl

/-- the hypothesis of C46 for a list with a jump of almost a full turn -/
example : ∃ rs, angContinuityList [6, 0] = .ok (6 :: rs) ∧ List.Forall₂ SameAngle [0] rs ∧
    List.IsChain (fun x y => |y - x| ≤ π) (6 :: rs) :=
  C46_angle_continuity 6 [0] (by
    have := Real.pi_lt_d2
    rw [abs_of_pos (by norm_num)]; simp; linarith)

/-- **C47.** The average direction is at half the difference from both angles. -/
theorem C47_angle_average (a b : ℝ) :
    angDiffAbs a (angAvg a b) = angDiffAbs a b / 2 ∧
    angDiffAbs b (angAvg a b) = angDiffAbs a b / 2 := angAvg_spec a b

/-- the average of `π/4` and `-π/4` is direction `0` (as `2π`), not `π` -/
example : SameAngle 0 (angAvg (π / 4) (-(π / 4))) := by
  have hp := pi_pos
  have h1 : mod2pi (π / 4) = π / 4 := mod2pi_of_range (by linarith) (by linarith)
  have h2 : mod2pi (-(π / 4)) = 7 * π / 4 :=
    mod2pi_unique (by linarith) (by linarith) ⟨1, by push_cast; ring⟩
  refine ⟨1, ?_⟩
  rw [angAvg, h1, h2, if_neg]
  · push_cast; ring
  · rw [abs_of_pos (by linarith)]; linarith

end F2C.Props
