import Mathlib.Tactic.Linarith
import Mathlib.Tactic.Ring
import Mathlib.Tactic.FieldSimp
import Mathlib.Tactic.NormNum
import Mathlib.Tactic.Positivity
import Verif.Props.RobotSpec

/-! # C58: robot settings -/

namespace F2C.Props

open F2C.Robot RobotSpec

/-- C58: a robot can be constructed exactly if the width is positive and the coverage width is not
negative; anything else throws. -/
theorem C58_construct (w c k d : ℝ) :
    ((∃ r, Robot.make w c k d = .ok r) ↔ 0 < w ∧ 0 ≤ c) ∧
    (¬ (0 < w ∧ 0 ≤ c) → Robot.make w c k d = .throw .outOfRange) := by
  unfold Robot.make
  by_cases h : w ≤ 0 ∨ c < 0
  · have h' : ¬ (0 < w ∧ 0 ≤ c) := by
      rintro ⟨h1, h2⟩
      rcases h with h | h <;> linarith
    rw [if_pos h]
    simp [h']
  · have h' : 0 < w ∧ 0 ≤ c := by
      refine ⟨lt_of_not_ge fun hh => h (.inl hh), le_of_not_gt fun hh => h (.inr hh)⟩
    rw [if_neg h]
    exact ⟨⟨fun _ => h', fun _ => ⟨_, rfl⟩⟩, fun hn => absurd h' hn⟩

/-- C58: a constructed robot has the given width and coverage width, the latter being the width if 0
was given; both are positive.  The turn velocity is the cruise velocity. -/
theorem C58_constructed (w c k d : ℝ) (r : Robot) (h : Robot.make w c k d = .ok r) :
    r.width = w ∧ 0 < r.width ∧ 0 < r.covWidth ∧
    (c = 0 → r.covWidth = w) ∧ (c ≠ 0 → r.covWidth = c) ∧
    r.turnVel = r.cruise ∧ r.maxCurv = k ∧ r.diffCurv = d := by
  have hc := ((C58_construct w c k d).1).1 ⟨r, h⟩
  have hn : ¬ (w ≤ 0 ∨ c < 0) := by
    rintro (hh | hh) <;> linarith [hc.1, hc.2]
  unfold Robot.make at h
  rw [if_neg hn] at h
  injection h with h
  subst h
  refine ⟨rfl, hc.1, ?_, ?_, ?_, rfl, rfl, rfl⟩
  · by_cases h0 : c = 0
    · simp [h0, hc.1]
    · simpa [h0] using lt_of_le_of_ne hc.2 (Ne.symm h0)
  · intro h0; simp [h0]
  · intro h0; simp [h0]

example : ∃ r, Robot.make 3 0 1 1 = .ok r ∧ r.covWidth = 3 := by
  obtain ⟨r, hr⟩ := ((C58_construct 3 0 1 1).1).2 ⟨by norm_num, le_refl _⟩
  exact ⟨r, hr, (C58_constructed _ _ _ _ _ hr).2.2.2.1 rfl⟩

private theorem run_turn (ops : List Op) : ∀ r : Robot,
    (r.run ops).turn = (lastTurn ops).orElse (fun _ => r.turn) ∧
    (r.run ops).cruise = lastCruise r.cruise ops := by
  induction ops with
  | nil => intro r; simp [Robot.run, lastTurn, lastCruise]
  | cons o ops ih =>
    intro r
    have h := ih (r.step o)
    have e : r.run (o :: ops) = (r.step o).run ops := rfl
    rw [e, h.1, h.2]
    cases o <;> simp [Robot.step, lastTurn, lastCruise, setWidth, setCovWidth, setCruiseVel,
      setTurnVel, setMinTurningRadius, setMaxCurv, setMaxDiffCurv, setName] <;>
      cases lastTurn ops <;> simp

/-- C58: after any sequence of setter calls on a new robot, the turn velocity is the last one that was
set, and the current cruise velocity if none was set. -/
theorem C58_turn_velocity (w c k d : ℝ) (r : Robot) (h : Robot.make w c k d = .ok r)
    (ops : List Op) :
    (r.run ops).turnVel = (lastTurn ops).getD (lastCruise r.cruise ops) ∧
    (r.run ops).cruise = lastCruise r.cruise ops := by
  have ht : r.turn = none := by
    unfold Robot.make at h
    split at h
    · cases h
    · injection h with h; subst h; rfl
  have hr := run_turn ops r
  refine ⟨?_, hr.2⟩
  unfold turnVel
  rw [hr.1, hr.2, ht]
  cases lastTurn ops <;> simp

example : ((Robot.default.run [.cruise 2, .turn 1, .cruise 5]).turnVel = 1) ∧
    ((Robot.default.run [.cruise 2, .width 1, .cruise 5]).turnVel = 5) := by
  constructor <;> rfl

/-- C58: setters never leave a negative curvature limit behind. -/
theorem C58_limits_kept (r : Robot) (hr : GoodLimits r) (ops : List Op) :
    GoodLimits (r.run ops) := by
  induction ops generalizing r with
  | nil => exact hr
  | cons o ops ih =>
    refine ih (r.step o) ?_
    cases o <;> simp only [Robot.step, setWidth, setCovWidth, setCruiseVel, setTurnVel,
      setMinTurningRadius, setMaxCurv, setMaxDiffCurv, setName, GoodLimits] <;>
      refine ⟨?_, ?_⟩ <;> first | exact hr.1 | exact hr.2 | positivity

/-- C58: robots made by default or with limits that are not negative keep limits that are not
negative. -/
theorem C58_limits (w c k d : ℝ) (hk : 0 ≤ k) (hd : 0 ≤ d) (r : Robot)
    (h : Robot.make w c k d = .ok r) (ops : List Op) : GoodLimits (r.run ops) := by
  obtain ⟨_, _, _, _, _, _, h1, h2⟩ := C58_constructed _ _ _ _ _ h
  exact C58_limits_kept r ⟨h1 ▸ hk, h2 ▸ hd⟩ ops

example : ∃ r, Robot.make 3 1 (1 / 2) 1 = .ok r ∧
    GoodLimits (r.run [.maxCurv (-2), .minRadius (-3), .diffCurv (-1)]) := by
  obtain ⟨r, hr⟩ := ((C58_construct 3 1 (1 / 2) 1).1).2 ⟨by norm_num, by norm_num⟩
  exact ⟨r, hr, C58_limits _ _ _ _ (by norm_num) (by norm_num) r hr _⟩

/-- C58 fails for the constructor, which takes over negative limits. -/
theorem C58_constructor_negative_limit :
    ∃ r, Robot.make 2 1 (-1) (-1) = .ok r ∧ ¬ GoodLimits r ∧ r.minTurningRadius < 0 := by
  obtain ⟨r, hr⟩ := ((C58_construct 2 1 (-1) (-1)).1).2 ⟨by norm_num, by norm_num⟩
  have h := (C58_constructed _ _ _ _ _ hr).2.2.2.2.2.2.1
  refine ⟨r, hr, fun hg => ?_, ?_⟩
  · have := hg.1; rw [h] at this; norm_num at this
  · unfold minTurningRadius; rw [h]; norm_num

/-- C58 fails for the setters of the widths and for the default constructor: they do not validate. -/
theorem C58_width_unchecked :
    (∃ r, Robot.make 2 1 1 1 = .ok r ∧ (r.run [.width (-2), .covWidth (-3)]).width < 0 ∧
      (r.run [.width (-2), .covWidth (-3)]).covWidth < 0) ∧
    Robot.default.width = 0 ∧ Robot.default.covWidth = 0 := by
  obtain ⟨r, hr⟩ := ((C58_construct 2 1 1 1).1).2 ⟨by norm_num, by norm_num⟩
  refine ⟨⟨r, hr, ?_, ?_⟩, rfl, rfl⟩
  · show (-2 : ℝ) < 0; norm_num
  · show (-3 : ℝ) < 0; norm_num

/-- The radius that is read back after setting a radius. -/
private theorem read_back (r : Robot) (x : ℝ) (hx : 0 < x) :
    (r.setMinTurningRadius x).minTurningRadius - x =
      (1 - x * x - x / 10 ^ 7) / 10 ^ 7 / (1 + (x + 1 / 10 ^ 7) / 10 ^ 7) := by
  unfold minTurningRadius setMinTurningRadius
  simp only
  rw [abs_of_pos hx]
  have h1 : x + 1 / 10 ^ 7 ≠ 0 := by positivity
  have h2 : 1 + (x + 1 / 10 ^ 7) / 10 ^ 7 ≠ 0 := by positivity
  have h3 : 1 / (x + 1 / 10 ^ 7) + 1 / 10 ^ 7 ≠ 0 := by positivity
  have e : 1 / (x + 1 / 10 ^ 7) + 1 / 10 ^ 7 =
      (1 + (x + 1 / 10 ^ 7) / 10 ^ 7) / (x + 1 / 10 ^ 7) := by
    field_simp
  rw [e, one_div_div, eq_div_iff h2, sub_mul, div_mul_cancel₀ _ h2]
  ring

/-- C58, partial: the minimum turning radius is read back with a relative error of at most 1e-6 for
radii between 10 cm and 10 m (the sign is dropped).  Missing: other radii, where it is false, see
`C58_radius_not_read_back`. -/
theorem C58_radius_partial (r : Robot) (x : ℝ) (h1 : 1 / 10 ≤ |x|) (h2 : |x| ≤ 10) :
    Agree |x| (r.setMinTurningRadius x).minTurningRadius := by
  have hx : 0 < |x| := by linarith
  have e : r.setMinTurningRadius x = r.setMinTurningRadius |x| := by
    unfold setMinTurningRadius; rw [abs_abs]
  unfold Agree
  rw [e, read_back r |x| hx, abs_abs]
  generalize |x| = y at *
  have hD : 1 ≤ 1 + (y + 1 / 10 ^ 7) / 10 ^ 7 := by
    have : 0 ≤ (y + 1 / 10 ^ 7) / 10 ^ 7 := by positivity
    linarith
  rw [abs_div, abs_of_pos (lt_of_lt_of_le one_pos hD)]
  refine le_trans (div_le_self (abs_nonneg _) hD) ?_
  rw [abs_le]
  constructor
  · norm_num at *; nlinarith
  · norm_num at *; nlinarith

example (r : Robot) : Agree |(2 : ℝ)| (r.setMinTurningRadius 2).minTurningRadius :=
  C58_radius_partial r 2 (by norm_num [abs_of_pos]) (by norm_num [abs_of_pos])

/-- C58 fails for large and small radii: the error of 100 m is about 1 mm, that of 0 is 0.1 µm. -/
theorem C58_radius_not_read_back (r : Robot) :
    ¬ Agree 100 (r.setMinTurningRadius 100).minTurningRadius ∧
    ¬ Agree 0 (r.setMinTurningRadius 0).minTurningRadius := by
  constructor
  · unfold Agree
    rw [read_back r 100 (by norm_num)]
    rw [abs_of_neg (by norm_num), abs_of_pos (by norm_num)]
    norm_num
  · unfold Agree minTurningRadius setMinTurningRadius
    norm_num [abs_of_pos]

end F2C.Props
