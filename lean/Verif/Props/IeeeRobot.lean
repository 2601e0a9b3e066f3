import Verif.Lemmas.IeeeRobot
import Verif.Props.Ieee

/-! # C144: the limits of a robot, for all values of type `double` -/

namespace F2C.Props

open Ieee Ieee.Flt Dbl IeeeSpec

variable {fl : ℝ → ℝ}

namespace IeeeRobotSpec

/-- A radius a vehicle can turn with: a number, at least 0 and at most about 10000 km. -/
def Radius (v : Flt) : Prop := ∃ r, v = fin r ∧ 0 ≤ r ∧ r ≤ 10 ^ 7 + 1 / 1024 ∧ IsDouble r

/-- No setter of a limit was given something that is not a number. -/
def NoNan : List Ieee.Robot.Op → Prop
  | [] => True
  | .minRadius x :: l => x ≠ nan ∧ NoNan l
  | .maxCurv x :: l => x ≠ nan ∧ NoNan l
  | .diffCurv x :: l => x ≠ nan ∧ NoNan l
  | _ :: l => NoNan l

end IeeeRobotSpec

open IeeeRobotSpec

/-- **C144**, the radius: a robot whose limit of the curvature is not negative, be it infinite, turns with a radius that is a
number from 0 to about 10000 km. -/
theorem C144_radius (h : IsRounding fl) (r : Ieee.Robot) (hr : NotNegative r.maxCurv) : Radius (r.minTurningRadius fl) := by
  unfold Ieee.Robot.minTurningRadius
  generalize r.maxCurv = k at *
  cases k with
  | nan => exact absurd hr (by simp [NotNegative])
  | ninf => exact absurd hr (by simp [NotNegative])
  | pinf => exact ⟨0, rfl, le_rfl, by norm_num, isDouble_zero⟩
  | fin a =>
    obtain ⟨q, e, h0, h1, d, _⟩ := inv_fin h (a := a) hr
    exact ⟨q, e, h0, h1, d⟩

example : Radius ((⟨fin 2, fin 2, pinf, fin 1⟩ : Ieee.Robot).minTurningRadius toNearest) :=
  C144_radius toNearest_isRounding _ trivial

private theorem abs_good {x : Flt} (hx : x ≠ nan) : NotNegative (Flt.abs x) := by
  cases x <;> simp_all [Flt.abs, NotNegative]

private theorem set_radius (h : IsRounding fl) (r : Ieee.Robot) {x : Flt} (hx : x ≠ nan) :
    Radius (r.setMinTurningRadius fl x).maxCurv := by
  unfold Ieee.Robot.setMinTurningRadius
  cases x with
  | nan => exact absurd rfl hx
  | ninf => exact ⟨0, rfl, le_rfl, by norm_num, isDouble_zero⟩
  | pinf => exact ⟨0, rfl, le_rfl, by norm_num, isDouble_zero⟩
  | fin a =>
    obtain ⟨q, e, h0, h1, d, _⟩ := inv_fin h (a := |a|) (abs_nonneg a)
    exact ⟨q, e, h0, h1, d⟩

private theorem radius_good {v : Flt} (h : Radius v) : NotNegative v := by
  obtain ⟨q, e, h0, _⟩ := h
  rw [e]; exact h0

/-- **C144**, the limits: whatever numbers or infinities the setters are given, in any order, the limits stay not negative, and
the radius stays one a vehicle can turn with. -/
theorem C144_limits (h : IsRounding fl) (ops : List Ieee.Robot.Op) (hn : NoNan ops) (r : Ieee.Robot)
    (hk : NotNegative r.maxCurv) (hd : NotNegative r.diffCurv) :
    NotNegative (r.run fl ops).maxCurv ∧ NotNegative (r.run fl ops).diffCurv ∧
      Radius ((r.run fl ops).minTurningRadius fl) := by
  suffices H : NotNegative (r.run fl ops).maxCurv ∧ NotNegative (r.run fl ops).diffCurv from
    ⟨H.1, H.2, C144_radius h _ H.1⟩
  induction ops generalizing r with
  | nil => exact ⟨hk, hd⟩
  | cons o ops ih =>
    cases o with
    | width w => exact ih hn (r.step fl (.width w)) hk hd
    | covWidth w => exact ih hn (r.step fl (.covWidth w)) hk hd
    | minRadius x => exact ih hn.2 (r.step fl (.minRadius x)) (radius_good (set_radius h r hn.1)) hd
    | maxCurv x => exact ih hn.2 (r.step fl (.maxCurv x)) (abs_good hn.1) hd
    | diffCurv x => exact ih hn.2 (r.step fl (.diffCurv x)) hk (abs_good hn.1)

example (r : Ieee.Robot) (h : Ieee.Robot.make (fin 2) (fin 0) (fin 1) (fin 1) = .ok r) :
    Radius ((r.run toNearest [.minRadius ninf, .maxCurv (fin (-3)), .width nan, .minRadius (fin 0)]).minTurningRadius
      toNearest) := by
  have e : r.maxCurv = fin 1 ∧ r.diffCurv = fin 1 := by
    unfold Ieee.Robot.make at h
    split at h
    · exact absurd h (by simp)
    · simp only [Outcome.ok.injEq] at h; subst h; exact ⟨rfl, rfl⟩
  refine (C144_limits toNearest_isRounding _ ?_ r ?_ ?_).2.2
  · simp [NoNan]
  · rw [e.1]; show (0 : ℝ) ≤ 1; norm_num
  · rw [e.2]; show (0 : ℝ) ≤ 1; norm_num

/-- **C144**, members: each setter changes one member only; the limits are stored without sign, also infinite ones, and the widths
as they are. -/
theorem C144_members (r : Ieee.Robot) (x : Flt) :
    r.step fl (.width x) = ⟨x, r.covWidth, r.maxCurv, r.diffCurv⟩ ∧
    r.step fl (.covWidth x) = ⟨r.width, x, r.maxCurv, r.diffCurv⟩ ∧
    (∃ k, r.step fl (.minRadius x) = ⟨r.width, r.covWidth, k, r.diffCurv⟩) ∧
    (∃ k, r.step fl (.maxCurv x) = ⟨r.width, r.covWidth, k, r.diffCurv⟩ ∧ (∀ v : ℝ, x = fin v → k = fin |v|) ∧
      (x = ninf ∨ x = pinf → k = pinf)) ∧
    (∃ k, r.step fl (.diffCurv x) = ⟨r.width, r.covWidth, r.maxCurv, k⟩ ∧ (∀ v : ℝ, x = fin v → k = fin |v|) ∧
      (x = ninf ∨ x = pinf → k = pinf)) := by
  have abs_fin : ∀ v : ℝ, x = fin v → Flt.abs x = fin |v| := by rintro v rfl; rfl
  have abs_inf : x = ninf ∨ x = pinf → Flt.abs x = pinf := by rintro (rfl | rfl) <;> rfl
  exact ⟨rfl, rfl, ⟨_, rfl⟩, ⟨_, rfl, abs_fin, abs_inf⟩, ⟨_, rfl, abs_fin, abs_inf⟩⟩

example : ((⟨fin 2, fin 2, fin 1, fin 1⟩ : Ieee.Robot).step toNearest (.diffCurv (fin (-3)))) = ⟨fin 2, fin 2, fin 1, fin 3⟩ := by
  obtain ⟨-, -, -, -, k, e, h, -⟩ := C144_members (fl := toNearest) ⟨fin 2, fin 2, fin 1, fin 1⟩ (fin (-3))
  rw [e, h (-3) rfl]
  norm_num

/-- **C144**, the curvature set through a radius: it is a number of at most about 10^7 per metre for every radius that is a number
or an infinity, also for a radius of 0. -/
theorem C144_curvature (h : IsRounding fl) (r : Ieee.Robot) (x : Flt) (hx : x ≠ nan) :
    ∃ k, (r.setMinTurningRadius fl x).maxCurv = fin k ∧ 0 ≤ k ∧ k ≤ 10 ^ 7 + 1 / 1024 := by
  obtain ⟨k, e, h0, h1, -⟩ := set_radius h r hx
  exact ⟨k, e, h0, h1⟩

example (r : Ieee.Robot) : (r.setMinTurningRadius toNearest (fin 0)).maxCurv ≠ pinf := by
  obtain ⟨k, e, -⟩ := C144_curvature toNearest_isRounding r (fin 0) (by simp)
  rw [e]
  simp

/-- **C144**, the other values: a radius or curvature that is not a number leaves a radius that is not a number, and only such a
one does, of all the calls of the setters. -/
theorem C144_nan (h : IsRounding fl) (r : Ieee.Robot) (x : Flt) :
    ((r.setMinTurningRadius fl x).minTurningRadius fl = nan ↔ x = nan) ∧
    ((r.setMaxCurv x).minTurningRadius fl = nan ↔ x = nan) := by
  have key : ∀ r' : Ieee.Robot, NotNegative r'.maxCurv → r'.minTurningRadius fl ≠ nan := fun r' hr e => by
    obtain ⟨q, e', _⟩ := C144_radius h r' hr
    rw [e] at e'; cases e'
  constructor
  · constructor
    · intro e
      by_contra hx
      exact key _ (radius_good (set_radius h r hx)) e
    · rintro rfl
      show div fl (fin 1) (add fl (div fl (fin 1) (add fl nan (fin (tiny fl)))) (fin (tiny fl))) = nan
      simp
  · constructor
    · intro e
      by_contra hx
      exact key _ (abs_good hx) e
    · rintro rfl
      show div fl (fin 1) (add fl nan (fin (tiny fl))) = nan
      simp

example (r : Ieee.Robot) : (r.setMinTurningRadius toNearest pinf).minTurningRadius toNearest ≠ nan := fun e => by
  cases (C144_nan toNearest_isRounding r pinf).1.1 e

/-- **C144**, partial: in double precision too, a radius from 10 cm to 10 m is read back up to a relative error of 1e-6, without
its sign.  Missing: other radii, where it is false, see `C144_unlimited`. -/
theorem C144_read_back_partial (h : IsRounding fl) (r : Ieee.Robot) (x : ℝ) (h1 : 1 / 10 ≤ |x|) (h2 : |x| ≤ 10) :
    ∃ y, (r.setMinTurningRadius fl (fin x)).minTurningRadius fl = fin y ∧ |y - (|x|)| ≤ |x| / 10 ^ 6 := by
  have hb : ∀ z : ℝ, z ≤ 10 ^ 8 → z < huge := fun z hz => by
    have a := big_huge
    have b : (2 : ℝ) ^ 27 ≤ big := pow_le_pow_right₀ (by norm_num) (by norm_num)
    linarith [big_pos]
  have ht := (tiny_bounds h).2
  obtain ⟨k, e, k0, k1, _, hk⟩ := inv_fin h (abs_nonneg x)
  have hk := hk (hb _ (by linarith))
  obtain ⟨y, e', _, _, _, hy⟩ := inv_fin h k0
  have hy := hy (hb _ (by linarith))
  refine ⟨y, ?_, ?_⟩
  · show div fl (fin 1) (add fl (div fl (fin 1) (add fl (fin |x|) (fin (tiny fl)))) (fin (tiny fl))) = fin y
    rw [e, e']
  · rw [hy, hk]
    exact read_back h h1 h2

example (r : Ieee.Robot) : ∃ y, (r.setMinTurningRadius toNearest (fin (-3))).minTurningRadius toNearest = fin y ∧
    |y - (|(-3 : ℝ)|)| ≤ |(-3 : ℝ)| / 10 ^ 6 :=
  C144_read_back_partial toNearest_isRounding r (-3) (by norm_num [abs_of_pos]) (by norm_num [abs_of_pos])

/-- **C144**, where it is not read back: an infinite radius, that of a vehicle that cannot turn, becomes a curvature of 0, which
is read back as a radius of about 10000 km. -/
theorem C144_unlimited (h : IsRounding fl) (r : Ieee.Robot) (x : Flt) (hx : x = pinf ∨ x = ninf) :
    (r.setMinTurningRadius fl x).maxCurv = fin 0 ∧
    ∃ y, (r.setMinTurningRadius fl x).minTurningRadius fl = fin y ∧ |y - 10 ^ 7| ≤ 1 / 10 ^ 3 := by
  have e0 : (r.setMinTurningRadius fl x).maxCurv = fin 0 := by
    rcases hx with rfl | rfl <;> rfl
  refine ⟨e0, ?_⟩
  obtain ⟨y, e, _, _, _, hy⟩ := inv_fin h (a := 0) le_rfl
  refine ⟨y, by unfold Ieee.Robot.minTurningRadius; rw [e0, e], ?_⟩
  have t := tiny_bounds h
  have hb : (0 : ℝ) + tiny fl < huge := by
    have a := big_huge
    linarith [one_le_big]
  rw [hy hb, zero_add]
  obtain ⟨y0, y1, y2⟩ := inv_coarse h (z := tiny fl) (by linarith) (by linarith)
  generalize fl (1 / fl (tiny fl)) = y at *
  generalize tiny fl = t at *
  rw [abs_le]
  constructor <;> nlinarith

example (r : Ieee.Robot) : (r.setMinTurningRadius toNearest ninf).maxCurv = fin 0 :=
  (C144_unlimited toNearest_isRounding r ninf (Or.inr rfl)).1

/-- **C144** is false of the constructor, which takes the limits as they are: a maximum curvature of -1e-7 gives an infinite
radius, and one of -1 a negative one. -/
theorem C144_constructor (h : IsRounding fl) :
    (∃ r, Ieee.Robot.make (fin 2) (fin 0) (fin (-tiny fl)) (fin 1) = .ok r ∧ r.minTurningRadius fl = pinf) ∧
    (∃ r, Ieee.Robot.make (fin 2) (fin 0) (fin (-1)) (fin 1) = .ok r ∧
      ∃ y, r.minTurningRadius fl = fin y ∧ y ≤ -1) := by
  have z : Ieee.Robot.make (fin 2) (fin 0) = fun k d => Outcome.ok ⟨fin 2, fin 2, k, d⟩ := by
    funext k d
    unfold Ieee.Robot.make
    rw [if_neg (by simp), if_pos rfl]
  simp only [z]
  refine ⟨⟨_, rfl, ?_⟩, ⟨_, rfl, ?_⟩⟩
  · show div fl (fin 1) (rnd fl (-tiny fl + tiny fl)) = pinf
    rw [neg_add_cancel, rnd_fin (by rw [abs_zero]; linarith [big_pos]), fl_zero h]
    simp [div, signed]
  · have t := tiny_bounds h
    have d1 : IsDouble (-1) := ⟨-1, 0, by norm_num, by norm_num, by norm_num⟩
    have d2 : IsDouble (-(1 / 2)) := ⟨-1, -1, by norm_num, by norm_num, by norm_num⟩
    have s1 : -1 ≤ fl (-1 + tiny fl) := h.ge d1 (by linarith [tiny_pos h])
    have s2 : fl (-1 + tiny fl) ≤ -(1 / 2) := h.le d2 (by linarith)
    have s0 : fl (-1 + tiny fl) < 0 := by linarith
    have q : 1 / fl (-1 + tiny fl) ≤ -1 := by
      rw [div_le_iff_of_neg s0]; linarith
    have q' : -2 ≤ 1 / fl (-1 + tiny fl) := by
      rw [le_div_iff_of_neg s0]; linarith
    refine ⟨fl (1 / fl (-1 + tiny fl)), ?_, h.le d1 q⟩
    show div fl (fin 1) (rnd fl (-1 + tiny fl)) = _
    rw [rnd_fin (by rw [abs_le]; constructor <;> linarith [one_le_big]),
      div_fin s0.ne (by rw [abs_le]; constructor <;> linarith [one_le_big])]

end F2C.Props
