import Verif.Props.TurningSpec
import Verif.Lemmas.DoubleTracks
import Verif.Model.DoubleTurning

/-! # Specification vocabulary for turns in double precision (C140) -/

namespace F2C.Props.TurningSpec

open Dbl

/-- `atan2` of the C library: up to a unit in the last place of numbers from 2 on, and up to full revolutions, the argument of the
vector. -/
structure IsAtan2 (atan2 : ℝ → ℝ → ℝ) : Prop where
  range : ∀ y x, |atan2 y x| ≤ 4
  near : ∀ y x, IsDouble y → IsDouble x → NearHeading (4 * u53) (atan2 y x) (Complex.arg ⟨x, y⟩)

/-- A position whose coordinates are doubles of at most `M`. -/
structure DoublePoint (M : ℝ) (p : RPoint) : Prop where
  dx : IsDouble p.x
  dy : IsDouble p.y
  bx : |p.x| ≤ M
  by' : |p.y| ≤ M

/-- Two positions whose coordinates differ by at most `η`. -/
def NearXY (η : ℝ) (a b : ℝ × ℝ) : Prop := |a.1 - b.1| ≤ η ∧ |a.2 - b.2| ≤ η

/-- A state carried over by a motion, up to `η` in the position and `δ` in the heading. -/
structure CarriedNear (η δ : ℝ) (m : Placement) (s s' : PathState ℝ) : Prop where
  position : NearXY η (xy s'.point) (m.map (xy s.point))
  heading : NearHeading δ s'.angle (m.heading s.angle)
  len : s'.len = s.len
  dir : s'.dir = s.dir
  type : s'.type = s.type
  velocity : s'.velocity = s.velocity

/-- Poses to be joined: doubles of at most `M`, at most `M / 2` apart, with angles of a few revolutions. -/
structure Poses (M : ℝ) (p1 : RPoint) (a1 : ℝ) (p2 : RPoint) (a2 : ℝ) : Prop where
  start : DoublePoint M p1
  stop : DoublePoint M p2
  apart : pdist p1 p2 ≤ M / 2
  ha1 : |a1| ≤ 50
  ha2 : |a2| ≤ 50

/-- A simple turn the solver has to know: over the distance `d`, from direction `a` to direction `b`. -/
structure Fits (M d a b : ℝ) : Prop where
  dd : IsDouble d
  da : IsDouble a
  db : IsDouble b
  d0 : 0 ≤ d
  d1 : d ≤ M
  a0 : 0 ≤ a
  a1 : a ≤ pi
  b0 : 0 ≤ b
  b1 : b < twoPi

/-- The path consists of doubles of the size of the turn; its ends are at most `ε` off and the headings there at most `δ`. -/
structure Sound (ε δ M d a b : ℝ) (p : Path) : Prop where
  states : ∀ s ∈ p, DoublePoint M s.point ∧ |s.angle| ≤ 50
  ends : ∀ f l : PathState ℝ, List.head? p = some f → List.getLast? p = some l →
    pdist f.point ⟨0, 0, 0⟩ ≤ ε ∧ NearHeading δ f.angle a ∧ pdist l.point ⟨d, 0, 0⟩ ≤ ε ∧ NearHeading δ l.angle b

/-- A solver whose answers are all like this. -/
def SoundSolver (ε δ M : ℝ) (solve : Turning.Solver) : Prop :=
  ∀ r disc d a b p, Fits M d a b → solve r disc d a b = .ok p → Sound ε δ M d a b p

/-- A planner that was only used to join poses, with any changes of its settings in between. -/
inductive Used (fl cos sin : ℝ → ℝ) (atan2 : ℝ → ℝ → ℝ) (solve : Turning.Solver) (M : ℝ) : Turning.Planner → Prop
  | new : Used fl cos sin atan2 solve M Turning.Planner.default
  | setDisc {t : Turning.Planner} (d : ℝ) : Used fl cos sin atan2 solve M t → Used fl cos sin atan2 solve M (t.setDisc d)
  | setUsingCache {t : Turning.Planner} (c : Bool) :
      Used fl cos sin atan2 solve M t → Used fl cos sin atan2 solve M (t.setUsingCache c)
  | turn {t t' : Turning.Planner} {r : Robot} {p1 p2 : RPoint} {a1 a2 : ℝ} {q : Path} :
      Used fl cos sin atan2 solve M t → Poses M p1 a1 p2 a2 →
      Dbl.createTurn fl cos sin atan2 solve t r p1 a1 p2 a2 = .ok (q, t') → Used fl cos sin atan2 solve M t'

end F2C.Props.TurningSpec
