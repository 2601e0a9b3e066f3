import Verif.Model.Turning

/-! # Specification vocabulary for turns (C30-C32, C42, C43) -/

namespace F2C.Props.TurningSpec

open Real

/-- The headings differ by at most `δ`, up to full revolutions. -/
def NearHeading (δ a b : ℝ) : Prop := ∃ k : ℤ, |a - b + k * (2 * π)| ≤ δ

/-- The same heading, up to full revolutions. -/
def SameHeading (a b : ℝ) : Prop := ∃ k : ℤ, b = a + k * (2 * π)

/-- A motion of the plane: mirror at the x axis (or not), then rotate around the origin, then shift. -/
structure Placement where
  flip : Bool
  rot : ℝ
  dx : ℝ
  dy : ℝ

/-- Where a point goes. -/
noncomputable def Placement.map (m : Placement) (p : ℝ × ℝ) : ℝ × ℝ :=
  let y := if m.flip then -p.2 else p.2
  (cos m.rot * p.1 - sin m.rot * y + m.dx, sin m.rot * p.1 + cos m.rot * y + m.dy)

/-- What a heading becomes. -/
noncomputable def Placement.heading (m : Placement) (a : ℝ) : ℝ :=
  (if m.flip then -a else a) + m.rot

/-- Position in the plane. -/
def xy (p : RPoint) : ℝ × ℝ := (p.x, p.y)

/-- A path for the turn from the origin to `(d, 0)` that is at most `ε` off at both ends and has the
headings `a` and `b` there. -/
def Accurate (ε d a b : ℝ) (p : Path) : Prop :=
  ∀ f l : PathState ℝ, List.head? p = some f → List.getLast? p = some l →
    pdist f.point ⟨0, 0, 0⟩ ≤ ε ∧ SameHeading f.angle a ∧
    pdist l.point ⟨d, 0, 0⟩ ≤ ε ∧ SameHeading l.angle b

/-- The path starts in `p1` and its last state is in `p2`; the headings there are `a1` and `a2` up to
`δ`. -/
def Joins (δ : ℝ) (p1 : RPoint) (a1 : ℝ) (p2 : RPoint) (a2 : ℝ) (q : Path) : Prop :=
  ∃ f l : PathState ℝ, List.head? q = some f ∧ List.getLast? q = some l ∧
    f.point = p1 ∧ l.point = p2 ∧ NearHeading δ f.angle a1 ∧ NearHeading δ l.angle a2

/-- State `s` carried over to `s'` by the motion, except for its position. -/
structure Carried (m : Placement) (s s' : PathState ℝ) : Prop where
  heading : SameHeading (m.heading s.angle) s'.angle
  len : s'.len = s.len
  dir : s'.dir = s.dir
  type : s'.type = s.type
  velocity : s'.velocity = s.velocity

/-- Distance of the moved state from a point. -/
noncomputable def Placement.off (m : Placement) (s : PathState ℝ) (p : RPoint) : ℝ :=
  pdist ⟨(m.map (xy s.point)).1, (m.map (xy s.point)).2, 0⟩ p

/-- An end of the turn: carried over, and put on the target if it is about 5 cm or less away from it. -/
def CarriedEnd (m : Placement) (target : RPoint) (s s' : PathState ℝ) : Prop :=
  Carried m s s' ∧ ((m.off s target ≤ 51 / 1000 ∧ s'.point = target) ∨
    (49 / 1000 ≤ m.off s target ∧ xy s'.point = m.map (xy s.point)))

/-- A turn that was asked for, with the discretisation at that time. -/
structure Request where
  robot : Robot
  disc : ℝ
  dist : ℝ
  start : ℝ
  stop : ℝ

open Turning

/-- What the solver says about a request. -/
noncomputable def Request.answer (solve : Solver) (q : Request) : Outcome Path :=
  solve q.robot q.disc q.dist q.start q.stop

/-- `Reach solve t hist`: the planner can be in state `t` after answering the requests `hist` (last one
first) with the cache switched on, with any changes of settings and uncached turns in between. -/
inductive Reach (solve : Solver) : Planner → List Request → Prop
  | new : Reach solve Planner.default []
  | setDisc {t : Planner} {hist : List Request} (d : ℝ) :
      Reach solve t hist → Reach solve (t.setDisc d) hist
  | setUsingCache {t : Planner} {hist : List Request} (c : Bool) :
      Reach solve t hist → Reach solve (t.setUsingCache c) hist
  | call {t t' : Planner} {hist : List Request} {r : Robot} {d a b : ℝ} {p : Path} :
      Reach solve t hist → turnIfNotCached solve t r d a b = .ok (p, t') →
      Reach solve t' (⟨r, t.disc, d, a, b⟩ :: hist)
  | turn {t t' : Planner} {hist : List Request} {r : Robot} {p1 p2 : RPoint} {a1 a2 : ℝ} {p : Path} :
      Reach solve t hist → t.useCache = true → createTurn solve t r p1 a1 p2 a2 = .ok (p, t') →
      Reach solve t' (⟨r, t.disc, (normalTurn p1 a1 p2 a2).dist, (normalTurn p1 a1 p2 a2).start,
        (normalTurn p1 a1 p2 a2).stop⟩ :: hist)

/-- A number cut to thousandths, towards 0. -/
noncomputable def thousandths (v : ℝ) : ℤ := if 0 ≤ v then ⌊1000 * v⌋ else ⌈1000 * v⌉

/-- Two requests the cache does not tell apart: limits of the robot, distance and angles agree when cut
to thousandths.  Velocities and discretisation are not compared. -/
def Alike (q q' : Request) : Prop :=
  thousandths q.robot.maxCurv = thousandths q'.robot.maxCurv ∧
  thousandths q.robot.diffCurv = thousandths q'.robot.diffCurv ∧
  thousandths q.dist = thousandths q'.dist ∧
  thousandths q.start = thousandths q'.start ∧
  thousandths q.stop = thousandths q'.stop

/-- Revolutions driven by a control with constant curvature. -/
noncomputable def revolutions (c : Control) : ℝ := c.ds * c.kappa / (2 * π)

/-- More than 0.9 revolutions in one control or in total, or more than 1.5 counting left and right
both positive. -/
def Loops (cs : List Control) : Prop :=
  (∃ c ∈ cs, 9 / 10 < |revolutions c|) ∨ 9 / 10 < |(cs.map revolutions).sum| ∨
    15 / 10 < (cs.map fun c => |revolutions c|).sum

/-- Change of heading along a control whose curvature changes linearly. -/
noncomputable def headingChange (c : Control) : ℝ := c.kappa * c.ds + c.sigma * c.ds ^ 2 / 2

/-- The states lie on a curve parametrised by (at most) its length, in this order, at the parameters
`ts` between 0 and `len`. -/
structure OnCurve (curve : ℝ → RPoint) (len : ℝ) (ts : List ℝ) (ss : List SteerState) : Prop where
  speed : ∀ s t, pdist (curve s) (curve t) ≤ |t - s|
  sorted : ts.Pairwise (· ≤ ·)
  inside : ∀ t ∈ ts, 0 ≤ t ∧ t ≤ len
  points : ss.map (fun s => ((s.x, s.y) : ℝ × ℝ)) = ts.map fun t => xy (curve t)

end F2C.Props.TurningSpec
