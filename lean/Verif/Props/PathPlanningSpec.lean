import Verif.Model.PathPlanning
import Verif.Props.PathSpec
import Verif.Props.TurningSpec

/-! # Specification vocabulary for path planning (C38-C40) -/

namespace F2C.Props.PathPlanningSpec

open Turning TurningSpec

/-- All answers of the solver consist of turn states. -/
def TurnsOnly (solve : Solver) : Prop :=
  ∀ (q : Request) p, q.answer solve = .ok p → ∀ s ∈ p, s.type = .turn

/-- Driving straight from `a` to `b` on a swath. -/
structure Segment (v : ℝ) (ab : RPoint × RPoint) (t : PathState ℝ) : Prop where
  start : t.point = ab.1
  stop : PathSpec.SameXY t.atEnd ab.2
  len : t.len = pdist ab.1 ab.2
  heading : 0 ≤ t.angle ∧ t.angle < 2 * Real.pi
  dir : t.dir = .forward
  type : t.type = .swath
  velocity : t.velocity = v

/-- One state per segment of the swath. -/
def SwathDriven (v : ℝ) (s : Swath ℝ) (ts : Path) : Prop :=
  List.Forall₂ (Segment v) (s.path.zip s.path.tail) ts

/-- The path drives the swaths in order and has only turn states between them. -/
inductive Drives (v : ℝ) : Swaths ℝ → Path → Prop
  | nil : Drives v [] []
  | one (s : Swath ℝ) (ts : Path) : SwathDriven v s ts → Drives v [s] ts
  | cons (s s' : Swath ℝ) (l : Swaths ℝ) (ts turn p : Path) : SwathDriven v s ts →
      (∀ x ∈ turn, x.type = .turn) → Drives v (s' :: l) p →
      Drives v (s :: s' :: l) (ts ++ turn ++ p)

/-- The solver runs into no undefined behaviour; its answers have states of non-negative length and are
not absurdly long. -/
def GoodSolver (solve : Solver) : Prop :=
  ∀ q : Request, (q.answer solve).isUb = false ∧
    ∀ p, q.answer solve = .ok p → (∀ s ∈ p, 0 ≤ s.len) ∧ List.length p ≤ 1000000000 ∧
      PathSpec.lengthOf p ≤ 20000000

/-- The solver always answers, and an answer of three or more states has a positive length. -/
def Answers (solve : Solver) : Prop :=
  ∀ q : Request, ∃ p, q.answer solve = .ok p ∧ (3 ≤ List.length p → ∃ s ∈ p, 0 < s.len)

/-- At most 1000 km from `c`. -/
def Near (c p : RPoint) : Prop := pdist p c ≤ 1000000

/-- Both ends of the swath are near; a swath without points counts as one in the origin, as in the
code. -/
def SwathNear (c : RPoint) (s : Swath ℝ) : Prop := Near c s.startPoint ∧ Near c s.endPoint

/-- `p` lies on the segment from `a` to `b`. -/
def OnSegment (a b p : RPoint) : Prop :=
  ∃ s : ℝ, 0 ≤ s ∧ s ≤ 1 ∧ p.x = a.x + s * (b.x - a.x) ∧ p.y = a.y + s * (b.y - a.y)

/-- `p` lies on the polyline through the points. -/
def OnLine (mp : List RPoint) (p : RPoint) : Prop :=
  ∃ (i : Nat) (a b : RPoint), mp[i]? = some a ∧ mp[i + 1]? = some b ∧ OnSegment a b p

/-- At the interior point with this number the direction angle changes by more than 0.1. -/
def Bent (mp : List RPoint) (k : Nat) : Prop :=
  ∃ a b c : RPoint, mp[k]? = some a ∧ mp[k + 1]? = some b ∧ mp[k + 2]? = some c ∧
    1 / 10 < |angleFromPoint (b.sub a) - angleFromPoint (c.sub b)|

/-- `p` lies on a chord of the polyline from one point to a later one without any bend (of more than
0.1) in between.  (`Bent mp k` is about point `k + 1`.) -/
def OnChord (mp : List RPoint) (p : RPoint) : Prop :=
  ∃ (i j : Nat) (a b : RPoint), i < j ∧ mp[i]? = some a ∧ mp[j]? = some b ∧ OnSegment a b p ∧
    ∀ k, i < k + 1 → k + 1 < j → ¬ Bent mp k

end F2C.Props.PathPlanningSpec
