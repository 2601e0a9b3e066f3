import Mathlib.Algebra.BigOperators.Group.List.Lemmas
import Verif.Model.Path

/-! # Specification vocabulary for paths -/

namespace F2C.Props.PathSpec

/-- Total driven length. -/
noncomputable def lengthOf (p : List (PathState ℝ)) : ℝ := (p.map fun s => |s.len|).sum

/-- Total driving time. -/
noncomputable def timeOf (p : List (PathState ℝ)) : ℝ := (p.map fun s => s.len / s.velocity).sum

/-- Same position in the plane. -/
def SameXY (a b : RPoint) : Prop := a.x = b.x ∧ a.y = b.y

/-- The point reached from the start of a section after driving `d`. -/
noncomputable def driven (s : PathState ℝ) (d : ℝ) : ℝ × ℝ :=
  (s.point.x + (d * s.dir.sign) * Real.cos s.angle, s.point.y + (d * s.dir.sign) * Real.sin s.angle)

/-- `pieces` cut the section `s` into equally long consecutive pieces that together run from its
start to its end, each shorter than one and a half steps. -/
structure CutInto (step : ℝ) (s : PathState ℝ) (pieces : List (PathState ℝ)) : Prop where
  nonempty : pieces ≠ []
  same : ∀ r ∈ pieces, r.angle = s.angle ∧ r.dir = s.dir ∧ r.type = s.type ∧
    r.velocity = s.velocity
  equal : ∀ r ∈ pieces, r.len * pieces.length = s.len
  short : ∀ r ∈ pieces, |r.len| < 3 / 2 * |step|
  onSegment : ∀ (j : Nat) (r : PathState ℝ), pieces[j]? = some r →
    SameXY r.point ⟨s.point.x + j / pieces.length * (s.atEnd.x - s.point.x),
      s.point.y + j / pieces.length * (s.atEnd.y - s.point.y), 0⟩
  first : pieces.head?.map (·.point) = some s.point
  consecutive : ∀ (j : Nat) (r t : PathState ℝ), pieces[j]? = some r → pieces[j + 1]? = some t →
    SameXY r.atEnd t.point
  last : pieces.getLast?.map PathState.atEnd = some s.atEnd

/-- `t` stands for the states `g`: the first one of them, driven for the length of all; the others
have the same type and direction and start less than `d` away from the first one. -/
def StandsFor (d : ℝ) (g : List (PathState ℝ)) (t : PathState ℝ) : Prop :=
  ∃ s rest, g = s :: rest ∧
    t = { s with len := (g.map (·.len)).sum } ∧
    ∀ r ∈ rest, r.type = s.type ∧ r.dir = s.dir ∧ pdist s.point r.point < d

/-- The value forced into the range from 0 to `top`. -/
noncomputable def clamp (top d : ℝ) : ℝ := if d < 0 then 0 else if d > top then top else d

end F2C.Props.PathSpec
