import Mathlib.Data.List.Basic
import Verif.Model.Container
import Verif.Props.SwathGeneratorSpec
import Verif.Props.ObjectivesSpec

/-! # Specification vocabulary for points, borders and containers -/

namespace F2C.Props.Geo

/-- Squared distance in space. -/
def dist3sq (a b : RPoint) : ℝ := (a.x - b.x) ^ 2 + (a.y - b.y) ^ 2 + (a.z - b.z) ^ 2

/-- `q` is on the straight segment from `a` to `b` in space. -/
def OnSegment3 (a b q : RPoint) : Prop :=
  ∃ t : ℝ, 0 ≤ t ∧ t ≤ 1 ∧ q.x = a.x + t * (b.x - a.x) ∧ q.y = a.y + t * (b.y - a.y) ∧
    q.z = a.z + t * (b.z - a.z)

/-- All points have the same height. -/
def Level (pts : List RPoint) : Prop := ∀ p ∈ pts, ∀ q ∈ pts, p.z = q.z

/-- `q` is on one of the rings of the cell. -/
def OnBorder (c : Cell ℝ) (q : RPoint) : Prop := ∃ r ∈ c, SG.OnLine r q

/-- `q` is on one of the rings of the cells. -/
def OnBorders (cs : Cells ℝ) (q : RPoint) : Prop := ∃ c ∈ cs, OnBorder c q

/-- `q` is on the infinite line through `a` and `b` (in the plane). -/
def OnInfiniteLine (a b q : RPoint) : Prop :=
  ∃ t : ℝ, q.x = a.x + t * (b.x - a.x) ∧ q.y = a.y + t * (b.y - a.y)

/-- Which way a path through `a`, `b`, `c` turns at `b`: positive to the left, negative to the
right, 0 straight on or back. -/
def cross (a b c : RPoint) : ℝ := (b.x - a.x) * (c.y - b.y) - (b.y - a.y) * (c.x - b.x)

/-- The path turns at every inner point to the side given by the sign of `s`. -/
def Turning (s : ℝ) : List RPoint → Prop
  | a :: b :: c :: l => 0 < s * cross a b c ∧ Turning s (b :: c :: l)
  | _ => True

/-- The path is not straight at any inner point. -/
def Bent : List RPoint → Prop
  | a :: b :: c :: l => cross a b c ≠ 0 ∧ Bent (b :: c :: l)
  | _ => True

/-- The closed border with the given corners turns to the same side at every corner. -/
def ConvexCorners (cs : List RPoint) : Prop := ∃ s, Turning s (cs ++ cs.take 2)

end F2C.Props.Geo
