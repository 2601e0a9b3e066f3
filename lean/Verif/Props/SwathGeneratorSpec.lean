import Verif.Model.SwathGenerator

/-! # Specification vocabulary for swath generation

Nothing here refers to how the tracks are computed: only points, directions and distances. -/

namespace F2C.Props.SG

/-- Coordinate of `p` along the direction with the given angle. -/
noncomputable def along (angle : ℝ) (p : RPoint) : ℝ := p.x * Real.cos angle + p.y * Real.sin angle

/-- Coordinate of `p` across the direction with the given angle (to its left). -/
noncomputable def across (angle : ℝ) (p : RPoint) : ℝ :=
  -(p.x * Real.sin angle) + p.y * Real.cos angle

/-- `p` lies in every half plane that contains all border points: `p` is in the convex hull of the
border, in particular every point of the polygon is. -/
def InHull (pts : List RPoint) (p : RPoint) : Prop :=
  ∀ a b c : ℝ, (∀ q ∈ pts, a * q.x + b * q.y ≤ c) → a * p.x + b * p.y ≤ c

/-- The border is not contained in a line. -/
def HasArea (pts : List RPoint) : Prop :=
  ∃ a ∈ pts, ∃ b ∈ pts, ∃ c ∈ pts, Point.det (b.sub a) (c.sub a) ≠ 0

/-- `q` is on the straight segment from `a` to `b`. -/
def OnSegment (a b q : RPoint) : Prop :=
  ∃ t : ℝ, 0 ≤ t ∧ t ≤ 1 ∧ q.x = a.x + t * (b.x - a.x) ∧ q.y = a.y + t * (b.y - a.y)

/-- `q` is on one of the segments of the line. -/
def OnLine : List RPoint → RPoint → Prop
  | a :: b :: l, q => OnSegment a b q ∨ OnLine (b :: l) q
  | _, _ => False

/-- The line shares no point with the convex hull of the border. -/
def Misses (pts : List RPoint) (line : List RPoint) : Prop := ∀ q, OnLine line q → ¬ InHull pts q

/-- `h` is the extent of the border across the direction. -/
def IsExtent (pts : List RPoint) (angle h : ℝ) : Prop :=
  (∀ p ∈ pts, ∀ q ∈ pts, across angle p - across angle q ≤ h) ∧
  (∃ p ∈ pts, ∃ q ∈ pts, across angle p - across angle q = h)

/-- What is assumed of `Cell::getLinesInside` when lines are added: a line that shares no point
with the cell contributes nothing. -/
def ClipIgnores (clip : Cell ℝ → List (List RPoint) → List (List RPoint)) (poly : Cell ℝ) : Prop :=
  ∀ ts t, Misses poly.flatten t → clip poly (ts ++ [t]) = clip poly ts

/-- What is assumed of `Cell::getLinesInside` about its result: all its points are on one of the
given lines and in the cell. -/
def ClipInside (clip : Cell ℝ → List (List RPoint) → List (List RPoint)) (poly : Cell ℝ) : Prop :=
  ∀ ts, ∀ r ∈ clip poly ts, ∀ q, OnLine r q → InHull poly.flatten q ∧ ∃ t ∈ ts, OnLine t q

end F2C.Props.SG
