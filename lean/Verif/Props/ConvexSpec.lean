import Verif.Props.ObjectivesSpec

/-! # Specification vocabulary for convex fields -/

namespace F2C.Props.Convex

open SG

/-- Corners of a ring that bends to the same side all the way round: every other corner is strictly on the same side
of every edge, the left one if the ring is anticlockwise (`s = 1`), the right one if it is clockwise (`s = -1`). -/
def StrictlyConvex (c : List RPoint) : Prop :=
  3 ≤ c.length ∧ ∃ s : ℝ, (s = 1 ∨ s = -1) ∧ ∀ i j, i < c.length → j < c.length → j ≠ i → j ≠ (i + 1) % c.length →
    0 < s * Point.det ((c.getD ((i + 1) % c.length) Point.zero).sub (c.getD i Point.zero))
      ((c.getD j Point.zero).sub (c.getD i Point.zero))

/-- `p` is in the hull and not on its border: it is strictly inside of every half plane containing all points. -/
def Inside (pts : List RPoint) (p : RPoint) : Prop :=
  ∀ a b c : ℝ, (a ≠ 0 ∨ b ≠ 0) → (∀ q ∈ pts, a * q.x + b * q.y ≤ c) → a * p.x + b * p.y < c

/-- Straight lines that have no points in common. -/
def Apart (ts : List (List RPoint)) : Prop :=
  (∀ t ∈ ts, ∃ a b : RPoint, t = [a, b]) ∧ ts.Pairwise fun t u => ∀ q, OnLine t q → ¬ OnLine u q

/-- What is assumed of `Cell::getLinesInside` for a convex cell and straight lines apart from each other: a line gives
one piece if it passes through the inside, none if it misses the cell, and one or none if it touches the border. -/
def ClipsConvex (clip : Cell ℝ → List (List RPoint) → List (List RPoint)) (poly : Cell ℝ) : Prop :=
  ∀ ts, Apart ts → (∀ l ∈ clip poly ts, l ≠ []) ∧ ∃ hit : List RPoint → Bool,
    (clip poly ts).length = ts.countP hit ∧
    (∀ t ∈ ts, (∃ q, OnLine t q ∧ Inside poly.flatten q) → hit t = true) ∧
    ∀ t ∈ ts, Misses poly.flatten t → hit t = false

end F2C.Props.Convex
