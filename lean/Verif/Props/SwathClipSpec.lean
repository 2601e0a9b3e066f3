import Verif.Props.DecompSpec

/-! # Specification vocabulary for cutting tracks at the border of a cell -/

namespace F2C.Props.SwathClipSpec

open F2C.Props.SG F2C.Props.DecompSpec F2C.Decomp

/-- The position is on one of the lines and in the region. -/
def Inside (region : Set (ℝ × ℝ)) (ts : List (List RPoint)) (c : ℝ × ℝ) : Prop :=
  c ∈ region ∧ ∃ t ∈ ts, ∃ q, OnLine t q ∧ xy q = c

/-- What is assumed of the intersection of lines with a region (`OGRGeometry::Intersection`): lines and
isolated points together are what is inside; lines have no isolated parts; isolated points have nothing
around them; a collection has both. -/
structure LinesCut (region : Set (ℝ × ℝ)) (ts : List (List RPoint)) (i : Inter) : Prop where
  sound : ∀ l ∈ pieces i, ∀ q, OnLine l q → Inside region ts (xy q)
  complete : ∀ c, Inside region ts c →
    (∃ l ∈ pieces i, ∃ q, OnLine l q ∧ xy q = c) ∨ ∃ q ∈ isolated i, xy q = c
  spread : ∀ l ∈ pieces i, ∀ q, OnLine l q → ∀ r > 0, ∃ c, OnLine l c ∧ xy c ≠ xy q ∧ pdist c q < r
  alone : ∀ q ∈ isolated i, Inside region ts (xy q) ∧
    ∃ r > 0, ∀ c : RPoint, pdist c q < r → Inside region ts (xy c) → xy c = xy q

end F2C.Props.SwathClipSpec
