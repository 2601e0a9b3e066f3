import Mathlib.Algebra.BigOperators.Group.List.Lemmas
import Mathlib.Algebra.BigOperators.Group.Finset.Basic
import Mathlib.Data.List.Rotate
import Verif.Model.Objectives
import Verif.Props.SwathGeneratorSpec

/-! # Specification vocabulary for objectives and headlands -/

namespace F2C.Props.Obj

open SG

/-- Length of the border projected across the direction: the sum over all edges. -/
noncomputable def projectedLength (ang : ℝ) : List RPoint → ℝ
  | a :: b :: l => |across ang b - across ang a| + projectedLength ang (b :: l)
  | _ => 0

/-- The ring with the given corners: the first one is repeated at the end. -/
def closeUp : List RPoint → List RPoint
  | [] => []
  | a :: l => a :: l ++ [a]

/-- A closed ring. -/
def Closed (ring : List RPoint) : Prop := ring.head? = ring.getLast?

/-- Overlap of all pairs of `n` areas. -/
def pairSum {A : Type} (inter : A → A → ℝ) (covered : Nat → A) (n : Nat) : ℝ :=
  ∑ i ∈ Finset.range n, ∑ j ∈ Finset.range i, inter (covered i) (covered j)

/-- The points of the field at least `d` away from everything outside of the field. -/
def deeperThan (field : Set RPoint) (d : ℝ) : Set RPoint :=
  {p | p ∈ field ∧ ∀ q, q ∉ field → d ≤ pdist p q}

/-- With two points also the segment between them. -/
def IsConvex (s : Set RPoint) : Prop := ∀ a ∈ s, ∀ b ∈ s, ∀ c, SG.OnSegment a b c → c ∈ s

/-- A rectangle along the axes. -/
def box (x₀ x₁ y₀ y₁ : ℝ) : Set RPoint := {p | x₀ ≤ p.x ∧ p.x ≤ x₁ ∧ y₀ ≤ p.y ∧ p.y ≤ y₁}

/-- What is assumed of the buffers of regions, which have mitred corners
(include/fields2cover/types/Geometry_impl.hpp:299-302, with the default limit 5 of GEOS).  Shrinking takes away at
least what is closer than `d` to the border, at most six times that, and the more the larger `d` is; if the region
is convex and something deeper remains, exactly what is closer than `d`.  Growing adds at least what is closer than
`d`, makes rectangles of rectangles and nothing of nothing. -/
structure IsMitreBuffer (buffer : Set RPoint → ℝ → Set RPoint) : Prop where
  deep : ∀ r d, 0 < d → buffer r (-d) ⊆ deeperThan r d
  rest : ∀ r d, 0 < d → deeperThan r (6 * d) ⊆ buffer r (-d)
  mono : ∀ r d e, 0 < d → d ≤ e → buffer r (-e) ⊆ buffer r (-d)
  convex : ∀ r d e, IsConvex r → 0 < d → d < e → (deeperThan r e).Nonempty → buffer r (-d) = deeperThan r d
  grow : ∀ r d, 0 < d → {p | ∃ q ∈ r, pdist p q ≤ d} ⊆ buffer r d
  box : ∀ x₀ x₁ y₀ y₁ d, x₀ < x₁ → y₀ < y₁ → 0 < d →
    buffer (box x₀ x₁ y₀ y₁) d = Obj.box (x₀ - d) (x₁ + d) (y₀ - d) (y₁ + d)
  empty : ∀ d, buffer ∅ d = ∅

/-- A line of two different points. -/
def Straight (l : List RPoint) : Prop := ∃ a b : RPoint, (a.x, a.y) ≠ (b.x, b.y) ∧ l = [a, b]

/-- The points beside one of the segments, at most `d` away from it: rectangles (flat ends). -/
def besideLines (d : ℝ) (lines : List (List RPoint)) : Set RPoint :=
  {p | ∃ a b, [a, b] ∈ lines ∧ ∃ c, SG.OnSegment a b c ∧
    (p.x - c.x) * (b.x - a.x) + (p.y - c.y) * (b.y - a.y) = 0 ∧ pdist p c ≤ d}

/-- What is used of areas: they are not negative and the areas of two parts add up. -/
structure IsArea (area : Set RPoint → ℝ) : Prop where
  nonneg : ∀ s, 0 ≤ area s
  parts : ∀ s t, area s = area (s ∩ t) + area (s \ t)

end F2C.Props.Obj
