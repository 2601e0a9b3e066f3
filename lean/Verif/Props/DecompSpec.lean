import Verif.Model.Decomp
import Verif.Props.SwathGeneratorSpec

/-! # Specification vocabulary for decompositions

Regions are sets of positions in the plane. -/

namespace F2C.Props.DecompSpec

open F2C.Props.SG F2C.Decomp

/-- Position of a point. -/
def xy (q : RPoint) : ℝ × ℝ := (q.x, q.y)

/-- The position at distance `t` from `p` in the direction `θ`. -/
noncomputable def ray (p : RPoint) (θ t : ℝ) : ℝ × ℝ :=
  (p.x + t * Real.cos θ, p.y + t * Real.sin θ)

/-- The lines contained in an intersection. -/
def pieces : Inter → List (List RPoint)
  | .line l => [l]
  | .lines ls => ls
  | .points _ => []
  | .collection _ ls => ls

/-- Lines only: no isolated points beside them. -/
def LinesOnly (i : Inter) : Prop := (∃ l, i = .line l) ∨ ∃ ls, i = .lines ls

/-- The isolated points of an intersection. -/
def isolated : Inter → List RPoint
  | .points ps => ps
  | .collection ps _ => ps
  | _ => []

/-- What is assumed of the intersection of the ray of length `len` with the region: its lines are on the
ray and in the region, every position of the ray in the region is on a line or an isolated point, isolated
points are in the region but on no line, and a collection has both. -/
structure RayCut (region : Set (ℝ × ℝ)) (p : RPoint) (θ len : ℝ) (i : Inter) : Prop where
  onRay : ∀ l ∈ pieces i, ∀ q ∈ l, ∃ t, 0 ≤ t ∧ t ≤ len ∧ xy q = ray p θ t
  inside : ∀ l ∈ pieces i, ∀ q, OnLine l q → xy q ∈ region
  complete : ∀ t, 0 ≤ t → t ≤ len → ray p θ t ∈ region →
    (∃ l ∈ pieces i, ∃ q, OnLine l q ∧ xy q = ray p θ t) ∨ ∃ q ∈ isolated i, xy q = ray p θ t
  apart : ∀ q ∈ isolated i, xy q ∈ region ∧ ∀ l ∈ pieces i, ∀ c, OnLine l c → xy c ≠ xy q
  mixed : ∀ ps ls, i = .collection ps ls → ps ≠ [] ∧ ls ≠ []

/-- What is assumed of `OGRGeometry::Difference`: exact but for the border of what is taken away. -/
structure IsDiff (diff : Set RPoint → Set RPoint → Set RPoint) : Prop where
  sub : ∀ a b, diff a b ⊆ a
  keeps : ∀ a b q, q ∈ a → q ∉ b → q ∈ diff a b
  takes : ∀ a b q r, 0 < r → (∀ c, pdist c q < r → c ∈ b) → q ∉ diff a b

/-- What is assumed of a buffer of width `d`, a polygon with flat ends and mitred corners
(include/fields2cover/types/Geometry_impl.hpp:297-306): around a line without corners it stays within `d` of the
line, and around all lines it reaches at least nine tenths of that, from each point up to the nearest corner or
end. -/
def IsBuffer (d : ℝ) (around : List RPoint → Set RPoint) : Prop :=
  ∀ l q, (List.length l ≤ 2 → q ∈ around l → ∃ c, OnLine l c ∧ pdist c q ≤ d) ∧
    ((∃ c, OnLine l c ∧ pdist c q < 9 / 10 * d ∧ ∀ e ∈ l, pdist c q ≤ pdist c e) → q ∈ around l)

/-- Closer than `d` to the line. -/
def Near (d : ℝ) (line : List RPoint) (q : RPoint) : Prop := ∃ c, OnLine line c ∧ pdist c q ≤ d

/-- One of the edges of the ring, in either direction. -/
def RingEdge (ring : List RPoint) (a b : RPoint) : Prop :=
  ∃ l r u v, ring = l ++ u :: v :: r ∧
    ((Point.eqv a u ∧ Point.eqv b v) ∨ (Point.eqv a v ∧ Point.eqv b u))

/-- What is known of a ray cast from a point of a bounded cell: no line at all, or a line from that point
to a point at least 1e-5 further in the direction `θ`, still within the extent `hi`. -/
def Advances (θ hi : ℝ) (cast : RPoint → List RPoint) : Prop :=
  ∀ q, cast q = [] ∨ ∃ e, cast q = [q, e] ∧ along θ q + 1 / 100000 < along θ e ∧ along θ e ≤ hi

end F2C.Props.DecompSpec
