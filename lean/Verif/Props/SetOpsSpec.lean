import Mathlib.Topology.MetricSpace.Pseudo.Real
import Mathlib.Topology.Constructions
import Verif.Model.OgrGeom
import Verif.Props.DecompSpec

/-! # Specification vocabulary for geometries as sets of positions -/

namespace F2C.Props.SetOpsSpec

open F2C.Props.SG F2C.Props.DecompSpec

variable {K : Type}

mutual
/-- All polygons in a geometry, at any depth. -/
def polygonsIn : OgrGeom K → List (Cell K)
  | .polygon c => [c]
  | .polygons cs => cs
  | .collection gs => polygonsInAll gs
  | _ => []

/-- All polygons in a list of geometries. -/
def polygonsInAll : List (OgrGeom K) → List (Cell K)
  | [] => []
  | g :: gs => polygonsIn g ++ polygonsInAll gs
end

/-- Neither a collection nor a kind that is not modelled. -/
def Simple : OgrGeom K → Prop
  | .point _ | .line _ | .polygon _ | .points _ | .lines _ => True
  | _ => False

/-- As GEOS returns them: collections hold single points, lines and polygons. -/
def Flat : OgrGeom K → Prop
  | .collection gs => ∀ g ∈ gs, Simple g
  | .other => False
  | _ => True

/-- The positions of a geometry; `region` says which positions a polygon has. -/
inductive Covers (region : Cell ℝ → Set (ℝ × ℝ)) : OgrGeom ℝ → ℝ × ℝ → Prop
  | point (p) : Covers region (.point p) (xy p)
  | line (l q) : OnLine l q → Covers region (.line l) (xy q)
  | polygon (c q) : q ∈ region c → Covers region (.polygon c) q
  | points (ps p) : p ∈ ps → Covers region (.points ps) (xy p)
  | lines (ls l q) : l ∈ ls → OnLine l q → Covers region (.lines ls) (xy q)
  | polygons (cs c q) : c ∈ cs → q ∈ region c → Covers region (.polygons cs) q
  | collection (gs g q) : g ∈ gs → Covers region g q → Covers region (.collection gs) q

/-- The positions of cells. -/
def cover (region : Cell ℝ → Set (ℝ × ℝ)) (cs : Cells ℝ) : Set (ℝ × ℝ) := {q | ∃ c ∈ cs, q ∈ region c}

/-- The closure of an open set, as the regions of valid polygons are. -/
def Regular (s : Set (ℝ × ℝ)) : Prop := closure (interior s) = s

/-- The result of an operation of GEOS: a flat geometry of valid polygons with exactly the positions `s`. -/
def Exact (region : Cell ℝ → Set (ℝ × ℝ)) (r : Option (OgrGeom ℝ)) (s : Set (ℝ × ℝ)) : Prop :=
  ∃ g, r = some g ∧ Flat g ∧ (∀ c ∈ polygonsIn g, Regular (region c)) ∧ ∀ q, Covers region g q ↔ q ∈ s

/-- The positions beside the segment from `a` to `b`, at most `d` away from it: a rectangle (flat caps). -/
def beside (a b : RPoint) (d : ℝ) : Set (ℝ × ℝ) :=
  {q | ∃ c, OnSegment a b c ∧ (q.1 - c.x) * (b.x - a.x) + (q.2 - c.y) * (b.y - a.y) = 0 ∧
    (q.1 - c.x) ^ 2 + (q.2 - c.y) ^ 2 ≤ d ^ 2}

/-- The same without the sides of the rectangle. -/
def insideBeside (a b : RPoint) (d : ℝ) : Set (ℝ × ℝ) :=
  {q | ∃ c : RPoint, (∃ t, 0 < t ∧ t < 1 ∧ c.x = a.x + t * (b.x - a.x) ∧ c.y = a.y + t * (b.y - a.y)) ∧
    (q.1 - c.x) * (b.x - a.x) + (q.2 - c.y) * (b.y - a.y) = 0 ∧
    (q.1 - c.x) ^ 2 + (q.2 - c.y) ^ 2 < d ^ 2}

/-- The positions within `d` of the line. -/
def near (l : List RPoint) (d : ℝ) : Set (ℝ × ℝ) :=
  {q | ∃ c, OnLine l c ∧ (q.1 - c.x) ^ 2 + (q.2 - c.y) ^ 2 ≤ d ^ 2}

/-- The positions beside one of the segments of the line, without the sides of the rectangles. -/
def insideStrips (l : List RPoint) (d : ℝ) : Set (ℝ × ℝ) :=
  {q | ∃ ab ∈ l.zip l.tail, q ∈ insideBeside ab.1 ab.2 d}

end F2C.Props.SetOpsSpec
