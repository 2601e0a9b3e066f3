import Mathlib.Logic.Relation
import Verif.Model.ShortestGraph
import Verif.Props.GeometrySpec
import Verif.Props.RoutePlannerSpec

/-!
# What the properties of the headland graph talk about
-/

namespace F2C.HeadSpec

open Props.SG Props.Geo

/-- All corners of all rings. -/
def corners (cells : Cells ℝ) : List RPoint := cells.flatten.flatten

/-- There are cells, every cell has rings and every ring has two points at least. -/
def Usable (cells : Cells ℝ) : Prop := cells ≠ [] ∧ ∀ c ∈ cells, c ≠ [] ∧ ∀ r ∈ c, 2 ≤ r.length

/-- `S` contains the points `V`, the corners, and the points where those of `V` are joined to the
border. -/
def Contains (cells : Cells ℝ) (V S : List RPoint) : Prop :=
  (∀ p ∈ V, p ∈ S) ∧ (∀ p ∈ corners cells, p ∈ S) ∧
    ∀ p ∈ V, ∀ q, Cells.closestOnBorder p cells = .ok q → q ∈ S

/-- A corner of one ring is on the other one. -/
def Touch (r s : Ring ℝ) : Prop := (∃ p ∈ r, OnLine s p) ∨ ∃ p ∈ s, OnLine r p

/-- One can get from every ring to every other ring. -/
def Together (cells : Cells ℝ) : Prop :=
  ∀ r ∈ cells.flatten, ∀ s ∈ cells.flatten,
    Relation.ReflTransGen (fun r s => r ∈ cells.flatten ∧ s ∈ cells.flatten ∧ Touch r s) r s

/-- `a` and `b` are the ends of a side of a ring. -/
def Side (cells : Cells ℝ) (a b : RPoint) : Prop :=
  ∃ r ∈ cells.flatten, ∃ pre post, r = pre ++ a :: b :: post

/-- `b` is the point of the border where `a` is joined to it. -/
def Access (cells : Cells ℝ) (V : List RPoint) (a b : RPoint) : Prop :=
  a ∈ V ∧ Cells.closestOnBorder a cells = .ok b

/-- The straight way from `x` to `y` stays within `δ` of one side of a ring, or of the straight way
between one of the points and the border. -/
def Along (cells : Cells ℝ) (V : List RPoint) (δ : ℝ) (x y : RPoint) : Prop :=
  ∃ a b, (Side cells a b ∨ Access cells V a b) ∧
    ∀ m, OnSegment x y m → ∃ w, OnSegment a b w ∧ pdist m w ≤ δ

/-- Every step of the way satisfies `R`. -/
def EachStep (R : RPoint → RPoint → Prop) : List RPoint → Prop
  | a :: b :: l => R a b ∧ EachStep R (b :: l)
  | _ => True

/-- Both points are on one side of a ring, or on one straight way between one of the points `V` and the
border. -/
def OneTrack (cells : Cells ℝ) (V : List RPoint) (x y : RPoint) : Prop :=
  ∃ a b, (Side cells a b ∨ Access cells V a b) ∧ OnSegment a b x ∧ OnSegment a b y

/-- Points of `S` that are nearer than `tol` to a piece of a side (or of the way to the border) are on it. -/
def Clear (cells : Cells ℝ) (V : List RPoint) (tol : ℝ) (S : List RPoint) : Prop :=
  ∀ a ∈ S, ∀ b ∈ S, OneTrack cells V a b → ∀ n ∈ S, ∀ w, OnSegment a b w → pdist n w < tol → OnSegment a b n

/-- Where one may turn off: a corner, one of the points `V`, or the point where one of these is joined to
the border. -/
def Stop (cells : Cells ℝ) (V : List RPoint) (p : RPoint) : Prop :=
  p ∈ V ∨ p ∈ corners cells ∨ ∃ v ∈ V, Cells.closestOnBorder v cells = .ok p

/-- A way along the borders from `a` to `b` that turns off at stops only. -/
def BorderWay (cells : Cells ℝ) (V : List RPoint) (a b : RPoint) (q : List RPoint) : Prop :=
  q.head? = some a ∧ q.getLast? = some b ∧ (∀ p ∈ q, Stop cells V p) ∧ EachStep (OneTrack cells V) q

end F2C.HeadSpec
