import Verif.Model.Geom
import Verif.Model.Route

/-!
# Points, segments and directions of lines

`LineString.cpp`, `LinearRing.cpp`, `MultiPoint.cpp` and `getLineSegments` of `MultiLineString.cpp`
(all in `src/fields2cover/types`).  A line, a ring and a multi point are lists of points.
-/

namespace F2C.Lines

variable {K : Type} [Field K] [LinearOrder K]

/-- `n - k` for values of type `size_t`, `n < 2^64` and `k` small: wraps around below 0. -/
def wrapSub (n k : Nat) : Nat := if k ≤ n then n - k else n + 2 ^ 64 - k

/-- `getGeometry(i)` of lines (LineString.cpp:54-90), rings (LinearRing.cpp:59-95) and multi points
(MultiPoint.cpp:34-64). -/
def get (l : List (Point K)) (i : Nat) : Outcome (Point K) :=
  match l[i]? with
  | some p => .ok p
  | none => .throw .outOfRange

/-- `setGeometry(i, p)` of lines (LineString.cpp:92-94) and rings (LinearRing.cpp:97-99):
`OGRSimpleCurve::setPoint` appends points with coordinates 0 until the position exists.  Simplification: the
conversion of the position to `int` is the identity (`i < 2^31 - 1`). -/
def set (l : List (Point K)) (i : Nat) (p : Point K) : List (Point K) :=
  (l ++ List.replicate (i + 1 - l.length) Point.zero).set i p

/-- `MultiPoint::setGeometry` (MultiPoint.cpp:75-80): `getGeometryRef` of a position that does not exist is a
null pointer. -/
def setMulti (l : List (Point K)) (i : Nat) (p : Point K) : Outcome (List (Point K)) :=
  if i < l.length then .ok (l.set i p) else .ub "null pointer"

/-- `startPoint()` of lines (LineString.cpp:114-116) and rings (LinearRing.cpp:113-115), `getFirstPoint()` of
multi points (MultiPoint.cpp:66-68). -/
def first (l : List (Point K)) : Outcome (Point K) := get l 0

/-- `endPoint()` of lines (LineString.cpp:118-120) and rings (LinearRing.cpp:117-119), `getLastPoint()` of multi
points (MultiPoint.cpp:70-72). -/
def last (l : List (Point K)) : Outcome (Point K) := get l (wrapSub l.length 1)

/-- `LineString::startAngle` (LineString.cpp:122-124). -/
noncomputable def startAngle (l : List RPoint) : Outcome ℝ := do
  let b ← get l 1
  let a ← first l
  return angleFromPoint (b.sub a)

/-- `LineString::endAngle` (LineString.cpp:126-128). -/
noncomputable def endAngle (l : List RPoint) : Outcome ℝ := do
  let b ← last l
  let a ← get l (wrapSub l.length 2)
  return angleFromPoint (b.sub a)

/-- Loop of `getLineSegments` (MultiLineString.cpp:132-134), `k` rounds from `i` on. -/
def segmentsFrom (l : List (Point K)) : Nat → Nat → Outcome (List (List (Point K)))
  | 0, _ => .ok []
  | k + 1, i => do
    let a ← get l i
    let b ← get l (i + 1)
    let rest ← segmentsFrom l k (i + 1)
    return [a, b] :: rest

/-- `MultiLineString::getLineSegments` (MultiLineString.cpp:130-136, for rings 138-140). -/
def segments (l : List (Point K)) : Outcome (List (List (Point K))) := segmentsFrom l (wrapSub l.length 1) 0

/-- `MultiPoint::getInAngle` (MultiPoint.cpp:109-116). -/
noncomputable def inAngle (l : List RPoint) (i : Nat) : Outcome ℝ :=
  if i = 0 then .throw .invalidArgument
  else do
    let b ← get l i
    let a ← get l (i - 1)
    return angleFromPoint (b.sub a)

/-- `MultiPoint::getOutAngle` (MultiPoint.cpp:118-125). -/
noncomputable def outAngle (l : List RPoint) (i : Nat) : Outcome ℝ :=
  if i ≥ wrapSub l.length 1 then .throw .invalidArgument
  else do
    let b ← get l (i + 1)
    let a ← get l i
    return angleFromPoint (b.sub a)

/-- `MultiPoint::getPointAngle` (MultiPoint.cpp:127-138). -/
noncomputable def pointAngle (l : List RPoint) (i : Nat) : Outcome ℝ :=
  if l.length < 2 then .throw .invalidArgument
  else if i = 0 then outAngle l i
  else if i = wrapSub l.length 1 then inAngle l i
  else do
    let a ← inAngle l i
    let b ← outAngle l i
    return angAvg a b

end F2C.Lines
