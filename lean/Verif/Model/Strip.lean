import Verif.Model.FieldObj

/-! # Strips and the way back to the previous coordinate system -/

namespace F2C

open Text

variable {K : Type} [Field K] [LinearOrder K]

/-- `Strip` (include/fields2cover/types/Strip.h:15-29); getters and setters (Strip.cpp:11-29) are field access.
Values only: `setCell` shares the geometry with its argument, as all copies of cells do. -/
structure Strip (K : Type) where
  cell : Cell K
  name : Str
  deriving DecidableEq, Repr

/-- `Strip()`: an empty cell and an empty name (Strip.h:26-28). -/
def Strip.default : Strip K := ⟨[], []⟩

/-- `Strip::setCell` (Strip.cpp:19-21). -/
def Strip.setCell (s : Strip K) (c : Cell K) : Strip K := { s with cell := c }

/-- `Strip::setName` (Strip.cpp:27-29). -/
def Strip.setName (s : Strip K) (n : Str) : Strip K := { s with name := n }

/-- `Strip::clone` (Strip.cpp:31-36). -/
def Strip.clone (s : Strip K) : Strip K := (Strip.default.setName s.name).setCell s.cell

namespace Transform

/-- `Transform::transform(cell, from, to)` (include/fields2cover/utils/transformation.h:86-92): GDAL transforms
every point of a copy. -/
def cell (proj : Proj K) (c : Cell K) (src dst : Str) : Outcome (Cell K) := do
  let t ← coordTransf proj src dst
  return c.map fun r => r.map t

/-- `Transform::transform(cell, ref_point, from, to)` (transformation.h:80-84). -/
def cellWithRef (proj : Proj K) (c : Cell K) (ref : Point K) (src dst : Str) : Outcome (Cell K) :=
  cell proj (mapCell (fun p => p.add ref) c) src dst

/-- `transformStrip` (transformation.cpp:105-111). -/
def strip (proj : Proj K) (s : Strip K) (src dst : Str) : Outcome (Strip K) := do
  let c ← cell proj s.cell src dst
  return (Strip.default.setName s.name).setCell c

/-- `transformStrips` (transformation.cpp:113-121). -/
def strips (proj : Proj K) (l : List (Strip K)) (src dst : Str) : Outcome (List (Strip K)) :=
  mapOutcome (fun s => strip proj s src dst) l

/-- `transformToPrevCRS(route, field)` (transformation.cpp:205-208). -/
def prevRoute (proj : Proj K) (r : Route K) (f : FieldObj K) : Outcome (Route K) := route proj r f f.prevCrs

/-- `transformToPrevCRS(path, field)` (transformation.cpp:210-213). -/
noncomputable def prevPath (proj : Proj ℝ) (p : Path) (f : FieldObj ℝ) : Outcome Path := path proj p f f.prevCrs

/-- `transformToPrevCRS(strip, field)` (transformation.cpp:215-218): the reference point is not used. -/
def prevStrip (proj : Proj K) (s : Strip K) (f : FieldObj K) : Outcome (Strip K) := strip proj s f.crs f.prevCrs

/-- `transformToPrevCRS(strips, field)` (transformation.cpp:220-223). -/
def prevStrips (proj : Proj K) (l : List (Strip K)) (f : FieldObj K) : Outcome (List (Strip K)) :=
  strips proj l f.crs f.prevCrs

/-- `transformToPrevCRS(swath, field)` (transformation.cpp:225-228). -/
def prevSwath (proj : Proj K) (s : Swath K) (f : FieldObj K) : Outcome (Swath K) := swath proj s f f.prevCrs

/-- `transformToPrevCRS(swaths, field)` (transformation.cpp:230-233). -/
def prevSwaths (proj : Proj K) (l : Swaths K) (f : FieldObj K) : Outcome (Swaths K) := swaths proj l f f.prevCrs

end Transform
end F2C
