import Verif.Model.Container
import Verif.Model.Path
import Verif.Model.Route

/-!
# What the visualizer draws

`src/fields2cover/utils/visualizer.cpp`.  The plotting library (matplot++) is external: a call of it is recorded
as a command.  Simplifications: a drawing that fails midway gives the failure only, the line width is 1 in every
command and not recorded, colours are recorded as they are given to the library.
-/

namespace F2C.Vis

variable {K : Type} [Field K] [LinearOrder K]

/-- A colour as given to the library: components, `none` is NaN; the empty list leaves the colour to the
library. -/
abbrev Colour (K : Type) := List (Option K)

/-- Calls of the plotting library: `plt::plot` (visualizer.cpp:18, 103, 190), `plt::arrow`
(visualizer.cpp:46-48), `plt::scatter` (visualizer.cpp:24), `plt::polygon` (visualizer.cpp:245). -/
inductive Draw (K : Type)
  | line (points : List (K × K)) (colour : Colour K)
  | arrow (start stop : K × K) (colour : Colour K)
  | marker (point : K × K) (colour : Colour K)
  | polygon (points : List (K × K)) (colour : Colour K)
  deriving DecidableEq

/-- Coordinates that are drawn: `getComponents` (visualizer.cpp:288-296); the two vectors are one list of
pairs. -/
def planar (p : Point K) : K × K := (p.x, p.y)

/-- `Visualizer::linspace` (visualizer.cpp:298-305).  For `N = 1` the step is a division by 0: infinite or NaN,
and `min + 0 * h` is NaN. -/
def linspace (lo hi : K) (n : Nat) : List (Option K) :=
  if n = 1 then [none]
  else (List.range n).map fun (i : Nat) => some (lo + (i : K) * ((hi - lo) / ((n : K) - 1)))

/-- One row of `color_linspace` (visualizer.cpp:313-318). -/
def row (r g b : List (Option K)) (i : Nat) : Colour K :=
  [r[i]?.join, g[i]?.join, b[i]?.join].map fun c => c.map fun v => v / 255

/-- A colour of the palettes: three integers. -/
structure Rgb where
  r : Int
  g : Int
  b : Int

/-- `Visualizer::color_linspace` (visualizer.cpp:307-319). -/
def colorLinspace (lo hi : Rgb) (n : Nat) : List (Colour K) :=
  (List.range n).map (row (linspace (lo.r : K) hi.r n) (linspace (lo.g : K) hi.g n) (linspace (lo.b : K) hi.b n))

/-- The two ends of the default colours (visualizer.cpp:58-59, 72-73, 183-184). -/
def green : Rgb := ⟨0, 255, 0⟩
def dark : Rgb := ⟨21, 15, 11⟩

/-- Colours used: those given, or the default ones if none are given (visualizer.cpp:55-61, 69-75, 180-186). -/
def coloursFor (given : List (Colour K)) (n : Nat) : List (Colour K) :=
  if given.isEmpty then colorLinspace green dark n else given

/-- `Visualizer::plot(x, y, color)` (visualizer.cpp:23-32): a colour of more than three components is written
beyond the end of an array. -/
def point (p : Point K) (colour : Colour K) : Outcome (List (Draw K)) :=
  if colour.length ≥ 3 then
    if colour.length > 3 then .ub "write beyond the end of an array"
    else .ok [.marker (planar p) colour]
  else .ok [.marker (planar p) []]

/-- `Visualizer::plot(const F2CLineString&, color)` (visualizer.cpp:100-108) and, the ring being copied to a
line, `plot(const F2CLinearRing&, color)` (visualizer.cpp:124-127). -/
def line (l : List (Point K)) (colour : Colour K) : List (Draw K) :=
  [.line (l.map planar) (if colour.length ≥ 3 then colour else [])]

/-- `Visualizer::plot(const F2CSwath&, color)` (visualizer.cpp:38-51). -/
def swath (s : Swath K) (colour : Colour K) : List (Draw K) :=
  match s.path.reverse with
  | b :: a :: _ => line s.path colour ++ [.arrow (planar a) (planar b) colour]
  | _ => []

/-- Loop of `plot(const F2CSwaths&)` (visualizer.cpp:62-64). -/
def swathsLoop : Swaths K → List (Colour K) → Outcome (List (Draw K))
  | [], _ => .ok []
  | _ :: _, [] => .ub "colors[i]"
  | s :: l, c :: cs => do
    let d ← swathsLoop l cs
    return swath s c ++ d

/-- `Visualizer::plot(const F2CSwaths&, color)` (visualizer.cpp:53-65). -/
def swaths (l : Swaths K) (given : List (Colour K)) : Outcome (List (Draw K)) :=
  swathsLoop l (coloursFor given l.length)

/-- Loop of `plot(const F2CSwathsByCells&)` (visualizer.cpp:76-78), `n` rounds from `i` on. -/
def cellsLoop (d : SwathsByCells K) (colours : List (Colour K)) : Nat → Nat → Outcome (List (Draw K))
  | 0, _ => .ok []
  | n + 1, i => do
    let s ← d.getSwath i
    match colours[i]? with
    | none => .ub "colors[i]"
    | some c => do
      let rest ← cellsLoop d colours n (i + 1)
      return swath s c ++ rest

/-- `Visualizer::plot(const F2CSwathsByCells&, color)` (visualizer.cpp:67-79). -/
def swathsByCells (d : SwathsByCells K) (given : List (Colour K)) : Outcome (List (Draw K)) :=
  cellsLoop d (coloursFor given d.sizeTotal) d.sizeTotal 0

/-- `color_palette` (visualizer.cpp:83-90). -/
def palette : List Rgb :=
  [⟨0, 255, 0⟩, ⟨15, 21, 11⟩, ⟨255, 0, 0⟩, ⟨21, 15, 11⟩, ⟨0, 0, 255⟩, ⟨11, 15, 21⟩,
   ⟨255, 0, 255⟩, ⟨21, 15, 21⟩, ⟨0, 255, 255⟩, ⟨0, 21, 21⟩, ⟨255, 255, 0⟩, ⟨21, 21, 0⟩]

/-- Loop of `plot(const std::vector<F2CSwathsByCells>&)` (visualizer.cpp:92-97), from `i` on. -/
def vectorLoop : List (SwathsByCells K) → Nat → Outcome (List (Draw K))
  | [], _ => .ok []
  | d :: ds, i => do
    let lo ← match palette[2 * i % palette.length]? with
      | some c => Outcome.ok c
      | none => .ub "color_palette"
    let hi ← match palette[(2 * i + 1) % palette.length]? with
      | some c => Outcome.ok c
      | none => .ub "color_palette"
    let a ← swathsByCells d (colorLinspace lo hi d.sizeTotal)
    let b ← vectorLoop ds (i + 1)
    return a ++ b

/-- `Visualizer::plot(const std::vector<F2CSwathsByCells>&, color)` (visualizer.cpp:81-98); the colours given
are not used. -/
def vectorOfCells (ds : List (SwathsByCells K)) (_given : List (Colour K)) : Outcome (List (Draw K)) :=
  vectorLoop ds 0

/-- `Visualizer::plot(const F2CMultiPoint&, color)` (visualizer.cpp:110-115). -/
def multiPoint : List (Point K) → Colour K → Outcome (List (Draw K))
  | [], _ => .ok []
  | p :: l, colour => do
    let d ← point p colour
    let ds ← multiPoint l colour
    return d ++ ds

/-- `Visualizer::plot(const F2CMultiLineString&, color)` (visualizer.cpp:117-122); nothing if all lines are
empty. -/
def multiLine (ls : List (List (Point K))) (colour : Colour K) : List (Draw K) :=
  (ls.take (linesOps.size ls)).flatMap fun l => line l colour

/-- `Visualizer::plot(const F2CCell&, color)` (visualizer.cpp:129-134). -/
def cell (c : Cell K) (colour : Colour K) : List (Draw K) :=
  (c.take (cellOps.size c)).flatMap fun r => line r colour

/-- `Visualizer::plot(const F2CCells&, color)` (visualizer.cpp:136-141) and `plot(const F2CField&, color)`
(visualizer.cpp:196-199). -/
def cells (cs : Cells K) (colour : Colour K) : List (Draw K) :=
  (cs.take (cellsOps.size cs)).flatMap fun c => cell c colour

/-- `Visualizer::plotFilled(const F2CLinearRing&, color)` (visualizer.cpp:238-247). -/
def filledRing (r : Ring K) (colour : Colour K) : List (Draw K) := [.polygon (r.map planar) colour]

/-- `Visualizer::plotFilled(const F2CCell&, color)` (visualizer.cpp:221-224): the border of a cell without
rings is a null pointer (Cell.cpp:132-134). -/
def filledBorder (c : Cell K) (colour : Colour K) : Outcome (List (Draw K)) :=
  match c with
  | [] => .ub "null pointer"
  | r :: _ => .ok (filledRing r colour)

/-- `Visualizer::plotFilled(const F2CCell&, poly_color, holes_color)` (visualizer.cpp:226-236). -/
def filledCell (c : Cell K) (poly holes : Colour K) : List (Draw K) :=
  if cellOps.size c < 1 then []
  else match c with
    | [] => []
    | r :: hs => filledRing r poly ++ hs.flatMap fun h => filledRing h holes

/-- `Visualizer::plotFilled(const F2CCells&, poly_color, holes_color)` (visualizer.cpp:213-219). -/
def filledCells (cs : Cells K) (poly holes : Colour K) : List (Draw K) :=
  (cs.take (cellsOps.size cs)).flatMap fun c => filledCell c poly holes

/-- `Visualizer::plotFilled(const F2CCells&, poly_color)` (visualizer.cpp:206-211): white holes. -/
def filledCellsWhite (cs : Cells K) (poly : Colour K) : List (Draw K) :=
  (cs.take (cellsOps.size cs)).flatMap fun c => filledCell c poly [some 1, some 1, some 1]

/-- `Visualizer::plotFilled(const F2CField&, color)` (visualizer.cpp:200-203): calls `plot`. -/
def filledField (cs : Cells K) (colour : Colour K) : List (Draw K) := cells cs colour

/-- `Visualizer::plot(const F2CRoute&, color)` (visualizer.cpp:153-157). -/
def route (r : Route K) (given : List (Colour K)) : Outcome (List (Draw K)) := do
  let d ← swathsByCells r.groups given
  return line r.asLineString [] ++ d

/-- `Visualizer::plot(const std::vector<F2CRoute>&, color)` (visualizer.cpp:144-152). -/
def routes (rs : List (Route K)) (given : List (Colour K)) : Outcome (List (Draw K)) := do
  let d ← vectorOfCells (rs.map (·.groups)) given
  return (rs.flatMap fun r => line r.asLineString []) ++ d

/-- Loop of `plot(const F2CPath&)` (visualizer.cpp:165-178): `cur` is `X.back()`, `Y.back()`.  A state goes to
the vectors before its type and direction are compared. -/
noncomputable def sections (cur : List (ℝ × ℝ)) (type : SectionType) (dir : PathDir) : Path → List (List (ℝ × ℝ))
  | [] => [cur]
  | s :: l =>
    let cur' := cur ++ [planar s.point, planar s.atEnd]
    if s.type ≠ type ∨ s.dir ≠ dir then cur' :: sections [] s.type s.dir l
    else sections cur' type dir l

/-- Last loop of `plot(const F2CPath&)` (visualizer.cpp:188-193). -/
def linesLoop : List (List (K × K)) → List (Colour K) → Outcome (List (Draw K))
  | [], _ => .ok []
  | _ :: _, [] => .ub "colors[i]"
  | x :: xs, c :: cs => do
    let d ← linesLoop xs cs
    return .line x c :: d

/-- `Visualizer::plot(const F2CPath&, color)` (visualizer.cpp:159-194). -/
noncomputable def path (p : Path) (given : List (Colour ℝ)) : Outcome (List (Draw ℝ)) :=
  match p with
  | s :: _ :: _ =>
    let x := sections [] s.type s.dir p
    linesLoop x (coloursFor given x.length)
  | _ => .ok []

end F2C.Vis
