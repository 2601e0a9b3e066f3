import Mathlib.Algebra.Order.Floor.Defs
import Verif.Model.Container
import Verif.Model.Path
import Verif.Model.Route
import Verif.Model.Text

/-!
# Fields and coordinate transformations

`src/fields2cover/types/Field.cpp` and `src/fields2cover/utils/transformation.cpp`.  The coordinate
transformations themselves come from PROJ: `proj a b` maps points of system `a` to system `b`; `none`
stands for a null pointer, which the code uses without a check.
-/

namespace F2C

open Text

/-- Coordinate system described by a string, as handed to GDAL by `Transform::createSptRef`
(transformation.cpp:241-269). -/
inductive SptRef
  | unset
  | epsg (code : Int)
  | utm (zone hemisphere : Str) (datum : Option Str)
  deriving DecidableEq, Repr

namespace Crs

/-- `Field::isCoordSystemUTM` (Field.cpp:90-92). -/
def isUTM (s : Str) : Bool := contains "UTM:".toList s

/-- `Field::getUTMCoordSystem` (Field.cpp:98-106). -/
def utmSystem (s notFound : Str) : Str := (search "UTM".toList utmGroup s).getD notFound

/-- `Field::getUTMDatum` (Field.cpp:108-116). -/
def utmDatum (s notFound : Str) : Str := (search "datum".toList datumGroup s).getD notFound

/-- `Field::isCoordSystemEPSG` (Field.cpp:126-128). -/
def isEPSG (s : Str) : Bool := contains "EPSG:".toList s

/-- `Field::getEPSGCoordSystem` (Field.cpp:134-137). -/
def epsg (s : Str) : Outcome Int :=
  if isEPSG s then do
    let r ← substrFrom s 5
    stoi r
  else .ok (-1)

/-- `Field::getUTMZone` (Field.cpp:164-166). -/
def utmZone (s : Str) : Outcome Str := substr (utmSystem s []) 0 2

/-- `Field::getUTMHemisphere` (Field.cpp:172-181). -/
def utmHemisphere (s : Str) : Outcome Str := do
  let h ← substr (utmSystem s []) 2 1
  if h = ['n'] ∨ h = ['N'] then return "+north".toList
  else if h = ['s'] ∨ h = ['S'] then return "+south".toList
  else return []

/-- The coordinate system set by `Field::setEPSGCoordSystem` (Field.cpp:143-145). -/
def ofEPSG (n : Int) : Str := "EPSG:".toList ++ intStr n

/-- The one set by `Field::setUTMCoordSystem(utm)` (Field.cpp:147-151); the default of `getUTMDatum` is
`etrs89` (Field.h:50). -/
def ofUTM (utm : Str) : Str :=
  "UTM:".toList ++ utmSystem utm utm ++ " datum:".toList ++ utmDatum utm "etrs89".toList

/-- The one set by `Field::setUTMCoordSystem(utm, datum)` (Field.cpp:153-158). -/
def ofUTMDatum (utm datum : Str) : Str :=
  "UTM:".toList ++ utmSystem utm utm ++ " datum:".toList ++ utmDatum datum datum

/-- `boost::iequals(s, "ETRS89")` -/
def isEtrs89 (s : Str) : Bool := s.map Char.toLower = "etrs89".toList

/-- `Transform::createSptRef` (transformation.cpp:241-269); `none` as datum stands for ETRS89. -/
def sptRef (s : Str) (failSilently : Bool) : Outcome SptRef :=
  if s = [] ∧ failSilently = false then .throw .invalidArgument
  else if isEPSG s then do
    let n ← epsg s
    return .epsg n
  else if isUTM s then do
    let z ← utmZone s
    let h ← utmHemisphere s
    let d := utmDatum s "etrs89".toList
    return .utm z h (if isEtrs89 d then none else some d)
  else if failSilently then .ok .unset
  else .throw .invalidArgument

end Crs

variable {K : Type} [Field K] [LinearOrder K]

/-- PROJ: transformation of points between coordinate systems. -/
abbrev Proj (K : Type) := SptRef → SptRef → Option (Point K → Point K)

/-- `Transform::generateCoordTransf` (transformation.cpp:12-18) and the use of its result: a missing
transformation is a null pointer. -/
def coordTransf (proj : Proj K) (src dst : Str) : Outcome (Point K → Point K) := do
  let a ← Crs.sptRef src false
  let b ← Crs.sptRef dst false
  match proj a b with
  | some f => .ok f
  | none => .ub "null pointer"

/-! ### Shifting cells -/

/-- `Cells::isEmpty`: all rings of all cells are empty. -/
def Cells.isEmpty (cs : Cells K) : Bool := cs.all cellsOps.empty

/-- `cell + p` and `cell - p` (include/fields2cover/types/Point.h:153-178): `g` is applied to every point;
rings are closed by `Cell::addGeometry` (Cell.cpp:123-130); the loop sees no rings if all are empty. -/
def mapCell (g : Point K → Point K) (c : Cell K) : Cell K :=
  if cellsOps.empty c then [] else c.map fun r => closeRing (r.map g)

/-- `cells + p` and `cells - p` (Point.h:153-178). -/
def mapCells (g : Point K → Point K) (cs : Cells K) : Cells K :=
  if Cells.isEmpty cs then [] else cs.map (mapCell g)

/-- `cells.getCellBorder(0).startPoint()` (Cells.cpp:116-119, LinearRing.cpp:113-115). -/
def Cells.firstPoint : Cells K → Outcome (Point K)
  | [] => .ub "getGeometryRef(0) is a null pointer"
  | [] :: _ => .ub "getExteriorRing() is a null pointer"
  | ([] :: _) :: _ => .throw .outOfRange
  | ((p :: _) :: _) :: _ => .ok p

/-! ### Fields -/

/-- `Field` (include/fields2cover/types/Field.h:66-71). -/
structure FieldObj (K : Type) where
  id : Str
  crs : Str
  prevCrs : Str
  ref : Point K
  cells : Cells K
  deriving DecidableEq, Repr

namespace FieldObj

/-- `Field()` (Field.cpp:12). -/
def default : FieldObj K := ⟨[], [], [], Point.zero, []⟩

/-- `Field(cells, id)` (Field.cpp:13-18). -/
def make (cells : Cells K) (id : Str) : Outcome (FieldObj K) :=
  if Cells.isEmpty cells then
    .ok ⟨id, [], [], Point.zero, mapCells (fun p => p.sub Point.zero) cells⟩
  else do
    let r ← cells.firstPoint
    return ⟨id, [], [], r, mapCells (fun p => p.sub r) cells⟩

/-- `Field::getCellsAbsPosition` (Field.cpp:160-162). -/
def absCells (f : FieldObj K) : Cells K := mapCells (fun p => p.add f.ref) f.cells

/-- `Field::clone` (Field.cpp:76-80). -/
def clone (f : FieldObj K) : Outcome (FieldObj K) := do
  let n ← make f.absCells f.id
  return { n with crs := f.crs }

/-- Setters (Field.cpp:32-34, 40-42, 48-50, 60-62, 72-74, 143-158). -/
inductive Op (K : Type)
  | setId (s : Str)
  | setCRS (s : Str)
  | setPrevCRS (s : Str)
  | setRefPoint (p : Point K)
  | setField (cs : Cells K)
  | setEPSG (n : Int)
  | setUTM (s : Str)
  | setUTMDatum (s d : Str)

/-- Effect of a setter. -/
def step (f : FieldObj K) : Op K → FieldObj K
  | .setId s => { f with id := s }
  | .setCRS s => { f with crs := s }
  | .setPrevCRS s => { f with prevCrs := s }
  | .setRefPoint p => { f with ref := p }
  | .setField cs => { f with cells := cs }
  | .setEPSG n => { f with crs := Crs.ofEPSG n }
  | .setUTM s => { f with crs := Crs.ofUTM s }
  | .setUTMDatum s d => { f with crs := Crs.ofUTMDatum s d }

end FieldObj

/-! ### Transformations -/

namespace Transform

/-- `Transform::transform(field, coord_sys_to)` (transformation.cpp:20-33).  GDAL transforms every point
of the geometry. -/
def field (proj : Proj K) (f : FieldObj K) (dst : Str) : Outcome (FieldObj K) := do
  let t ← coordTransf proj f.crs dst
  if Cells.isEmpty f.cells then
    return { f with ref := t f.ref, prevCrs := f.crs, crs := dst }
  else do
    let cs : Cells K := f.absCells.map fun c => c.map fun r => r.map t
    let r ← cs.firstPoint
    return { f with ref := r, cells := mapCells (fun p => p.sub r) cs, prevCrs := f.crs, crs := dst }

/-- `Transform::transform(field, coord_sys_to)` (transformation.cpp:20-33) once more, with the field as it is
left behind: `some e` stands for an exception that was thrown.  The absolute coordinates are stored in the
field (line 22) before the coordinate systems are looked at (line 24). -/
def inPlace (proj : Proj K) (f : FieldObj K) (dst : Str) : Outcome (FieldObj K × Option Exn) :=
  if Cells.isEmpty f.cells then
    match coordTransf proj f.crs dst with
    | .ok t => .ok ({ f with ref := t f.ref, prevCrs := f.crs, crs := dst }, none)
    | .throw e => .ok (f, some e)
    | .ub m => .ub m
  else
    let f1 := { f with cells := f.absCells }
    match coordTransf proj f.crs dst with
    | .ok t =>
      let f2 := { f with cells := f1.cells.map fun c => c.map fun r => r.map t }
      match Cells.firstPoint f2.cells with
      | .ok r => .ok ({ f2 with ref := r, cells := mapCells (fun p => p.sub r) f2.cells,
                                prevCrs := f.crs, crs := dst }, none)
      | .throw e => .ok (f2, some e)
      | .ub m => .ub m
    | .throw e => .ok (f1, some e)
    | .ub m => .ub m

/-- The part of the world where ETRS89 is used (transformation.cpp:155-158 and 170-173). -/
def inEurope (p : Point K) : Bool :=
  p.x < 3288 / 100 ∧ p.x > -161 / 10 ∧ p.y < 8473 / 100 ∧ p.y > 4018 / 100

/-- `EPSG:4326` -/
def wgs84 : Str := "EPSG:4326".toList

/-- `EPSG:4258` -/
def etrs89 : Str := "EPSG:4258".toList

/-- Number of the UTM zone (transformation.cpp:187-189); converting a negative number to `size_t` is
undefined. -/
def zone [FloorRing K] (x : K) : Outcome Nat :=
  let z : Int := ⌊(x + 180) / 6⌋ + 1
  if z < 0 then .ub "negative number to size_t" else .ok z.toNat

/-- The name of the UTM system (transformation.cpp:187-191). -/
def utmName (zone : Nat) (north etrs : Bool) : Str :=
  "UTM:".toList ++ natStr zone ++ (if north then ['N'] else ['S']) ++ " datum:".toList ++
    (if etrs then "ETRS89".toList else "WGS84".toList)

/-- First part of `transformToUTM` for a field with another coordinate system
(transformation.cpp:151-160). -/
def toGps (proj : Proj K) (f : FieldObj K) (etrsOpt : Bool) : Outcome (FieldObj K) := do
  let f ← field proj f wgs84
  if etrsOpt ∧ inEurope f.ref then field proj f etrs89 else .ok f

/-- First part for a field without coordinate system (transformation.cpp:161-185). -/
def guessGps (f : FieldObj K) (etrsOpt : Bool) : Outcome (FieldObj K) := do
  let f ← if Point.eqv f.ref ⟨0, 0, 0⟩ then f.clone else .ok f
  if Point.eqv f.ref ⟨0, 0, 0⟩ then .throw .outOfRange
  else if etrsOpt ∧ inEurope f.ref then .ok { f with crs := etrs89 }
  else if f.ref.x < 180 ∧ f.ref.x > -180 ∧ f.ref.y < 90 ∧ f.ref.y > -90 then
    .ok { f with crs := wgs84 }
  else .throw .invalidArgument

/-- `Transform::transformToUTM` (transformation.cpp:149-194). -/
def toUTM [FloorRing K] (proj : Proj K) (f : FieldObj K) (etrsOpt : Bool) : Outcome (FieldObj K) := do
  let g ←
    if f.crs ≠ [] ∧ f.crs ≠ etrs89 ∧ f.crs ≠ wgs84 then toGps proj f etrsOpt
    else if f.crs = [] then guessGps f etrsOpt
    else .ok f
  let fieldCrs := if f.crs = [] then g.crs else f.crs
  let z ← zone g.ref.x
  let h ← field proj g (utmName z (g.ref.y > 0) (g.crs = etrs89))
  return { h with prevCrs := fieldCrs }

/-- `Transform::transformToPrevCRS(field)` (transformation.cpp:197-203). -/
def toPrevCRS (proj : Proj K) (f : FieldObj K) : Outcome (FieldObj K) :=
  if f.prevCrs = [] then .throw .invalidArgument else field proj f f.prevCrs

/-- `Transform::getRefPointInGPS` (transformation.cpp:235-239): the point is a copy (Point.cpp:19). -/
def refPointInGPS (proj : Proj K) (f : FieldObj K) : Outcome (Point K) := do
  let t ← coordTransf proj f.crs wgs84
  return t f.ref

/-- `transformMultiPointWithFieldRef` (transformation.cpp:76-86). -/
def multiPoint (proj : Proj K) (mp : List (Point K)) (f : FieldObj K) (dst : Str) :
    Outcome (List (Point K)) := do
  let t ← coordTransf proj f.crs dst
  return mp.map fun p => t (p.add f.ref)

/-- `transformSwathWithFieldRef` (transformation.cpp:88-93): a new swath is built from the path, the width
and the id. -/
def swath (proj : Proj K) (s : Swath K) (f : FieldObj K) (dst : Str) : Outcome (Swath K) := do
  let t ← coordTransf proj f.crs dst
  Swath.make (s.path.map fun p => t (p.add f.ref)) s.width s.id .mainland

/-- `transformSwathsWithFieldRef` (transformation.cpp:95-103); `emplace_back` of a swath keeps it. -/
def swaths (proj : Proj K) (l : Swaths K) (f : FieldObj K) (dst : Str) : Outcome (Swaths K) :=
  mapOutcome (fun s => swath proj s f dst) l

/-- `transformSwath` (transformation.cpp:133-137). -/
def plainSwath (proj : Proj K) (s : Swath K) (src dst : Str) : Outcome (Swath K) := do
  let t ← coordTransf proj src dst
  Swath.make (s.path.map t) s.width s.id .mainland

/-- `transformSwaths` (transformation.cpp:123-131). -/
def plainSwaths (proj : Proj K) (l : Swaths K) (src dst : Str) : Outcome (Swaths K) :=
  mapOutcome (fun s => plainSwath proj s src dst) l

/-- `transformRouteWithFieldRef` (transformation.cpp:35-48). -/
def route (proj : Proj K) (r : Route K) (f : FieldObj K) (dst : Str) : Outcome (Route K) := do
  let c ← r.clone
  let _ ← coordTransf proj f.crs dst
  let gs ← mapOutcome (fun g => swaths proj g f dst) c.groups
  let cs ← mapOutcome (fun mp => multiPoint proj mp f dst) c.connections
  return ⟨cs, gs⟩

/-- A state is added at the end of the path if the last one has a length
(transformation.cpp:55-60). -/
noncomputable def withEnd (p : Path) : Path :=
  match p.getLast? with
  | none => p
  | some s => if s.len > 0 then p ++ [{ s with point := s.atEnd, len := 0 }] else p

/-- The last loop of `transformPathWithFieldRef` (transformation.cpp:67-70). -/
noncomputable def relink : Path → Path
  | s :: t :: l =>
    { s with len := pdist s.point t.point, angle := angleFromPoint (t.point.sub s.point) } ::
      relink (t :: l)
  | l => l

/-- `transformPathWithFieldRef` (transformation.cpp:50-74). -/
noncomputable def path (proj : Proj ℝ) (p : Path) (f : FieldObj ℝ) (dst : Str) : Outcome Path :=
  if List.length p < 1 then .ok p
  else do
    let t ← coordTransf proj f.crs dst
    return relink ((withEnd p).map fun s => { s with point := t (s.point.add f.ref) })

/-- `transformPath(path, from, to)` (transformation.cpp:139-147). -/
noncomputable def plainPath (proj : Proj ℝ) (p : Path) (src dst : Str) : Outcome Path := do
  let t ← coordTransf proj src dst
  return p.map fun s => { s with point := t s.point }

end Transform
end F2C
