import Mathlib.Algebra.Order.Floor.Ring
import Verif.Model.FieldObj

/-!
# Import of GeoJSON files

`src/fields2cover/utils/parser.cpp:81-152`.  The text has been parsed (`json::parse`); what is modelled is
the access to the parsed value.  The behaviour of `nlohmann::json` follows its documentation, its source is
not part of the repository.  `json::type_error` is represented by `runtimeError`.
-/

namespace F2C

open Text

/-- A parsed JSON value, `nlohmann::json` (parser.cpp:13).  Numbers without fraction are kept as integers. -/
inductive Json (K : Type)
  | null
  | bool (b : Bool)
  | int (n : Int)
  | real (x : K)
  | str (s : Str)
  | arr (l : List (Json K))
  | obj (l : List (Str × Json K))

namespace Json

variable {K : Type}

/-- `operator[](key)` of a constant value (parser.cpp:99): a missing key is undefined behaviour, anything
but an object throws. -/
def at' (j : Json K) (key : Str) : Outcome (Json K) :=
  match j with
  | obj l => match l.lookup key with
    | some v => .ok v
    | none => .ub "missing key of a constant json value"
  | _ => .throw .runtimeError

/-- `operator[](key)` of a value that may be changed (parser.cpp:111, 114, 122, 129, 131, 135, 136, 145,
147): a missing key is added with the value null, and null becomes an object.  The changed document is not
used afterwards. -/
def sub (j : Json K) (key : Str) : Outcome (Json K) :=
  match j with
  | obj l => .ok ((l.lookup key).getD null)
  | null => .ok null
  | _ => .throw .runtimeError

/-- `operator[](i)` of a constant value (parser.cpp:83, 85). -/
def elem (j : Json K) (i : Nat) : Outcome (Json K) :=
  match j with
  | arr l => match l[i]? with
    | some v => .ok v
    | none => .ub "index beyond the end of a constant json array"
  | _ => .throw .runtimeError

/-- `operator[](i)` of a value that may be changed (parser.cpp:101, 122): missing elements are filled with
null. -/
def subElem (j : Json K) (i : Nat) : Outcome (Json K) :=
  match j with
  | arr l => .ok ((l[i]?).getD null)
  | null => .ok null
  | _ => .throw .runtimeError

/-- Range-based for over a value (parser.cpp:93, 111, 129, 131, 145): the elements of arrays, the values of
objects, nothing for null, and any other value itself. -/
def iter (j : Json K) : List (Json K) :=
  match j with
  | arr l => l
  | obj l => l.map Prod.snd
  | null => []
  | j => [j]

/-- `size()` (parser.cpp:82, 84, 100). -/
def size (j : Json K) : Nat := j.iter.length

/-- Conversion to `std::string` (parser.cpp:114, 147). -/
def toStr (j : Json K) : Outcome Str :=
  match j with
  | str s => .ok s
  | _ => .throw .runtimeError

variable [Field K] [LinearOrder K]

/-- Conversion to `double` (parser.cpp:83, 85, 135): numbers only. -/
def toDouble (j : Json K) : Outcome K :=
  match j with
  | int n => .ok n
  | real x => .ok x
  | _ => .throw .runtimeError

/-- Conversion to `int` (parser.cpp:136): integers keep their last 32 bits, fractions are cut off and
have to fit, booleans count as 0 and 1. -/
def toInt [FloorRing K] (j : Json K) : Outcome Int :=
  match j with
  | int n => .ok (n.bmod (2 ^ 32))
  | real x =>
    let t := if 0 ≤ x then ⌊x⌋ else ⌈x⌉
    if -2 ^ 31 ≤ t ∧ t < 2 ^ 31 then .ok t else .ub "double to int out of range"
  | bool b => .ok (if b then 1 else 0)
  | _ => .throw .runtimeError

/-- `getPointFromJson` (parser.cpp:81-88). -/
def point (ps : Json K) : Outcome (Point K) :=
  if ps.size = 3 then do
    let x ← (← ps.elem 0).toDouble
    let y ← (← ps.elem 1).toDouble
    let z ← (← ps.elem 2).toDouble
    return ⟨x, y, z⟩
  else if ps.size = 2 then do
    let x ← (← ps.elem 0).toDouble
    let y ← (← ps.elem 1).toDouble
    return ⟨x, y, 0⟩
  else .ok Point.zero

/-- The points of a ring or line (parser.cpp:91-97, 130-133). -/
def points (j : Json K) : Outcome (List (Point K)) := mapOutcome point j.iter

/-- The loop over the rings (parser.cpp:100-102), `k` of them being left and `i` the next one. -/
def rings (j : Json K) : Nat → Nat → Cell K → Outcome (Cell K)
  | 0, _, acc => .ok acc
  | k + 1, i, acc => do
    let r ← j.subElem i
    let ps ← r.points
    rings j k (i + 1) (cellOps.add acc ps)

/-- `getCellFromJson` (parser.cpp:90-104). -/
def cell (j : Json K) : Outcome (Cell K) := do
  let g ← j.at' "geometry".toList
  let c ← g.at' "coordinates".toList
  rings c c.size 0 []

/-- One turn of the loop of `Parser::importJson` (parser.cpp:111-115).  The order in which the arguments are
evaluated is not specified; here the cell comes first. -/
def field (j : Json K) : Outcome (FieldObj K) := do
  let c ← j.cell
  let n ← (← (← j.sub "properties".toList).sub "Name".toList).toStr
  FieldObj.make [c] n

/-- The loop of `Parser::importJson` (parser.cpp:111-115): the fields read so far stay in the list when a
feature fails. -/
def importFields (acc : List (FieldObj K)) : List (Json K) → List (FieldObj K) × Outcome Int
  | [] => (acc, .ok 0)
  | j :: l => match j.field with
    | .ok f => importFields (acc ++ [f]) l
    | .throw e => (acc, .throw e)
    | .ub w => (acc, .ub w)

/-- `Parser::importJson` (parser.cpp:107-117). -/
def importJson (fields : List (FieldObj K)) (doc : Json K) : List (FieldObj K) × Outcome Int :=
  match doc.sub "features".toList with
  | .ok fs => importFields fields fs.iter
  | .throw e => (fields, .throw e)
  | .ub w => (fields, .ub w)

/-- `Parser::importCellJson` (parser.cpp:119-123). -/
def importCell (doc : Json K) : Outcome (Cell K) := do
  let f ← (← doc.sub "features".toList).subElem 0
  f.cell

/-- One turn of the loop of `Parser::importSwathsJson` (parser.cpp:129-137); the type is the default
`MAINLAND` (Swaths.h).  The order of the arguments is not specified; here the width comes first. -/
def swath [FloorRing K] (j : Json K) : Outcome (Swath K) := do
  let c ← (← j.sub "geometry".toList).sub "coordinates".toList
  let line ← c.points
  let p ← j.sub "properties".toList
  let w ← (← p.sub "width".toList).toDouble
  let i ← (← p.sub "path_id".toList).toInt
  Swath.make line w i .mainland

/-- `Parser::importSwathsJson` (parser.cpp:125-139). -/
def importSwaths [FloorRing K] (doc : Json K) : Outcome (Swaths K) := do
  let fs ← doc.sub "features".toList
  mapOutcome swath fs.iter

/-- `Strip` (include/fields2cover/types/Strip.h:15-29): name and cell. -/
structure StripObj (K : Type) where
  name : Str
  cell : Cell K

/-- One turn of the loop of `Parser::importStripsJson` (parser.cpp:145-150). -/
def strip (j : Json K) : Outcome (StripObj K) := do
  let n ← (← (← j.sub "properties".toList).sub "crop_id".toList).toStr
  let c ← j.cell
  return ⟨n, c⟩

/-- `Parser::importStripsJson` (parser.cpp:141-152). -/
def importStrips (doc : Json K) : Outcome (List (StripObj K)) := do
  let fs ← doc.sub "features".toList
  mapOutcome strip fs.iter

end Json
end F2C
