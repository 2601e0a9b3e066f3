import Verif.Model.Point

/-!
# Swaths

`src/fields2cover/types/Swath.cpp`, `src/fields2cover/types/Swaths.cpp`,
`src/fields2cover/types/SwathsByCells.cpp`.  By-value model (sharing of the path between copies
is modelled separately).
-/

namespace F2C

/-- `SwathType` (include/fields2cover/types/Swath.h:21). -/
inductive SwathType
  | mainland
  | headland
  deriving DecidableEq, Repr

/-- `Swath` (include/fields2cover/types/Swath.h:97-102): the five data members. -/
structure Swath (K : Type) where
  id : Int
  path : List (Point K)
  width : K
  creationDir : Bool
  type : SwathType
  deriving DecidableEq, Repr

namespace Swath

variable {K : Type} [Field K] [LinearOrder K]

/-- Default constructed swath: member initialisers, Swath.h:98-102. -/
def default : Swath K := ⟨0, [], 0, true, .mainland⟩

/-- `Swath::setWidth` (Swath.cpp:171-176): throws on non-positive widths. -/
def setWidth (s : Swath K) (w : K) : Outcome (Swath K) :=
  if 0 ≥ w then .throw .invalidArgument else .ok { s with width := w }

/-- `Swath(path, width, id, type)` (Swath.cpp:18-21). -/
def make (path : List (Point K)) (width : K) (id : Int) (type : SwathType) :
    Outcome (Swath K) :=
  setWidth { (default : Swath K) with id := id, path := path, type := type } width

/-- `Swath::reverse` (Swath.cpp:72-75). -/
def reverse (s : Swath K) : Swath K :=
  { s with path := s.path.reverse, creationDir := !s.creationDir }

/-- `Swath::startPoint` (Swath.cpp:92-97). -/
def startPoint (s : Swath K) : Point K := s.path.head?.getD Point.zero

/-- `Swath::endPoint` (Swath.cpp:99-104). -/
def endPoint (s : Swath K) : Point K := s.path.getLast?.getD Point.zero

/-- `Swath::clone` (Swath.cpp:117-121): rebuilt with path, width and id (type not passed), then
the creation direction is copied. -/
def clone (s : Swath K) : Outcome (Swath K) := do
  let n ← make s.path s.width s.id .mainland
  return { n with creationDir := s.creationDir }

/-- `Swath::hasSameDir` (Swath.cpp:123-125). -/
def hasSameDir (a b : Swath K) : Bool := b.creationDir == a.creationDir

/-- `Swath::targetSameDirAs` (Swath.cpp:127-131). -/
def targetSameDirAs (a b : Swath K) : Swath K :=
  if a.hasSameDir b then a else a.reverse

/-- `Swath::targetOppositeDirAs` (Swath.cpp:133-137). -/
def targetOppositeDirAs (a b : Swath K) : Swath K :=
  if a.hasSameDir b then a.reverse else a

/-- `Swath::operator<` (Swath.cpp:42-44). -/
def ltId (a b : Swath K) : Bool := decide (a.id < b.id)

/-- `Swath::operator>` (Swath.cpp:46-48). -/
def gtId (a b : Swath K) : Bool := decide (a.id > b.id)

end Swath

/-- `Swaths` (include/fields2cover/types/Swaths.h): a vector of swaths. -/
abbrev Swaths (K : Type) := List (Swath K)

/-- `SwathsByCells` (include/fields2cover/types/SwathsByCells.h): a vector of `Swaths`. -/
abbrev SwathsByCells (K : Type) := List (Swaths K)

namespace Swaths

variable {K : Type} [Field K] [LinearOrder K]

/-- `Swaths::clone` (Swaths.cpp:142-148). -/
def clone : Swaths K → Outcome (Swaths K)
  | [] => .ok []
  | s :: l => do
    let s' ← s.clone
    let l' ← clone l
    return s' :: l'

/-- First loop of `Swaths::sort` (Swaths.cpp:128-132): every swath whose end is smaller than its
start is reversed. -/
def orient (l : Swaths K) : Swaths K :=
  l.map fun s => if s.endPoint.lt s.startPoint then s.reverse else s

/-- `Swaths::sort` (Swaths.cpp:127-134).  `std::sort` is unstable, so the sorting function is a
parameter; theorems assume `IsStdSort`. -/
def sort (stdSort : Swaths K → Swaths K) (l : Swaths K) : Swaths K := stdSort (orient l)

/-- What the C++ standard guarantees about `std::sort` with `Swath::operator<` (ids). -/
structure IsStdSort (f : Swaths K → Swaths K) : Prop where
  perm : ∀ l, (f l).Perm l
  sorted : ∀ l, (f l).Pairwise fun a b => ¬ b.id < a.id

/-- Loop of `Swaths::reverseDirOddSwaths` from the second element on; `prev` is the element
before (already treated). -/
def reverseDirFrom (prev : Swath K) : Swaths K → Swaths K
  | [] => []
  | s :: l => s.targetOppositeDirAs prev :: reverseDirFrom (s.targetOppositeDirAs prev) l

/-- `Swaths::reverseDirOddSwaths` (Swaths.cpp:136-140). -/
def reverseDirOddSwaths : Swaths K → Swaths K
  | [] => []
  | s :: l => s :: reverseDirFrom s l

/-- `Swaths::append(line, width, type)` (Swaths.cpp:90-92): the id is the current size. -/
def appendLine (l : Swaths K) (line : List (Point K)) (w : K) (t : SwathType) :
    Outcome (Swaths K) := do
  let s ← Swath.make line w l.length t
  return l ++ [s]

/-- The loop of `Swaths::append(lines, width, type)` (Swaths.cpp:96-98). -/
def appendEach (l : Swaths K) (lines : List (List (Point K))) (w : K) (t : SwathType) :
    Outcome (Swaths K) :=
  match lines with
  | [] => .ok l
  | p :: ps => do
    let l' ← appendLine l p w t
    appendEach l' ps w t

/-- `Swaths::append(lines, width, type)` (Swaths.cpp:94-99).  The loop runs up to `size()`, which is 0 if all
lines are empty (MultiLineString.cpp:31-33). -/
def appendLines (l : Swaths K) (lines : List (List (Point K))) (w : K) (t : SwathType) :
    Outcome (Swaths K) :=
  appendEach l (if lines.all List.isEmpty then [] else lines) w t

end Swaths

namespace SwathsByCells

variable {K : Type}

/-- The while loop of `SwathsByCells::getSwath` (SwathsByCells.cpp:74-94), from cell `c` on: the
head of the list is `data_.at(j)`; `at` past the end throws `out_of_range`. -/
def getSwath : SwathsByCells K → Nat → Outcome (Swath K)
  | [], _ => .throw .outOfRange
  | c :: cs, i =>
    if i ≥ c.length then getSwath cs (i - c.length)
    else match c[i]? with
      | some s => .ok s
      | none => .throw .outOfRange

/-- `SwathsByCells::sizeTotal` (SwathsByCells.cpp:100-104).  Simplification: the `int`
accumulator is a natural number (fewer than 2^31 swaths). -/
def sizeTotal (d : SwathsByCells K) : Nat := d.foldl (fun a b => a + b.length) 0

/-- `SwathsByCells::flatten` (SwathsByCells.cpp:122-128) with `Swaths::append(Swaths)`
(Swaths.cpp:121-125). -/
def flatten (d : SwathsByCells K) : Swaths K := d.foldl (fun acc s => acc ++ s) []

end SwathsByCells
end F2C
