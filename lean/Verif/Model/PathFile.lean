import Verif.Model.Path

/-!
# Saving and loading a path (src/fields2cover/types/Path.cpp)

A file is the list of its characters; opening, writing and closing it is taken to succeed.  Printing
and reading a `double` (`operator<<` with a precision, `operator>>`) is a parameter.
-/

namespace F2C

/-- Printing and reading of numbers: `to_string(double, precision)` (Path.cpp:274-280) and
`in >> x` for one word (Path.cpp:333).  Simplification: a word that is not a number as a whole is
not read at all. -/
structure NumIO where
  print : Nat → ℝ → List Char
  parse : List Char → Option ℝ

namespace PathFile

/-- `static_cast<int>(dir)` (PathState.h:21-25). -/
def dirNum : PathDir → ℝ
  | .forward => 1
  | .backward => -1

/-- `static_cast<int>(type)` (PathState.h:14-18). -/
def typeNum : SectionType → ℝ
  | .swath => 1
  | .turn => 2
  | .hlSwath => 3

/-- `static_cast<PathDirection>(double)` (Path.cpp:339), which cuts off the fraction (the enumeration has the underlying type `int`,
PathState.h:21-25).  Simplification: a value that is not an enumerator, which C++ allows if it fits into `int`, is reported as
undefined behaviour, because the states of the model have only the named directions. -/
noncomputable def toDir (v : ℝ) : Outcome PathDir :=
  if 1 ≤ v ∧ v < 2 then .ok .forward else if -2 < v ∧ v ≤ -1 then .ok .backward else .ub "not a PathDirection"

/-- `static_cast<PathSectionType>(double)` (Path.cpp:340, PathState.h:15-19), same simplification. -/
noncomputable def toType (v : ℝ) : Outcome SectionType :=
  if 1 ≤ v ∧ v < 2 then .ok .swath else if 2 ≤ v ∧ v < 3 then .ok .turn else if 3 ≤ v ∧ v < 4 then .ok .hlSwath
  else .ub "not a PathSectionType"

/-- The words of one line of `serializePath` (Path.cpp:288-295). -/
noncomputable def stateWords (io : NumIO) (prec : Nat) (s : PathState ℝ) : List (List Char) :=
  [io.print prec s.point.x, io.print prec s.point.y, io.print prec s.point.z, io.print prec s.angle,
   io.print prec s.velocity, io.print prec s.len, io.print 6 (dirNum s.dir),
   io.print 6 (typeNum s.type)]

/-- Words with a blank between them and a line break at the end. -/
def line : List (List Char) → List Char
  | [] => ['\n']
  | [w] => w ++ ['\n']
  | w :: ws => w ++ ' ' :: line ws

/-- `Path::serializePath` (Path.cpp:283-298), what `saveToFile` writes (Path.cpp:324-328). -/
noncomputable def serialize (io : NumIO) (prec : Nat) (p : Path) : List Char :=
  p.flatMap fun s => line (stateWords io prec s)

/-- The words of a text, separated by white space (`operator>>` skips leading white space); `cur` is
the beginning of the current word, reversed. -/
def words (cur : List Char) : List Char → List (List Char)
  | [] => if cur = [] then [] else [cur.reverse]
  | c :: cs =>
    if c = ' ' ∨ c = '\n' then
      if cur = [] then words [] cs else cur.reverse :: words [] cs
    else words (c :: cur) cs

/-- The loop of `loadFile` (Path.cpp:333-342): eight numbers per state, until one cannot be read. -/
noncomputable def readStates (io : NumIO) : List (List Char) → Outcome Path
  | a :: b :: c :: d :: e :: f :: g :: h :: rest =>
    match io.parse a, io.parse b, io.parse c, io.parse d, io.parse e, io.parse f, io.parse g,
      io.parse h with
    | some x, some y, some z, some ang, some vel, some len, some dir, some ty => do
      let dir' ← toDir dir
      let ty' ← toType ty
      let q ← readStates io rest
      return ⟨⟨x, y, z⟩, ang, len, dir', ty', vel⟩ :: q
    | _, _, _, _, _, _, _, _ => .ok []
  | _ => .ok []

/-- `Path::loadFile` (Path.cpp:330-344): the states are appended. -/
noncomputable def load (io : NumIO) (p : Path) (text : List Char) : Outcome Path := do
  let q ← readStates io (words [] text)
  return p ++ q

end PathFile

end F2C
