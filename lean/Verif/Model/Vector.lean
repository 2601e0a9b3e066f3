import Verif.Model.Path
import Verif.Model.Swath

/-!
# Reading and writing the elements of paths and of collections of swaths

`Path` (`src/fields2cover/types/Path.cpp`), `Swaths` (`Swaths.cpp`) and `SwathsByCells` (`SwathsByCells.cpp`) keep
a `std::vector`; it is a list here.  `vector::operator[]` and `back` do not check their argument (undefined
behaviour), `vector::at` throws `std::out_of_range`.  Simplification: memory is never exhausted.
-/

namespace F2C

namespace Vec

variable {α : Type}

/-- `data_[i]` (Swaths.cpp:82-88, SwathsByCells.cpp:106-112, Path.cpp:14-20, 83-89).  The index of `Swaths` and
`SwathsByCells` is an `int`; a negative one becomes a huge `size_t`. -/
def get (l : List α) (i : Int) : Outcome α :=
  if i < 0 then .ub "index out of range"
  else match l[i.toNat]? with
    | some a => .ok a
    | none => .ub "index out of range"

/-- `data_.at(i)` (Swaths.cpp:70-76, SwathsByCells.cpp:66-72). -/
def at? (l : List α) (i : Nat) : Outcome α :=
  match l[i]? with
  | some a => .ok a
  | none => .throw .outOfRange

/-- `data_.back()` (Swaths.cpp:62-68, SwathsByCells.cpp:58-64, Path.cpp:91-97). -/
def back (l : List α) : Outcome α :=
  match l.getLast? with
  | some a => .ok a
  | none => .ub "back of an empty vector"

/-- `data_[i] = f(data_[i])`: an element is changed through the reference that `operator[]` returns. -/
def modify (f : α → α) (l : List α) (i : Int) : Outcome (List α) :=
  if i < 0 then .ub "index out of range"
  else match l[i.toNat]? with
    | some a => .ok (l.set i.toNat (f a))
    | none => .ub "index out of range"

/-- `for (size_t i = 0; i < size(); ++i) f(i)` for a change of element `i`: the rounds `i, i + 1, …` with `n`
rounds left. -/
def modifyFrom (f : α → α) : Nat → Nat → List α → Outcome (List α)
  | 0, _, l => .ok l
  | n + 1, i, l => do
    let l' ← modify f l i
    modifyFrom f n (i + 1) l'

/-- `std::vector<T> data_(i)` with an `int` (Swaths.cpp:13, SwathsByCells.cpp:14): `i` default elements; a negative
number becomes a huge size, for which the constructor throws `std::length_error`. -/
def ofSize (default : α) (i : Int) : Outcome (List α) :=
  if i < 0 then .throw .lengthError else .ok (List.replicate i.toNat default)

/-- `std::reverse(data_.begin(), data_.end())` (Swaths.cpp:58-60, SwathsByCells.cpp:54-56). -/
def reverse (l : List α) : List α := l.reverse

/-- `emplace_back(s)` and `push_back(s)` (Swaths.cpp:29-31, 38-40, SwathsByCells.cpp:30-36, Path.cpp:26-28). -/
def push (l : List α) (a : α) : List α := l ++ [a]

/-- The constructors from an initializer list and from a vector (Swaths.cpp:15-25, SwathsByCells.cpp:16-26):
`emplace_back` for each element. -/
def ofList (v : List α) : List α := v.foldl push []

end Vec

namespace Path

/-- `Path::getState(i)` and `operator[]` (Path.cpp:14-20, 83-89). -/
def getState (p : Path) (i : Nat) : Outcome (PathState ℝ) := Vec.get p i

/-- `Path::setState` (Path.cpp:22-24). -/
def setState (p : Path) (i : Nat) (s : PathState ℝ) : Outcome Path := Vec.modify (fun _ => s) p i

/-- `Path::addState(ps)` (Path.cpp:26-28). -/
def addState (p : Path) (s : PathState ℝ) : Path := Vec.push p s

/-- `Path::addState(p, ang, len, dir, type, vel)` (Path.cpp:30-40). -/
def addStateOf (p : Path) (pt : RPoint) (ang len : ℝ) (dir : PathDir) (type : SectionType) (vel : ℝ) : Path :=
  let ps : PathState ℝ := PathState.default
  let ps := { ps with point := pt }
  let ps := { ps with angle := ang }
  let ps := { ps with len := len }
  let ps := { ps with dir := dir }
  let ps := { ps with type := type }
  let ps := { ps with velocity := vel }
  Vec.push p ps

/-- `Path::setBackwardDir(i)` and `setForwardDir(i)` (Path.cpp:170-172, 180-182); the index is an `int`. -/
def setDir (d : PathDir) (p : Path) (i : Int) : Outcome Path := Vec.modify (fun s => { s with dir := d }) p i

/-- `Path::setSwathType(i)` and `setTurnType(i)` (Path.cpp:190-192, 200-202). -/
def setType (t : SectionType) (p : Path) (i : Int) : Outcome Path := Vec.modify (fun s => { s with type := t }) p i

/-- `Path::setBackwardDir()` and `setForwardDir()` (Path.cpp:164-168, 174-178). -/
def setDirAll (d : PathDir) (p : Path) : Outcome Path :=
  Vec.modifyFrom (fun s => { s with dir := d }) p.length 0 p

/-- `Path::setSwathType()` and `setTurnType()` (Path.cpp:184-188, 194-198). -/
def setTypeAll (t : SectionType) (p : Path) : Outcome Path :=
  Vec.modifyFrom (fun s => { s with type := t }) p.length 0 p

end Path

namespace Swaths

variable {K : Type} [Field K] [LinearOrder K]

/-- `Swaths::emplace_back(line, w, id, type)` (Swaths.cpp:33-36): constructs the swath, whose width is checked. -/
def emplace (l : Swaths K) (line : List (Point K)) (w : K) (id : Int) (t : SwathType) : Outcome (Swaths K) := do
  let s ← Swath.make line w id t
  return l ++ [s]

/-- `Swaths::append(line, poly, width, type)` and the overloads for several lines and cells
(Swaths.cpp:101-119).  `inside` is the result of `getLinesInside` (Cell.cpp:176-182, Cells.cpp:208-214). -/
def appendInside (l : Swaths K) (inside : List (List (Point K))) (w : K) (t : SwathType) : Outcome (Swaths K) :=
  appendLines l inside w t

/-- `Swaths::append(const Swaths&)` (Swaths.cpp:121-125) for another object (see `SwathsRef.append`). -/
def appendSwaths (l m : Swaths K) : Swaths K := m.foldl Vec.push l

end Swaths

namespace SwathsByCells

variable {K : Type} [Field K] [LinearOrder K]

/-- `SwathsByCells::clone` (SwathsByCells.cpp:114-120). -/
def clone : SwathsByCells K → Outcome (SwathsByCells K)
  | [] => .ok []
  | g :: gs => do
    let g' ← Swaths.clone g
    let gs' ← clone gs
    return g' :: gs'

end SwathsByCells
end F2C
