import Verif.Model.Outcome

/-!
# Moving objects that hold points

`src/fields2cover/types/Point.cpp:19-35`; path states (include/fields2cover/types/PathState.h:27-34) and fields
(src/fields2cover/types/Field.cpp:20-24) have points as members and defaulted copy and move operations.
-/

namespace F2C.Moves

/-- An object of such a type: with its value; with its point, but with other members taken away by a move
assignment; or with the null pointer that a move construction leaves in its point. -/
inductive Obj (V : Type)
  | full (v : V)
  | drained
  | hollow
  deriving DecidableEq, Repr

variable {V : Type}

/-- Reading all members: null pointers are dereferenced by `Point::X` and the like (Point.cpp:92-97), and by the
methods of the cells of a field whose pointer was taken. -/
def Obj.read : Obj V → Outcome V
  | .full v => .ok v
  | .drained => .ub "null pointer"
  | .hollow => .ub "null pointer"

/-- Copy constructor: `Point(const Point& p) : Geometry(p.clone())` (Point.cpp:19, 88-90) reads the coordinates;
null pointers of the other members are copied. -/
def Obj.copy : Obj V → Outcome (Obj V)
  | .full v => .ok (.full v)
  | .drained => .ok .drained
  | .hollow => .ub "null pointer"

/-- Move constructor (Point.cpp:20, Field.cpp:22): takes the pointers; the second component is what remains. -/
def Obj.move (o : Obj V) : Obj V × Obj V := (o, .hollow)

/-- `operator=(const Point&)` (Point.cpp:30-35) copies the coordinates: it reads the point of the source and sets
those of the point of the target (Point.cpp:99-101).  Other members are replaced, null or not (Field.cpp:24). -/
def copyAssign (target source : Obj V) : Outcome (Obj V) := do
  let s ← source.copy
  match target with
  | .hollow => .ub "null pointer"
  | _ => .ok s

/-- `operator=(Point&&)` (Point.cpp:23-28) copies the coordinates too.  If the type has other members that are
taken away (`taken`; a field, Field.cpp:23, but neither a point nor a path state), what remains must not be read.
The pair is the target and what remains. -/
def moveAssign (taken : Bool) (target source : Obj V) : Outcome (Obj V × Obj V) := do
  let t ← copyAssign target source
  return (t, if taken then .drained else source)

/-- An object of the vector; positions outside are undefined behaviour. -/
def at' (l : List (Obj V)) (i : Nat) : Outcome (Obj V) :=
  match l[i]? with
  | some o => .ok o
  | none => .ub "out of range"

/-- `v[i] = std::move(v[j])`.  For `i = j` the members that are taken away are left unspecified by the standard
library. -/
def moveWithin (taken : Bool) (l : List (Obj V)) (i j : Nat) : Outcome (List (Obj V)) := do
  let a ← at' l i
  let b ← at' l j
  let (a', b') ← moveAssign taken a b
  return (l.set i a').set j b'

/-- `std::swap(v[i], v[j])` as the standard defines it for types without an own one:
`T tmp = std::move(a); a = std::move(b); b = std::move(tmp);`. -/
def swap (taken : Bool) (l : List (Obj V)) (i j : Nat) : Outcome (List (Obj V)) := do
  let a ← at' l i
  let (tmp, rest) := a.move
  let l₁ := l.set i rest
  let l₂ ← moveWithin taken l₁ i j
  let b ← at' l₂ j
  let (b', _) ← moveAssign taken b tmp
  return l₂.set j b'

/-- `std::reverse(v.begin(), v.end())`: swaps position `i` with its counterpart, for `k` positions from `i`
on. -/
def reverseFrom (taken : Bool) : Nat → Nat → List (Obj V) → Outcome (List (Obj V))
  | 0, _, l => .ok l
  | k + 1, i, l => do
    let l' ← swap taken l i (l.length - 1 - i)
    reverseFrom taken k (i + 1) l'

/-- `std::reverse` of the whole vector. -/
def reverse (taken : Bool) (l : List (Obj V)) : Outcome (List (Obj V)) := reverseFrom taken (l.length / 2) 0 l

/-- The move assignments of `v.erase(v.begin() + i)`, for `k` positions from `i` on. -/
def shift (taken : Bool) : Nat → Nat → List (Obj V) → Outcome (List (Obj V))
  | 0, _, l => .ok l
  | k + 1, i, l => do
    let l' ← moveWithin taken l i (i + 1)
    shift taken k (i + 1) l'

/-- `v.erase(v.begin() + i)`: the elements behind are moved down, the last one is destroyed. -/
def erase (taken : Bool) (l : List (Obj V)) (i : Nat) : Outcome (List (Obj V)) :=
  if i < l.length then do
    let l' ← shift taken (l.length - 1 - i) i l
    return l'.dropLast
  else .ub "out of range"

/-- Statements on the variables of a program; `write i v` stands for the assignment of a new object with value `v`,
or for `setPoint` (Point.cpp:103-119). -/
inductive Op (V : Type)
  | make (v : V)
  | copyNew (i : Nat)
  | moveNew (i : Nat)
  | copyTo (i j : Nat)
  | moveTo (i j : Nat)
  | write (i : Nat) (v : V)
  | read (i : Nat)
  | swap (i j : Nat)

/-- Effect of a statement on the list of variables; new variables are added at the end. -/
def step (taken : Bool) (l : List (Obj V)) : Op V → Outcome (List (Obj V))
  | .make v => .ok (l ++ [.full v])
  | .copyNew i => do
    let a ← at' l i
    let b ← a.copy
    return l ++ [b]
  | .moveNew i => do
    let a ← at' l i
    let (b, rest) := a.move
    return l.set i rest ++ [b]
  | .copyTo i j => do
    let a ← at' l i
    let b ← at' l j
    let a' ← copyAssign a b
    return l.set i a'
  | .moveTo i j => moveWithin taken l i j
  | .write i v => do
    let a ← at' l i
    let a' ← copyAssign a (.full v)
    return l.set i a'
  | .read i => do
    let a ← at' l i
    let _ ← a.read
    return l
  | .swap i j => Moves.swap taken l i j

/-- A program. -/
def run (taken : Bool) (l : List (Obj V)) : List (Op V) → Outcome (List (Obj V))
  | [] => .ok l
  | o :: os => do
    let l' ← step taken l o
    run taken l' os

end F2C.Moves
