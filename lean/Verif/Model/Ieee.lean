import Verif.Model.DoublePath

/-!
# Infinities and NaN

The other models of `double` have neither infinities nor values that are not numbers.  Here the functions that check or compare
arguments of type `double` are written for all values: the checks of `Robot::Robot` and `Swath::setWidth`
(`src/fields2cover/types/Robot.cpp:12-23`, `Swath.cpp:171-176`), the tracks (`swath_generator/swath_generator_base.cpp:51-57`),
`BruteForce::computeBestAngle` (`swath_generator/brute_force.cpp:26-47`), `Path::length`, `Path::at` and
`Path::discretizeSwath` (`types/Path.cpp:205-208, 225-250, 305-322`), and the comparison of points (`types/Point.cpp:42-46`).
-/

namespace F2C.Ieee

/-- A value of type `double` (IEEE 754): not a number, infinite, or a number.  Simplification: zero has no sign, so that the
sign of a number divided by zero is not modelled; it does not matter in the functions below. -/
inductive Flt where
  | nan
  | ninf
  | fin (x : ℝ)
  | pinf

namespace Flt

/-- `a < b`: false if one of them is not a number. -/
def lt : Flt → Flt → Prop
  | nan, _ => False
  | _, nan => False
  | ninf, ninf => False
  | ninf, _ => True
  | _, ninf => False
  | pinf, _ => False
  | fin _, pinf => True
  | fin a, fin b => a < b

/-- `a <= b`: false if one of them is not a number. -/
def le : Flt → Flt → Prop
  | nan, _ => False
  | _, nan => False
  | ninf, _ => True
  | _, pinf => True
  | fin a, fin b => a ≤ b
  | pinf, _ => False
  | fin _, ninf => False

/-- Numbers of at least this size are rounded to infinity: half way from the largest `double` to 2^1024. -/
def huge : ℝ := 2 ^ 1024 - 2 ^ 970

/-- Rounding of the exact result of an operation; `fl` rounds as if there were no largest number. -/
noncomputable def rnd (fl : ℝ → ℝ) (x : ℝ) : Flt :=
  if huge ≤ x then pinf else if x ≤ -huge then ninf else fin (fl x)

/-- `-a` -/
def neg : Flt → Flt
  | nan => nan
  | ninf => pinf
  | pinf => ninf
  | fin a => fin (-a)

/-- `fabs(a)` -/
noncomputable def abs : Flt → Flt
  | nan => nan
  | ninf => pinf
  | pinf => pinf
  | fin a => fin |a|

/-- `a + b` -/
noncomputable def add (fl : ℝ → ℝ) : Flt → Flt → Flt
  | nan, _ => nan
  | _, nan => nan
  | ninf, pinf => nan
  | pinf, ninf => nan
  | ninf, _ => ninf
  | _, ninf => ninf
  | pinf, _ => pinf
  | _, pinf => pinf
  | fin a, fin b => rnd fl (a + b)

/-- `a - b` -/
noncomputable def sub (fl : ℝ → ℝ) (a b : Flt) : Flt := add fl a (neg b)

/-- Infinity with the sign of the number, NaN for 0. -/
noncomputable def signed (s : ℝ) : Flt := if 0 < s then pinf else if s < 0 then ninf else nan

/-- `a * b` -/
noncomputable def mul (fl : ℝ → ℝ) : Flt → Flt → Flt
  | nan, _ => nan
  | _, nan => nan
  | fin a, fin b => rnd fl (a * b)
  | fin a, pinf => signed a
  | fin a, ninf => signed (-a)
  | pinf, fin b => signed b
  | ninf, fin b => signed (-b)
  | pinf, pinf => pinf
  | ninf, ninf => pinf
  | pinf, ninf => ninf
  | ninf, pinf => ninf

/-- `a / b`; the sign of a zero `b` is taken to be positive. -/
noncomputable def div (fl : ℝ → ℝ) : Flt → Flt → Flt
  | nan, _ => nan
  | _, nan => nan
  | fin a, fin b => if b = 0 then signed a else rnd fl (a / b)
  | fin _, pinf => fin 0
  | fin _, ninf => fin 0
  | pinf, fin b => if b < 0 then ninf else pinf
  | ninf, fin b => if b < 0 then pinf else ninf
  | _, _ => nan

open Classical in
/-- `std::max(a, b)`: the first unless it is less than the second. -/
noncomputable def max (a b : Flt) : Flt := if lt a b then b else a

/-- A function of the C library with one argument, which is not a number for infinities. -/
def lift (f : ℝ → ℝ) : Flt → Flt
  | fin x => fin (f x)
  | _ => nan

/-- `std::round(a)` -/
noncomputable def round : Flt → Flt
  | fin x => fin (cround x)
  | a => a

/-- Conversion to `int`: undefined unless the number without its fraction is one. -/
noncomputable def toInt : Flt → Outcome ℤ
  | fin x =>
    let t := if 0 ≤ x then ⌊x⌋ else ⌈x⌉
    if -2 ^ 31 ≤ t ∧ t < 2 ^ 31 then .ok t else .ub "conversion to int"
  | _ => .ub "conversion to int"

end Flt

open Flt

/-- The members of `Robot` that the constructor is given (include/fields2cover/types/Robot.h:62-80). -/
structure Robot where
  width : Flt
  covWidth : Flt
  maxCurv : Flt
  diffCurv : Flt

open Classical in
/-- `Robot::Robot` (Robot.cpp:12-23). -/
noncomputable def Robot.make (width covWidth maxCurv diffCurv : Flt) : Outcome Robot :=
  if le width (fin 0) ∨ lt covWidth (fin 0) then .throw .outOfRange
  else .ok ⟨width, if covWidth = fin 0 then width else covWidth, maxCurv, diffCurv⟩

open Classical in
/-- `Swath::setWidth` (Swath.cpp:171-176): the new width. -/
noncomputable def setWidth (w : Flt) : Outcome Flt :=
  if le w (fin 0) then .throw .invalidArgument else .ok w

open Classical in
/-- The loop that places the tracks (swath_generator_base.cpp:53-57); compare `Dbl.trackLoop`. -/
noncomputable def trackLoop (fl : ℝ → ℝ) (height w slack : Flt) : Nat → Flt → Outcome (List Flt)
  | 0, y => if lt (add fl y slack) height then .ub "endless loop" else .ok []
  | fuel + 1, y =>
    if lt (add fl y slack) height then do
      let rest ← trackLoop fl height w slack fuel (add fl y w)
      return add fl y w :: rest
    else .ok []

/-- The offsets of all tracks (swath_generator_base.cpp:51-57), if the loop ends after `fuel` rounds. -/
noncomputable def trackOffsets (fl : ℝ → ℝ) (fuel : Nat) (allowOverlap : Bool) (height w : Flt) : Outcome (List Flt) :=
  trackLoop fl height w (if allowOverlap then fin 0 else mul fl (fin (1 / 2)) w) fuel (mul fl (fin (-(1 / 2))) w)

open Classical in
/-- `std::min_element` as an index: `best` is the index of the smallest so far, `v` its value, `i` the next index. -/
noncomputable def minLoop (best : Nat) (v : Flt) (i : Nat) : List Flt → Nat
  | [] => best
  | c :: cs => if lt c v then minLoop i c (i + 1) cs else minLoop best v (i + 1) cs

/-- `BruteForce::computeBestAngle` (brute_force.cpp:26-47) for given costs of the candidates.  A negative number of elements is
converted to one that no vector can have. -/
noncomputable def bestAngle (fl : ℝ → ℝ) (step : Flt) (cost : Nat → Flt) : Outcome Flt := do
  let n ← toInt (div fl (fin Dbl.twoPi) step)
  if n < 0 then .throw .lengthError
  else match (List.range n.toNat).map cost with
    | [] => .ub "index in an empty vector"
    | c :: cs => .ok (mul fl (fin (minLoop 0 c 1 cs)) step)

/-- `Path::length` (Path.cpp:205-208). -/
noncomputable def length (fl : ℝ → ℝ) (p : List (PathState Flt)) : Flt :=
  p.foldl (fun d s => add fl d (Flt.abs s.len)) (fin 0)

/-- Default constructed state (PathState.h:28-33). -/
def defaultState : PathState Flt := ⟨⟨fin 0, fin 0, fin 0⟩, fin 0, fin 0, .forward, .swath, fin 1⟩

open Classical in
/-- Loop of `Path::at` (Path.cpp:234-249); compare `Dbl.atLoop`. -/
noncomputable def atLoop (fl cos sin : ℝ → ℝ) (len : Flt) : List (PathState Flt) → PathState Flt
  | [] => defaultState
  | s :: l =>
    if lt (Flt.abs s.len) len then atLoop fl cos sin (sub fl len (Flt.abs s.len)) l
    else
      let len' := mul fl len (fin s.dir.sign)
      { s with point := ⟨add fl s.point.x (mul fl len' (lift cos s.angle)),
                         add fl s.point.y (mul fl len' (lift sin s.angle)), fin 0⟩ }

open Classical in
/-- `Path::at` (Path.cpp:225-250).  It calls itself at most once, as the length is not less than 0. -/
noncomputable def stateAt (fl cos sin : ℝ → ℝ) (p : List (PathState Flt)) (len : Flt) : PathState Flt :=
  if lt (length fl p) len then atLoop fl cos sin (length fl p) p
  else if lt len (fin 0) then atLoop fl cos sin (fin 0) p
  else atLoop fl cos sin len p

/-- `PathState::atEnd` (src/fields2cover/types/PathState.cpp:11-13) with `Point::getPointFromAngle`
(src/fields2cover/types/Point.cpp:145-147). -/
noncomputable def endPoint (fl cos sin : ℝ → ℝ) (s : PathState Flt) : Point Flt :=
  let dist := mul fl s.len (fin s.dir.sign)
  ⟨add fl s.point.x (mul fl dist (lift cos s.angle)), add fl s.point.y (mul fl dist (lift sin s.angle)), fin 0⟩

/-- State `j` of `n` (Path.cpp:313-315); compare `Dbl.piece`. -/
noncomputable def piece (fl : ℝ → ℝ) (s : PathState Flt) (e : Point Flt) (n j : Flt) : PathState Flt :=
  let t := div fl j n
  { s with
    point := ⟨add fl s.point.x (mul fl (sub fl e.x s.point.x) t), add fl s.point.y (mul fl (sub fl e.y s.point.y) t),
      add fl s.point.z (mul fl (sub fl e.z s.point.z) t)⟩
    len := div fl s.len n }

open Classical in
/-- The loop over the pieces of a section (Path.cpp:312-317), from `j` on.  Out of fuel: more rounds than allowed. -/
noncomputable def pieceLoop (fl : ℝ → ℝ) (s : PathState Flt) (e : Point Flt) (n : Flt) :
    Nat → Flt → Outcome (List (PathState Flt))
  | 0, j => if lt j n then .ub "endless loop" else .ok []
  | fuel + 1, j =>
    if lt j n then do
      let rest ← pieceLoop fl s e n fuel (add fl j (fin 1))
      return piece fl s e n j :: rest
    else .ok []

/-- The number of pieces of a section (Path.cpp:310); `max` is that of the standard library. -/
noncomputable def nSteps (fl : ℝ → ℝ) (step : Flt) (s : PathState Flt) : Flt :=
  Flt.max (fin 1) (Flt.round (Flt.abs (div fl s.len step)))

/-- The pieces of one swath section (Path.cpp:310-317), if there are not more than `fuel`. -/
noncomputable def splitState (fl cos sin : ℝ → ℝ) (fuel : Nat) (step : Flt) (s : PathState Flt) :
    Outcome (List (PathState Flt)) :=
  pieceLoop fl s (endPoint fl cos sin s) (nSteps fl step s) fuel (fin 0)

/-- `Path::discretizeSwath` (Path.cpp:305-322), if no section has more than `fuel` pieces. -/
noncomputable def discretizeSwath (fl cos sin : ℝ → ℝ) (fuel : Nat) (step : Flt) :
    List (PathState Flt) → Outcome (List (PathState Flt))
  | [] => .ok []
  | s :: p => do
    let g ← if s.type = .swath then splitState fl cos sin fuel step s else .ok [s]
    let rest ← discretizeSwath fl cos sin fuel step p
    return g ++ rest

/-- `Point::operator==` (Point.cpp:42-46); the literal 1e-7 is rounded. -/
noncomputable def pointEq (fl : ℝ → ℝ) (a b : Point Flt) : Prop :=
  lt (Flt.abs (sub fl a.x b.x)) (fin (fl (1 / 10 ^ 7))) ∧ lt (Flt.abs (sub fl a.y b.y)) (fin (fl (1 / 10 ^ 7))) ∧
  lt (Flt.abs (sub fl a.z b.z)) (fin (fl (1 / 10 ^ 7)))

/-- `Geometry::mod_2pi` (include/fields2cover/types/Geometry_impl.hpp:174-176, 358-360): `fmod` of an infinity is not a
number. -/
noncomputable def mod2pi (fl : ℝ → ℝ) : Flt → Flt
  | fin x => fin (Dbl.mod2pi fl x)
  | _ => nan

end F2C.Ieee
