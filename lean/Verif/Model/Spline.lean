import Mathlib.Algebra.Order.Field.Basic
import Verif.Model.Outcome

/-! # `CubicSpline` (utils/spline.h, utils/spline.cpp)

Vectors are lists; `v[i]` with an index the code keeps in range is `getD`.  Division by zero, which
in C++ gives an infinity or NaN, gives 0 here; it only happens for two equal knots at the start,
which the theorems exclude. -/

namespace F2C

/-- Members of `CubicSpline` (spline.h:58-62); `size_` is the length of `x`. -/
structure Spline (K : Type) where
  x : List K
  y : List K
  b : List K
  c : List K
  d : List K
  deriving DecidableEq

namespace Spline

variable {K : Type}

/-- Default constructor (spline.cpp:44). -/
def empty : Spline K := ⟨[], [], [], [], []⟩

variable [Field K] [LinearOrder K]

/-- `v[i]` -/
def nth (v : List K) (i : Nat) : K := v.getD i 0

/-- `h[i]` (spline.cpp:118, 130). -/
def h (x : List K) (i : Nat) : K := nth x (i + 1) - nth x i

/-- `alpha[i]`, `i ≥ 1` (spline.cpp:132-133). -/
def alpha (x y : List K) (i : Nat) : K :=
  3 / h x i * (nth y (i + 1) - nth y i) - 3 / h x (i - 1) * (nth y i - nth y (i - 1))

/-- `(l[i], u[i], z[i])` for `i < size_ - 1`: initial values (spline.cpp:119-121) and the first loop
(spline.cpp:126-137). -/
def forward (x y : List K) : Nat → K × K × K
  | 0 => (1, 0, 0)
  | i + 1 =>
    let p := forward x y i
    let l := 2 * (nth x (i + 2) - nth x i) - h x i * p.2.1
    (l, h x (i + 1) / l, (alpha x y (i + 1) - h x i * p.2.2) / l)

/-- `c_vec_[size_ - 1 - k]` (spline.cpp:124, 139-140). -/
def cBack (x y : List K) : Nat → K
  | 0 => 0
  | k + 1 =>
    let p := forward x y (x.length - 2 - k)
    p.2.2 - p.2.1 * cBack x y k

/-- `c_vec_[i]` -/
def cAt (x y : List K) (i : Nat) : K := cBack x y (x.length - 1 - i)

/-- `b_vec_[i]`, `i < size_ - 1` (spline.cpp:141-143). -/
def bAt (x y : List K) (i : Nat) : K :=
  (nth y (i + 1) - nth y i) / h x i - h x i * (cAt x y (i + 1) + 2 * cAt x y i) / 3

/-- `d_vec_[i]`, `i < size_ - 1` (spline.cpp:144), before the first one is set to 0. -/
def dAt (x y : List K) (i : Nat) : K := (cAt x y (i + 1) - cAt x y i) / (3 * h x i)

/-- `SetPoints` (spline.cpp:68-85) with `SetSplineCubic` (115-192), on the object `old`.

* the order of the knots is only checked from the second one on (126-129);
* with `monotonic`, the loop (150-177) reaches `i = size_ - 1`, where the slope is `0 / h[size_-1]`,
  i.e. 0/0 and so not `== 0.0`, and reads `b_vec_[size_]` (169): out of bounds;
* `resize` keeps the last value of `b_vec_` of the old object (or 0), which no loop writes; `d_vec_[0]`
  and `d_vec_[size_ - 1]` are set to 0 (190-191). -/
def setPoints (old : Spline K) (x y : List K) (monotonic : Bool := false) : Outcome (Spline K) :=
  if x.length ≠ y.length then .throw .outOfRange
  else if ¬ 1 < x.length then .throw .outOfRange
  else if ¬ (List.range (x.length - 2)).all (fun i => decide (nth x (i + 1) < nth x (i + 2))) then
    .throw .outOfRange
  else if monotonic then .ub "b_vec_[size_]"
  else .ok
    { x := x
      y := y
      b := (List.range x.length).map fun i =>
        if i + 1 < x.length then bAt x y i else nth old.b i
      c := (List.range x.length).map (cAt x y)
      d := (List.range x.length).map fun i =>
        if i = 0 ∨ i + 1 = x.length then 0 else dAt x y i }

/-- Constructor (spline.cpp:46-63). -/
def make (x y : List K) (monotonic : Bool := false) : Outcome (Spline K) :=
  setPoints empty x y monotonic

/-- The binary search (spline.cpp:91-100); the fuel is at least `h - l`. -/
def search (xs : K) (x : List K) : Nat → Nat → Nat → Nat
  | 0, l, _ => l
  | fuel + 1, l, h =>
    if l < h then
      let mid := (l + h) / 2
      if xs ≤ nth x mid then search xs x fuel l mid else search xs x fuel (mid + 1) h
    else l

/-- The piece of the spline that is used (spline.cpp:102). -/
def index (s : Spline K) (xs : K) : Nat := search xs s.x s.x.length 0 s.x.length - 1

/-- The cubic polynomial of piece `i` (spline.cpp:104-108). -/
def piece (s : Spline K) (i : Nat) (xs : K) : K :=
  nth s.y i + nth s.b i * (xs - nth s.x i) + nth s.c i * ((xs - nth s.x i) * (xs - nth s.x i)) +
    nth s.d i * ((xs - nth s.x i) * (xs - nth s.x i) * (xs - nth s.x i))

/-- `CubicSpline::operator()` (spline.cpp:88-109); on an object without points `x_vec_[0]` does not
exist. -/
def eval (s : Spline K) (xs : K) : Outcome K :=
  if s.x = [] then .ub "x_vec_[0]" else .ok (s.piece (s.index xs) xs)

end Spline

end F2C
