import Mathlib.Data.List.Sort
import Verif.Model.Swath

/-!
# Orders of swaths

`src/fields2cover/route_planning/{single_cell_swaths_order_base,boustrophedon_order,snake_order,
spiral_order,custom_order}.cpp`.
-/

namespace F2C

section Algorithms
variable {α : Type}

/-- `std::rotate(begin+first, begin+middle, begin+last)` on a vector.  Iterators outside of
`[begin, end]` or not in order are undefined behaviour. -/
def rotateRange (l : List α) (first middle last : Nat) : Outcome (List α) :=
  if first ≤ middle ∧ middle ≤ last ∧ last ≤ l.length then
    .ok (l.take first ++ (l.drop middle).take (last - middle)
      ++ (l.drop first).take (middle - first) ++ l.drop last)
  else .ub "std::rotate: iterators out of range"

/-- `std::reverse(begin+first, begin+last)` on a vector, with the same range check. -/
def reverseRange (l : List α) (first last : Nat) : Outcome (List α) :=
  if first ≤ last ∧ last ≤ l.length then
    .ok (l.take first ++ ((l.drop first).take (last - first)).reverse ++ l.drop last)
  else .ub "std::reverse: iterators out of range"

/-- `for` loop of `SnakeOrder::sortSwaths` (snake_order.cpp:12-15) starting with counter `i`;
`n` is `swaths.size()`, which the loop does not change.  Returns the final counter too. -/
def snakeLoop (n : Nat) (l : List α) (i : Nat) : Outcome (List α × Nat) :=
  if i < (n - 1) / 2 + 1 then
    match rotateRange l i (i + 1) l.length with
    | .ok l' => snakeLoop n l' (i + 1)
    | .throw e => .throw e
    | .ub w => .ub w
  else .ok (l, i)
termination_by (n - 1) / 2 + 1 - i

/-- `SnakeOrder::sortSwaths` (snake_order.cpp:11-20).  For an empty vector `size() - 1` wraps
around; the only caller excludes that case (single_cell_swaths_order_base.cpp:16), so it is
reported as `ub` here. -/
def snakeSort (l : List α) : Outcome (List α) :=
  if l.length = 0 then .ub "SnakeOrder: size() - 1 wraps around" else do
    let (l₁, i) ← snakeLoop l.length l 1
    let l₂ ← reverseRange l₁ (i + 1) l₁.length
    if l₂.length % 2 = 1 then rotateRange l₂ i (i + 1) l₂.length else return l₂

/-- Loop of `SpiralOrder::spiral` (spiral_order.cpp:28-34) from counter `j` on. -/
def spiralLoop (offset size : Nat) (l : List α) (j : Nat) : Outcome (List α) :=
  if j < size then
    match rotateRange l (offset + j) (offset + size - 1) (offset + size) with
    | .ok l' => spiralLoop offset size l' (j + 2)
    | .throw e => .throw e
    | .ub w => .ub w
  else .ok l
termination_by size - j

/-- `SpiralOrder::spiral` (spiral_order.cpp:28-34). -/
def spiral (l : List α) (offset size : Nat) : Outcome (List α) :=
  spiralLoop offset size l ((offset + 1) % 2)

/-- First loop of `SpiralOrder::sortSwaths` (spiral_order.cpp:18-20), for blocks
`i, i+1, ..., i+k-1`. -/
def spiralBlocks (s : Nat) (l : List α) (i k : Nat) : Outcome (List α) :=
  match k with
  | 0 => .ok l
  | k + 1 => do
    let l' ← spiral l (i * s) s
    spiralBlocks s l' (i + 1) k

/-- `SpiralOrder::sortSwaths` (spiral_order.cpp:16-26); division by a zero spiral size is `ub`. -/
def spiralSort (s : Nat) (l : List α) : Outcome (List α) :=
  if s = 0 then .ub "SpiralOrder: division by zero" else do
    let count := l.length / s
    let l₁ ← spiralBlocks s l 0 count
    let left := l₁.length - count * s
    if left > 1 then spiral l₁ (count * s) left else return l₁

/-- `static_cast<int>` of a `size_t`: the low 32 bits, with sign. -/
def toInt32 (s : Nat) : Int := if s % 2 ^ 32 < 2 ^ 31 then (s % 2 ^ 32 : Nat) else (s % 2 ^ 32 : Nat) - 2 ^ 32

/-- The size that `SpiralOrder::SpiralOrder` sets (spiral_order.cpp:6-8, 12-14). -/
def spiralCtorSize (s : Nat) : Nat := (max 2 (toInt32 s)).toNat

/-- `std::unique` on a sorted vector followed by `erase` (custom_order.cpp:30-31): drops
consecutive duplicates. -/
def stdUnique : List Nat → List Nat
  | [] => []
  | [a] => [a]
  | a :: b :: l => if a = b then stdUnique (b :: l) else a :: stdUnique (b :: l)

/-- `CustomOrder::check` (custom_order.cpp:25-48).  Sorting numbers has a unique result, so
`List.insertionSort` stands for `std::sort`.  `*max_element` of an empty vector is `ub`. -/
def customCheck (order : List Nat) (n : Nat) : Outcome Unit :=
  let uniq := stdUnique (order.insertionSort (· ≤ ·))
  if uniq.length ≠ order.length then .throw .invalidArgument
  else if n ≠ order.length then .throw .lengthError
  else match order with
    | [] => .ub "CustomOrder: *max_element of an empty vector"
    | a :: as =>
      let maxEl := as.foldl max a
      if maxEl > n - 1 then .throw .invalidArgument else .ok ()

/-- Loop of `CustomOrder::sortSwaths` (custom_order.cpp:19-21).  Writing `sorted_swaths[i]` is in
range because the sizes agree; reading outside of the vector is `ub`. -/
def customPick (order : List Nat) (l : List α) : Outcome (List α) :=
  match order with
  | [] => .ok []
  | i :: is => match l[i]? with
    | none => .ub "CustomOrder: index out of range"
    | some a => do
      let r ← customPick is l
      return a :: r

/-- `CustomOrder::sortSwaths` (custom_order.cpp:16-23). -/
def customSort (order : List Nat) (l : List α) : Outcome (List α) := do
  customCheck order l.length
  customPick order l

end Algorithms

/-- The order classes (include/fields2cover/route_planning/*_order.h) with their parameters. -/
inductive OrderKind
  | boustrophedon
  | snake
  | spiral (size : Nat)
  | custom (order : List Nat)
  deriving Repr

/-- The virtual `sortSwaths` of the order classes. -/
def OrderKind.sortSwaths {α : Type} : OrderKind → List α → Outcome (List α)
  | .boustrophedon, l => .ok l          -- boustrophedon_order.cpp:11-12
  | .snake, l => snakeSort l            -- snake_order.cpp:11-20
  | .spiral s, l => spiralSort s l      -- spiral_order.cpp:16-26
  | .custom o, l => customSort o l      -- custom_order.cpp:16-23

section Base
variable {K : Type} [Field K] [LinearOrder K]

/-- `SingleCellSwathsOrderBase::changeStartPoint` (single_cell_swaths_order_base.cpp:25-33).
`swaths[0]` of an empty vector is `ub`. -/
def changeStartPoint (l : Swaths K) (variant : UInt32) : Outcome (Swaths K) :=
  let l₁ := if variant &&& 1 ≠ 0 then l.reverse else l
  if variant &&& 2 ≠ 0 then
    match l₁ with
    | [] => .ub "changeStartPoint: swaths[0] of an empty vector"
    | s :: r => .ok (s.reverse :: r)
  else .ok l₁

/-- `SingleCellSwathsOrderBase::genSortedSwaths` (single_cell_swaths_order_base.cpp:12-23). -/
def genSortedSwaths (stdSort : Swaths K → Swaths K) (k : OrderKind) (l : Swaths K)
    (variant : UInt32) : Outcome (Swaths K) := do
  let l₀ ← Swaths.clone l
  if l₀.length > 0 then
    let l₁ := Swaths.sort stdSort l₀
    let l₂ ← changeStartPoint l₁ variant
    let l₃ ← k.sortSwaths l₂
    return Swaths.reverseDirOddSwaths l₃
  else return l₀

end Base
end F2C
