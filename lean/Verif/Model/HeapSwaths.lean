import Verif.Model.Heap
import Verif.Model.Order

/-!
# Lists of swaths in shared memory

`src/fields2cover/types/Swaths.cpp`, `SwathsByCells.cpp` and `SingleCellSwathsOrderBase`, on swaths that refer to
their points (`Verif.Model.Heap`).
-/

namespace F2C

/-- `Swaths` (include/fields2cover/types/Swaths.h): a vector of swath objects. -/
abbrev SwathsRef (K : Type) := List (SwathRef K)

namespace SwathsRef

variable {K : Type} [Field K] [LinearOrder K]

/-- The values of the swaths. -/
def view (h : Store K) (rs : SwathsRef K) : Swaths K := rs.map (SwathRef.view h)

/-- `Swaths::clone` (Swaths.cpp:142-148). -/
def clone (h : Store K) : SwathsRef K → Outcome (Store K × SwathsRef K)
  | [] => .ok (h, [])
  | r :: rs => do
    let (h₁, r') ← SwathRef.clone h r
    let (h₂, rs') ← clone h₁ rs
    return (h₂, r' :: rs')

/-- `Swaths::append(const Swaths&)` (Swaths.cpp:121-125): swaths are copied, so that they share their points;
`same` says whether the argument is the object itself, whose range is invalid once it has grown. -/
def append (rs : SwathsRef K) (same : Bool) (qs : SwathsRef K) : Outcome (SwathsRef K) :=
  if same ∧ rs ≠ [] then .ub "invalidated iterator" else .ok (rs ++ qs.map SwathRef.copy)

/-- `SwathsByCells::flatten` (SwathsByCells.cpp:122-128): appends to a new list. -/
def flatten : List (SwathsRef K) → SwathsRef K → SwathsRef K
  | [], acc => acc
  | rs :: l, acc => flatten l (acc ++ rs.map SwathRef.copy)

/-- First loop of `Swaths::sort` (Swaths.cpp:128-132). -/
def orient (h : Store K) : SwathsRef K → Store K × SwathsRef K
  | [] => (h, [])
  | r :: rs =>
    let s := SwathRef.view h r
    let (h₁, r') := if s.endPoint.lt s.startPoint then SwathRef.reverse h r else (h, r)
    let (h₂, rs') := orient h₁ rs
    (h₂, r' :: rs')

/-- `Swaths::sort` (Swaths.cpp:127-134); `std::sort` moves swath objects and looks at their ids only
(Swath.cpp:42-44). -/
def sort (stdSort : SwathsRef K → SwathsRef K) (h : Store K) (rs : SwathsRef K) : Store K × SwathsRef K :=
  let (h₁, rs₁) := orient h rs
  (h₁, stdSort rs₁)

/-- `Swath::targetOppositeDirAs` (Swath.cpp:133-137). -/
def targetOppositeDirAs (h : Store K) (r p : SwathRef K) : Store K × SwathRef K :=
  if p.creationDir == r.creationDir then SwathRef.reverse h r else (h, r)

/-- Loop of `Swaths::reverseDirOddSwaths` (Swaths.cpp:136-140) from the second element on. -/
def reverseDirFrom (h : Store K) (p : SwathRef K) : SwathsRef K → Store K × SwathsRef K
  | [] => (h, [])
  | r :: rs =>
    let (h₁, r') := targetOppositeDirAs h r p
    let (h₂, rs') := reverseDirFrom h₁ r' rs
    (h₂, r' :: rs')

/-- `Swaths::reverseDirOddSwaths` (Swaths.cpp:136-140). -/
def reverseDirOddSwaths (h : Store K) : SwathsRef K → Store K × SwathsRef K
  | [] => (h, [])
  | r :: rs =>
    let (h₁, rs') := reverseDirFrom h r rs
    (h₁, r :: rs')

/-- `Swaths::moveTo` (Swaths.cpp:150-154). -/
def moveTo (h : Store K) (v : Point K) : SwathsRef K → Store K
  | [] => h
  | r :: rs => moveTo (SwathRef.moveTo h r v).1 v rs

/-- `SingleCellSwathsOrderBase::changeStartPoint` (single_cell_swaths_order_base.cpp:25-33). -/
def changeStartPoint (h : Store K) (rs : SwathsRef K) (variant : UInt32) :
    Outcome (Store K × SwathsRef K) :=
  let rs₁ := if variant &&& 1 ≠ 0 then rs.reverse else rs
  if variant &&& 2 ≠ 0 then
    match rs₁ with
    | [] => .ub "changeStartPoint: swaths[0] of an empty vector"
    | r :: l =>
      let (h₁, r') := SwathRef.reverse h r
      .ok (h₁, r' :: l)
  else .ok (h, rs₁)

/-- `SingleCellSwathsOrderBase::genSortedSwaths` (single_cell_swaths_order_base.cpp:12-23). -/
def genSorted (stdSort : SwathsRef K → SwathsRef K) (k : OrderKind) (h : Store K) (rs : SwathsRef K)
    (variant : UInt32) : Outcome (Store K × SwathsRef K) := do
  let (h₀, rs₀) ← clone h rs
  if rs₀.length > 0 then
    let (h₁, rs₁) := sort stdSort h₀ rs₀
    let (h₂, rs₂) ← changeStartPoint h₁ rs₁ variant
    let rs₃ ← k.sortSwaths rs₂
    return reverseDirOddSwaths h₂ rs₃
  else return (h₀, rs₀)

end SwathsRef
end F2C
