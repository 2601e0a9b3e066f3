import Verif.Model.Cell
import Verif.Model.Path

/-!
# Bounding box and concatenation of paths

`src/fields2cover/types/Path.cpp:99-136`.
-/

namespace F2C.Path

/-- `Path::getDimMinX` (Path.cpp:110-115) and `getDimMinY` (Path.cpp:117-122): `v` reads the coordinate of the
point of a state.  `std::min_element` of an empty range is its end, which must not be dereferenced. -/
noncomputable def dimMin (v : RPoint → ℝ) (p : Path) : Outcome ℝ :=
  match p[minElement (p.map fun s => v s.point)]? with
  | some s => .ok (v s.point)
  | none => .ub "end() dereferenced"

/-- Position of the first largest element: `std::max_element(begin, end) - begin`; `best` is the largest value
so far, at position `bi`, and `i` the position of the head of the list. -/
noncomputable def maxElementFrom (best : ℝ) (bi i : Nat) : List ℝ → Nat
  | [] => bi
  | c :: cs => if best < c then maxElementFrom c i (i + 1) cs else maxElementFrom best bi (i + 1) cs

/-- `std::max_element(begin, end) - begin`, used by `getDimMaxX` and `getDimMaxY` (Path.cpp:124-136). -/
noncomputable def maxElement : List ℝ → Nat
  | [] => 0
  | c :: cs => maxElementFrom c 0 1 cs

/-- `Path::getDimMaxX` (Path.cpp:124-129) and `getDimMaxY` (Path.cpp:131-136). -/
noncomputable def dimMax (v : RPoint → ℝ) (p : Path) : Outcome ℝ :=
  match p[maxElement (p.map fun s => v s.point)]? with
  | some s => .ok (v s.point)
  | none => .ub "end() dereferenced"

/-- Loop of `Path::operator+=` (Path.cpp:99-104) over another path: its states are added one by one
(`addState`, Path.cpp:26-28, does the same). -/
noncomputable def addAll (p : Path) : Path → Path
  | [] => p
  | s :: q => addAll (p ++ [s]) q

/-- `Path::operator+=` (Path.cpp:99-104); `same` says whether the argument is the path itself.  Adding to a
vector invalidates the end of the range that is looped over. -/
noncomputable def plusEq (p : Path) (same : Bool) (q : Path) : Outcome Path :=
  if same then
    match p with
    | [] => .ok []
    | _ :: _ => .ub "invalidated iterator"
  else .ok (addAll p q)

end F2C.Path
