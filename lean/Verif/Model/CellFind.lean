import Verif.Model.Decomp
import Verif.Model.Share

/-!
# Looking up the cell of a point

`Cells::getCellWherePoint` and `Cells::createLineUntilBorder`, src/fields2cover/types/Cells.cpp.
-/

namespace F2C.CellFind

open F2C.Share

/-- What `getCellWherePoint` returns: an alias of a child of the container, or a new cell without rings.
The loop variable is an alias (`Cell(…, EmptyDestructor())`, Cells.cpp:71-77), and returning it copies the
pointer (include/fields2cover/types/Geometry_impl.hpp:50-51). -/
inductive Found where
  | child (i : Nat)
  | none
  deriving DecidableEq, Repr

/-- The loop of `getCellWherePoint` (Cells.cpp:229-233) over the `k` cells from number `i` on. -/
def search {K : Type} (hit : Cell K → Bool) (cells : Cells K) : Nat → Nat → Found
  | 0, _ => .none
  | k + 1, i =>
    match cells[i]? with
    | some c => if hit c then .child i else search hit cells k (i + 1)
    | none => .none

/-- `Cells::getCellWherePoint` (Cells.cpp:228-235); `touches c` and `within c` are what
`OGRGeometry::Touches` and `Within` say about the point and cell `c`.  The range-based loop runs up to
`size()` (include/fields2cover/types/Geometries_impl.hpp:157-167). -/
def getCellWherePoint {K : Type} [Field K] [LinearOrder K] (touches within : Cell K → Bool)
    (cells : Cells K) : Found :=
  search (fun c => touches c || within c) cells (cellsOps.size cells) 0

/-- The rings of the cell found, the container being unchanged. -/
def Found.rings {K : Type} (cells : Cells K) : Found → Cell K
  | .child i => (cells[i]?).getD []
  | .none => []

/-- `Cells::createLineUntilBorder` (Cells.cpp:237-240); `cut c` is the intersection of cell `c` with the ray
of `Cell::createLineUntilBorder` (Cell.cpp:192-208). -/
noncomputable def createLineUntilBorder (touches within : Cell ℝ → Bool) (cut : Cell ℝ → Decomp.Inter)
    (cells : Cells ℝ) (p : RPoint) : List RPoint :=
  Decomp.lineUntilBorder p (cut ((getCellWherePoint touches within cells).rings cells))

/-- An alias: object of the memory and number of the child. -/
structure Ref where
  obj : Nat
  child : Nat

/-- Reading through an alias; `vars` are the variables in scope.  An object that none of them refers to has
been destroyed by `shared_ptr`, and the alias does not keep it alive (Geometry_impl.hpp:31-32, 38-40). -/
def read {K : Type} (m : Mem (Cell K)) (vars : List Nat) (r : Ref) : Outcome (Cell K) :=
  if vars.any fun x => m.env x == r.obj then
    match m.heap[r.obj]?.bind (·[r.child]?) with
    | some c => .ok c
    | none => .ub "alias of a child that does not exist"
  else .ub "alias of a destroyed object"

/-- A change `f` in place of the cell found, like `operator*=` (Cell.cpp:93-97). -/
def change {K : Type} (m : Mem (Cell K)) (vars : List Nat) (r : Ref) (f : Cell K → Cell K) :
    Outcome (Mem (Cell K)) :=
  if vars.any fun x => m.env x == r.obj then
    .ok { m with heap := m.heap.modify r.obj (·.modify r.child f) }
  else .ub "alias of a destroyed object"

/-- The alias that `x.getCellWherePoint(p)` returns. -/
def find {K : Type} [Field K] [LinearOrder K] (touches within : Cell K → Bool) (m : Mem (Cell K))
    (x : Nat) : Option Ref :=
  match getCellWherePoint touches within (m.value x) with
  | .child i => some ⟨m.env x, i⟩
  | .none => none

end F2C.CellFind
