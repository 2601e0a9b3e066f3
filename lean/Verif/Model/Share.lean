import Verif.Model.Container

/-!
# Variables holding containers of geometries

A geometry object holds its data behind a `std::shared_ptr` (include/fields2cover/types/Geometry.h,
member `data_`).  Copy construction and assignment are defaulted
(include/fields2cover/types/Geometry_impl.hpp:50-62), so that copies refer to the same data.  Here a
program has variables numbered by `Nat`; each refers to an object of the memory.
-/

namespace F2C.Share

variable {α : Type}

/-- The memory: the objects allocated so far, and the object each variable refers to.  Objects that no
variable refers to any more are destroyed by `shared_ptr`; the model keeps them, as nothing can read them. -/
structure Mem (α : Type) where
  heap : List (List α)
  env : Nat → Nat

/-- Function `f` with the value at `x` replaced. -/
def put {β : Type} (f : Nat → β) (x : Nat) (b : β) : Nat → β := fun y => if y = x then b else f y

/-- Statements on variables of one of the types `Cells`, `Cell` and `MultiLineString`. -/
inductive Op (α : Type)
  /-- `x = y;` -/
  | copy (x y : Nat)
  /-- `x = y.clone();` -/
  | clone (x y : Nat)
  /-- `x.addGeometry(a);` -/
  | add (x : Nat) (a : α)
  /-- `x.setGeometry(i, a);` -/
  | set (x i : Nat) (a : α)
  /-- `x *= b;`, a change `f` of every child -/
  | each (x : Nat) (f : α → α)

/-- The children of the object a variable refers to. -/
def Mem.value (m : Mem α) (x : Nat) : List α := (m.heap[m.env x]?).getD []

/-- A new object that variable `x` refers to. -/
def Mem.fresh (m : Mem α) (x : Nat) (v : List α) : Mem α := ⟨m.heap ++ [v], put m.env x m.heap.length⟩

/-- The object of variable `x` changed in place. -/
def Mem.inPlace (m : Mem α) (x : Nat) (v : List α) : Mem α := { m with heap := m.heap.set (m.env x) v }

/-- One statement.  `wkt` is what a geometry becomes when it is written to text and read again.
* `copy`: `Geometry::operator=` (Geometry_impl.hpp:56-62).
* `clone`: `Geometries::clone` (include/fields2cover/types/Geometries_impl.hpp:18-23).
* `add`: `addGeometry` changes the data in place (src/fields2cover/types/Cells.cpp:126-128,
  Cell.cpp:123-130, MultiLineString.cpp:120-122).
* `set`: `setGeometry` assigns a new object to `*this` if the index exists, and otherwise adds to the data in
  place (Cells.cpp:95-110, Cell.cpp:72-87, MultiLineString.cpp:103-118).
* `each`: `operator*=` works on aliases of the children (Cells.cpp:57-61, Cell.cpp:93-97,
  MultiLineString.cpp:39-43). -/
def step (o : ContainerOps α) (wkt : List α → List α) (m : Mem α) : Op α → Outcome (Mem α)
  | .copy x y => .ok { m with env := put m.env x (m.env y) }
  | .clone x y => .ok (m.fresh x (wkt (m.value y)))
  | .add x a => .ok (m.inPlace x (o.add (m.value x) a))
  | .set x i a => do
    let v ← o.set (m.value x) i a
    .ok (if i < o.size (m.value x) then m.fresh x v else m.inPlace x v)
  | .each x f => .ok (m.inPlace x ((m.value x).map f))

/-- Statements one after the other. -/
def run (o : ContainerOps α) (wkt : List α → List α) (m : Mem α) : List (Op α) → Outcome (Mem α)
  | [] => .ok m
  | s :: ss => do run o wkt (← step o wkt m s) ss

end F2C.Share
