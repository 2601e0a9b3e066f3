import Verif.Model.Container

/-!
# Swaths as handles to shared lines

A `LineString` holds its points behind a `std::shared_ptr` that copies share
(include/fields2cover/types/Geometry_impl.hpp:50-62), so copies of a swath share the points of its
path.  Here the points live in a store and a swath refers to them by address; the other members
are held by value (include/fields2cover/types/Swath.h:98-102).
-/

namespace F2C

/-- The store: the points of every line string allocated so far. -/
abbrev Store (K : Type) := List (List (Point K))

/-- A swath object: its members, the path being an address. -/
structure SwathRef (K : Type) where
  id : Int
  loc : Nat
  width : K
  creationDir : Bool
  type : SwathType
  deriving DecidableEq, Repr

namespace SwathRef

variable {K : Type} [Field K] [LinearOrder K]

/-- The value of a swath as seen through its getters. -/
def view (h : Store K) (r : SwathRef K) : Swath K :=
  ⟨r.id, (h[r.loc]?).getD [], r.width, r.creationDir, r.type⟩

/-- `Swath(const Swath&)` and `operator=`, both defaulted (src/fields2cover/types/Swath.cpp:23-26):
the address is copied. -/
def copy (r : SwathRef K) : SwathRef K := r

/-- `Swath::clone` (Swath.cpp:117-121): `LineString::clone` allocates a new line
(Geometries_impl.hpp:18-23); throws like `Swath::setWidth` for non-positive widths; the type is not
passed on. -/
def clone (h : Store K) (r : SwathRef K) : Outcome (Store K × SwathRef K) :=
  if 0 ≥ r.width then .throw .invalidArgument
  else .ok (h ++ [(h[r.loc]?).getD []], { r with loc := h.length, type := .mainland })

/-- `Swath::reverse` (Swath.cpp:72-75): reverses the stored points and flips the own flag. -/
def reverse (h : Store K) (r : SwathRef K) : Store K × SwathRef K :=
  (h.modify r.loc List.reverse, { r with creationDir := !r.creationDir })

/-- `Swath::moveTo` (Swath.cpp:194-198). -/
def moveTo (h : Store K) (r : SwathRef K) (v : Point K) : Store K × SwathRef K :=
  (h.modify r.loc (forEachPoint fun p => p.add v), r)

/-- Operations that change a swath object. -/
inductive Op (K : Type)
  | reverse
  | moveTo (v : Point K)
  | setId (i : Int)
  | setCreationDir (b : Bool)
  | setType (t : SwathType)

/-- Apply an operation (`setId` Swath.cpp:143-145, `setCreationDir` 182-184, `setType` 190-192). -/
def step (s : Store K × SwathRef K) : Op K → Store K × SwathRef K
  | .reverse => reverse s.1 s.2
  | .moveTo v => moveTo s.1 s.2 v
  | .setId i => (s.1, { s.2 with id := i })
  | .setCreationDir b => (s.1, { s.2 with creationDir := b })
  | .setType t => (s.1, { s.2 with type := t })

/-- Apply operations one after the other. -/
def run (s : Store K × SwathRef K) (ops : List (Op K)) : Store K × SwathRef K :=
  ops.foldl step s

end SwathRef
end F2C
