import Verif.Model.FieldObj
import Verif.Props.PathSpec

/-! # Specification vocabulary for fields and coordinate systems -/

namespace F2C.Props.FieldSpec

variable {K : Type}

/-- A closed ring with at least one point. -/
def Closed (r : List (Point K)) : Prop := r ≠ [] ∧ r.head? = r.getLast?

/-- Cells as they come from a file: every cell has a border and all rings are closed. -/
def WellFormed (cs : List (List (List (Point K)))) : Prop :=
  ∀ c ∈ cs, c ≠ [] ∧ ∀ r ∈ c, Closed r

/-- The first point of the border of the first cell. -/
def First (cs : List (List (List (Point K)))) (p : Point K) : Prop :=
  ∃ r rings cells, cs = ((p :: r) :: rings) :: cells

/-- `g` applied to all points. -/
def onPoints (g : Point K → Point K) (cs : List (List (List (Point K)))) :
    List (List (List (Point K))) :=
  cs.map fun c => c.map fun r => r.map g

/-- Moving from one coordinate system to another in one step or in two gives the same, and staying in a
system changes nothing. -/
structure Consistent (proj : Proj K) : Prop where
  stay : ∀ a f, proj a a = some f → ∀ p, f p = p
  comp : ∀ a b c f g, proj a b = some f → proj b c = some g →
    ∃ h, proj a c = some h ∧ ∀ p, h p = g (f p)

end F2C.Props.FieldSpec
