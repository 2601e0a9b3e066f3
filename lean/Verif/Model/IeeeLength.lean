import Verif.Model.Ieee

/-!
# The length of a path, for all values of type `double`

`Path::length` (`src/fields2cover/types/Path.cpp:205-208`); the same over the real numbers is in `Model/Path.lean`.
-/

namespace F2C.Ieee

open Flt

/-- `Path::length` (Path.cpp:205-208). -/
noncomputable def pathLength (fl : ℝ → ℝ) (p : List (PathState Flt)) : Flt :=
  p.foldl (fun d s => add fl d (Flt.abs s.len)) (fin 0)

end F2C.Ieee
