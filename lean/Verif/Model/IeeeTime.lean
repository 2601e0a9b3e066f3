import Verif.Model.Ieee

/-!
# The time a path takes, for all values of type `double`

`Path::getTaskTime` (`src/fields2cover/types/Path.cpp:54-57`); the same over the real numbers is `Path.taskTime` in `Model/Path.lean`.
-/

namespace F2C.Ieee

open Flt

/-- `Path::getTaskTime` (Path.cpp:54-57). -/
noncomputable def taskTime (fl : ℝ → ℝ) (p : List (PathState Flt)) : Flt :=
  p.foldl (fun d s => add fl (div fl s.len s.velocity) d) (fin 0)

end F2C.Ieee
