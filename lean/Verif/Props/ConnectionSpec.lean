import Verif.Props.PathPlanningSpec

/-! # Specification vocabulary for driving connections (C82) -/

namespace F2C.Props.ConnectionSpec

open Turning TurningSpec

/-- The path leads from pose to pose: one turn (maybe empty) from every pose to the next, which joins the
two up to `δ` in the headings. -/
inductive Via (δ : ℝ) : List (RPoint × ℝ) → Path → Prop
  | last (a : RPoint × ℝ) : Via δ [a] []
  | leg (a b : RPoint × ℝ) (l : List (RPoint × ℝ)) (q p : Path) :
      q = [] ∨ Joins δ a.1 a.2 b.1 b.2 q → Via δ (b :: l) p → Via δ (a :: b :: l) (q ++ p)

end F2C.Props.ConnectionSpec
