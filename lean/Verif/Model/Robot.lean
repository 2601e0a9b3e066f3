import Mathlib.Data.Real.Basic
import Verif.Model.Outcome

/-! # Robot (src/fields2cover/types/Robot.cpp) -/

namespace F2C

/-- `Robot` (include/fields2cover/types/Robot.h:60-80): the data members. -/
structure Robot where
  name : String
  width : ℝ
  covWidth : ℝ
  cruise : ℝ
  maxCurv : ℝ
  diffCurv : ℝ
  turn : Option ℝ

namespace Robot

/-- Default constructor (Robot.cpp:24, Robot.h:61-79). -/
noncomputable def default : Robot := ⟨"", 0, 0, 1, 1, 3 / 10, none⟩

/-- `Robot(width, cov_width, max_curv, max_diff_curv)` (Robot.cpp:12-22). -/
noncomputable def make (width : ℝ) (cov : ℝ := 0) (curv : ℝ := 1) (diff : ℝ := 3 / 10) :
    Outcome Robot :=
  if width ≤ 0 ∨ cov < 0 then .throw .outOfRange
  else .ok { default with
    width := width, covWidth := if cov = 0 then width else cov, maxCurv := curv, diffCurv := diff }

/-- `setWidth` (Robot.cpp:45-47). -/
def setWidth (r : Robot) (w : ℝ) : Robot := { r with width := w }
/-- `setCovWidth` (Robot.cpp:53-55). -/
def setCovWidth (r : Robot) (w : ℝ) : Robot := { r with covWidth := w }
/-- `setCruiseVel` (Robot.cpp:61-63). -/
def setCruiseVel (r : Robot) (v : ℝ) : Robot := { r with cruise := v }
/-- `getTurnVel` (Robot.cpp:65-67). -/
noncomputable def turnVel (r : Robot) : ℝ := r.turn.getD r.cruise
/-- `setTurnVel` (Robot.cpp:69-71). -/
def setTurnVel (r : Robot) (v : ℝ) : Robot := { r with turn := some v }
/-- `getMinTurningRadius` (Robot.cpp:73-75). -/
noncomputable def minTurningRadius (r : Robot) : ℝ := 1 / (r.maxCurv + 1 / 10 ^ 7)
/-- `setMinTurningRadius` (Robot.cpp:77-79). -/
noncomputable def setMinTurningRadius (r : Robot) (rad : ℝ) : Robot :=
  { r with maxCurv := 1 / (|rad| + 1 / 10 ^ 7) }
/-- `setMaxCurv` (Robot.cpp:85-87). -/
noncomputable def setMaxCurv (r : Robot) (c : ℝ) : Robot := { r with maxCurv := |c| }
/-- `setMaxDiffCurv` (Robot.cpp:93-95). -/
noncomputable def setMaxDiffCurv (r : Robot) (c : ℝ) : Robot := { r with diffCurv := |c| }
/-- `setName` (Robot.cpp:37-39). -/
def setName (r : Robot) (n : String) : Robot := { r with name := n }

/-- The setters, as operations. -/
inductive Op
  | width (w : ℝ) | covWidth (w : ℝ) | cruise (v : ℝ) | turn (v : ℝ) | minRadius (r : ℝ)
  | maxCurv (c : ℝ) | diffCurv (c : ℝ) | name (n : String)

/-- One setter call. -/
noncomputable def step (r : Robot) : Op → Robot
  | .width w => r.setWidth w
  | .covWidth w => r.setCovWidth w
  | .cruise v => r.setCruiseVel v
  | .turn v => r.setTurnVel v
  | .minRadius x => r.setMinTurningRadius x
  | .maxCurv c => r.setMaxCurv c
  | .diffCurv c => r.setMaxDiffCurv c
  | .name n => r.setName n

/-- A sequence of setter calls. -/
noncomputable def run (r : Robot) (ops : List Op) : Robot := ops.foldl step r

end Robot
end F2C
