import Verif.Model.Robot

/-! Spec for C58: what a sequence of setter calls is supposed to leave behind. -/

namespace F2C.Props.RobotSpec

open Robot (Op)

/-- The last turn velocity that was set, if any. -/
def lastTurn : List Op → Option ℝ
  | [] => none
  | .turn v :: ops => (lastTurn ops).orElse fun _ => some v
  | _ :: ops => lastTurn ops

/-- The last cruise velocity that was set; `v` before any call. -/
def lastCruise (v : ℝ) : List Op → ℝ
  | [] => v
  | .cruise w :: ops => lastCruise w ops
  | _ :: ops => lastCruise v ops

/-- Both curvature limits are at least 0. -/
def GoodLimits (r : Robot) : Prop := 0 ≤ r.maxCurv ∧ 0 ≤ r.diffCurv

/-- `b` agrees with `a` up to a relative error of 1e-6. -/
def Agree (a b : ℝ) : Prop := |b - a| ≤ |a| / 10 ^ 6

end F2C.Props.RobotSpec
