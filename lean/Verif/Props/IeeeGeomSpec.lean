import Verif.Props.SwathGeneratorSpec

/-! # Words for C136 -/

namespace F2C.Props.IeeeGeo

/-- A point whose coordinates are at most `M` in size. -/
def Within (M : ℝ) (p : RPoint) : Prop := |p.x| ≤ M ∧ |p.y| ≤ M ∧ |p.z| ≤ M

end F2C.Props.IeeeGeo
