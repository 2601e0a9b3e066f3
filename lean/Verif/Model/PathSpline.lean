import Verif.Model.Path
import Verif.Model.Angle
import Verif.Model.Border
import Verif.Model.Spline

/-! # `Path::populate` and `Path::discretize` (src/fields2cover/types/Path.cpp) -/

namespace F2C.Path

/-- The sections with a length, and a last knot at the end of the path: the vectors `x`, `y`,
`ang_prov`, `len`, `old_vel`, `old_dir`, `old_type` of `populate` (Path.cpp:349-369), kept together. -/
noncomputable def knots (p : Path) (last : PathState ℝ) : List (PathState ℝ) :=
  p.filter (fun s => s.len ≠ 0) ++ [{ last with point := last.atEnd, len := 0 }]

/-- Arc length of the knots (Path.cpp:372-373): `t` starts with 0, then the partial sums of all
lengths but the last. -/
noncomputable def arcs (ks : List (PathState ℝ)) : List ℝ :=
  (ks.dropLast.map (·.len)).scanl (· + ·) 0

/-- `std::lower_bound(t.begin(), t.end(), v) - t.begin() - 1` used as an index (Path.cpp:390).  The
range has to be partitioned by `· < v`; the index must not be -1. -/
noncomputable def sectionAt (t : List ℝ) (v : ℝ) : Outcome Nat :=
  let k := (t.takeWhile (fun a => decide (a < v))).length
  if (t.drop k).any (fun a => decide (a < v)) then .ub "lower_bound on an unsorted range"
  else if k = 0 then .ub "index -1"
  else .ok (k - 1)

/-- Body of the loop of `populate` (Path.cpp:384-394). -/
noncomputable def sample (ks : List (PathState ℝ)) (t : List ℝ) (sx sy sa : Spline ℝ) (step : ℝ)
    (i : Nat) : Outcome (PathState ℝ) := do
  let d : ℝ := i * step
  let px ← sx.eval d
  let py ← sy.eval d
  let a ← sa.eval d
  let it ← sectionAt t (d + 1 / 10 ^ 10)
  match ks[it]? with
  | none => .ub "old_vel[it]"
  | some k => .ok ⟨⟨px, py, 0⟩, mod2pi a, step, k.dir, k.type, k.velocity⟩

/-- `Path::populate` (Path.cpp:346-395).  For a negative number of points the loop runs until the
`size_t` counter reaches the converted number, i.e. practically without end. -/
noncomputable def populate (p : Path) (n : Int) : Outcome Path :=
  if List.length p < 3 then .ok p
  else
    match List.getLast? p with
    | none => .ub "back() of an empty path"
    | some last => do
      let ks := knots p last
      let ang ← angContinuityList (ks.map (·.angle))
      let t := arcs ks
      let sx ← Spline.make t (ks.map (·.point.x))
      let sy ← Spline.make t (ks.map (·.point.y))
      let sa ← Spline.make t ang
      if n < 0 then .ub "endless loop"
      else mapOutcome (sample ks t sx sy sa (t.getLastD 0 / n)) (List.range n.toNat)

/-- Conversion of a `double` to `int`: towards 0; out of range is undefined behaviour. -/
noncomputable def toInt (v : ℝ) : Outcome Int :=
  let k : Int := if 0 ≤ v then ⌊v⌋ else ⌈v⌉
  if k < -2147483648 ∨ 2147483647 < k then .ub "double to int out of range" else .ok k

/-- `Path::discretize` (Path.cpp:434-441). -/
noncomputable def discretize (p : Path) (step : ℝ) : Outcome Path :=
  if 1 < List.length p then
    if step = 0 then .ub "infinity or NaN to int"
    else do
      let n ← toInt ((10 / step) * p.totalLength)
      let q ← p.populate n
      return q.reduce step
  else .ok p

end F2C.Path
