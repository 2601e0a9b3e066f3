import Verif.Model.Double
import Verif.Model.Path
import Verif.Model.PathSpline

/-!
# Lengths of paths in double precision

`Path::length` and `Path::at` (`src/fields2cover/types/Path.cpp:205-208, 225-250`), the arc lengths of `Path::populate`
(346-377), the sections of its states (381-393) and `Path::discretizeSwath` (305-322) with every operation rounded.
-/

namespace F2C.Dbl

/-- `Path::length` (Path.cpp:205-208). -/
noncomputable def length (fl : ℝ → ℝ) (p : Path) : ℝ := p.foldl (fun d s => fl (d + |s.len|)) 0

/-- Loop of `Path::at` (Path.cpp:234-249): `len` is what is left to go.  `cos` and `sin` are those of the C library, of
which nothing is assumed. -/
noncomputable def atLoop (fl cos sin : ℝ → ℝ) (len : ℝ) : Path → PathState ℝ
  | [] => PathState.default
  | s :: l =>
    if |s.len| < len then atLoop fl cos sin (fl (len - |s.len|)) l
    else
      let len' := fl (len * s.dir.sign)
      { s with point := ⟨fl (s.point.x + fl (len' * cos s.angle)), fl (s.point.y + fl (len' * sin s.angle)), 0⟩ }

/-- `Path::at` (Path.cpp:225-250). -/
noncomputable def stateAt (fl cos sin : ℝ → ℝ) (p : Path) (len : ℝ) : PathState ℝ :=
  if len > length fl p then atLoop fl cos sin (length fl p) p
  else if len < 0 then atLoop fl cos sin 0 p
  else atLoop fl cos sin len p

/-- Arc lengths of the knots (Path.cpp:372-373). -/
noncomputable def arcs (fl : ℝ → ℝ) (ks : List (PathState ℝ)) : List ℝ :=
  (ks.dropLast.map (·.len)).scanl (fun a b => fl (a + b)) 0

/-- `Path::populate` up to the splines (Path.cpp:346-377), with the arc lengths it goes on with.  Simplification: of the
constructor of the splines only the checks are modelled (spline.cpp:47-63, 126-129), which do not depend on the other
vectors. -/
noncomputable def populateArcs (fl : ℝ → ℝ) (p : Path) : Outcome (List ℝ) :=
  match List.getLast? p with
  | none => .ub "back() of an empty path"
  | some last =>
    let t := arcs fl (Path.knots p last)
    if ¬ 1 < t.length then .throw .outOfRange
    else if ¬ (List.range (t.length - 2)).all (fun i => decide (Spline.nth t (i + 1) < Spline.nth t (i + 2))) then
      .throw .outOfRange
    else .ok t

/-- Distances at which `Path::populate` puts its states and the numbers of the knots they take velocity, direction and type
from (Path.cpp:381-393).  Numbers of points fit into `double`.  For paths of three or more states; others
stay as they are (348). -/
noncomputable def populateSections (fl : ℝ → ℝ) (p : Path) (n : Nat) : Outcome (List (ℝ × Nat)) := do
  let t ← populateArcs fl p
  let step := fl (t.getLastD 0 / n)
  mapOutcome (fun i : Nat => do
    let d := fl (i * step)
    let it ← Path.sectionAt t (fl (d + fl (1 / 10 ^ 10)))
    return (d, it)) (List.range n)

/-- `PathState::atEnd` (src/fields2cover/types/PathState.cpp:11-13) with `Point::getPointFromAngle`
(src/fields2cover/types/Point.cpp:145-147). -/
noncomputable def endPoint (fl cos sin : ℝ → ℝ) (s : PathState ℝ) : RPoint :=
  let dist := fl (s.len * s.dir.sign)
  ⟨fl (s.point.x + fl (dist * cos s.angle)), fl (s.point.y + fl (dist * sin s.angle)), 0⟩

/-- State `j` of `n` (Path.cpp:313-315) with the operators of points (Point.cpp:57-63, 72-74); `e` is the end of the
section. -/
noncomputable def piece (fl : ℝ → ℝ) (s : PathState ℝ) (e : RPoint) (n j : ℝ) : PathState ℝ :=
  let t := fl (j / n)
  { s with
    point := ⟨fl (s.point.x + fl (fl (e.x - s.point.x) * t)), fl (s.point.y + fl (fl (e.y - s.point.y) * t)),
      fl (s.point.z + fl (fl (e.z - s.point.z) * t))⟩
    len := fl (s.len / n) }

/-- The loop over the pieces of a section (Path.cpp:312-317), from `j` on.  Out of fuel: more rounds than allowed. -/
noncomputable def pieceLoop (fl : ℝ → ℝ) (s : PathState ℝ) (e : RPoint) (n : ℝ) : Nat → ℝ → Outcome Path
  | 0, j => if j < n then .ub "endless loop" else .ok []
  | fuel + 1, j =>
    if j < n then do
      let rest ← pieceLoop fl s e n fuel (fl (j + 1))
      return piece fl s e n j :: rest
    else .ok []

/-- The number of pieces of a section (Path.cpp:310).  The functions `round` and `fabs` of the C library are exact. -/
noncomputable def nSteps (fl : ℝ → ℝ) (step : ℝ) (s : PathState ℝ) : ℝ := max 1 (cround |fl (s.len / step)|)

/-- The pieces of one swath section (Path.cpp:310-317).  Dividing a length that is not 0 by a step of 0 gives infinity. -/
noncomputable def splitState (fl cos sin : ℝ → ℝ) (step : ℝ) (s : PathState ℝ) : Outcome Path :=
  if step = 0 ∧ s.len ≠ 0 then .ub "endless loop"
  else pieceLoop fl s (endPoint fl cos sin s) (nSteps fl step s) ⌈nSteps fl step s⌉₊ 0

/-- `Path::discretizeSwath` (Path.cpp:305-322). -/
noncomputable def discretizeSwath (fl cos sin : ℝ → ℝ) (step : ℝ) : Path → Outcome Path
  | [] => .ok []
  | s :: p => do
    let g ← if s.type = .swath then splitState fl cos sin step s else .ok [s]
    let rest ← discretizeSwath fl cos sin step p
    return g ++ rest

end F2C.Dbl
