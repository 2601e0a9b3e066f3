import Verif.Model.Geom
import Verif.Model.Swath

/-!
# Paths

`src/fields2cover/types/Path.cpp` and `PathState.cpp`, with `double` idealised as `ℝ`.
-/

namespace F2C

/-- `PathSectionType` (include/fields2cover/types/PathState.h:15-19). -/
inductive SectionType
  | swath
  | turn
  | hlSwath
  deriving DecidableEq, Repr

/-- `PathDirection` (PathState.h:21-25). -/
inductive PathDir
  | forward
  | backward
  deriving DecidableEq, Repr

/-- `static_cast<double>(dir)` (PathState.h:21-25: FORWARD = 1, BACKWARD = -1). -/
def PathDir.sign {K : Type} [One K] [Neg K] : PathDir → K
  | .forward => 1
  | .backward => -1

/-- `PathState` (PathState.h:27-37). -/
structure PathState (K : Type) where
  point : Point K
  angle : K
  len : K
  dir : PathDir
  type : SectionType
  velocity : K

/-- Default constructed state (PathState.h:28-33). -/
def PathState.default {K : Type} [Zero K] [One K] : PathState K :=
  ⟨⟨0, 0, 0⟩, 0, 0, .forward, .swath, 1⟩

/-- `Path` (include/fields2cover/types/Path.h): a vector of states. -/
abbrev Path := List (PathState ℝ)

/-- `PathState::atEnd` (src/fields2cover/types/PathState.cpp:11-13). -/
noncomputable def PathState.atEnd (s : PathState ℝ) : RPoint :=
  pointFromAngle s.point s.angle (s.len * s.dir.sign)

namespace Path

/-- `Path::length` (Path.cpp:205-208). -/
noncomputable def totalLength (p : Path) : ℝ := p.foldl (fun d s => d + |s.len|) 0

/-- `Path::getTaskTime` (Path.cpp:54-57).  A velocity of 0 gives an infinite or NaN time in the
code and 0 here. -/
noncomputable def taskTime (p : Path) : ℝ := p.foldl (fun d s => s.len / s.velocity + d) 0

/-- `Path::atStart` (Path.cpp:252-254). -/
def atStart (p : Path) : Outcome RPoint :=
  match p with
  | [] => .ub "states_[0] of an empty path"
  | s :: _ => .ok s.point

/-- `Path::atEnd` (Path.cpp:256-258). -/
noncomputable def atEnd (p : Path) : Outcome RPoint :=
  match p.getLast? with
  | none => .ub "back() of an empty path"
  | some s => .ok s.atEnd

/-- `Path::moveTo` (Path.cpp:138-142). -/
noncomputable def moveTo (p : Path) (v : RPoint) : Path :=
  p.map fun s => { s with point := s.point.add v }

/-- `Path::rotateFromPoint` (Path.cpp:144-149). -/
noncomputable def rotateFromPoint (p : Path) (c : RPoint) (ang : ℝ) : Path :=
  p.map fun s => { s with point := rotateFrom c ang s.point, angle := mod2pi (s.angle + ang) }

/-- `Path::mirrorX` (Path.cpp:151-156). -/
noncomputable def mirrorX (p : Path) : Path :=
  p.map fun s => { s with point := { s.point with x := -s.point.x },
                          angle := mod2pi (Real.pi - s.angle) }

/-- `Path::mirrorY` (Path.cpp:157-162). -/
noncomputable def mirrorY (p : Path) : Path :=
  p.map fun s => { s with point := { s.point with y := -s.point.y }, angle := mod2pi (-s.angle) }

/-- Loop of `Path::at` (Path.cpp:234-248): `len` is what is left to go. -/
noncomputable def atLoop (len : ℝ) : Path → PathState ℝ
  | [] => PathState.default
  | s :: l =>
    if |s.len| < len then atLoop (len - |s.len|) l
    else
      let len' := len * s.dir.sign
      { s with point := ⟨s.point.x + len' * Real.cos s.angle, s.point.y + len' * Real.sin s.angle, 0⟩ }

/-- `Path::at` (Path.cpp:225-250).  The recursive calls end after one step (`at(total_length)` and
`at(0)` are in range). -/
noncomputable def stateAt (p : Path) (len : ℝ) : PathState ℝ :=
  if len > p.totalLength then atLoop p.totalLength p
  else if len < 0 then atLoop 0 p
  else atLoop len p

/-- The pieces of one swath section (Path.cpp:309-316). -/
noncomputable def splitState (step : ℝ) (s : PathState ℝ) : List (PathState ℝ) :=
  let n : ℝ := max 1 (cround |s.len / step|)
  let start2end := s.atEnd.sub s.point
  -- `for (double j = 0.0; j < n_steps; j += 1.0)`
  (List.range ⌈n⌉₊).map fun (j : Nat) =>
    { s with point := s.point.add (start2end.smul ((j : ℝ) / n)), len := s.len / n }

/-- `Path::discretizeSwath` (Path.cpp:305-322).  With a step of 0, `n_steps` is infinite for every
swath section that has a length: the loop never ends. -/
noncomputable def discretizeSwath (p : Path) (step : ℝ) : Outcome Path :=
  if step = 0 ∧ ∃ s ∈ p, s.type = .swath ∧ s.len ≠ 0 then .ub "endless loop"
  else .ok (p.flatMap fun s => if s.type = .swath then splitState step s else [s])

/-- Inner loop of `Path::reduce` (Path.cpp:402-410): the states after `s` merged into it, `len` being
the length so far; returns the new length and what is left. -/
noncomputable def absorb (d : ℝ) (s : PathState ℝ) (len : ℝ) : Path → ℝ × Path
  | [] => (len, [])
  | r :: l =>
    if s.type = r.type ∧ s.dir = r.dir ∧ pdist s.point r.point < d then absorb d s (len + r.len) l
    else (len, r :: l)

theorem absorb_length (d : ℝ) (s : PathState ℝ) (len : ℝ) (l : Path) :
    List.length (absorb d s len l).2 ≤ List.length l := by
  induction l generalizing len with
  | nil => simp [absorb]
  | cons r l ih =>
    unfold absorb
    split
    · exact (ih _).trans (by simp)
    · simp

/-- `Path::reduce` (Path.cpp:397-423). -/
noncomputable def reduce (d : ℝ) : Path → Path
  | [] => []
  | s :: l =>
    { s with len := (absorb d s s.len l).1 } :: reduce d (absorb d s s.len l).2
  termination_by p => List.length p
  decreasing_by
    have := absorb_length d s s.len l
    simp; omega

/-- `Path::toLineString` (Path.cpp:425-432). -/
noncomputable def toLineString (p : Path) : Outcome (List RPoint) := do
  let e ← p.atEnd
  return p.map (·.point) ++ [e]

/-- `Path::appendSwath` (Path.cpp:210-223): one state per segment.  For a swath without points the
loop bound wraps around and `getPoint(0)` throws (LineString.cpp:83-88). -/
noncomputable def swathStates (speed : ℝ) : List RPoint → Path
  | a :: b :: l =>
    { point := a
      angle := angleFromPoint ⟨b.x - a.x, b.y - a.y, 0⟩
      len := pdist b a
      dir := .forward
      type := .swath
      velocity := speed } :: swathStates speed (b :: l)
  | _ => []

/-- `Path::appendSwath` (Path.cpp:210-223). -/
noncomputable def appendSwath (p : Path) (s : Swath ℝ) (speed : ℝ) : Outcome Path :=
  match s.path with
  | [] => .throw .outOfRange
  | line => .ok (p ++ swathStates speed line)

end Path
end F2C
