import Verif.Lemmas.Lines
import Verif.Model.PathPlanning
import Verif.Props.Angles
import Mathlib.Tactic.NormNum

/-!
# C91–C94: points, segments and directions of lines

C91: `setGeometry(i, p)` on a line, a ring or a multi point makes `p` the `i`-th point and changes no other; the
first and the last point are those of the sequence.
C92: the segments of a line join up, run through its points in order and have its length.
C93: reversing a line turns its first direction into the opposite of what was the last one.
C94: the direction in a point of a multi point lies half way between the directions to and from it.
-/

namespace F2C.Props

open Real Lines

/-! ## C91 -/

/-- C91, lines and rings: the new point is where it should be, the old ones are where they were, all others are
the origin, and the line gets no longer than needed. -/
theorem C91_line {K : Type} [Field K] [LinearOrder K] (l : List (Point K)) (i : Nat) (p : Point K) :
    (Lines.set l i p).length = max l.length (i + 1) ∧ get (Lines.set l i p) i = .ok p ∧
    (∀ j, j < l.length → j ≠ i → get (Lines.set l i p) j = get l j) ∧
    ∀ j, l.length ≤ j → j < i → get (Lines.set l i p) j = .ok ⟨0, 0, 0⟩ := by
  have hlen : (Lines.set l i p).length = max l.length (i + 1) := by simp [Lines.set]; omega
  refine ⟨hlen, ?_, ?_, ?_⟩
  · rw [get_lt (by rw [hlen]; omega)]
    simp [Lines.set]
  · intro j hj hji
    rw [get_lt (by rw [hlen]; omega), get_lt hj]
    simp only [Lines.set]
    rw [List.getElem_set_ne (by omega), List.getElem_append_left hj]
  · intro j hj hji
    rw [get_lt (by rw [hlen]; omega)]
    simp only [Lines.set]
    rw [List.getElem_set_ne (by omega), List.getElem_append_right hj]
    simp [Point.zero]

/-- One point is replaced; far beyond the end, origins are put in between. -/
example : Lines.set [(⟨1, 1, 0⟩ : Point ℚ), ⟨2, 2, 0⟩] 1 ⟨5, 5, 5⟩ = [⟨1, 1, 0⟩, ⟨5, 5, 5⟩] ∧
    Lines.set [(⟨1, 1, 0⟩ : Point ℚ)] 3 ⟨5, 5, 5⟩ = [⟨1, 1, 0⟩, ⟨0, 0, 0⟩, ⟨0, 0, 0⟩, ⟨5, 5, 5⟩] := ⟨rfl, rfl⟩

/-- C91, multi points (part): the same for points that exist.  Missing: other positions, see
`C91_multi_ub`. -/
theorem C91_multi_partial {K : Type} [Field K] [LinearOrder K] (l : List (Point K)) (i : Nat) (p : Point K)
    (hi : i < l.length) :
    ∃ l', setMulti l i p = .ok l' ∧ l'.length = l.length ∧ get l' i = .ok p ∧ ∀ j, j ≠ i → get l' j = get l j := by
  refine ⟨l.set i p, by rw [setMulti, if_pos hi], by simp, ?_, ?_⟩
  · rw [get_lt (by simpa using hi)]; simp
  · intro j hj
    unfold Lines.get
    rw [List.getElem?_set_ne (by omega)]

example : setMulti [(⟨1, 1, 0⟩ : Point ℚ), ⟨2, 2, 0⟩] 1 ⟨5, 5, 5⟩ = .ok [⟨1, 1, 0⟩, ⟨5, 5, 5⟩] := rfl

/-- C91 is false of multi points: a position behind the last point is undefined behaviour. -/
theorem C91_multi_ub {K : Type} [Field K] [LinearOrder K] (l : List (Point K)) (i : Nat) (p : Point K)
    (hi : l.length ≤ i) : (setMulti l i p).isUb = true := by
  rw [setMulti, if_neg (by omega)]
  rfl

/-- C91: reading a point behind the last one throws. -/
theorem C91_get_throws {K : Type} [Field K] [LinearOrder K] (l : List (Point K)) (i : Nat) :
    (∃ p, get l i = .ok p ∧ l[i]? = some p) ↔ i < l.length := by
  constructor
  · rintro ⟨p, -, h⟩
    exact (List.getElem?_eq_some_iff.1 h).1
  · intro h
    exact ⟨_, get_lt h, List.getElem?_eq_getElem h⟩

/-- C91: first and last point; lines without points throw. -/
theorem C91_ends {K : Type} [Field K] [LinearOrder K] (l : List (Point K)) (hl : l.length < 2 ^ 64) :
    (l = [] → first l = .throw .outOfRange ∧ last l = .throw .outOfRange) ∧
    ∀ a b (m : List (Point K)), l = a :: m → l.getLast? = some b → first l = .ok a ∧ last l = .ok b := by
  constructor
  · rintro rfl
    exact ⟨rfl, get_ge (by simp)⟩
  · rintro a b m rfl h
    refine ⟨rfl, ?_⟩
    rw [List.getLast?_eq_getElem?] at h
    unfold last Lines.get
    rw [wrapSub_of_le (by simp), h]

example : first [(⟨1, 1, 0⟩ : Point ℚ), ⟨2, 2, 0⟩, ⟨7, 7, 0⟩] = .ok ⟨1, 1, 0⟩ ∧
    last [(⟨1, 1, 0⟩ : Point ℚ), ⟨2, 2, 0⟩, ⟨7, 7, 0⟩] = .ok ⟨7, 7, 0⟩ := ⟨rfl, rfl⟩

/-! ## C92 -/

/-- C92 (part): a line of `n` points, `n` not 0, has `n - 1` segments; segment `i` goes from point `i` to point
`i + 1`; together they are as long as the line.  Missing: lines without points, see `C92_empty_throws`. -/
theorem C92_partial (l : List RPoint) (hl : l ≠ []) :
    ∃ segs, segments l = .ok segs ∧ segs.length = l.length - 1 ∧
      (∀ i a b, l[i]? = some a → l[i + 1]? = some b → segs[i]? = some [a, b]) ∧
      (segs.map lineLength).sum = lineLength l := by
  have hpos : 0 < l.length := List.length_pos_iff.2 hl
  obtain ⟨segs, h1, h2, h3⟩ := segmentsFrom_eq l (l.length - 1) 0 (by omega)
  refine ⟨segs, ?_, h2, ?_, ?_⟩
  · rw [segments, wrapSub_of_le (by omega), h1]
  · intro i a b ha hb
    have := (List.getElem?_eq_some_iff.1 hb).1
    exact h3 i a b (by omega) (by rwa [Nat.zero_add]) (by rwa [Nat.zero_add])
  · clear h1 hpos hl
    induction l generalizing segs with
    | nil => have := List.length_eq_zero_iff.1 h2; subst this; simp [lineLength]
    | cons a l ih =>
      cases l with
      | nil => have := List.length_eq_zero_iff.1 h2; subst this; simp [lineLength]
      | cons b l =>
        cases segs with
        | nil => simp at h2
        | cons s segs =>
          have h0 := h3 0 a b (by simp) rfl rfl
          simp only [List.getElem?_cons_zero, Option.some.injEq] at h0
          subst h0
          have := ih segs (by simpa using h2) (fun j x y hj hx hy => by
            have := h3 (j + 1) x y (by simp at hj ⊢; omega) (by rw [← hx]; simp) (by rw [← hy]; simp)
            simpa using this)
          rw [List.map_cons, List.sum_cons, this]
          simp [lineLength]

example : segments [(⟨1, 1, 0⟩ : Point ℚ), ⟨2, 2, 0⟩, ⟨7, 7, 0⟩] =
    .ok [[⟨1, 1, 0⟩, ⟨2, 2, 0⟩], [⟨2, 2, 0⟩, ⟨7, 7, 0⟩]] := rfl

/-- C92 is false of lines without points: their number of points minus one wraps around, and the first access
throws. -/
theorem C92_empty_throws : segments ([] : List RPoint) = .throw .outOfRange := rfl

/-! ## C93 -/

/-- Directions of a line of at least two points: those of its first and last segments. -/
theorem C93_directions (l : List RPoint) (a b c d : RPoint) (m m' : List RPoint) (hl : l = a :: b :: m)
    (hr : l = m' ++ [c, d]) : ∃ s e, startAngle l = .ok s ∧ endAngle l = .ok e ∧
      b.x = a.x + pdist b a * cos s ∧ b.y = a.y + pdist b a * sin s ∧
      d.x = c.x + pdist d c * cos e ∧ d.y = c.y + pdist d c * sin e := by
  refine ⟨angleFromPoint (b.sub a), angleFromPoint (d.sub c), ?_, ?_, ?_, ?_, ?_, ?_⟩
  · subst hl; rfl
  · have h2 : l.length = m'.length + 2 := by rw [hr]; simp
    unfold endAngle last
    rw [wrapSub_of_le (by omega), wrapSub_of_le (by omega), get_lt (by omega), Outcome.ok_bind,
      get_lt (by omega), Outcome.ok_bind]
    have e1 : l[l.length - 1]'(by omega) = d := by simp [hr]
    have e2 : l[l.length - 2]'(by omega) = c := by simp [hr]
    rw [e1, e2]
    rfl
  · rw [pdist_polar_x]; ring
  · rw [pdist_polar_y]; ring
  · rw [pdist_polar_x]; ring
  · rw [pdist_polar_y]; ring

example : ∃ s e, startAngle [⟨0, 0, 0⟩, ⟨1, 0, 0⟩, ⟨1, 2, 0⟩] = .ok s ∧
    endAngle [⟨0, 0, 0⟩, ⟨1, 0, 0⟩, ⟨1, 2, 0⟩] = .ok e ∧ cos s = 1 ∧ sin e = 1 := by
  obtain ⟨s, e, h1, h2, h3, -, -, h6⟩ := C93_directions [⟨0, 0, 0⟩, ⟨1, 0, 0⟩, ⟨1, 2, 0⟩] ⟨0, 0, 0⟩ ⟨1, 0, 0⟩
    ⟨1, 0, 0⟩ ⟨1, 2, 0⟩ [⟨1, 2, 0⟩] [⟨0, 0, 0⟩] rfl rfl
  refine ⟨s, e, h1, h2, ?_, ?_⟩
  · norm_num [pdist] at h3; exact h3.symm
  · norm_num [pdist] at h6
    rw [show (4 : ℝ) = 2 ^ 2 by norm_num, Real.sqrt_sq (by norm_num)] at h6
    linarith

/-- C93 (part): the reversed line starts in the opposite of the direction in which the line ended, if its last two
points differ.  Missing: repeated points at the end, see `C93_false`. -/
theorem C93_partial (l m : List RPoint) (c d : RPoint) (hl : l = m ++ [c, d]) (hd : pdist c d ≠ 0) :
    ∃ e s, endAngle l = .ok e ∧ startAngle l.reverse = .ok s ∧ SameAngle s (e + π) := by
  obtain ⟨a, b, m₀, hab⟩ : ∃ a b m₀, l = a :: b :: m₀ := by
    rcases l with _ | ⟨a, _ | ⟨b, m₀⟩⟩
    · have := congrArg List.length hl; simp at this
    · have := congrArg List.length hl; simp at this
    · exact ⟨a, b, m₀, rfl⟩
  obtain ⟨-, e, -, he, -⟩ := C93_directions l a b c d m₀ m hab hl
  have he' : e = angleFromPoint (d.sub c) := by
    have h2 : l.length = m.length + 2 := by rw [hl]; simp
    unfold endAngle last at he
    rw [wrapSub_of_le (by omega), wrapSub_of_le (by omega), get_lt (by omega), Outcome.ok_bind,
      get_lt (by omega), Outcome.ok_bind] at he
    have e1 : l[l.length - 1]'(by omega) = d := by simp [hl]
    have e2 : l[l.length - 2]'(by omega) = c := by simp [hl]
    rw [e1, e2] at he
    cases he
    rfl
  refine ⟨e, angleFromPoint (c.sub d), he, ?_, ?_⟩
  · rw [hl, List.reverse_append]; rfl
  · rw [he']
    exact angle_neg d c (by rwa [pdist_comm])

/-- The other way round: the reversed line ends in the opposite of the direction in which the line started. -/
theorem C93_end_partial (l m : List RPoint) (a b : RPoint) (hl : l = a :: b :: m) (hd : pdist a b ≠ 0) :
    ∃ s e, startAngle l = .ok s ∧ endAngle l.reverse = .ok e ∧ SameAngle s (e + π) := by
  obtain ⟨e, s, h1, h2, h3⟩ := C93_partial l.reverse m.reverse b a (by rw [hl]; simp) (by rwa [pdist_comm])
  rw [List.reverse_reverse] at h2
  exact ⟨s, e, h2, h1, h3⟩

example : ∃ e s, endAngle [⟨0, 0, 0⟩, ⟨1, 0, 0⟩, ⟨1, 2, 0⟩] = .ok e ∧
    startAngle [⟨1, 2, 0⟩, ⟨1, 0, 0⟩, ⟨0, 0, 0⟩] = .ok s ∧ SameAngle s (e + π) :=
  C93_partial [⟨0, 0, 0⟩, ⟨1, 0, 0⟩, ⟨1, 2, 0⟩] [⟨0, 0, 0⟩] ⟨1, 0, 0⟩ ⟨1, 2, 0⟩ rfl (by
    norm_num [pdist])

/-- C93, swaths: the in and out directions of a swath and of its reverse. -/
theorem C93_swath_partial (s : Swath ℝ) (m : List RPoint) (a b : RPoint) (hl : s.path = a :: b :: m)
    (hd : pdist a b ≠ 0) : ∃ x y, s.inAngle = .ok x ∧ s.reverse.outAngle = .ok y ∧ SameAngle x (y + π) := by
  refine ⟨angleFromPoint (b.sub a), angleFromPoint (a.sub b), ?_, ?_, ?_⟩
  · unfold Swath.inAngle; rw [hl]
  · unfold Swath.outAngle Swath.reverse
    simp only [List.reverse_reverse]
    rw [hl]
  · exact angle_neg a b hd

example : ∃ x y, (⟨0, [⟨0, 0, 0⟩, ⟨1, 0, 0⟩], 2, true, .mainland⟩ : Swath ℝ).inAngle = .ok x ∧
    (⟨0, [⟨1, 0, 0⟩, ⟨0, 0, 0⟩], 2, false, .mainland⟩ : Swath ℝ).outAngle = .ok y ∧ SameAngle x (y + π) :=
  C93_swath_partial ⟨0, [⟨0, 0, 0⟩, ⟨1, 0, 0⟩], 2, true, .mainland⟩ [] ⟨0, 0, 0⟩ ⟨1, 0, 0⟩ rfl (by
    norm_num [pdist])

/-- C93, swaths: the in and out directions are those of the first and last segments. -/
theorem C93_swath_directions (s : Swath ℝ) (a b c d : RPoint) (m m' : List RPoint) (hl : s.path = a :: b :: m)
    (hr : s.path = m' ++ [c, d]) : ∃ x y, s.inAngle = .ok x ∧ s.outAngle = .ok y ∧
      b.x = a.x + pdist b a * cos x ∧ b.y = a.y + pdist b a * sin x ∧
      d.x = c.x + pdist d c * cos y ∧ d.y = c.y + pdist d c * sin y := by
  refine ⟨angleFromPoint (b.sub a), angleFromPoint (d.sub c), ?_, ?_, ?_, ?_, ?_, ?_⟩
  · unfold Swath.inAngle; rw [hl]
  · unfold Swath.outAngle; rw [hr, List.reverse_append]; rfl
  · rw [pdist_polar_x]; ring
  · rw [pdist_polar_y]; ring
  · rw [pdist_polar_x]; ring
  · rw [pdist_polar_y]; ring

example : ∃ x y, (⟨0, [⟨0, 0, 0⟩, ⟨1, 0, 0⟩], 2, true, .mainland⟩ : Swath ℝ).inAngle = .ok x ∧
    (⟨0, [⟨0, 0, 0⟩, ⟨1, 0, 0⟩], 2, true, .mainland⟩ : Swath ℝ).outAngle = .ok y ∧ cos x = 1 ∧ cos y = 1 := by
  obtain ⟨x, y, h1, h2, h3, -, h5, -⟩ := C93_swath_directions ⟨0, [⟨0, 0, 0⟩, ⟨1, 0, 0⟩], 2, true, .mainland⟩
    ⟨0, 0, 0⟩ ⟨1, 0, 0⟩ ⟨0, 0, 0⟩ ⟨1, 0, 0⟩ [] [] rfl rfl
  norm_num [pdist] at h3 h5
  exact ⟨x, y, h1, h2, h3.symm, h5.symm⟩

/-- C93, short swaths: without points both directions are -1, and with one point they throw. -/
theorem C93_swath_short (s : Swath ℝ) :
    (s.path = [] → s.inAngle = .ok (-1) ∧ s.outAngle = .ok (-1)) ∧
    (s.path.length = 1 → s.inAngle = .throw .outOfRange ∧ s.outAngle = .throw .outOfRange) := by
  constructor
  · intro h
    unfold Swath.inAngle Swath.outAngle
    rw [h]
    exact ⟨rfl, rfl⟩
  · intro h
    obtain ⟨p, hp⟩ := List.length_eq_one_iff.1 h
    unfold Swath.inAngle Swath.outAngle
    rw [hp]
    exact ⟨rfl, rfl⟩

example : (⟨0, [], 2, true, .mainland⟩ : Swath ℝ).outAngle = .ok (-1) := ((C93_swath_short _).1 rfl).2

/-- C93: without a direction (coinciding points) the angle is 0, also of the reversed line, so the directions are
not opposite. -/
theorem C93_false : ∃ e s, endAngle [⟨0, 0, 0⟩, ⟨1, 0, 0⟩, ⟨1, 0, 0⟩] = .ok e ∧
    startAngle (List.reverse [⟨0, 0, 0⟩, ⟨1, 0, 0⟩, ⟨1, 0, 0⟩]) = .ok s ∧ ¬ SameAngle s (e + π) := by
  have h0 : angleFromPoint (Point.sub (⟨1, 0, 0⟩ : RPoint) ⟨1, 0, 0⟩) = 0 := by
    rw [angleFromPoint_eq]
    have : (⟨(Point.sub (⟨1, 0, 0⟩ : RPoint) ⟨1, 0, 0⟩).x, (Point.sub (⟨1, 0, 0⟩ : RPoint) ⟨1, 0, 0⟩).y⟩ : ℂ) = 0 := by
      simp [Point.sub, Complex.ext_iff]
    rw [this, Complex.arg_zero]
    exact mod2pi_of_range le_rfl (by have := pi_pos; linarith)
  refine ⟨_, _, rfl, rfl, ?_⟩
  show ¬ SameAngle (angleFromPoint (Point.sub ⟨1, 0, 0⟩ ⟨1, 0, 0⟩))
    (angleFromPoint (Point.sub ⟨1, 0, 0⟩ ⟨1, 0, 0⟩) + π)
  rw [h0]
  rintro ⟨k, hk⟩
  have hp := pi_pos
  have : (1 : ℝ) = k * 2 := by
    apply mul_right_cancel₀ hp.ne'
    linarith
  have h2 : (1 : ℤ) = k * 2 := by exact_mod_cast this
  omega

/-! ## C94 -/

/-- C94: the angle in an inner point of a multi point is as far from the direction to the point as from the
direction away from it, by half the angle between them. -/
theorem C94_inner (l : List RPoint) (i : Nat) (a b c : RPoint) (ha : l[i]? = some a) (hb : l[i + 1]? = some b)
    (hc : l[i + 2]? = some c) : ∃ x, pointAngle l (i + 1) = .ok x ∧
      angDiffAbs (angleFromPoint (b.sub a)) x =
        angDiffAbs (angleFromPoint (b.sub a)) (angleFromPoint (c.sub b)) / 2 ∧
      angDiffAbs (angleFromPoint (c.sub b)) x =
        angDiffAbs (angleFromPoint (b.sub a)) (angleFromPoint (c.sub b)) / 2 := by
  have hn := (List.getElem?_eq_some_iff.1 hc).1
  refine ⟨angAvg (angleFromPoint (b.sub a)) (angleFromPoint (c.sub b)), ?_, angAvg_spec _ _⟩
  have g : ∀ j (q : RPoint), l[j]? = some q → get l j = .ok q := by
    intro j q h
    unfold Lines.get
    rw [h]
  unfold pointAngle
  rw [if_neg (by omega), if_neg (by omega), wrapSub_of_le (by omega), if_neg (by omega), inAngle,
    if_neg (by omega), Nat.add_sub_cancel, g _ _ ha, g _ _ hb, outAngle, wrapSub_of_le (by omega),
    if_neg (by omega), g _ _ hb, g _ _ hc]
  rfl

/-- C94: in the first point it is the direction to the second one, in the last one the direction from the one
before; everywhere else (also if there are fewer than two points) an exception is thrown. -/
theorem C94_ends (l : List RPoint) (hl : l.length < 2 ^ 64) :
    (∀ a b m, l = a :: b :: m → pointAngle l 0 = .ok (angleFromPoint (b.sub a))) ∧
    (∀ a b m, l = m ++ [a, b] → pointAngle l (m.length + 1) = .ok (angleFromPoint (b.sub a))) ∧
    (∀ i, l.length < 2 → pointAngle l i = .throw .invalidArgument) ∧
    ∀ i, 2 ≤ l.length → l.length ≤ i → pointAngle l i = .throw .outOfRange := by
  refine ⟨?_, ?_, ?_, ?_⟩
  · rintro a b m rfl
    simp [pointAngle, outAngle, wrapSub, Lines.get]
  · rintro a b m rfl
    unfold pointAngle
    rw [if_neg (by simp), if_neg (by omega), wrapSub_of_le (by simp), if_pos (by simp), inAngle, if_neg (by omega),
      get_lt (by simp), get_lt (by simp)]
    simp
  · intro i h
    rw [pointAngle, if_pos h]
  · intro i h2 h
    unfold pointAngle
    rw [if_neg (by omega), if_neg (by omega), wrapSub_of_le (by omega), if_neg (by omega), inAngle,
      if_neg (by omega), get_ge h]
    rfl

/-- C94: the special cases that the path planner uses. -/
theorem C94_planner (l : List RPoint) :
    multiOutAngle0 l = outAngle l 0 ∧ (l ≠ [] → multiInAngleLast l = inAngle l (l.length - 1)) := by
  constructor
  · rcases l with _ | ⟨a, _ | ⟨b, m⟩⟩
    · rfl
    · rfl
    · simp [multiOutAngle0, outAngle, wrapSub, Lines.get]
  · intro hl
    rcases hr : l.reverse with _ | ⟨b, _ | ⟨a, m⟩⟩
    · simp at hr; contradiction
    · have : l = [b] := by rw [← List.reverse_reverse l, hr]; rfl
      subst this
      rfl
    · have : l = m.reverse ++ [a, b] := by rw [← List.reverse_reverse l, hr]; simp
      subst this
      unfold multiInAngleLast inAngle
      rw [hr, if_neg (by simp), get_lt (by simp), get_lt (by simp)]
      simp

/-- A right angle: half way between 0 and a quarter turn. -/
example : ∃ x, pointAngle [⟨0, 0, 0⟩, ⟨1, 0, 0⟩, ⟨1, 2, 0⟩] 1 = .ok x ∧
    angDiffAbs (angleFromPoint (Point.sub ⟨1, 0, 0⟩ ⟨0, 0, 0⟩)) x =
      angDiffAbs (angleFromPoint (Point.sub ⟨1, 0, 0⟩ ⟨0, 0, 0⟩)) (angleFromPoint (Point.sub ⟨1, 2, 0⟩ ⟨1, 0, 0⟩)) / 2 := by
  obtain ⟨x, h1, h2, -⟩ := C94_inner [⟨0, 0, 0⟩, ⟨1, 0, 0⟩, ⟨1, 2, 0⟩] 0 ⟨0, 0, 0⟩ ⟨1, 0, 0⟩ ⟨1, 2, 0⟩ rfl rfl rfl
  exact ⟨x, h1, h2⟩

end F2C.Props
