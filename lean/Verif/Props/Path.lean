import Mathlib.Tactic.NormNum
import Mathlib.Analysis.SpecialFunctions.Trigonometric.Basic
import Verif.Lemmas.Path

/-! # C33, C34, C36, C37: operations on paths -/

namespace F2C.Props

open PathSpec Real

set_option linter.unusedSimpArgs false

/-- a state for examples -/
noncomputable def st (x y ang len : ℝ) (t : SectionType) (v : ℝ) : PathState ℝ :=
  ⟨⟨x, y, 0⟩, ang, len, .forward, t, v⟩

/-! ## C33 -/

/-- C33: every state that is not a swath section stays, every swath section is cut into pieces
(`CutInto`); length, task time and end point are kept. -/
theorem C33_discretize_swath (p : Path) (step : ℝ) (hs : step ≠ 0) :
    ∃ q, p.discretizeSwath step = .ok q ∧
      (∃ groups : List Path, q = groups.flatten ∧
        List.Forall₂ (fun s g => if s.type = .swath then CutInto step s g else g = [s]) p groups) ∧
      q.totalLength = p.totalLength ∧ q.taskTime = p.taskTime ∧ q.atEnd = p.atEnd := by
  refine ⟨p.flatMap fun s => if s.type = .swath then Path.splitState step s else [s], ?_, ?_⟩
  · unfold Path.discretizeSwath
    rw [if_neg (by rintro ⟨h, _⟩; exact hs h)]
  have hg : List.Forall₂ (fun (s : PathState ℝ) (g : Path) =>
      if s.type = .swath then CutInto step s g else g = [s]) p
      (p.map fun s => if s.type = .swath then Path.splitState step s else [s]) := by
    rw [List.forall₂_map_right_iff, List.forall₂_same]
    intro s _
    by_cases h : s.type = .swath
    · simp only [h, if_true]; exact splitState_cut step hs s
    · simp only [h, if_false]
  have hone : ∀ s : PathState ℝ,
      lengthOf (if s.type = .swath then Path.splitState step s else [s]) = |s.len| ∧
      timeOf (if s.type = .swath then Path.splitState step s else [s]) = s.len / s.velocity ∧
      (if s.type = .swath then Path.splitState step s else [s]).getLast?.map PathState.atEnd =
        some s.atEnd := by
    intro s
    by_cases h : s.type = .swath
    · simp only [h, if_true]
      have hc := splitState_cut step hs s
      exact ⟨(cut_length hc).1, (cut_length hc).2, hc.last⟩
    · simp only [h, if_false]
      simp [lengthOf, timeOf]
  refine ⟨⟨_, List.flatMap_def .., hg⟩, ?_, ?_, ?_⟩
  · rw [totalLength_eq, totalLength_eq]
    clear hg
    induction p with
    | nil => rfl
    | cons s p ih => rw [List.flatMap_cons, lengthOf_append, (hone s).1, ih, lengthOf_cons]
  · rw [taskTime_eq, taskTime_eq]
    clear hg
    induction p with
    | nil => rfl
    | cons s p ih => rw [List.flatMap_cons, timeOf_append, (hone s).2.1, ih, timeOf_cons]
  · cases p using List.reverseRecOn with
    | nil => rfl
    | append_singleton l s =>
      have h := (hone s).2.2
      unfold Path.atEnd
      rw [List.flatMap_append, List.flatMap_singleton, List.getLast?_append, List.getLast?_append]
      rcases hl : (if s.type = .swath then Path.splitState step s else [s]).getLast? with _ | t
      · rw [hl] at h; simp at h
      · rw [hl] at h
        simp only [Option.map_some, Option.some.injEq] at h
        simp [h]

/-- C33: with a step of zero the loop never ends if some swath section has a length, and the path stays as it is
if none has. -/
theorem C33_zero_step (p : Path) :
    ((p.discretizeSwath 0).isUb = true ↔ ∃ s ∈ p, s.type = .swath ∧ s.len ≠ 0) ∧
    ((∀ s ∈ p, s.type = .swath → s.len = 0) → p.discretizeSwath 0 = .ok p) := by
  unfold Path.discretizeSwath
  constructor
  · by_cases h : ∃ s ∈ p, s.type = .swath ∧ s.len ≠ 0
    · rw [if_pos ⟨rfl, h⟩]
      exact iff_of_true rfl h
    · rw [if_neg (fun hh => h hh.2)]
      exact iff_of_false (by simp [Outcome.isUb]) h
  · intro h
    rw [if_neg (by rintro ⟨-, s, hs, h1, h2⟩; exact h2 (h s hs h1))]
    congr 1
    conv_rhs => rw [← List.flatMap_singleton' p]
    refine List.flatMap_congr fun s hs => ?_
    by_cases hsw : s.type = .swath
    · rw [if_pos hsw]
      have h0 := h s hs hsw
      have hz : max (1 : ℝ) (cround |s.len / 0|) = 1 := by
        have := abs_le.1 (cround_near |s.len / 0|)
        rw [h0] at this ⊢
        simp only [zero_div, abs_zero] at this ⊢
        refine max_eq_left ?_
        linarith [this.2]
      unfold Path.splitState
      simp only [hz, Nat.ceil_one, List.range_one, List.map_cons, List.map_nil, Nat.cast_zero, zero_div, div_one]
      simp [Point.add, Point.smul]
    · rw [if_neg hsw]

example : (Path.discretizeSwath [st 0 0 0 3 .swath 1] 0).isUb = true ∧
    Path.discretizeSwath [st 0 0 0 3 .turn 1, st 1 2 0 0 .swath 1] 0 =
      .ok [st 0 0 0 3 .turn 1, st 1 2 0 0 .swath 1] :=
  ⟨(C33_zero_step _).1.2 ⟨_, List.mem_singleton.2 rfl, rfl, by norm_num [st]⟩,
    (C33_zero_step _).2 (by simp [st])⟩

example : (2 : ℝ) ≠ 0 ∧ (st 0 0 0 5 .swath 1).type = .swath := ⟨by norm_num, rfl⟩

/-! ## C34 -/

/-- C34: the path is cut into groups of states; each group is replaced by its first state with the
length of the whole group; the others are near that state and have the same type and direction; and
no state that is kept could be merged into the one kept before. -/
theorem C34_groups (p : Path) (d : ℝ) :
    ∃ groups : List Path, p = groups.flatten ∧ List.Forall₂ (StandsFor d) groups (Path.reduce d p) ∧
      (Path.reduce d p).IsChain fun a b =>
        ¬ (b.type = a.type ∧ b.dir = a.dir ∧ pdist a.point b.point < d) :=
  reduce_spec d p

private theorem sum_abs_group {g : Path} (h : ∀ s ∈ g, 0 ≤ s.len) :
    lengthOf g = |(g.map (·.len)).sum| := by
  have e : lengthOf g = (g.map (·.len)).sum := by
    unfold lengthOf
    congr 1
    exact List.map_congr_left fun s hs => abs_of_nonneg (h s hs)
  rw [← e, abs_of_nonneg (lengthOf_nonneg g)]

/-- C34: the total length is kept, for lengths that are not negative (as PathState.h:30 asks). -/
theorem C34_length (p : Path) (d : ℝ) (h : ∀ s ∈ p, 0 ≤ s.len) :
    (Path.reduce d p).totalLength = p.totalLength := by
  rw [totalLength_eq, totalLength_eq]
  obtain ⟨gs, h1, h2, h3⟩ := reduce_spec d p
  clear h3
  generalize Path.reduce d p = q at h2 ⊢
  subst h1
  induction h2 with
  | nil => rfl
  | cons hs _ ih =>
    rename_i g t gs q _
    obtain ⟨s, rest, e1, e2, _⟩ := hs
    rw [lengthOf_cons, List.flatten_cons, lengthOf_append,
      ih (fun x hx => h x (by simp at hx ⊢; exact Or.inr hx)),
      sum_abs_group (g := g) (fun x hx => h x (by simp; exact Or.inl hx)), e2]

/-- C34: the task time is kept.  Partial: if states of the same type and direction have the same
velocity. -/
theorem C34_time_partial (p : Path) (d : ℝ)
    (h : ∀ s ∈ p, ∀ r ∈ p, r.type = s.type → r.dir = s.dir → r.velocity = s.velocity) :
    (Path.reduce d p).taskTime = p.taskTime := by
  rw [taskTime_eq, taskTime_eq]
  obtain ⟨gs, h1, h2, h3⟩ := reduce_spec d p
  clear h3
  generalize Path.reduce d p = q at h2 ⊢
  subst h1
  induction h2 with
  | nil => rfl
  | cons hs _ ih =>
    rename_i g t gs q _
    obtain ⟨s, rest, e1, e2, e3⟩ := hs
    rw [timeOf_cons, List.flatten_cons, timeOf_append,
      ih (fun x hx y hy => h x (by simp at hx ⊢; exact Or.inr hx) y
        (by simp at hy ⊢; exact Or.inr hy)), e2]
    have hv : ∀ r ∈ g, r.velocity = s.velocity := by
      intro r hr
      subst e1
      rcases List.mem_cons.1 hr with rfl | hr'
      · rfl
      · exact h s (by simp) r (by simp [hr']) (e3 r hr').1 (e3 r hr').2.1
    congr 1
    simp only
    unfold timeOf
    have : (g.map fun r => r.len / r.velocity) = (g.map (·.len)).map (· / s.velocity) := by
      rw [List.map_map]
      exact List.map_congr_left fun r hr => by simp [hv r hr]
    rw [this]
    induction (g.map (·.len)) with
    | nil => simp
    | cons a l ih => rw [List.sum_cons, List.map_cons, List.sum_cons, ← ih]; ring

/-- C34: the first state keeps everything but its length. -/
theorem C34_first (s : PathState ℝ) (p : Path) (d : ℝ) :
    ∃ len rest, Path.reduce d (s :: p) = { s with len := len } :: rest := by
  rw [Path.reduce]; exact ⟨_, _, rfl⟩

example : ∀ s ∈ [st 0 0 0 1 .turn 2, st (1 / 10) 0 0 1 .turn 2], 0 ≤ s.len := by
  intro s hs
  simp only [List.mem_cons, List.not_mem_nil, or_false] at hs
  rcases hs with rfl | rfl <;> norm_num [st]

/-- C34 fails for the task time when neighbouring states have different velocities: the merged
state drives everything with the velocity of the first one. -/
theorem C34_time_fails : ∃ (p : Path) (d : ℝ), (∀ s ∈ p, 0 ≤ s.len) ∧
    (Path.reduce d p).taskTime ≠ p.taskTime := by
  refine ⟨[st 0 0 0 1 .turn 1, st 1 0 0 1 .turn 2], 2, ?_, ?_⟩
  · intro s hs
    simp only [List.mem_cons, List.not_mem_nil, or_false] at hs
    rcases hs with rfl | rfl <;> norm_num [st]
  · have hd : pdist (⟨0, 0, 0⟩ : RPoint) ⟨1, 0, 0⟩ < 2 := by
      unfold pdist
      rw [show ((0 : ℝ) - 1) ^ 2 + (0 - 0) ^ 2 = 1 by norm_num, Real.sqrt_one]
      norm_num
    have e : Path.reduce 2 [st 0 0 0 1 .turn 1, st 1 0 0 1 .turn 2] = [st 0 0 0 (1 + 1) .turn 1] := by
      rw [Path.reduce]
      simp [Path.absorb, st, hd, Path.reduce]
    rw [e, taskTime_eq, taskTime_eq]
    norm_num [timeOf, st]

/-! ## C36 -/

/-- C36: the result is the state of a section containing the (clamped) arc length, with the point
advanced by the rest of the length in driving direction; of two neighbouring sections it is the
first one that reaches the arc length. -/
theorem C36_at (p : Path) (hne : p ≠ []) (d : ℝ) :
    ∃ pre s post, p = pre ++ s :: post ∧
      lengthOf pre ≤ clamp (lengthOf p) d ∧ clamp (lengthOf p) d ≤ lengthOf pre + |s.len| ∧
      (pre = [] ∨ lengthOf pre < clamp (lengthOf p) d) ∧
      p.stateAt d = { s with point := ⟨(driven s (clamp (lengthOf p) d - lengthOf pre)).1,
        (driven s (clamp (lengthOf p) d - lengthOf pre)).2, 0⟩ } := by
  have hp := lengthOf_nonneg p
  have h0 : 0 ≤ clamp (lengthOf p) d := by
    unfold clamp; split
    · exact le_rfl
    · split
      · exact hp
      · linarith
  have h1 : clamp (lengthOf p) d ≤ lengthOf p := by
    unfold clamp; split
    · exact hp
    · split
      · exact le_rfl
      · linarith
  obtain ⟨pre, s, post, e1, e2, e3, e4, e5⟩ := atLoop_spec p _ h0 h1 hne
  refine ⟨pre, s, post, e1, e2, e3, e4, ?_⟩
  rw [← e5]
  unfold Path.stateAt clamp
  rw [totalLength_eq]
  by_cases hd : d < 0
  · rw [if_pos hd]
    by_cases hd2 : d > lengthOf p
    · linarith
    · rw [if_neg hd2, if_pos hd]
  · by_cases hd2 : d > lengthOf p
    · simp only [hd, hd2, if_true, if_false]
    · simp only [hd, hd2, if_false]

/-- C36: at and before the start, the point is the start of the path. -/
theorem C36_start (p : Path) (a : RPoint) (ha : p.atStart = .ok a) (d : ℝ) (hd : d ≤ 0) :
    SameXY (p.stateAt d).point a := by
  match p, ha with
  | s :: l, ha =>
    simp only [Path.atStart, Outcome.ok.injEq] at ha
    have h0 : Path.stateAt (s :: l) d = Path.atLoop 0 (s :: l) := by
      unfold Path.stateAt
      rw [totalLength_eq]
      have := lengthOf_nonneg (s :: l)
      rcases lt_or_eq_of_le hd with h | h
      · rw [if_neg (by linarith), if_pos h]
      · subst h
        by_cases h2 : (0 : ℝ) > lengthOf (s :: l)
        · linarith
        · rw [if_neg h2, if_neg (by linarith)]
    rw [h0, Path.atLoop, if_neg (by have := abs_nonneg s.len; linarith), ← ha]
    simp [SameXY]

/-- C36: at and after the end, the point is the end of the path, if the last section has a positive
length. -/
theorem C36_end (p : Path) (b : RPoint) (hb : p.atEnd = .ok b)
    (hl : ∀ s, p.getLast? = some s → 0 < s.len) (d : ℝ) (hd : lengthOf p ≤ d) :
    SameXY (p.stateAt d).point b := by
  have hne : p ≠ [] := by rintro rfl; simp [Path.atEnd] at hb
  have hp := lengthOf_nonneg p
  have hc : clamp (lengthOf p) d = lengthOf p := by
    unfold clamp
    rw [if_neg (by linarith)]
    by_cases h : d > lengthOf p
    · rw [if_pos h]
    · rw [if_neg h]; linarith
  obtain ⟨pre, s, post, e1, e2, e3, e4, e5⟩ := C36_at p hne d
  rw [hc] at e2 e3 e5
  have hpost : post = [] := by
    by_contra hc
    obtain ⟨m, t, rfl⟩ : ∃ m t, post = m ++ [t] := by
      refine ⟨post.dropLast, post.getLast hc, (List.dropLast_append_getLast hc).symm⟩
    have h3 := hl t (by rw [e1, ← List.cons_append, ← List.append_assoc]; exact List.getLast?_concat)
    have h4 : lengthOf p = lengthOf pre + |s.len| + lengthOf m + |t.len| := by
      rw [e1, lengthOf_append, lengthOf_cons, lengthOf_append, lengthOf_cons, lengthOf_nil]
      ring
    have := lengthOf_nonneg m
    have := abs_pos.2 h3.ne'
    linarith
  subst hpost
  have hs := hl s (by rw [e1]; simp)
  have hrest : lengthOf p - lengthOf pre = s.len := by
    rw [e1, lengthOf_append, lengthOf_cons, abs_of_pos hs, lengthOf_nil]; ring
  have hend : b = s.atEnd := by
    unfold Path.atEnd at hb
    rw [e1] at hb
    simp at hb
    exact hb.symm
  rw [e5, hrest, hend]
  exact ⟨rfl, rfl⟩

example : ([st 0 0 0 2 .swath 1, st 2 0 1 3 .turn 1] : Path) ≠ [] ∧
    lengthOf [st 0 0 0 2 .swath 1, st 2 0 1 3 .turn 1] = 5 := by
  refine ⟨by simp, ?_⟩
  norm_num [lengthOf, st]

/-- C36: for a path without states, a state at the origin heading east is returned. -/
theorem C36_empty (d : ℝ) : Path.stateAt [] d = ⟨⟨0, 0, 0⟩, 0, 0, .forward, .swath, 1⟩ := by
  simp [Path.stateAt, Path.atLoop, PathState.default]

/-! ## C37 -/

/-- The four rigid motions, on points. -/
inductive Motion
  | move (v : RPoint)
  | rotate (c : RPoint) (ang : ℝ)
  | mirrorX
  | mirrorY

/-- Where the motion takes a point of the plane. -/
noncomputable def Motion.map : Motion → ℝ × ℝ → ℝ × ℝ
  | .move v, p => (p.1 + v.x, p.2 + v.y)
  | .rotate c a, p => (c.x + ((p.1 - c.x) * cos a - (p.2 - c.y) * sin a),
      c.y + ((p.1 - c.x) * sin a + (p.2 - c.y) * cos a))
  | .mirrorX, p => (-p.1, p.2)
  | .mirrorY, p => (p.1, -p.2)

/-- The function of `Path` for the motion. -/
noncomputable def Motion.run (m : Motion) (p : Path) : Path :=
  match m with
  | .move v => p.moveTo v
  | .rotate c a => p.rotateFromPoint c a
  | .mirrorX => p.mirrorX
  | .mirrorY => p.mirrorY

/-- position in the plane -/
def xy (p : RPoint) : ℝ × ℝ := (p.x, p.y)

/-- C37: the motions are rigid. -/
theorem C37_isometry (m : Motion) (a b : ℝ × ℝ) :
    ((m.map a).1 - (m.map b).1) ^ 2 + ((m.map a).2 - (m.map b).2) ^ 2 =
      (a.1 - b.1) ^ 2 + (a.2 - b.2) ^ 2 := by
  cases m with
  | move v => simp only [Motion.map]; ring
  | mirrorX => simp only [Motion.map]; ring
  | mirrorY => simp only [Motion.map]; ring
  | rotate c t =>
    simp only [Motion.map]
    have h := Real.sin_sq_add_cos_sq t
    have e : ∀ u v : ℝ, (u * cos t - v * sin t) ^ 2 + (u * sin t + v * cos t) ^ 2 =
        (u ^ 2 + v ^ 2) * (sin t ^ 2 + cos t ^ 2) := fun u v => by ring
    have e2 := e (a.1 - b.1) (a.2 - b.2)
    rw [h, mul_one] at e2
    rw [← e2]
    ring

/-- C37: every state keeps length, direction, type and velocity; its start point and its end point
both move with the motion. -/
theorem C37_moves_states (m : Motion) (p : Path) :
    List.Forall₂ (fun s t => t.len = s.len ∧ t.dir = s.dir ∧ t.type = s.type ∧
      t.velocity = s.velocity ∧ xy t.point = m.map (xy s.point) ∧
      xy t.atEnd = m.map (xy s.atEnd)) p (m.run p) := by
  cases m with
  | move v =>
    simp only [Motion.run, Path.moveTo]
    rw [List.forall₂_map_right_iff, List.forall₂_same]
    intro s _
    refine ⟨rfl, rfl, rfl, rfl, rfl, ?_⟩
    simp only [xy, PathState.atEnd, pointFromAngle, Motion.map, Point.add, Prod.mk.injEq]
    constructor <;> ring
  | rotate c t =>
    simp only [Motion.run, Path.rotateFromPoint]
    rw [List.forall₂_map_right_iff, List.forall₂_same]
    intro s _
    refine ⟨rfl, rfl, rfl, rfl, ?_, ?_⟩
    · simp only [xy, rotateFrom, Motion.map, Prod.mk.injEq]
      constructor <;> ring
    · simp only [xy, PathState.atEnd, pointFromAngle, Motion.map, rotateFrom, Prod.mk.injEq,
        cos_mod2pi, sin_mod2pi, Real.cos_add, Real.sin_add]
      constructor <;> ring
  | mirrorX =>
    simp only [Motion.run, Path.mirrorX]
    rw [List.forall₂_map_right_iff, List.forall₂_same]
    intro s _
    refine ⟨rfl, rfl, rfl, rfl, rfl, ?_⟩
    simp only [xy, PathState.atEnd, pointFromAngle, Motion.map, Prod.mk.injEq,
        cos_mod2pi, sin_mod2pi, Real.cos_pi_sub, Real.sin_pi_sub, and_true, true_and]
    ring
  | mirrorY =>
    simp only [Motion.run, Path.mirrorY]
    rw [List.forall₂_map_right_iff, List.forall₂_same]
    intro s _
    refine ⟨rfl, rfl, rfl, rfl, rfl, ?_⟩
    simp only [xy, PathState.atEnd, pointFromAngle, Motion.map, Prod.mk.injEq,
        cos_mod2pi, sin_mod2pi, Real.cos_neg, Real.sin_neg, and_true, true_and]
    ring

/-- C37: distances between all pairs of points are kept. -/
theorem C37_distances (m : Motion) (p : Path) (i j : Nat) (s t s' t' : PathState ℝ)
    (hs : p[i]? = some s) (ht : p[j]? = some t) (hs' : (m.run p)[i]? = some s')
    (ht' : (m.run p)[j]? = some t') : pdist s'.point t'.point = pdist s.point t.point := by
  have h := C37_moves_states m p
  rw [List.forall₂_iff_get] at h
  have key : ∀ (i : Nat) (s s' : PathState ℝ), p[i]? = some s → (m.run p)[i]? = some s' →
      xy s'.point = m.map (xy s.point) := by
    intro i s s' h1 h2
    obtain ⟨a1, a2⟩ := List.getElem?_eq_some_iff.1 h1
    obtain ⟨b1, b2⟩ := List.getElem?_eq_some_iff.1 h2
    have := (h.2 i a1 b1).2.2.2.2.1
    simp only [List.get_eq_getElem] at this
    rw [a2, b2] at this
    exact this
  have k1 := key i s s' hs hs'
  have k2 := key j t t' ht ht'
  have iso := C37_isometry m (xy s.point) (xy t.point)
  rw [← k1, ← k2] at iso
  simp only [xy] at iso
  unfold pdist
  rw [iso]

/-- C37: total length and task time are kept. -/
theorem C37_length_time (m : Motion) (p : Path) :
    (m.run p).totalLength = p.totalLength ∧ (m.run p).taskTime = p.taskTime := by
  rw [totalLength_eq, totalLength_eq, taskTime_eq, taskTime_eq]
  have h := C37_moves_states m p
  generalize m.run p = q at h
  induction h with
  | nil => exact ⟨rfl, rfl⟩
  | cons hst _ ih =>
    rw [lengthOf_cons, lengthOf_cons, timeOf_cons, timeOf_cons, ih.1, ih.2, hst.1, hst.2.2.2.1]
    exact ⟨rfl, rfl⟩

/-- C37: what is kept: the total length is the sum of the lengths of the states, the task time the sum of the
times that they take. -/
theorem C37_sums (p : Path) : p.totalLength = (p.map fun s => |s.len|).sum ∧
    p.taskTime = (p.map fun s => s.len / s.velocity).sum :=
  ⟨totalLength_eq p, taskTime_eq p⟩

/-- Equal up to the angles, which may differ by full turns. -/
def SamePath (p q : Path) : Prop :=
  List.Forall₂ (fun s t => t.point = s.point ∧ t.len = s.len ∧ t.dir = s.dir ∧ t.type = s.type ∧
    t.velocity = s.velocity ∧ mod2pi t.angle = mod2pi s.angle) p q

/-- C37: mirroring twice gives the original path. -/
theorem C37_mirror_twice (p : Path) :
    SamePath p p.mirrorX.mirrorX ∧ SamePath p p.mirrorY.mirrorY := by
  constructor
  · simp only [SamePath, Path.mirrorX, List.map_map]
    rw [List.forall₂_map_right_iff, List.forall₂_same]
    intro s _
    refine ⟨?_, rfl, rfl, rfl, rfl, ?_⟩
    · simp
    · simp only [Function.comp, mod2pi_mod2pi]
      rw [mod2pi_eq_iff]
      obtain ⟨k, hk⟩ := mod2pi_congr (π - s.angle)
      exact ⟨k, by rw [hk]; ring⟩
  · simp only [SamePath, Path.mirrorY, List.map_map]
    rw [List.forall₂_map_right_iff, List.forall₂_same]
    intro s _
    refine ⟨?_, rfl, rfl, rfl, rfl, ?_⟩
    · simp
    · simp only [Function.comp, mod2pi_mod2pi]
      rw [mod2pi_eq_iff]
      obtain ⟨k, hk⟩ := mod2pi_congr (-s.angle)
      exact ⟨k, by rw [hk]; ring⟩

/-- C37: rotating back gives the original path.  Partial: all points at height 0, which is what
rotating makes of every height (`C37_rotation_drops_height`). -/
theorem C37_rotate_back_partial (p : Path) (c : RPoint) (a : ℝ) (hz : ∀ s ∈ p, s.point.z = 0) :
    SamePath p ((p.rotateFromPoint c a).rotateFromPoint c (-a)) := by
  simp only [SamePath, Path.rotateFromPoint, List.map_map]
  rw [List.forall₂_map_right_iff, List.forall₂_same]
  intro s hs
  refine ⟨?_, rfl, rfl, rfl, rfl, ?_⟩
  · have h := Real.sin_sq_add_cos_sq a
    have h2 : sin a ^ 2 = 1 - cos a ^ 2 := by linarith
    simp only [Function.comp, rotateFrom, Real.cos_neg, Real.sin_neg]
    ext
    · simp only
      ring_nf
      rw [h2]; ring
    · simp only
      ring_nf
      rw [h2]; ring
    · simp only; exact (hz s hs).symm
  · simp only [Function.comp, mod2pi_mod2pi]
    rw [mod2pi_eq_iff]
    obtain ⟨k, hk⟩ := mod2pi_congr (s.angle + a)
    exact ⟨-k, by rw [hk]; push_cast; ring⟩

example : ∀ s ∈ [st 0 0 0 2 .swath 1, st 2 0 1 3 .turn 1], s.point.z = 0 := by
  intro s hs
  simp only [List.mem_cons, List.not_mem_nil, or_false] at hs
  rcases hs with rfl | rfl <;> rfl

/-- C37 fails for paths with heights: a rotation, even by 0, sets all heights to 0. -/
theorem C37_rotation_drops_height (p : Path) (c : RPoint) (a : ℝ) :
    ∀ s ∈ p.rotateFromPoint c a, s.point.z = 0 := by
  intro s hs
  unfold Path.rotateFromPoint at hs
  obtain ⟨t, _, rfl⟩ := List.mem_map.1 hs
  rfl

end F2C.Props
