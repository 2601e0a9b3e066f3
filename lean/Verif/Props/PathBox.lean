import Verif.Lemmas.PathBox
import Mathlib.Tactic.NormNum

/-!
# C89 and C90: bounding box and concatenation of paths

C89: the bounding box of a path (`getDimMinX` and so on) contains the path.
C90: `a += b` gives the states of `a` followed by those of `b`; lengths and times add up.
-/

namespace F2C.Props

open PathSpec

/-- Every section ends where the next one starts. -/
def Connected : Path → Prop
  | a :: b :: l => SameXY a.atEnd b.point ∧ Connected (b :: l)
  | _ => True

private theorem Connected.next : ∀ {p : Path} {i : Nat} {s t : PathState ℝ}, Connected p → p[i]? = some s →
    p[i + 1]? = some t → SameXY s.atEnd t.point
  | a :: b :: l, 0, s, t, h, h1, h2 => by
    simp at h1 h2; subst h1 h2; exact h.1
  | a :: b :: l, i + 1, s, t, h, h1, h2 => Connected.next (p := b :: l) h.2 (by simpa using h1) (by simpa using h2)
  | [], i, s, t, _, h1, _ => by simp at h1
  | [a], i, s, t, _, _, h2 => by simp at h2

/-- C89: the limits are the smallest and largest coordinates of the starting points of the sections. -/
theorem C89_value (v : RPoint → ℝ) (p : Path) (hp : p ≠ []) : ∃ lo hi, p.dimMin v = .ok lo ∧ p.dimMax v = .ok hi ∧
    (∃ s ∈ p, v s.point = lo) ∧ (∃ s ∈ p, v s.point = hi) ∧ ∀ s ∈ p, lo ≤ v s.point ∧ v s.point ≤ hi := by
  obtain ⟨lo, h1, h2, h3⟩ := dimMin_spec v p hp
  obtain ⟨hi, h4, h5, h6⟩ := dimMax_spec v p hp
  exact ⟨lo, hi, h1, h4, h2, h5, fun s hs => ⟨h3 s hs, h6 s hs⟩⟩

/-- A path of three sections: forwards along the x axis and back, then resting. -/
noncomputable def thereAndBack : Path :=
  [⟨⟨1, 2, 0⟩, 0, 3, .forward, .swath, 1⟩, ⟨⟨4, 2, 0⟩, 0, 5, .backward, .swath, 1⟩,
    ⟨⟨-1, 2, 0⟩, 0, 0, .forward, .swath, 1⟩]

example : thereAndBack.dimMin (·.x) = .ok (-1) ∧ thereAndBack.dimMax (·.x) = .ok 4 := by
  norm_num [thereAndBack, Path.dimMin, Path.dimMax, minElement, minElementFrom, Path.maxElement,
    Path.maxElementFrom]

/-- C89: the box of an empty path is undefined behaviour. -/
theorem C89_empty_ub (v : RPoint → ℝ) : (Path.dimMin v []).isUb = true ∧ (Path.dimMax v []).isUb = true :=
  ⟨rfl, rfl⟩

/-- C89 is false of the code: the end of the last section is not looked at.  One section of 1 m along the x axis:
the largest x is 0, the end of the path is at x = 1. -/
theorem C89_false : ∃ (p : Path) (e : RPoint), p.dimMax (·.x) = .ok 0 ∧ p.atEnd = .ok e ∧ e.x = 1 := by
  refine ⟨[⟨⟨0, 0, 0⟩, 0, 1, .forward, .swath, 1⟩], _, rfl, rfl, ?_⟩
  rw [(atEnd_xy _).1]
  simp [PathDir.sign]

private theorem between_ends {a b lo hi d len : ℝ} (e : ℝ) (hd : 0 ≤ d) (hdl : d ≤ len)
    (hb : b = a + len * e) (ha : lo ≤ a ∧ a ≤ hi) (hb' : lo ≤ b ∧ b ≤ hi) :
    lo ≤ a + d * e ∧ a + d * e ≤ hi := by
  subst hb
  by_cases h : 0 ≤ e
  · have h1 : 0 ≤ d * e := mul_nonneg hd h
    have h2 : d * e ≤ len * e := mul_le_mul_of_nonneg_right hdl h
    constructor <;> linarith
  · have h1 : d * e ≤ 0 := mul_nonpos_of_nonneg_of_nonpos hd (by linarith)
    have h2 : len * e ≤ d * e := mul_le_mul_of_nonpos_right hdl (by linarith)
    constructor <;> linarith

/-- C89 (part): on a connected path, all points of all sections but the last one are in the box, and those of the
last one if it has no length.  Missing: a last section with a length, see `C89_false`. -/
theorem C89_partial (p : Path) (hp : Connected p) (i : Nat) (s : PathState ℝ) (d : ℝ) (hs : p[i]? = some s)
    (hd : 0 ≤ d) (hdl : d ≤ s.len) (hl : i + 1 < List.length p ∨ s.len = 0) :
    ∃ x0 x1 y0 y1, p.dimMin (·.x) = .ok x0 ∧ p.dimMax (·.x) = .ok x1 ∧ p.dimMin (·.y) = .ok y0 ∧
      p.dimMax (·.y) = .ok y1 ∧ x0 ≤ (driven s d).1 ∧ (driven s d).1 ≤ x1 ∧ y0 ≤ (driven s d).2 ∧
      (driven s d).2 ≤ y1 := by
  have hne : p ≠ [] := by rintro rfl; simp at hs
  obtain ⟨x0, x1, h1, h2, -, -, hx⟩ := C89_value (·.x) p hne
  obtain ⟨y0, y1, h3, h4, -, -, hy⟩ := C89_value (·.y) p hne
  refine ⟨x0, x1, y0, y1, h1, h2, h3, h4, ?_⟩
  have hsx := hx s (List.mem_of_getElem? hs)
  have hsy := hy s (List.mem_of_getElem? hs)
  have hend : (x0 ≤ s.atEnd.x ∧ s.atEnd.x ≤ x1) ∧ y0 ≤ s.atEnd.y ∧ s.atEnd.y ≤ y1 := by
    rcases hl with hl | hl
    · have ht := List.getElem?_eq_getElem hl
      obtain ⟨ex, ey⟩ := hp.next hs ht
      rw [ex, ey]
      exact ⟨hx _ (List.getElem_mem hl), hy _ (List.getElem_mem hl)⟩
    · obtain ⟨ex, ey, -⟩ := atEnd_xy s
      rw [ex, ey, hl]
      simpa using ⟨hsx, hsy⟩
  obtain ⟨ex, ey, -⟩ := atEnd_xy s
  have hx' := between_ends (s.dir.sign * Real.cos s.angle) hd hdl (by rw [ex]; ring) hsx hend.1
  have hy' := between_ends (s.dir.sign * Real.sin s.angle) hd hdl (by rw [ey]; ring) hsy hend.2
  unfold driven
  simp only [mul_assoc]
  exact ⟨hx'.1, hx'.2, hy'.1, hy'.2⟩

/-- The hypotheses hold for the path above. -/
example : Connected thereAndBack ∧ ∀ i s, thereAndBack[i]? = some s → i + 1 < List.length thereAndBack ∨ s.len = 0 := by
  constructor
  · refine ⟨⟨?_, ?_⟩, ⟨?_, ?_⟩, trivial⟩ <;> norm_num [atEnd_xy, PathDir.sign]
  · intro i s hs
    rcases i with _ | _ | _ | i
    · left; simp [thereAndBack]
    · left; simp [thereAndBack]
    · right; simp [thereAndBack] at hs; rw [← hs]
    · simp [thereAndBack] at hs

/-- C89: moving the path moves its box. -/
theorem C89_moved (p : Path) (v : RPoint) (hp : p ≠ []) : ∃ x0 x1 y0 y1, p.dimMin (·.x) = .ok x0 ∧
    p.dimMax (·.x) = .ok x1 ∧ p.dimMin (·.y) = .ok y0 ∧ p.dimMax (·.y) = .ok y1 ∧
    (p.moveTo v).dimMin (·.x) = .ok (x0 + v.x) ∧ (p.moveTo v).dimMax (·.x) = .ok (x1 + v.x) ∧
    (p.moveTo v).dimMin (·.y) = .ok (y0 + v.y) ∧ (p.moveTo v).dimMax (·.y) = .ok (y1 + v.y) := by
  have key : ∀ (f : RPoint → ℝ), (∀ a b, f (a.add b) = f a + f b) → ∃ lo hi, p.dimMin f = .ok lo ∧
      p.dimMax f = .ok hi ∧ (p.moveTo v).dimMin f = .ok (lo + f v) ∧ (p.moveTo v).dimMax f = .ok (hi + f v) := by
    intro f hf
    obtain ⟨lo, hi, h1, h2, ⟨a, ha, ea⟩, ⟨b, hb, eb⟩, h⟩ := C89_value f p hp
    obtain ⟨lo', hi', h1', h2', ⟨a', ha', ea'⟩, ⟨b', hb', eb'⟩, h'⟩ := C89_value f (p.moveTo v)
      (by simpa [Path.moveTo] using hp)
    refine ⟨lo, hi, h1, h2, ?_, ?_⟩
    · rw [h1']
      congr 1
      apply le_antisymm
      · have := (h' { a with point := a.point.add v } (List.mem_map_of_mem ha)).1
        rwa [hf, ea] at this
      · obtain ⟨c, hc, rfl⟩ := List.mem_map.1 ha'
        rw [← ea', hf]
        have := (h c hc).1
        linarith
    · rw [h2']
      congr 1
      apply le_antisymm
      · obtain ⟨c, hc, rfl⟩ := List.mem_map.1 hb'
        rw [← eb', hf]
        have := (h c hc).2
        linarith
      · have := (h' { b with point := b.point.add v } (List.mem_map_of_mem hb)).2
        rwa [hf, eb] at this
  obtain ⟨x0, x1, a1, a2, a3, a4⟩ := key (·.x) (fun a b => rfl)
  obtain ⟨y0, y1, b1, b2, b3, b4⟩ := key (·.y) (fun a b => rfl)
  exact ⟨x0, x1, y0, y1, a1, a2, b1, b2, a3, a4, b3, b4⟩

example : ∃ x0, thereAndBack.dimMin (·.x) = .ok x0 ∧ (thereAndBack.moveTo ⟨10, 0, 0⟩).dimMin (·.x) = .ok (x0 + 10) := by
  obtain ⟨x0, -, -, -, h, -, -, -, h', -⟩ := C89_moved thereAndBack ⟨10, 0, 0⟩ (by simp [thereAndBack])
  exact ⟨x0, h, h'⟩

/-- C90: all states of the first path, then all of the second; lengths and times add up. -/
theorem C90_partial (p q : Path) : ∃ r, p.plusEq false q = .ok r ∧ List.length r = List.length p + List.length q ∧
    (∀ i, i < List.length p → r[i]? = p[i]?) ∧ (∀ i, r[List.length p + i]? = q[i]?) ∧
    r.totalLength = p.totalLength + q.totalLength ∧ r.taskTime = p.taskTime + q.taskTime := by
  refine ⟨p ++ q, congrArg Outcome.ok (addAll_eq q p), List.length_append,
    fun i hi => List.getElem?_append_left hi, fun i => ?_, ?_, ?_⟩
  · rw [List.getElem?_append_right (by omega)]; simp
  · simp [totalLength_eq, lengthOf]
  · simp [taskTime_eq, timeOf]

/-- C90: if both paths are connected and the second one starts where the first one ends, so is the result. -/
theorem C90_connected (p q : Path) (hp : Connected p) (hq : Connected q)
    (h : ∀ s ∈ p.getLast?, ∀ t ∈ q.head?, SameXY s.atEnd t.point) :
    ∃ r, p.plusEq false q = .ok r ∧ Connected r := by
  refine ⟨p ++ q, congrArg Outcome.ok (addAll_eq q p), ?_⟩
  induction p with
  | nil => exact hq
  | cons a p ih =>
    cases p with
    | nil =>
      cases q with
      | nil => exact trivial
      | cons b q => exact ⟨h a (by simp) b (by simp), hq⟩
    | cons b p => exact ⟨hp.1, ih hp.2 (fun s hs => h s (by simpa using hs))⟩

/-- The path there and back, then on upwards. -/
example : ∃ r, thereAndBack.plusEq false [⟨⟨-1, 2, 0⟩, Real.pi / 2, 7, .forward, .turn, 2⟩] = .ok r ∧
    Connected r ∧ r.totalLength = 15 := by
  obtain ⟨r, h1, -, -, -, h2, -⟩ := C90_partial thereAndBack [⟨⟨-1, 2, 0⟩, Real.pi / 2, 7, .forward, .turn, 2⟩]
  obtain ⟨r', h3, h4⟩ := C90_connected thereAndBack [⟨⟨-1, 2, 0⟩, Real.pi / 2, 7, .forward, .turn, 2⟩]
    (by refine ⟨⟨?_, ?_⟩, ⟨?_, ?_⟩, trivial⟩ <;> norm_num [atEnd_xy, PathDir.sign]) trivial
    (by
      intro s hs t ht
      simp [thereAndBack] at hs ht
      subst hs ht
      constructor <;> norm_num [atEnd_xy, PathDir.sign])
  rw [h1] at h3
  cases h3
  refine ⟨r, h1, h4, ?_⟩
  rw [h2]
  norm_num [thereAndBack, Path.totalLength]

/-- C90 is false of the code: a path cannot be added to itself, that loop uses invalid iterators. -/
theorem C90_self_ub (s : PathState ℝ) (p : Path) : (Path.plusEq (s :: p) true (s :: p)).isUb = true := rfl

/-- C90: the box of the result is made of both boxes. -/
theorem C90_box (v : RPoint → ℝ) (p q : Path) (hp : p ≠ []) (hq : q ≠ []) :
    ∃ r a a' b b', p.plusEq false q = .ok r ∧ p.dimMin v = .ok a ∧ q.dimMin v = .ok a' ∧ p.dimMax v = .ok b ∧
      q.dimMax v = .ok b' ∧ r.dimMin v = .ok (min a a') ∧ r.dimMax v = .ok (max b b') := by
  obtain ⟨a, b, h1, h2, ⟨s1, m1, e1⟩, ⟨s2, m2, e2⟩, h3⟩ := C89_value v p hp
  obtain ⟨a', b', h1', h2', ⟨s1', m1', e1'⟩, ⟨s2', m2', e2'⟩, h3'⟩ := C89_value v q hq
  obtain ⟨lo, hi, g1, g2, ⟨t1, n1, f1⟩, ⟨t2, n2, f2⟩, g3⟩ := C89_value v (p ++ q) (by simp [hp])
  refine ⟨p ++ q, a, a', b, b', congrArg Outcome.ok (addAll_eq q p), h1, h1', h2, h2', ?_, ?_⟩
  · rw [g1]
    congr 1
    apply le_antisymm
    · apply le_min
      · rw [← e1]; exact (g3 s1 (by simp [m1])).1
      · rw [← e1']; exact (g3 s1' (by simp [m1'])).1
    · rw [← f1]
      rcases List.mem_append.1 n1 with h | h
      · exact (min_le_left _ _).trans (h3 _ h).1
      · exact (min_le_right _ _).trans (h3' _ h).1
  · rw [g2]
    congr 1
    apply le_antisymm
    · rw [← f2]
      rcases List.mem_append.1 n2 with h | h
      · exact (h3 _ h).2.trans (le_max_left _ _)
      · exact (h3' _ h).2.trans (le_max_right _ _)
    · apply max_le
      · rw [← e2]; exact (g3 s2 (by simp [m2])).2
      · rw [← e2']; exact (g3 s2' (by simp [m2'])).2

example : ∃ r a a' b b', thereAndBack.plusEq false thereAndBack = .ok r ∧ thereAndBack.dimMin (·.x) = .ok a ∧
    thereAndBack.dimMin (·.x) = .ok a' ∧ thereAndBack.dimMax (·.x) = .ok b ∧ thereAndBack.dimMax (·.x) = .ok b' ∧
    r.dimMin (·.x) = .ok (min a a') ∧ r.dimMax (·.x) = .ok (max b b') :=
  C90_box (·.x) _ _ (by simp [thereAndBack]) (by simp [thereAndBack])

end F2C.Props
