import Mathlib.Tactic.NormNum
import Mathlib.Analysis.Real.Sqrt
import Verif.Lemmas.Border

/-! # C48, C49, C50: closest points, lines and convexity -/

namespace F2C.Props

open Geo SG Real

set_option linter.unusedSimpArgs false

/-! ## C48 -/

/-- C48, segments: the result is a point of the segment, and no point of the segment is closer.
Partial: both ends of the segment have the same height (in F2C usually 0).  Without it, the
result is closest in space (`C48_segment_space`) but not in the plane (`C48_height`). -/
theorem C48_segment_partial (p s e : RPoint) (hz : s.z = e.z) :
    OnSegment s e (closestInSegment p s e) ∧
    ∀ q, OnSegment s e q → pdist p (closestInSegment p s e) ≤ pdist p q :=
  ⟨closest_on_segment p s e, fun _ hq => closest_min p s e hz hq⟩

example : (⟨0, 0, 0⟩ : RPoint).z = (⟨4, 0, 0⟩ : RPoint).z ∧
    closestInSegment ⟨1, 3, 0⟩ ⟨0, 0, 0⟩ ⟨4, 0, 0⟩ = ⟨1, 0, 0⟩ := by
  refine ⟨rfl, ?_⟩
  unfold closestInSegment
  simp only [Point.dot, Point.sub, Point.smul, Point.add]
  norm_num

/-- C48, segments in space: whatever the heights, the result is on the segment in space and no
point of the segment is closer in space. -/
theorem C48_segment_space (p s e : RPoint) :
    OnSegment3 s e (closestInSegment p s e) ∧
    ∀ q, OnSegment3 s e q → dist3sq p (closestInSegment p s e) ≤ dist3sq p q := by
  constructor
  · obtain ⟨t, h0, h1, _⟩ := closest_on_segment p s e
    obtain ⟨hx, hy, hz⟩ := closestInSegment_coords p s e
    have := clamp_range (if Point.dot (e.sub s) (e.sub s) = 0 then 1
      else -(Point.dot (e.sub s) (s.sub p)) / Point.dot (e.sub s) (e.sub s))
    exact ⟨closeParam p s e, this.1, this.2, hx, hy, hz⟩
  · rintro ⟨qx, qy, qz⟩ ⟨t, h0, h1, hx, hy, hz⟩
    have := closest_min3 p s e h0 h1
    simp only at hx hy hz
    rw [hx, hy, hz]
    exact this

/-- C48 fails for the planar `distance` when heights differ: the end point of the segment is at
distance 0 of the given point, the returned point is not. -/
theorem C48_height : ∃ p s e q : RPoint, OnSegment s e q ∧
    ¬ pdist p (closestInSegment p s e) ≤ pdist p q := by
  refine ⟨⟨1, 0, 0⟩, ⟨0, 0, 0⟩, ⟨1, 0, 10⟩, ⟨1, 0, 0⟩, ⟨1, by norm_num, by norm_num, by norm_num,
    by norm_num⟩, ?_⟩
  have e1 : closestInSegment ⟨1, 0, 0⟩ ⟨0, 0, 0⟩ ⟨1, 0, 10⟩ = ⟨1 / 101, 0, 10 / 101⟩ := by
    unfold closestInSegment
    simp only [Point.dot, Point.sub, Point.smul, Point.add]
    norm_num
  rw [e1, pdist_self]
  have : pdist ⟨1, 0, 0⟩ ⟨1 / 101, 0, 10 / 101⟩ = 100 / 101 := by
    unfold pdist
    rw [show ((1 : ℝ) - 1 / 101) ^ 2 + (0 - 0) ^ 2 = (100 / 101) ^ 2 by norm_num,
      Real.sqrt_sq (by norm_num)]
  rw [this]; norm_num

/-- C48, lines and rings with two or more points: the result is on the line, at minimal distance.
Partial: points of the same height. -/
theorem C48_line_partial (p : RPoint) (line : List RPoint) (hz : Level line)
    (hn : 2 ≤ line.length) :
    ∃ q, closestPointTo p line = .ok q ∧ OnLine line q ∧
      ∀ r, OnLine line r → pdist p q ≤ pdist p r :=
  closestPointTo_spec p line hz hn

example : Level [⟨0, 0, 0⟩, ⟨4, 0, 0⟩, ⟨4, 4, 0⟩] ∧
    2 ≤ [(⟨0, 0, 0⟩ : RPoint), ⟨4, 0, 0⟩, ⟨4, 4, 0⟩].length := by
  constructor
  · intro p hp q hq
    simp only [List.mem_cons, List.not_mem_nil, or_false] at hp hq
    rcases hp with rfl | rfl | rfl <;> rcases hq with rfl | rfl | rfl <;> rfl
  · simp

/-- C48: with no point the code throws, with one point it reads an empty vector. -/
theorem C48_short_lines (p a : RPoint) :
    closestPointTo p [] = .throw .outOfRange ∧ (closestPointTo p [a]).isUb := by
  constructor
  · rfl
  · simp [closestPointTo, segmentClosest, pickClosest]

/-- C48, cells: the result is on one of the rings, at minimal distance of all of them.  Partial:
every ring has two or more points and a constant height. -/
theorem C48_cell_partial (p : RPoint) (c : Cell ℝ) (hne : c ≠ [])
    (h : ∀ r ∈ c, Level r ∧ 2 ≤ r.length) :
    ∃ q, c.closestOnBorder p = .ok q ∧ OnBorder c q ∧
      ∀ r, OnBorder c r → pdist p q ≤ pdist p r := by
  have hit : c.iter = c := by
    unfold Cell.iter
    rw [if_neg]
    intro hall
    match c, hne with
    | r :: c, _ =>
      have h2 := (h r (by simp)).2
      simp only [List.all_cons, Bool.and_eq_true, List.isEmpty_iff] at hall
      rw [hall.1] at h2
      simp at h2
  obtain ⟨q, h1, h2, h3⟩ := closest_of_children p (closestPointTo p) OnLine c hne
    (fun a ha => closestPointTo_spec p a (h a ha).1 (h a ha).2)
  refine ⟨q, ?_, h2, ?_⟩
  · unfold Cell.closestOnBorder; rw [hit]; exact h1
  · rintro r ⟨a, ha, hr⟩; exact h3 a ha r hr

/-- C48, cells: the same for several cells. -/
theorem C48_cells_partial (p : RPoint) (cs : Cells ℝ) (hne : cs ≠ [])
    (h : ∀ c ∈ cs, c ≠ [] ∧ ∀ r ∈ c, Level r ∧ 2 ≤ r.length) :
    ∃ q, Cells.closestOnBorder p cs = .ok q ∧ OnBorders cs q ∧
      ∀ r, OnBorders cs r → pdist p q ≤ pdist p r := by
  have hit : Cells.iter cs = cs := by
    unfold Cells.iter
    rw [if_neg]
    intro hall
    match cs, hne with
    | [] :: cs, _ => exact absurd rfl (h [] (by simp)).1
    | (r :: c) :: cs, _ =>
      have h2 := ((h (r :: c) (by simp)).2 r (by simp)).2
      simp only [List.all_cons, Bool.and_eq_true, List.isEmpty_iff] at hall
      rw [hall.1.1] at h2
      simp at h2
  obtain ⟨q, h1, h2, h3⟩ := closest_of_children p (fun c => Cell.closestOnBorder p c) OnBorder cs hne
    (fun c hc => C48_cell_partial p c (h c hc).1 (h c hc).2)
  refine ⟨q, ?_, h2, ?_⟩
  · unfold Cells.closestOnBorder; rw [hit]; exact h1
  · rintro r ⟨a, ha, hr⟩; exact h3 a ha r hr

example : ∀ r ∈ ([[⟨0, 0, 0⟩, ⟨4, 0, 0⟩, ⟨0, 4, 0⟩, ⟨0, 0, 0⟩]] : Cell ℝ),
    Level r ∧ 2 ≤ r.length := by
  intro r hr
  simp only [List.mem_singleton] at hr
  subst hr
  refine ⟨?_, by simp⟩
  intro p hp q hq
  simp only [List.mem_cons, List.not_mem_nil, or_false] at hp hq
  rcases hp with rfl | rfl | rfl | rfl <;> rcases hq with rfl | rfl | rfl | rfl <;> rfl

/-- C48: a cell without border points and cells without cells make the code read an empty
vector. -/
theorem C48_empty_cell (p : RPoint) :
    (Cell.closestOnBorder p []).isUb ∧ (Cells.closestOnBorder p []).isUb := by
  constructor
  · simp [Cell.closestOnBorder, Cell.iter, mapOutcome, pickClosest]
  · simp [Cells.closestOnBorder, Cells.iter, mapOutcome, pickClosest]

/-! ## C49 -/

/-- C49: the intersection of two lines that are not parallel is on both. -/
theorem C49_intersection (a b c d : RPoint)
    (h : (b.x - a.x) * (d.y - c.y) ≠ (b.y - a.y) * (d.x - c.x)) :
    OnInfiniteLine a b (lineIntersection a b c d) ∧
    OnInfiniteLine c d (lineIntersection a b c d) := by
  have hd : Point.det (b.sub a) (d.sub c) ≠ 0 := by
    simp only [Point.det, Point.sub]
    intro h'; exact h (by linarith)
  obtain ⟨D, hD⟩ : ∃ D, D = (b.x - a.x) * (d.y - c.y) - (b.y - a.y) * (d.x - c.x) := ⟨_, rfl⟩
  have hDd : Point.det (b.sub a) (d.sub c) = D := hD.symm
  have hD0 : D ≠ 0 := hDd ▸ hd
  unfold lineIntersection
  simp only [hDd, if_neg hD0]
  constructor
  · refine ⟨((c.x - a.x) * (d.y - c.y) - (c.y - a.y) * (d.x - c.x)) / D, ?_, ?_⟩
    all_goals
      simp only [Point.sdiv, Point.sub, Point.smul, Point.det]
      field_simp
      rw [hD]
      ring
  · refine ⟨((c.x - a.x) * (b.y - a.y) - (c.y - a.y) * (b.x - a.x)) / D, ?_, ?_⟩
    all_goals
      simp only [Point.sdiv, Point.sub, Point.smul, Point.det]
      field_simp
      rw [hD]
      ring

example : lineIntersection ⟨0, 0, 0⟩ ⟨4, 4, 0⟩ ⟨0, 2, 0⟩ ⟨2, 0, 0⟩ = ⟨1, 1, 0⟩ := by
  unfold lineIntersection
  simp only [Point.sdiv, Point.sub, Point.smul, Point.det]
  norm_num

/-- C49: for parallel lines the first point is returned. -/
theorem C49_parallel (a b c d : RPoint)
    (h : (b.x - a.x) * (d.y - c.y) = (b.y - a.y) * (d.x - c.x)) :
    lineIntersection a b c d = a := by
  have hd : Point.det (b.sub a) (d.sub c) = 0 := by
    simp only [Point.det, Point.sub]
    linarith
  unfold lineIntersection
  simp only [if_pos hd]

example : ((4 : ℝ) - 0) * (5 - 1) = (4 - 0) * (6 - 2) := by norm_num

private theorem level_norm {s e : RPoint} (hz : s.z = e.z) :
    Point.dot (e.sub s) (e.sub s) = (e.x - s.x) ^ 2 + (e.y - s.y) ^ 2 := by
  simp only [Point.dot, Point.sub, hz]; ring

private theorem level_norm_pos {s e : RPoint} (hne : s.x ≠ e.x ∨ s.y ≠ e.y) :
    0 < (e.x - s.x) ^ 2 + (e.y - s.y) ^ 2 := by
  rcases hne with h | h
  · have : 0 < (e.x - s.x) ^ 2 := by
      have : e.x - s.x ≠ 0 := sub_ne_zero.2 (Ne.symm h)
      positivity
    nlinarith [sq_nonneg (e.y - s.y)]
  · have : 0 < (e.y - s.y) ^ 2 := by
      have : e.y - s.y ≠ 0 := sub_ne_zero.2 (Ne.symm h)
      positivity
    nlinarith [sq_nonneg (e.x - s.x)]

/-- C49: the signed distance is 0 exactly on the line, for segments whose ends differ. -/
theorem C49_signed_zero_partial (p s e : RPoint) (hz : s.z = e.z) (hne : s.x ≠ e.x ∨ s.y ≠ e.y) :
    signedDistance p s e = 0 ↔ OnInfiniteLine s e p := by
  have hpos := level_norm_pos hne
  unfold signedDistance
  rw [level_norm hz, div_eq_zero_iff]
  have hs : √((e.x - s.x) ^ 2 + (e.y - s.y) ^ 2) ≠ 0 := (Real.sqrt_pos.2 hpos).ne'
  simp only [hs, or_false, neg_eq_zero, Point.det, Point.sub]
  constructor
  · intro h
    refine ⟨((e.x - s.x) * (p.x - s.x) + (e.y - s.y) * (p.y - s.y)) /
      ((e.x - s.x) ^ 2 + (e.y - s.y) ^ 2), ?_, ?_⟩
    · field_simp
      linear_combination (e.y - s.y) * h
    · field_simp
      linear_combination (-(e.x - s.x)) * h
  · rintro ⟨t, hx, hy⟩
    rw [hx, hy]; ring

/-- C49: reversing the segment changes the sign. -/
theorem C49_signed_reverse (p s e : RPoint) : signedDistance p e s = -signedDistance p s e := by
  unfold signedDistance
  have h1 : Point.dot (s.sub e) (s.sub e) = Point.dot (e.sub s) (e.sub s) := by
    simp only [Point.dot, Point.sub]; ring
  have h2 : Point.det (s.sub e) (e.sub p) = -Point.det (e.sub s) (s.sub p) := by
    simp only [Point.det, Point.sub]; ring
  rw [h1, h2]; ring

/-- C49: points to the left of the segment have positive, points to the right negative signed
distance. -/
theorem C49_signed_side_partial (p s e : RPoint) (hz : s.z = e.z)
    (hne : s.x ≠ e.x ∨ s.y ≠ e.y) : 0 < signedDistance p s e ↔ 0 < cross s e p := by
  have hpos := level_norm_pos hne
  unfold signedDistance
  rw [level_norm hz, div_pos_iff_of_pos_right (Real.sqrt_pos.2 hpos)]
  simp only [Point.det, Point.sub, cross]
  constructor <;> intro h <;> nlinarith

/-- C49: the absolute value is the distance to the line: some point of the line is that far, none is
closer.  Partial: both ends at the same height. -/
theorem C49_signed_distance_partial (p s e : RPoint) (hz : s.z = e.z)
    (hne : s.x ≠ e.x ∨ s.y ≠ e.y) :
    (∃ q, OnInfiniteLine s e q ∧ pdist p q = |signedDistance p s e|) ∧
    ∀ q, OnInfiniteLine s e q → |signedDistance p s e| ≤ pdist p q := by
  have hpos := level_norm_pos hne
  have hs : 0 < √((e.x - s.x) ^ 2 + (e.y - s.y) ^ 2) := Real.sqrt_pos.2 hpos
  have habs : |signedDistance p s e| =
      √(((e.x - s.x) * (s.y - p.y) - (e.y - s.y) * (s.x - p.x)) ^ 2 /
        ((e.x - s.x) ^ 2 + (e.y - s.y) ^ 2)) := by
    unfold signedDistance
    rw [level_norm hz, Real.sqrt_div (sq_nonneg _), Real.sqrt_sq_eq_abs, abs_div, abs_neg,
      abs_of_pos hs]
    rfl
  rw [habs]
  constructor
  · set t := ((e.x - s.x) * (p.x - s.x) + (e.y - s.y) * (p.y - s.y)) /
      ((e.x - s.x) ^ 2 + (e.y - s.y) ^ 2) with ht
    refine ⟨⟨s.x + t * (e.x - s.x), s.y + t * (e.y - s.y), 0⟩, ⟨t, rfl, rfl⟩, ?_⟩
    unfold pdist
    congr 1
    simp only [ht]
    field_simp
    ring
  · rintro q ⟨t, hx, hy⟩
    unfold pdist
    apply Real.sqrt_le_sqrt
    rw [div_le_iff₀ hpos, hx, hy]
    have : ((p.x - (s.x + t * (e.x - s.x))) ^ 2 + (p.y - (s.y + t * (e.y - s.y))) ^ 2) *
        ((e.x - s.x) ^ 2 + (e.y - s.y) ^ 2) =
        ((e.x - s.x) * (s.y - p.y) - (e.y - s.y) * (s.x - p.x)) ^ 2 +
        ((e.x - s.x) * (p.x - (s.x + t * (e.x - s.x))) +
          (e.y - s.y) * (p.y - (s.y + t * (e.y - s.y)))) ^ 2 := by ring
    rw [this]
    nlinarith [sq_nonneg ((e.x - s.x) * (p.x - (s.x + t * (e.x - s.x))) +
          (e.y - s.y) * (p.y - (s.y + t * (e.y - s.y))))]

example : signedDistance ⟨1, 5, 0⟩ ⟨0, 0, 0⟩ ⟨3, 0, 0⟩ = 5 := by
  unfold signedDistance
  simp only [Point.dot, Point.sub, Point.det]
  rw [show ((3 : ℝ) - 0) * (3 - 0) + (0 - 0) * (0 - 0) + (0 - 0) * (0 - 0) = 3 ^ 2 by norm_num,
    Real.sqrt_sq (by norm_num)]
  norm_num

/-- C49 fails when the ends have different heights: the value is not the distance to the line,
neither in the plane nor in space. -/
theorem C49_height : ∃ p s e : RPoint, (s.x ≠ e.x ∨ s.y ≠ e.y) ∧ signedDistance p s e = 3 ∧
    (∀ q, OnInfiniteLine s e q → 5 ≤ pdist p q) ∧
    ∀ t : ℝ, 5 ^ 2 ≤
      dist3sq p ⟨s.x + t * (e.x - s.x), s.y + t * (e.y - s.y), s.z + t * (e.z - s.z)⟩ := by
  refine ⟨⟨0, 5, 0⟩, ⟨0, 0, 0⟩, ⟨3, 0, 4⟩, by norm_num, ?_, ?_, ?_⟩
  · unfold signedDistance
    simp only [Point.dot, Point.sub, Point.det]
    rw [show ((3 : ℝ) - 0) * (3 - 0) + (0 - 0) * (0 - 0) + (4 - 0) * (4 - 0) = 5 ^ 2 by norm_num,
      Real.sqrt_sq (by norm_num)]
    norm_num
  · rintro q ⟨t, hx, hy⟩
    unfold pdist
    apply Real.le_sqrt_of_sq_le
    rw [hx, hy]
    simp only
    nlinarith [sq_nonneg (0 - (0 + t * ((3 : ℝ) - 0)))]
  · intro t
    unfold dist3sq
    simp only
    nlinarith [sq_nonneg (t * 3), sq_nonneg (t * 4)]

/-! ## C50 -/

/-- C50: cells with holes and cells without area are not convex. -/
theorem C50_holes (border : Ring ℝ) (h : Ring ℝ) (hs : List (Ring ℝ)) :
    Cell.isConvex (border :: h :: hs) = .ok false := by
  unfold Cell.isConvex
  simp

/-- C50, one direction: a border without holes that turns to the same side at every corner is
found convex, whatever corner it starts with. -/
theorem C50_convex (cs : List RPoint) (hn : 3 ≤ cs.length) (hc : ConvexCorners cs)
    (ha : shoelace (cs ++ cs.take 1) ≠ 0) : Cell.isConvex [cs ++ cs.take 1] = .ok true := by
  obtain ⟨s, hs⟩ := hc
  have hp : Turning s (cs ++ cs.take 1) := by
    match cs, hn, hs with
    | a :: b :: c :: l, _, hs =>
      have : a :: b :: c :: l ++ (a :: b :: c :: l).take 2 =
        (a :: b :: c :: l ++ (a :: b :: c :: l).take 1) ++ [b] := by simp
      rw [this] at hs
      exact F2C.Turning.prefix hs
  obtain ⟨r, h1, h2⟩ := isConvex_iff ha (by simp; omega) (F2C.Turning.bent hp)
  rw [h1, h2.2 ⟨s, hp⟩]

/-- C50, other direction, as far as it is true: for a border without straight corners, the result
is true exactly if it turns to the same side at all corners *except the first one*.  Missing: the
corner the border starts with is never looked at (`C50_first_corner`), and for straight
corners the answer depends on the orientation (`C50_straight_corner`). -/
theorem C50_iff_partial (cs : List RPoint) (hn : 3 ≤ cs.length)
    (ha : shoelace (cs ++ cs.take 1) ≠ 0) (hb : Bent (cs ++ cs.take 1)) :
    ∃ r, Cell.isConvex [cs ++ cs.take 1] = .ok r ∧
      (r = true ↔ ∃ s, Turning s (cs ++ cs.take 1)) :=
  isConvex_iff ha (by simp; omega) hb

example : ConvexCorners [⟨0, 0, 0⟩, ⟨4, 0, 0⟩, ⟨4, 3, 0⟩, ⟨0, 3, 0⟩] ∧
    shoelace [⟨0, 0, 0⟩, ⟨4, 0, 0⟩, ⟨4, 3, 0⟩, ⟨0, 3, 0⟩, ⟨0, 0, 0⟩] ≠ 0 := by
  constructor
  · exact ⟨1, by simp [Turning, cross]⟩
  · simp [shoelace]

/-- C50 fails: an arrow head, not convex at its first corner, is found convex; started at
another corner, the same border is found not convex. -/
theorem C50_first_corner : ∃ cs : List RPoint, ¬ ConvexCorners cs ∧
    Cell.isConvex [cs ++ cs.take 1] = .ok true ∧
    Cell.isConvex [cs.rotate 1 ++ (cs.rotate 1).take 1] = .ok false := by
  refine ⟨[⟨0, 1, 0⟩, ⟨2, 0, 0⟩, ⟨0, 4, 0⟩, ⟨-2, 0, 0⟩], ?_, ?_, ?_⟩
  · rintro ⟨s, h⟩
    simp only [List.take, List.append_eq, List.cons_append, List.nil_append, Turning, cross] at h
    obtain ⟨h1, _, _, h4, _⟩ := h
    norm_num at h1 h4
    linarith
  · have ha : shoelace ([⟨0, 1, 0⟩, ⟨2, 0, 0⟩, ⟨0, 4, 0⟩, ⟨-2, 0, 0⟩] ++
        ([⟨0, 1, 0⟩, ⟨2, 0, 0⟩, ⟨0, 4, 0⟩, ⟨-2, 0, 0⟩] : List RPoint).take 1) ≠ 0 := by
      simp only [shoelace, List.take, List.append_eq, List.cons_append, List.nil_append]; norm_num
    have hp : Turning 1 ([⟨0, 1, 0⟩, ⟨2, 0, 0⟩, ⟨0, 4, 0⟩, ⟨-2, 0, 0⟩] ++
        ([⟨0, 1, 0⟩, ⟨2, 0, 0⟩, ⟨0, 4, 0⟩, ⟨-2, 0, 0⟩] : List RPoint).take 1) := by
      simp only [List.take, List.append_eq, List.cons_append, List.nil_append, Turning, cross]
      norm_num
    obtain ⟨r, h1, h2⟩ := isConvex_iff ha (by simp) (F2C.Turning.bent hp)
    rw [h1, h2.2 ⟨1, hp⟩]
  · have e : ([⟨0, 1, 0⟩, ⟨2, 0, 0⟩, ⟨0, 4, 0⟩, ⟨-2, 0, 0⟩] : List RPoint).rotate 1 ++
        (([⟨0, 1, 0⟩, ⟨2, 0, 0⟩, ⟨0, 4, 0⟩, ⟨-2, 0, 0⟩] : List RPoint).rotate 1).take 1 =
        [⟨2, 0, 0⟩, ⟨0, 4, 0⟩, ⟨-2, 0, 0⟩, ⟨0, 1, 0⟩, ⟨2, 0, 0⟩] := by
      simp [List.rotate]
    rw [e]
    have ha : shoelace [⟨2, 0, 0⟩, ⟨0, 4, 0⟩, ⟨-2, 0, 0⟩, ⟨0, 1, 0⟩, ⟨2, 0, 0⟩] ≠ 0 := by
      simp only [shoelace]; norm_num
    have hb : Bent [⟨2, 0, 0⟩, ⟨0, 4, 0⟩, ⟨-2, 0, 0⟩, ⟨0, 1, 0⟩, ⟨2, 0, 0⟩] := by
      simp only [Bent, cross]; norm_num
    obtain ⟨r, h1, h2⟩ := isConvex_iff ha (by simp) hb
    rw [h1]
    cases r with
    | false => rfl
    | true =>
      obtain ⟨s, h⟩ := h2.1 rfl
      simp only [Turning, cross] at h
      obtain ⟨h3, h4, h5, _⟩ := h
      norm_num at h3 h4 h5
      linarith

private theorem turn_straight (a b c : RPoint)
    (h : angleFromPoint (c.sub b) = angleFromPoint (b.sub a)) : turnAngle a b c = 0 := by
  unfold turnAngle
  rw [h, sub_self]
  exact mod2pi_of_range le_rfl (by positivity)

/-- C50: a rectangle with an extra point on one side is found convex when the border runs
counterclockwise, and not convex when the same border runs clockwise. -/
theorem C50_straight_corner : ∃ ring : List RPoint,
    Cell.isConvex [ring] = .ok true ∧ Cell.isConvex [ring.reverse] = .ok false := by
  have str : ∀ a b c : RPoint, angleFromPoint (c.sub b) = angleFromPoint (b.sub a) →
      turnAngle a b c < π := fun a b c h => by rw [turn_straight a b c h]; exact pi_pos
  refine ⟨[⟨0, 0, 0⟩, ⟨4, 0, 0⟩, ⟨4, 1, 0⟩, ⟨4, 2, 0⟩, ⟨0, 2, 0⟩, ⟨0, 0, 0⟩], ?_, ?_⟩
  · have h1 : turnAngle ⟨0, 0, 0⟩ ⟨4, 0, 0⟩ ⟨4, 1, 0⟩ < π := turnAngle_lt_pi (by norm_num [cross])
    have h2 : turnAngle ⟨4, 0, 0⟩ ⟨4, 1, 0⟩ ⟨4, 2, 0⟩ < π := str _ _ _ (by
      simp only [Point.sub]; norm_num)
    have h3 : turnAngle ⟨4, 1, 0⟩ ⟨4, 2, 0⟩ ⟨0, 2, 0⟩ < π := turnAngle_lt_pi (by norm_num [cross])
    have h4 : turnAngle ⟨4, 2, 0⟩ ⟨0, 2, 0⟩ ⟨0, 0, 0⟩ < π := turnAngle_lt_pi (by norm_num [cross])
    unfold Cell.isConvex
    simp only []
    rw [if_neg (by simp [shoelace]; norm_num), if_neg (by simp)]
    simp [sameTurns, h1, h2, h3, h4]
  · have h1 : π < turnAngle ⟨0, 0, 0⟩ ⟨0, 2, 0⟩ ⟨4, 2, 0⟩ := pi_lt_turnAngle (by norm_num [cross])
    have h2 : π < turnAngle ⟨0, 2, 0⟩ ⟨4, 2, 0⟩ ⟨4, 1, 0⟩ := pi_lt_turnAngle (by norm_num [cross])
    have h3 : turnAngle ⟨4, 2, 0⟩ ⟨4, 1, 0⟩ ⟨4, 0, 0⟩ < π := str _ _ _ (by
      simp only [Point.sub]; norm_num)
    have e : [(⟨0, 0, 0⟩ : RPoint), ⟨4, 0, 0⟩, ⟨4, 1, 0⟩, ⟨4, 2, 0⟩, ⟨0, 2, 0⟩, ⟨0, 0, 0⟩].reverse =
      [⟨0, 0, 0⟩, ⟨0, 2, 0⟩, ⟨4, 2, 0⟩, ⟨4, 1, 0⟩, ⟨4, 0, 0⟩, ⟨0, 0, 0⟩] := by simp
    rw [e]
    unfold Cell.isConvex
    simp only []
    rw [if_neg (by simp [shoelace]; norm_num), if_neg (by simp)]
    simp [sameTurns, h1.le, h2.le, h3]

end F2C.Props
