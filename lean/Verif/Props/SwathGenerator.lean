import Mathlib.Tactic.NormNum
import Mathlib.Tactic.FinCases
import Mathlib.Analysis.Real.Pi.Bounds
import Verif.Lemmas.SwathGenerator
import Verif.Props.SwathTypes

/-! # Property theorems C23, C24, C25 (generator), C26 -/

namespace F2C.Props

open SG F2C.SG

/-! ## C23 -/

/-- **C23.** For every cell with an area, every angle, positive width and overlap option, the
tracks are computed; every point of the cell (even of its convex hull) has a point of a track at
most half a width away; and every track is a straight line along the angle that reaches past the
cell on both sides. -/
theorem C23_tracks_leave_no_gap (overlap : Bool) (angle w : ℝ) (poly : Cell ℝ) (hw : 0 < w)
    (hA : HasArea poly.flatten) :
    ∃ ts, tracks overlap angle w poly = .ok ts ∧
      (∀ p, InHull poly.flatten p → ∃ t ∈ ts, ∃ q, OnLine t q ∧ pdist p q ≤ w / 2) ∧
      ∀ t ∈ ts, ∃ a b : RPoint, t = [a, b] ∧ across angle a = across angle b ∧
        ∀ p, InHull poly.flatten p → along angle a ≤ along angle p ∧ along angle p ≤ along angle b := by
  obtain ⟨a₀, ha₀, -⟩ := id hA
  have hne : poly.flatten ≠ [] := List.ne_nil_of_mem ha₀
  have hext := hasArea_extent poly angle hA
  refine ⟨_, tracks_eq overlap angle w poly hw hne, ?_, ?_⟩
  · intro p hp
    obtain ⟨h1, h2⟩ := hull_across poly angle p hp
    obtain ⟨i, hi, hd⟩ := near_offset (extent poly angle) w (across angle p - lowAcross poly angle)
      hw (by linarith) (by linarith) hext overlap
    obtain ⟨q, hq, he⟩ := track_opposite poly angle w i p hp hext
    refine ⟨_, List.mem_map_of_mem (List.mem_range.2 hi), q, hq, ?_⟩
    rw [pdist_same_along angle p q he.symm, track_across poly angle w i q hq]
    have e : across angle p - (lowAcross poly angle + ((i : ℝ) + 1 / 2) * w)
        = across angle p - lowAcross poly angle - ((i : ℝ) + 1 / 2) * w := by ring
    rw [e]; exact hd
  · intro t ht
    obtain ⟨i, -, rfl⟩ := List.mem_map.1 ht
    obtain ⟨a, b, e, h1, h2, h3, h4⟩ := track_ends poly angle w i
    refine ⟨a, b, e, by rw [h3, h4], ?_⟩
    intro p hp
    obtain ⟨h5, h6⟩ := hull_along poly angle p hp
    have hL : 0 < reach poly angle := by linarith
    constructor <;> linarith

/-- A rectangle of the given height, 10 long. -/
def rect (h : ℝ) : Cell ℝ := [[⟨0, 0, 0⟩, ⟨10, 0, 0⟩, ⟨10, h, 0⟩, ⟨0, h, 0⟩, ⟨0, 0, 0⟩]]

theorem rect_hasArea (h : ℝ) (hh : 0 < h) : HasArea (rect h).flatten := by
  refine ⟨⟨0, 0, 0⟩, by simp [rect], ⟨10, 0, 0⟩, by simp [rect], ⟨10, h, 0⟩, by simp [rect], ?_⟩
  simp [Point.det, Point.sub, hh.ne']

theorem rect_hull (h x y : ℝ) (hx : 0 ≤ x) (hx' : x ≤ 10) (hy : 0 ≤ y) (hy' : y ≤ h) :
    InHull (rect h).flatten ⟨x, y, 0⟩ := by
  intro a b c hq
  have h1 := hq ⟨0, 0, 0⟩ (by simp [rect])
  have h2 := hq ⟨10, 0, 0⟩ (by simp [rect])
  have h3 := hq ⟨10, h, 0⟩ (by simp [rect])
  have h4 := hq ⟨0, h, 0⟩ (by simp [rect])
  simp only [mul_zero, add_zero, zero_add] at h1 h2 h3 h4 ⊢
  rcases le_or_gt 0 a with ha | ha <;> rcases le_or_gt 0 b with hb | hb <;> nlinarith

theorem rect_extent (h : ℝ) (hh : 0 ≤ h) : IsExtent (rect h).flatten 0 h := by
  constructor
  · intro p hp q hq
    simp [rect] at hp hq
    rcases hp with rfl | rfl | rfl | rfl | rfl <;> rcases hq with rfl | rfl | rfl | rfl | rfl <;>
      simp [across, hh]
  · exact ⟨⟨0, h, 0⟩, by simp [rect], ⟨0, 0, 0⟩, by simp [rect], by simp [across]⟩

example : ∃ ts, tracks false 0 1 (rect (23 / 10)) = .ok ts ∧
    ∃ t ∈ ts, ∃ q, OnLine t q ∧ pdist ⟨5, 11 / 5, 0⟩ q ≤ 1 / 2 := by
  obtain ⟨ts, e, h, _⟩ := C23_tracks_leave_no_gap false 0 1 (rect (23 / 10)) (by norm_num)
    (rect_hasArea _ (by norm_num))
  exact ⟨ts, e, h _ (rect_hull _ _ _ (by norm_num) (by norm_num) (by norm_num) (by norm_num))⟩

/-- The track lines cover the cell, the *swaths* do not: the last track can lie outside of the
cell and is then cut away, with or without the overlap option.  Whatever correct intersection is
used, in a 10 × 2.3 rectangle with width 1 the point (5, 2.2) is further than half a width from
every swath. -/
theorem C23_swaths_leave_gap (overlap : Bool)
    (clip : Cell ℝ → List (List RPoint) → List (List RPoint))
    (hclip : ClipInside clip (rect (23 / 10))) :
    InHull (rect (23 / 10)).flatten ⟨5, 11 / 5, 0⟩ ∧
    ∃ ss, generateSwaths clip overlap 0 1 (rect (23 / 10)) = .ok ss ∧
      ∀ s ∈ ss, ∀ q, OnLine s.path q → 1 / 2 < pdist ⟨5, 11 / 5, 0⟩ q := by
  refine ⟨rect_hull _ _ _ (by norm_num) (by norm_num) (by norm_num) (by norm_num), ?_⟩
  have hne : (rect (23 / 10)).flatten ≠ [] := by simp [rect]
  have hx := isExtent_unique _ _ _ (rect_extent (23 / 10) (by norm_num))
  have hlow : lowAcross (rect (23 / 10)) 0 = 0 := by
    obtain ⟨p, hp, q, hq, e1, e2⟩ := extent_attained (rect (23 / 10)) 0 hne
    rw [hx] at e1
    simp [rect] at hp hq
    rcases hp with rfl | rfl | rfl | rfl | rfl <;> rcases hq with rfl | rfl | rfl | rfl | rfl <;>
      simp [across] at e1 e2 <;> first | exact e2.symm | (exfalso; linarith)
  unfold generateSwaths
  rw [tracks_eq overlap 0 1 _ one_pos hne, Outcome.ok_bind]
  obtain ⟨new, e, hp, hp0, -⟩ := C25_append_numbers (K := ℝ) []
    (clip (rect (23 / 10)) ((List.range (trackCount overlap (extent (rect (23 / 10)) 0) 1)).map
      (track (rect (23 / 10)) 0 1))) 1 .mainland one_pos
  refine ⟨_, e, ?_⟩
  intro s hs q hq
  have hs' := mem_lines_of_append hp hp0 (s := s) (by simpa using hs)
  obtain ⟨hin, t, ht, hqt⟩ := hclip _ _ hs' q hq
  obtain ⟨i, -, rfl⟩ := List.mem_map.1 ht
  have h1 := track_across _ 0 1 i q hqt
  have h2 := (hull_across _ 0 q hin).2
  rw [hlow, hx] at h2
  rw [hlow] at h1
  have hi : i < 2 := by
    have : (i : ℝ) < 2 := by linarith
    exact_mod_cast this
  have hi' : (i : ℝ) ≤ 1 := by exact_mod_cast (by omega : i ≤ 1)
  have h3 := across_le_pdist 0 ⟨5, 11 / 5, 0⟩ q
  rw [h1] at h3
  have h4 : across 0 (⟨5, 11 / 5, 0⟩ : RPoint) = 11 / 5 := by simp [across]
  rw [h4] at h3
  have := (le_abs_self _).trans h3
  linarith

/-- `clip = keep nothing` shows the hypothesis is satisfiable; so does the intersection itself. -/
example : ClipInside (fun _ _ => []) (rect (23 / 10)) := by intro ts r hr; simp at hr

/-! ## C24 -/

/-- **C24**, distances and number of tracks: all points of track `i` lie `(i + 1/2) w` from the
near border, so neighbours are exactly one width apart.  Without the overlap option the number of
tracks is the least `k` with `k w ≥ h`, with it the least `k` with `(k - 1/2) w ≥ h`, where `h` is
the extent of the cell across the tracks. -/
theorem C24_tracks_spacing_and_count (overlap : Bool) (angle w h : ℝ) (poly : Cell ℝ) (hw : 0 < w)
    (hh : IsExtent poly.flatten angle h) :
    ∃ ts, tracks overlap angle w poly = .ok ts ∧
      (∀ i (hi : i < ts.length) (q : RPoint) (p : RPoint), OnLine ts[i] q → p ∈ poly.flatten →
        (∀ p' ∈ poly.flatten, across angle p ≤ across angle p') →
        across angle q - across angle p = ((i : ℝ) + 1 / 2) * w) ∧
      (overlap = false → ∀ k : Nat, ts.length ≤ k ↔ h ≤ k * w) ∧
      (overlap = true → ∀ k : Nat, ts.length ≤ k ↔ h ≤ ((k : ℝ) - 1 / 2) * w) := by
  obtain ⟨-, p₀, hp₀, -⟩ := id hh
  have hne : poly.flatten ≠ [] := List.ne_nil_of_mem hp₀
  have hx := isExtent_unique poly angle h hh
  refine ⟨_, tracks_eq overlap angle w poly hw hne, ?_, ?_, ?_⟩
  · intro i hi q p hq hp hmin
    rw [List.getElem_map, List.getElem_range] at hq
    rw [track_across poly angle w i q hq]
    obtain ⟨_, _, q', hq', _, e⟩ := extent_attained poly angle hne
    have h1 := (across_bounds poly angle p hp).1
    have h2 := hmin q' hq'
    have h3 : across angle p = lowAcross poly angle := by linarith
    rw [h3]; ring
  · rintro rfl k
    rw [List.length_map, List.length_range, hx, trackCount, if_neg (by simp), Nat.ceil_le,
      div_le_iff₀ hw]
  · rintro rfl k
    rw [List.length_map, List.length_range, hx, trackCount, if_pos rfl, Nat.ceil_le,
      ← le_sub_iff_add_le, div_le_iff₀ hw]

/-- **C24** is false in its last part: allowing overlap never changes the generated swaths.  The
only additional track lies beyond the far border of the cell (by at least half a width), where it
is cut away again. -/
theorem C24_overlap_option_has_no_effect
    (clip : Cell ℝ → List (List RPoint) → List (List RPoint)) (angle w : ℝ) (poly : Cell ℝ)
    (hw : 0 < w) (hne : poly.flatten ≠ []) (hclip : ClipIgnores clip poly) :
    generateSwaths clip true angle w poly = generateSwaths clip false angle w poly := by
  unfold generateSwaths
  rw [tracks_eq true angle w poly hw hne, tracks_eq false angle w poly hw hne, Outcome.ok_bind,
    Outcome.ok_bind]
  rcases trackCount_overlap (extent poly angle) w hw (extent_nonneg poly angle hne) with h | ⟨h, hb⟩
  · rw [h]
  · rw [h, List.range_succ, List.map_append, List.map_cons, List.map_nil,
      hclip _ _ (track_misses poly angle w _ hb)]

/-- The part of **C24** that holds at the level of swaths: the option leaves all swaths of the run
without it in place (it adds none). -/
theorem C24_overlap_keeps_swaths_partial
    (clip : Cell ℝ → List (List RPoint) → List (List RPoint)) (angle w : ℝ) (poly : Cell ℝ)
    (hw : 0 < w) (hne : poly.flatten ≠ []) (hclip : ClipIgnores clip poly) :
    ∃ ss, generateSwaths clip false angle w poly = .ok ss ∧
      ∃ extra, generateSwaths clip true angle w poly = .ok (ss ++ extra) := by
  rw [C24_overlap_option_has_no_effect clip angle w poly hw hne hclip]
  unfold generateSwaths
  rw [tracks_eq false angle w poly hw hne, Outcome.ok_bind]
  obtain ⟨new, e, -⟩ := C25_append_numbers (K := ℝ) []
    (clip poly ((List.range (trackCount false (extent poly angle) w)).map (track poly angle w)))
    w .mainland hw
  exact ⟨_, e, [], by rw [e]; simp⟩

open Classical in
/-- A clip that keeps the lines with a point in common with the cell. -/
example (angle : ℝ) :
    generateSwaths (fun poly ts => ts.filter fun t => decide (¬ Misses poly.flatten t)) true angle 1 (rect (23 / 10)) =
      generateSwaths (fun poly ts => ts.filter fun t => decide (¬ Misses poly.flatten t)) false angle 1
        (rect (23 / 10)) :=
  C24_overlap_option_has_no_effect _ angle 1 _ one_pos (by simp [rect]) fun ts t ht => by
    rw [List.filter_append]
    simp [ht]

/-- A 10 × 2.3 rectangle gets three tracks of width 1, with and without overlap. -/
example (overlap : Bool) : ∃ ts, tracks overlap 0 1 (rect (23 / 10)) = .ok ts ∧ ts.length = 3 := by
  obtain ⟨ts, e, -, h1, h2⟩ := C24_tracks_spacing_and_count overlap 0 1 (23 / 10) (rect (23 / 10))
    one_pos (rect_extent _ (by norm_num))
  refine ⟨ts, e, ?_⟩
  cases overlap with
  | false =>
    have a := (h1 rfl 3).2 (by norm_num)
    have b := mt (h1 rfl 2).1 (by norm_num)
    omega
  | true =>
    have a := (h2 rfl 3).2 (by norm_num)
    have b := mt (h2 rfl 2).1 (by norm_num)
    omega

/-! ## C25, the generator -/

/-- **C25**, one cell: the swaths are the clipped tracks in order (none if all of them are empty), numbered from
0, with the operating width and type MAINLAND. -/
theorem C25_generated_numbers (clip : Cell ℝ → List (List RPoint) → List (List RPoint))
    (overlap : Bool) (angle w : ℝ) (poly : Cell ℝ) (hw : 0 < w) (hne : poly.flatten ≠ []) :
    ∃ ts ss, tracks overlap angle w poly = .ok ts ∧
      generateSwaths clip overlap angle w poly = .ok ss ∧
      ((∃ l ∈ clip poly ts, l ≠ []) → ss.map Swath.path = clip poly ts) ∧
      ((∀ l ∈ clip poly ts, l = []) → ss = []) ∧
      ∀ i (h : i < ss.length), (ss[i]).id = i ∧ (ss[i]).width = w ∧ (ss[i]).type = .mainland := by
  have e1 := tracks_eq overlap angle w poly hw hne
  obtain ⟨new, e, h1, h0, h2⟩ := C25_append_numbers (K := ℝ) []
    (clip poly ((List.range (trackCount overlap (extent poly angle) w)).map (track poly angle w)))
    w .mainland hw
  refine ⟨_, new, e1, ?_, h1, h0, ?_⟩
  · unfold generateSwaths
    rw [e1, Outcome.ok_bind, e, List.nil_append]
  · intro i h
    obtain ⟨a, b, c, -⟩ := h2 i h
    exact ⟨by simpa using a, b, c⟩

/-- **C25**, several cells: one group per cell, in the order of the cells, each the result for that
cell alone (so each numbered from 0 by `C25_generated_numbers`). -/
theorem C25_one_group_per_cell (clip : Cell ℝ → List (List RPoint) → List (List RPoint))
    (overlap : Bool) (angle w : ℝ) (cells : Cells ℝ) (hw : 0 < w)
    (hne : ∀ c ∈ cells, c.flatten ≠ []) :
    ∃ gs : SwathsByCells ℝ, perCell (generateSwaths clip overlap angle w) cells = .ok gs ∧
      gs.length = cells.length ∧
      ∀ i (h : i < gs.length) (h' : i < cells.length),
        generateSwaths clip overlap angle w cells[i] = .ok gs[i] ∧
        ∀ j (hj : j < (gs[i]).length), (gs[i][j]).id = j := by
  have hit := iter_of_forall hne
  have : ∃ gs : SwathsByCells ℝ,
      List.Forall₂ (fun c g => generateSwaths clip overlap angle w c = .ok g) cells gs := by
    clear hit
    induction cells with
    | nil => exact ⟨[], .nil⟩
    | cons c cs ih =>
      obtain ⟨gs, h⟩ := ih fun c hc => hne c (List.mem_cons_of_mem _ hc)
      obtain ⟨_, ss, _, e, _⟩ := C25_generated_numbers clip overlap angle w c hw
        (hne c (List.mem_cons_self ..))
      exact ⟨ss :: gs, .cons e h⟩
  obtain ⟨gs, h⟩ := this
  refine ⟨gs, perCell_of_forall₂ _ _ _ hit h, h.length_eq.symm, ?_⟩
  intro i hi hi'
  have e := (List.forall₂_iff_get.1 h).2 i hi' hi
  simp only [List.get_eq_getElem] at e
  refine ⟨e, ?_⟩
  obtain ⟨_, ss, _, e', _, _, hn⟩ := C25_generated_numbers clip overlap angle w cells[i] hw
    (hne _ (List.getElem_mem _))
  rw [e] at e'
  injection e' with e'
  intro j hj
  have := hn j (by rw [← e']; exact hj)
  simp only [← e'] at this
  exact this.1

/-- **C25** is false if all cells are empty: there is no group, however many cells there are, since a
container of empty cells has size 0. -/
theorem C25_no_group_for_empty_cells (one : Cell ℝ → Outcome (Swaths ℝ)) (cells : Cells ℝ)
    (h : ∀ c ∈ cells, c.flatten = []) : perCell one cells = .ok [] := by
  unfold perCell
  rw [iter_of_empty h]
  rfl

example : perCell (fun _ => .ok []) [[], [[]]] = .ok [] :=
  C25_no_group_for_empty_cells _ _ (by simp)

/-- **C25** is false in its last part for the generator: with a non-positive width no exception is
thrown, the loop placing the tracks never ends for any cell with an area (without overlap; with
overlap as soon as the cell is larger than half the absolute width). -/
theorem C25_nonpositive_width_never_returns (angle w h : ℝ) (poly : Cell ℝ) (hw : w ≤ 0)
    (hh : IsExtent poly.flatten angle h) :
    (0 < h → ∀ rounds, trackLoop h w (slack false w) rounds (-(1 / 2) * w) = .ub "endless loop") ∧
    (-w / 2 < h → ∀ rounds, trackLoop h w (slack true w) rounds (-(1 / 2) * w) = .ub "endless loop") ∧
    (0 < h → ∀ clip, generateSwaths clip false angle w poly = .ub "endless loop") := by
  have hx := isExtent_unique poly angle h hh
  refine ⟨?_, ?_, ?_⟩
  · intro h0 n
    exact trackLoop_endless _ _ _ hw n _ (by simp only [slack, Bool.false_eq_true, if_false]; linarith)
  · intro h0 n
    exact trackLoop_endless _ _ _ hw n _ (by simp only [slack, if_true]; linarith)
  · intro h0 clip
    unfold generateSwaths tracks
    simp only [show (Cell.rotate Point.zero (-angle) poly).height = h from hx, trackOffsets]
    rw [trackLoop_endless _ _ _ hw _ _ (by simp only [slack, Bool.false_eq_true, if_false]; linarith)]
    rfl

example : generateSwaths (fun _ ls => ls) false 0 (-1) (rect 3) = .ub "endless loop" :=
  (C25_nonpositive_width_never_returns 0 (-1) 3 (rect 3) (by norm_num)
    (rect_extent 3 (by norm_num))).2.2 (by norm_num) _

example : ∃ ts ss, tracks false 0 1 (rect 3) = .ok ts ∧
    generateSwaths (fun _ ls => [Point.zero] :: ls) false 0 1 (rect 3) = .ok ss ∧
    ss.map Swath.path = [Point.zero] :: ts := by
  obtain ⟨ts, ss, h1, h2, h3, _⟩ := C25_generated_numbers (fun _ ls => [Point.zero] :: ls) false 0 1 (rect 3)
    one_pos (by simp [rect])
  exact ⟨ts, ss, h1, h2, h3 ⟨_, List.mem_cons_self .., by simp⟩⟩

/-! ## C26 -/

/-- The cost of an angle before the sign of the objective is applied. -/
noncomputable def rawCost (obj : Objective) (gen : ℝ → ℝ → Cell ℝ → Outcome (Swaths ℝ)) (w : ℝ)
    (poly : Cell ℝ) (a : ℝ) : Outcome ℝ :=
  if obj.fastComp then obj.fastCost a w poly else gen a w poly >>= obj.swathCost poly

/-- `a` is no worse than `b` for a minimising or maximising objective. -/
def NoWorse (isMinimizing : Bool) (a b : ℝ) : Prop := if isMinimizing then a ≤ b else b ≤ a

/-- **C26.** For a step angle in (0, 2π] (whose number of steps fits into an `int`) and an
objective whose cost is defined at the candidates, the brute force search returns a multiple
`k * step` of the step such that no other candidate is better, and all smaller candidates are
worse; the candidates are the multiples `j * step` with `(j + 1) * step ≤ 2π`. -/
theorem C26_brute_force_optimal (obj : Objective) (gen : ℝ → ℝ → Cell ℝ → Outcome (Swaths ℝ))
    (w : ℝ) (poly : Cell ℝ) (step : ℝ) (h0 : 0 < step) (h1 : step ≤ 2 * Real.pi)
    (h2 : 2 * Real.pi / step < 2 ^ 31) (c : ℝ → ℝ)
    (hc : ∀ j : Nat, ((j : ℝ) + 1) * step ≤ 2 * Real.pi →
      rawCost obj gen w poly (j * step) = .ok (c (j * step))) :
    ∃ k : Nat, computeBestAngle (fun a => computeCostOfAngle obj gen a w poly) step
        = .ok ((k : ℝ) * step) ∧
      ((k : ℝ) + 1) * step ≤ 2 * Real.pi ∧
      (∀ j : Nat, ((j : ℝ) + 1) * step ≤ 2 * Real.pi →
        NoWorse obj.isMinimizing (c (k * step)) (c (j * step))) ∧
      ∀ j : Nat, j < k → ¬ NoWorse obj.isMinimizing (c (j * step)) (c (k * step)) := by
  have hpos : 0 < 2 * Real.pi / step := div_pos (by positivity) h0
  have hcand : ∀ j : Nat, j < ⌊2 * Real.pi / step⌋₊ ↔ ((j : ℝ) + 1) * step ≤ 2 * Real.pi := by
    intro j
    rw [← Nat.succ_le_iff, Nat.le_floor_iff hpos.le, le_div_iff₀ h0]
    simp
  have hn : ⌊2 * Real.pi / step⌋₊ ≠ 0 := by
    have := (hcand 0).2 (by simpa using h1)
    omega
  set sg : ℝ → ℝ := withSign obj.isMinimizing with hsg
  have hcost : ∀ j < ⌊2 * Real.pi / step⌋₊,
      (fun i : Nat => computeCostOfAngle obj gen (i * step) w poly) (0 + j)
        = .ok ((fun i : Nat => sg (c (i * step))) (0 + j)) := by
    intro j hj
    have := hc j ((hcand j).1 hj)
    simp only [Nat.zero_add]
    unfold rawCost at this
    unfold computeCostOfAngle
    cases hf : obj.fastComp with
    | true =>
      rw [hf, if_pos rfl] at this
      rw [if_pos rfl, this]; rfl
    | false =>
      rw [hf, if_neg (by simp)] at this
      rw [if_neg (by simp)]
      cases hg : gen (j * step) w poly with
      | throw e => rw [hg] at this; simp at this
      | ub e => rw [hg] at this; simp at this
      | ok s =>
        rw [hg, Outcome.ok_bind] at this
        rw [Outcome.ok_bind, this]; rfl
  have ht := transformIds_ok (fun i : Nat => computeCostOfAngle obj gen (i * step) w poly)
    (fun i : Nat => sg (c (i * step))) _ 0 hcost
  simp only [Nat.zero_add] at ht
  set costs := (List.range ⌊2 * Real.pi / step⌋₊).map fun i : Nat => sg (c (i * step)) with hcosts
  have hne : costs ≠ [] := by simp [hcosts, hn]
  obtain ⟨hk, hk1, hk2⟩ := minElement_spec hne
  have hlen : costs.length = ⌊2 * Real.pi / step⌋₊ := by simp [hcosts]
  have hget : ∀ j (hj : j < costs.length), costs[j] = sg (c (j * step)) := by
    intro j hj; simp [hcosts]
  have hres : computeBestAngle (fun a => computeCostOfAngle obj gen a w poly) step
      = .ok ((minElement costs : ℝ) * step) := by
    unfold computeBestAngle
    rw [if_neg, if_neg]
    · simp only []
      rw [ht, Outcome.ok_bind, if_neg hn, Outcome.pure_eq]
    · linarith
    · rintro (h | h | h)
      · linarith
      · linarith
      · linarith
  have hno : ∀ a b : ℝ, sg a ≤ sg b ↔ NoWorse obj.isMinimizing a b := by
    intro a b
    simp only [hsg, withSign, NoWorse]
    cases obj.isMinimizing <;> simp
  refine ⟨minElement costs, hres, (hcand _).1 (by omega), ?_, ?_⟩
  · intro j hj
    have hj' : j < costs.length := by rw [hlen]; exact (hcand j).2 hj
    have := hk1 j hj'
    rw [hget _ hk, hget _ hj'] at this
    exact (hno _ _).1 this
  · intro j hj hnw
    have := hk2 j hj
    rw [hget _ hk, hget _ (by omega)] at this
    exact absurd ((hno _ _).2 hnw) (not_le.2 this)

/-- **C26**, use of the result: the swaths returned by `generateBestSwaths` are those generated at
the best angle. -/
theorem C26_best_swaths (obj : Objective) (clip : Cell ℝ → List (List RPoint) → List (List RPoint))
    (overlap : Bool) (step w angle : ℝ) (poly : Cell ℝ)
    (h : computeBestAngle
      (fun a => computeCostOfAngle obj (generateSwaths clip overlap) a w poly) step = .ok angle) :
    generateBestSwaths obj clip overlap step w poly = generateSwaths clip overlap angle w poly := by
  unfold generateBestSwaths
  rw [h, Outcome.ok_bind]

/-- **C26**, several cells: every cell is covered at its own best angle, in the order of the cells. -/
theorem C26_best_per_cell (obj : Objective) (clip : Cell ℝ → List (List RPoint) → List (List RPoint))
    (overlap : Bool) (step w : ℝ) (cells : Cells ℝ) (gs : SwathsByCells ℝ)
    (hne : ∃ c ∈ cells, c.flatten ≠ [])
    (h : perCell (generateBestSwaths obj clip overlap step w) cells = .ok gs) :
    List.Forall₂ (fun c g => ∃ angle, computeBestAngle
        (fun a => computeCostOfAngle obj (generateSwaths clip overlap) a w c) step = .ok angle ∧
      generateSwaths clip overlap angle w c = .ok g) cells gs := by
  refine (perCell_ok _ _ _ (iter_of_exists hne) h).imp ?_
  intro c g h1
  unfold generateBestSwaths at h1
  cases h3 : computeBestAngle (fun a => computeCostOfAngle obj (generateSwaths clip overlap) a w c) step with
  | throw e => rw [h3] at h1; cases h1
  | ub e => rw [h3] at h1; cases h1
  | ok angle =>
    rw [h3, Outcome.ok_bind] at h1
    exact ⟨angle, rfl, h1⟩

/-- Outside of (0, 2π] nothing is returned: a larger step leaves no candidate (read past the end),
a step of 0 or a negative one never gives an angle. -/
theorem C26_bad_step (cost : ℝ → Outcome ℝ) (step : ℝ) (h : step ≤ 0 ∨ 2 * Real.pi < step) :
    (computeBestAngle cost step).isOk = false ∧
    (2 * Real.pi < step → (computeBestAngle cost step).isUb = true) := by
  have hpi := Real.pi_pos
  have key : ⌊2 * Real.pi / step⌋₊ = 0 → (computeBestAngle cost step).isOk = false := by
    intro hz
    unfold computeBestAngle
    split_ifs with a b
    · rfl
    · rfl
    · simp only [hz, transformIds, Outcome.ok_bind, if_true]; rfl
  rcases h with h | h
  · refine ⟨?_, fun h' => by linarith⟩
    apply key
    rw [Nat.floor_eq_zero]
    have : 2 * Real.pi / step ≤ 0 := div_nonpos_of_nonneg_of_nonpos (by positivity) h
    linarith
  · have hs : 0 < step := by linarith
    have hlt : 2 * Real.pi / step < 1 := (div_lt_one hs).2 h
    have hgt : 0 < 2 * Real.pi / step := div_pos (by positivity) hs
    have hz : ⌊2 * Real.pi / step⌋₊ = 0 := Nat.floor_eq_zero.2 hlt
    refine ⟨key hz, fun _ => ?_⟩
    unfold computeBestAngle
    rw [if_neg, if_neg]
    · simp only [hz, transformIds, Outcome.ok_bind, if_true]; rfl
    · linarith
    · rintro (h | h | h)
      · linarith
      · linarith [show (1:ℝ) ≤ 2 ^ 31 by norm_num]
      · linarith

/-- A maximising objective with the cost `a (3 - a)`: no candidate is better than the result. -/
example : ∃ k : Nat,
    computeBestAngle (fun a => computeCostOfAngle
      ⟨false, true, fun a _ _ => .ok (a * (3 - a)), fun _ _ => .ok 0⟩
      (generateSwaths (fun _ l => l) false) a 1 (rect 3)) 1 = .ok ((k : ℝ) * 1) ∧
    NoWorse false ((k : ℝ) * 1 * (3 - k * 1)) (((1 : Nat) : ℝ) * 1 * (3 - ((1 : Nat) : ℝ) * 1)) := by
  have hpi := Real.pi_gt_three
  have hpi' := Real.pi_lt_d2
  obtain ⟨k, h1, _, h3, _⟩ := C26_brute_force_optimal
    ⟨false, true, fun a _ _ => .ok (a * (3 - a)), fun _ _ => .ok 0⟩
    (generateSwaths (fun _ l => l) false) 1 (rect 3) 1 one_pos (by linarith)
    (by norm_num; linarith) (fun a => a * (3 - a)) (fun j _ => rfl)
  exact ⟨k, h1, h3 1 (by norm_num; linarith)⟩

/-- The hypothesis of `C26_best_per_cell` can be met. -/
example : ∃ gs, perCell (generateBestSwaths ⟨false, true, fun a _ _ => .ok (a * (3 - a)), fun _ _ => .ok 0⟩
      (fun _ l => l) false 1 1) [rect 3, rect 2] = .ok gs ∧ gs.length = 2 := by
  have hpi := Real.pi_gt_three
  have hpi' := Real.pi_lt_d2
  have one : ∀ h : ℝ, ∃ g, generateBestSwaths ⟨false, true, fun a _ _ => .ok (a * (3 - a)), fun _ _ => .ok 0⟩
      (fun _ l => l) false 1 1 (rect h) = .ok g := by
    intro h
    obtain ⟨k, h1, _⟩ := C26_brute_force_optimal
      ⟨false, true, fun a _ _ => .ok (a * (3 - a)), fun _ _ => .ok 0⟩
      (generateSwaths (fun _ l => l) false) 1 (rect h) 1 one_pos (by linarith)
      (by norm_num; linarith) (fun a => a * (3 - a)) (fun j _ => rfl)
    obtain ⟨_, ss, _, e, _⟩ := C25_generated_numbers (fun _ l => l) false (k * 1) 1 (rect h) one_pos (by simp [rect])
    exact ⟨ss, (C26_best_swaths _ _ _ _ _ _ _ h1).trans e⟩
  obtain ⟨g, hg⟩ := one 3
  obtain ⟨g', hg'⟩ := one 2
  refine ⟨[g, g'], ?_, rfl⟩
  exact perCell_of_forall₂ _ _ _ (iter_of_forall (by simp [rect])) (.cons hg (.cons hg' .nil))

end F2C.Props
