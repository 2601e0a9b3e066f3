import Verif.Lemmas.Convex
import Verif.Lemmas.ObjVirtual
import Verif.Props.Objectives
import Verif.Props.SwathGenerator

/-! # C113: how far the fast count of swaths can mislead the search over angles -/

namespace F2C.Props

open SG Obj Convex F2C.Convex F2C.SG F2C.Obj

/-! ## Convex fields -/

/-- **C113**, geometry: the border of a convex field goes over its extent across any direction exactly twice. -/
theorem C113_border (c : List RPoint) (hc : StrictlyConvex c) (ang h : ℝ) (hh : IsExtent c ang h) :
    projectedLength ang (closeUp c) = 2 * h := by
  obtain ⟨h1, p, hp, q, hq, e⟩ := hh
  apply le_antisymm
  · have hq' : ∀ r ∈ c, across ang q ≤ across ang r := by
      intro r hr
      have := h1 p hp r hr
      linarith
    have hp' : ∀ r ∈ c, across ang r ≤ across ang p := by
      intro r hr
      have := h1 r hr q hq
      linarith
    have := projectedLength_convex_le c hc ang _ _ hq' hp'
    rwa [e] at this
  · have := twice_le_projectedLength ang c p q hp hq
    rw [e] at this
    have := le_abs_self h
    linarith

/-- **C113**, value: for a convex field the fast cost of `NSwathModified` is at least extent over width and at most half
again as large; it is exact if the number of points of the closed ring divides 2^64 or 2^64 - 1, as for triangles (4
points) and quadrilaterals (5 points). -/
theorem C113_value (c : List RPoint) (hc : StrictlyConvex c) (ang w h : ℝ) (hw : 0 < w) (hh : IsExtent c ang h)
    (hsz : c.length < 2 ^ 64) :
    h / w ≤ nSwathModified ang w [closeUp c] ∧ nSwathModified ang w [closeUp c] ≤ 3 / 2 * (h / w) ∧
    (c.length + 1 ∣ 2 ^ 64 ∨ c.length + 1 ∣ 2 ^ 64 - 1 → nSwathModified ang w [closeUp c] = h / w) := by
  have hlen : (closeUp c).length = c.length + 1 := by
    cases c with
    | nil => exact absurd rfl (strictlyConvex_ne_nil hc)
    | cons a l => simp [closeUp]
  have hnil : closeUp c ≠ [] := by
    intro h
    rw [h] at hlen
    simp at hlen
  have hval := C27_exact_value ang w [closeUp c] hw (by simpa using hnil) (by simp [hlen]; omega)
  simp only [List.map_cons, List.map_nil, List.sum_cons, List.sum_nil, add_zero] at hval
  rw [C113_border c hc ang h hh] at hval
  have hmem : ∀ i, i < (closeUp c).length → ringPoint (closeUp c) i ∈ c := by
    intro i hi
    rw [ringPoint, List.getD_eq_getElem?_getD, List.getElem?_eq_getElem hi, Option.getD_some, ← mem_closeUp]
    exact List.getElem_mem _
  have h0 := hmem 0 (by omega)
  have h1 := hmem ((2 ^ 64 - 1) % (closeUp c).length) (Nat.mod_lt _ (by omega))
  have hb : |across ang (ringPoint (closeUp c) 0) - across ang (ringPoint (closeUp c) ((2 ^ 64 - 1) % (closeUp c).length))|
      ≤ h := abs_le.2 ⟨by linarith [hh.1 _ h1 _ h0], hh.1 _ h0 _ h1⟩
  have hn := abs_nonneg
    (across ang (ringPoint (closeUp c) 0) - across ang (ringPoint (closeUp c) ((2 ^ 64 - 1) % (closeUp c).length)))
  generalize |across ang (ringPoint (closeUp c) 0)
    - across ang (ringPoint (closeUp c) ((2 ^ 64 - 1) % (closeUp c).length))| = x at hval hb hn
  have e : h / w = 2 * h / (2 * w) := by
    rw [mul_div_mul_left _ _ two_ne_zero]
  refine ⟨?_, ?_, ?_⟩
  · rw [hval, e]
    exact div_le_div_of_nonneg_right (by linarith) (by linarith)
  · rw [hval, e, ← mul_div_assoc]
    exact div_le_div_of_nonneg_right (by linarith) (by linarith)
  · intro hd
    rw [C27_projection_partial ang w [closeUp c] hw (by simpa using hnil) (by
      simp only [List.mem_singleton, forall_eq]
      cases c with
      | nil => exact absurd rfl (strictlyConvex_ne_nil hc)
      | cons a l => rw [Closed, closeUp, List.getLast?_concat]; rfl) (by simpa [hlen] using hd)]
    simp only [List.map_cons, List.map_nil, List.sum_cons, List.sum_nil, add_zero]
    rw [C113_border c hc ang h hh, e]

/-- **C113**, number of swaths: over a convex field there are as many swaths as extent over width, give or take one half:
if the fast cost is exact, it is within one half of the number of swaths. -/
theorem C113_swaths (c : List RPoint) (hc : StrictlyConvex c) (clip : Cell ℝ → List (List RPoint) → List (List RPoint))
    (hclip : ClipsConvex clip [closeUp c]) (overlap : Bool) (ang w h : ℝ) (hw : 0 < w) (hh : IsExtent c ang h) :
    ∃ ss, generateSwaths clip overlap ang w [closeUp c] = .ok ss ∧ |(ss.length : ℝ) - h / w| ≤ 1 / 2 ∧
      (c.length < 2 ^ 64 → c.length + 1 ∣ 2 ^ 64 ∨ c.length + 1 ∣ 2 ^ 64 - 1 →
        |(ss.length : ℝ) - nSwathModified ang w [closeUp c]| ≤ 1 / 2) := by
  obtain ⟨ss, e, hs⟩ := swaths_count clip [closeUp c] hclip (strictlyConvex_hasArea hc) overlap ang w hw
  rw [isExtent_unique [closeUp c] ang h (by
    unfold IsExtent at hh ⊢
    simpa [mem_closeUp] using hh)] at hs
  refine ⟨ss, e, hs, fun h64 hd => ?_⟩
  rw [(C113_value c hc ang w h hw hh h64).2.2 hd]
  exact hs

/-- **C113**, search: over a convex field the search with `NSwathModified` ends with at most half again as many swaths
as at the best candidate, and one more; with at most one more if the fast cost is exact. -/
theorem C113_search (c : List RPoint) (hc : StrictlyConvex c) (hsz : c.length < 2 ^ 64)
    (clip : Cell ℝ → List (List RPoint) → List (List RPoint)) (hclip : ClipsConvex clip [closeUp c]) (overlap : Bool)
    (w : ℝ) (hw : 0 < w) (step : ℝ) (h0 : 0 < step) (h1 : step ≤ 2 * Real.pi) (h2 : 2 * Real.pi / step < 2 ^ 31) :
    ∃ (k : Nat) (ss : Swaths ℝ),
      generateBestSwaths vNSwathModified.forGenerator clip overlap step w [closeUp c] = .ok ss ∧
      Candidate step k ∧ generateSwaths clip overlap (k * step) w [closeUp c] = .ok ss ∧
      ∀ (j : Nat) (ss' : Swaths ℝ), Candidate step j →
        generateSwaths clip overlap (j * step) w [closeUp c] = .ok ss' →
        2 * ss.length ≤ 3 * ss'.length + 2 ∧
        (c.length + 1 ∣ 2 ^ 64 ∨ c.length + 1 ∣ 2 ^ 64 - 1 → ss.length ≤ ss'.length + 1) := by
  obtain ⟨k, k1, k2, k3, -⟩ := C26_brute_force_optimal vNSwathModified.forGenerator (generateSwaths clip overlap) w
    [closeUp c] step h0 h1 h2 (fun a => nSwathModified a w [closeUp c]) (fun j hj => by
      unfold rawCost
      exact if_pos rfl)
  obtain ⟨h, hh, -⟩ := convex_extent c hc (k * step)
  obtain ⟨ss, es, hs, -⟩ := C113_swaths c hc clip hclip overlap (k * step) w h hw hh
  refine ⟨k, ss, (C26_best_swaths _ clip overlap step w _ _ k1).trans es, k2, es, ?_⟩
  intro j ss' hj es'
  obtain ⟨h', hh', -⟩ := convex_extent c hc (j * step)
  obtain ⟨x, ex, hx, -⟩ := C113_swaths c hc clip hclip overlap (j * step) w h' hw hh'
  rw [es'] at ex
  cases ex
  have hle : nSwathModified (k * step) w [closeUp c] ≤ nSwathModified (j * step) w [closeUp c] := by
    have := k3 j hj
    simpa [NoWorse, vNSwathModified, VObj.forGenerator, VObj.base] using this
  obtain ⟨v1, -, v2⟩ := C113_value c hc (k * step) w h hw hh hsz
  obtain ⟨-, v3, v4⟩ := C113_value c hc (j * step) w h' hw hh' hsz
  rw [abs_le] at hs hx
  constructor
  · have : (2 : ℝ) * ss.length < 3 * ss'.length + 3 := by linarith [hs.2, hx.1]
    have : 2 * ss.length < 3 * ss'.length + 3 := by exact_mod_cast this
    omega
  · intro hd
    rw [v2 hd, v4 hd] at hle
    have : (ss.length : ℝ) ≤ ss'.length + 1 := by linarith [hs.2, hx.1]
    exact_mod_cast this

/-! ## A field with six points -/

/-- A pentagon, 10 long and 8 high, that starts at its lowest corner. -/
def fivePeaks : List RPoint := [⟨5, 0, 0⟩, ⟨10, 2, 0⟩, ⟨10, 6, 0⟩, ⟨5, 8, 0⟩, ⟨0, 4, 0⟩]

theorem fivePeaks_convex : StrictlyConvex fivePeaks := by
  refine ⟨by simp [fivePeaks], 1, Or.inl rfl, ?_⟩
  have hl : fivePeaks.length = 5 := rfl
  rw [hl]
  intro i j hi hj h1 h2
  interval_cases i <;> interval_cases j <;>
    first | exact absurd rfl h1 | exact absurd rfl h2 | norm_num [fivePeaks, Point.det, Point.sub]

theorem sin_three_halves : Real.sin (3 * (Real.pi / 2)) = -1 := by
  rw [show 3 * (Real.pi / 2) = Real.pi / 2 + Real.pi by ring, Real.sin_add_pi, Real.sin_pi_div_two]

theorem cos_three_halves : Real.cos (3 * (Real.pi / 2)) = 0 := by
  rw [show 3 * (Real.pi / 2) = Real.pi / 2 + Real.pi by ring, Real.cos_add_pi, Real.cos_pi_div_two, neg_zero]

theorem fivePeaks_extent : IsExtent fivePeaks 0 8 ∧ IsExtent fivePeaks (Real.pi / 2) 10 ∧
    IsExtent fivePeaks (3 * (Real.pi / 2)) 10 := by
  refine ⟨⟨?_, ⟨5, 8, 0⟩, by simp [fivePeaks], ⟨5, 0, 0⟩, by simp [fivePeaks], by norm_num [across]⟩,
    ⟨?_, ⟨0, 4, 0⟩, by simp [fivePeaks], ⟨10, 2, 0⟩, by simp [fivePeaks], by norm_num [across]⟩,
    ⟨?_, ⟨10, 2, 0⟩, by simp [fivePeaks], ⟨0, 4, 0⟩, by simp [fivePeaks],
      by norm_num [across, sin_three_halves, cos_three_halves]⟩⟩ <;>
  · simp only [fivePeaks, List.mem_cons, List.not_mem_nil, or_false]
    rintro p (rfl | rfl | rfl | rfl | rfl) q (rfl | rfl | rfl | rfl | rfl) <;>
      norm_num [across, sin_three_halves, cos_three_halves]

theorem fivePeaks_cost (w : ℝ) (hw : 0 < w) :
    nSwathModified 0 w [closeUp fivePeaks] = 12 / w ∧
    nSwathModified (Real.pi / 2) w [closeUp fivePeaks] = 10 / w ∧
    nSwathModified Real.pi w [closeUp fivePeaks] = 12 / w := by
  have key : ∀ ang, nSwathModified ang w [closeUp fivePeaks] = (projectedLength ang (closeUp fivePeaks) +
      |across ang ⟨5, 0, 0⟩ - across ang ⟨5, 8, 0⟩|) / (2 * w) := by
    intro ang
    rw [C27_exact_value ang w _ hw (by simp [closeUp, fivePeaks]) (by simp [closeUp, fivePeaks])]
    simp [closeUp, fivePeaks, ringPoint]
  refine ⟨?_, ?_, ?_⟩ <;>
  · rw [key]
    norm_num [projectedLength, closeUp, fivePeaks, across]
    field_simp
    norm_num

/-- **C113**, six points: over this pentagon, which could be covered along its long side, the search takes a direction
along the short side, and by choosing a small width the number of additional swaths gets as large as you like. -/
theorem C113_misled (N : Nat) : ∃ w : ℝ, 0 < w ∧ ∀ clip, ClipsConvex clip [closeUp fivePeaks] → ∀ overlap,
    ∃ ss ss' : Swaths ℝ,
      generateBestSwaths vNSwathModified.forGenerator clip overlap (Real.pi / 2) w [closeUp fivePeaks] = .ok ss ∧
      generateSwaths clip overlap 0 w [closeUp fivePeaks] = .ok ss' ∧ ss'.length + N ≤ ss.length := by
  have hN : (0 : ℝ) < (N : ℝ) + 1 := by positivity
  refine ⟨2 / (N + 1), by positivity, ?_⟩
  intro clip hclip overlap
  set w : ℝ := 2 / (N + 1) with hw'
  have hw : 0 < w := by rw [hw']; positivity
  have hpi := Real.pi_pos
  obtain ⟨k, k1, k2, k3, -⟩ := C26_brute_force_optimal vNSwathModified.forGenerator (generateSwaths clip overlap) w
    [closeUp fivePeaks] (Real.pi / 2) (by positivity) (by linarith)
    (by rw [show 2 * Real.pi / (Real.pi / 2) = 4 by field_simp; norm_num]; norm_num)
    (fun a => nSwathModified a w [closeUp fivePeaks]) (fun j hj => by
      unfold rawCost
      exact if_pos rfl)
  obtain ⟨c0, c1, c2⟩ := fivePeaks_cost w hw
  have hk : k < 4 := by
    have : ((k : ℝ) + 1) * (Real.pi / 2) ≤ 4 * (Real.pi / 2) := by linarith
    have := le_of_mul_le_mul_right this (by positivity)
    have : k + 1 ≤ 4 := by exact_mod_cast this
    omega
  have hle : nSwathModified (k * (Real.pi / 2)) w [closeUp fivePeaks] ≤ 10 / w := by
    have := k3 1 (by push_cast; linarith)
    simp only [Nat.cast_one, one_mul, c1] at this
    simpa [NoWorse, vNSwathModified, VObj.forGenerator, VObj.base] using this
  have hlt : 10 / w < 12 / w := div_lt_div_of_pos_right (by norm_num) hw
  have hext : IsExtent fivePeaks (k * (Real.pi / 2)) 10 := by
    interval_cases k
    · simp only [Nat.cast_zero, zero_mul, c0] at hle
      linarith
    · simpa using fivePeaks_extent.2.1
    · rw [show ((2 : Nat) : ℝ) * (Real.pi / 2) = Real.pi by push_cast; ring, c2] at hle
      linarith
    · simpa using fivePeaks_extent.2.2
  obtain ⟨ss, e1, a1, -⟩ := C113_swaths fivePeaks fivePeaks_convex clip hclip overlap _ w 10 hw hext
  obtain ⟨ss', e2, a2, -⟩ := C113_swaths fivePeaks fivePeaks_convex clip hclip overlap 0 w 8 hw fivePeaks_extent.1
  refine ⟨ss, ss', (C26_best_swaths _ clip overlap _ w _ _ k1).trans e1, e2, ?_⟩
  rw [abs_le] at a1 a2
  have f1 : 10 / w = 5 * (N + 1) := by rw [hw']; field_simp; norm_num
  have f2 : 8 / w = 4 * (N + 1) := by rw [hw']; field_simp; norm_num
  have : (ss'.length : ℝ) + N ≤ ss.length := by linarith [a1.1, a2.2]
  exact_mod_cast this

/-! ## Examples -/

/-- A way of clipping that keeps the lines that touch the cell. -/
noncomputable def keepTouching (poly : Cell ℝ) (ts : List (List RPoint)) : List (List RPoint) := by
  classical exact ts.filter fun t => decide (¬ Misses poly.flatten t)

theorem keepTouching_convex (poly : Cell ℝ) (hne : poly.flatten ≠ []) : ClipsConvex keepTouching poly := by
  classical
  intro ts hts
  refine ⟨?_, fun t => decide (¬ Misses poly.flatten t), ?_, ?_, ?_⟩
  · intro l hl
    obtain ⟨a, b, rfl⟩ := hts.1 l (List.mem_of_mem_filter hl)
    simp
  · rw [List.countP_eq_length_filter]
    unfold keepTouching
    congr
  · rintro t - ⟨q, h1, h2⟩
    simp only [decide_eq_true_eq]
    exact fun h => h q h1 (inside_inHull _ hne q h2)
  · intro t _ h
    simpa using h

/-- A clockwise triangle. -/
def triangle : List RPoint := [⟨0, 0, 0⟩, ⟨0, 3, 0⟩, ⟨4, 0, 0⟩]

theorem triangle_convex : StrictlyConvex triangle := by
  refine ⟨by simp [triangle], -1, Or.inr rfl, ?_⟩
  have hl : triangle.length = 3 := rfl
  rw [hl]
  intro i j hi hj h1 h2
  interval_cases i <;> interval_cases j <;>
    first | exact absurd rfl h1 | exact absurd rfl h2 | norm_num [triangle, Point.det, Point.sub]

theorem triangle_extent : IsExtent triangle 0 3 := by
  refine ⟨?_, ⟨0, 3, 0⟩, by simp [triangle], ⟨0, 0, 0⟩, by simp [triangle], by norm_num [across]⟩
  simp only [triangle, List.mem_cons, List.not_mem_nil, or_false]
  rintro p (rfl | rfl | rfl) q (rfl | rfl | rfl) <;> norm_num [across]

/-- The border of the triangle goes up and down once. -/
example : projectedLength 0 (closeUp triangle) = 6 := by
  rw [C113_border triangle triangle_convex 0 3 triangle_extent]; norm_num

/-- Three swaths of width 1: the cost is exact, as the ring has four points. -/
example : nSwathModified 0 1 [closeUp triangle] = 3 := by
  rw [(C113_value triangle triangle_convex 0 1 3 one_pos triangle_extent (by simp [triangle])).2.2
    (Or.inl (by norm_num [triangle]))]
  norm_num

/-- There are three swaths. -/
example : ∃ ss, generateSwaths keepTouching false 0 1 [closeUp triangle] = .ok ss ∧ ss.length = 3 := by
  obtain ⟨ss, e, h, -⟩ := C113_swaths triangle triangle_convex keepTouching
    (keepTouching_convex _ (by simp [triangle, closeUp])) false 0 1 3 one_pos triangle_extent
  refine ⟨ss, e, ?_⟩
  rw [abs_le] at h
  have h1 : (ss.length : ℝ) < 4 := by linarith [h.2]
  have h2 : (2 : ℝ) < ss.length := by linarith [h.1]
  have h1 : ss.length < 4 := by exact_mod_cast h1
  have h2 : 2 < ss.length := by exact_mod_cast h2
  omega

/-- The search over the triangle in steps of a quarter turn: at most four swaths. -/
example : ∃ ss, generateBestSwaths vNSwathModified.forGenerator keepTouching false (Real.pi / 2) 1 [closeUp triangle]
    = .ok ss ∧ ss.length ≤ 4 := by
  have hpi := Real.pi_pos
  obtain ⟨k, ss, e, -, -, h⟩ := C113_search triangle triangle_convex (by simp [triangle]) keepTouching
    (keepTouching_convex _ (by simp [triangle, closeUp])) false 1 one_pos (Real.pi / 2) (by positivity) (by linarith)
    (by rw [show 2 * Real.pi / (Real.pi / 2) = 4 by field_simp; norm_num]; norm_num)
  obtain ⟨ss', e', hs, -⟩ := C113_swaths triangle triangle_convex keepTouching
    (keepTouching_convex _ (by simp [triangle, closeUp])) false 0 1 3 one_pos triangle_extent
  have h1 := (h 0 ss' (by unfold Candidate; push_cast; linarith) (by simpa using e')).2
    (Or.inl (by norm_num [triangle]))
  refine ⟨ss, e, ?_⟩
  rw [abs_le] at hs
  have : (ss'.length : ℝ) < 4 := by linarith [hs.2]
  have : ss'.length < 4 := by exact_mod_cast this
  omega

/-- The pentagon, clipped like that: 100 swaths too many. -/
example : ∃ w : ℝ, 0 < w ∧ ∃ ss ss' : Swaths ℝ,
    generateBestSwaths vNSwathModified.forGenerator keepTouching true (Real.pi / 2) w [closeUp fivePeaks] = .ok ss ∧
    generateSwaths keepTouching true 0 w [closeUp fivePeaks] = .ok ss' ∧ ss'.length + 100 ≤ ss.length := by
  obtain ⟨w, hw, h⟩ := C113_misled 100
  exact ⟨w, hw, h keepTouching (keepTouching_convex _ (by simp [fivePeaks, closeUp])) true⟩

end F2C.Props
