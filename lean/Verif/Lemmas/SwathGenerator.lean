import Mathlib.Tactic.Linarith
import Mathlib.Tactic.FieldSimp
import Mathlib.Tactic.Ring
import Mathlib.Tactic.Push
import Verif.Model.SwathGenerator
import Verif.Props.SwathGeneratorSpec

/-! # Lemmas about swath generation -/

namespace F2C

set_option linter.unusedSimpArgs false
set_option linter.unusedVariables false
set_option linter.unusedSectionVars false

section MinMax
variable {K : Type} [Field K] [LinearOrder K]

theorem foldlMin_le (l : List K) (a : K) : l.foldl min a ≤ a ∧ ∀ x ∈ l, l.foldl min a ≤ x := by
  induction l generalizing a with
  | nil => simp
  | cons b l ih =>
    obtain ⟨h1, h2⟩ := ih (min a b)
    simp only [List.foldl_cons]
    refine ⟨h1.trans (min_le_left _ _), ?_⟩
    intro x hx
    rcases List.mem_cons.1 hx with rfl | hx
    · exact h1.trans (min_le_right _ _)
    · exact h2 x hx

theorem foldlMin_mem (l : List K) (a : K) : l.foldl min a ∈ a :: l := by
  induction l generalizing a with
  | nil => simp
  | cons b l ih =>
    simp only [List.foldl_cons]
    have := ih (min a b)
    rcases List.mem_cons.1 this with h | h
    · rw [h]; rcases min_choice a b with e | e <;> rw [e] <;> simp
    · exact List.mem_cons_of_mem _ (List.mem_cons_of_mem _ h)

theorem foldlMax_ge (l : List K) (a : K) : a ≤ l.foldl max a ∧ ∀ x ∈ l, x ≤ l.foldl max a := by
  induction l generalizing a with
  | nil => simp
  | cons b l ih =>
    obtain ⟨h1, h2⟩ := ih (max a b)
    simp only [List.foldl_cons]
    refine ⟨(le_max_left _ _).trans h1, ?_⟩
    intro x hx
    rcases List.mem_cons.1 hx with rfl | hx
    · exact (le_max_right _ _).trans h1
    · exact h2 x hx

theorem foldlMax_mem (l : List K) (a : K) : l.foldl max a ∈ a :: l := by
  induction l generalizing a with
  | nil => simp
  | cons b l ih =>
    simp only [List.foldl_cons]
    have := ih (max a b)
    rcases List.mem_cons.1 this with h | h
    · rw [h]; rcases max_choice a b with e | e <;> rw [e] <;> simp
    · exact List.mem_cons_of_mem _ (List.mem_cons_of_mem _ h)

theorem listMin_le {l : List K} {x : K} (h : x ∈ l) : listMin l ≤ x := by
  cases l with
  | nil => simp at h
  | cons a l =>
    rcases List.mem_cons.1 h with rfl | h
    · exact (foldlMin_le l _).1
    · exact (foldlMin_le l _).2 x h

theorem le_listMax {l : List K} {x : K} (h : x ∈ l) : x ≤ listMax l := by
  cases l with
  | nil => simp at h
  | cons a l =>
    rcases List.mem_cons.1 h with rfl | h
    · exact (foldlMax_ge l _).1
    · exact (foldlMax_ge l _).2 x h

theorem listMin_mem {l : List K} (h : l ≠ []) : listMin l ∈ l := by
  cases l with
  | nil => simp at h
  | cons a l => exact foldlMin_mem l a

theorem listMax_mem {l : List K} (h : l ≠ []) : listMax l ∈ l := by
  cases l with
  | nil => simp at h
  | cons a l => exact foldlMax_mem l a

theorem minElementFrom_spec (l : List K) (best : K) (bi i : Nat) (hb : bi < i) :
    (minElementFrom best bi i l = bi ∧ ∀ x ∈ l, best ≤ x) ∨
    (∃ k, ∃ h : k < l.length, minElementFrom best bi i l = i + k ∧ l[k] < best ∧
      (∀ j, ∀ hj : j < l.length, l[k] ≤ l[j]) ∧ ∀ j, ∀ hj : j < k, l[k] < l[j]) := by
  induction l generalizing best bi i with
  | nil => left; simp [minElementFrom]
  | cons c cs ih =>
    by_cases hc : c < best
    · right
      rcases ih c i (i + 1) (by omega) with ⟨h1, h2⟩ | ⟨k, hk, h1, h2, h3, h4⟩
      · refine ⟨0, by simp, ?_, by simpa using hc, ?_, ?_⟩
        · simp [minElementFrom, hc, h1]
        · intro j hj
          cases j with
          | zero => simp
          | succ j => simpa using h2 _ (List.getElem_mem (by simpa using hj))
        · intro j hj; omega
      · refine ⟨k + 1, by simpa using hk, ?_, ?_, ?_, ?_⟩
        · simp only [minElementFrom, hc, if_true, h1]; omega
        · simpa using h2.trans hc
        · intro j hj
          cases j with
          | zero => simpa using h2.le
          | succ j => simpa using h3 j (by simpa using hj)
        · intro j hj
          cases j with
          | zero => simpa using h2
          | succ j => simpa using h4 j (by omega)
    · rcases ih best bi (i + 1) (by omega) with ⟨h1, h2⟩ | ⟨k, hk, h1, h2, h3, h4⟩
      · left
        refine ⟨by simp [minElementFrom, hc, h1], ?_⟩
        intro x hx
        rcases List.mem_cons.1 hx with rfl | hx
        · exact not_lt.1 hc
        · exact h2 x hx
      · right
        refine ⟨k + 1, by simpa using hk, ?_, ?_, ?_, ?_⟩
        · simp only [minElementFrom, hc, if_false, h1]; omega
        · simpa using h2
        · intro j hj
          cases j with
          | zero => simpa using h2.le.trans (not_lt.1 hc)
          | succ j => simpa using h3 j (by simpa using hj)
        · intro j hj
          cases j with
          | zero => simpa using h2.trans_le (not_lt.1 hc)
          | succ j => simpa using h4 j (by omega)

/-- `std::min_element` returns the first smallest element. -/
theorem minElement_spec {l : List K} (h : l ≠ []) :
    ∃ hk : minElement l < l.length, (∀ j, ∀ hj : j < l.length, l[minElement l] ≤ l[j]) ∧
      ∀ j, ∀ hj : j < minElement l, l[minElement l] < l[j] := by
  cases l with
  | nil => simp at h
  | cons c cs =>
    rcases minElementFrom_spec cs c 0 1 (by omega) with ⟨h1, h2⟩ | ⟨k, hk, h1, h2, h3, h4⟩
    · have e : minElement (c :: cs) = 0 := h1
      refine ⟨by simp [e], ?_, ?_⟩
      · intro j hj
        simp only [e]
        cases j with
        | zero => simp
        | succ j => simpa using h2 _ (List.getElem_mem (by simpa using hj))
      · intro j hj; omega
    · have e : minElement (c :: cs) = k + 1 := by rw [show minElement (c :: cs) = _ from h1]; omega
      refine ⟨by simpa [e] using hk, ?_, ?_⟩
      · intro j hj
        simp only [e]
        cases j with
        | zero => simpa using h2.le
        | succ j => simpa using h3 j (by simpa using hj)
      · intro j hj
        simp only [e]
        rw [e] at hj
        cases j with
        | zero => simpa using h2
        | succ j => simpa using h4 j (by omega)

end MinMax

namespace SG

section Loop
variable {K : Type} [Field K] [LinearOrder K] [IsStrictOrderedRing K]

/-- If the loop ends after exactly `k` rounds, it yields the offsets `y + w, …, y + k w`. -/
theorem trackLoop_eq (H w s : K) (k : Nat) : ∀ (fuel : Nat) (y : K), k ≤ fuel →
    (∀ i < k, H > y + i * w + s) → ¬ H > y + k * w + s →
    trackLoop H w s fuel y = .ok ((List.range k).map fun i : Nat => y + ((i : K) + 1) * w) := by
  induction k with
  | zero =>
    intro fuel y hf _ h
    have h : ¬ H > y + s := by simpa using h
    cases fuel <;> rw [trackLoop, if_neg h] <;> simp
  | succ k ih =>
    intro fuel y hf h1 h2
    obtain ⟨f, rfl⟩ : ∃ f, fuel = f + 1 := ⟨fuel - 1, by omega⟩
    have h0 : H > y + s := by simpa using h1 0 (by omega)
    rw [trackLoop, if_pos h0, ih f (y + w) (by omega)]
    · simp only [Outcome.ok_bind, Outcome.pure_eq, Outcome.ok.injEq]
      rw [List.range_succ_eq_map]
      simp only [List.map_cons, List.map_map, Nat.cast_zero, zero_add, one_mul, List.cons.injEq,
        true_and]
      apply List.map_congr_left
      intro i _
      simp only [Function.comp, Nat.succ_eq_add_one, Nat.cast_add, Nat.cast_one]
      ring
    · intro i hi
      have := h1 (i + 1) (by omega)
      push_cast at this
      have e : y + w + (i : K) * w + s = y + ((i : K) + 1) * w + s := by ring
      rw [e]; exact this
    · push_cast at h2
      have e : y + w + (k : K) * w + s = y + ((k : K) + 1) * w + s := by ring
      rw [e]; exact h2

theorem trackLoop_endless (H w s : K) (hw : w ≤ 0) : ∀ (fuel : Nat) (y : K), H > y + s →
    trackLoop H w s fuel y = .ub "endless loop" := by
  intro fuel
  induction fuel with
  | zero => intro y h; rw [trackLoop, if_pos h]
  | succ f ih =>
    intro y h
    rw [trackLoop, if_pos h, ih (y + w) (by have : y + w + s ≤ y + s := by linarith
                                            exact lt_of_le_of_lt this h)]
    rfl

variable [FloorSemiring K]

/-- Number of tracks: without overlap `⌈H/w⌉`, with overlap `⌈H/w + 1/2⌉`. -/
def trackCount (overlap : Bool) (H w : K) : Nat :=
  if overlap then ⌈H / w + 1 / 2⌉₊ else ⌈H / w⌉₊

theorem trackOffsets_ok (overlap : Bool) (H w : K) (hw : 0 < w) (hH : 0 ≤ H) :
    trackOffsets overlap H w =
      .ok ((List.range (trackCount overlap H w)).map fun i : Nat => ((i : K) + 1 / 2) * w) := by
  unfold trackOffsets
  have hx : 0 ≤ H / w := div_nonneg hH hw.le
  have key : ∀ (k : Nat), k ≤ ⌈H / w⌉₊ + 1 →
      (∀ i : Nat, i < k → H > -(1 / 2) * w + (i : K) * w + slack overlap w) →
      ¬ H > -(1 / 2) * w + (k : K) * w + slack overlap w →
      trackLoop H w (slack overlap w) (⌈H / w⌉₊ + 1) (-(1 / 2) * w) =
        .ok ((List.range k).map fun i : Nat => ((i : K) + 1 / 2) * w) := by
    intro k h1 h2 h3
    rw [trackLoop_eq H w _ k _ _ h1 h2 h3]
    congr 1
    apply List.map_congr_left
    intro i _
    ring
  cases overlap with
  | false =>
    simp only [Bool.false_eq_true, trackCount, if_false]
    apply key
    · omega
    · intro i hi
      have : (i : K) < H / w := Nat.lt_ceil.1 hi
      rw [lt_div_iff₀ hw] at this
      simp only [slack, Bool.false_eq_true, if_false]
      linarith
    · have : H / w ≤ (⌈H / w⌉₊ : K) := Nat.le_ceil _
      rw [div_le_iff₀ hw] at this
      simp only [slack, Bool.false_eq_true, if_false]
      linarith
  | true =>
    simp only [trackCount, if_true]
    apply key
    · calc ⌈H / w + 1 / 2⌉₊ ≤ ⌈H / w + 1⌉₊ := Nat.ceil_mono (by linarith [show (1:K)/2 ≤ 1 by norm_num])
        _ = ⌈H / w⌉₊ + 1 := Nat.ceil_add_one hx
    · intro i hi
      have h1 : (i : K) < H / w + 1 / 2 := Nat.lt_ceil.1 hi
      have h2 : (i : K) - 1 / 2 < H / w := by linarith
      rw [lt_div_iff₀ hw] at h2
      simp only [slack, if_true]
      linarith
    · have h1 : H / w + 1 / 2 ≤ (⌈H / w + 1 / 2⌉₊ : K) := Nat.le_ceil _
      have h2 : H / w ≤ (⌈H / w + 1 / 2⌉₊ : K) - 1 / 2 := by linarith
      rw [div_le_iff₀ hw] at h2
      simp only [slack, if_true]
      linarith

/-- The overlap option adds at most one track, and that one lies beyond the far border. -/
theorem trackCount_overlap (H w : K) (hw : 0 < w) (hH : 0 ≤ H) :
    trackCount true H w = trackCount false H w ∨
    (trackCount true H w = trackCount false H w + 1 ∧
      H < ((trackCount false H w : K) + 1 / 2) * w) := by
  have hx : 0 ≤ H / w := div_nonneg hH hw.le
  have h1 : ⌈H / w⌉₊ ≤ ⌈H / w + 1 / 2⌉₊ := Nat.ceil_mono (by linarith [show (0:K) ≤ 1/2 by norm_num])
  have h2 : ⌈H / w + 1 / 2⌉₊ ≤ ⌈H / w⌉₊ + 1 := by
    calc ⌈H / w + 1 / 2⌉₊ ≤ ⌈H / w + 1⌉₊ := Nat.ceil_mono (by linarith [show (1:K)/2 ≤ 1 by norm_num])
        _ = ⌈H / w⌉₊ + 1 := Nat.ceil_add_one hx
  have h3 : H ≤ (⌈H / w⌉₊ : K) * w := (div_le_iff₀ hw).1 (Nat.le_ceil _)
  simp only [trackCount, if_true, Bool.false_eq_true, if_false]
  rcases Nat.lt_or_ge ⌈H / w⌉₊ ⌈H / w + 1 / 2⌉₊ with h | h
  · right
    refine ⟨by omega, ?_⟩
    nlinarith
  · left; omega

end Loop

open Props.SG

theorem rotate_points (poly : Cell ℝ) (angle : ℝ) :
    (poly.rotate Point.zero angle).points = poly.flatten.map (rotateFrom Point.zero angle) := by
  simp only [Cell.points, Cell.rotate, List.map_flatten]

theorem rotate_back_x (angle : ℝ) (p : RPoint) :
    (rotateFrom Point.zero (-angle) p).x = along angle p := by
  simp only [rotateFrom, Point.zero, Real.cos_neg, Real.sin_neg, along]; ring

theorem rotate_back_y (angle : ℝ) (p : RPoint) :
    (rotateFrom Point.zero (-angle) p).y = across angle p := by
  simp only [rotateFrom, Point.zero, Real.cos_neg, Real.sin_neg, across]; ring

theorem along_rotate (angle : ℝ) (p : RPoint) :
    along angle (rotateFrom Point.zero angle p) = p.x := by
  simp only [rotateFrom, Point.zero, along]
  have := Real.sin_sq_add_cos_sq angle
  linear_combination (p.x) * this

theorem across_rotate (angle : ℝ) (p : RPoint) :
    across angle (rotateFrom Point.zero angle p) = p.y := by
  simp only [rotateFrom, Point.zero, across]
  have := Real.sin_sq_add_cos_sq angle
  linear_combination (p.y) * this

theorem pdist_sq_coords (angle : ℝ) (p q : RPoint) :
    (p.x - q.x) ^ 2 + (p.y - q.y) ^ 2 =
      (along angle p - along angle q) ^ 2 + (across angle p - across angle q) ^ 2 := by
  simp only [along, across]
  have := Real.sin_sq_add_cos_sq angle
  linear_combination (-(p.x - q.x) ^ 2 - (p.y - q.y) ^ 2) * this

theorem pdist_same_along (angle : ℝ) (p q : RPoint) (h : along angle p = along angle q) :
    pdist p q = |across angle p - across angle q| := by
  unfold pdist
  rw [pdist_sq_coords angle, h, sub_self, zero_pow two_ne_zero, zero_add, Real.sqrt_sq_eq_abs]

theorem across_le_pdist (angle : ℝ) (p q : RPoint) :
    |across angle p - across angle q| ≤ pdist p q := by
  unfold pdist
  rw [pdist_sq_coords angle]
  apply Real.abs_le_sqrt
  nlinarith [sq_nonneg (along angle p - along angle q)]

/-- Smallest coordinate of the border along the direction. -/
noncomputable def lowAlong (poly : Cell ℝ) (angle : ℝ) : ℝ :=
  (poly.rotate Point.zero (-angle)).minX
/-- Smallest coordinate of the border across the direction. -/
noncomputable def lowAcross (poly : Cell ℝ) (angle : ℝ) : ℝ :=
  (poly.rotate Point.zero (-angle)).minY
/-- Extent of the border across the direction. -/
noncomputable def extent (poly : Cell ℝ) (angle : ℝ) : ℝ :=
  (poly.rotate Point.zero (-angle)).height
/-- Half the length of a track. -/
noncomputable def reach (poly : Cell ℝ) (angle : ℝ) : ℝ :=
  (poly.rotate Point.zero (-angle)).minSafeLength

theorem map_y (poly : Cell ℝ) (angle : ℝ) :
    (poly.rotate Point.zero (-angle)).points.map (·.y) = poly.flatten.map (across angle) := by
  rw [rotate_points, List.map_map]
  exact List.map_congr_left fun p _ => rotate_back_y angle p

theorem map_x (poly : Cell ℝ) (angle : ℝ) :
    (poly.rotate Point.zero (-angle)).points.map (·.x) = poly.flatten.map (along angle) := by
  rw [rotate_points, List.map_map]
  exact List.map_congr_left fun p _ => rotate_back_x angle p

theorem across_bounds (poly : Cell ℝ) (angle : ℝ) (p : RPoint) (hp : p ∈ poly.flatten) :
    lowAcross poly angle ≤ across angle p ∧ across angle p ≤ lowAcross poly angle + extent poly angle := by
  have hm : across angle p ∈ poly.flatten.map (across angle) := List.mem_map_of_mem hp
  unfold lowAcross extent Cell.height Cell.maxY Cell.minY
  rw [map_y]
  refine ⟨listMin_le hm, ?_⟩
  have := le_listMax hm
  linarith

theorem along_bounds (poly : Cell ℝ) (angle : ℝ) (p : RPoint) (hp : p ∈ poly.flatten) :
    lowAlong poly angle ≤ along angle p ∧
      along angle p ≤ lowAlong poly angle + reach poly angle - extent poly angle := by
  have hm : along angle p ∈ poly.flatten.map (along angle) := List.mem_map_of_mem hp
  unfold lowAlong reach extent Cell.minSafeLength Cell.height Cell.maxX Cell.minX
  rw [map_x]
  refine ⟨listMin_le hm, ?_⟩
  have := le_listMax hm
  linarith

theorem extent_nonneg (poly : Cell ℝ) (angle : ℝ) (h : poly.flatten ≠ []) : 0 ≤ extent poly angle := by
  obtain ⟨p, hp⟩ := List.exists_mem_of_ne_nil _ h
  have := across_bounds poly angle p hp
  linarith

theorem extent_attained (poly : Cell ℝ) (angle : ℝ) (h : poly.flatten ≠ []) :
    ∃ p ∈ poly.flatten, ∃ q ∈ poly.flatten, across angle p - across angle q = extent poly angle ∧
      across angle q = lowAcross poly angle := by
  have hne : poly.flatten.map (across angle) ≠ [] := by simpa using h
  obtain ⟨p, hp, e1⟩ := List.mem_map.1 (listMax_mem hne)
  obtain ⟨q, hq, e2⟩ := List.mem_map.1 (listMin_mem hne)
  refine ⟨p, hp, q, hq, ?_, ?_⟩
  · unfold extent Cell.height Cell.maxY Cell.minY
    rw [map_y, e1, e2]
  · unfold lowAcross Cell.minY
    rw [map_y, e2]

theorem isExtent_unique (poly : Cell ℝ) (angle h : ℝ) (hh : IsExtent poly.flatten angle h) :
    extent poly angle = h := by
  obtain ⟨h1, p, hp, q, hq, e⟩ := hh
  have hne : poly.flatten ≠ [] := List.ne_nil_of_mem hp
  obtain ⟨p', hp', q', hq', e', _⟩ := extent_attained poly angle hne
  have a := h1 p' hp' q' hq'
  have b1 := across_bounds poly angle p hp
  have b2 := across_bounds poly angle q hq
  linarith

theorem extent_isExtent (poly : Cell ℝ) (angle : ℝ) (h : poly.flatten ≠ []) :
    IsExtent poly.flatten angle (extent poly angle) := by
  refine ⟨?_, ?_⟩
  · intro p hp q hq
    have := across_bounds poly angle p hp
    have := across_bounds poly angle q hq
    linarith
  · obtain ⟨p, hp, q, hq, e, _⟩ := extent_attained poly angle h
    exact ⟨p, hp, q, hq, e⟩

theorem hull_across (poly : Cell ℝ) (angle : ℝ) (p : RPoint) (hp : InHull poly.flatten p) :
    lowAcross poly angle ≤ across angle p ∧ across angle p ≤ lowAcross poly angle + extent poly angle := by
  constructor
  · have := hp (Real.sin angle) (-Real.cos angle) (-lowAcross poly angle) (by
      intro q hq
      have := (across_bounds poly angle q hq).1
      unfold across at this
      linarith)
    unfold across
    linarith
  · have := hp (-Real.sin angle) (Real.cos angle) (lowAcross poly angle + extent poly angle) (by
      intro q hq
      have := (across_bounds poly angle q hq).2
      unfold across at this
      linarith)
    unfold across
    linarith

theorem hull_along (poly : Cell ℝ) (angle : ℝ) (p : RPoint) (hp : InHull poly.flatten p) :
    lowAlong poly angle ≤ along angle p ∧
      along angle p ≤ lowAlong poly angle + reach poly angle - extent poly angle := by
  constructor
  · have := hp (-Real.cos angle) (-Real.sin angle) (-lowAlong poly angle) (by
      intro q hq
      have := (along_bounds poly angle q hq).1
      unfold along at this
      linarith)
    unfold along
    linarith
  · have := hp (Real.cos angle) (Real.sin angle)
      (lowAlong poly angle + reach poly angle - extent poly angle) (by
      intro q hq
      have := (along_bounds poly angle q hq).2
      unfold along at this
      linarith)
    unfold along
    linarith

theorem hasArea_extent (poly : Cell ℝ) (angle : ℝ) (h : HasArea poly.flatten) :
    0 < extent poly angle := by
  obtain ⟨a, ha, b, hb, c, hc, hdet⟩ := h
  have hne : poly.flatten ≠ [] := List.ne_nil_of_mem ha
  rcases (extent_nonneg poly angle hne).lt_or_eq with h | h
  · exact h
  · exfalso
    apply hdet
    have h1 := across_bounds poly angle a ha
    have h2 := across_bounds poly angle b hb
    have h3 := across_bounds poly angle c hc
    have e1 : across angle b = across angle a := by linarith
    have e2 : across angle c = across angle a := by linarith
    unfold across at e1 e2
    simp only [Point.det, Point.sub]
    have hs := Real.sin_sq_add_cos_sq angle
    set s := Real.sin angle
    set k := Real.cos angle
    have f1 : (b.y - a.y) * k = (b.x - a.x) * s := by linarith
    have f2 : (c.y - a.y) * k = (c.x - a.x) * s := by linarith
    have g1 : ((b.x - a.x) * (c.y - a.y) - (b.y - a.y) * (c.x - a.x)) * k = 0 := by
      linear_combination (b.x - a.x) * f2 - (c.x - a.x) * f1
    have g2 : ((b.x - a.x) * (c.y - a.y) - (b.y - a.y) * (c.x - a.x)) * s = 0 := by
      linear_combination (b.y - a.y) * f2 - (c.y - a.y) * f1
    linear_combination k * g1 + s * g2 - ((b.x - a.x) * (c.y - a.y) - (b.y - a.y) * (c.x - a.x)) * hs

/-- The `i`-th track line. -/
noncomputable def track (poly : Cell ℝ) (angle w : ℝ) (i : Nat) : List RPoint :=
  placeTrack angle (((i : ℝ) + 1 / 2) * w) ((poly.rotate Point.zero (-angle)).createStraightLongLine
    ⟨(poly.rotate Point.zero (-angle)).minX, (poly.rotate Point.zero (-angle)).minY, 0⟩ 0)

theorem tracks_eq (overlap : Bool) (angle w : ℝ) (poly : Cell ℝ) (hw : 0 < w)
    (hne : poly.flatten ≠ []) :
    tracks overlap angle w poly =
      .ok ((List.range (trackCount overlap (extent poly angle) w)).map (track poly angle w)) := by
  unfold tracks
  simp only []
  rw [show (Cell.rotate Point.zero (-angle) poly).height = extent poly angle from rfl,
    trackOffsets_ok overlap _ w hw (extent_nonneg poly angle hne)]
  simp only [Outcome.ok_bind, Outcome.pure_eq, List.map_map]
  rfl

theorem track_ends (poly : Cell ℝ) (angle w : ℝ) (i : Nat) :
    ∃ a b : RPoint, track poly angle w i = [a, b] ∧
      along angle a = lowAlong poly angle - reach poly angle ∧
      along angle b = lowAlong poly angle + reach poly angle ∧
      across angle a = lowAcross poly angle + ((i : ℝ) + 1 / 2) * w ∧
      across angle b = lowAcross poly angle + ((i : ℝ) + 1 / 2) * w := by
  refine ⟨_, _, rfl, ?_, ?_, ?_, ?_⟩
  · rw [along_rotate]
    simp only [Point.add, pointFromAngle, add_zero, Real.cos_pi, lowAlong, reach]; ring
  · rw [along_rotate]
    simp only [Point.add, pointFromAngle, add_zero, Real.cos_zero, lowAlong, reach]; ring
  · rw [across_rotate]
    simp only [Point.add, pointFromAngle, add_zero, Real.sin_pi, lowAcross, reach]; ring
  · rw [across_rotate]
    simp only [Point.add, pointFromAngle, add_zero, Real.sin_zero, lowAcross, reach]; ring

/-- All points of a track have the same coordinate across the direction. -/
theorem track_across (poly : Cell ℝ) (angle w : ℝ) (i : Nat) (q : RPoint)
    (hq : OnLine (track poly angle w i) q) :
    across angle q = lowAcross poly angle + ((i : ℝ) + 1 / 2) * w := by
  obtain ⟨a, b, e, _, _, ha, hb⟩ := track_ends poly angle w i
  rw [e] at hq
  simp only [OnLine, or_false] at hq
  obtain ⟨t, _, _, hx, hy⟩ := hq
  have : across angle q = across angle a + t * (across angle b - across angle a) := by
    unfold across
    rw [hx, hy]; ring
  rw [this, ha, hb]; ring

/-- A point of the hull has a point of the track straight across from it. -/
theorem track_opposite (poly : Cell ℝ) (angle w : ℝ) (i : Nat) (p : RPoint)
    (hp : InHull poly.flatten p) (hext : 0 < extent poly angle) :
    ∃ q, OnLine (track poly angle w i) q ∧ along angle q = along angle p := by
  obtain ⟨a, b, e, ha, hb, _, _⟩ := track_ends poly angle w i
  obtain ⟨h1, h2⟩ := hull_along poly angle p hp
  have hL : 0 < reach poly angle := by linarith
  refine ⟨⟨a.x + ((along angle p - along angle a) / (2 * reach poly angle)) * (b.x - a.x),
    a.y + ((along angle p - along angle a) / (2 * reach poly angle)) * (b.y - a.y), 0⟩, ?_, ?_⟩
  · rw [e]
    left
    refine ⟨(along angle p - along angle a) / (2 * reach poly angle), ?_, ?_, rfl, rfl⟩
    · apply div_nonneg <;> linarith
    · rw [div_le_one (by linarith)]; linarith
  · have hd : along angle b - along angle a = 2 * reach poly angle := by rw [ha, hb]; ring
    have : along angle a + ((along angle p - along angle a) / (2 * reach poly angle)) *
        (along angle b - along angle a) = along angle p := by
      rw [hd]; field_simp; ring
    refine Eq.trans ?_ this
    generalize (along angle p - along angle a) / (2 * reach poly angle) = t
    simp only [along]
    ring

theorem track_misses (poly : Cell ℝ) (angle w : ℝ) (i : Nat)
    (h : extent poly angle < ((i : ℝ) + 1 / 2) * w) : Misses poly.flatten (track poly angle w i) := by
  intro q hq hin
  have h1 := track_across poly angle w i q hq
  have h2 := (hull_across poly angle q hin).2
  linarith

/-- Numbers on an interval are at most half a width away from a track offset. -/
theorem near_offset (H w t : ℝ) (hw : 0 < w) (h0 : 0 ≤ t) (ht : t ≤ H) (hH : 0 < H) (overlap : Bool) :
    ∃ i < trackCount overlap H w, |t - ((i : ℝ) + 1 / 2) * w| ≤ w / 2 := by
  have hc : ⌈H / w⌉₊ ≤ trackCount overlap H w := by
    cases overlap
    · simp [trackCount]
    · simp only [trackCount, if_true]
      exact Nat.ceil_mono (by linarith)
  rcases h0.lt_or_eq with h | h
  · have h1 : 0 < ⌈t / w⌉₊ := Nat.ceil_pos.2 (div_pos h hw)
    have h2 : ⌈t / w⌉₊ ≤ ⌈H / w⌉₊ := Nat.ceil_mono (by gcongr)
    have h3 : t ≤ (⌈t / w⌉₊ : ℝ) * w := (div_le_iff₀ hw).1 (Nat.le_ceil _)
    have h4 : ((⌈t / w⌉₊ - 1 : Nat) : ℝ) * w < t := by
      apply (lt_div_iff₀ hw).1
      apply Nat.lt_ceil.1
      omega
    refine ⟨⌈t / w⌉₊ - 1, by omega, ?_⟩
    have h5 : ((⌈t / w⌉₊ - 1 : Nat) : ℝ) = (⌈t / w⌉₊ : ℝ) - 1 := by
      rw [Nat.cast_sub h1]; simp
    rw [h5] at h4 ⊢
    rw [abs_le]
    constructor <;> nlinarith
  · subst h
    refine ⟨0, lt_of_lt_of_le (Nat.ceil_pos.2 (div_pos hH hw)) hc, ?_⟩
    rw [abs_le]
    constructor <;> simp <;> linarith

theorem transformIds_ok (f : Nat → Outcome ℝ) (c : Nat → ℝ) (n i : Nat)
    (h : ∀ j < n, f (i + j) = .ok (c (i + j))) :
    transformIds f n i = .ok ((List.range n).map fun j => c (i + j)) := by
  induction n generalizing i with
  | zero => simp [transformIds]
  | succ n ih =>
    rw [transformIds, show f i = .ok (c i) from h 0 (by omega), Outcome.ok_bind,
      ih (i + 1) (by intro j hj; have := h (j + 1) (by omega); rwa [← Nat.add_assoc, Nat.add_right_comm] at this)]
    rw [Outcome.ok_bind, Outcome.pure_eq, List.range_succ_eq_map]
    simp only [List.map_cons, List.map_map, Nat.add_zero, Outcome.ok.injEq, List.cons.injEq, true_and]
    apply List.map_congr_left
    intro j _
    simp only [Function.comp, Nat.succ_eq_add_one]
    congr 1
    omega

theorem perCellLoop_ok (one : Cell ℝ → Outcome (Swaths ℝ)) (cs : List (Cell ℝ)) (gs : SwathsByCells ℝ)
    (h : perCellLoop one cs = .ok gs) : List.Forall₂ (fun c g => one c = .ok g) cs gs := by
  induction cs generalizing gs with
  | nil => simp only [perCellLoop, Outcome.ok.injEq] at h; subst h; exact .nil
  | cons c cs ih =>
    unfold perCellLoop at h
    cases e : one c with
    | throw x => rw [e] at h; simp at h
    | ub x => rw [e] at h; simp at h
    | ok s =>
      rw [e, Outcome.ok_bind] at h
      cases e2 : perCellLoop one cs with
      | throw x => rw [e2] at h; simp at h
      | ub x => rw [e2] at h; simp at h
      | ok r =>
        rw [e2, Outcome.ok_bind, Outcome.pure_eq] at h
        injection h with h
        subst h
        exact .cons e (ih r e2)

theorem iter_of_exists {cs : Cells ℝ} (h : ∃ c ∈ cs, c.flatten ≠ []) : Cells.iter cs = cs := by
  obtain ⟨c, hc, h⟩ := h
  unfold Cells.iter
  rw [if_neg]
  intro hall
  rw [List.all_eq_true] at hall
  have h2 := hall c hc
  rw [List.all_eq_true] at h2
  exact h (List.flatten_eq_nil_iff.2 fun r hr => List.isEmpty_iff.1 (h2 r hr))

theorem iter_of_forall {cs : Cells ℝ} (h : ∀ c ∈ cs, c.flatten ≠ []) : Cells.iter cs = cs := by
  cases cs with
  | nil => rfl
  | cons c cs => exact iter_of_exists ⟨c, List.mem_cons_self .., h c (List.mem_cons_self ..)⟩

theorem iter_of_empty {cs : Cells ℝ} (h : ∀ c ∈ cs, c.flatten = []) : Cells.iter cs = [] := by
  unfold Cells.iter
  rw [if_pos]
  rw [List.all_eq_true]
  intro c hc
  rw [List.all_eq_true]
  intro r hr
  exact List.isEmpty_iff.2 (List.flatten_eq_nil_iff.1 (h c hc) r hr)

theorem perCell_ok (one : Cell ℝ → Outcome (Swaths ℝ)) (cs : Cells ℝ) (gs : SwathsByCells ℝ)
    (hne : Cells.iter cs = cs) (h : perCell one cs = .ok gs) :
    List.Forall₂ (fun c g => one c = .ok g) cs gs := by
  unfold perCell at h
  rw [hne] at h
  exact perCellLoop_ok one cs gs h

theorem perCell_of_forall₂ (one : Cell ℝ → Outcome (Swaths ℝ)) (cs : Cells ℝ) (gs : SwathsByCells ℝ)
    (hne : Cells.iter cs = cs) (h : List.Forall₂ (fun c g => one c = .ok g) cs gs) :
    perCell one cs = .ok gs := by
  unfold perCell
  rw [hne]
  clear hne
  induction h with
  | nil => rfl
  | cons h1 _ ih => simp only [perCellLoop, h1, ih, Outcome.ok_bind, Outcome.pure_eq]

end SG
end F2C
