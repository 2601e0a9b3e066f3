import Mathlib.Analysis.Calculus.Deriv.Pow
import Mathlib.Analysis.Calculus.Deriv.Add
import Mathlib.Analysis.Calculus.Deriv.Mul
import Mathlib.Topology.Order.LeftRight
import Mathlib.Topology.Instances.Real.Lemmas
import Mathlib.Data.Rat.Lemmas
import Verif.Lemmas.Spline

/-! # C57: the cubic spline -/

namespace F2C.Props

open Spline

set_option linter.unusedSectionVars false

variable {K : Type} [Field K] [LinearOrder K] [IsStrictOrderedRing K]

/-- C57: for increasing knots and as many values, there is a spline. -/
theorem C57_accepts (x y : List K) (hx : x.Pairwise (· < ·)) (hn : 1 < x.length)
    (hl : x.length = y.length) : ∃ s, Spline.make x y = .ok s :=
  setPoints_sorted _ hl hn fun _ _ hi => nth_lt hx (Nat.lt_succ_self _) hi

/-- C57: the spline takes the given value at every knot.  Partial: except at the second one (if there
are more than two). -/
theorem C57_interpolates_partial (old s : Spline K) (x y : List K) (hx : x.Pairwise (· < ·))
    (hs : setPoints old x y = .ok s) (i : Nat) (hi : i < x.length) (hi1 : i ≠ 1 ∨ x.length = 2) :
    ∃ a b, x[i]? = some a ∧ y[i]? = some b ∧ s.eval a = .ok b := by
  obtain ⟨h1, h2, -, h4, h5, hb, -, hc, hd0, -, hd⟩ := setPoints_ok hs
  have hiy : i < y.length := h1 ▸ hi
  refine ⟨x[i], y[i], List.getElem?_eq_getElem hi, List.getElem?_eq_getElem hiy, ?_⟩
  have hne : s.x ≠ [] := by rw [h4]; exact List.ne_nil_of_length_pos (by omega)
  rw [eval, if_neg hne, ← nth_eq hi, ← nth_eq hiy]
  congr 1
  have hsx : s.x.Pairwise (· < ·) := h4 ▸ hx
  rcases Nat.eq_zero_or_pos i with rfl | hpos
  · rw [index_before hsx (by rw [h4])]
    unfold piece
    rw [h4, h5]
    ring
  · obtain ⟨j, rfl⟩ : ∃ j, i = j + 1 := ⟨i - 1, by omega⟩
    have hlt := nth_lt hx (Nat.lt_succ_self j) hi
    rw [index_between (i := j) hsx (by rw [h4]; exact hi) (by rw [h4]; exact hlt) (by rw [h4])]
    unfold piece
    rw [h4, h5, hb j hi, hc j (by omega), ← value_join y hx hi]
    have hdj : nth s.d j = dAt x y j := by
      rcases Nat.eq_zero_or_pos j with rfl | hj
      · have h22 : x.length = 2 := by omega
        have c0 := cAt_zero x y h2
        have c1 := cAt_last x y
        rw [h22] at c1
        rw [hd0, dAt, c0, show (0 + 1 : Nat) = 2 - 1 from rfl, c1]
        simp
      · exact hd j hj hi
    rw [hdj]
    rfl

example : ([0, 1, 3] : List ℚ).Pairwise (· < ·) ∧ 1 < ([0, 1, 3] : List ℚ).length ∧
    ([0, 1, 3] : List ℚ).length = ([5, 2, 7] : List ℚ).length := by decide

/-- C57 fails at the second knot: with knots 0, 1, 2 and values 0, 0, 1 the spline is -1/4 in 1. -/
theorem C57_second_knot_wrong : ∃ (x y : List ℚ) (s : Spline ℚ), x.Pairwise (· < ·) ∧
    Spline.make x y = .ok s ∧ x[1]? = some 1 ∧ y[1]? = some 0 ∧ s.eval 1 = .ok (-1 / 4) := by
  refine ⟨[0, 1, 2], [0, 0, 1], ⟨[0, 1, 2], [0, 0, 1], [-1 / 4, 1 / 2, 0], [0, 3 / 4, 0],
    [0, -1 / 4, 0]⟩, by decide, ?_, rfl, rfl, ?_⟩
  · decide +kernel
  · decide +kernel

/-- C57: how wrong the second knot is: the spline is off by the third-order term of the first piece,
which `SetSplineCubic` sets to 0 at the end; it is right only if the curvature there is 0. -/
theorem C57_second_knot (old s : Spline K) (x y : List K) (hx : x.Pairwise (· < ·))
    (hs : setPoints old x y = .ok s) :
    ∃ a b, x[1]? = some a ∧ y[1]? = some b ∧ (s.eval a = .ok b ↔ nth s.c 1 = 0) := by
  obtain ⟨h1, h2, -, h4, h5, hb, -, hc, hd0, -, hd⟩ := setPoints_ok hs
  have hiy : 1 < y.length := h1 ▸ h2
  refine ⟨x[1], y[1], List.getElem?_eq_getElem h2, List.getElem?_eq_getElem hiy, ?_⟩
  have hne : s.x ≠ [] := by rw [h4]; exact List.ne_nil_of_length_pos (by omega)
  have hsx : s.x.Pairwise (· < ·) := h4 ▸ hx
  have hlt := nth_lt hx (Nat.lt_succ_self 0) h2
  rw [eval, if_neg hne, ← nth_eq h2, ← nth_eq hiy,
    index_between (i := 0) hsx (by rw [h4]; exact h2) (by rw [h4]; exact hlt) (by rw [h4])]
  unfold piece
  have hv := value_join y hx h2
  have c0 := cAt_zero x y h2
  have hp := h_pos hx (i := 0) h2
  rw [h4, h5, hb 0 h2, hc 0 (by omega), hc 1 h2, hd0, Outcome.ok.injEq]
  have hdd : dAt x y 0 = cAt x y 1 / (3 * Spline.h x 0) := by unfold dAt; rw [c0, sub_zero]
  rw [hdd, c0] at hv
  rw [c0]
  simp only [Nat.zero_add] at hv
  have hh : nth x 1 - nth x 0 = Spline.h x 0 := rfl
  rw [hh]
  have key : cAt x y 1 / (3 * Spline.h x 0) * (Spline.h x 0 * Spline.h x 0 * Spline.h x 0) =
      cAt x y 1 * (Spline.h x 0 * Spline.h x 0 / 3) := by
    have := hp.ne'
    field_simp
  have hq : 0 < Spline.h x 0 * Spline.h x 0 / 3 := by positivity
  constructor
  · intro e
    have : cAt x y 1 * (Spline.h x 0 * Spline.h x 0 / 3) = 0 := by
      rw [← key]; linarith
    rcases mul_eq_zero.1 this with h | h
    · exact h
    · exact absurd h hq.ne'
  · intro e
    rw [e] at hv
    simp only [zero_div] at hv
    linarith

/-- C57: knots that are not sorted are rejected.  Partial: if they are unsorted after the first. -/
theorem C57_rejects_partial (x y : List K) (hl : x.length = y.length) (i : Nat) (h1 : 1 ≤ i)
    (a b : K) (ha : x[i]? = some a) (hb : x[i + 1]? = some b) (hab : b ≤ a) (mono : Bool) :
    Spline.make x y mono = .throw .outOfRange := by
  obtain ⟨hj, rfl⟩ := List.getElem?_eq_some_iff.1 hb
  obtain ⟨hi, rfl⟩ := List.getElem?_eq_some_iff.1 ha
  unfold make setPoints
  rw [if_neg (not_not.2 hl)]
  by_cases h2 : ¬ 1 < x.length
  · rw [if_pos h2]
  · rw [if_neg h2, if_pos]
    intro h3
    have := List.all_eq_true.1 h3 (i - 1) (by simp; omega)
    simp only [decide_eq_true_eq] at this
    rw [show i - 1 + 1 = i by omega, show i - 1 + 2 = i + 1 by omega, nth_eq hj, nth_eq hi] at this
    exact absurd this (not_lt.2 hab)

example : ([0, 1, 1] : List ℚ)[1]? = some 1 ∧ ([0, 1, 1] : List ℚ)[1 + 1]? = some 1 ∧
    (1 : ℚ) ≤ 1 := by decide

omit [IsStrictOrderedRing K] in
/-- C57: fewer than two knots, or not as many values as knots, are rejected. -/
theorem C57_rejects_sizes (old : Spline K) (x y : List K) (h : x.length ≠ y.length ∨ x.length < 2) (mono : Bool) :
    setPoints old x y mono = .throw .outOfRange := by
  unfold setPoints
  by_cases h1 : x.length ≠ y.length
  · rw [if_pos h1]
  · rw [if_neg h1, if_pos (by rcases h with h | h <;> omega)]

example : ([1, 2] : List ℚ).length ≠ ([3] : List ℚ).length ∨ ([1, 2] : List ℚ).length < 2 := by decide

/-- C57 fails for the first two knots: their order is not checked. -/
theorem C57_first_two_unchecked : ∃ (x y : List ℚ) (s : Spline ℚ), x[1]? = some 0 ∧
    x[0]? = some 1 ∧ Spline.make x y = .ok s :=
  ⟨[1, 0, 2], [0, 0, 0], ⟨[1, 0, 2], [0, 0, 0], [0, 0, 0], [0, 0, 0], [0, 0, 0]⟩, rfl, rfl,
    by decide +kernel⟩

/-- C57: a monotonic spline can never be made: reading past the end of `b_vec_`. -/
theorem C57_monotonic_ub (x y : List K) (s : Spline K) : Spline.make x y true ≠ .ok s := by
  intro h
  unfold make setPoints at h
  by_cases h1 : x.length ≠ y.length
  · rw [if_pos h1] at h; cases h
  rw [if_neg h1] at h
  by_cases h2 : ¬ 1 < x.length
  · rw [if_pos h2] at h; cases h
  rw [if_neg h2] at h
  by_cases h3 : ¬ (List.range (x.length - 2)).all (fun i => decide (nth x (i + 1) < nth x (i + 2)))
  · rw [if_pos h3] at h; cases h
  rw [if_neg h3] at h
  simp at h

/-- C57: after the last knot, a spline made by the constructor is constant. -/
theorem C57_after_end (s : Spline K) (x y : List K) (hx : x.Pairwise (· < ·))
    (hs : Spline.make x y = .ok s) (a b t : K) (ha : x.getLast? = some a) (hb : y.getLast? = some b)
    (ht : a < t) : s.eval t = .ok b := by
  obtain ⟨h1, h2, -, h4, h5, -, hbl, hc, -, hd, -⟩ := setPoints_ok hs
  have hne : s.x ≠ [] := by rw [h4]; exact List.ne_nil_of_length_pos (by omega)
  rw [List.getLast?_eq_getElem?] at ha hb
  obtain ⟨ha1, ha2⟩ := List.getElem?_eq_some_iff.1 ha
  obtain ⟨hb1, hb2⟩ := List.getElem?_eq_some_iff.1 hb
  have hsx : s.x.Pairwise (· < ·) := h4 ▸ hx
  rw [eval, if_neg hne, index_after hsx hne (by rw [h4, nth_eq ha1, ha2]; exact ht)]
  unfold piece
  rw [h4, h5, hbl, hc _ ha1, hd, cAt_last, h1, nth_eq hb1, hb2]
  simp [Spline.empty, nth]

/-- C57: with `SetPoints` on a spline that is already in use, this is not so: the slope of the old
spline is still there. -/
theorem C57_set_points_stale : ∃ (x y x' y' : List ℚ) (s s' n : Spline ℚ),
    Spline.make x y = .ok s ∧ s.setPoints x' y' = .ok s' ∧ Spline.make x' y' = .ok n ∧
    n.eval 2 = .ok 0 ∧ s'.eval 2 = .ok 1 := by
  refine ⟨[0, 1, 2], [0, 1, 2], [0, 1], [0, 0],
    ⟨[0, 1, 2], [0, 1, 2], [1, 1, 0], [0, 0, 0], [0, 0, 0]⟩,
    ⟨[0, 1], [0, 0], [0, 1], [0, 0], [0, 0]⟩, ⟨[0, 1], [0, 0], [0, 0], [0, 0], [0, 0]⟩, ?_, ?_, ?_,
    ?_, ?_⟩ <;> decide +kernel

/-! ## continuity and smoothness, over the reals -/

theorem hasDerivAt_piece (s : Spline ℝ) (i : Nat) (t : ℝ) :
    HasDerivAt (s.piece i) (nth s.b i + 2 * nth s.c i * (t - nth s.x i) +
      3 * nth s.d i * ((t - nth s.x i) * (t - nth s.x i))) t := by
  have h0 : HasDerivAt (fun t : ℝ => t - nth s.x i) 1 t := (hasDerivAt_id t).sub_const _
  have h1 := h0.const_mul (nth s.b i)
  have h2 := (h0.mul h0).const_mul (nth s.c i)
  have h3 := ((h0.mul h0).mul h0).const_mul (nth s.d i)
  have h := ((h1.const_add (nth s.y i)).add h2).add h3
  refine HasDerivAt.congr_deriv h ?_
  simp only [Pi.mul_apply]
  ring

theorem hasDerivAt_piece2 (s : Spline ℝ) (i : Nat) (t : ℝ) :
    HasDerivAt (deriv (s.piece i)) (2 * nth s.c i + 6 * nth s.d i * (t - nth s.x i)) t := by
  have e : deriv (s.piece i) = fun t => nth s.b i + 2 * nth s.c i * (t - nth s.x i) +
      3 * nth s.d i * ((t - nth s.x i) * (t - nth s.x i)) := by
    funext t; exact (hasDerivAt_piece s i t).deriv
  rw [e]
  have h0 : HasDerivAt (fun t : ℝ => t - nth s.x i) 1 t := (hasDerivAt_id t).sub_const _
  have h1 := h0.const_mul (2 * nth s.c i)
  have h2 := (h0.mul h0).const_mul (3 * nth s.d i)
  have h := (h1.const_add (nth s.b i)).add h2
  refine HasDerivAt.congr_deriv h ?_
  ring

/-- C57: the spline is made of one polynomial per interval between knots; from the third knot on,
neighbouring ones have the same value, slope and curvature in their common knot. -/
theorem C57_smooth (old s : Spline ℝ) (x y : List ℝ) (hx : x.Pairwise (· < ·))
    (hs : setPoints old x y = .ok s) :
    (∀ (i : Nat) (a b t : ℝ), x[i]? = some a → x[i + 1]? = some b → a < t → t ≤ b →
      s.eval t = .ok (s.piece i t)) ∧
    (∀ (i : Nat) (k b : ℝ), 2 ≤ i → i + 1 < x.length → x[i]? = some k → y[i]? = some b →
      s.piece (i - 1) k = b ∧ s.piece i k = b ∧
      deriv (s.piece (i - 1)) k = deriv (s.piece i) k ∧
      deriv (deriv (s.piece (i - 1))) k = deriv (deriv (s.piece i)) k) := by
  obtain ⟨h1, h2, -, h4, h5, hb, -, hc, -, -, hd⟩ := setPoints_ok hs
  have hne : s.x ≠ [] := by rw [h4]; exact List.ne_nil_of_length_pos (by omega)
  have hsx : s.x.Pairwise (· < ·) := h4 ▸ hx
  constructor
  · intro i a b t ha hb h3 h4'
    obtain ⟨ha1, ha2⟩ := List.getElem?_eq_some_iff.1 ha
    obtain ⟨hb1, hb2⟩ := List.getElem?_eq_some_iff.1 hb
    rw [eval, if_neg hne, index_between (i := i) hsx (by rw [h4]; exact hb1)
      (by rw [h4, nth_eq ha1, ha2]; exact h3) (by rw [h4, nth_eq hb1, hb2]; exact h4')]
  · intro i k b hi2 hil hk hy
    obtain ⟨hk1, hk2⟩ := List.getElem?_eq_some_iff.1 hk
    obtain ⟨hy1, hy2⟩ := List.getElem?_eq_some_iff.1 hy
    obtain ⟨j, rfl⟩ : ∃ j, i = j + 1 := ⟨i - 1, by omega⟩
    have hkn : k = nth x (j + 1) := by rw [nth_eq hk1, hk2]
    have hyn : b = nth y (j + 1) := by rw [nth_eq hy1, hy2]
    have hh : k - nth x j = Spline.h x j := by rw [hkn]; rfl
    have hz : k - nth x (j + 1) = 0 := by rw [hkn, sub_self]
    have hcj := hc j (by omega)
    have hcj1 := hc (j + 1) (by omega)
    have hdj := hd j (by omega) (by omega)
    have hdj1 := hd (j + 1) (by omega) hil
    have hbj := hb j (by omega)
    have hbj1 := hb (j + 1) hil
    rw [Nat.add_sub_cancel]
    refine ⟨?_, ?_, ?_, ?_⟩
    · unfold piece
      rw [h4, h5, hh, hcj, hdj, hbj, hyn]
      exact value_join y hx hk1
    · unfold piece
      rw [h4, h5, hz, hyn]; ring
    · rw [(hasDerivAt_piece s j k).deriv, (hasDerivAt_piece s (j + 1) k).deriv, h4, hh, hz, hcj, hdj,
        hbj, hbj1, ← slope_join y hx hil]
      ring
    · rw [(hasDerivAt_piece2 s j k).deriv, (hasDerivAt_piece2 s (j + 1) k).deriv, h4, hh, hz, hcj,
        hdj, hcj1, ← curv_join y hx hk1]
      ring

/-- The value as a function. -/
noncomputable def evalFun (s : Spline ℝ) (t : ℝ) : ℝ :=
  match s.eval t with
  | .ok v => v
  | _ => 0

private theorem continuous_piece (s : Spline ℝ) (i : Nat) : Continuous (s.piece i) :=
  continuous_iff_continuousAt.2 fun t => (hasDerivAt_piece s i t).continuousAt

/-- C57: the spline made by the constructor is continuous at every point after the second knot. -/
theorem C57_continuous_partial (s : Spline ℝ) (x y : List ℝ) (hx : x.Pairwise (· < ·))
    (hs : Spline.make x y = .ok s) (a : ℝ) (ha : x[1]? = some a) (t : ℝ) (ht : a < t) :
    ContinuousAt (evalFun s) t := by
  obtain ⟨h1, h2, -, h4, h5, hb, hbl, hc, -, hdl, hd⟩ := setPoints_ok hs
  have hne : s.x ≠ [] := by rw [h4]; exact List.ne_nil_of_length_pos (by omega)
  have hsx : s.x.Pairwise (· < ·) := h4 ▸ hx
  have hev : ∀ t, evalFun s t = s.piece (s.index t) t := by
    intro t; unfold evalFun; rw [eval, if_neg hne]
  obtain ⟨ha1, ha2⟩ := List.getElem?_eq_some_iff.1 ha
  -- the knots around `t`
  obtain ⟨q1, q2, q3⟩ := search_all hx t
  generalize hr : search t x x.length 0 x.length = r at q1 q2 q3
  have hr2 : 2 ≤ r := by
    by_contra hcon
    have := q3 1 (by omega) ha1
    rw [nth_eq ha1, ha2] at this
    linarith
  obtain ⟨j, rfl⟩ : ∃ j, r = j + 1 := ⟨r - 1, by omega⟩
  have hleft : nth x j < t := q2 j (by omega)
  by_cases hlast : j + 1 = x.length
  · -- after the last knot
    have hmem : Set.Ioi (nth x j) ∈ nhds t := Ioi_mem_nhds hleft
    refine ((continuous_piece s j).continuousAt).congr ?_
    filter_upwards [hmem] with u hu
    rw [hev, index_after hsx hne (by rw [h4, show x.length - 1 = j by omega]; exact hu), h4,
      show x.length - 1 = j by omega]
  · have hj1 : j + 1 < x.length := by omega
    have hright : t ≤ nth x (j + 1) := q3 (j + 1) le_rfl hj1
    rcases lt_or_eq_of_le hright with hlt | heq
    · refine ((continuous_piece s j).continuousAt).congr ?_
      filter_upwards [Ioo_mem_nhds hleft hlt] with u hu
      rw [hev, index_between (i := j) hsx (by rw [h4]; exact hj1) (by rw [h4]; exact hu.1)
        (by rw [h4]; exact hu.2.le)]
    · rw [continuousAt_iff_continuous_left_right]
      have hval : evalFun s t = s.piece j t := by
        rw [hev, index_between (i := j) hsx (by rw [h4]; exact hj1) (by rw [h4]; exact hleft)
          (by rw [h4]; exact hright)]
      have hknot : s.piece j t = nth y (j + 1) := by
        unfold piece
        rw [h4, h5, hb j hj1, hc j (by omega), hd j (by omega) hj1, heq]
        exact value_join y hx hj1
      constructor
      · refine ((continuous_piece s j).continuousWithinAt).congr_of_eventuallyEq ?_ hval
        have : Set.Ioi (nth x j) ∈ nhdsWithin t (Set.Iic t) :=
          mem_nhdsWithin_of_mem_nhds (Ioi_mem_nhds hleft)
        filter_upwards [this, self_mem_nhdsWithin] with u hu hu2
        rw [hev, index_between (i := j) hsx (by rw [h4]; exact hj1) (by rw [h4]; exact hu)
          (by rw [h4]; exact le_trans hu2 hright)]
      · have hval2 : evalFun s t = s.piece (j + 1) t := by
          rw [hval, hknot]
          unfold piece
          rw [h4, h5, ← heq]
          ring
        refine ((continuous_piece s (j + 1)).continuousWithinAt).congr_of_eventuallyEq ?_ hval2
        by_cases hj2 : j + 2 < x.length
        · have hlt2 : t < nth x (j + 2) := heq ▸ nth_lt hx (Nat.lt_succ_self _) hj2
          have : Set.Iio (nth x (j + 2)) ∈ nhdsWithin t (Set.Ici t) :=
            mem_nhdsWithin_of_mem_nhds (Iio_mem_nhds hlt2)
          filter_upwards [this, self_mem_nhdsWithin] with u hu hu2
          rcases lt_or_eq_of_le (show t ≤ u from hu2) with h | h
          · rw [hev, index_between (i := j + 1) hsx (by rw [h4]; exact hj2)
              (by rw [h4, ← heq]; exact h) (by rw [h4]; exact le_of_lt hu)]
          · rw [← h]; exact hval2
        · filter_upwards [self_mem_nhdsWithin] with u hu2
          rcases lt_or_eq_of_le (show t ≤ u from hu2) with h | h
          · rw [hev, index_after hsx hne
              (by rw [h4, show x.length - 1 = j + 1 by omega, ← heq]; exact h), h4,
              show x.length - 1 = j + 1 by omega]
          · rw [← h]; exact hval2

/-- C57: and at every point before the second knot. -/
theorem C57_continuous_before_partial (old s : Spline ℝ) (x y : List ℝ) (hx : x.Pairwise (· < ·))
    (hs : setPoints old x y = .ok s) (a : ℝ) (ha : x[1]? = some a) (t : ℝ) (ht : t < a) :
    ContinuousAt (evalFun s) t := by
  obtain ⟨h1, h2, -, h4, h5, -, -, -, -, -, -⟩ := setPoints_ok hs
  have hne : s.x ≠ [] := by rw [h4]; exact List.ne_nil_of_length_pos (by omega)
  have hsx : s.x.Pairwise (· < ·) := h4 ▸ hx
  obtain ⟨ha1, ha2⟩ := List.getElem?_eq_some_iff.1 ha
  refine ((continuous_piece s 0).continuousAt).congr ?_
  filter_upwards [Iio_mem_nhds ht] with u hu
  unfold evalFun
  rw [eval, if_neg hne]
  rcases le_or_gt u (nth x 0) with h | h
  · rw [index_before hsx (by rw [h4]; exact h)]
  · rw [index_between (i := 0) hsx (by rw [h4]; exact h2) (by rw [h4]; exact h)
      (by rw [h4, nth_eq ha1, ha2]; exact le_of_lt hu)]

/-- C57: where the spline misses the value of the second knot (`C57_second_knot_wrong`), it jumps. -/
theorem C57_jump (old s : Spline ℝ) (x y : List ℝ) (hx : x.Pairwise (· < ·))
    (hs : setPoints old x y = .ok s) (hn : 2 < x.length) (a b : ℝ) (ha : x[1]? = some a)
    (hb : y[1]? = some b) (hw : s.eval a ≠ .ok b) : ¬ ContinuousAt (evalFun s) a := by
  obtain ⟨h1, h2, -, h4, h5, -, -, -, -, -, -⟩ := setPoints_ok hs
  have hne : s.x ≠ [] := by rw [h4]; exact List.ne_nil_of_length_pos (by omega)
  have hsx : s.x.Pairwise (· < ·) := h4 ▸ hx
  obtain ⟨ha1, ha2⟩ := List.getElem?_eq_some_iff.1 ha
  obtain ⟨hb1, hb2⟩ := List.getElem?_eq_some_iff.1 hb
  have han : nth x 1 = a := by rw [nth_eq ha1, ha2]
  intro hcont
  apply hw
  have hlt : a < nth x 2 := han ▸ nth_lt hx (Nat.lt_succ_self 1) hn
  have l1 : Filter.Tendsto (evalFun s) (nhdsWithin a (Set.Ioi a)) (nhds (evalFun s a)) :=
    hcont.mono_left nhdsWithin_le_nhds
  have l2 : Filter.Tendsto (s.piece 1) (nhdsWithin a (Set.Ioi a)) (nhds (s.piece 1 a)) :=
    ((continuous_piece s 1).continuousAt).mono_left nhdsWithin_le_nhds
  have l3 : Filter.Tendsto (evalFun s) (nhdsWithin a (Set.Ioi a)) (nhds (s.piece 1 a)) := by
    refine l2.congr' ?_
    filter_upwards [mem_nhdsWithin_of_mem_nhds (Iio_mem_nhds hlt), self_mem_nhdsWithin] with u hu hu2
    unfold evalFun
    rw [eval, if_neg hne, index_between (i := 1) hsx (by rw [h4]; exact hn)
      (by rw [h4, han]; exact hu2) (by rw [h4]; exact le_of_lt hu)]
  have e := tendsto_nhds_unique l1 l3
  have e2 : s.piece 1 a = b := by
    unfold piece
    rw [h4, h5, han, nth_eq hb1, hb2]
    ring
  rw [e2] at e
  unfold evalFun at e
  rw [eval, if_neg hne] at e ⊢
  exact congrArg Outcome.ok e

end F2C.Props
