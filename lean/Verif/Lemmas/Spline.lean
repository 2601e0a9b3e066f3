import Mathlib.Tactic.Linarith
import Mathlib.Tactic.FieldSimp
import Mathlib.Tactic.Ring
import Mathlib.Tactic.LinearCombination
import Verif.Model.Spline

/-! # Lemmas about the cubic spline -/

namespace F2C.Spline

variable {K : Type} [Field K] [LinearOrder K]

theorem nth_eq {v : List K} {i : Nat} (h : i < v.length) : nth v i = v[i] := by
  simp [nth, List.getD_eq_getElem?_getD, h]

theorem nth_lt {x : List K} (hx : x.Pairwise (· < ·)) {i j : Nat} (hij : i < j)
    (hj : j < x.length) : nth x i < nth x j := by
  rw [nth_eq hj, nth_eq (hij.trans hj)]
  exact List.pairwise_iff_getElem.1 hx i j (hij.trans hj) hj hij

theorem nth_le {x : List K} (hx : x.Pairwise (· < ·)) {i j : Nat} (hij : i ≤ j)
    (hj : j < x.length) : nth x i ≤ nth x j := by
  rcases Nat.eq_or_lt_of_le hij with rfl | h
  · exact le_rfl
  · exact (nth_lt hx h hj).le

/-! ## search -/

theorem search_spec {x : List K} (hx : x.Pairwise (· < ·)) (xs : K) :
    ∀ (fuel l h : Nat), h - l ≤ fuel → l ≤ h → h ≤ x.length → (∀ j < l, nth x j < xs) →
      (∀ j, h ≤ j → j < x.length → xs ≤ nth x j) →
      search xs x fuel l h ≤ x.length ∧ (∀ j < search xs x fuel l h, nth x j < xs) ∧
        ∀ j, search xs x fuel l h ≤ j → j < x.length → xs ≤ nth x j := by
  intro fuel
  induction fuel with
  | zero =>
    intro l h h1 h2 h3 h4 h5
    have : l = h := by omega
    subst this
    exact ⟨h3, h4, h5⟩
  | succ n ih =>
    intro l h h1 h2 h3 h4 h5
    rw [search]
    by_cases hlt : l < h
    · rw [if_pos hlt]
      simp only
      have hm1 : l ≤ (l + h) / 2 := by omega
      have hm2 : (l + h) / 2 < h := by omega
      by_cases hc : xs ≤ nth x ((l + h) / 2)
      · rw [if_pos hc]
        refine ih _ _ (by omega) hm1 (by omega) h4 ?_
        intro j hj1 hj2
        exact hc.trans (nth_le hx hj1 hj2)
      · rw [if_neg hc]
        refine ih _ _ (by omega) (by omega) h3 ?_ h5
        intro j hj
        exact lt_of_le_of_lt (nth_le hx (by omega) (by omega)) (not_le.1 hc)
    · rw [if_neg hlt]
      have : l = h := by omega
      subst this
      exact ⟨h3, h4, h5⟩

theorem search_all {x : List K} (hx : x.Pairwise (· < ·)) (xs : K) :
    search xs x x.length 0 x.length ≤ x.length ∧
      (∀ j < search xs x x.length 0 x.length, nth x j < xs) ∧
      ∀ j, search xs x x.length 0 x.length ≤ j → j < x.length → xs ≤ nth x j :=
  search_spec hx xs _ _ _ (by omega) (by omega) le_rfl (by simp) (by intro j h1 h2; omega)

/-- which piece is used between two knots -/
theorem index_between {s : Spline K} (hx : s.x.Pairwise (· < ·)) {i : Nat} {t : K}
    (hi : i + 1 < s.x.length) (h1 : nth s.x i < t) (h2 : t ≤ nth s.x (i + 1)) : s.index t = i := by
  obtain ⟨a, b, c⟩ := search_all hx t
  unfold index
  generalize search t s.x s.x.length 0 s.x.length = r at *
  have hr1 : r ≤ i + 1 := by
    by_contra hc
    exact absurd (b (i + 1) (by omega)) (not_lt.2 h2)
  have hr2 : ¬ r ≤ i := fun hc => absurd (c i hc (by omega)) (not_le.2 h1)
  omega

theorem index_before {s : Spline K} (hx : s.x.Pairwise (· < ·)) {t : K}
    (h1 : t ≤ nth s.x 0) : s.index t = 0 := by
  obtain ⟨a, b, c⟩ := search_all hx t
  unfold index
  generalize search t s.x s.x.length 0 s.x.length = r at *
  by_contra hc
  exact absurd (b 0 (by omega)) (not_lt.2 h1)

theorem index_after {s : Spline K} (hx : s.x.Pairwise (· < ·)) (h0 : s.x ≠ []) {t : K}
    (h1 : nth s.x (s.x.length - 1) < t) : s.index t = s.x.length - 1 := by
  obtain ⟨a, b, c⟩ := search_all hx t
  unfold index
  have hl : 0 < s.x.length := List.length_pos_iff.2 h0
  generalize search t s.x s.x.length 0 s.x.length = r at *
  by_contra hc
  exact absurd (c (s.x.length - 1) (by omega) (by omega)) (not_le.2 h1)

/-! ## the construction -/

theorem setPoints_ok {old s : Spline K} {x y : List K} (h : setPoints old x y = .ok s) :
    x.length = y.length ∧ 1 < x.length ∧ (∀ i, 1 ≤ i → i + 1 < x.length → nth x i < nth x (i + 1)) ∧
    s.x = x ∧ s.y = y ∧
    (∀ i, i + 1 < x.length → nth s.b i = bAt x y i) ∧
    nth s.b (x.length - 1) = nth old.b (x.length - 1) ∧
    (∀ i, i < x.length → nth s.c i = cAt x y i) ∧
    nth s.d 0 = 0 ∧ nth s.d (x.length - 1) = 0 ∧
    (∀ i, 1 ≤ i → i + 1 < x.length → nth s.d i = dAt x y i) := by
  unfold setPoints at h
  by_cases h1 : x.length ≠ y.length
  · rw [if_pos h1] at h; cases h
  rw [if_neg h1] at h
  by_cases h2 : ¬ 1 < x.length
  · rw [if_pos h2] at h; cases h
  rw [if_neg h2] at h
  by_cases h3 : ¬ (List.range (x.length - 2)).all (fun i => decide (nth x (i + 1) < nth x (i + 2)))
  · rw [if_pos h3] at h; cases h
  rw [if_neg h3] at h
  simp only [Bool.false_eq_true, if_false, Outcome.ok.injEq] at h
  subst h
  rw [not_not] at h1 h2 h3
  have hn : ∀ (f : Nat → K) (i : Nat), i < x.length → nth ((List.range x.length).map f) i = f i := by
    intro f i hi
    rw [nth_eq (by simpa using hi)]
    simp
  refine ⟨h1, h2, ?_, rfl, rfl, ?_, ?_, fun i hi => hn _ i hi, ?_, ?_, ?_⟩
  · intro i hi1 hi2
    have := List.all_eq_true.1 h3 (i - 1) (by simp; omega)
    simp only [decide_eq_true_eq] at this
    rwa [show i - 1 + 1 = i by omega, show i - 1 + 2 = i + 1 by omega] at this
  · intro i hi
    rw [hn _ i (by omega), if_pos hi]
  · rw [hn _ _ (by omega), if_neg (by omega)]
  · rw [hn _ _ (by omega), if_pos (Or.inl rfl)]
  · rw [hn _ _ (by omega), if_pos (Or.inr (by omega))]
  · intro i h1 h2
    rw [hn _ _ (by omega), if_neg (by omega)]

theorem setPoints_sorted (old : Spline K) {x y : List K} (h1 : x.length = y.length)
    (h2 : 1 < x.length) (hx : ∀ i, 1 ≤ i → i + 1 < x.length → nth x i < nth x (i + 1)) :
    ∃ s, setPoints old x y = .ok s := by
  unfold setPoints
  have h3 : (List.range (x.length - 2)).all
      (fun i => decide (nth x (i + 1) < nth x (i + 2))) = true := by
    rw [List.all_eq_true]
    intro i hi
    simp only [List.mem_range] at hi
    exact decide_eq_true (hx (i + 1) (by omega) (by omega))
  rw [if_neg (not_not.2 h1), if_neg (not_not.2 h2), if_neg (not_not.2 h3), if_neg (by simp)]
  exact ⟨_, rfl⟩

variable [IsStrictOrderedRing K]

theorem h_pos {x : List K} (hx : x.Pairwise (· < ·)) {i : Nat} (hi : i + 1 < x.length) :
    0 < h x i := by
  unfold h; linarith [nth_lt hx (Nat.lt_succ_self i) hi]

theorem cAt_last (x y : List K) : cAt x y (x.length - 1) = 0 := by
  unfold cAt
  rw [Nat.sub_self]; rfl

theorem cAt_rec (x y : List K) {i : Nat} (hi : i + 1 < x.length) :
    cAt x y i = (forward x y i).2.2 - (forward x y i).2.1 * cAt x y (i + 1) := by
  unfold cAt
  obtain ⟨k, hk⟩ : ∃ k, x.length - 1 - i = k + 1 := ⟨x.length - 2 - i, by omega⟩
  rw [hk, cBack, show x.length - 1 - (i + 1) = k by omega, show x.length - 2 - k = i by omega]

theorem cAt_zero (x y : List K) (h : 1 < x.length) : cAt x y 0 = 0 := by
  rw [cAt_rec x y (by omega)]
  simp [forward]

theorem forward_bounds {x : List K} (y : List K) (hx : x.Pairwise (· < ·)) :
    ∀ i, i + 1 < x.length → 0 ≤ (forward x y i).2.1 ∧ (forward x y i).2.1 < 1 ∧
      0 < (forward x y i).1 := by
  intro i
  induction i with
  | zero => intro _; simp [forward]
  | succ i ih =>
    intro hi
    obtain ⟨a, b, c⟩ := ih (by omega)
    have hp := h_pos hx (i := i) (by omega)
    have hp1 := h_pos hx (i := i + 1) (by omega)
    have e : nth x (i + 2) - nth x i = h x i + h x (i + 1) := by unfold h; ring
    have hl : h x (i + 1) < 2 * (nth x (i + 2) - nth x i) - h x i * (forward x y i).2.1 := by
      rw [e]
      have : h x i * (forward x y i).2.1 ≤ h x i * 1 := mul_le_mul_of_nonneg_left b.le hp.le
      linarith
    simp only [forward]
    refine ⟨div_nonneg hp1.le (by linarith), ?_, by linarith⟩
    rw [div_lt_one (by linarith)]
    exact hl

/-- the tridiagonal system is solved -/
theorem cAt_system {x : List K} (y : List K) (hx : x.Pairwise (· < ·)) {i : Nat}
    (hi : i + 2 < x.length) :
    h x i * cAt x y i + 2 * (h x i + h x (i + 1)) * cAt x y (i + 1) + h x (i + 1) * cAt x y (i + 2) =
      alpha x y (i + 1) := by
  have r0 := cAt_rec x y (i := i) (by omega)
  have r1 := cAt_rec x y (i := i + 1) (by omega)
  have hl := (forward_bounds y hx (i + 1) (by omega)).2.2
  simp only [forward] at r1 hl
  have e : nth x (i + 2) - nth x i = h x i + h x (i + 1) := by unfold h; ring
  rw [e] at r1 hl
  obtain ⟨L, hL⟩ : ∃ L, L = 2 * (h x i + h x (i + 1)) - h x i * (forward x y i).2.1 := ⟨_, rfl⟩
  rw [← hL] at r1 hl
  have r1' : L * cAt x y (i + 1) =
      alpha x y (i + 1) - h x i * (forward x y i).2.2 - h x (i + 1) * cAt x y (i + 2) := by
    rw [r1, show i + 1 + 1 = i + 2 from rfl]
    field_simp
  rw [hL] at r1'
  rw [r0]
  linear_combination r1'

/-- the pieces join at the knots -/
theorem value_join {x : List K} (y : List K) (hx : x.Pairwise (· < ·)) {i : Nat}
    (hi : i + 1 < x.length) :
    nth y i + bAt x y i * h x i + cAt x y i * (h x i * h x i) +
      dAt x y i * (h x i * h x i * h x i) = nth y (i + 1) := by
  have hp := (h_pos hx hi).ne'
  unfold bAt dAt
  field_simp
  ring

/-- the slopes join at the inner knots -/
theorem slope_join {x : List K} (y : List K) (hx : x.Pairwise (· < ·)) {i : Nat}
    (hi : i + 2 < x.length) :
    bAt x y i + 2 * cAt x y i * h x i + 3 * dAt x y i * (h x i * h x i) = bAt x y (i + 1) := by
  have hp := (h_pos hx (i := i) (by omega)).ne'
  have hp1 := (h_pos hx (i := i + 1) (by omega)).ne'
  have hs := cAt_system y hx hi
  unfold alpha at hs
  simp only [Nat.add_sub_cancel, show i + 1 + 1 = i + 2 from rfl] at hs
  unfold bAt dAt
  simp only [show i + 1 + 1 = i + 2 from rfl]
  field_simp at hs ⊢
  linear_combination hs

/-- the curvatures join at the knots -/
theorem curv_join {x : List K} (y : List K) (hx : x.Pairwise (· < ·)) {i : Nat}
    (hi : i + 1 < x.length) :
    2 * cAt x y i + 6 * dAt x y i * h x i = 2 * cAt x y (i + 1) := by
  have hp := (h_pos hx hi).ne'
  unfold dAt
  field_simp
  ring

end F2C.Spline
