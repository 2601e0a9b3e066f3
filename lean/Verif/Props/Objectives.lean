import Mathlib.Tactic.NormNum
import Verif.Lemmas.Objectives
import Verif.Props.SwathGenerator

/-! # Property theorems C27, C28, C29, C67, C68: objectives and headlands -/

namespace F2C.Props

open SG F2C.SG F2C.Obj F2C.HG Obj

/-! ## C27 -/

/-- What `NSwathModified` computes: to the projected border of each ring one more term is added,
between the first point and the point with number `(2^64 - 1) mod n`. -/
theorem C27_exact_value (ang w : ℝ) (cell : Cell ℝ) (hw : 0 < w) (hne : ∀ r ∈ cell, r ≠ [])
    (hsz : ∀ r ∈ cell, r.length ≤ 2 ^ 64) :
    nSwathModified ang w cell = (cell.map fun r => projectedLength ang r +
      |across ang (ringPoint r 0) - across ang (ringPoint r ((2 ^ 64 - 1) % r.length))|).sum
      / (2 * w) := by
  unfold nSwathModified
  by_cases hc : cell = []
  · subst hc; simp
  · obtain ⟨r, hr⟩ := List.exists_mem_of_ne_nil _ hc
    rw [if_neg]
    · congr 1
      rw [foldl_ringTurns ang (fun r => projectedLength ang r +
        |across ang (ringPoint r 0) - across ang (ringPoint r ((2 ^ 64 - 1) % r.length))|), zero_add]
      intro ring hring acc
      cases ring with
      | nil => exact absurd rfl (hne _ hring)
      | cons a l => exact ringTurns_eq ang acc a l (hsz _ hring)
    · rintro (h | h)
      · rw [List.flatten_eq_nil_iff] at h
        exact hne r hr (h r hr)
      · linarith

/-- **C27** (part that holds): if the number of points of every closed ring divides `2^64` or
`2^64 - 1`, the result is the projected border over twice the width.  Missing: all other numbers
of points (`C27_wrong_for_six_points`). -/
theorem C27_projection_partial (ang w : ℝ) (cell : Cell ℝ) (hw : 0 < w)
    (hne : ∀ r ∈ cell, r ≠ []) (hcl : ∀ r ∈ cell, Closed r)
    (hn : ∀ r ∈ cell, r.length ∣ 2 ^ 64 ∨ r.length ∣ 2 ^ 64 - 1) :
    nSwathModified ang w cell = (cell.map (projectedLength ang)).sum / (2 * w) := by
  rw [C27_exact_value ang w cell hw hne (fun r hr => by
    rcases hn r hr with h | h
    · exact Nat.le_of_dvd (by norm_num) h
    · exact (Nat.le_of_dvd (by norm_num) h).trans (by norm_num))]
  congr 1
  apply congrArg
  apply List.map_congr_left
  intro r hr
  have : ringPoint r ((2 ^ 64 - 1) % r.length) = ringPoint r 0 := by
    rcases hn r hr with h | h
    · obtain ⟨m, hm⟩ := h
      have hpos : 0 < r.length := List.length_pos_of_ne_nil (hne r hr)
      have hmpos : 0 < m := by
        rcases Nat.eq_zero_or_pos m with h0 | h0
        · subst h0; simp at hm
        · exact h0
      have e : (2 ^ 64 - 1) % r.length = r.length - 1 := by
        rw [hm]
        obtain ⟨k, rfl⟩ : ∃ k, m = k + 1 := ⟨m - 1, by omega⟩
        rw [Nat.mul_succ, Nat.add_sub_assoc (by omega), Nat.mul_add_mod,
          Nat.mod_eq_of_lt (by omega)]
      have hc := hcl r hr
      unfold Closed at hc
      rw [e]
      unfold ringPoint
      rw [List.getD_eq_getElem?_getD, List.getD_eq_getElem?_getD, ← List.getLast?_eq_getElem?,
        ← List.head?_eq_getElem?, hc]
    · rw [Nat.mod_eq_zero_of_dvd h]
  rw [this]; simp

/-- **C27**, start of the ring: for those numbers of points the result does not depend on the
corner the ring starts with. -/
theorem C27_start_independent_partial (ang w : ℝ) (corners : List RPoint) (k : Nat) (hw : 0 < w)
    (hne : corners ≠ []) (hn : corners.length + 1 ∣ 2 ^ 64 ∨ corners.length + 1 ∣ 2 ^ 64 - 1) :
    nSwathModified ang w [closeUp (corners.rotate k)] = nSwathModified ang w [closeUp corners] := by
  have hlen : ∀ l : List RPoint, l ≠ [] → (closeUp l).length = l.length + 1 := by
    intro l hl
    cases l with
    | nil => contradiction
    | cons a l => simp [closeUp]
  have hcl : ∀ l : List RPoint, Closed (closeUp l) := by
    intro l
    cases l with
    | nil => rfl
    | cons a l => rw [Closed, closeUp, List.getLast?_concat]; rfl
  have hne' : corners.rotate k ≠ [] := by simpa using hne
  have hnil : ∀ l : List RPoint, l ≠ [] → closeUp l ≠ [] := by
    intro l hl h
    have := hlen l hl
    rw [h] at this; simp at this
  rw [C27_projection_partial ang w _ hw (by simpa using hnil _ hne') (by simpa using hcl _)
      (by simpa [hlen _ hne'] using hn),
    C27_projection_partial ang w _ hw (by simpa using hnil _ hne) (by simpa using hcl _)
      (by simpa [hlen _ hne] using hn)]
  simp [projectedLength_rotate]

/-- A rectangle (5 points) of height 3: its projected border is 6, with width 1 that is 3 swaths. -/
example : nSwathModified 0 1 (rect 3) = 3 := by
  rw [C27_projection_partial 0 1 (rect 3) one_pos (by simp [rect]) (by simp [rect, Closed])
    (by intro r hr; right; simp [rect] at hr; subst hr; norm_num)]
  norm_num [rect, projectedLength, across]

/-- A pentagon 2 high: a 4 × 1 rectangle with a gable. -/
def fiveCorners : List RPoint := [⟨0, 0, 0⟩, ⟨4, 0, 0⟩, ⟨4, 1, 0⟩, ⟨2, 2, 0⟩, ⟨0, 1, 0⟩]

/-- **C27** is false: for a pentagon (6 points) the code adds the distance between the first and
the fourth point; the result is not the projected border, and starting the same ring at another
corner changes it. -/
theorem C27_wrong_for_six_points :
    projectedLength 0 (closeUp fiveCorners) / (2 * 1) = 2 ∧
    nSwathModified 0 1 [closeUp fiveCorners] = 3 ∧
    nSwathModified 0 1 [closeUp (fiveCorners.rotate 1)] = 5 / 2 := by
  refine ⟨?_, ?_, ?_⟩
  · norm_num [projectedLength, closeUp, fiveCorners, across]
  · rw [C27_exact_value 0 1 _ one_pos (by simp [closeUp, fiveCorners])
      (by simp [closeUp, fiveCorners])]
    norm_num [projectedLength, closeUp, fiveCorners, across, ringPoint]
  · rw [C27_exact_value 0 1 _ one_pos (by simp [closeUp, fiveCorners, List.rotate])
      (by simp [closeUp, fiveCorners, List.rotate])]
    norm_num [projectedLength, closeUp, fiveCorners, across, ringPoint, List.rotate]

/-! ## C28 -/

/-- What `Overlaps` computes: only the pairs of swaths `i`, `j` (numbered from 0) with
`i + j + 1 ≥ n` are counted. -/
theorem C28_exact_value {A : Type} (inter : A → A → ℝ) (covered : Nat → A) (n : Nat)
    (polyArea : ℝ) :
    overlaps inter covered n polyArea = .ok ((∑ i ∈ Finset.range n, ∑ j ∈ Finset.range i,
      if n ≤ i + j + 1 then inter (covered i) (covered j) else 0) / polyArea) := by
  unfold overlaps
  rw [overlapOuter_ok inter covered n n [] 0 le_rfl (by simp), Outcome.ok_bind, Outcome.pure_eq,
    zero_add]
  congr 2
  rw [← Finset.sum_range_reflect]
  apply Finset.sum_congr rfl
  intro i hi
  have hi := Finset.mem_range.1 hi
  rw [← Finset.sum_range_reflect (n := i)]
  rw [show n - 1 - (n - 1 - i) = i by omega]
  rw [← Finset.sum_filter_add_sum_filter_not (Finset.range i) (fun k => k < 2 * i + 1 - n),
    Finset.sum_eq_zero (s := (Finset.range i).filter fun k => ¬ k < 2 * i + 1 - n), add_zero]
  · have hf : (Finset.range i).filter (fun k => k < 2 * i + 1 - n) = Finset.range (2 * i + 1 - n) := by
      ext k; simp only [Finset.mem_filter, Finset.mem_range]; omega
    rw [hf, show n - (n - 1 - i) - (n - 1 - i + 1) = 2 * i + 1 - n by omega]
    apply Finset.sum_congr rfl
    intro k hk
    have hk := Finset.mem_range.1 hk
    rw [if_pos (by omega)]
    congr 2
    omega
  · intro k hk
    simp only [Finset.mem_filter, Finset.mem_range] at hk
    rw [if_neg (by omega)]

/-- **C28** (part that holds): if swaths `i ≠ j` with `i + j + 1 < n` do not overlap — in
particular for at most two swaths — the result is the overlap of all pairs over the area of the
field.  Missing: overlaps between the swaths of the first half (`C28_pairs_missing`). -/
theorem C28_all_pairs_partial {A : Type} (inter : A → A → ℝ) (covered : Nat → A) (n : Nat)
    (polyArea : ℝ)
    (h : ∀ i j, j < i → i < n → i + j + 1 < n → inter (covered i) (covered j) = 0) :
    overlaps inter covered n polyArea = .ok (pairSum inter covered n / polyArea) := by
  rw [C28_exact_value]
  congr 2
  apply Finset.sum_congr rfl
  intro i hi
  apply Finset.sum_congr rfl
  intro j hj
  split_ifs with hij
  · rfl
  · exact (h i j (Finset.mem_range.1 hj) (Finset.mem_range.1 hi) (by omega)).symm

/-- Two swaths: the hypothesis holds trivially. -/
example (inter : Nat → Nat → ℝ) :
    overlaps inter id 2 4 = .ok (pairSum inter id 2 / 4) :=
  C28_all_pairs_partial inter id 2 4 (by intro i j h1 h2 h3; omega)

/-- **C28** is false: with three swaths the overlap of the first two is not counted. -/
theorem C28_pairs_missing :
    ∃ (inter : Nat → Nat → ℝ) (covered : Nat → Nat), (∀ a b, inter a b = inter b a) ∧
      pairSum inter covered 3 / 4 = 1 / 4 ∧ overlaps inter covered 3 4 = .ok 0 := by
  refine ⟨fun a b => if a + b = 1 then (1 : ℝ) else 0, id, ?_, ?_, ?_⟩
  · intro a b; simp only [Nat.add_comm]
  · norm_num [pairSum, Finset.sum_range_succ, Finset.sum_range_zero]
    omega
  · rw [C28_exact_value]
    norm_num [Finset.sum_range_succ, Finset.sum_range_zero]

/-! ## C29 -/

theorem deeper_mono (field : Set RPoint) {d e : ℝ} (h : d ≤ e) :
    deeperThan field e ⊆ deeperThan field d := fun _ hp => ⟨hp.1, fun q hq => h.trans (hp.2 q hq)⟩

theorem deeper_field {s t : Set RPoint} (h : s ⊆ t) (d : ℝ) : deeperThan s d ⊆ deeperThan t d :=
  fun _ hp => ⟨h hp.1, fun q hq => hp.2 q fun hs => hq (h hs)⟩

theorem abs_x_le_pdist (p q : RPoint) : |p.x - q.x| ≤ pdist p q := by
  refine abs_le_of_sq_le_sq ?_ (pdist_nonneg _ _)
  rw [pdist_sq]
  nlinarith [sq_nonneg (p.y - q.y)]

theorem abs_y_le_pdist (p q : RPoint) : |p.y - q.y| ≤ pdist p q := by
  refine abs_le_of_sq_le_sq ?_ (pdist_nonneg _ _)
  rw [pdist_sq]
  nlinarith [sq_nonneg (p.x - q.x)]

theorem pdist_same_y (a b y z : ℝ) : pdist (⟨a, y, z⟩ : RPoint) ⟨b, y, z⟩ = |a - b| := by
  rw [pdist, ← Real.sqrt_sq_eq_abs]
  congr 1
  ring

theorem pdist_same_x (x a b z : ℝ) : pdist (⟨x, a, z⟩ : RPoint) ⟨x, b, z⟩ = |a - b| := by
  rw [pdist, ← Real.sqrt_sq_eq_abs]
  congr 1
  ring

theorem deeper_box (x₀ x₁ y₀ y₁ d : ℝ) (hd : 0 < d) :
    deeperThan (box x₀ x₁ y₀ y₁) d = box (x₀ + d) (x₁ - d) (y₀ + d) (y₁ - d) := by
  ext p
  constructor
  · rintro ⟨⟨h1, h2, h3, h4⟩, h⟩
    refine ⟨le_of_forall_pos_le_add fun ε hε => ?_, le_of_forall_pos_le_add fun ε hε => ?_,
      le_of_forall_pos_le_add fun ε hε => ?_, le_of_forall_pos_le_add fun ε hε => ?_⟩
    · have := h ⟨x₀ - ε, p.y, p.z⟩ fun hb => by linarith [hb.1]
      rw [show p = ⟨p.x, p.y, p.z⟩ from rfl, pdist_same_y, abs_of_nonneg (by linarith)] at this
      linarith
    · have := h ⟨x₁ + ε, p.y, p.z⟩ fun hb => by linarith [hb.2.1]
      rw [show p = ⟨p.x, p.y, p.z⟩ from rfl, pdist_same_y, abs_of_nonpos (by linarith)] at this
      linarith
    · have := h ⟨p.x, y₀ - ε, p.z⟩ fun hb => by linarith [hb.2.2.1]
      rw [show p = ⟨p.x, p.y, p.z⟩ from rfl, pdist_same_x, abs_of_nonneg (by linarith)] at this
      linarith
    · have := h ⟨p.x, y₁ + ε, p.z⟩ fun hb => by linarith [hb.2.2.2]
      rw [show p = ⟨p.x, p.y, p.z⟩ from rfl, pdist_same_x, abs_of_nonpos (by linarith)] at this
      linarith
  · rintro ⟨h1, h2, h3, h4⟩
    refine ⟨⟨by linarith, by linarith, by linarith, by linarith⟩, fun q hq => ?_⟩
    by_contra hlt
    have hx := abs_lt.1 ((abs_x_le_pdist p q).trans_lt (not_le.1 hlt))
    have hy := abs_lt.1 ((abs_y_le_pdist p q).trans_lt (not_le.1 hlt))
    exact hq ⟨by linarith, by linarith, by linarith, by linarith⟩

theorem between {a b lo hi t : ℝ} (ha : lo ≤ a ∧ a ≤ hi) (hb : lo ≤ b ∧ b ≤ hi) (h0 : 0 ≤ t) (h1 : t ≤ 1) :
    lo ≤ a + t * (b - a) ∧ a + t * (b - a) ≤ hi := by
  constructor
  · nlinarith [mul_nonneg h0 (sub_nonneg.2 hb.1), mul_nonneg (sub_nonneg.2 h1) (sub_nonneg.2 ha.1)]
  · nlinarith [mul_nonneg h0 (sub_nonneg.2 hb.2), mul_nonneg (sub_nonneg.2 h1) (sub_nonneg.2 ha.2)]

theorem box_convex (x₀ x₁ y₀ y₁ : ℝ) : IsConvex (box x₀ x₁ y₀ y₁) := by
  rintro a ⟨a1, a2, a3, a4⟩ b ⟨b1, b2, b3, b4⟩ c ⟨t, h0, h1, hx, hy⟩
  obtain ⟨u1, u2⟩ := between ⟨a1, a2⟩ ⟨b1, b2⟩ h0 h1
  obtain ⟨v1, v2⟩ := between ⟨a3, a4⟩ ⟨b3, b4⟩ h0 h1
  exact ⟨by rw [hx]; exact u1, by rw [hx]; exact u2, by rw [hy]; exact v1, by rw [hy]; exact v2⟩

/-- Growing by squares: a buffer as assumed. -/
theorem squareBuffer_isMitreBuffer : IsMitreBuffer fun r d =>
    if d < 0 then deeperThan r (-d) else {p | ∃ q ∈ r, |p.x - q.x| ≤ d ∧ |p.y - q.y| ≤ d} where
  deep r d hd := by simp [hd]
  rest r d hd := by
    simp only [Left.neg_neg_iff, hd, if_true, neg_neg]
    exact deeper_mono _ (by linarith)
  mono r d e hd he := by
    simp only [Left.neg_neg_iff, hd, hd.trans_le he, if_true, neg_neg]
    exact deeper_mono _ he
  convex r d e _ hd _ _ := by simp [hd]
  grow r d hd := by
    rw [if_neg (by linarith)]
    rintro p ⟨q, hq, h⟩
    exact ⟨q, hq, (abs_x_le_pdist p q).trans h, (abs_y_le_pdist p q).trans h⟩
  box x₀ x₁ y₀ y₁ d hx hy hd := by
    rw [if_neg (by linarith)]
    ext p
    constructor
    · rintro ⟨q, ⟨h1, h2, h3, h4⟩, hx, hy⟩
      rw [abs_le] at hx hy
      exact ⟨by linarith, by linarith, by linarith, by linarith⟩
    · rintro ⟨h1, h2, h3, h4⟩
      refine ⟨⟨max x₀ (min p.x x₁), max y₀ (min p.y y₁), p.z⟩, ⟨le_max_left _ _, max_le hx.le (min_le_right _ _),
        le_max_left _ _, max_le hy.le (min_le_right _ _)⟩, ?_, ?_⟩ <;> rw [abs_le] <;> constructor <;>
        rcases max_cases x₀ (min p.x x₁) with ⟨e1, e2⟩ | ⟨e1, e2⟩ <;>
        rcases min_cases p.x x₁ with ⟨e3, e4⟩ | ⟨e3, e4⟩ <;>
        rcases max_cases y₀ (min p.y y₁) with ⟨f1, f2⟩ | ⟨f1, f2⟩ <;>
        rcases min_cases p.y y₁ with ⟨f3, f4⟩ | ⟨f3, f4⟩ <;>
        simp only [e1, e3, f1, f3] at * <;> linarith
  empty d := by
    split_ifs
    · ext p; simp [deeperThan]
    · ext p; simp

/-- **C29**, from outside to inside: `n` rings; the `i`-th one encloses only points at least `(i + 1/2) w` deep in
the field, all that are six times as deep, and what is left of the field by `generateHeadlandArea`; in a convex
field of which something deeper is left it encloses exactly the points `(i + 1/2) w` deep. -/
theorem C29_out_to_in (buffer : Set RPoint → ℝ → Set RPoint) (hB : IsMitreBuffer buffer) (field : Set RPoint)
    (w : ℝ) (n : Int) (hw : 0 < w) :
    (generateHeadlandSwaths buffer field w n true).length = n.toNat ∧
    ∀ i (h : i < (generateHeadlandSwaths buffer field w n true).length),
      (generateHeadlandSwaths buffer field w n true)[i] ⊆ deeperThan field (((i : ℝ) + 1 / 2) * w) ∧
      deeperThan field (6 * (((i : ℝ) + 1 / 2) * w)) ⊆ (generateHeadlandSwaths buffer field w n true)[i] ∧
      generateHeadlandArea buffer field w n ⊆ (generateHeadlandSwaths buffer field w n true)[i] ∧
      (IsConvex field → ∀ e, ((i : ℝ) + 1 / 2) * w < e → (deeperThan field e).Nonempty →
        (generateHeadlandSwaths buffer field w n true)[i] = deeperThan field (((i : ℝ) + 1 / 2) * w)) := by
  have hlen : (generateHeadlandSwaths buffer field w n true).length = n.toNat := by
    simp [generateHeadlandSwaths]
  refine ⟨hlen, ?_⟩
  intro i hi
  have e : (generateHeadlandSwaths buffer field w n true)[i] = buffer field (-(((i : ℝ) + 1 / 2) * w)) := by
    simp only [generateHeadlandSwaths, if_true, List.getElem_map, List.getElem_range]
    rw [neg_mul, mul_comm]
  have hpos : 0 < ((i : ℝ) + 1 / 2) * w := by positivity
  rw [hlen] at hi
  rw [e]
  refine ⟨hB.deep _ _ hpos, hB.rest _ _ hpos, ?_, fun hc d hd hne => hB.convex _ _ d hc hpos hd hne⟩
  unfold generateHeadlandArea
  have hin : (i : Int) + 1 ≤ n := by omega
  have hin' : (i : ℝ) + 1 ≤ (n : ℝ) := by exact_mod_cast hin
  rw [neg_mul]
  exact hB.mono _ _ _ hpos (by nlinarith)

/-- **C29**, what is left: the field within the headland is the same for a headland of `n` swaths of width `w` and
for one of width `n w`; it consists of points at least that deep in the field and contains all that are six times
as deep; it is exactly the points that deep in a convex field of which something deeper is left; a wider headland
leaves no more. -/
theorem C29_remaining (buffer : Set RPoint → ℝ → Set RPoint) (hB : IsMitreBuffer buffer) (field : Set RPoint)
    (w : ℝ) (n : Int) (hw : 0 < w) (hn : 0 < n) :
    generateHeadlandArea buffer field w n = generateHeadlands buffer field (w * n) ∧
    generateHeadlands buffer field (w * n) ⊆ deeperThan field (w * n) ∧
    deeperThan field (6 * (w * n)) ⊆ generateHeadlands buffer field (w * n) ∧
    (IsConvex field → ∀ e, w * n < e → (deeperThan field e).Nonempty →
      generateHeadlands buffer field (w * n) = deeperThan field (w * n)) ∧
    ∀ d, w * n ≤ d → generateHeadlands buffer field d ⊆ generateHeadlands buffer field (w * n) := by
  have hn' : (0 : ℝ) < n := by exact_mod_cast hn
  have hpos : 0 < w * n := mul_pos hw hn'
  refine ⟨?_, hB.deep _ _ hpos, hB.rest _ _ hpos, fun hc e he hne => hB.convex _ _ e hc hpos he hne,
    fun d hd => hB.mono _ _ _ hpos hd⟩
  rw [generateHeadlandArea, generateHeadlands, neg_mul]

theorem growRings_length {R : Type} (buffer : R → ℝ → R) (w : ℝ) (k : Nat) (r : R) :
    (growRings buffer w k r).length = k := by
  induction k generalizing r with
  | zero => rfl
  | succ k ih => simp [growRings, ih]

theorem grow_extensive {buffer : Set RPoint → ℝ → Set RPoint} (hB : IsMitreBuffer buffer) (r : Set RPoint)
    (w : ℝ) (hw : 0 < w) : r ⊆ buffer r w := fun p hp =>
  hB.grow r w hw ⟨p, hp, by rw [pdist_self]; exact hw.le⟩

theorem growRings_extensive {buffer : Set RPoint → ℝ → Set RPoint} (hB : IsMitreBuffer buffer)
    (w : ℝ) (hw : 0 < w) (k : Nat) : ∀ (r : Set RPoint), ∀ s ∈ growRings buffer w k r, r ⊆ s := by
  induction k with
  | zero => intro r s h; simp [growRings] at h
  | succ k ih =>
    intro r s hs
    rcases List.mem_cons.1 hs with rfl | hs
    · exact grow_extensive hB r w hw
    · exact (grow_extensive hB r w hw).trans (ih _ s hs)

/-- **C29**, from inside to outside (part that holds): for `n ≥ 1` there are `n` rings, the first one is the last
ring of the other direction, and all of them enclose what is left of the field.  Missing: the other rings, which
may leave the field (`C29_ring_leaves_field`), fields that are too small (`C29_directions_differ`), and `n = 0`
(`C29_zero_swaths_ring_outside`). -/
theorem C29_in_to_out_partial (buffer : Set RPoint → ℝ → Set RPoint) (hB : IsMitreBuffer buffer)
    (field : Set RPoint) (w : ℝ) (n : Nat) (hw : 0 < w) (hn : 1 ≤ n) :
    (generateHeadlandSwaths buffer field w n false).length = n ∧
    (generateHeadlandSwaths buffer field w n false).head?
      = (generateHeadlandSwaths buffer field w n true).getLast? ∧
    ∀ r ∈ generateHeadlandSwaths buffer field w n false, generateHeadlandArea buffer field w n ⊆ r := by
  have hn' : (1 : ℝ) ≤ n := by exact_mod_cast hn
  have hrem : generateHeadlandArea buffer field w n ⊆ buffer field (-w * (((n : Int) : ℝ) - 1 / 2)) := by
    rw [generateHeadlandArea, neg_mul, neg_mul]
    refine hB.mono _ _ _ ?_ ?_
    · push_cast
      nlinarith
    · nlinarith
  refine ⟨?_, ?_, ?_⟩
  · simp [generateHeadlandSwaths, growRings_length]; omega
  · obtain ⟨m, rfl⟩ : ∃ m, n = m + 1 := ⟨n - 1, by omega⟩
    simp only [generateHeadlandSwaths, Bool.false_eq_true, if_false, if_true, Int.toNat_natCast,
      List.range_succ, List.map_append, List.head?_cons, List.map_cons, List.map_nil, List.getLast?_append]
    simp only [List.getLast?_singleton, Option.some_or, Option.some.injEq]
    congr 1
    push_cast
    ring
  · intro r hr
    simp only [generateHeadlandSwaths, Bool.false_eq_true, if_false] at hr
    rcases List.mem_cons.1 hr with rfl | hr
    · exact hrem
    · exact hrem.trans (growRings_extensive hB w hw _ _ r hr)

theorem growRings_box {buffer : Set RPoint → ℝ → Set RPoint} (hB : IsMitreBuffer buffer) (x₀ x₁ y₀ y₁ w : ℝ)
    (hw : 0 < w) (k : Nat) : ∀ e : ℝ, 2 * e < x₁ - x₀ → 2 * e < y₁ - y₀ →
    growRings buffer w k (box (x₀ + e) (x₁ - e) (y₀ + e) (y₁ - e)) = (List.range k).map fun i : Nat =>
      box (x₀ + (e - (i + 1) * w)) (x₁ - (e - (i + 1) * w)) (y₀ + (e - (i + 1) * w)) (y₁ - (e - (i + 1) * w)) := by
  induction k with
  | zero => intro e _ _; rfl
  | succ k ih =>
    intro e hx hy
    have h1 : buffer (box (x₀ + e) (x₁ - e) (y₀ + e) (y₁ - e)) w
        = box (x₀ + (e - w)) (x₁ - (e - w)) (y₀ + (e - w)) (y₁ - (e - w)) := by
      rw [hB.box _ _ _ _ _ (by linarith) (by linarith) hw]
      congr 1 <;> ring
    rw [growRings, h1, ih (e - w) (by linarith) (by linarith), List.range_succ_eq_map, List.map_cons, List.map_map]
    congr 1
    · congr 1 <;> push_cast <;> ring
    · refine List.map_congr_left fun i _ => ?_
      simp only [Function.comp, Nat.succ_eq_add_one]
      congr 1 <;> push_cast <;> ring

/-- **C29** for rectangles along the axes that are wide enough: both directions give the same rings, rectangles
`w` apart. -/
theorem C29_rectangle_partial (buffer : Set RPoint → ℝ → Set RPoint) (hB : IsMitreBuffer buffer)
    (x₀ x₁ y₀ y₁ w : ℝ) (n : Nat) (hw : 0 < w) (hn : 1 ≤ n) (hx : 2 * ((n - 1 / 2) * w) < x₁ - x₀)
    (hy : 2 * ((n - 1 / 2) * w) < y₁ - y₀) :
    generateHeadlandSwaths buffer (box x₀ x₁ y₀ y₁) w n true
      = (List.range n).map (fun i : Nat => box (x₀ + (i + 1 / 2) * w) (x₁ - (i + 1 / 2) * w)
          (y₀ + (i + 1 / 2) * w) (y₁ - (i + 1 / 2) * w)) ∧
    generateHeadlandSwaths buffer (box x₀ x₁ y₀ y₁) w n false
      = (generateHeadlandSwaths buffer (box x₀ x₁ y₀ y₁) w n true).reverse := by
  have shrink : ∀ d : ℝ, 0 < d → 2 * d < x₁ - x₀ → 2 * d < y₁ - y₀ →
      buffer (box x₀ x₁ y₀ y₁) (-d) = box (x₀ + d) (x₁ - d) (y₀ + d) (y₁ - d) := by
    intro d hd h1 h2
    obtain ⟨e, he1, he2⟩ : ∃ e, d < e ∧ 2 * e ≤ min (x₁ - x₀) (y₁ - y₀) :=
      ⟨min (x₁ - x₀) (y₁ - y₀) / 2, by linarith [lt_min h1 h2], by linarith⟩
    rw [hB.convex _ d e (box_convex _ _ _ _) hd he1, deeper_box _ _ _ _ _ hd]
    have h3 := he2.trans (min_le_left _ _)
    have h4 := he2.trans (min_le_right _ _)
    rw [deeper_box _ _ _ _ _ (hd.trans he1)]
    exact ⟨⟨x₀ + e, y₀ + e, 0⟩, le_rfl, by simp only; linarith, le_rfl, by simp only; linarith⟩
  have hout : generateHeadlandSwaths buffer (box x₀ x₁ y₀ y₁) w n true
      = (List.range n).map (fun i : Nat => box (x₀ + (i + 1 / 2) * w) (x₁ - (i + 1 / 2) * w)
          (y₀ + (i + 1 / 2) * w) (y₁ - (i + 1 / 2) * w)) := by
    simp only [generateHeadlandSwaths, if_true, Int.toNat_natCast]
    refine List.map_congr_left fun i hi => ?_
    have hi : (i : ℝ) + 1 ≤ n := by exact_mod_cast List.mem_range.1 hi
    rw [neg_mul, mul_comm w]
    exact shrink _ (by positivity) (by nlinarith) (by nlinarith)
  refine ⟨hout, ?_⟩
  rw [hout]
  obtain ⟨m, rfl⟩ : ∃ m, n = m + 1 := ⟨n - 1, by omega⟩
  simp only [generateHeadlandSwaths, Bool.false_eq_true, if_false, Int.toNat_natCast, Nat.add_sub_cancel]
  have h1 : (-w * ((((m + 1 : ℕ) : Int) : ℝ) - 1 / 2)) = -(((m + 1 : ℕ) - 1 / 2) * w) := by push_cast; ring
  have hm : (1 : ℝ) ≤ (m + 1 : ℕ) := by exact_mod_cast hn
  rw [h1, shrink _ (by nlinarith) hx hy, growRings_box hB _ _ _ _ _ hw _ _ hx hy]
  refine List.ext_getElem (by simp) fun i hi _ => ?_
  rw [List.getElem_reverse, List.getElem_map, List.getElem_range]
  simp only [List.length_map, List.length_range]
  have key : ((m + 1 - 1 - i : ℕ) : ℝ) = m - i := by
    rw [Nat.add_sub_cancel, Nat.cast_sub (by simp at hi; omega)]
  cases i with
  | zero =>
    rw [List.getElem_cons_zero, key]
    congr 1 <;> push_cast <;> ring
  | succ i =>
    rw [List.getElem_cons_succ, List.getElem_map, List.getElem_range, key]
    congr 1 <;> push_cast <;> ring

/-- Three rings of width 2 in a rectangle of 20 times 30. -/
example : ∃ buffer, IsMitreBuffer buffer ∧
    generateHeadlandSwaths buffer (box 0 20 0 30) 2 (3 : ℕ) false = [box 5 15 5 25, box 3 17 3 27, box 1 19 1 29] := by
  obtain ⟨h1, h2⟩ := C29_rectangle_partial _ squareBuffer_isMitreBuffer 0 20 0 30 2 3 (by norm_num) (by norm_num)
    (by norm_num) (by norm_num)
  refine ⟨_, squareBuffer_isMitreBuffer, ?_⟩
  rw [h2, h1]
  norm_num [List.range_succ]

example : (∃ buffer, IsMitreBuffer buffer ∧ (generateHeadlandSwaths buffer {p | 0 ≤ p.x} 2 (3 : ℕ) false).length = 3 ∧
    (generateHeadlandSwaths buffer {p | 0 ≤ p.x} 2 3 true).length = 3) :=
  ⟨_, squareBuffer_isMitreBuffer,
   (C29_in_to_out_partial _ squareBuffer_isMitreBuffer {p | 0 ≤ p.x} 2 3 (by norm_num) (by norm_num)).1,
   (C29_out_to_in _ squareBuffer_isMitreBuffer {p | 0 ≤ p.x} 2 3 (by norm_num)).1⟩

/-- One ring: both directions agree. -/
theorem C29_one_ring_partial (buffer : Set RPoint → ℝ → Set RPoint) (field : Set RPoint) (w : ℝ) :
    generateHeadlandSwaths buffer field w 1 true = (generateHeadlandSwaths buffer field w 1 false).reverse := by
  simp [generateHeadlandSwaths, growRings]
  norm_num

/-- **C29** is false: with two rings of width 1 in a square of side 2 the direction from outside to
inside has a ring around the centre, the other direction returns only empty rings. -/
theorem C29_directions_differ (buffer : Set RPoint → ℝ → Set RPoint) (hB : IsMitreBuffer buffer) :
    (∃ r ∈ generateHeadlandSwaths buffer (box 0 2 0 2) 1 2 true, (⟨1, 1, 0⟩ : RPoint) ∈ r) ∧
    ∀ r ∈ generateHeadlandSwaths buffer (box 0 2 0 2) 1 2 false, r = ∅ := by
  have hempty : buffer (box 0 2 0 2) (-1 * (((2 : Int) : ℝ) - 1 / 2)) = ∅ := by
    rw [neg_mul]
    refine Set.subset_empty_iff.1 ((hB.deep _ _ (by norm_num)).trans ?_)
    rw [deeper_box _ _ _ _ _ (by norm_num)]
    rintro p ⟨h1, h2, -⟩
    norm_num at h1 h2
    exact absurd (h1.trans h2) (by norm_num)
  constructor
  · refine ⟨buffer (box 0 2 0 2) (-1 * (((0 : Nat) : ℝ) + 1 / 2)), ?_, ?_⟩
    · simp [generateHeadlandSwaths, List.range_succ]
    · rw [neg_mul, hB.convex _ _ 1 (box_convex _ _ _ _) (by norm_num) (by norm_num), deeper_box _ _ _ _ _ (by norm_num)]
      · exact ⟨by norm_num, by norm_num, by norm_num, by norm_num⟩
      · rw [deeper_box _ _ _ _ _ (by norm_num)]
        exact ⟨⟨1, 1, 0⟩, by norm_num, by norm_num, by norm_num, by norm_num⟩
  · intro r hr
    simp only [generateHeadlandSwaths, Bool.false_eq_true, if_false, hempty,
      show (2 : Int).toNat - 1 = 1 from rfl, growRings, hB.empty] at hr
    simpa using hr

/-- The square of side 10 without a corner. -/
def cutSquare : Set RPoint := {p | p ∈ box 0 10 0 10 ∧ p.x + p.y ≤ 19}

theorem deeper_cutSquare (d : ℝ) (hd : 2 ≤ d) : deeperThan cutSquare d = box d (10 - d) d (10 - d) := by
  have hd0 : 0 < d := by linarith
  have hb := deeper_box 0 10 0 10 d hd0
  rw [zero_add] at hb
  refine Set.Subset.antisymm ((deeper_field (fun p hp => hp.1) d).trans hb.subset) fun p hp => ?_
  have hp' := hb.superset hp
  obtain ⟨h1, h2, h3, h4⟩ := hp
  refine ⟨⟨hp'.1, by linarith⟩, fun q hq => ?_⟩
  by_cases hqb : q ∈ box 0 10 0 10
  · have hs : 19 < q.x + q.y := not_le.1 fun h => hq ⟨hqb, h⟩
    refine abs_le_of_sq_le_sq' ?_ (pdist_nonneg _ _) |>.2
    rw [pdist_sq]
    nlinarith [sq_nonneg ((q.x - p.x) - (q.y - p.y))]
  · exact hp'.2 q hqb

/-- **C29** is false: from inside to outside rings may leave the field.  Three rings of width 0.8 in a square of
side 10 without a corner: the innermost ring has no trace of the missing corner, so the outermost one has a
corner at (9.6, 9.6), outside of the field. -/
theorem C29_ring_leaves_field (buffer : Set RPoint → ℝ → Set RPoint) (hB : IsMitreBuffer buffer) :
    IsConvex cutSquare ∧
    ∃ r ∈ generateHeadlandSwaths buffer cutSquare (4 / 5) (3 : ℕ) false,
      (⟨48 / 5, 48 / 5, 0⟩ : RPoint) ∈ r ∧ (⟨48 / 5, 48 / 5, 0⟩ : RPoint) ∉ cutSquare := by
  have hconv : IsConvex cutSquare := by
    rintro a ⟨ha, ha'⟩ b ⟨hb, hb'⟩ c hc
    refine ⟨box_convex _ _ _ _ a ha b hb c hc, ?_⟩
    obtain ⟨t, h0, h1, hx, hy⟩ := hc
    rw [hx, hy]
    nlinarith
  refine ⟨hconv, box (2 / 5) (48 / 5) (2 / 5) (48 / 5), ?_, ⟨by norm_num, by norm_num, by norm_num, by norm_num⟩, ?_⟩
  · have h1 : buffer cutSquare (-(4 / 5) * ((((3 : ℕ) : Int) : ℝ) - 1 / 2)) = box 2 8 2 8 := by
      rw [show (-(4 / 5) * ((((3 : ℕ) : Int) : ℝ) - 1 / 2)) = -2 by norm_num,
        hB.convex _ 2 3 hconv (by norm_num) (by norm_num), deeper_cutSquare 2 le_rfl]
      · norm_num
      · rw [deeper_cutSquare 3 (by norm_num)]
        exact ⟨⟨5, 5, 0⟩, by norm_num, by norm_num, by norm_num, by norm_num⟩
    simp only [generateHeadlandSwaths, Bool.false_eq_true, if_false, h1, Int.toNat_natCast]
    simp only [show 3 - 1 = 2 from rfl, growRings]
    rw [hB.box _ _ _ _ _ (by norm_num) (by norm_num) (by norm_num),
      hB.box _ _ _ _ _ (by norm_num) (by norm_num) (by norm_num)]
    norm_num
  · rintro ⟨-, h⟩
    norm_num at h

/-- **C29** is false for no swaths: from inside to outside there is still one ring, and it encloses everything
within half a width around the field. -/
theorem C29_zero_swaths_ring_outside (buffer : Set RPoint → ℝ → Set RPoint) (hB : IsMitreBuffer buffer)
    (field : Set RPoint) (w : ℝ) (hw : 0 < w) :
    generateHeadlandSwaths buffer field w 0 true = [] ∧
    ∃ r, generateHeadlandSwaths buffer field w 0 false = [r] ∧ {p | ∃ q ∈ field, pdist p q ≤ w / 2} ⊆ r := by
  constructor
  · simp [generateHeadlandSwaths]
  · refine ⟨buffer field (w / 2), ?_, hB.grow _ _ (by linarith)⟩
    simp only [generateHeadlandSwaths, Bool.false_eq_true, if_false]
    rw [show -w * (((0 : Int) : ℝ) - 1 / 2) = w / 2 by push_cast; ring]
    rfl

/-! ## C67 -/

theorem swaths_eq (o : SGObjective) (l : Swaths ℝ) : o.swaths l = (l.map o.swath).sum := by
  rw [SGObjective.swaths, foldl_add_eq, zero_add]

/-- **C67.** The cost of a collection of swaths is the sum of the costs of its swaths, groups add
up, and with a field given the cost of the field is added once per swath. -/
theorem C67_costs_add_up (o : SGObjective) (c : Cell ℝ) (cs : Cells ℝ) (l : Swaths ℝ)
    (g : SwathsByCells ℝ) :
    o.swaths l = (l.map o.swath).sum ∧
    o.swathsByCells g = ((List.flatten g).map o.swath).sum ∧
    o.cellSwaths c l = l.length * o.cell c + (l.map o.swath).sum ∧
    o.cellsSwaths cs l = l.length * o.cells cs + (l.map o.swath).sum ∧
    o.cellSwathsByCells c g = (List.flatten g).length * o.cell c + ((List.flatten g).map o.swath).sum ∧
    o.cellsSwathsByCells cs g = (List.flatten g).length * o.cells cs + ((List.flatten g).map o.swath).sum := by
  have h1 : ∀ l : Swaths ℝ, o.cellSwaths c l = l.length * o.cell c + (l.map o.swath).sum := by
    intro l
    rw [SGObjective.cellSwaths, foldl_add_eq, zero_add]
    induction l with
    | nil => simp
    | cons s l ih => simp [ih, SGObjective.cellSwath]; ring
  have h2 : ∀ l : Swaths ℝ, o.cellsSwaths cs l = l.length * o.cells cs + (l.map o.swath).sum := by
    intro l
    rw [SGObjective.cellsSwaths, foldl_add_eq, zero_add]
    induction l with
    | nil => simp
    | cons s l ih => simp [ih, SGObjective.cellsSwath]; ring
  refine ⟨swaths_eq o l, ?_, h1 l, h2 l, ?_, ?_⟩
  · rw [SGObjective.swathsByCells, foldl_add_eq, zero_add]
    induction g with
    | nil => simp
    | cons s g ih => simp [ih, swaths_eq]
  · rw [SGObjective.cellSwathsByCells, foldl_add_eq, zero_add]
    induction g with
    | nil => simp
    | cons s g ih => simp [ih, h1]; ring
  · rw [SGObjective.cellsSwathsByCells, foldl_add_eq, zero_add]
    induction g with
    | nil => simp
    | cons s g ih => simp [ih, h2]; ring

/-- **C67**, several cells: the cost is the sum of the costs of the cells, except that it is zero if all cells are
empty. -/
theorem C67_cells (o : SGObjective) (cs : Cells ℝ) :
    ((∃ c ∈ cs, c.flatten ≠ []) → o.cells cs = (cs.map fun c => o.angle 0 0 c).sum) ∧
    ((∀ c ∈ cs, c.flatten = []) → o.cells cs = 0) := by
  constructor
  · intro h
    rw [SGObjective.cells, iter_of_exists h, foldl_add_eq, zero_add]
    rfl
  · intro h
    rw [SGObjective.cells, iter_of_empty h]
    rfl

example : SGObjective.cells ⟨fun _ => 1, fun _ _ _ => 7⟩ [rect 3, []] = 14 ∧
    SGObjective.cells ⟨fun _ => 1, fun _ _ _ => 7⟩ [[], []] = 0 := by
  refine ⟨?_, (C67_cells _ _).2 (by simp)⟩
  rw [(C67_cells ⟨fun _ => 1, fun _ _ _ => 7⟩ [rect 3, []]).1 ⟨_, List.mem_cons_self .., by simp [rect]⟩]
  norm_num

/-- **C67** for the two simple objectives: `NSwath` counts swaths (with or without the field,
and its own overload for collections agrees), `SwathLength` adds the lengths. -/
theorem C67_count_and_length (c : Cell ℝ) (l : Swaths ℝ) (g : SwathsByCells ℝ) :
    nSwath.cellSwaths c l = l.length ∧ nSwathSwaths l = l.length ∧ nSwath.swaths l = l.length ∧
    nSwath.cellSwathsByCells c g = (List.flatten g).length ∧
    swathLength.cellSwaths c l = (l.map fun s => lineLength s.path).sum ∧
    swathLength.swathsByCells g = ((List.flatten g).map fun s => lineLength s.path).sum := by
  have hone : ∀ l : Swaths ℝ, (l.map nSwath.swath).sum = l.length := by
    intro l
    induction l with
    | nil => simp
    | cons s l ih => simp [nSwath]; ring
  obtain ⟨a1, a2, a3, a4, a5, a6⟩ := C67_costs_add_up nSwath c [] l g
  obtain ⟨b1, b2, b3, b4, b5, b6⟩ := C67_costs_add_up swathLength c [] l g
  refine ⟨?_, rfl, ?_, ?_, ?_, ?_⟩
  · rw [a3, hone]; simp [SGObjective.cell, nSwath]
  · rw [a1, hone]
  · rw [a5, hone]; simp [SGObjective.cell, nSwath]
  · rw [b3]; simp [SGObjective.cell, swathLength]
  · rw [b2]; simp [swathLength]

example : nSwath.cellSwaths (rect 3) [Swath.default, Swath.default] = 2 := by
  have := (C67_count_and_length (rect 3) [Swath.default, Swath.default] []).1
  rw [this]; norm_num

/-! ## C68 -/

/-- **C68**, with at least one swath: the field coverage is the share of the field in the buffer of the swaths
(half the width of the first one), and a fraction; for straight swaths it is the share beside the swaths.  Missing:
the empty set of swaths (`C68_thin_field_ub`). -/
theorem C68_coverage_is_fraction_partial (area : Set RPoint → ℝ) (hA : IsArea area)
    (field : Set RPoint) (h0 : 0 < area field) (buffer : ℝ → List (List RPoint) → Set RPoint)
    (hbuf : ∀ d ls, (∀ l ∈ ls, Straight l) → buffer d ls = besideLines d ls)
    (coveredArea : ℝ → List (List RPoint) → ℝ)
    (hcov : ∀ d ls, coveredArea d ls = area (field ∩ buffer d ls)) (s : Swath ℝ) (l : Swaths ℝ) :
    ∃ v, fieldCoverage coveredArea (area field) (s :: l) = .ok v ∧
      v * area field = area (field ∩ buffer (s.width / 2) ((s :: l).map fun t => t.path)) ∧
      0 ≤ v ∧ v ≤ 1 ∧
      ((∀ t ∈ s :: l, Straight t.path) →
        v * area field = area (field ∩ besideLines (s.width / 2) ((s :: l).map fun t => t.path))) := by
  have hv : area (field ∩ buffer (s.width / 2) ((s :: l).map Swath.path)) / area field * area field
      = area (field ∩ buffer (s.width / 2) ((s :: l).map fun t => t.path)) := div_mul_cancel₀ _ h0.ne'
  refine ⟨_, rfl, ?_, ?_, ?_, ?_⟩
  · rw [hcov, hv]
  · exact div_nonneg (hcov _ _ ▸ hA.nonneg _) h0.le
  · rw [div_le_one h0, hcov, hA.parts field (buffer (s.width / 2) ((s :: l).map Swath.path))]
    linarith [hA.nonneg (field \ buffer (s.width / 2) ((s :: l).map Swath.path))]
  · intro hst
    rw [hcov, hv, hbuf]
    intro p hp
    obtain ⟨t, ht, rfl⟩ := List.mem_map.1 hp
    exact hst t ht

/-- **C68**, headland objective: the value is the share of the field that remains, a fraction. -/
theorem C68_headland_is_fraction (area : Set RPoint → ℝ) (hA : IsArea area) (field rem : Set RPoint)
    (h0 : 0 < area field) :
    hgCost (area (field \ rem)) (area field) * area field = area (field ∩ rem) ∧
    0 ≤ hgCost (area (field \ rem)) (area field) ∧ hgCost (area (field \ rem)) (area field) ≤ 1 := by
  have hp := hA.parts field rem
  have e : hgCost (area (field \ rem)) (area field) = area (field ∩ rem) / area field := by
    unfold hgCost
    rw [eq_div_iff h0.ne', sub_mul, div_mul_cancel₀ _ h0.ne']
    linarith
  rw [e]
  refine ⟨div_mul_cancel₀ _ h0.ne', div_nonneg (hA.nonneg _) h0.le, ?_⟩
  rw [div_le_one h0]
  linarith [hA.nonneg (field \ rem)]

open Classical in
/-- An area for the examples: three quarters lie at the point 0/0 and one quarter at 9/0. -/
noncomputable def twoPlots (s : Set RPoint) : ℝ :=
  (if (⟨0, 0, 0⟩ : RPoint) ∈ s then 3 / 4 else 0) + if (⟨9, 0, 0⟩ : RPoint) ∈ s then 1 / 4 else 0

theorem twoPlots_isArea : IsArea twoPlots where
  nonneg s := by unfold twoPlots; split_ifs <;> norm_num
  parts s t := by
    unfold twoPlots
    by_cases a : (⟨0, 0, 0⟩ : RPoint) ∈ s <;> by_cases b : (⟨0, 0, 0⟩ : RPoint) ∈ t <;>
      by_cases c : (⟨9, 0, 0⟩ : RPoint) ∈ s <;> by_cases d : (⟨9, 0, 0⟩ : RPoint) ∈ t <;>
      simp [a, b, c, d] <;> norm_num

/-- A swath of width 2 along the first plot covers three quarters. -/
example (t : Swath ℝ) (hw : t.width = 2) (hp : t.path = [⟨-1, 1, 0⟩, ⟨1, 1, 0⟩]) :
    ∃ v, fieldCoverage (fun d ls => twoPlots (Set.univ ∩ besideLines d ls))
      (twoPlots Set.univ) [t] = .ok v ∧ v = 3 / 4 := by
  have hone : twoPlots Set.univ = 1 := by norm_num [twoPlots]
  obtain ⟨v, h1, h2, -⟩ := C68_coverage_is_fraction_partial twoPlots twoPlots_isArea Set.univ
    (by rw [hone]; exact one_pos) besideLines (fun _ _ _ => rfl) (fun d ls => twoPlots (Set.univ ∩ besideLines d ls))
    (fun _ _ => rfl) t []
  refine ⟨v, h1, ?_⟩
  rw [hone, mul_one] at h2
  rw [h2]
  have hin : (⟨0, 0, 0⟩ : RPoint) ∈ besideLines (t.width / 2) [t.path] := by
    refine ⟨_, _, by rw [hp]; exact List.mem_singleton_self _, ⟨0, 1, 0⟩,
      ⟨1 / 2, by norm_num, by norm_num, by norm_num, by norm_num⟩, by norm_num, ?_⟩
    rw [hw, pdist]
    norm_num
  have hout : (⟨9, 0, 0⟩ : RPoint) ∉ besideLines (t.width / 2) [t.path] := by
    rintro ⟨a, b, hab, c, ⟨u, h0, h1, hx, hy⟩, hperp, -⟩
    rw [hp, List.mem_singleton] at hab
    obtain ⟨rfl, rfl⟩ : a = ⟨-1, 1, 0⟩ ∧ b = ⟨1, 1, 0⟩ := by simpa using hab
    norm_num at hx hy hperp
    linarith
  simp [twoPlots, hin, hout]

example : hgCost (twoPlots (Set.univ \ {⟨0, 0, 0⟩})) (twoPlots Set.univ) * twoPlots Set.univ = 3 / 4 := by
  rw [(C68_headland_is_fraction twoPlots twoPlots_isArea Set.univ {⟨0, 0, 0⟩}
    (by norm_num [twoPlots])).1]
  simp [twoPlots]

/-- **C68** is false without swaths, and the brute force search runs into it: in a field narrower
than half the operating width no swath fits along the first candidate angle, so searching the best
angle for coverage is undefined behaviour for every step angle. -/
theorem C68_thin_field_ub (clip : Cell ℝ → List (List RPoint) → List (List RPoint)) (overlap : Bool)
    (hclip : ClipIgnores clip (rect (2 / 5))) (hnil : clip (rect (2 / 5)) [] = [])
    (coveredArea : Cell ℝ → ℝ → List (List RPoint) → ℝ) (polyArea : Cell ℝ → ℝ) (step : ℝ)
    (h0 : 0 < step) :
    (computeBestAngle (fun a => computeCostOfAngle
      ⟨false, false, fun _ _ _ => .ok 0, fun c l => fieldCoverage (coveredArea c) (polyArea c) l⟩
      (generateSwaths clip overlap) a 1 (rect (2 / 5))) step).isUb = true := by
  have hne : (rect (2 / 5)).flatten ≠ [] := by simp [rect]
  have hx : extent (rect (2 / 5)) 0 = 2 / 5 :=
    isExtent_unique _ _ _ (rect_extent (2 / 5) (by norm_num))
  have hgen : generateSwaths clip overlap 0 1 (rect (2 / 5)) = .ok [] := by
    unfold generateSwaths
    rw [tracks_eq overlap 0 1 _ one_pos hne, Outcome.ok_bind, hx]
    have hcount : trackCount overlap (2 / 5 : ℝ) 1 = 1 := by
      unfold trackCount
      split
      · rw [Nat.ceil_eq_iff (by norm_num)]; norm_num
      · rw [Nat.ceil_eq_iff (by norm_num)]; norm_num
    rw [hcount]
    have : (List.range 1).map (track (rect (2 / 5)) 0 1) = [] ++ [track (rect (2 / 5)) 0 1 0] := rfl
    rw [this, hclip _ _ (track_misses _ _ _ _ (by rw [hx]; norm_num)), hnil]
    rfl
  unfold computeBestAngle
  split_ifs with ha hb
  · rfl
  · have : 0 < 2 * Real.pi / step := by positivity
    linarith
  · cases hn : ⌊2 * Real.pi / step⌋₊ with
    | zero => simp only [transformIds, Outcome.ok_bind, if_true]; rfl
    | succ n =>
      simp only [transformIds, Nat.cast_zero, zero_mul, computeCostOfAngle, Bool.false_eq_true,
        if_false, hgen, Outcome.ok_bind, fieldCoverage, Outcome.ub_bind, Outcome.isUb_ub]

end F2C.Props
