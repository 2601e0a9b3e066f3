import Mathlib.Tactic.Linarith
import Mathlib.Tactic.FieldSimp
import Mathlib.Tactic.Ring
import Mathlib.Tactic.Push
import Mathlib.Tactic.LinearCombination
import Verif.Model.Border
import Verif.Lemmas.Geom
import Verif.Lemmas.SwathGenerator
import Verif.Props.GeometrySpec

/-! # Lemmas about borders -/

namespace F2C

open Props.Geo Props.SG Real

set_option linter.unusedSimpArgs false
set_option linter.unusedVariables false

/-- the clamped minimiser of a quadratic is the minimiser on `[0, 1]` -/
theorem clamp_min {a b t : ℝ} (ha : 0 < a) (h0 : 0 ≤ t) (h1 : t ≤ 1) :
    (max 0 (min 1 (-b / a))) ^ 2 * a + 2 * (max 0 (min 1 (-b / a))) * b ≤ t ^ 2 * a + 2 * t * b := by
  have hb : b = -((-b / a) * a) := by field_simp
  generalize -b / a = x at *
  subst hb
  rcases le_total x 0 with h | h
  · rw [min_eq_right (by linarith), max_eq_left h]
    nlinarith [mul_nonneg h0 (mul_nonneg ha.le (sub_nonneg.2 h)), mul_nonneg (mul_nonneg h0 h0) ha.le]
  · rcases le_total x 1 with h' | h'
    · rw [min_eq_right h', max_eq_right h]
      nlinarith [mul_nonneg (sq_nonneg (t - x)) ha.le]
    · rw [min_eq_left h', max_eq_right zero_le_one]
      have h2 : 0 ≤ (1 - t) * (2 * x - 1 - t) := mul_nonneg (by linarith) (by linarith)
      nlinarith [mul_nonneg h2 ha.le]

theorem clamp_range (x : ℝ) : 0 ≤ max 0 (min 1 x) ∧ max 0 (min 1 x) ≤ 1 :=
  ⟨le_max_left _ _, max_le zero_le_one (min_le_left _ _)⟩

/-- the parameter of the closest point -/
noncomputable def closeParam (p s e : RPoint) : ℝ :=
  max 0 (min 1 (if Point.dot (e.sub s) (e.sub s) = 0 then 1
    else -(Point.dot (e.sub s) (s.sub p)) / Point.dot (e.sub s) (e.sub s)))

theorem closestInSegment_coords (p s e : RPoint) :
    (closestInSegment p s e).x = s.x + closeParam p s e * (e.x - s.x) ∧
    (closestInSegment p s e).y = s.y + closeParam p s e * (e.y - s.y) ∧
    (closestInSegment p s e).z = s.z + closeParam p s e * (e.z - s.z) := by
  unfold closestInSegment closeParam
  simp only [Point.add, Point.smul, Point.sub]
  refine ⟨by ring, by ring, by ring⟩

theorem dot_self_eq_zero {v : RPoint} (h : Point.dot v v = 0) : v.x = 0 ∧ v.y = 0 ∧ v.z = 0 := by
  unfold Point.dot at h
  refine ⟨?_, ?_, ?_⟩ <;>
  nlinarith [mul_self_nonneg v.x, mul_self_nonneg v.y, mul_self_nonneg v.z]

theorem dot_self_nonneg (v : RPoint) : 0 ≤ Point.dot v v := by
  unfold Point.dot
  nlinarith [mul_self_nonneg v.x, mul_self_nonneg v.y, mul_self_nonneg v.z]

theorem closest_min3 (p s e : RPoint) {t : ℝ} (h0 : 0 ≤ t) (h1 : t ≤ 1) :
    dist3sq p (closestInSegment p s e) ≤
      dist3sq p ⟨s.x + t * (e.x - s.x), s.y + t * (e.y - s.y), s.z + t * (e.z - s.z)⟩ := by
  obtain ⟨hx, hy, hz⟩ := closestInSegment_coords p s e
  unfold dist3sq
  rw [hx, hy, hz]
  by_cases hv : Point.dot (e.sub s) (e.sub s) = 0
  · obtain ⟨a, b, c⟩ := dot_self_eq_zero hv
    simp only [Point.sub] at a b c
    simp [a, b, c]
  · have hp : 0 < Point.dot (e.sub s) (e.sub s) := lt_of_le_of_ne (dot_self_nonneg _) (Ne.symm hv)
    have := clamp_min (b := Point.dot (e.sub s) (s.sub p)) hp h0 h1
    unfold closeParam
    rw [if_neg hv]
    generalize max 0 (min 1 (-(Point.dot (e.sub s) (s.sub p)) / Point.dot (e.sub s) (e.sub s))) = r at *
    simp only [Point.dot, Point.sub] at this
    nlinarith

theorem closest_on_segment (p s e : RPoint) : OnSegment s e (closestInSegment p s e) := by
  obtain ⟨hx, hy, _⟩ := closestInSegment_coords p s e
  have := clamp_range (if Point.dot (e.sub s) (e.sub s) = 0 then 1
    else -(Point.dot (e.sub s) (s.sub p)) / Point.dot (e.sub s) (e.sub s))
  exact ⟨closeParam p s e, this.1, this.2, hx, hy⟩

theorem closest_min (p s e : RPoint) (hz : s.z = e.z) {q : RPoint} (hq : OnSegment s e q) :
    pdist p (closestInSegment p s e) ≤ pdist p q := by
  obtain ⟨t, h0, h1, hx, hy⟩ := hq
  have h := closest_min3 p s e h0 h1
  obtain ⟨_, _, hcz⟩ := closestInSegment_coords p s e
  have e1 : e.z - s.z = 0 := by rw [hz]; ring
  unfold pdist
  apply Real.sqrt_le_sqrt
  unfold dist3sq at h
  rw [hcz, e1] at h
  simp only at h
  rw [hx, hy]
  linarith

/-! ## closestPointTo -/

theorem pickClosest_spec (p : RPoint) {ps : List RPoint} (h : ps ≠ []) :
    ∃ q ∈ ps, pickClosest p ps = .ok q ∧ ∀ r ∈ ps, pdist p q ≤ pdist p r := by
  obtain ⟨hk, hmin, _⟩ := minElement_spec (l := ps.map fun q => pdist q p) (by simpa using h)
  rw [List.length_map] at hk
  refine ⟨ps[minElement (ps.map fun q => pdist q p)], List.getElem_mem _, ?_, ?_⟩
  · unfold pickClosest
    rw [List.getElem?_eq_getElem hk]
  · intro r hr
    obtain ⟨j, hj, rfl⟩ := List.mem_iff_getElem.1 hr
    have := hmin j (by simpa using hj)
    simp only [List.getElem_map] at this
    rw [pdist_comm p, pdist_comm p]
    exact this

theorem pickClosest_empty (p : RPoint) : (pickClosest p []).isUb := by simp [pickClosest]

theorem segmentClosest_on (p : RPoint) (line : List RPoint) :
    ∀ q ∈ segmentClosest p line, OnLine line q := by
  induction line with
  | nil => simp [segmentClosest]
  | cons a l ih =>
    cases l with
    | nil => simp [segmentClosest]
    | cons b l =>
      intro q hq
      simp only [segmentClosest, List.mem_cons] at hq
      rcases hq with rfl | hq
      · exact Or.inl (closest_on_segment p a b)
      · exact Or.inr (ih q hq)

theorem segmentClosest_best (p : RPoint) (line : List RPoint) (hz : Level line) :
    ∀ r, OnLine line r → ∃ q ∈ segmentClosest p line, pdist p q ≤ pdist p r := by
  induction line with
  | nil => intro r h; exact absurd h (by simp [OnLine])
  | cons a l ih =>
    cases l with
    | nil => intro r h; exact absurd h (by simp [OnLine])
    | cons b l =>
      intro r hr
      rcases hr with hr | hr
      · exact ⟨_, by simp [segmentClosest], closest_min p a b (hz a (by simp) b (by simp)) hr⟩
      · obtain ⟨q, hq, hle⟩ := ih (fun x hx y hy => hz x (List.mem_cons_of_mem _ hx) y
          (List.mem_cons_of_mem _ hy)) r hr
        exact ⟨q, by simp [segmentClosest, hq], hle⟩

theorem closestPointTo_spec (p : RPoint) (line : List RPoint) (hz : Level line)
    (hn : 2 ≤ line.length) :
    ∃ q, closestPointTo p line = .ok q ∧ OnLine line q ∧
      ∀ r, OnLine line r → pdist p q ≤ pdist p r := by
  have hne : segmentClosest p line ≠ [] := by
    match line, hn with
    | a :: b :: l, _ => simp [segmentClosest]
  obtain ⟨q, hq, he, hmin⟩ := pickClosest_spec p hne
  refine ⟨q, ?_, segmentClosest_on p line q hq, ?_⟩
  · match line, hn with
    | a :: b :: l, _ => simpa [closestPointTo] using he
  · intro r hr
    obtain ⟨q', hq', hle⟩ := segmentClosest_best p line hz r hr
    exact (hmin q' hq').trans hle

/-! ## closestPointOnBorderTo -/

/-- what holds for every child is found in the mapped list -/
theorem mapOutcome_spec {α β : Type} {f : α → Outcome β} {l : List α} {P : α → β → Prop}
    (h : ∀ a ∈ l, ∃ b, f a = .ok b ∧ P a b) :
    ∃ bs, mapOutcome f l = .ok bs ∧ List.Forall₂ P l bs := by
  induction l with
  | nil => exact ⟨[], rfl, .nil⟩
  | cons a l ih =>
    obtain ⟨b, hb, hp⟩ := h a (by simp)
    obtain ⟨bs, hbs, hf⟩ := ih (fun x hx => h x (List.mem_cons_of_mem _ hx))
    exact ⟨b :: bs, by simp [mapOutcome, hb, hbs], .cons hp hf⟩

theorem forall₂_mem_left {α β : Type} {P : α → β → Prop} {l : List α} {m : List β}
    (h : List.Forall₂ P l m) {a : α} (ha : a ∈ l) : ∃ b ∈ m, P a b := by
  induction h with
  | nil => simp at ha
  | cons hp _ ih =>
    rcases List.mem_cons.1 ha with rfl | ha
    · exact ⟨_, by simp, hp⟩
    · obtain ⟨b, hb, h⟩ := ih ha; exact ⟨b, List.mem_cons_of_mem _ hb, h⟩

theorem forall₂_mem_right {α β : Type} {P : α → β → Prop} {l : List α} {m : List β}
    (h : List.Forall₂ P l m) {b : β} (hb : b ∈ m) : ∃ a ∈ l, P a b := by
  induction h with
  | nil => simp at hb
  | cons hp _ ih =>
    rcases List.mem_cons.1 hb with rfl | hb
    · exact ⟨_, by simp, hp⟩
    · obtain ⟨a, ha, h⟩ := ih hb; exact ⟨a, List.mem_cons_of_mem _ ha, h⟩

/-- picking the closest of the closest points of the children -/
theorem closest_of_children {α : Type} (p : RPoint) (f : α → Outcome RPoint) (On : α → RPoint → Prop)
    (l : List α) (hne : l ≠ [])
    (h : ∀ a ∈ l, ∃ q, f a = .ok q ∧ On a q ∧ ∀ r, On a r → pdist p q ≤ pdist p r) :
    ∃ q, (mapOutcome f l >>= pickClosest p) = .ok q ∧ (∃ a ∈ l, On a q) ∧
      ∀ a ∈ l, ∀ r, On a r → pdist p q ≤ pdist p r := by
  obtain ⟨bs, hbs, hf⟩ := mapOutcome_spec h
  have hb : bs ≠ [] := by
    rintro rfl
    cases hf; exact hne rfl
  obtain ⟨q, hq, he, hmin⟩ := pickClosest_spec p hb
  refine ⟨q, by rw [hbs]; exact he, ?_, ?_⟩
  · obtain ⟨a, ha, h1, h2⟩ := forall₂_mem_right hf hq
    exact ⟨a, ha, h1⟩
  · intro a ha r hr
    obtain ⟨b, hb, h1, h2⟩ := forall₂_mem_left hf ha
    exact (hmin b hb).trans (h2 r hr)

/-! ## isConvex -/

theorem sin_turnAngle (a b c : RPoint) :
    pdist b a * pdist c b * sin (turnAngle a b c) = cross a b c := by
  have h1 := pdist_polar_x b a
  have h2 := pdist_polar_y b a
  have h3 := pdist_polar_x c b
  have h4 := pdist_polar_y c b
  unfold turnAngle cross
  rw [sin_mod2pi, Real.sin_sub, ← h1, ← h2, ← h3, ← h4]
  ring

theorem turnAngle_lt_pi {a b c : RPoint} (h : 0 < cross a b c) : turnAngle a b c < π := by
  by_contra hc
  push Not at hc
  have h2 : turnAngle a b c < 2 * π := mod2pi_lt _
  have : sin (turnAngle a b c) ≤ 0 := by
    have h3 : 0 ≤ sin (turnAngle a b c - π) :=
      Real.sin_nonneg_of_nonneg_of_le_pi (by linarith) (by linarith)
    rw [Real.sin_sub_pi] at h3
    linarith
  have h4 := sin_turnAngle a b c
  have := mul_nonneg (mul_nonneg (pdist_nonneg b a) (pdist_nonneg c b)) (neg_nonneg.2 this)
  nlinarith

theorem pi_lt_turnAngle {a b c : RPoint} (h : cross a b c < 0) : π < turnAngle a b c := by
  by_contra hc
  push Not at hc
  have : 0 ≤ sin (turnAngle a b c) :=
    Real.sin_nonneg_of_nonneg_of_le_pi (mod2pi_nonneg _) hc
  have h4 := sin_turnAngle a b c
  have := mul_nonneg (mul_nonneg (pdist_nonneg b a) (pdist_nonneg c b)) this
  linarith

theorem turnAngle_iff {a b c : RPoint} (h : cross a b c ≠ 0) :
    turnAngle a b c < π ↔ 0 < cross a b c := by
  constructor
  · intro h1
    rcases lt_or_gt_of_ne h with h2 | h2
    · exact absurd (pi_lt_turnAngle h2) (by linarith)
    · exact h2
  · exact turnAngle_lt_pi

theorem sameTurns_iff (l : List RPoint) (hb : Bent l) :
    (sameTurns true l = true ↔ Turning 1 l) ∧ (sameTurns false l = true ↔ Turning (-1) l) := by
  induction l with
  | nil => simp [sameTurns, Turning]
  | cons a l ih =>
    match l, ih, hb with
    | [], _, _ => simp [sameTurns, Turning]
    | [b], _, _ => simp [sameTurns, Turning]
    | b :: c :: l, ih, hb =>
      obtain ⟨h0, hb⟩ := hb
      obtain ⟨i1, i2⟩ := ih hb
      constructor
      · by_cases hc : 0 < cross a b c
        · have := (turnAngle_iff h0).2 hc
          simp [sameTurns, Turning, this, i1, hc]
        · have : ¬ turnAngle a b c < π := fun h => hc ((turnAngle_iff h0).1 h)
          simp [sameTurns, Turning, this, hc]
      · by_cases hc : 0 < cross a b c
        · have := (turnAngle_iff h0).2 hc
          have h3 : ¬ (cross a b c < 0) := by linarith
          simp [sameTurns, Turning, this, h3]
        · have h2 : ¬ turnAngle a b c < π := fun h => hc ((turnAngle_iff h0).1 h)
          have h3 : cross a b c < 0 := lt_of_le_of_ne (by linarith) h0
          simp only [sameTurns, Turning, h2, decide_false, ne_eq, not_true_eq_false, if_false, i2]
          have : 0 < -1 * cross a b c := by linarith
          simp [this, h3]

theorem Turning.scale {s t : ℝ} (hst : 0 < s * t) {l : List RPoint} (h : Turning s l) :
    Turning t l := by
  induction l with
  | nil => trivial
  | cons a l ih =>
    match l, ih, h with
    | [], _, _ => trivial
    | [b], _, _ => trivial
    | b :: c :: l, ih, h =>
      refine ⟨?_, ih h.2⟩
      have h1 := h.1
      have h2 : 0 < (s * t) * (s * cross a b c) := mul_pos hst h1
      have h3 : 0 < (s * s) * (t * cross a b c) := by nlinarith
      exact pos_of_mul_pos_right h3 (mul_self_nonneg s)

theorem Turning.bent {s : ℝ} {l : List RPoint} (h : Turning s l) : Bent l := by
  induction l with
  | nil => trivial
  | cons a l ih =>
    match l, ih, h with
    | [], _, _ => trivial
    | [b], _, _ => trivial
    | b :: c :: l, ih, h =>
      refine ⟨?_, ih h.2⟩
      intro h0
      have := h.1
      rw [h0] at this
      simp at this

theorem Turning.prefix {s : ℝ} {l m : List RPoint} (h : Turning s (l ++ m)) : Turning s l := by
  induction l with
  | nil => trivial
  | cons a l ih =>
    match l, ih, h with
    | [], _, _ => trivial
    | [b], _, _ => trivial
    | b :: c :: l, ih, h => exact ⟨h.1, ih h.2⟩

/-- `isConvex` looks at all inner points of the list of border points -/
theorem isConvex_iff {border : List RPoint} (ha : shoelace border ≠ 0) (hn : 3 ≤ border.length)
    (hb : Bent border) :
    ∃ r, Cell.isConvex [border] = .ok r ∧ (r = true ↔ ∃ s, Turning s border) := by
  match border, hn with
  | p0 :: p1 :: p2 :: l, _ =>
    have h1 : ¬ (([] : List (Ring ℝ)) ≠ [] ∨ |shoelace (p0 :: p1 :: p2 :: l)| / 2 ≤ 0) := by
      have := abs_pos.2 ha
      simp only [ne_eq, not_true_eq_false, false_or, not_le]
      linarith
    refine ⟨sameTurns (decide (π > turnAngle p0 p1 p2)) (p1 :: p2 :: l), ?_, ?_⟩
    · unfold Cell.isConvex
      simp only [if_neg h1]
      rw [if_neg (by simp)]
    · obtain ⟨h0, hb'⟩ := hb
      obtain ⟨i1, i2⟩ := sameTurns_iff _ hb'
      rcases lt_or_gt_of_ne h0 with hc | hc
      · have hd : decide (π > turnAngle p0 p1 p2) = false := by
          simpa using (pi_lt_turnAngle hc).le
        rw [hd, i2]
        constructor
        · intro h
          exact ⟨-1, by linarith, h⟩
        · rintro ⟨s, h3, h4⟩
          refine Turning.scale ?_ h4
          nlinarith
      · have hd : decide (π > turnAngle p0 p1 p2) = true := by
          simpa using turnAngle_lt_pi hc
        rw [hd, i1]
        constructor
        · intro h
          exact ⟨1, by linarith, h⟩
        · rintro ⟨s, h3, h4⟩
          refine Turning.scale ?_ h4
          nlinarith [pos_of_mul_pos_left h3 hc.le]

end F2C
