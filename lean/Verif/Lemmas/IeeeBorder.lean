import Verif.Model.IeeeBorder
import Verif.Lemmas.IeeeGraph

/-! # Lemmas about the closest point of a border in double precision -/

namespace F2C.Props

open Ieee Ieee.Flt Dbl SG IeeeGeo

variable {fl : ℝ → ℝ}

theorem distance_err (h : IsRounding fl) (M : ℝ) (h1 : (2 : ℝ) ^ (-250 : ℤ) ≤ M) (h2 : M ≤ 2 ^ 400) (p q : RPoint)
    (hp : Within M p) (hq : Within (2 * M) q) :
    ∃ d, Ieee.distance fl (ofPoint q) (ofPoint p) = fin d ∧ |d - pdist q p| ≤ M / 2 ^ 46 := by
  have hM0 : 0 < M := (two_zpow_pos _).trans_le h1
  have ax : |q.x - p.x| ≤ 3 * M := (abs_sub q.x p.x).trans (by linarith [hq.1, hp.1])
  have ay : |q.y - p.y| ≤ 3 * M := (abs_sub q.y p.y).trans (by linarith [hq.2.1, hp.2.1])
  have big : 3 * M ≤ 2 ^ 402 := by
    have : (2 : ℝ) ^ 402 = 4 * 2 ^ 400 := by rw [pow_add 2 2 400]; norm_num
    rw [this]
    generalize (2 : ℝ) ^ 400 = B at *
    linarith only [h2, hM0]
  obtain ⟨d, e, d0, -, c⟩ := distance_close h (p := q) (q := p) (z := fin q.z) (z' := fin p.z) (ax.trans big) (ay.trans big)
  refine ⟨d, e, ?_⟩
  have D0 : 0 ≤ pdist q p := pdist_nonneg _ _
  have D1 : pdist q p ≤ 6 * M := (pdist_le_coords q p).trans (by linarith)
  have hη : (2 : ℝ) ^ (-329 : ℤ) ≤ M / 2 ^ 60 := by
    rw [le_div_iff₀ (by positivity)]
    refine le_trans ?_ h1
    have : (2 : ℝ) ^ 60 = 2 ^ (60 : ℤ) := by norm_cast
    rw [this, ← zpow_add₀ two_ne_zero]
    exact zpow_le_zpow_right₀ (by norm_num) (by norm_num)
  obtain ⟨l1, l2⟩ := c
  generalize (2 : ℝ) ^ (-329 : ℤ) = η at *
  rw [abs_le]
  constructor <;> norm_num at * <;> linarith

theorem pick_near (h : IsRounding fl) (M : ℝ) (h1 : (2 : ℝ) ^ (-250 : ℤ) ≤ M) (h2 : M ≤ 2 ^ 400) (p : RPoint)
    (hp : Within M p) (ps : List RPoint) (hne : ps ≠ []) (hw : ∀ q ∈ ps, Within (2 * M) q) :
    ∃ x ∈ ps, Ieee.pickClosest fl (ofPoint p) (ps.map ofPoint) = .ok (ofPoint x) ∧
      ∀ y ∈ ps, pdist p x ≤ pdist p y + M / 2 ^ 45 := by
  cases ps with
  | nil => exact absurd rfl hne
  | cons q qs =>
    have acc : ∀ x ∈ q :: qs, ∃ d, Ieee.distance fl (ofPoint x) (ofPoint p) = fin d ∧ |d - pdist x p| ≤ M / 2 ^ 46 :=
      fun x hx => distance_err h M h1 h2 p x hp (hw x hx)
    obtain ⟨hmem, hmin⟩ := pick_spec (Ieee.distance fl · (ofPoint p)) (ofPoint q) (qs.map ofPoint) (by
      intro x hx
      rw [← List.map_cons] at hx
      obtain ⟨y, hy, rfl⟩ := List.mem_map.1 hx
      obtain ⟨d, hd, _⟩ := acc y hy
      rw [hd]
      simp)
    have e0 : Ieee.pickClosest fl (ofPoint p) ((q :: qs).map ofPoint) =
        .ok ((ofPoint q :: qs.map ofPoint).getD (minLoop 0 (Ieee.distance fl (ofPoint q) (ofPoint p)) 1
          ((qs.map ofPoint).map (Ieee.distance fl · (ofPoint p)))) (ofPoint q)) := rfl
    rw [e0]
    generalize (ofPoint q :: qs.map ofPoint).getD _ (ofPoint q) = y at *
    rw [← List.map_cons] at hmem
    obtain ⟨x, hx, rfl⟩ := List.mem_map.1 hmem
    refine ⟨x, hx, rfl, fun y hy => ?_⟩
    have := hmin (ofPoint y) (by rw [← List.map_cons]; exact List.mem_map_of_mem hy)
    obtain ⟨d, hd, hd'⟩ := acc x hx
    obtain ⟨d', e, e'⟩ := acc y hy
    simp only [hd, e, lt_fin, not_lt] at this
    rw [pdist_comm p x, pdist_comm p y]
    have k : M / 2 ^ 45 = M / 2 ^ 46 + M / 2 ^ 46 := by ring
    rw [k]
    linarith [(abs_le.1 hd').1, (abs_le.1 e').2]

theorem mapOutcome_points {α β : Type} {f : β → Outcome (Point Flt)} (g : α → β) {R : α → RPoint → Prop} (l : List α)
    (hl : ∀ a ∈ l, ∃ q, f (g a) = .ok (ofPoint q) ∧ R a q) : ∃ qs : List RPoint, mapOutcome f (l.map g) = .ok (qs.map ofPoint) ∧
      (∀ q ∈ qs, ∃ a ∈ l, R a q) ∧ (∀ a ∈ l, ∃ q ∈ qs, R a q) := by
  induction l with
  | nil => exact ⟨[], rfl, by simp, by simp⟩
  | cons a l ih =>
    obtain ⟨q, e, hq⟩ := hl a List.mem_cons_self
    obtain ⟨qs, e', h1, h2⟩ := ih fun b hb => hl b (List.mem_cons_of_mem _ hb)
    refine ⟨q :: qs, ?_, ?_, ?_⟩
    · rw [List.map_cons, mapOutcome, e, Outcome.ok_bind, e', Outcome.ok_bind]
      rfl
    · intro x hx
      rcases List.mem_cons.1 hx with rfl | hx
      · exact ⟨a, List.mem_cons_self, hq⟩
      · obtain ⟨b, hb, hr⟩ := h1 x hx
        exact ⟨b, List.mem_cons_of_mem _ hb, hr⟩
    · intro b hb
      rcases List.mem_cons.1 hb with rfl | hb
      · exact ⟨q, List.mem_cons_self, hq⟩
      · obtain ⟨x, hx, hr⟩ := h2 b hb
        exact ⟨x, List.mem_cons_of_mem _ hx, hr⟩

theorem distance_nan {p : Point Flt} (hp : p.x = nan ∨ p.y = nan) (q : Point Flt) : Ieee.distance fl q p = nan := by
  have s1 : ∀ x, sub fl x nan = nan := fun x => by cases x <;> rfl
  have a1 : ∀ x, add fl x nan = nan := fun x => by cases x <;> rfl
  have a2 : ∀ x, add fl nan x = nan := fun x => by cases x <;> rfl
  have m1 : mul fl nan nan = nan := rfl
  rcases hp with hp | hp <;> simp only [Ieee.distance, hp, s1, a1, a2, m1, Flt.sqrt]

theorem pick_nan {p : Point Flt} (hp : p.x = nan ∨ p.y = nan) (q : Point Flt) (qs : List (Point Flt)) :
    Ieee.pickClosest fl p (q :: qs) = .ok q := by
  simp [Ieee.pickClosest, distance_nan hp, minLoop_nan]

theorem pick_mem {p : RPoint} {ps : List (Point Flt)} {q : Point Flt} (h : Ieee.pickClosest fl (ofPoint p) ps = .ok q) : q ∈ ps := by
  cases ps with
  | nil => simp [Ieee.pickClosest] at h
  | cons a ps =>
    simp only [Ieee.pickClosest, Outcome.ok.injEq] at h
    rw [← h, List.getD_eq_getElem?_getD]
    cases e : (a :: ps)[minLoop 0 (Ieee.distance fl a (ofPoint p)) 1 (ps.map (Ieee.distance fl · (ofPoint p)))]? with
    | none => exact List.mem_cons_self
    | some b => exact List.mem_of_getElem? e

theorem line_mem {p : RPoint} {l : List (Point Flt)} {q : Point Flt}
    (h : Ieee.closestPointTo fl (Ieee.distance fl) (ofPoint p) l = .ok q) : q ∈ Ieee.segmentClosest fl (ofPoint p) l := by
  refine pick_mem (fl := fl) (p := p) ?_
  cases l with
  | nil => simp [Ieee.closestPointTo] at h
  | cons a l =>
    simp only [Ieee.closestPointTo] at h
    rw [← h]
    cases Ieee.segmentClosest fl (ofPoint p) (a :: l) <;> rfl

end F2C.Props
