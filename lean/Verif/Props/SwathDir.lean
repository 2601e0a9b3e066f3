import Mathlib.Algebra.Order.Field.Basic
import Mathlib.Algebra.Order.Ring.Rat
import Mathlib.Tactic.Linarith
import Mathlib.Tactic.LinearCombination
import Mathlib.Tactic.NormNum
import Mathlib.Tactic.Ring
import Verif.Model.Swath

/-!
# C135: turning a swath to the direction of another one

`targetSameDirAs` and `targetOppositeDirAs` make a swath be driven in the same or the opposite direction as
another one.
-/

set_option linter.unusedSectionVars false

namespace F2C.Props

variable {K : Type} [Field K] [LinearOrder K]

/-- From the first point of the swath to the last one. -/
def headingOf (s : Swath K) : K × K :=
  (s.endPoint.x - s.startPoint.x, s.endPoint.y - s.startPoint.y)

/-- The scalar product is positive: less than a right angle apart. -/
def SameWay (u v : K × K) : Prop := 0 < u.1 * v.1 + u.2 * v.2

/-- The scalar product is negative: more than a right angle apart. -/
def OtherWay (u v : K × K) : Prop := u.1 * v.1 + u.2 * v.2 < 0

/-- The swath was created in direction `d` and reversed any number of times since: it runs along `d` if its
flag says that it has the direction of its creation, against `d` if not. -/
def CreatedAlong (d : K × K) (s : Swath K) : Prop :=
  ∃ c : K, headingOf s = (c * d.1, c * d.2) ∧ if s.creationDir then 0 < c else c < 0

private theorem headingOf_reverse (s : Swath K) : headingOf s.reverse = (-(headingOf s).1, -(headingOf s).2) := by
  simp only [headingOf, Swath.endPoint, Swath.startPoint, Swath.reverse, List.getLast?_reverse, List.head?_reverse,
    neg_sub]

variable [IsStrictOrderedRing K]

/-- **C135**: a straight swath built from a line along `d` is created along `d`, and reversing it keeps that. -/
theorem C135_created (d : K × K) (p q : Point K) (c w : K) (id : Int) (t : SwathType) (s : Swath K) (hc : 0 < c)
    (hx : q.x - p.x = c * d.1) (hy : q.y - p.y = c * d.2) (h : Swath.make [p, q] w id t = .ok s) :
    CreatedAlong d s ∧ ∀ s' : Swath K, CreatedAlong d s' → CreatedAlong d s'.reverse := by
  constructor
  · rw [Swath.make, Swath.setWidth] at h
    split at h
    · cases h
    · cases h
      exact ⟨c, by simp [headingOf, Swath.endPoint, Swath.startPoint, hx, hy], by simpa [Swath.default] using hc⟩
  · rintro s' ⟨c, e, hc⟩
    refine ⟨-c, by rw [headingOf_reverse, e]; simp, ?_⟩
    cases hs : s'.creationDir <;> simp_all [Swath.reverse]

example : CreatedAlong ((1, 0) : ℚ × ℚ) (Swath.reverse ⟨0, [⟨0, 3, 0⟩, ⟨5, 3, 0⟩], 2, true, .mainland⟩) :=
  (C135_created (1, 0) ⟨0, 3, 0⟩ ⟨5, 3, 0⟩ 5 2 0 .mainland
    (⟨0, [⟨0, 3, 0⟩, ⟨5, 3, 0⟩], 2, true, .mainland⟩ : Swath ℚ) (by norm_num) (by norm_num) (by norm_num)
    (by decide +kernel)).2 _
    ⟨5, by norm_num [headingOf, Swath.endPoint, Swath.startPoint], by norm_num⟩

private theorem product {d : K × K} (hd : d ≠ 0) {u v : K × K} {b c : K} (hu : u = (b * d.1, b * d.2))
    (hv : v = (c * d.1, c * d.2)) : (0 < b * c → SameWay u v) ∧ (b * c < 0 → OtherWay u v) := by
  have hpos : 0 < d.1 ^ 2 + d.2 ^ 2 := by
    by_contra h
    have h1 : d.1 ^ 2 = 0 := by nlinarith [sq_nonneg d.1, sq_nonneg d.2]
    have h2 : d.2 ^ 2 = 0 := by nlinarith [sq_nonneg d.1, sq_nonneg d.2]
    exact hd (Prod.ext (pow_eq_zero_iff (n := 2) (by norm_num) |>.1 h1)
      (pow_eq_zero_iff (n := 2) (by norm_num) |>.1 h2))
  have e : u.1 * v.1 + u.2 * v.2 = b * c * (d.1 ^ 2 + d.2 ^ 2) := by
    rw [hu, hv]
    ring
  exact ⟨fun h => by rw [SameWay, e]; exact mul_pos h hpos,
    fun h => by rw [OtherWay, e]; exact mul_neg_of_neg_of_pos h hpos⟩

/-- **C135** (part that holds), for swaths created along the same direction, however often they were reversed:
after `a.targetSameDirAs(b)` both are driven the same way, after `a.targetOppositeDirAs(b)` opposite ways, and
still are created along that direction.  Missing: swaths created in different directions, see
`C135_opposite_creation`. -/
theorem C135_directions_partial (d : K × K) (hd : d ≠ 0) (a b : Swath K) (ha : CreatedAlong d a)
    (hb : CreatedAlong d b) :
    SameWay (headingOf (a.targetSameDirAs b)) (headingOf b) ∧
    OtherWay (headingOf (a.targetOppositeDirAs b)) (headingOf b) ∧
    CreatedAlong d (a.targetSameDirAs b) ∧ CreatedAlong d (a.targetOppositeDirAs b) := by
  have hr : CreatedAlong d a.reverse := by
    obtain ⟨c, e, hc⟩ := ha
    refine ⟨-c, by rw [headingOf_reverse, e]; simp, ?_⟩
    cases hs : a.creationDir <;> simp_all [Swath.reverse]
  have key : ∀ a : Swath K, CreatedAlong d a →
      (a.creationDir = b.creationDir → SameWay (headingOf a) (headingOf b)) ∧
      (a.creationDir ≠ b.creationDir → OtherWay (headingOf a) (headingOf b)) := by
    rintro a ⟨c, e, hc⟩
    obtain ⟨f, e', hf⟩ := hb
    have hp := product hd e e'
    constructor <;> intro h
    · apply hp.1
      rw [h] at hc
      cases h2 : b.creationDir <;> rw [h2] at hc hf
      · exact mul_pos_of_neg_of_neg (by simpa using hc) (by simpa using hf)
      · exact mul_pos (by simpa using hc) (by simpa using hf)
    · apply hp.2
      rw [Bool.eq_not_of_ne h] at hc
      cases h2 : b.creationDir <;> rw [h2] at hc hf
      · exact mul_neg_of_pos_of_neg (by simpa using hc) (by simpa using hf)
      · exact mul_neg_of_neg_of_pos (by simpa using hc) (by simpa using hf)
  unfold Swath.targetSameDirAs Swath.targetOppositeDirAs
  by_cases h : a.hasSameDir b = true
  · have e : a.creationDir = b.creationDir := (beq_iff_eq.1 h).symm
    rw [if_pos h, if_pos h]
    exact ⟨(key a ha).1 e, (key a.reverse hr).2 (by simp [Swath.reverse, e]), ha, hr⟩
  · have e : a.creationDir ≠ b.creationDir := fun e => h (beq_iff_eq.2 e.symm)
    rw [if_neg h, if_neg h]
    refine ⟨(key a.reverse hr).1 ?_, (key a ha).2 e, hr, ha⟩
    cases h1 : a.creationDir <;> cases h2 : b.creationDir <;> simp_all [Swath.reverse]

example : SameWay (headingOf (Swath.targetSameDirAs
      (⟨0, [⟨5, 3, 0⟩, ⟨0, 3, 0⟩], 2, false, .mainland⟩ : Swath ℚ) ⟨1, [⟨0, 5, 0⟩, ⟨7, 5, 0⟩], 2, true, .mainland⟩))
    (headingOf (⟨1, [⟨0, 5, 0⟩, ⟨7, 5, 0⟩], 2, true, .mainland⟩ : Swath ℚ)) :=
  (C135_directions_partial ((1, 0) : ℚ × ℚ) (by simp) _ _
    ⟨-5, by norm_num [headingOf, Swath.endPoint, Swath.startPoint], by norm_num⟩
    ⟨7, by norm_num [headingOf, Swath.endPoint, Swath.startPoint], by norm_num⟩).1

omit [IsStrictOrderedRing K] in
/-- **C135**, for all swaths: the swath is left as it is or its points are put in reverse order; id, width and
type stay; doing it again changes nothing; one after the other the two functions turn the swath. -/
theorem C135_same_swath (a b : Swath K) :
    (∀ r, r = a.targetSameDirAs b ∨ r = a.targetOppositeDirAs b →
      (r = a ∨ (r.path = a.path.reverse ∧ r.creationDir = !a.creationDir)) ∧
      r.id = a.id ∧ r.width = a.width ∧ r.type = a.type) ∧
    (a.targetSameDirAs b).hasSameDir b = true ∧ (a.targetOppositeDirAs b).hasSameDir b = false ∧
    (a.targetSameDirAs b).targetSameDirAs b = a.targetSameDirAs b ∧
    (a.targetOppositeDirAs b).targetOppositeDirAs b = a.targetOppositeDirAs b ∧
    (a.targetSameDirAs b).targetOppositeDirAs b = a.targetOppositeDirAs b ∧
    (a.targetOppositeDirAs b).targetSameDirAs b = a.targetSameDirAs b := by
  obtain ⟨i, p, w, c, t⟩ := a
  obtain ⟨i', p', w', c', t'⟩ := b
  cases c <;> cases c' <;>
    simp [Swath.targetSameDirAs, Swath.targetOppositeDirAs, Swath.hasSameDir, Swath.reverse]

/-- **C135** is false: the direction is taken from a flag, not from the points.  Two swaths that were created in
opposite directions count as having the same direction and are driven in opposite ways afterwards. -/
theorem C135_opposite_creation : ∃ a b : Swath ℚ, Swath.make [⟨0, 0, 0⟩, ⟨9, 0, 0⟩] 2 0 .mainland = .ok a ∧
    Swath.make [⟨9, 2, 0⟩, ⟨0, 2, 0⟩] 2 1 .mainland = .ok b ∧ a.hasSameDir b = true ∧
    OtherWay (headingOf (a.targetSameDirAs b)) (headingOf b) ∧
    SameWay (headingOf (a.targetOppositeDirAs b)) (headingOf b) :=
  ⟨⟨0, [⟨0, 0, 0⟩, ⟨9, 0, 0⟩], 2, true, .mainland⟩, ⟨1, [⟨9, 2, 0⟩, ⟨0, 2, 0⟩], 2, true, .mainland⟩,
    by decide +kernel, by decide +kernel, rfl, by
      norm_num [OtherWay, headingOf, Swath.targetSameDirAs, Swath.hasSameDir, Swath.endPoint, Swath.startPoint], by
      norm_num [SameWay, headingOf, Swath.targetOppositeDirAs, Swath.hasSameDir, Swath.endPoint, Swath.startPoint,
        Swath.reverse]⟩

end F2C.Props
