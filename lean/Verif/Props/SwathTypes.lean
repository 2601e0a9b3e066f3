import Mathlib.Tactic.NormNum
import Verif.Lemmas.Swath
import Verif.Model.Geom

/-! # Property theorems C09, C10, C11, C25 (containers part), C65 -/

set_option linter.unusedSectionVars false

namespace F2C.Props

section Generic
variable {K : Type} [Field K] [LinearOrder K]

/-! ## C09 -/

/-- **C09** (part that holds): a swath of positive width and type `MAINLAND` is cloned exactly.
Missing: the type of other swaths (`C09_clone_loses_type`) and swaths without a width
(`C09_clone_throws`). -/
theorem C09_clone_exact_partial (s : Swath K) (hw : 0 < s.width) (ht : s.type = .mainland) :
    s.clone = .ok s := by
  rw [Swath.clone_eq, if_pos hw, Swath.cloned, ← ht]

/-- **C09** is false: cloning a headland swath gives a mainland swath (everything else is kept). -/
theorem C09_clone_loses_type (s : Swath K) (hw : 0 < s.width) (ht : s.type = .headland) :
    ∃ c, s.clone = .ok c ∧ c.type = .mainland ∧ c ≠ s ∧
      c.id = s.id ∧ c.path = s.path ∧ c.width = s.width ∧ c.creationDir = s.creationDir := by
  refine ⟨s.cloned, by rw [Swath.clone_eq, if_pos hw], rfl, ?_, rfl, rfl, rfl, rfl⟩
  intro h
  have := congrArg Swath.type h
  rw [ht] at this
  simp [Swath.cloned] at this

/-- **C09** is false: a default constructed swath (width 0) cannot be cloned, nor can a list with
such a swath be sorted: `invalid_argument` is thrown. -/
theorem C09_clone_throws :
    (Swath.default : Swath K).clone = .throw .invalidArgument ∧
    ∀ (f : Swaths K → Swaths K) (k : OrderKind) (l : Swaths K) (v : UInt32),
      genSortedSwaths f k (Swath.default :: l) v = .throw .invalidArgument := by
  constructor
  · rw [Swath.clone_eq, if_neg (by simp [Swath.default])]
  · intro f k l v
    unfold genSortedSwaths
    rw [Swaths.clone_eq, if_neg]
    · rfl
    · intro h
      have := h Swath.default (by simp)
      simp [Swath.default] at this

/-- **C09** at the level of sorting: the swaths delivered by every sorter have lost their type. -/
theorem C09_sorters_lose_type (f : Swaths K → Swaths K) (hf : Swaths.IsStdSort f) (k : OrderKind)
    (l out : Swaths K) (v : UInt32) (h : genSortedSwaths f k l v = .ok out)
    (hk : k.Valid l.length) : ∀ s ∈ out, s.type = .mainland := by
  by_cases hw : ∀ s ∈ l, 0 < s.width
  · obtain ⟨l₃, e, p⟩ := genSortedSwaths_spec hf k l v hw hk
    rw [e] at h
    injection h with h
    obtain ⟨m, h1, h2⟩ := p.trans (.of_forall₂ (reverseDirOdd_upTo l₃))
    intro s hs
    rw [← h] at hs
    have hs' := h2.mem_iff.mp hs
    clear h2 hs p h e hk hw
    generalize hc : l.map Swath.cloned = c at h1
    have hall : ∀ a ∈ c, a.type = .mainland := by
      intro a ha
      rw [← hc] at ha
      obtain ⟨b, _, rfl⟩ := List.mem_map.mp ha
      rfl
    clear hc
    induction h1 with
    | nil => simp at hs'
    | cons h3 h4 ih =>
      rcases List.mem_cons.mp hs' with rfl | hs''
      · rcases h3 with rfl | rfl
        · exact hall _ (by simp)
        · rw [Swath.reverse_type]; exact hall _ List.mem_cons_self
      · exact ih hs'' fun a ha => hall a (by simp [ha])
  · unfold genSortedSwaths at h
    rw [Swaths.clone_eq, if_neg hw] at h
    simp at h

example : ∃ s : Swath Rat, 0 < s.width ∧ s.type = .headland ∧ s.path ≠ [] :=
  ⟨⟨3, [⟨0, 0, 0⟩], 2, false, .headland⟩, by norm_num, rfl, by simp⟩

/-! ## C11 -/

private theorem sizeTotal_eq (d : SwathsByCells K) :
    SwathsByCells.sizeTotal d = (d.map List.length).sum := by
  have : ∀ (d : List (List (Swath K))) (n : Nat),
      d.foldl (fun a b => a + b.length) n = n + (d.map List.length).sum := by
    intro d
    induction d with
    | nil => simp
    | cons a d ih => intro n; simp [ih]; omega
  have h := this d 0
  rw [Nat.zero_add] at h
  exact h

theorem SwathsByCells_flatten_eq (d : SwathsByCells K) :
    SwathsByCells.flatten d = List.flatten d := by
  have : ∀ (d : List (List (Swath K))) (n : List (Swath K)),
      d.foldl (fun acc s => acc ++ s) n = n ++ List.flatten d := by
    intro d
    induction d with
    | nil => simp
    | cons a d ih => intro n; simp [ih]
  have h := this d []
  rw [List.nil_append] at h
  exact h

/-- **C11.** The `i`-th swath over all cells is the `i`-th of the flattened list, and an index past
the total size throws `out_of_range`. -/
theorem C11_getSwath_is_flatten (d : SwathsByCells K) (i : Nat) :
    (∀ h : i < (SwathsByCells.flatten d).length,
      SwathsByCells.getSwath d i = .ok ((SwathsByCells.flatten d)[i])) ∧
    ((SwathsByCells.flatten d).length ≤ i → SwathsByCells.getSwath d i = .throw .outOfRange) ∧
    SwathsByCells.sizeTotal d = (SwathsByCells.flatten d).length ∧
    SwathsByCells.flatten d = List.flatten d := by
  refine ⟨?_, ?_, ?_, SwathsByCells_flatten_eq d⟩
  · simp only [SwathsByCells_flatten_eq]
    induction d generalizing i with
    | nil => intro h; simp at h
    | cons c cs ih =>
      intro h
      simp only [SwathsByCells.getSwath]
      split
      · rename_i hc
        have h' : i - c.length < (List.flatten cs).length := by simp at h ⊢; omega
        rw [ih (i - c.length) h']
        simp [List.getElem_append_right hc]
      · rename_i hc
        have hc' : i < c.length := by omega
        rw [List.getElem?_eq_getElem hc']
        simp [List.getElem_append_left hc']
  · simp only [SwathsByCells_flatten_eq]
    induction d generalizing i with
    | nil => intro _; rfl
    | cons c cs ih =>
      intro h
      simp only [SwathsByCells.getSwath]
      have : c.length ≤ i := by simp at h; omega
      rw [if_pos this]
      exact ih (i - c.length) (by simp at h ⊢; omega)
  · rw [sizeTotal_eq, SwathsByCells_flatten_eq, List.length_flatten]

/-- cells without swaths are skipped -/
example : SwathsByCells.getSwath
    [[], [(⟨7, [], 1, true, .mainland⟩ : Swath Rat)], [], [⟨8, [], 1, true, .mainland⟩]] 1
    = .ok ⟨8, [], 1, true, .mainland⟩ := rfl

/-! ## C25, appending lines -/

/-- The loop of `append`: every line becomes a swath. -/
theorem appendEach_ok (l : Swaths K) (lines : List (List (Point K))) (w : K) (t : SwathType) (hw : 0 < w) :
    ∃ new, Swaths.appendEach l lines w t = .ok (l ++ new) ∧
      new.map Swath.path = lines ∧
      ∀ i (h : i < new.length), (new[i]).id = (l.length : Int) + i ∧ (new[i]).width = w ∧
        (new[i]).type = t ∧ (new[i]).creationDir = true := by
  induction lines generalizing l with
  | nil => exact ⟨[], by simp [Swaths.appendEach], rfl, by simp⟩
  | cons p ps ih =>
    have hs : Swaths.appendLine l p w t
        = .ok (l ++ [⟨(l.length : Int), p, w, true, t⟩]) := by
      unfold Swaths.appendLine Swath.make Swath.setWidth
      rw [if_neg (not_le.mpr hw)]; rfl
    obtain ⟨new, e, h1, h2⟩ := ih (l ++ [⟨(l.length : Int), p, w, true, t⟩])
    refine ⟨⟨(l.length : Int), p, w, true, t⟩ :: new, ?_, by simp [h1], ?_⟩
    · simp only [Swaths.appendEach, hs, Outcome.ok_bind, e]
      simp
    · intro i h
      cases i with
      | zero => simp
      | succ i =>
        have := h2 i (by simpa using h)
        simp only [List.getElem_cons_succ]
        refine ⟨?_, this.2⟩
        rw [this.1]; simp; omega

/-- **C25**, appending: unless all lines are empty, every line becomes a swath with the given width and type, in
order, numbered from the current size on; nothing else changes. -/
theorem C25_append_numbers (l : Swaths K) (lines : List (List (Point K))) (w : K) (t : SwathType)
    (hw : 0 < w) :
    ∃ new, Swaths.appendLines l lines w t = .ok (l ++ new) ∧
      ((∃ p ∈ lines, p ≠ []) → new.map Swath.path = lines) ∧
      ((∀ p ∈ lines, p = []) → new = []) ∧
      ∀ i (h : i < new.length), (new[i]).id = (l.length : Int) + i ∧ (new[i]).width = w ∧
        (new[i]).type = t ∧ (new[i]).creationDir = true := by
  obtain ⟨new, e, h1, h2⟩ := appendEach_ok l (if lines.all List.isEmpty then [] else lines) w t hw
  refine ⟨new, e, ?_, ?_, h2⟩
  · rintro ⟨p, hp, hne⟩
    rw [h1, if_neg]
    simp only [List.all_eq_true, List.isEmpty_iff]
    exact fun h => hne (h p hp)
  · intro h
    rw [if_pos (by simpa using h)] at h1
    exact List.map_eq_nil_iff.1 h1

/-- The paths of the new swaths are among the lines. -/
theorem mem_lines_of_append {new : Swaths K} {lines : List (List (Point K))}
    (h1 : (∃ p ∈ lines, p ≠ []) → new.map Swath.path = lines) (h2 : (∀ p ∈ lines, p = []) → new = [])
    {s : Swath K} (hs : s ∈ new) : s.path ∈ lines := by
  by_cases h : ∃ p ∈ lines, p ≠ []
  · rw [← h1 h]; exact List.mem_map_of_mem hs
  · simp only [h2 (by simpa using h), List.not_mem_nil] at hs

/-- **C25**, non-positive widths are rejected as soon as there is a line with points. -/
theorem C25_append_rejects (l : Swaths K) (lines : List (List (Point K))) (w : K)
    (t : SwathType) (hw : w ≤ 0) :
    ((∃ p ∈ lines, p ≠ []) → Swaths.appendLines l lines w t = .throw .invalidArgument) ∧
    ((∀ p ∈ lines, p = []) → Swaths.appendLines l lines w t = .ok l) := by
  constructor
  · rintro ⟨p, hp, hne⟩
    unfold Swaths.appendLines
    rw [if_neg (by simp only [List.all_eq_true, List.isEmpty_iff]; exact fun h => hne (h p hp))]
    cases lines with
    | nil => simp at hp
    | cons q qs =>
      simp only [Swaths.appendEach, Swaths.appendLine, Swath.make, Swath.setWidth]
      rw [if_pos hw]; rfl
  · intro h
    unfold Swaths.appendLines
    rw [if_pos (by simpa using h)]
    rfl

example : ∃ new : Swaths Rat, Swaths.appendLines [] [[⟨0, 0, 0⟩], [], [⟨1, 1, 0⟩]] 2 .headland
    = .ok ([] ++ new) ∧ new.map Swath.path = [[⟨0, 0, 0⟩], [], [⟨1, 1, 0⟩]] := by
  obtain ⟨new, e, h, _⟩ := C25_append_numbers (K := Rat) [] [[⟨0, 0, 0⟩], [], [⟨1, 1, 0⟩]] 2
    .headland (by norm_num)
  exact ⟨new, e, h ⟨_, List.mem_cons_self .., by simp⟩⟩

/-- Lines without points alone are ignored, even with a width that is rejected otherwise. -/
example : Swaths.appendLines (K := Rat) [] [[], []] (-2) .headland = .ok [] :=
  (C25_append_rejects [] [[], []] (-2) .headland (by norm_num)).2 (by simp)

/-! ## C65 -/

/-- **C65.** Point equality holds exactly when all coordinates differ by less than `1e-7`; it is
reflexive and symmetric. -/
theorem C65_point_equality [IsStrictOrderedRing K] (a b : Point K) :
    (Point.eqv a b = true ↔
      |a.x - b.x| < 1 / 10 ^ 7 ∧ |a.y - b.y| < 1 / 10 ^ 7 ∧ |a.z - b.z| < 1 / 10 ^ 7) ∧
    Point.eqv a a = true ∧ Point.eqv a b = Point.eqv b a := by
  have ht : (Point.tol : K) = 1 / 10 ^ 7 := by norm_num [Point.tol]
  refine ⟨?_, ?_, ?_⟩
  · simp [Point.eqv, ht, and_assoc]
  · have : (0 : K) < Point.tol := by rw [ht]; positivity
    simp [Point.eqv, this]
  · simp only [Point.eqv, abs_sub_comm a.x b.x, abs_sub_comm a.y b.y, abs_sub_comm a.z b.z]

/-- **C65.** `operator<` is a strict weak order: irreflexive, transitive, and incomparability (same
x and y) is transitive. -/
theorem C65_point_order (a b c : Point K) :
    Point.lt a a = false ∧
    (Point.lt a b = true → Point.lt b c = true → Point.lt a c = true) ∧
    (Point.lt a b = true → Point.lt b a = false) ∧
    ((Point.lt a b = false ∧ Point.lt b a = false) ↔ a.x = b.x ∧ a.y = b.y) := by
  refine ⟨by simp [Point.lt], ?_, ?_, ?_⟩
  · simp only [Point.lt, Bool.or_eq_true, Bool.and_eq_true, decide_eq_true_eq]
    rintro (h | ⟨h, h'⟩) (g | ⟨g, g'⟩)
    · exact .inl (h.trans g)
    · exact .inl (g ▸ h)
    · exact .inl (h ▸ g)
    · exact .inr ⟨h.trans g, h'.trans g'⟩
  · simp only [Point.lt, Bool.or_eq_true, Bool.and_eq_true, decide_eq_true_eq,
      Bool.or_eq_false_iff, Bool.and_eq_false_iff, decide_eq_false_iff_not]
    rintro (h | ⟨h, h'⟩)
    · exact ⟨h.not_gt, .inl h.ne'⟩
    · exact ⟨h ▸ lt_irrefl _, .inr h'.not_gt⟩
  · simp only [Point.lt, Bool.or_eq_false_iff, Bool.and_eq_false_iff, decide_eq_false_iff_not]
    constructor
    · rintro ⟨⟨h1, h2⟩, h3, h4⟩
      have hx : a.x = b.x := le_antisymm (not_lt.mp h3) (not_lt.mp h1)
      refine ⟨hx, ?_⟩
      have h2' := h2.resolve_left (fun h => h hx)
      have h4' := h4.resolve_left (fun h => h hx.symm)
      exact le_antisymm (not_lt.mp h4') (not_lt.mp h2')
    · rintro ⟨h1, h2⟩
      simp [h1, h2]

/-- **C65** is false in its last part: `==` and `<` are not consistent, there are points that are
equal and at the same time less; so `==` is not transitive either. -/
theorem C65_equal_and_less :
    ∃ a b c : Point Rat, Point.eqv a b = true ∧ Point.lt a b = true ∧
      Point.eqv b c = true ∧ Point.eqv a c = false :=
  ⟨⟨0, 0, 0⟩, ⟨6 / 10 ^ 8, 0, 0⟩, ⟨12 / 10 ^ 8, 0, 0⟩, by
    simp only [Point.eqv, Point.lt, Point.tol]; norm_num [abs_of_pos, abs_of_neg]⟩

end Generic

/-! ## C10 -/

/-- **C10** (part that holds): `==` is reflexive on all swaths, and among swaths with the same
direction flag it is symmetric and transitive and `!=` is its negation.  Missing: swaths with
different flags, see `C10_equality_not_symmetric`. -/
theorem C10_equality_partial (a b c : Swath ℝ) :
    Swath.eq a a = true ∧
    (a.creationDir = b.creationDir → Swath.eq a b = Swath.eq b a) ∧
    (a.creationDir = b.creationDir → Swath.neq a b = !(Swath.eq a b)) ∧
    (a.creationDir = b.creationDir → b.creationDir = c.creationDir →
      Swath.eq a b = true → Swath.eq b c = true → Swath.eq a c = true) := by
  have key : ∀ x y : Swath ℝ, x.creationDir = y.creationDir → (Swath.eq x y = true ↔
      x.width = y.width ∧ x.startPoint.x = y.startPoint.x ∧ x.startPoint.y = y.startPoint.y ∧
        lineLength x.path = lineLength y.path) := by
    intro x y h
    unfold Swath.eq Swath.neq
    by_cases hw : x.width = y.width
    · rw [if_neg (by simpa using hw)]
      simp only [Swath.hasSameDir, h, BEq.rfl, if_true]
      simp only [Bool.not_eq_true', Bool.or_eq_false_iff, decide_eq_false_iff_not, not_not, hw,
        true_and, ne_eq]
      constructor
      · rintro ⟨⟨h1, h2⟩, h3⟩; exact ⟨h1.symm, h2.symm, h3⟩
      · rintro ⟨h1, h2, h3⟩; exact ⟨⟨h1.symm, h2.symm⟩, h3⟩
    · rw [if_pos (by simpa using hw)]
      simp [hw]
  have ksymm : ∀ x y : Swath ℝ, x.creationDir = y.creationDir → Swath.eq x y = Swath.eq y x := by
    intro x y h
    rw [Bool.eq_iff_iff, key x y h, key y x h.symm]
    constructor <;> rintro ⟨h1, h2, h3, h4⟩ <;> exact ⟨h1.symm, h2.symm, h3.symm, h4.symm⟩
  refine ⟨(key a a rfl).mpr ⟨rfl, rfl, rfl, rfl⟩, ksymm a b, ?_, ?_⟩
  · intro h
    rw [ksymm a b h]
    simp [Swath.eq]
  · intro h h' e e'
    rw [key a b h] at e
    rw [key b c h'] at e'
    rw [key a c (h.trans h')]
    exact ⟨e.1.trans e'.1, e.2.1.trans e'.2.1, e.2.2.1.trans e'.2.2.1, e.2.2.2.trans e'.2.2.2⟩

/-- A unit swath from the origin to the right. -/
noncomputable def c10a : Swath ℝ := ⟨0, [⟨0, 0, 0⟩, ⟨1, 0, 0⟩], 1, true, .mainland⟩
/-- A unit swath going down to the origin, marked as reversed. -/
noncomputable def c10b : Swath ℝ := ⟨0, [⟨0, 1, 0⟩, ⟨0, 0, 0⟩], 1, false, .mainland⟩
/-- A unit swath from the origin upwards. -/
noncomputable def c10c : Swath ℝ := ⟨0, [⟨0, 0, 0⟩, ⟨0, 1, 0⟩], 1, true, .mainland⟩

/-- **C10** is false: for swaths with different direction flags `==` is not symmetric, and `==` and
`!=` can both hold. -/
theorem C10_equality_not_symmetric :
    Swath.eq c10b c10a = true ∧ Swath.eq c10a c10b = false ∧ Swath.neq c10b c10a = true := by
  have la : lineLength c10a.path = 1 := by simp [c10a, lineLength, pdist]
  have lb : lineLength c10b.path = 1 := by simp [c10b, lineLength, pdist]
  simp [Swath.eq, Swath.neq, la, lb]
  simp [c10a, c10b, Swath.hasSameDir, Swath.startPoint, Swath.endPoint]

/-- **C10**: equality ignores where the swath ends: two swaths leaving the same point in different
directions are equal, hence mutually `<=` and `>=`. -/
theorem C10_equal_different_ends :
    Swath.eq c10a c10c = true ∧ c10a.path ≠ c10c.path ∧
    Swath.le c10a c10c = true ∧ Swath.ge c10a c10c = true := by
  have la : lineLength c10a.path = 1 := by simp [c10a, lineLength, pdist]
  have lc : lineLength c10c.path = 1 := by simp [c10c, lineLength, pdist]
  have h : Swath.eq c10a c10c = true := by
    simp [Swath.eq, Swath.neq, la, lc]
    simp [c10a, c10c, Swath.hasSameDir, Swath.startPoint]
  refine ⟨h, by simp [c10a, c10c], ?_, ?_⟩
  · simp [Swath.le, h]; simp [c10a, c10c]
  · simp [Swath.ge, h]; simp [c10a, c10c]

/-- **C10**: `<=` and `>=` follow ids first and fall back to equality. -/
theorem C10_order_by_id (a b : Swath ℝ) :
    (Swath.le a b = true ↔ a.id < b.id ∨ (a.id = b.id ∧ Swath.eq a b = true)) ∧
    (Swath.ge a b = true ↔ b.id < a.id ∨ (a.id = b.id ∧ Swath.eq a b = true)) := by
  simp [Swath.le, Swath.ge]

/-- **C10**: `<` is a strict weak order on all swaths, as `std::sort` requires, `>` is its converse, and `<=` and
`>=` hold where they do. -/
theorem C10_strict_order (a b c : Swath ℝ) :
    Swath.ltId a a = false ∧ (Swath.ltId a b = true → Swath.ltId b a = false) ∧
    (Swath.ltId a b = true → Swath.ltId b c = true → Swath.ltId a c = true) ∧
    (Swath.ltId a c = true → Swath.ltId a b = true ∨ Swath.ltId b c = true) ∧
    Swath.gtId a b = Swath.ltId b a ∧
    (Swath.ltId a b = true → Swath.le a b = true ∧ Swath.ge a b = false) ∧
    (Swath.gtId a b = true → Swath.ge a b = true ∧ Swath.le a b = false) := by
  simp only [Swath.ltId, Swath.gtId, Swath.le, Swath.ge, decide_eq_true_eq, decide_eq_false_iff_not,
    Bool.or_eq_true, Bool.or_eq_false_iff, Bool.and_eq_true, Bool.and_eq_false_iff, gt_iff_lt, not_lt, le_refl,
    true_and]
  refine ⟨fun h => h.le, fun h1 h2 => h1.trans h2, fun h => ?_, fun h => ⟨.inl h, h.le, .inl h.ne⟩,
    fun h => ⟨.inl h, h.le, .inl h.ne'⟩⟩
  rcases lt_or_ge a.id b.id with h1 | h1
  · exact .inl h1
  · exact .inr (lt_of_le_of_lt h1 h)

/-- **C10**: two different swaths with the same id are not comparable at all. -/
theorem C10_incomparable : ∃ a b : Swath ℝ, Swath.ltId a b = false ∧ Swath.gtId a b = false ∧
    Swath.le a b = false ∧ Swath.ge a b = false ∧ Swath.eq a b = false := by
  refine ⟨⟨0, [], 1, true, .mainland⟩, ⟨0, [], 2, true, .mainland⟩, ?_⟩
  norm_num [Swath.ltId, Swath.gtId, Swath.le, Swath.ge, Swath.eq, Swath.neq]

example : c10a.creationDir = c10c.creationDir ∧ c10a ≠ c10c :=
  ⟨rfl, fun h => by have := congrArg Swath.path h; simp [c10a, c10c] at this⟩

end F2C.Props
