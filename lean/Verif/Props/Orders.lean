import Mathlib.Algebra.Order.Ring.Rat
import Mathlib.Tactic.NormNum
import Verif.Lemmas.Order
import Verif.Lemmas.Swath

/-!
# Property theorems C01 - C08: orders of swaths

The specification vocabulary of this file (`Turned`, `ValidFor`, `heading`) is independent of the
helper functions of the model.
-/

set_option linter.unusedSectionVars false

namespace F2C.Props

variable {K : Type} [Field K] [LinearOrder K]

/-- `b` is `a`, possibly driven the other way: same id and width; the path is the same or
reversed, and the direction flag says which. -/
def Turned (a b : Swath K) : Prop :=
  b.id = a.id ∧ b.width = a.width ∧
    ((b.path = a.path ∧ b.creationDir = a.creationDir) ∨
     (b.path = a.path.reverse ∧ b.creationDir = !a.creationDir))

/-- The order parameters that make sense for `n` swaths. -/
def ValidFor (n : Nat) : OrderKind → Prop
  | .boustrophedon => True
  | .snake => n ≠ 1
  | .spiral s => 1 ≤ s
  | .custom o => n = 0 ∨ o.Perm (List.range n)

theorem validFor_iff (n : Nat) (k : OrderKind) : ValidFor n k ↔ k.Valid n := by
  cases k <;> rfl

private theorem turned_of_upTo {a b : Swath K} (h : a.cloned.UpTo b) : Turned a b := by
  rcases h with rfl | rfl
  · exact ⟨rfl, rfl, .inl ⟨rfl, rfl⟩⟩
  · exact ⟨rfl, rfl, .inr ⟨rfl, rfl⟩⟩

private theorem forall₂_turned {l m : Swaths K}
    (h : List.Forall₂ Swath.UpTo (l.map Swath.cloned) m) : List.Forall₂ Turned l m := by
  induction l generalizing m with
  | nil => cases h; exact .nil
  | cons a l ih => cases h with
    | cons h1 h2 => exact .cons (turned_of_upTo h1) (ih h2)

/-- **C01.** Ordering returns every swath exactly once, changed in nothing but its direction. -/
theorem C01_order_preserves_swaths (stdSort : Swaths K → Swaths K)
    (hsort : Swaths.IsStdSort stdSort) (k : OrderKind) (l : Swaths K) (v : UInt32)
    (hw : ∀ s ∈ l, 0 < s.width) (hk : ValidFor l.length k) :
    ∃ out, genSortedSwaths stdSort k l v = .ok out ∧
      ∃ m, List.Forall₂ Turned l m ∧ out.Perm m := by
  obtain ⟨l₃, e, p⟩ := genSortedSwaths_spec hsort k l v hw ((validFor_iff _ _).mp hk)
  obtain ⟨m, h1, h2⟩ := p.trans (.of_forall₂ (reverseDirOdd_upTo l₃))
  exact ⟨_, e, m, forall₂_turned h1, h2⟩

/-- Two swaths of a unit-width field, used in the examples below. -/
def exA : Swath Rat := ⟨0, [⟨0, 0, 0⟩, ⟨4, 0, 0⟩], 1, true, .mainland⟩
/-- second example swath -/
def exB : Swath Rat := ⟨1, [⟨0, 1, 0⟩, ⟨4, 1, 0⟩], 1, true, .mainland⟩
/-- third example swath -/
def exC : Swath Rat := ⟨2, [⟨0, 2, 0⟩, ⟨4, 2, 0⟩], 1, true, .mainland⟩

/-- C01 is not vacuous: three swaths in snake order. -/
example : ∃ out, genSortedSwaths idSort .snake [exC, exA, exB] 0 = .ok out ∧
    ∃ m, List.Forall₂ Turned [exC, exA, exB] m ∧ out.Perm m :=
  C01_order_preserves_swaths idSort idSort_isStdSort .snake [exC, exA, exB] 0
    (by simp [exA, exB, exC]) (by simp [ValidFor])

/-! ## C02 -/

/-- Displacement from start to end of a swath along direction `(dx, dy)`. -/
def heading (dx dy : K) (s : Swath K) : K :=
  dx * ((s.path.getLast?.getD Point.zero).x - (s.path.head?.getD Point.zero).x) +
  dy * ((s.path.getLast?.getD Point.zero).y - (s.path.head?.getD Point.zero).y)

private theorem heading_reverse [IsStrictOrderedRing K] (dx dy : K) (s : Swath K) :
    heading dx dy s.reverse = - heading dx dy s := by
  simp only [heading, Swath.reverse_path, List.getLast?_reverse, List.head?_reverse]; ring

/-- **C02**, flag level: consecutive swaths of the result have opposite direction flags. -/
theorem C02_flags_alternate (stdSort : Swaths K → Swaths K)
    (hsort : Swaths.IsStdSort stdSort) (k : OrderKind) (l : Swaths K) (v : UInt32)
    (hw : ∀ s ∈ l, 0 < s.width) (hk : ValidFor l.length k) :
    ∃ out, genSortedSwaths stdSort k l v = .ok out ∧
      ∀ i (h : i + 1 < out.length), (out[i]).creationDir ≠ (out[i + 1]).creationDir := by
  obtain ⟨l₃, e, _⟩ := genSortedSwaths_spec hsort k l v hw ((validFor_iff _ _).mp hk)
  refine ⟨_, e, ?_⟩
  have := reverseDirOdd_chain l₃
  rw [List.isChain_iff_getElem] at this
  intro i h
  exact this i h

/-- **C02** (part that holds): if the direction flag of every input swath says whether it runs
along or against a common direction `(dx, dy)`, consecutive swaths of the result are driven in
geometrically opposite directions.  Missing for the full property: without the hypothesis on the
flags it is false, see `C02_same_direction_witness`. -/
theorem C02_alternates_partial [IsStrictOrderedRing K] (stdSort : Swaths K → Swaths K)
    (hsort : Swaths.IsStdSort stdSort) (k : OrderKind) (l : Swaths K) (v : UInt32)
    (hw : ∀ s ∈ l, 0 < s.width) (hk : ValidFor l.length k) (dx dy : K)
    (hdir : ∀ s ∈ l, (s.creationDir = true → 0 < heading dx dy s) ∧
      (s.creationDir = false → heading dx dy s < 0)) :
    ∃ out, genSortedSwaths stdSort k l v = .ok out ∧
      ∀ i (h : i + 1 < out.length), heading dx dy out[i] * heading dx dy out[i + 1] < 0 := by
  obtain ⟨l₃, e, p⟩ := genSortedSwaths_spec hsort k l v hw ((validFor_iff _ _).mp hk)
  refine ⟨_, e, ?_⟩
  set out := Swaths.reverseDirOddSwaths l₃ with hout
  obtain ⟨m, h1, h2⟩ := p.trans (.of_forall₂ (reverseDirOdd_upTo l₃))
  -- every output swath is consistent with its flag
  have hc : ∀ s ∈ out, (s.creationDir = true → 0 < heading dx dy s) ∧
      (s.creationDir = false → heading dx dy s < 0) := by
    intro s hs
    have hs' := h2.mem_iff.mp hs
    obtain ⟨a, ha, hu⟩ : ∃ a ∈ l.map Swath.cloned, a.UpTo s := by
      clear h2 hs p hout e
      generalize l.map Swath.cloned = c at h1
      induction h1 with
      | nil => simp at hs'
      | cons h3 h4 ih =>
        rcases List.mem_cons.mp hs' with rfl | hs''
        · exact ⟨_, by simp, h3⟩
        · obtain ⟨a, ha, hu⟩ := ih hs''
          exact ⟨a, by simp [ha], hu⟩
    obtain ⟨b, hb, rfl⟩ := List.mem_map.mp ha
    have hd := hdir b hb
    have hh : heading dx dy b.cloned = heading dx dy b := rfl
    rcases hu with rfl | rfl
    · exact hd
    · rw [heading_reverse, hh]
      constructor
      · intro hf
        have : b.creationDir = false := by simpa [Swath.cloned] using hf
        have := hd.2 this
        linarith
      · intro hf
        have : b.creationDir = true := by simpa [Swath.cloned] using hf
        have := hd.1 this
        linarith
  have hch := reverseDirOdd_chain l₃
  rw [List.isChain_iff_getElem] at hch
  intro i h
  have hne := hch i h
  have ha := hc (out[i]) (List.getElem_mem _)
  have hb := hc (out[i + 1]) (List.getElem_mem _)
  change (out[i]).creationDir ≠ (out[i + 1]).creationDir at hne
  cases h3 : (out[i]).creationDir <;> cases h4 : (out[i + 1]).creationDir
  · exact absurd (h3.trans h4.symm) hne
  · exact mul_neg_of_neg_of_pos (ha.2 h3) (hb.1 h4)
  · exact mul_neg_of_pos_of_neg (ha.1 h3) (hb.2 h4)
  · exact absurd (h3.trans h4.symm) hne

/-- The hypotheses of `C02_alternates_partial` hold for the three example swaths. -/
example : ∃ out, genSortedSwaths idSort .boustrophedon [exC, exA, exB] 2 = .ok out ∧
    ∀ i (h : i + 1 < out.length), heading 1 0 out[i] * heading 1 0 out[i + 1] < 0 :=
  C02_alternates_partial idSort idSort_isStdSort .boustrophedon [exC, exA, exB] 2
    (by simp [exA, exB, exC]) trivial 1 0
    (by simp [exA, exB, exC, heading, Point.zero])

/-- A swath that was created right to left and then turned by the user: it runs left to right,
but its flag is the opposite of `exA`'s. -/
def exTurned : Swath Rat := Swath.reverse ⟨1, [⟨4, 1, 0⟩, ⟨0, 1, 0⟩], 1, true, .mainland⟩

/-- **C02** is false in general: for these two parallel swaths the boustrophedon order drives both
from left to right. -/
theorem C02_same_direction_witness :
    genSortedSwaths idSort .boustrophedon [exA, exTurned] 0 = .ok [exA, exTurned] ∧
    0 < heading 1 0 exA ∧ 0 < heading 1 0 exTurned := by
  refine ⟨?_, by norm_num [heading, exA, Point.zero], by
    norm_num [heading, exTurned, Swath.reverse, Point.zero]⟩
  decide +kernel

/-! ## C03 -/

/-- **C03.** Boustrophedon order visits by non-decreasing id (bit 0 of the variant clear) or by
non-increasing id (bit 0 set). -/
theorem C03_boustrophedon_sorted (stdSort : Swaths K → Swaths K)
    (hsort : Swaths.IsStdSort stdSort) (l : Swaths K) (v : UInt32)
    (hw : ∀ s ∈ l, 0 < s.width) :
    ∃ out, genSortedSwaths stdSort .boustrophedon l v = .ok out ∧
      (v &&& 1 = 0 → (out.map Swath.id).Pairwise (· ≤ ·)) ∧
      (v &&& 1 ≠ 0 → (out.map Swath.id).Pairwise (· ≥ ·)) := by
  unfold genSortedSwaths
  rw [Swaths.clone_eq, if_pos hw]
  simp only [Outcome.ok_bind]
  set c := l.map Swath.cloned
  by_cases h0 : 0 < c.length
  · rw [if_pos h0]
    have hs := sort_permUpTo hsort c
    have hsorted : ((Swaths.sort stdSort c).map Swath.id).Pairwise (· ≤ ·) := by
      rw [List.pairwise_map]
      exact (hsort.sorted _).imp fun h => by omega
    have hids : ∀ l' : Swaths K, ∀ l'', changeStartPoint l' v = .ok l'' →
        l''.map Swath.id = (if v &&& 1 ≠ 0 then l'.reverse else l').map Swath.id := by
      intro l' l'' h
      unfold changeStartPoint at h
      simp only at h
      split at h
      · split at h
        · simp at h
        · rename_i s r he
          injection h with h
          rw [← h, he]; simp
      · injection h with h
        rw [← h]
    obtain ⟨l₂, e2, p2, n2⟩ := changeStartPoint_spec (Swaths.sort stdSort c) v
      (by rw [hs.length_eq]; exact h0)
    rw [e2]
    refine ⟨_, rfl, ?_, ?_⟩
    · intro hv
      rw [reverseDirOdd_ids, hids _ _ e2, if_neg (by simpa using hv)]
      exact hsorted
    · intro hv
      rw [reverseDirOdd_ids, hids _ _ e2, if_pos hv, List.map_reverse, List.pairwise_reverse]
      exact hsorted
  · rw [if_neg h0]
    have : c = [] := by cases hc : c with
      | nil => rfl
      | cons a l => rw [hc] at h0; simp at h0
    rw [this]
    exact ⟨[], rfl, by simp, by simp⟩

example : ∃ out, genSortedSwaths idSort .boustrophedon [exC, exA, exB] 1 = .ok out ∧
      ((1 : UInt32) &&& 1 = 0 → (out.map Swath.id).Pairwise (· ≤ ·)) ∧
      ((1 : UInt32) &&& 1 ≠ 0 → (out.map Swath.id).Pairwise (· ≥ ·)) :=
  C03_boustrophedon_sorted idSort idSort_isStdSort [exC, exA, exB] 1 (by simp [exA, exB, exC])

/-! ## C04 -/

/-- **C04.** With two or more swaths the snake order visits the even positions upwards and then
the odd positions downwards. -/
theorem C04_snake_pattern {α : Type} (l : List α) (h : 2 ≤ l.length) :
    ∃ out, OrderKind.snake.sortSwaths l = .ok out ∧ out.length = l.length ∧
      (∀ k, 2 * k < l.length → out[k]? = l[2 * k]?) ∧
      (∀ k, 2 * k + 1 < l.length → out[l.length - 1 - k]? = l[2 * k + 1]?) := by
  refine ⟨_, snakeSort_spec l h, by simp [evs_length, ods_length]; omega, ?_, ?_⟩
  · intro k hk
    rw [List.getElem?_append_left (by rw [evs_length]; omega), evs_getElem?]
  · intro k hk
    rw [List.getElem?_append_right (by rw [evs_length]; omega), evs_length]
    rw [List.getElem?_reverse (by rw [ods_length]; omega), ods_getElem?, ods_length]
    congr 1
    omega

/-- **C04**, consequence for neighbours: positions visited one after the other are at most two
apart, so a turn skips at most one swath. -/
theorem C04_snake_jump_at_most_two (n : Nat) (h : 2 ≤ n) :
    ∃ out, OrderKind.snake.sortSwaths (List.range n) = .ok out ∧ out.Perm (List.range n) ∧
      (∀ i (hi : i + 1 < out.length), out[i + 1] ≤ out[i] + 2 ∧ out[i] ≤ out[i + 1] + 2) ∧
      out[0]? = some 0 ∧ out.getLast? = some 1 := by
  obtain ⟨out, e, hl, h1, h2⟩ := C04_snake_pattern (List.range n) (by simpa using h)
  simp only [List.length_range] at hl h1 h2
  have hval : ∀ i, i < n → out[i]? = some (if 2 * i < n then 2 * i else 2 * (n - 1 - i) + 1) := by
    intro i hi
    split
    · rename_i h3
      rw [h1 i h3, List.getElem?_range h3]
    · rename_i h3
      have := h2 (n - 1 - i) (by omega)
      rw [show n - 1 - (n - 1 - i) = i by omega] at this
      rw [this, List.getElem?_range (by omega)]
  refine ⟨out, e, ?_, ?_, ?_, ?_⟩
  · obtain ⟨o', e', p⟩ := sortSwaths_perm .snake (List.range n) (by simp; omega)
      (by simp [OrderKind.Valid]; omega)
    rw [e] at e'; injection e' with e'; rw [e']; exact p
  · intro i hi
    rw [hl] at hi
    have a := hval i (by omega)
    have b := hval (i + 1) hi
    rw [List.getElem?_eq_getElem (by omega)] at a b
    injection a with a
    injection b with b
    rw [a, b]
    split <;> split <;> omega
  · rw [hval 0 (by omega)]; simp; omega
  · rw [List.getLast?_eq_getElem?, hl, hval (n - 1) (by omega)]
    rw [if_neg (by omega)]; simp

example : OrderKind.snake.sortSwaths [10, 11, 12, 13, 14, 15, 16]
    = .ok [10, 12, 14, 16, 15, 13, 11] := by decide +kernel

/-! ## C05 -/

/-- **C05** (part that holds): no undefined behaviour whatever the widths, ids and variant are,
for every order class, if the snake order is not used on a single swath and the spiral size is not
set to zero.  Missing for the full property: exactly the two excluded cases, which are undefined
behaviour (next two theorems). -/
theorem C05_no_ub_partial (stdSort : Swaths K → Swaths K)
    (hsort : Swaths.IsStdSort stdSort) (k : OrderKind) (l : Swaths K) (v : UInt32)
    (hsnake : k = .snake → l.length ≠ 1) (hspiral : k ≠ .spiral 0) :
    (genSortedSwaths stdSort k l v).isUb = false := by
  by_cases hw : ∀ s ∈ l, 0 < s.width
  · by_cases hk : k.Valid l.length
    · obtain ⟨l₃, e, _⟩ := genSortedSwaths_spec hsort k l v hw hk
      rw [e]; rfl
    · cases k with
      | boustrophedon => exact absurd trivial hk
      | snake => exact absurd (hsnake rfl) hk
      | spiral s =>
        refine absurd (Nat.pos_of_ne_zero fun h => hspiral (by rw [h])) hk
      | custom o =>
        simp only [OrderKind.Valid, not_or] at hk
        unfold genSortedSwaths
        rw [Swaths.clone_eq, if_pos hw]
        simp only [Outcome.ok_bind]
        rw [if_pos (by simp; omega)]
        have hs := sort_permUpTo hsort (l.map Swath.cloned)
        obtain ⟨l₂, e2, p2, n2⟩ := changeStartPoint_spec (Swaths.sort stdSort (l.map Swath.cloned)) v
          (by rw [hs.length_eq]; simp; omega)
        have hn : l₂.length = l.length := by rw [n2, hs.length_eq]; simp
        rw [e2]
        simp only [Outcome.ok_bind, OrderKind.sortSwaths, customSort, hn]
        obtain ⟨c1, c2, c3, c4, c5⟩ := customCheck_cases o l.length
        by_cases hnd : o.Nodup
        · by_cases hlen : o.length = l.length
          · by_cases hx : ∃ x ∈ o, l.length ≤ x
            · rw [c4 hnd hlen (by omega) hx]; rfl
            · exfalso
              apply hk.2
              rw [perm_range_iff]
              refine ⟨hnd, hlen, fun x h => ?_⟩
              by_contra hc
              exact hx ⟨x, h, by omega⟩
          · rw [c2 hnd hlen]; rfl
        · rw [c1 hnd]; rfl
  · unfold genSortedSwaths
    rw [Swaths.clone_eq, if_neg hw]
    rfl

/-- **C05** is false: snake order on any single swath is undefined behaviour
(`begin() + 2` past the end of a vector of size one). -/
theorem C05_snake_single_swath_ub (stdSort : Swaths K → Swaths K)
    (hsort : Swaths.IsStdSort stdSort) (s : Swath K) (v : UInt32) (hw : 0 < s.width) :
    (genSortedSwaths stdSort .snake [s] v).isUb = true := by
  unfold genSortedSwaths
  rw [Swaths.clone_eq, if_pos (by simpa using hw)]
  simp only [Outcome.ok_bind, List.map_cons, List.map_nil]
  rw [if_pos (by simp)]
  have hs := sort_permUpTo hsort [s.cloned]
  obtain ⟨l₂, e2, p2, n2⟩ := changeStartPoint_spec (Swaths.sort stdSort [s.cloned]) v
    (by rw [hs.length_eq]; simp)
  rw [e2]
  simp only [Outcome.ok_bind]
  have hn : l₂.length = 1 := by rw [n2, hs.length_eq]; rfl
  obtain ⟨a, rfl⟩ := List.length_eq_one_iff.mp hn
  have : (OrderKind.snake.sortSwaths [a]).isUb = true := by
    simp only [OrderKind.sortSwaths, snakeSort]
    rw [snakeLoop]
    simp [reverseRange]
  cases h : OrderKind.snake.sortSwaths [a] with
  | ok _ => rw [h] at this; simp at this
  | throw _ => rw [h] at this; simp at this
  | ub w => rfl

/-- **C05** is false: a spiral size of zero divides by zero. -/
theorem C05_spiral_zero_ub (stdSort : Swaths K → Swaths K)
    (hsort : Swaths.IsStdSort stdSort) (l : Swaths K) (v : UInt32) (hl : l ≠ [])
    (hw : ∀ s ∈ l, 0 < s.width) :
    (genSortedSwaths stdSort (.spiral 0) l v).isUb = true := by
  have h0 : 0 < (l.map Swath.cloned).length := by
    simpa using List.length_pos_iff.mpr hl
  unfold genSortedSwaths
  rw [Swaths.clone_eq, if_pos hw]
  simp only [Outcome.ok_bind]
  rw [if_pos h0]
  have hs := sort_permUpTo hsort (l.map Swath.cloned)
  obtain ⟨l₂, e2, p2, n2⟩ := changeStartPoint_spec (Swaths.sort stdSort (l.map Swath.cloned)) v
    (by rw [hs.length_eq]; exact h0)
  rw [e2]
  rfl

example : (genSortedSwaths idSort .snake [exA] 0).isUb = true :=
  C05_snake_single_swath_ub idSort idSort_isStdSort exA 0 (by simp [exA])
example : (genSortedSwaths idSort (.spiral 0) [exA, exB] 0).isUb = true :=
  C05_spiral_zero_ub idSort idSort_isStdSort _ 0 (by simp) (by simp [exA, exB])
example : (genSortedSwaths idSort (.custom [0, 0]) [exA, exB] 3).isUb = false :=
  C05_no_ub_partial idSort idSort_isStdSort _ _ 3 (by simp) (by simp)

/-! ## C06 -/

/-- **C06.** With spiral size `s` the list is cut in blocks of `s` (the last may be shorter).
Position `j` of the block with offset `o` and length `b` is filled, alternating, from the front
and from the back of the block: blocks with an even offset begin with their first swath, blocks
with an odd offset with their last one. -/
theorem C06_spiral_pattern {α : Type} (s : Nat) (hs : 1 ≤ s) (l : List α) :
    ∃ out, (OrderKind.spiral s).sortSwaths l = .ok out ∧ out.length = l.length ∧
      ∀ q j, j < s → q * s + j < l.length →
        let o := q * s
        let b := min s (l.length - o)
        (o % 2 = 0 → j % 2 = 0 → out[o + j]? = l[o + j / 2]?) ∧
        (o % 2 = 0 → j % 2 = 1 → out[o + j]? = l[o + (b - 1 - j / 2)]?) ∧
        (o % 2 = 1 → j % 2 = 0 → out[o + j]? = l[o + (b - 1 - j / 2)]?) ∧
        (o % 2 = 1 → j % 2 = 1 → out[o + j]? = l[o + j / 2]?) := by
  refine ⟨_, spiralSort_spec s l hs, (blocksOrder_perm _ _ _ _).length_eq, ?_⟩
  intro q j hj hl
  have hq : q < l.length / s + 1 := by
    have : q ≤ l.length / s := by
      rw [Nat.le_div_iff_mul_le (by omega)]; omega
    omega
  have := blocksOrder_getElem? s hs 0 l (l.length / s + 1) q j hq hj hl
  simp only [Nat.zero_add] at this
  simp only
  rw [this]
  refine ⟨?_, ?_, ?_, ?_⟩ <;> intro h1 h2
  · rw [if_pos (by omega)]
  · rw [if_neg (by omega)]
  · rw [if_neg (by omega)]
  · rw [if_pos (by omega)]

example : (OrderKind.spiral 6).sortSwaths [1, 2, 3, 4, 5, 6, 7, 8, 9, 10]
    = .ok [1, 6, 2, 5, 3, 4, 7, 10, 8, 9] := by decide +kernel
example : (OrderKind.spiral 5).sortSwaths [1, 2, 3, 4, 5, 6, 7, 8, 9, 10]
    = .ok [1, 5, 2, 4, 3, 10, 6, 9, 7, 8] := by decide +kernel

/-- **C06**, constructor: an order built for a size between 2 and 2^31 - 1 has that size; for every other size, including
negative ones turned into `size_t`, sorting is still without undefined behaviour. -/
theorem C06_constructor {α : Type} (s : Nat) (l : List α) :
    (2 ≤ s → s < 2 ^ 31 → spiralCtorSize s = s) ∧ (s < 2 → spiralCtorSize s = 2) ∧
    (2 ^ 64 - 2 ^ 31 ≤ s → s < 2 ^ 64 → spiralCtorSize s = 2) ∧ 2 ≤ spiralCtorSize s ∧
    ∃ out, (OrderKind.spiral (spiralCtorSize s)).sortSwaths l = .ok out ∧ out.length = l.length := by
  have h2 : 2 ≤ spiralCtorSize s := by unfold spiralCtorSize; omega
  refine ⟨fun h1 h3 => ?_, fun h1 => ?_, fun h1 h3 => ?_, h2, ?_⟩
  · unfold spiralCtorSize toInt32; omega
  · unfold spiralCtorSize toInt32; omega
  · unfold spiralCtorSize toInt32; omega
  · obtain ⟨out, e, hl, -⟩ := C06_spiral_pattern (spiralCtorSize s) (by omega) l
    exact ⟨out, e, hl⟩

/-- Sizes 6, 0, -1 and 2^32 + 3 given to the constructor. -/
example : spiralCtorSize 6 = 6 ∧ spiralCtorSize 0 = 2 ∧ spiralCtorSize (2 ^ 64 - 1) = 2 ∧ spiralCtorSize (2 ^ 32 + 3) = 3 := by
  decide +kernel

/-! ## C07 -/

/-- **C07.** On a non-empty list a custom order is accepted exactly if it is a permutation of the
positions; then position `i` of the result is position `order[i]` of the input.  Repeated numbers
and numbers that are too large give `invalid_argument`, a wrong number of entries `length_error`;
there is no undefined behaviour. -/
theorem C07_custom_order {α : Type} (o : List Nat) (l : List α) (hl : l ≠ []) :
    (o.Perm (List.range l.length) →
      ∃ out, (OrderKind.custom o).sortSwaths l = .ok out ∧ out.length = l.length ∧
        ∀ i (hi : i < o.length), out[i]? = l[o[i]]?) ∧
    (¬ o.Nodup → (OrderKind.custom o).sortSwaths l = .throw .invalidArgument) ∧
    (o.Nodup → o.length ≠ l.length → (OrderKind.custom o).sortSwaths l = .throw .lengthError) ∧
    (o.Nodup → o.length = l.length → (∃ x ∈ o, l.length ≤ x) →
      (OrderKind.custom o).sortSwaths l = .throw .invalidArgument) := by
  have h0 : 0 < l.length := List.length_pos_iff.mpr hl
  obtain ⟨c1, c2, c3, c4, c5⟩ := customCheck_cases o l.length
  refine ⟨?_, ?_, ?_, ?_⟩
  · intro h
    obtain ⟨out, e, h2, h3⟩ := customSort_of_perm o l h0 h
    refine ⟨out, e, h3.length_eq, fun i hi => ?_⟩
    have hlen : out.length = o.length := by
      have := congrArg List.length h2; simpa using this
    have := congrArg (fun x => x[i]?) h2
    simp only [List.getElem?_map, List.getElem?_eq_getElem hi,
      List.getElem?_eq_getElem (l := out) (hlen ▸ hi), Option.map_some] at this
    injection this with this
    rw [List.getElem?_eq_getElem (by omega : i < out.length)]
    exact this
  · intro h; simp [OrderKind.sortSwaths, customSort, c1 h]
  · intro h h'; simp [OrderKind.sortSwaths, customSort, c2 h h']
  · intro h h' h''; simp [OrderKind.sortSwaths, customSort, c4 h h' h0 h'']

/-- The four cases of `C07_custom_order` are exhaustive: an order that is none of the rejected
ones is a permutation. -/
theorem C07_cases_exhaustive (o : List Nat) (n : Nat) :
    o.Perm (List.range n) ∨ ¬ o.Nodup ∨ (o.Nodup ∧ o.length ≠ n) ∨
      (o.Nodup ∧ o.length = n ∧ ∃ x ∈ o, n ≤ x) := by
  by_cases h1 : o.Nodup
  · by_cases h2 : o.length = n
    · by_cases h3 : ∃ x ∈ o, n ≤ x
      · exact .inr (.inr (.inr ⟨h1, h2, h3⟩))
      · refine .inl ((perm_range_iff o n).mpr ⟨h1, h2, fun x hx => ?_⟩)
        by_contra hc
        exact h3 ⟨x, hx, by omega⟩
    · exact .inr (.inr (.inl ⟨h1, h2⟩))
  · exact .inr (.inl h1)

example : [2, 0, 1].Perm (List.range [exA, exB, exC].length) := by decide
example : (OrderKind.custom [2, 0, 1]).sortSwaths ["a", "b", "c"] = .ok ["c", "a", "b"] := by
  decide +kernel

/-! ## C08 -/

/-- **C08**, first part: only the two lowest bits of the variant matter. -/
theorem C08_variant_mod_four (stdSort : Swaths K → Swaths K) (k : OrderKind) (l : Swaths K)
    (v : UInt32) :
    genSortedSwaths stdSort k l v = genSortedSwaths stdSort k l (v &&& 3) := by
  unfold genSortedSwaths
  simp only [changeStartPoint_mod4 _ v]

/-- **C08**, second part: bit 0 reverses the visiting order of the boustrophedon pattern. -/
theorem C08_bit0_other_end (stdSort : Swaths K → Swaths K) (l : Swaths K) (hw : ∀ s ∈ l, 0 < s.width) :
    ∃ out₀ out₁, genSortedSwaths stdSort .boustrophedon l 0 = .ok out₀ ∧
      genSortedSwaths stdSort .boustrophedon l 1 = .ok out₁ ∧
      out₁.map Swath.id = (out₀.map Swath.id).reverse := by
  unfold genSortedSwaths
  rw [Swaths.clone_eq, if_pos hw]
  simp only [Outcome.ok_bind]
  by_cases h0 : 0 < (l.map Swath.cloned).length
  · simp only [gt_iff_lt, h0, if_true]
    refine ⟨_, _, rfl, rfl, ?_⟩
    simp only [reverseDirOdd_ids]
    rw [← List.map_reverse]; rfl
  · simp only [gt_iff_lt, h0, if_false]
    have : l.map Swath.cloned = [] := by
      cases hc : l.map Swath.cloned with
      | nil => rfl
      | cons a l => rw [hc] at h0; simp at h0
    rw [this]
    exact ⟨[], [], rfl, rfl, rfl⟩

/-- **C08**, third part (part that holds): for the boustrophedon, snake and spiral orders setting
bit 1 turns every swath of the result and changes nothing else.  Missing for the full property:
custom orders, see `C08_custom_ignores_bit1`. -/
theorem C08_bit1_turns_all_partial (stdSort : Swaths K → Swaths K)
    (hsort : Swaths.IsStdSort stdSort) (k : OrderKind) (l : Swaths K) (hk : ValidFor l.length k)
    (hc : ∀ o, k ≠ .custom o) (hw : ∀ s ∈ l, 0 < s.width) (b : UInt32)
    (hb : b = 0 ∨ b = 1) :
    ∃ out, genSortedSwaths stdSort k l b = .ok out ∧
      genSortedSwaths stdSort k l (b + 2) = .ok (out.map Swath.reverse) := by
  unfold genSortedSwaths
  rw [Swaths.clone_eq, if_pos hw]
  simp only [Outcome.ok_bind]
  by_cases h0 : 0 < (l.map Swath.cloned).length
  · rw [if_pos h0]
    have hs := (sort_permUpTo hsort (l.map Swath.cloned)).length_eq
    set srt := Swaths.sort stdSort (l.map Swath.cloned)
    obtain ⟨s, r, hsr, hb1, hb2⟩ : ∃ s r, r.length + 1 = l.length ∧
        changeStartPoint srt b = .ok (s :: r) ∧
        changeStartPoint srt (b + 2) = .ok (s.reverse :: r) := by
      rcases hb with rfl | rfl
      · cases h : srt with
        | nil => rw [h] at hs; simp at hs h0; omega
        | cons s r =>
          refine ⟨s, r, by rw [h] at hs; simpa using hs, rfl, rfl⟩
      · cases h : srt.reverse with
        | nil =>
          have := congrArg List.length h
          simp at this h0; simp [this] at hs; omega
        | cons s r =>
          refine ⟨s, r, ?_, ?_, ?_⟩
          · have := congrArg List.length h
            simp at this hs; omega
          · show changeStartPoint srt 1 = _
            have : changeStartPoint srt 1 = .ok srt.reverse := rfl
            rw [this, h]
          · have : changeStartPoint srt (1 + 2) = (match srt.reverse with
                | [] => .ub "changeStartPoint: swaths[0] of an empty vector"
                | s :: r => .ok (s.reverse :: r)) := rfl
            rw [this, h]
    rw [hb1, hb2]
    simp only [Outcome.ok_bind]
    obtain ⟨r', _, hx⟩ := sortSwaths_head k r (by rw [hsr]; exact (validFor_iff _ _).mp hk) hc
    rw [hx, hx]
    refine ⟨_, rfl, ?_⟩
    rw [if_pos h0]
    simp [Swaths.reverseDirOddSwaths, reverseDirFrom_reverse]
  · rw [if_neg h0]
    have : l.map Swath.cloned = [] := by
      cases hc : l.map Swath.cloned with
      | nil => rfl
      | cons a l => rw [hc] at h0; simp at h0
    rw [this]
    refine ⟨[], rfl, ?_⟩
    rw [if_neg (by simp)]; rfl

/-- `p` lies to the left of `q`, or below it on the same vertical. -/
def LeftOrBelow (p q : Point K) : Prop := p.x < q.x ∨ (p.x = q.x ∧ p.y < q.y)

/-- The swath runs to the right, or upwards on a vertical. -/
def RunsUp (s : Swath K) : Prop := ∃ a b, s.path.head? = some a ∧ s.path.getLast? = some b ∧ LeftOrBelow a b

/-- The swath runs to the left, or downwards on a vertical. -/
def RunsDown (s : Swath K) : Prop := ∃ a b, s.path.head? = some a ∧ s.path.getLast? = some b ∧ LeftOrBelow b a

private theorem not_runsDown_orient (l : Swaths K) : ∀ s ∈ Swaths.orient l, ¬ RunsDown s := by
  intro s hs
  obtain ⟨t, _, rfl⟩ := List.mem_map.mp hs
  rintro ⟨a, b, ha, hb, h⟩
  have hlt : ∀ p q : Point K, p.lt q = true ↔ LeftOrBelow p q := by
    intro p q
    simp [Point.lt, LeftOrBelow]
  have hno : ∀ p q : Point K, LeftOrBelow p q → ¬ LeftOrBelow q p := by
    rintro p q (h | ⟨h1, h2⟩) (h' | ⟨h1', h2'⟩)
    · exact lt_asymm h h'
    · exact absurd h1' h.ne'
    · exact absurd h1 h'.ne'
    · exact lt_asymm h2 h2'
  by_cases hc : t.endPoint.lt t.startPoint = true
  · rw [if_pos hc] at ha hb
    simp only [Swath.reverse_path, List.head?_reverse, List.getLast?_reverse] at ha hb
    rw [Swath.endPoint, Swath.startPoint, ha, hb, hlt] at hc
    exact hno _ _ h hc
  · rw [if_neg hc] at ha hb
    rw [Swath.endPoint, Swath.startPoint, ha, hb, hlt] at hc
    exact hc h

/-- **C08**, where to begin: with bit 1 of the variant clear the first swath of the result never runs
to the left (nor downwards on a vertical), whatever its direction was in the input. -/
theorem C08_first_runs_up (stdSort : Swaths K → Swaths K) (hsort : Swaths.IsStdSort stdSort)
    (k : OrderKind) (l : Swaths K) (hk : ValidFor l.length k) (hw : ∀ s ∈ l, 0 < s.width) (b : UInt32)
    (hb : b = 0 ∨ b = 1) :
    ∃ out, genSortedSwaths stdSort k l b = .ok out ∧ ∀ s, out.head? = some s → ¬ RunsDown s := by
  unfold genSortedSwaths
  rw [Swaths.clone_eq, if_pos hw]
  simp only [Outcome.ok_bind]
  by_cases h0 : 0 < (l.map Swath.cloned).length
  · rw [if_pos h0]
    set o := Swaths.orient (l.map Swath.cloned) with ho
    have hp : (Swaths.sort stdSort (l.map Swath.cloned)).Perm o := hsort.perm _
    obtain ⟨m, hm, hmp⟩ : ∃ m, changeStartPoint (Swaths.sort stdSort (l.map Swath.cloned)) b = .ok m ∧
        m.Perm o := by
      rcases hb with rfl | rfl
      · exact ⟨_, rfl, hp⟩
      · exact ⟨_, rfl, (List.reverse_perm _).trans hp⟩
    have hl : m.length = l.length := by
      rw [hmp.length_eq, ho]
      simp [Swaths.orient]
    obtain ⟨q, hq, hqp⟩ := sortSwaths_perm k m (by rw [hl]; simpa using h0)
      (by rw [hl]; exact (validFor_iff _ _).mp hk)
    rw [hm]
    simp only [Outcome.ok_bind, hq]
    refine ⟨_, rfl, fun s hs => ?_⟩
    have : s ∈ q := by
      cases q with
      | nil => cases hs
      | cons a r =>
        simp only [Swaths.reverseDirOddSwaths, List.head?_cons, Option.some.injEq] at hs
        subst hs
        exact List.mem_cons_self
    exact not_runsDown_orient _ s ((hqp.trans hmp).mem_iff.mp this)
  · rw [if_neg h0]
    refine ⟨_, rfl, fun s hs => ?_⟩
    have h1 : l.map Swath.cloned = [] := List.eq_nil_of_length_eq_zero (by omega)
    rw [h1] at hs
    cases hs

/-- Together with the third part: with bit 1 set, except for custom orders, it never runs to the right. -/
theorem C08_first_runs_down_partial (stdSort : Swaths K → Swaths K) (hsort : Swaths.IsStdSort stdSort)
    (k : OrderKind) (l : Swaths K) (hk : ValidFor l.length k) (hc : ∀ o, k ≠ .custom o)
    (hw : ∀ s ∈ l, 0 < s.width) (b : UInt32) (hb : b = 0 ∨ b = 1) :
    ∃ out, genSortedSwaths stdSort k l (b + 2) = .ok out ∧ ∀ s, out.head? = some s → ¬ RunsUp s := by
  obtain ⟨out, h1, h2⟩ := C08_bit1_turns_all_partial stdSort hsort k l hk hc hw b hb
  obtain ⟨out', h3, h4⟩ := C08_first_runs_up stdSort hsort k l hk hw b hb
  rw [h1] at h3
  injection h3 with h3
  subst h3
  refine ⟨_, h2, fun s hs => ?_⟩
  cases out with
  | nil => cases hs
  | cons a r =>
    simp only [List.map_cons, List.head?_cons, Option.some.injEq] at hs
    subst hs
    rintro ⟨p, q, hp, hq, h⟩
    simp only [Swath.reverse_path, List.head?_reverse, List.getLast?_reverse] at hp hq
    exact h4 a rfl ⟨q, p, hq, hp, h⟩

/-- The first swath of the input runs to the left; it is turned. -/
example : ∃ out, genSortedSwaths idSort .snake [exA.reverse, exB, exC] 0 = .ok out ∧
    ∀ s, out.head? = some s → ¬ RunsDown s :=
  C08_first_runs_up idSort idSort_isStdSort _ _ (by simp [ValidFor]) (by simp [exA, exB, exC, Swath.reverse])
    0 (.inl rfl)

/-- **C08** is false for custom orders: if the order does not begin with position 0, bit 1 of the
variant has no effect at all; the first swath is driven in the same direction. -/
theorem C08_custom_ignores_bit1 :
    genSortedSwaths idSort (.custom [1, 0]) [exA, exB] 2
      = genSortedSwaths idSort (.custom [1, 0]) [exA, exB] 0 ∧
    genSortedSwaths idSort (.custom [1, 0]) [exA, exB] 0 = .ok [exB, exA.reverse] := by
  decide +kernel

example : ∃ out, genSortedSwaths idSort (.spiral 2) [exA, exB, exC] 1 = .ok out ∧
      genSortedSwaths idSort (.spiral 2) [exA, exB, exC] (1 + 2) = .ok (out.map Swath.reverse) :=
  C08_bit1_turns_all_partial idSort idSort_isStdSort _ _ (by simp [ValidFor]) (by simp)
    (by simp [exA, exB, exC]) 1 (.inr rfl)

end F2C.Props
