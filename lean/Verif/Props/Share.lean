import Mathlib.Tactic.NormNum
import Verif.Model.Share
import Verif.Lemmas.Container
import Verif.Props.Containers

/-! # C95: copies of containers -/

namespace F2C.Props

open F2C.Share

set_option linter.unusedSimpArgs false

variable {α : Type}

/-- Every variable refers to an object. -/
def Valid (m : Mem α) : Prop := ∀ x, m.env x < m.heap.length

/-- Two variables refer to the same object. -/
def Same (m : Mem α) (x y : Nat) : Prop := m.env x = m.env y

/-- What the statements mean if variables hold values: each changes the variable on its left only. -/
def valueStep (o : ContainerOps α) (wkt : List α → List α) (v : Nat → List α) :
    Op α → Outcome (Nat → List α)
  | .copy x y => .ok fun z => if z = x then v y else v z
  | .clone x y => .ok fun z => if z = x then wkt (v y) else v z
  | .add x a => .ok fun z => if z = x then o.add (v x) a else v z
  | .set x i a => do
    let w ← o.set (v x) i a
    .ok fun z => if z = x then w else v z
  | .each x f => .ok fun z => if z = x then (v x).map f else v z

def valueRun (o : ContainerOps α) (wkt : List α → List α) (v : Nat → List α) :
    List (Op α) → Outcome (Nat → List α)
  | [] => .ok v
  | s :: ss => do valueRun o wkt (← valueStep o wkt v s) ss

/-- The discipline under which copies are safe: `own x` says that variable `x` has its object for itself.
Copying takes that away from both variables; cloning and replacing an existing child give it back; adding
children and scaling require it. -/
def Careful (o : ContainerOps α) (wkt : List α → List α) :
    (Nat → Prop) → (Nat → List α) → List (Op α) → Prop
  | _, _, [] => True
  | own, v, s :: ss =>
    (match s with
      | .add x _ => own x
      | .each x _ => own x
      | .set x i _ => i < o.size (v x) ∨ own x
      | _ => True) ∧
    ∀ v', valueStep o wkt v s = .ok v' → Careful o wkt
      (match s with
        | .copy x y => fun z => z ≠ x ∧ z ≠ y ∧ own z
        | .clone x _ => fun z => z = x ∨ own z
        | .set x _ _ => fun z => z = x ∨ own z
        | _ => own) v' ss

/-- Index below the size, or not: `setGeometry` always returns. -/
theorem set_ok (o : ContainerOps α) (m : List α) (i : Nat) (a : α) : ∃ m', o.set m i a = .ok m' := by
  have hr : ∀ k j acc, j + k ≤ o.size m → ∃ m', o.rebuild m i a k j acc = .ok m' := by
    intro k
    induction k with
    | zero => intro j acc _; exact ⟨_, rfl⟩
    | succ k ih =>
      intro j acc h
      rw [ContainerOps.rebuild]
      split
      · exact ih _ _ (by omega)
      · obtain ⟨b, -, hb⟩ := (C61_access o m j).1 (by omega)
        rw [hb, Outcome.ok_bind]
        exact ih _ _ (by omega)
  unfold ContainerOps.set
  dsimp only
  split
  · exact hr _ _ _ (by omega)
  · split <;> exact ⟨_, rfl⟩

private theorem value_fresh (m : Mem α) (hm : Valid m) (x : Nat) (v : List α) (z : Nat) :
    (m.fresh x v).value z = if z = x then v else m.value z := by
  unfold Mem.value Mem.fresh put
  dsimp only
  split
  · simp
  · rw [List.getElem?_append_left (hm z)]

private theorem valid_fresh (m : Mem α) (hm : Valid m) (x : Nat) (v : List α) : Valid (m.fresh x v) := by
  intro z
  have := hm z
  simp only [Mem.fresh, put, List.length_append, List.length_singleton]
  split <;> omega

private theorem value_inPlace (m : Mem α) (hm : Valid m) (x : Nat) (v : List α) (z : Nat) :
    (m.inPlace x v).value z = if m.env z = m.env x then v else m.value z := by
  unfold Mem.value Mem.inPlace
  dsimp only
  split
  · rename_i h; rw [h, List.getElem?_set_self (hm x)]; rfl
  · rename_i h; rw [List.getElem?_set_ne (Ne.symm h)]

private theorem valid_inPlace (m : Mem α) (hm : Valid m) (x : Nat) (v : List α) : Valid (m.inPlace x v) := by
  intro z
  have := hm z
  simpa [Mem.inPlace] using this

/-- C95, the exact effect: adding a child or scaling changes all variables that refer to the same object,
in the same way; setting a child does so only if the index is not below the size; copying makes the two
variables refer to the same object; cloning and setting an existing child give a variable an object of its
own.  Nothing else changes. -/
theorem C95_effect (o : ContainerOps α) (wkt : List α → List α) (m : Mem α) (hm : Valid m) (x : Nat) :
    (∀ y, ∃ m', step o wkt m (.copy x y) = .ok m' ∧ Valid m' ∧ Same m' x y ∧
      (∀ z, m'.value z = if z = x then m.value y else m.value z) ∧
      ∀ z w, z ≠ x → w ≠ x → (Same m' z w ↔ Same m z w)) ∧
    (∀ y, ∃ m', step o wkt m (.clone x y) = .ok m' ∧ Valid m' ∧ (∀ z, Same m' z x → z = x) ∧
      (∀ z, m'.value z = if z = x then wkt (m.value y) else m.value z) ∧
      ∀ z w, z ≠ x → w ≠ x → (Same m' z w ↔ Same m z w)) ∧
    (∀ a, ∃ m', step o wkt m (.add x a) = .ok m' ∧ Valid m' ∧
      (∀ z, Same m z x → m'.value z = o.add (m.value x) a) ∧
      (∀ z, ¬ Same m z x → m'.value z = m.value z) ∧ ∀ z w, Same m' z w ↔ Same m z w) ∧
    (∀ f, ∃ m', step o wkt m (.each x f) = .ok m' ∧ Valid m' ∧
      (∀ z, Same m z x → m'.value z = (m.value x).map f) ∧
      (∀ z, ¬ Same m z x → m'.value z = m.value z) ∧ ∀ z w, Same m' z w ↔ Same m z w) ∧
    (∀ i a, ∃ v m', o.set (m.value x) i a = .ok v ∧ step o wkt m (.set x i a) = .ok m' ∧ Valid m' ∧
      (i < o.size (m.value x) → (∀ z, m'.value z = if z = x then v else m.value z) ∧
        (∀ z, Same m' z x → z = x) ∧ ∀ z w, z ≠ x → w ≠ x → (Same m' z w ↔ Same m z w)) ∧
      (o.size (m.value x) ≤ i → (∀ z, Same m z x → m'.value z = v) ∧
        (∀ z, ¬ Same m z x → m'.value z = m.value z) ∧ ∀ z w, Same m' z w ↔ Same m z w)) := by
  have hf : ∀ v, (∀ z, Same (m.fresh x v) z x → z = x) ∧
      ∀ z w, z ≠ x → w ≠ x → (Same (m.fresh x v) z w ↔ Same m z w) := by
    intro v
    refine ⟨fun z h => ?_, fun z w hz hw => ?_⟩
    · by_contra hne
      have := hm z
      simp only [Same, Mem.fresh, put, if_neg hne, if_pos] at h
      omega
    · simp only [Same, Mem.fresh, put, if_neg hz, if_neg hw]
  have hp : ∀ v, (∀ z, Same m z x → (m.inPlace x v).value z = v) ∧
      (∀ z, ¬ Same m z x → (m.inPlace x v).value z = m.value z) ∧
      ∀ z w, Same (m.inPlace x v) z w ↔ Same m z w := by
    intro v
    refine ⟨fun z h => ?_, fun z h => ?_, fun z w => Iff.rfl⟩
    · exact (value_inPlace m hm x v z).trans (if_pos h)
    · exact (value_inPlace m hm x v z).trans (if_neg h)
  refine ⟨fun y => ⟨_, rfl, ?_, ?_, ?_, ?_⟩, fun y => ⟨_, rfl, valid_fresh m hm _ _, (hf _).1,
    value_fresh m hm _ _, (hf _).2⟩, fun a => ⟨_, rfl, valid_inPlace m hm _ _, hp _⟩,
    fun f => ⟨_, rfl, valid_inPlace m hm _ _, hp _⟩, fun i a => ?_⟩
  · intro z
    simp only [put]
    split
    · exact hm y
    · exact hm z
  · simp only [Same, put, if_pos]
    split <;> rfl
  · intro z
    simp only [Mem.value, put]
    split <;> rfl
  · intro z w hz hw
    simp only [Same, put, if_neg hz, if_neg hw]
  · obtain ⟨v, hv⟩ := set_ok o (m.value x) i a
    by_cases hi : i < o.size (m.value x)
    · refine ⟨v, m.fresh x v, hv, ?_, valid_fresh m hm _ _, fun _ => ⟨value_fresh m hm _ _, hf v⟩,
        fun h => by omega⟩
      rw [step, hv, Outcome.ok_bind, if_pos hi]
    · refine ⟨v, m.inPlace x v, hv, ?_, valid_inPlace m hm _ _, fun h => absurd h hi, fun _ => hp v⟩
      rw [step, hv, Outcome.ok_bind, if_neg hi]

/-- C95: variables behave as if they held values, for programs of any length that follow the discipline: a
variable that was copied to or from is not added to or scaled before it has been cloned or one of its
existing children has been replaced.  Partial: other programs are not covered, and for them the claim is
false, see `C95_false`. -/
theorem C95_partial (o : ContainerOps α) (wkt : List α → List α) (ops : List (Op α)) (m : Mem α)
    (hm : Valid m) (own : Nat → Prop) (hown : ∀ x, own x → ∀ y, Same m y x → y = x)
    (hc : Careful o wkt own m.value ops) :
    ∃ m' v', run o wkt m ops = .ok m' ∧ valueRun o wkt m.value ops = .ok v' ∧ ∀ x, m'.value x = v' x := by
  induction ops generalizing m own with
  | nil => exact ⟨m, m.value, rfl, rfl, fun _ => rfl⟩
  | cons s ss ih =>
    obtain ⟨hc1, hc2⟩ := hc
    have go : ∀ m1 v1 own', step o wkt m s = .ok m1 → valueStep o wkt m.value s = .ok v1 →
        (∀ x, m1.value x = v1 x) → Valid m1 → (∀ x, own' x → ∀ y, Same m1 y x → y = x) →
        Careful o wkt own' v1 ss →
        ∃ m' v', run o wkt m (s :: ss) = .ok m' ∧ valueRun o wkt m.value (s :: ss) = .ok v' ∧
          ∀ x, m'.value x = v' x := by
      intro m1 v1 own' h1 h2 h3 h4 h5 h6
      have e : v1 = m1.value := (funext h3).symm
      subst e
      obtain ⟨m', v', a, b, c⟩ := ih m1 h4 own' h5 h6
      refine ⟨m', v', ?_, ?_, c⟩
      · rw [run, h1, Outcome.ok_bind]; exact a
      · rw [valueRun, h2, Outcome.ok_bind]; exact b
    cases s with
    | copy x y =>
      obtain ⟨m1, h1, h4, h7, h3, h8⟩ := (C95_effect o wkt m hm x).1 y
      refine go m1 _ _ h1 rfl h3 h4 ?_ (hc2 _ rfl)
      rintro z ⟨hz1, hz2, hz3⟩ w hw
      have hs : m1.env = put m.env x (m.env y) := by
        simp only [step, Outcome.ok.injEq] at h1; rw [← h1]
      by_cases hwx : w = x
      · subst hwx
        simp only [Same, hs, put, if_pos, if_neg hz1] at hw
        exact absurd (hown z hz3 y hw).symm hz2
      · exact hown z hz3 w ((h8 w z hwx hz1).1 hw)
    | clone x y =>
      obtain ⟨m1, h1, h4, h7, h3, h8⟩ := (C95_effect o wkt m hm x).2.1 y
      refine go m1 _ _ h1 rfl h3 h4 ?_ (hc2 _ rfl)
      rintro z hz w hw
      by_cases hzx : z = x
      · subst hzx; exact h7 w hw
      · have hz := hz.resolve_left hzx
        by_cases hwx : w = x
        · subst hwx; exact (h7 z hw.symm).symm
        · exact hown z hz w ((h8 w z hwx hzx).1 hw)
    | add x a =>
      obtain ⟨m1, h1, h4, h7, h3, h8⟩ := (C95_effect o wkt m hm x).2.2.1 a
      refine go m1 _ _ h1 rfl (fun z => ?_) h4 (fun z hz w hw => hown z hz w ((h8 w z).1 hw)) (hc2 _ rfl)
      split
      · rename_i h; exact h7 z (by rw [h]; rfl)
      · rename_i h; exact h3 z fun hs => h (hown x hc1 z hs)
    | each x f =>
      obtain ⟨m1, h1, h4, h7, h3, h8⟩ := (C95_effect o wkt m hm x).2.2.2.1 f
      refine go m1 _ _ h1 rfl (fun z => ?_) h4 (fun z hz w hw => hown z hz w ((h8 w z).1 hw)) (hc2 _ rfl)
      split
      · rename_i h; exact h7 z (by rw [h]; rfl)
      · rename_i h; exact h3 z fun hs => h (hown x hc1 z hs)
    | set x i a =>
      obtain ⟨v, m1, hv, h1, h4, h5, h6⟩ := (C95_effect o wkt m hm x).2.2.2.2 i a
      have hvs : valueStep o wkt m.value (.set x i a) = .ok fun z => if z = x then v else m.value z := by
        rw [valueStep, hv, Outcome.ok_bind]
      by_cases hi : i < o.size (m.value x)
      · obtain ⟨h3, h7, h8⟩ := h5 hi
        refine go m1 _ _ h1 hvs h3 h4 ?_ (hc2 _ hvs)
        rintro z hz w hw
        by_cases hzx : z = x
        · subst hzx; exact h7 w hw
        · have hz := hz.resolve_left hzx
          by_cases hwx : w = x
          · subst hwx; exact (h7 z hw.symm).symm
          · exact hown z hz w ((h8 w z hwx hzx).1 hw)
      · obtain ⟨h3, h7, h8⟩ := h6 (by omega)
        have hx : own x := hc1.resolve_left hi
        refine go m1 _ _ h1 hvs (fun z => ?_) h4 ?_ (hc2 _ hvs)
        · split
          · rename_i h; exact h3 z (by rw [h]; rfl)
          · rename_i h; exact h7 z fun hs => h (hown x hx z hs)
        · rintro z hz w hw
          have hz : own z := by
            rcases hz with rfl | hz
            · exact hx
            · exact hz
          exact hown z hz w ((h8 w z).1 hw)

/-- Variable 1 is a copy of variable 0, which holds two lines; a line is replaced in the copy, one is added to it, and it
is scaled; the original keeps its lines. -/
example : ∃ m', run linesOps id
    (⟨[[[(⟨0, 0, 0⟩ : Point ℚ)], [⟨1, 0, 0⟩]], []], fun x => if x = 0 then 0 else 1⟩)
    [.copy 1 0, .set 1 0 [⟨5, 5, 0⟩], .add 1 [⟨2, 0, 0⟩], .each 1 fun l => scaleLine l 2] = .ok m' ∧
    m'.value 0 = [[⟨0, 0, 0⟩], [⟨1, 0, 0⟩]] ∧
    m'.value 1 = [[⟨10, 10, 0⟩], [⟨2, 0, 0⟩], [⟨4, 0, 0⟩]] := by
  set m : Mem (List (Point ℚ)) :=
    ⟨[[[(⟨0, 0, 0⟩ : Point ℚ)], [⟨1, 0, 0⟩]], []], fun x => if x = 0 then 0 else 1⟩ with hm
  obtain ⟨m', v', h1, h2, h3⟩ := C95_partial linesOps id
    [.copy 1 0, .set 1 0 [⟨5, 5, 0⟩], .add 1 [⟨2, 0, 0⟩], .each 1 fun l => scaleLine l 2] m
    (by intro x; simp only [hm]; split <;> simp) (fun x => x = 0)
    (by
      rintro x rfl y h
      simp only [Same, hm] at h
      by_contra hne
      simp [hne] at h)
    (by
      refine ⟨trivial, fun v hv => ⟨Or.inl ?_, fun v hv => ⟨Or.inl rfl, fun v hv => ⟨Or.inl rfl,
        fun v hv => trivial⟩⟩⟩⟩
      simp only [valueStep, Outcome.ok.injEq] at hv
      subst hv
      decide +kernel)
  refine ⟨m', h1, ?_⟩
  rw [h3, h3]
  simp only [valueRun, valueStep, Outcome.ok_bind, if_true] at h2
  revert h2
  have e : linesOps.set (m.value 0) 0 [(⟨5, 5, 0⟩ : Point ℚ)]
      = .ok [[⟨5, 5, 0⟩], [⟨1, 0, 0⟩]] := by decide +kernel
  rw [e]
  intro h2
  simp only [Outcome.ok_bind, Outcome.ok.injEq] at h2
  subst h2
  decide +kernel

/-- C95 is false: after `b = a; b.addGeometry(c)` the original `a` has the new cell as well.  The same
happens with `b.setGeometry(1, c)` if `a` has one cell, and with `b *= 2`; not with `b.setGeometry(0, c)`. -/
theorem C95_false : ∃ (m : Mem (Cell ℚ)) (c : Cell ℚ), Valid m ∧ m.value 0 ≠ [] ∧
    (∃ m', run cellsOps id m [.copy 1 0, .add 1 c] = .ok m' ∧ m'.value 0 ≠ m.value 0) ∧
    (∃ m', run cellsOps id m [.copy 1 0, .set 1 1 c] = .ok m' ∧ m'.value 0 ≠ m.value 0) ∧
    (∃ m', run cellsOps id m [.copy 1 0, .each 1 fun d => scaleLines d 2] = .ok m' ∧
      m'.value 0 ≠ m.value 0) ∧
    ∃ m', run cellsOps id m [.copy 1 0, .set 1 0 c] = .ok m' ∧ m'.value 0 = m.value 0 := by
  refine ⟨⟨[[[[⟨0, 0, 0⟩, ⟨4, 0, 0⟩, ⟨0, 3, 0⟩, ⟨0, 0, 0⟩]]]], fun _ => 0⟩,
    [[⟨9, 9, 0⟩, ⟨10, 9, 0⟩, ⟨9, 10, 0⟩, ⟨9, 9, 0⟩]], ?_, by decide +kernel,
    ⟨_, rfl, by decide +kernel⟩, ⟨_, rfl, by decide +kernel⟩, ⟨_, rfl, by decide +kernel⟩,
    ⟨_, rfl, by decide +kernel⟩⟩
  intro x
  simp

end F2C.Props
