import Verif.Model.Vector

/-! # Lemmas about reading and writing elements of vectors -/

namespace F2C.Props

open F2C

theorem Vec.modify_of_lt {α : Type} (f : α → α) (l : List α) (i : Nat) (h : i < l.length) :
    Vec.modify f l i = .ok (l.set i (f l[i])) := by
  unfold Vec.modify
  rw [if_neg (by omega)]
  simp [List.getElem?_eq_getElem h]

theorem Vec.modify_isUb {α : Type} (f : α → α) (l : List α) (i : Int) (h : i < 0 ∨ (l.length : Int) ≤ i) :
    (Vec.modify f l i).isUb = true := by
  unfold Vec.modify
  by_cases h0 : i < 0
  · rw [if_pos h0]; rfl
  · rw [if_neg h0, List.getElem?_eq_none (by omega)]; rfl

theorem Vec.modifyFrom_eq {α : Type} (f : α → α) (n : Nat) : ∀ (pre post : List α), post.length = n →
    Vec.modifyFrom f n pre.length (pre ++ post) = .ok (pre ++ post.map f) := by
  induction n with
  | zero =>
    intro pre post h
    rw [List.length_eq_zero_iff.1 h]
    rfl
  | succ n ih =>
    intro pre post h
    obtain ⟨a, rest, rfl⟩ : ∃ a rest, post = a :: rest := by
      cases post with
      | nil => simp at h
      | cons a rest => exact ⟨a, rest, rfl⟩
    unfold Vec.modifyFrom
    rw [Vec.modify_of_lt f _ pre.length (by simp), Outcome.ok_bind]
    have e : (pre ++ a :: rest).set pre.length (f ((pre ++ a :: rest)[pre.length]'(by simp)))
        = (pre ++ [f a]) ++ rest := by simp
    rw [e]
    have := ih (pre ++ [f a]) rest (by simpa using h)
    rw [List.length_append, List.length_singleton] at this
    rw [this]
    simp

theorem Vec.modifyFrom_all {α : Type} (f : α → α) (l : List α) :
    Vec.modifyFrom f l.length 0 l = .ok (l.map f) := Vec.modifyFrom_eq f _ [] l rfl

variable {K : Type} [Field K] [LinearOrder K]

theorem swaths_clone_eq (l : Swaths K) :
    ((∀ s ∈ l, 0 < s.width) → Swaths.clone l = .ok (l.map fun s => { s with type := .mainland })) ∧
    ((∃ s ∈ l, s.width ≤ 0) → Swaths.clone l = .throw .invalidArgument) := by
  induction l with
  | nil => exact ⟨fun _ => rfl, by simp⟩
  | cons a l ih =>
    have hok : 0 < a.width → a.clone = .ok { a with type := .mainland } := by
      intro h
      simp [Swath.clone, Swath.make, Swath.setWidth, not_le.2 h]
    have hth : a.width ≤ 0 → a.clone = .throw .invalidArgument := by
      intro h
      simp [Swath.clone, Swath.make, Swath.setWidth, h]
    constructor
    · intro h
      rw [Swaths.clone, hok (h a (by simp)), Outcome.ok_bind, ih.1 (fun s hs => h s (by simp [hs])), Outcome.ok_bind]
      rfl
    · rintro ⟨s, hs, h⟩
      rcases le_or_gt a.width 0 with h' | h'
      · rw [Swaths.clone, hth h']; rfl
      · have hs' : s ∈ l := by
          rcases List.mem_cons.1 hs with rfl | hs
          · exact absurd h (not_le.2 h')
          · exact hs
        rw [Swaths.clone, hok h', Outcome.ok_bind, ih.2 ⟨s, hs', h⟩]; rfl

end F2C.Props
