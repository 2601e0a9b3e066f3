import Mathlib.Tactic.Linarith
import Mathlib.Tactic.Ring
import Mathlib.Tactic.Push
import Verif.Model.Container

/-! # Lemmas about containers -/

namespace F2C

set_option linter.unusedSimpArgs false
set_option linter.unusedVariables false

namespace ContainerOps

variable {α : Type} (o : ContainerOps α)

theorem size_of_nonempty {m : List α} (h : ∃ a ∈ m, o.empty a = false) : o.size m = m.length := by
  unfold size
  rw [if_neg]
  obtain ⟨a, ha, he⟩ := h
  simp only [List.all_eq_true, not_forall]
  exact ⟨a, ha, by simp [he]⟩

theorem get_of_nonempty {m : List α} (h : ∃ a ∈ m, o.empty a = false) {i : Nat} {a : α}
    (hi : m[i]? = some a) : o.get m i = .ok a := by
  unfold get
  have : i < m.length := by
    rcases Nat.lt_or_ge i m.length with h | h
    · exact h
    · rw [List.getElem?_eq_none h] at hi; simp at hi
  rw [if_neg (by rw [size_of_nonempty o h]; omega), hi]

theorem padTimes_eq (hp : o.norm o.pad = o.pad) (m : List α) (k : Nat) :
    o.padTimes m k = m ++ List.replicate k o.pad := by
  induction k generalizing m with
  | zero => simp [padTimes]
  | succ k ih => rw [padTimes, ih, add, hp, List.replicate_succ]; simp

theorem rebuild_eq {m : List α} (h : ∃ a ∈ m, o.empty a = false) (hn : ∀ a ∈ m, o.norm a = a)
    (i : Nat) (a : α) (k j : Nat) (acc : List α) (hk : j + k = m.length) :
    o.rebuild m i a k j acc = .ok (acc ++ (m.set i (o.norm a)).drop j) := by
  induction k generalizing j acc with
  | zero =>
    rw [rebuild, List.drop_eq_nil_of_le (by simp; omega)]; simp
  | succ k ih =>
    have hj : j < m.length := by omega
    rw [rebuild]
    have hd : (m.set i (o.norm a)).drop j =
        (m.set i (o.norm a))[j]'(by simpa using hj) :: (m.set i (o.norm a)).drop (j + 1) :=
      List.drop_eq_getElem_cons (by simpa using hj)
    by_cases hij : i = j
    · rw [if_pos hij, ih (j + 1) _ (by omega), hd, List.getElem_set, if_pos hij, add]
      simp
    · rw [if_neg hij, get_of_nonempty o h (List.getElem?_eq_getElem hj), Outcome.ok_bind,
        ih (j + 1) _ (by omega), hd, List.getElem_set, if_neg hij, add,
        hn _ (List.getElem_mem hj)]
      simp

/-- what `setGeometry` does, as list operations -/
theorem set_eq {m : List α} (hm : m = [] ∨ ∃ a ∈ m, o.empty a = false)
    (hn : ∀ a ∈ m, o.norm a = a) (hp : o.norm o.pad = o.pad) (i : Nat) (a : α) :
    o.set m i a = .ok (if i < m.length then m.set i (o.norm a)
      else m ++ List.replicate (i - m.length) o.pad ++ [o.norm a]) := by
  have hs : o.size m = m.length := by
    rcases hm with rfl | h
    · simp [size]
    · exact size_of_nonempty o h
  unfold set
  simp only [hs]
  by_cases h : i < m.length
  · have h2 : ∃ a ∈ m, o.empty a = false := by
      rcases hm with rfl | h2
      · simp at h
      · exact h2
    rw [if_pos h, if_pos h, rebuild_eq o h2 hn i a _ _ _ (by omega)]
    simp
  · rw [if_neg h, if_neg h]
    by_cases h2 : i = m.length
    · subst h2; simp [add]
    · rw [if_pos h2, padTimes_eq o hp, add]

end ContainerOps

variable {K : Type} [Field K] [LinearOrder K]

theorem closeRing_of_closed {r : Ring K} (h : r.head? = r.getLast?) : closeRing r = r := by
  simp [closeRing, h]

theorem closeRing_closed (r : Ring K) : (closeRing r).head? = (closeRing r).getLast? := by
  unfold closeRing
  split
  · assumption
  · cases r with
    | nil => rfl
    | cons a l =>
      have e : a :: l ++ (a :: l).take 1 = a :: (l ++ [a]) := by simp
      rw [e, List.head?_cons, List.getLast?_cons]
      simp

theorem closeRing_isEmpty (r : Ring K) : (closeRing r).isEmpty = r.isEmpty := by
  unfold closeRing
  split
  · rfl
  · cases r <;> simp

/-! ## points written back -/

section Move
variable [IsStrictOrderedRing K]

theorem eqv_add (p v : Point K) : Point.eqv p (p.add v) = true ↔
    |v.x| < Point.tol ∧ |v.y| < Point.tol ∧ |v.z| < Point.tol := by
  have h : ∀ a b : K, a - (a + b) = -b := fun a b => by ring
  simp only [Point.eqv, Point.add, Bool.and_eq_true, decide_eq_true_eq, h, abs_neg, and_assoc]

theorem eqv_iff (p q : Point K) : Point.eqv p q = true ↔
    |p.x - q.x| < Point.tol ∧ |p.y - q.y| < Point.tol ∧ |p.z - q.z| < Point.tol := by
  simp only [Point.eqv, Bool.and_eq_true, decide_eq_true_eq, and_assoc]

end Move
end F2C
