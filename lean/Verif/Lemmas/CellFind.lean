import Mathlib.Tactic.Linarith
import Verif.Model.CellFind
import Verif.Lemmas.Container

/-! # Lemmas about looking up cells -/

namespace F2C.CellFind

open F2C.Share

variable {K : Type}

theorem search_spec (hit : Cell K → Bool) (cells : Cells K) (k i : Nat) (h : i + k ≤ cells.length) :
    match search hit cells k i with
    | .child j => i ≤ j ∧ j < i + k ∧ (∃ c, cells[j]? = some c ∧ hit c = true) ∧
        ∀ n, i ≤ n → n < j → ∀ c, cells[n]? = some c → hit c = false
    | .none => ∀ n, i ≤ n → n < i + k → ∀ c, cells[n]? = some c → hit c = false := by
  induction k generalizing i with
  | zero => intro n h1 h2; omega
  | succ k ih =>
    have hi : i < cells.length := by omega
    rw [search, List.getElem?_eq_getElem hi]
    dsimp only
    by_cases hh : hit cells[i] = true
    · rw [if_pos hh]
      exact ⟨le_rfl, by omega, ⟨_, List.getElem?_eq_getElem hi, hh⟩, fun n h1 h2 => by omega⟩
    · rw [if_neg hh]
      have step : ∀ n, i ≤ n → (i + 1 ≤ n → ∀ c, cells[n]? = some c → hit c = false) →
          ∀ c, cells[n]? = some c → hit c = false := by
        intro n h1 h2 c hc
        rcases Nat.eq_or_lt_of_le h1 with rfl | h3
        · rw [List.getElem?_eq_getElem hi] at hc
          cases hc
          simpa using hh
        · exact h2 h3 c hc
      have := ih (i + 1) (by omega)
      revert this
      split
      · rintro ⟨h1, h2, h3, h4⟩
        exact ⟨by omega, by omega, h3, fun n ha hb => step n ha fun hc => h4 n hc hb⟩
      · intro h1 n ha hb
        exact step n ha fun hc => h1 n hc (by omega)

theorem size_le [Field K] [LinearOrder K] (cells : Cells K) : cellsOps.size cells ≤ cells.length := by
  unfold ContainerOps.size
  split
  · exact Nat.zero_le _
  · exact le_rfl

section
variable {α : Type} (o : ContainerOps α) (wkt : List α → List α)

theorem padTimes_length (m : List α) (k : Nat) : (o.padTimes m k).length = m.length + k := by
  induction k generalizing m with
  | zero => rfl
  | succ k ih => rw [ContainerOps.padTimes, ih, ContainerOps.add]; simp; omega

theorem set_grows {m v : List α} {i : Nat} {a : α} (h : o.set m i a = .ok v) (hi : ¬ i < o.size m) :
    m.length ≤ v.length := by
  unfold ContainerOps.set at h
  simp only [if_neg hi] at h
  split at h
  · cases h
    rw [ContainerOps.add, List.length_append, padTimes_length]
    omega
  · cases h
    simp [ContainerOps.add]

/-- Objects never disappear from the memory of the model, and never lose children. -/
def Grows (m m' : Mem α) : Prop :=
  m.heap.length ≤ m'.heap.length ∧
    ∀ a, a < m.heap.length → ((m.heap[a]?).getD []).length ≤ ((m'.heap[a]?).getD []).length

theorem grows_fresh (m : Mem α) (x : Nat) (v : List α) : Grows m (m.fresh x v) := by
  refine ⟨by simp [Mem.fresh], fun a ha => ?_⟩
  simp only [Mem.fresh]
  rw [List.getElem?_append_left ha]

theorem grows_inPlace (m : Mem α) (x : Nat) (v : List α) (h : (m.value x).length ≤ v.length) :
    Grows m (m.inPlace x v) := by
  refine ⟨by simp [Mem.inPlace], fun a ha => ?_⟩
  simp only [Mem.inPlace]
  by_cases e : m.env x = a
  · subst e
    rw [List.getElem?_set_self ha]
    exact h
  · rw [List.getElem?_set_ne e]

theorem step_grows {m m' : Mem α} {s : Op α} (h : step o wkt m s = .ok m') : Grows m m' := by
  cases s with
  | copy x y => cases h; exact ⟨le_rfl, fun a _ => le_rfl⟩
  | clone x y => cases h; exact grows_fresh m x _
  | add x a => cases h; exact grows_inPlace m x _ (by simp [ContainerOps.add])
  | each x f => cases h; exact grows_inPlace m x _ (by simp)
  | set x i a =>
    rw [step] at h
    cases hv : o.set (m.value x) i a with
    | throw e => rw [hv] at h; cases h
    | ub e => rw [hv] at h; cases h
    | ok v =>
      rw [hv, Outcome.ok_bind] at h
      split at h
      · cases h; exact grows_fresh m x _
      · rename_i hi
        cases h
        exact grows_inPlace m x _ (set_grows o hv hi)

theorem run_grows {m m' : Mem α} {ops : List (Op α)} (h : run o wkt m ops = .ok m') : Grows m m' := by
  induction ops generalizing m with
  | nil => cases h; exact ⟨le_rfl, fun a _ => le_rfl⟩
  | cons s ss ih =>
    rw [run] at h
    cases hs : step o wkt m s with
    | throw e => rw [hs] at h; cases h
    | ub e => rw [hs] at h; cases h
    | ok m1 =>
      rw [hs, Outcome.ok_bind] at h
      obtain ⟨a1, a2⟩ := step_grows o wkt hs
      obtain ⟨b1, b2⟩ := ih h
      exact ⟨a1.trans b1, fun a ha => (a2 a ha).trans (b2 a (lt_of_lt_of_le ha a1))⟩

end

end F2C.CellFind
