import Mathlib.Data.List.Basic
import Verif.Model.Moves

/-! # C101: moving points, path states and fields -/

namespace F2C.Props

open Moves

set_option linter.unusedSimpArgs false

namespace MovesSpec

variable {V : Type}

/-- The statement refers to existing variables only. -/
def Fits (n : Nat) : Op V → Prop
  | .make _ => True
  | .copyNew i | .moveNew i | .write i _ | .read i => i < n
  | .copyTo i j | .moveTo i j | .swap i j => i < n ∧ j < n

/-- Number of variables afterwards. -/
def grow (n : Nat) : Op V → Nat
  | .make _ | .copyNew _ | .moveNew _ => n + 1
  | _ => n

/-- The statement neither constructs by moving nor swaps, nor assigns by moving if that takes members
away. -/
def Copies (taken : Bool) : Op V → Prop
  | .moveNew _ | .swap _ _ => False
  | .moveTo _ _ => taken = false
  | _ => True

/-- What the statement means for variables that hold values. -/
def meaning (l : List V) : Op V → Option (List V)
  | .make v => some (l ++ [v])
  | .copyNew i | .moveNew i => (l[i]?).map fun v => l ++ [v]
  | .copyTo i j | .moveTo i j => (l[j]?).map fun v => l.set i v
  | .write i v => some (l.set i v)
  | .read _ => some l
  | .swap i j => do
    let a ← l[i]?
    let b ← l[j]?
    return (l.set i b).set j a

/-- All statements fit. -/
def AllFit : Nat → List (Op V) → Prop
  | _, [] => True
  | n, o :: os => Fits n o ∧ AllFit (grow n o) os

/-- What a program means. -/
def meanings (l : List V) : List (Op V) → Option (List V)
  | [] => some l
  | o :: os => do
    let l' ← meaning l o
    meanings l' os

end MovesSpec

open MovesSpec

variable {V : Type}

private theorem at_full (l : List V) (i : Nat) (h : i < l.length) :
    at' (l.map Obj.full) i = .ok (.full l[i]) := by
  simp [at', h]

private theorem step_copies (taken : Bool) (l : List V) (o : Op V) (hf : Fits l.length o) (hc : Copies taken o) :
    ∃ l', meaning l o = some l' ∧ l'.length = grow l.length o ∧
      step taken (l.map Obj.full) o = .ok (l'.map Obj.full) := by
  cases o with
  | make v => exact ⟨_, rfl, by simp [grow], by simp [step]⟩
  | copyNew i =>
    have hf : i < l.length := hf
    exact ⟨l ++ [l[i]], by simp [meaning, hf], by simp [grow], by
      simp [step, at_full, hf, Obj.copy]⟩
  | moveNew i => exact hc.elim
  | copyTo i j =>
    obtain ⟨h1, h2⟩ : i < l.length ∧ j < l.length := hf
    exact ⟨l.set i l[j], by simp [meaning, h2], by simp [grow], by
      simp [step, at_full, h1, h2, copyAssign, Obj.copy, List.map_set]⟩
  | moveTo i j =>
    obtain ⟨h1, h2⟩ : i < l.length ∧ j < l.length := hf
    have hc : taken = false := hc
    subst hc
    refine ⟨l.set i l[j], by simp [meaning, h2], by simp [grow], ?_⟩
    have hs : (l.set i l[j]).set j l[j] = l.set i l[j] := by
      apply List.ext_getElem
      · simp
      · intro n hn _
        simp only [List.getElem_set]
        split <;> simp_all
    simp [step, moveWithin, at_full _ _ h1, at_full _ _ h2, moveAssign, copyAssign, Obj.copy, ← List.map_set, hs]
  | write i v =>
    have hf : i < l.length := hf
    exact ⟨l.set i v, rfl, by simp [grow], by
      simp [step, at_full, hf, copyAssign, Obj.copy, List.map_set]⟩
  | read i =>
    have hf : i < l.length := hf
    exact ⟨l, rfl, by simp [grow], by simp [step, at_full, hf, Obj.read]⟩
  | swap i j => exact hc.elim

/-- C101, partial: programs that construct by copying, assign and set variables behave as if variables held values;
points and path states may also be assigned by moving. -/
theorem C101_partial (taken : Bool) (l : List V) (ops : List (Op V)) (hf : AllFit l.length ops)
    (hc : ∀ o ∈ ops, Copies taken o) :
    ∃ l', meanings l ops = some l' ∧ run taken (l.map Obj.full) ops = .ok (l'.map Obj.full) := by
  induction ops generalizing l with
  | nil => exact ⟨l, rfl, rfl⟩
  | cons o os ih =>
    obtain ⟨l₁, h1, h2, h3⟩ := step_copies taken l o hf.1 (hc o (by simp))
    obtain ⟨l', h4, h5⟩ := ih l₁ (by rw [h2]; exact hf.2) fun o ho => hc o (by simp [ho])
    refine ⟨l', ?_, ?_⟩
    · simp [meanings, h1, h4]
    · rw [run, h3]; exact h5

/-- C101 is false: swapping dereferences a null pointer for any two variables. -/
theorem C101_swap_ub (taken : Bool) (l : List (Obj V)) (i j : Nat) (hi : i < l.length) (hj : j < l.length) :
    swap taken l i j = .ub "null pointer" := by
  have h1 : at' l i = .ok l[i] := by simp [at', hi]
  have h2 : at' (l.set i .hollow) i = .ok .hollow := by simp [at', hi]
  have h3 : at' (l.set i .hollow) j = .ok ((l.set i .hollow)[j]'(by simpa using hj)) := by simp [at', hj]
  unfold swap
  rw [h1]
  simp only [Outcome.ok_bind, Obj.move, moveWithin, h2, h3, moveAssign, copyAssign]
  cases (l.set i Obj.hollow)[j]'(by simpa using hj) <;> rfl

/-- C101 is false: reversing a vector of two or more with `std::reverse` dereferences a null pointer. -/
theorem C101_reverse_ub (taken : Bool) (l : List (Obj V)) (h : 2 ≤ l.length) :
    Moves.reverse taken l = .ub "null pointer" := by
  unfold Moves.reverse
  obtain ⟨k, hk⟩ : ∃ k, l.length / 2 = k + 1 := ⟨l.length / 2 - 1, by omega⟩
  rw [hk, reverseFrom]
  have := C101_swap_ub taken l 0 (l.length - 1 - 0) (by omega) (by omega)
  rw [this]
  rfl

/-- C101 is false: a variable that was moved from can neither be read nor be given a new value. -/
theorem C101_moved_from_ub (taken : Bool) (l : List (Obj V)) (i : Nat) (hi : i < l.length) (v : V) :
    (run taken l [.moveNew i, .read i]).isUb = true ∧ (run taken l [.moveNew i, .copyNew i]).isUb = true ∧
    (run taken l [.moveNew i, .write i v]).isUb = true ∧
    (run taken l [.moveNew i, .make v, .copyTo i (l.length + 1)]).isUb = true := by
  have h1 : at' l i = .ok l[i] := by simp [at', hi]
  refine ⟨?_, ?_, ?_, ?_⟩ <;>
  simp [run, step, h1, Obj.move, at', hi, Obj.copy, Obj.read, copyAssign, Nat.lt_succ_of_lt,
    List.getElem?_append, Nat.lt_succ_self]

private theorem shift_spec (taken : Bool) (k : Nat) (pre : List V) (a : Obj V) (post : List V)
    (hk : post.length = k) (ha : a ≠ .hollow) :
    ∃ r, shift taken k pre.length (pre.map Obj.full ++ a :: post.map Obj.full) =
      .ok (pre.map Obj.full ++ post.map Obj.full ++ [r]) := by
  induction k generalizing pre a post with
  | zero =>
    rw [List.length_eq_zero_iff] at hk
    subst hk
    exact ⟨a, by simp [shift]⟩
  | succ k ih =>
    match post, hk with
    | b :: post, hk =>
      have hk' : post.length = k := by simpa using hk
      have hm : moveWithin taken (pre.map Obj.full ++ a :: (b :: post).map Obj.full) pre.length
          (pre.length + 1) = .ok (pre.map Obj.full ++ Obj.full b ::
            (if taken then Obj.drained else Obj.full b) :: post.map Obj.full) := by
        have e1 : at' (pre.map Obj.full ++ a :: (b :: post).map Obj.full) pre.length = .ok a := by simp [at']
        have e2 : at' (pre.map Obj.full ++ a :: (b :: post).map Obj.full) (pre.length + 1) =
            .ok (.full b) := by
          simp [at', List.getElem?_append_right]
        unfold moveWithin
        rw [e1, e2]
        cases a <;> simp_all [moveAssign, copyAssign, Obj.copy, List.set_append_right]
      rw [shift, hm]
      obtain ⟨r, hr⟩ := ih (pre ++ [b]) (if taken then .drained else .full b) post hk' (by split <;> simp)
      exact ⟨r, by simpa using hr⟩

/-- C101, partial: an element can be erased from a vector of points, path states or fields. -/
theorem C101_erase (taken : Bool) (l : List V) (i : Nat) (hi : i < l.length) :
    erase taken (l.map Obj.full) i = .ok ((l.eraseIdx i).map Obj.full) := by
  have hl : l = l.take i ++ l[i] :: l.drop (i + 1) := by simp
  have ht : (l.take i).length = i := by simp; omega
  obtain ⟨r, hr⟩ := shift_spec taken (l.length - 1 - i) (l.take i) (.full l[i]) (l.drop (i + 1))
    (by simp; omega) (by simp)
  have hm : (l.take i).map Obj.full ++ Obj.full l[i] :: (l.drop (i + 1)).map Obj.full = l.map Obj.full := by
    have := congrArg (List.map Obj.full) hl
    rw [List.map_append, List.map_cons] at this
    exact this.symm
  rw [ht, hm] at hr
  unfold erase
  rw [if_pos (by simpa using hi)]
  simp only [List.length_map]
  rw [hr]
  simp [List.eraseIdx_eq_take_drop_succ]

/-- A program with copies, assignments and reads, on two points. -/
example : run false ([3, 5].map Obj.full) [.copyNew 0, .moveTo 0 1, .write 1 7, .read 2] =
    .ok ([5, 7, 3].map Obj.full) := by decide

/-- It meets the hypotheses of `C101_partial`. -/
example : AllFit 2 [.copyNew 0, .moveTo 0 1, .write 1 7, .read (V := Nat) 2] ∧
    ∀ o ∈ [.copyNew 0, .moveTo 0 1, .write 1 7, .read (V := Nat) 2], Copies false o := by
  simp [AllFit, Fits, grow, Copies]

/-- What the swap should do, and what it does. -/
example : meanings [3, 5] [.swap 0 1] = some [5, 3] ∧
    (run false ([3, 5].map Obj.full) [.swap 0 1]).isUb = true := by decide

/-- Assigning a field by moving leaves a field that cannot be read but can be assigned; for points it can be
read. -/
example : (run true ([3, 5].map Obj.full) [.moveTo 0 1, .read 1]).isUb = true ∧
    run true ([3, 5].map Obj.full) [.moveTo 0 1, .write 1 7, .read 1] = .ok ([5, 7].map Obj.full) ∧
    run false ([3, 5].map Obj.full) [.moveTo 0 1, .read 1] = .ok ([5, 5].map Obj.full) := by decide

example : erase true ([3, 5, 8, 9].map Obj.full) 1 = .ok ([3, 8, 9].map Obj.full) := by decide

end F2C.Props
