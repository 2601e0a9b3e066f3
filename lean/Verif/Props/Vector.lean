import Verif.Lemmas.Vector
import Verif.Props.SwathTypes
import Mathlib.Tactic.Ring
import Mathlib.Tactic.NormNum

/-!
# Property theorems C109 and C110: editing the states of a path, and collections of swaths

Reading is compared with `l[i]?` of Lean's lists, writing with what is read afterwards.
-/

namespace F2C.Props

open F2C

/-! ## C109: states of a path -/

/-- **C109**, reading: `getState` and `operator[]` return the state with that number, and are undefined behind the
end. -/
theorem C109_get (p : Path) (i : Nat) :
    (∀ s, p.getState i = .ok s ↔ p[i]? = some s) ∧ ((p.getState i).isUb = true ↔ p.length ≤ i) := by
  unfold Path.getState Vec.get
  rw [if_neg (by omega), Int.toNat_natCast]
  cases h : p[i]? with
  | none =>
    rw [List.getElem?_eq_none_iff] at h
    exact ⟨fun s => by simp, by simpa [Outcome.isUb] using h⟩
  | some a =>
    have := (List.getElem?_eq_some_iff.1 h).1
    exact ⟨fun s => by simp, by simp [Outcome.isUb]; omega⟩

/-- **C109**, writing: after `setState(i, s)` state `i` is `s` and all others are as before; behind the end it is
undefined. -/
theorem C109_set (p : Path) (i : Nat) (s : PathState ℝ) :
    (i < p.length → ∃ q, p.setState i s = .ok q ∧ q.length = p.length ∧ q[i]? = some s ∧
      ∀ j : Nat, j ≠ i → q[j]? = p[j]?) ∧
    (p.length ≤ i → (p.setState i s).isUb = true) := by
  constructor
  · intro h
    refine ⟨_, Vec.modify_of_lt _ _ _ h, by simp, by simp [h], fun j hj => ?_⟩
    rw [List.getElem?_set_ne (Ne.symm hj)]
  · intro h
    exact Vec.modify_isUb _ _ _ (Or.inr (by omega))

/-- **C109**, adding: the new state is the last one, holds exactly the given values, and the others keep theirs. -/
theorem C109_add (p : Path) (pt : RPoint) (ang len vel : ℝ) (dir : PathDir) (type : SectionType) :
    p.addState ⟨pt, ang, len, dir, type, vel⟩ = p.addStateOf pt ang len dir type vel ∧
    Vec.back (p.addStateOf pt ang len dir type vel) = .ok ⟨pt, ang, len, dir, type, vel⟩ ∧
    (p.addStateOf pt ang len dir type vel).length = p.length + 1 ∧
    ∀ j : Nat, j < p.length → (p.addStateOf pt ang len dir type vel)[j]? = p[j]? := by
  refine ⟨rfl, ?_, ?_, ?_⟩
  · simp [Path.addStateOf, Vec.push, Vec.back]
  · simp [Path.addStateOf, Vec.push]
  · intro j hj
    simp [Path.addStateOf, Vec.push, List.getElem?_append_left hj]

/-- **C109**, one direction: `setForwardDir(i)` and `setBackwardDir(i)` change the direction of state `i` and
nothing else. -/
theorem C109_dir (d : PathDir) (p : Path) (i : Int) :
    (0 ≤ i ∧ i < p.length → ∃ q, p.setDir d i = .ok q ∧ q.length = p.length ∧
      ∀ (j : Nat) (s : PathState ℝ), p[j]? = some s →
        q[j]? = some ⟨s.point, s.angle, s.len, if (j : Int) = i then d else s.dir, s.type, s.velocity⟩) ∧
    (i < 0 ∨ (p.length : Int) ≤ i → (p.setDir d i).isUb = true) := by
  refine ⟨?_, Vec.modify_isUb _ _ _⟩
  rintro ⟨h0, h1⟩
  obtain ⟨k, rfl⟩ := Int.eq_ofNat_of_zero_le h0
  have hk : k < p.length := by omega
  refine ⟨_, Vec.modify_of_lt _ _ _ hk, by simp, fun j s hs => ?_⟩
  obtain ⟨hj, rfl⟩ := List.getElem?_eq_some_iff.1 hs
  by_cases e : j = k
  · subst e
    simp [hk]
  · rw [List.getElem?_set_ne (Ne.symm e), List.getElem?_eq_getElem hj, if_neg (by omega)]

/-- **C109**, one type: `setSwathType(i)` and `setTurnType(i)` change the type of state `i` and nothing else. -/
theorem C109_type (t : SectionType) (p : Path) (i : Int) :
    (0 ≤ i ∧ i < p.length → ∃ q, p.setType t i = .ok q ∧ q.length = p.length ∧
      ∀ (j : Nat) (s : PathState ℝ), p[j]? = some s →
        q[j]? = some ⟨s.point, s.angle, s.len, s.dir, if (j : Int) = i then t else s.type, s.velocity⟩) ∧
    (i < 0 ∨ (p.length : Int) ≤ i → (p.setType t i).isUb = true) := by
  refine ⟨?_, Vec.modify_isUb _ _ _⟩
  rintro ⟨h0, h1⟩
  obtain ⟨k, rfl⟩ := Int.eq_ofNat_of_zero_le h0
  have hk : k < p.length := by omega
  refine ⟨_, Vec.modify_of_lt _ _ _ hk, by simp, fun j s hs => ?_⟩
  obtain ⟨hj, rfl⟩ := List.getElem?_eq_some_iff.1 hs
  by_cases e : j = k
  · subst e
    simp [hk]
  · rw [List.getElem?_set_ne (Ne.symm e), List.getElem?_eq_getElem hj, if_neg (by omega)]

/-- **C109**, all states: the versions without a number never fail, set the direction or type of every state and
leave everything else; the length of the path and the time it takes stay the same. -/
theorem C109_all (d : PathDir) (t : SectionType) (p : Path) :
    (∃ q, p.setDirAll d = .ok q ∧
      q = p.map (fun s => ⟨s.point, s.angle, s.len, d, s.type, s.velocity⟩) ∧
      q.totalLength = p.totalLength ∧ q.taskTime = p.taskTime) ∧
    ∃ q, p.setTypeAll t = .ok q ∧
      q = p.map (fun s => ⟨s.point, s.angle, s.len, s.dir, t, s.velocity⟩) ∧
      q.totalLength = p.totalLength ∧ q.taskTime = p.taskTime := by
  refine ⟨⟨_, Vec.modifyFrom_all _ p, rfl, ?_, ?_⟩, ⟨_, Vec.modifyFrom_all _ p, rfl, ?_, ?_⟩⟩ <;>
    simp only [Path.totalLength, Path.taskTime, List.foldl_map]

/-- A path of two states: the second is set to be driven backward. -/
example : ∃ q, Path.setDir .backward [⟨⟨0, 0, 0⟩, 0, 1, .forward, .swath, 2⟩, ⟨⟨1, 0, 0⟩, 0, 1, .forward, .turn, 2⟩] 1
    = .ok q ∧ q = [⟨⟨0, 0, 0⟩, 0, 1, .forward, .swath, 2⟩, ⟨⟨1, 0, 0⟩, 0, 1, .backward, .turn, 2⟩] :=
  ⟨_, rfl, rfl⟩

/-- The index is not checked: number 2 of two states, and number -1. -/
example : (Path.setDir .backward [PathState.default, PathState.default] 2).isUb = true ∧
    (Path.setType .turn [PathState.default, PathState.default] (-1)).isUb = true ∧
    (Path.getState [] 0).isUb = true := ⟨rfl, rfl, rfl⟩

/-! ## C110: collections of swaths -/

section
variable {α : Type}

/-- **C110**, reading: `at` returns the element or throws, `operator[]` and `back` return it or are undefined;
where both are defined, they agree. -/
theorem C110_read (l : List α) (i : Nat) :
    (∀ a, Vec.at? l i = .ok a ↔ l[i]? = some a) ∧ (Vec.at? l i = .throw .outOfRange ↔ l.length ≤ i) ∧
    (∀ a, Vec.get l i = .ok a ↔ l[i]? = some a) ∧ ((Vec.get l i).isUb = true ↔ l.length ≤ i) ∧
    (∀ k : Int, k < 0 → (Vec.get l k).isUb = true) ∧
    (∀ a, Vec.back l = .ok a ↔ l[l.length - 1]? = some a) ∧ ((Vec.back l).isUb = true ↔ l = []) := by
  refine ⟨?_, ?_, ?_, ?_, ?_, ?_, ?_⟩
  · intro a; unfold Vec.at?; cases h : l[i]? <;> simp
  · unfold Vec.at?
    cases h : l[i]? with
    | none => simpa using List.getElem?_eq_none_iff.1 h
    | some a => simpa using (List.getElem?_eq_some_iff.1 h).1
  · intro a; unfold Vec.get; rw [if_neg (by omega), Int.toNat_natCast]; cases h : l[i]? <;> simp
  · unfold Vec.get
    rw [if_neg (by omega), Int.toNat_natCast]
    cases h : l[i]? with
    | none => simpa [Outcome.isUb] using List.getElem?_eq_none_iff.1 h
    | some a => simpa [Outcome.isUb] using (List.getElem?_eq_some_iff.1 h).1
  · intro k hk; unfold Vec.get; rw [if_pos hk]; rfl
  · intro a; unfold Vec.back; rw [List.getLast?_eq_getElem?]; cases h : l[l.length - 1]? <;> simp
  · unfold Vec.back
    cases h : l.getLast? with
    | none => simpa [Outcome.isUb] using h
    | some a =>
      have : l ≠ [] := by rintro rfl; simp at h
      simpa [Outcome.isUb] using this

/-- **C110**, building: a collection made of a vector holds its elements in order, adding one makes it the last,
reversing turns the order around. -/
theorem C110_build (v : List α) (a : α) (i : Nat) :
    Vec.ofList v = v ∧ Vec.back (Vec.push v a) = .ok a ∧ (i < v.length → (Vec.push v a)[i]? = v[i]?) ∧
    (Vec.push v a).length = v.length + 1 ∧
    (i < v.length → (Vec.reverse v)[i]? = v[v.length - 1 - i]?) ∧ (Vec.reverse v).length = v.length := by
  have h : ∀ (v acc : List α), v.foldl Vec.push acc = acc ++ v := by
    intro v
    induction v with
    | nil => simp
    | cons b v ih => intro acc; rw [List.foldl_cons, ih]; simp [Vec.push]
  refine ⟨(h v []).trans (List.nil_append v), by simp [Vec.back, Vec.push], fun hi => ?_, by simp [Vec.push],
    fun hi => ?_, by simp [Vec.reverse]⟩
  · simp [Vec.push, List.getElem?_append_left hi]
  · rw [Vec.reverse, List.getElem?_reverse hi]

end

section
variable {K : Type} [Field K] [LinearOrder K]

/-- **C110**, number of swaths: `Swaths(n)` has `n` swaths, none of which has a path or a width or a number of its
own, and for negative `n` it throws; such a collection cannot be cloned unless it is empty. -/
theorem C110_of_size (n : Int) :
    (n < 0 → Vec.ofSize (Swath.default : Swath K) n = .throw .lengthError) ∧
    (0 ≤ n → ∃ l : Swaths K, Vec.ofSize Swath.default n = .ok l ∧ (l.length : Int) = n ∧
      (∀ s ∈ l, s.path = [] ∧ s.width = 0 ∧ s.id = 0 ∧ s.type = .mainland ∧ s.creationDir = true) ∧
      (0 < n → Swaths.clone l = .throw .invalidArgument)) := by
  constructor
  · intro h; exact if_pos h
  · intro h
    obtain ⟨k, rfl⟩ := Int.eq_ofNat_of_zero_le h
    refine ⟨List.replicate k Swath.default, by simp [Vec.ofSize], by simp, ?_, ?_⟩
    · intro s hs
      rw [List.eq_of_mem_replicate hs]
      exact ⟨rfl, rfl, rfl, rfl, rfl⟩
    · intro hk
      obtain ⟨j, rfl⟩ : ∃ j, k = j + 1 := ⟨k - 1, by omega⟩
      rw [List.replicate_succ]
      simp [Swaths.clone, Swath.clone, Swath.make, Swath.setWidth, Swath.default]

/-- **C110**, one swath: `emplace_back(line, w, id, type)` adds a swath with exactly these values, whose direction
is the one it was created in, or throws if the width is not positive. -/
theorem C110_emplace (l : Swaths K) (line : List (Point K)) (w : K) (id : Int) (t : SwathType) :
    (0 < w → Swaths.emplace l line w id t = .ok (l ++ [⟨id, line, w, true, t⟩])) ∧
    (w ≤ 0 → Swaths.emplace l line w id t = .throw .invalidArgument) := by
  constructor
  · intro h
    simp [Swaths.emplace, Swath.make, Swath.setWidth, not_le.2 h, Swath.default]
  · intro h
    simp [Swaths.emplace, Swath.make, Swath.setWidth, h]

/-- **C110**, lines clipped to cells: the parts inside become swaths numbered from the size on, if any has points. -/
theorem C110_append_inside (inside : List (List (Point K))) (l : Swaths K) (w : K) (t : SwathType) (hw : 0 < w)
    (P : List (Point K) → Prop) (hP : ∀ p ∈ inside, P p) :
    ∃ new, Swaths.appendInside l inside w t = .ok (l ++ new) ∧
      ((∃ p ∈ inside, p ≠ []) → new.map Swath.path = inside) ∧ (∀ s ∈ new, P s.path) ∧
      ∀ i (h : i < new.length), (new[i]).id = (l.length : Int) + i ∧ (new[i]).width = w ∧ (new[i]).type = t := by
  obtain ⟨new, h1, h2, h3, h4⟩ := C25_append_numbers l inside w t hw
  refine ⟨new, h1, h2, fun s hs => hP _ (mem_lines_of_append h2 h3 hs), fun i h => ?_⟩
  obtain ⟨a, b, c, -⟩ := h4 i h
  exact ⟨a, b, c⟩

/-- **C110**, appending a collection: the swaths follow unchanged, with the numbers they have. -/
theorem C110_append_swaths (l m : Swaths K) : Swaths.appendSwaths l m = l ++ m := by
  unfold Swaths.appendSwaths
  induction m generalizing l with
  | nil => simp
  | cons b v ih => rw [List.foldl_cons, ih]; simp [Vec.push]

/-- **C110** is false for the numbers: after appending a collection to a collection the number of a swath is not
its position, and two swaths have the same number. -/
theorem C110_numbers_repeat : ∃ l m : Swaths ℚ,
    (∀ i (h : i < l.length), (l[i]).id = i) ∧ (∀ i (h : i < m.length), (m[i]).id = i) ∧
    (Swaths.appendSwaths l m).map Swath.id = [0, 0] := by
  refine ⟨[⟨0, [⟨0, 0, 0⟩, ⟨1, 0, 0⟩], 1, true, .mainland⟩], [⟨0, [⟨0, 1, 0⟩, ⟨1, 1, 0⟩], 1, true, .mainland⟩],
    ?_, ?_, rfl⟩ <;>
  · intro i h
    have : i = 0 := by simpa using h
    subst this
    rfl

/-- **C110**, cloning groups of swaths: as long as all widths are positive the clone has the same groups of the
same swaths, except that their type is MAINLAND; otherwise it throws. -/
theorem C110_clone (g : SwathsByCells K) :
    ((∀ l ∈ g, ∀ s ∈ l, 0 < s.width) →
      SwathsByCells.clone g = .ok (g.map fun l => l.map fun s => { s with type := .mainland })) ∧
    ((∃ l ∈ g, ∃ s ∈ l, s.width ≤ 0) → SwathsByCells.clone g = .throw .invalidArgument) := by
  induction g with
  | nil => exact ⟨fun _ => rfl, by simp⟩
  | cons a g ih =>
    constructor
    · intro h
      rw [SwathsByCells.clone, (swaths_clone_eq a).1 (h a (by simp)), Outcome.ok_bind,
        ih.1 (fun l hl => h l (by simp [hl])), Outcome.ok_bind]
      rfl
    · rintro ⟨l, hl, s, hs, h⟩
      by_cases ha : ∃ s ∈ a, s.width ≤ 0
      · rw [SwathsByCells.clone, (swaths_clone_eq a).2 ha]; rfl
      · have ha' : ∀ s ∈ a, 0 < s.width := by simpa using ha
        have hl' : l ∈ g := by
          rcases List.mem_cons.1 hl with rfl | hl
          · exact absurd h (not_le.2 (ha' s hs))
          · exact hl
        rw [SwathsByCells.clone, (swaths_clone_eq a).1 ha', Outcome.ok_bind, ih.2 ⟨l, hl', s, hs, h⟩]; rfl

end

/-- Two groups; the turn swath of the second becomes a mainland swath in the clone. -/
example : SwathsByCells.clone (K := ℚ) [[⟨7, [⟨0, 0, 0⟩, ⟨1, 0, 0⟩], 1, false, .mainland⟩],
      [⟨3, [⟨0, 1, 0⟩, ⟨1, 1, 0⟩], 2, true, .headland⟩]] =
    .ok [[⟨7, [⟨0, 0, 0⟩, ⟨1, 0, 0⟩], 1, false, .mainland⟩],
      [⟨3, [⟨0, 1, 0⟩, ⟨1, 1, 0⟩], 2, true, .mainland⟩]] := by decide +kernel

/-- Reading behind the end: `at` throws, `operator[]` is undefined. -/
example : Vec.at? [1, 2] 2 = .throw .outOfRange ∧ (Vec.get [1, 2] 2).isUb = true ∧ Vec.get [1, 2] 1 = .ok 2 ∧
    Vec.ofSize (0 : Nat) 3 = .ok [0, 0, 0] := ⟨rfl, rfl, rfl, rfl⟩

/-- Two parts of a line inside of a cell are appended to one swath. -/
example : ∃ new, Swaths.appendInside (K := ℚ) [Swath.default] [[⟨0, 0, 0⟩, ⟨1, 0, 0⟩], [⟨2, 0, 0⟩, ⟨3, 0, 0⟩]] 1
    .mainland = .ok (Swath.default :: new) ∧ new.map Swath.id = [1, 2] := ⟨_, rfl, rfl⟩

end F2C.Props
