import Mathlib.Algebra.Order.Field.Rat
import Verif.Lemmas.HeapSwaths
import Verif.Model.Container

/-! # C98, C99: ordering swaths and changing lists of swaths in shared memory -/

namespace F2C.Props

open SwathsRef

set_option linter.unusedSimpArgs false
set_option linter.unusedSectionVars false

variable {K : Type} [Field K] [LinearOrder K]

/-- What the C++ standard guarantees about `std::sort` on swath objects compared by id. -/
structure SortsRefs (g : SwathsRef K → SwathsRef K) : Prop where
  perm : ∀ l, (g l).Perm l
  sorted : ∀ l, (g l).Pairwise fun a b => ¬ b.id < a.id

/-- Every swath refers to an object of the store. -/
def Bound (h : Store K) (rs : SwathsRef K) : Prop := ∀ r ∈ rs, r.loc < h.length

/-- No two swaths of the list share their points. -/
def Unshared (rs : SwathsRef K) : Prop := rs.Pairwise fun a b => a.loc ≠ b.loc

private theorem own_of {h : Store K} {rs : SwathsRef K} (hb : Bound h rs) (hu : Unshared rs) : Own h rs :=
  ⟨hb, by rw [locs, List.Nodup, List.pairwise_map]; exact hu⟩

private theorem unshared_of {h : Store K} {rs : SwathsRef K} (ho : Own h rs) : Unshared rs := by
  have := ho.nodup
  rwa [locs, List.Nodup, List.pairwise_map] at this

private theorem exists_sort {g : SwathsRef K → SwathsRef K} (hg : SortsRefs g) (h : Store K)
    (rs : SwathsRef K) :
    ∃ f, Swaths.IsStdSort f ∧ f (SwathsRef.view h rs) = SwathsRef.view h (g rs) := by
  classical
  refine ⟨fun l => if l = SwathsRef.view h rs then SwathsRef.view h (g rs) else idSort l,
    ⟨fun l => ?_, fun l => ?_⟩, if_pos rfl⟩
  · show (if _ then _ else _ : Swaths K).Perm l
    split
    · next e => rw [e]; exact (hg.perm rs).map _
    · exact idSort_isStdSort.perm l
  · show (if _ then _ else _ : Swaths K).Pairwise _
    split
    · rw [SwathsRef.view, List.pairwise_map]; exact hg.sorted rs
    · exact idSort_isStdSort.sorted l

private theorem clone_throws (h : Store K) (rs : SwathsRef K) (hw : ¬ ∀ r ∈ rs, 0 < r.width) :
    clone h rs = .throw .invalidArgument := by
  induction rs generalizing h with
  | nil => exact absurd (by simp) hw
  | cons r rs ih =>
    rw [clone, SwathRef.clone]
    by_cases hr : 0 ≥ r.width
    · rw [if_pos hr]; rfl
    · rw [if_neg hr]
      simp only [Outcome.ok_bind]
      rw [ih _ fun hh => hw ?_]
      · rfl
      · intro q hq
        rcases List.mem_cons.1 hq with rfl | hq
        · exact not_le.1 hr
        · exact hh q hq

/-- What a call that orders swaths may do to memory: the result consists of objects made by the call, no two
of which share points, and every swath that existed before keeps its value. -/
structure Pure (h h' : Store K) (rs' : SwathsRef K) : Prop where
  fresh : ∀ r ∈ rs', h.length ≤ r.loc ∧ r.loc < h'.length
  unshared : Unshared rs'
  others : ∀ r : SwathRef K, r.loc < h.length → SwathRef.view h' r = SwathRef.view h r

/-- A call on swaths in memory agrees with a call on values: the same exception, the same undefined behaviour, or
swaths with these values, and memory is changed as `Pure` says. -/
def Agrees (h : Store K) : Outcome (Swaths K) → Outcome (Store K × SwathsRef K) → Prop
  | .ok out, .ok (h', rs') => SwathsRef.view h' rs' = out ∧ Pure h h' rs'
  | .throw e, .throw e' => e = e'
  | .ub w, .ub w' => w = w'
  | _, _ => False

/-- C98: ordering swaths with `genSortedSwaths` has the outcome of the function on values (C01–C08), whatever
swaths share their points; when it returns, nothing that existed before has changed and the result shares no points
with anything. -/
theorem C98_ordering_is_pure (g : SwathsRef K → SwathsRef K) (hg : SortsRefs g) (k : OrderKind) (h : Store K)
    (rs : SwathsRef K) (v : UInt32) (hb : Bound h rs) :
    ∃ f, Swaths.IsStdSort f ∧
      Agrees h (genSortedSwaths f k (SwathsRef.view h rs) v) (genSorted g k h rs v) := by
  by_cases hw : ∀ r ∈ rs, 0 < r.width
  swap
  · refine ⟨idSort, idSort_isStdSort, ?_⟩
    have : ¬ ∀ s ∈ SwathsRef.view h rs, 0 < s.width := by
      intro hh
      refine hw fun r hr => ?_
      exact hh _ (List.mem_map_of_mem hr)
    rw [genSortedSwaths, Swaths.clone_eq, if_neg this]
    rw [genSorted, clone_throws h rs hw]; rfl
  obtain ⟨h₀, rs₀, c1, c2, c3, c4, c5, c6⟩ := clone_spec h rs hb hw
  have hw' : ∀ s ∈ SwathsRef.view h rs, 0 < s.width := by
    intro s hs
    obtain ⟨r, hr, rfl⟩ := List.mem_map.1 hs
    exact hw r hr
  have hlen : rs₀.length = rs.length := by
    have := congrArg List.length c2
    simpa [SwathsRef.view] using this
  by_cases h0 : rs₀.length > 0
  swap
  · refine ⟨idSort, idSort_isStdSort, ?_⟩
    have hr : rs = [] := List.length_eq_zero_iff.1 (by omega)
    have e : genSortedSwaths idSort k (SwathsRef.view h rs) v = .ok [] := by subst hr; rfl
    rw [e]
    have hr0 : rs₀ = [] := List.length_eq_zero_iff.1 (by omega)
    subst hr0
    have e' : genSorted g k h rs v = .ok (h₀, []) := by rw [genSorted, c1]; rfl
    rw [e']
    exact ⟨rfl, by simp, List.Pairwise.nil, fun r hr => view_congr (c6 _ hr)⟩
  -- the list is not empty
  obtain ⟨o1, o2, o3⟩ := orient_spec h₀ rs₀ c3
  set h₁ := (orient h₀ rs₀).1 with eh₁
  set rs₁ := (orient h₀ rs₀).2 with er₁
  obtain ⟨f, hf, ef⟩ := exists_sort hg h₁ rs₁
  refine ⟨f, hf, ?_⟩
  have own₁ : Own h₁ rs₁ := own_locs c3 o2 o3.1
  have own₂ : Own h₁ (g rs₁) := own_perm own₁ (hg.perm rs₁)
  have l2 : ∀ a, a ∈ locs (g rs₁) ↔ a ∈ locs rs₀ := fun a => by
    rw [← o2]; exact ((hg.perm rs₁).map SwathRef.loc).mem_iff
  have n2 : 0 < (g rs₁).length := by
    rw [(hg.perm rs₁).length_eq]
    have := congrArg List.length o2
    simp [locs] at this
    omega
  obtain ⟨h₃, rs₃, s1, s2, s3, s4, s5, s6⟩ := changeStart_spec h₁ (g rs₁) v own₂ n2
  have hval : genSortedSwaths f k (SwathsRef.view h rs) v =
      ((k.sortSwaths rs₃).map (SwathsRef.view h₃)).map Swaths.reverseDirOddSwaths := by
    rw [genSortedSwaths, Swaths.clone_eq, if_pos hw', ← c2]
    simp only [Outcome.ok_bind]
    rw [if_pos (by simpa [SwathsRef.view] using h0)]
    simp only [Swaths.sort, ← o1, ef, s2, Outcome.ok_bind]
    rw [SwathsRef.view, sortSwaths_map]
    cases k.sortSwaths rs₃ <;> rfl
  have hmem : genSorted g k h rs v =
      (k.sortSwaths rs₃).map (SwathsRef.reverseDirOddSwaths h₃) := by
    rw [genSorted, c1]
    simp only [Outcome.ok_bind]
    rw [if_pos h0]
    simp only [SwathsRef.sort, ← eh₁, ← er₁, s1, Outcome.ok_bind]
    cases k.sortSwaths rs₃ <;> rfl
  rw [hval, hmem]
  cases hk : k.sortSwaths rs₃ with
  | throw e => rfl
  | ub w => rfl
  | ok rs₄ =>
    have hp := sortSwaths_perm_of_ok k rs₃ rs₄ (by omega) hk
    have own₄ := own_perm s3 hp
    obtain ⟨r1, r2, r3⟩ := reverseDirOdd_spec h₃ rs₄ own₄
    show SwathsRef.view (SwathsRef.reverseDirOddSwaths h₃ rs₄).1 (SwathsRef.reverseDirOddSwaths h₃ rs₄).2 = _ ∧
      Pure h (SwathsRef.reverseDirOddSwaths h₃ rs₄).1 (SwathsRef.reverseDirOddSwaths h₃ rs₄).2
    refine ⟨r1, ?_, ?_, ?_⟩
    · have l4 : ∀ a, a ∈ locs (SwathsRef.reverseDirOddSwaths h₃ rs₄).2 → a ∈ locs rs₀ := fun a ha => by
        rw [r2] at ha
        exact (l2 a).1 ((s4 a).1 (((hp.map SwathRef.loc).mem_iff).1 ha))
      intro r hr
      have := l4 r.loc (List.mem_map_of_mem hr)
      obtain ⟨q, hq, e⟩ := List.mem_map.1 this
      rw [r3.1, s5.1, o3.1, ← e]
      exact ⟨c4 q hq, c3.valid q hq⟩
    · exact unshared_of (own_locs own₄ r2 r3.1)
    · intro r hr
      have hn : r.loc ∉ locs rs₀ := fun hm => by
        obtain ⟨q, hq, e⟩ := List.mem_map.1 hm
        have := c4 q hq
        omega
      refine view_congr ?_
      rw [r3.2 _ fun hm => hn ((l2 _).1 ((s4 _).1 (((hp.map SwathRef.loc).mem_iff).1 hm))),
        s5.2 _ fun hm => hn ((l2 _).1 hm), o3.2 _ hn, c6 _ hr]

/-- C99, lists without sharing: `sort` and `reverseDirOddSwaths` on swaths none of which share points have the
values of C07 and C02 and change no other swath. -/
theorem C99_in_place_partial (g : SwathsRef K → SwathsRef K) (hg : SortsRefs g) (h : Store K) (rs : SwathsRef K)
    (hb : Bound h rs) (hu : Unshared rs) :
    (∃ f, Swaths.IsStdSort f ∧
      SwathsRef.view (SwathsRef.sort g h rs).1 (SwathsRef.sort g h rs).2 = Swaths.sort f (SwathsRef.view h rs)) ∧
    SwathsRef.view (SwathsRef.reverseDirOddSwaths h rs).1 (SwathsRef.reverseDirOddSwaths h rs).2 =
      Swaths.reverseDirOddSwaths (SwathsRef.view h rs) ∧
    ∀ r : SwathRef K, (∀ q ∈ rs, q.loc ≠ r.loc) →
      SwathRef.view (SwathsRef.sort g h rs).1 r = SwathRef.view h r ∧
      SwathRef.view (SwathsRef.reverseDirOddSwaths h rs).1 r = SwathRef.view h r := by
  obtain ⟨o1, o2, o3⟩ := orient_spec h rs (own_of hb hu)
  obtain ⟨r1, r2, r3⟩ := reverseDirOdd_spec h rs (own_of hb hu)
  obtain ⟨f, hf, ef⟩ := exists_sort hg (orient h rs).1 (orient h rs).2
  refine ⟨⟨f, hf, ?_⟩, r1, fun r hr => ?_⟩
  · rw [Swaths.sort, ← o1, ef]; rfl
  · have hn : r.loc ∉ locs rs := fun hm => by
      obtain ⟨q, hq, e⟩ := List.mem_map.1 hm
      exact hr q hq e
    exact ⟨view_congr (o3.2 _ hn), view_congr (r3.2 _ hn)⟩

private theorem moveTo_spec (h : Store K) (rs : SwathsRef K) (v : Point K) (ho : Own h rs) :
    SwathsRef.view (SwathsRef.moveTo h v rs) rs = (SwathsRef.view h rs).map (Swath.moveTo · v) ∧
    Frame h (SwathsRef.moveTo h v rs) (locs rs) := by
  induction rs generalizing h with
  | nil => exact ⟨rfl, Frame.refl _ _⟩
  | cons r rs ih =>
    obtain ⟨hr, hd, ho'⟩ := own_cons ho
    set h₁ := (SwathRef.moveTo h r v).1 with eh
    have hfr : Frame h h₁ [r.loc] := by
      refine ⟨by simp [eh, SwathRef.moveTo], fun a ha => ?_⟩
      have : r.loc ≠ a := fun e => ha (by simp [e])
      simp [eh, SwathRef.moveTo, this]
    have ho₁ : Own h₁ rs := ⟨fun q hq => by rw [hfr.1]; exact ho'.valid q hq, ho'.nodup⟩
    obtain ⟨i1, i2⟩ := ih h₁ ho₁
    have hrn : r.loc ∉ locs rs := by
      intro hm
      obtain ⟨q, hq, e⟩ := List.mem_map.1 hm
      exact hd q hq e
    constructor
    · show SwathRef.view (SwathsRef.moveTo h₁ v rs) r :: SwathsRef.view (SwathsRef.moveTo h₁ v rs) rs = _
      rw [i1, view_congr (i2.2 _ hrn), views_congr hfr rs (by simpa using hd)]
      simp [SwathsRef.view, SwathRef.view, eh, SwathRef.moveTo, Swath.moveTo, hr]
    · refine Frame.trans (l := locs (r :: rs)) (m := locs rs) ⟨hfr.1, fun a ha => hfr.2 a ?_⟩ i2
        fun x hx => ?_
      · simp only [locs, List.map_cons, List.mem_cons] at ha
        simp only [List.mem_singleton]
        tauto
      · simp only [locs, List.map_cons, List.mem_cons]; exact .inr hx

/-- C99, moving: `moveTo` on swaths none of which share points moves each by the vector and no other swath. -/
theorem C99_move_partial (h : Store K) (rs : SwathsRef K) (v : Point K) (hb : Bound h rs) (hu : Unshared rs) :
    SwathsRef.view (SwathsRef.moveTo h v rs) rs = (SwathsRef.view h rs).map (Swath.moveTo · v) ∧
    ∀ r : SwathRef K, (∀ q ∈ rs, q.loc ≠ r.loc) →
      SwathRef.view (SwathsRef.moveTo h v rs) r = SwathRef.view h r := by
  obtain ⟨m1, m2⟩ := moveTo_spec h rs v (own_of hb hu)
  refine ⟨m1, fun r hr => view_congr (m2.2 _ fun hm => ?_)⟩
  obtain ⟨q, hq, e⟩ := List.mem_map.1 hm
  exact hr q hq e

/-- C99, joining: `append` and `flatten` put the swaths one after the other, sharing the points of the swaths they
were taken from; a list that is not empty must not be appended to itself. -/
theorem C99_join (h : Store K) (rs qs : SwathsRef K) (l : List (SwathsRef K)) :
    append rs false qs = .ok (rs ++ qs) ∧
    (append rs true rs).isUb = !rs.isEmpty ∧
    flatten l [] = l.flatten ∧
    SwathsRef.view h (flatten l []) = SwathsByCells.flatten (l.map (SwathsRef.view h)) := by
  have hc : ∀ q : SwathsRef K, q.map SwathRef.copy = q := fun q => List.map_id q
  have hf : ∀ (l : List (SwathsRef K)) (acc : SwathsRef K), flatten l acc = acc ++ l.flatten := by
    intro l
    induction l with
    | nil => intro acc; simp [flatten]
    | cons a l ih => intro acc; rw [flatten, ih, hc]; simp
  have hv : ∀ (l : List (Swaths K)) (acc : Swaths K),
      l.foldl (fun acc s => acc ++ s) acc = acc ++ l.flatten := by
    intro l
    induction l with
    | nil => intro acc; simp
    | cons a l ih => intro acc; rw [List.foldl_cons, ih]; simp
  refine ⟨by simp [append, hc], ?_, by simp [hf], ?_⟩
  · cases rs <;> simp [append]
  · rw [hf, SwathsByCells.flatten, hv]
    rw [SwathsRef.view, List.nil_append, List.nil_append, List.map_flatten]
    rfl

/-- The swath with its path turned where its end is less than its start, and all else kept. -/
def turnedPath (s : Swath K) : Swath K :=
  if s.endPoint.lt s.startPoint then { s with path := s.path.reverse } else s

/-- C99 fails for copies: sorting a copy of a list turns the paths of the list it was copied from, whose
creation directions stay as they were. -/
theorem C99_copy_sorted (g : SwathsRef K → SwathsRef K) (h : Store K) (rs : SwathsRef K)
    (hb : Bound h rs) (hu : Unshared rs) :
    SwathsRef.view (SwathsRef.sort g h (rs.map SwathRef.copy)).1 rs = (SwathsRef.view h rs).map turnedPath := by
  have hc : rs.map SwathRef.copy = rs := List.map_id rs
  rw [hc]
  obtain ⟨o1, o2, -⟩ := orient_spec h rs (own_of hb hu)
  show SwathsRef.view (orient h rs).1 rs = _
  refine List.ext_getElem? fun i => ?_
  have e1 := congrArg (·[i]?) o1
  have e2 := congrArg (·[i]?) o2
  simp only [SwathsRef.view, locs, Swaths.orient, List.getElem?_map] at e1 e2 ⊢
  cases hr : rs[i]? with
  | none => simp
  | some r =>
    rw [hr] at e1 e2
    cases hr' : (orient h rs).2[i]? with
    | none => rw [hr'] at e1; simp at e1
    | some r' =>
      rw [hr'] at e1 e2
      simp only [Option.map_some, Option.some.injEq] at e1 e2 ⊢
      have e3 : (SwathRef.view (orient h rs).1 r).path = (SwathRef.view (orient h rs).1 r').path := by
        simp [SwathRef.view, e2]
      unfold turnedPath
      rw [e1] at e3
      split
      · next hlt =>
        rw [if_pos hlt] at e3
        simp only [SwathRef.view, Swath.reverse, Swath.mk.injEq, and_true, true_and] at e3 ⊢
        exact e3
      · next hlt =>
        rw [if_neg hlt] at e3
        simp only [SwathRef.view, Swath.reverse, Swath.mk.injEq, and_true, true_and] at e3 ⊢
        exact e3

/-! ## Examples -/

/-- Two lines, the first of which runs to the left. -/
def exStore : Store ℚ := [[⟨1, 0, 0⟩, ⟨0, 0, 0⟩], [⟨0, 1, 0⟩, ⟨1, 1, 0⟩]]

/-- Two swaths along the lines. -/
def exRefs : SwathsRef ℚ := [⟨1, 0, 1, true, .mainland⟩, ⟨0, 1, 1, true, .mainland⟩]

/-- Swath objects sorted by id. -/
def refSort (l : SwathsRef ℚ) : SwathsRef ℚ := l.insertionSort fun a b => a.id ≤ b.id

theorem refSort_sorts : SortsRefs refSort where
  perm l := List.perm_insertionSort _ l
  sorted l := by
    have : IsTrans (SwathRef ℚ) fun a b => a.id ≤ b.id := ⟨fun a b c => le_trans⟩
    have : Std.Total fun a b : SwathRef ℚ => a.id ≤ b.id := ⟨fun a b => le_total _ _⟩
    exact (List.pairwise_insertionSort (fun a b : SwathRef ℚ => a.id ≤ b.id) l).imp fun h => not_lt.2 h

/-- C99 is false for lists whose swaths share points: of two copies of a swath that runs to the left, sorting turns
the line once and the flag of the first only; `reverseDirOddSwaths` then leaves them, so both run to the right. -/
theorem C99_false :
    let rs := [exRefs[0], exRefs[0].copy]
    let a := SwathsRef.sort refSort exStore rs
    let b := SwathsRef.reverseDirOddSwaths a.1 a.2
    SwathsRef.view b.1 b.2 = [⟨1, [⟨0, 0, 0⟩, ⟨1, 0, 0⟩], 1, false, .mainland⟩,
      ⟨1, [⟨0, 0, 0⟩, ⟨1, 0, 0⟩], 1, true, .mainland⟩] ∧
    SwathsRef.view b.1 b.2 ≠
      Swaths.reverseDirOddSwaths (Swaths.sort idSort (SwathsRef.view exStore rs)) := by
  decide +kernel

theorem exRefs_bound : Bound exStore exRefs := by unfold Bound; decide

example : ∃ f, Swaths.IsStdSort f ∧
    Agrees exStore (genSortedSwaths f .boustrophedon (SwathsRef.view exStore exRefs) 3)
      (genSorted refSort .boustrophedon exStore exRefs 3) :=
  C98_ordering_is_pure refSort refSort_sorts .boustrophedon exStore exRefs 3 exRefs_bound

example : genSorted refSort .boustrophedon exStore exRefs 3 = .ok
    (exStore ++ [[⟨1, 0, 0⟩, ⟨0, 0, 0⟩], [⟨1, 1, 0⟩, ⟨0, 1, 0⟩]],
     [⟨1, 2, 1, true, .mainland⟩, ⟨0, 3, 1, false, .mainland⟩]) := by
  decide +kernel

example : Bound exStore exRefs ∧ Unshared exRefs := by
  constructor
  · unfold Bound; decide
  · unfold Unshared; decide

example : SwathsRef.view (SwathsRef.sort refSort exStore (exRefs.map SwathRef.copy)).1 exRefs =
    [⟨1, [⟨0, 0, 0⟩, ⟨1, 0, 0⟩], 1, true, .mainland⟩, ⟨0, [⟨0, 1, 0⟩, ⟨1, 1, 0⟩], 1, true, .mainland⟩] := by
  decide +kernel

end F2C.Props
