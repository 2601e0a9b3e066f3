import Mathlib.Tactic.Linarith
import Verif.Model.HeapSwaths
import Verif.Lemmas.Swath

/-! # Lemmas about lists of swaths in shared memory -/

namespace F2C

set_option linter.unusedSimpArgs false

section Naturality
variable {α β : Type} (f : α → β)

theorem rotateRange_map (l : List α) (a b c : Nat) :
    rotateRange (l.map f) a b c = (rotateRange l a b c).map (List.map f) := by
  unfold rotateRange
  simp only [List.length_map]
  split <;> simp [Outcome.map]

theorem reverseRange_map (l : List α) (a b : Nat) :
    reverseRange (l.map f) a b = (reverseRange l a b).map (List.map f) := by
  unfold reverseRange
  simp only [List.length_map]
  split <;> simp [Outcome.map]

theorem snakeLoop_map (n : Nat) (l : List α) (i : Nat) :
    snakeLoop n (l.map f) i = (snakeLoop n l i).map fun p => (p.1.map f, p.2) := by
  induction l, i using snakeLoop.induct (n := n) with
  | case1 l i h l' e ih =>
    rw [snakeLoop, snakeLoop, if_pos h, if_pos h, List.length_map, rotateRange_map, e]
    simpa [Outcome.map] using ih
  | case2 l i h e' e =>
    rw [snakeLoop, snakeLoop, if_pos h, if_pos h, List.length_map, rotateRange_map, e]
    simp [Outcome.map]
  | case3 l i h e' e =>
    rw [snakeLoop, snakeLoop, if_pos h, if_pos h, List.length_map, rotateRange_map, e]
    simp [Outcome.map]
  | case4 l i h =>
    rw [snakeLoop, snakeLoop, if_neg h, if_neg h]
    simp [Outcome.map]

theorem snakeSort_map (l : List α) : snakeSort (l.map f) = (snakeSort l).map (List.map f) := by
  unfold snakeSort
  simp only [List.length_map]
  split
  · rfl
  · rw [snakeLoop_map]
    cases snakeLoop l.length l 1 with
    | throw e => rfl
    | ub w => rfl
    | ok p =>
      simp only [Outcome.map, Outcome.ok_bind, List.length_map, reverseRange_map]
      cases reverseRange p.1 (p.2 + 1) p.1.length with
      | throw e => rfl
      | ub w => rfl
      | ok q =>
        simp only [Outcome.map, Outcome.ok_bind, List.length_map, rotateRange_map]
        split <;> simp [Outcome.map]

theorem spiralLoop_map (o s : Nat) (l : List α) (j : Nat) :
    spiralLoop o s (l.map f) j = (spiralLoop o s l j).map (List.map f) := by
  induction l, j using spiralLoop.induct (offset := o) (size := s) with
  | case1 l i h l' e ih =>
    rw [spiralLoop, spiralLoop, if_pos h, if_pos h, rotateRange_map, e]
    simpa [Outcome.map] using ih
  | case2 l i h e' e =>
    rw [spiralLoop, spiralLoop, if_pos h, if_pos h, rotateRange_map, e]
    simp [Outcome.map]
  | case3 l i h e' e =>
    rw [spiralLoop, spiralLoop, if_pos h, if_pos h, rotateRange_map, e]
    simp [Outcome.map]
  | case4 l i h =>
    rw [spiralLoop, spiralLoop, if_neg h, if_neg h]
    simp [Outcome.map]

theorem spiralBlocks_map (s : Nat) (l : List α) (i k : Nat) :
    spiralBlocks s (l.map f) i k = (spiralBlocks s l i k).map (List.map f) := by
  induction k generalizing l i with
  | zero => rfl
  | succ k ih =>
    rw [spiralBlocks, spiralBlocks, spiral, spiral, spiralLoop_map]
    cases spiralLoop (i * s) s l ((i * s + 1) % 2) with
    | throw e => rfl
    | ub w => rfl
    | ok p => exact ih p (i + 1)

theorem spiralSort_map (s : Nat) (l : List α) :
    spiralSort s (l.map f) = (spiralSort s l).map (List.map f) := by
  unfold spiralSort
  split
  · rfl
  · simp only [List.length_map, spiralBlocks_map]
    cases spiralBlocks s l 0 (l.length / s) with
    | throw e => rfl
    | ub w => rfl
    | ok p =>
      simp only [Outcome.map, Outcome.ok_bind, List.length_map]
      split
      · rw [spiral, spiral, spiralLoop_map]; rfl
      · rfl

theorem customPick_map (o : List Nat) (l : List α) :
    customPick o (l.map f) = (customPick o l).map (List.map f) := by
  induction o with
  | nil => rfl
  | cons i is ih =>
    rw [customPick, customPick, List.getElem?_map]
    cases l[i]? with
    | none => rfl
    | some a =>
      simp only [Option.map_some, ih]
      cases customPick is l <;> rfl

theorem customSort_map (o : List Nat) (l : List α) :
    customSort o (l.map f) = (customSort o l).map (List.map f) := by
  unfold customSort
  rw [List.length_map, customPick_map]
  cases customCheck o l.length <;> rfl

/-- The orders do not look at the swaths. -/
theorem sortSwaths_map (k : OrderKind) (l : List α) :
    k.sortSwaths (l.map f) = (k.sortSwaths l).map (List.map f) := by
  cases k with
  | boustrophedon => rfl
  | snake => exact snakeSort_map f l
  | spiral s => exact spiralSort_map f s l
  | custom o => exact customSort_map f o l

/-- If an order returns at all, it returns the same swaths. -/
theorem sortSwaths_perm_of_ok (k : OrderKind) (l out : List α) (hl : 0 < l.length)
    (h : k.sortSwaths l = .ok out) : out.Perm l := by
  have hv : k.Valid l.length := by
    cases k with
    | boustrophedon => trivial
    | snake =>
      intro h1
      have : snakeSort l = .ok out := h
      match l, h1 with
      | [a], _ =>
        simp [snakeSort, snakeLoop, rotateRange, reverseRange] at this
    | spiral s =>
      rcases Nat.eq_zero_or_pos s with rfl | hs
      · have : spiralSort 0 l = .ok out := h
        simp [spiralSort] at this
      · exact hs
    | custom o =>
      refine Or.inr ((perm_range_iff _ _).2 ?_)
      have h' : customSort o l = .ok out := h
      obtain ⟨c1, c2, c3, c4, -⟩ := customCheck_cases o l.length
      by_cases d1 : o.Nodup
      · by_cases d2 : o.length = l.length
        · refine ⟨d1, d2, fun x hx => ?_⟩
          by_contra hc
          rw [customSort, c4 d1 d2 hl ⟨x, hx, by omega⟩] at h'
          cases h'
        · rw [customSort, c2 d1 d2] at h'; cases h'
      · rw [customSort, c1 d1] at h'; cases h'
  obtain ⟨out', h1, h2⟩ := sortSwaths_perm k l hl hv
  rw [h1] at h
  cases h
  exact h2

end Naturality

namespace SwathsRef

variable {K : Type} [Field K] [LinearOrder K]

/-- The addresses of the swaths. -/
def locs (rs : SwathsRef K) : List Nat := rs.map SwathRef.loc

/-- Each swath has an object of its own. -/
structure Own (h : Store K) (rs : SwathsRef K) : Prop where
  valid : ∀ r ∈ rs, r.loc < h.length
  nodup : (locs rs).Nodup

/-- The two stores differ at most at the addresses of the swaths. -/
def Frame (h h' : Store K) (l : List Nat) : Prop :=
  h'.length = h.length ∧ ∀ a, a ∉ l → h'[a]? = h[a]?

theorem Frame.refl (h : Store K) (l : List Nat) : Frame h h l := ⟨rfl, fun _ _ => rfl⟩

theorem Frame.trans {h h' h'' : Store K} {l m : List Nat} (a : Frame h h' l) (b : Frame h' h'' m)
    (hm : ∀ x ∈ m, x ∈ l) : Frame h h'' l :=
  ⟨b.1.trans a.1, fun x hx => (b.2 x fun hh => hx (hm x hh)).trans (a.2 x hx)⟩

theorem view_congr {h h' : Store K} {r : SwathRef K} (e : h'[r.loc]? = h[r.loc]?) :
    SwathRef.view h' r = SwathRef.view h r := by
  simp only [SwathRef.view, e]

theorem views_congr {h h' : Store K} {l : List Nat} (hf : Frame h h' l) (rs : SwathsRef K)
    (hd : ∀ r ∈ rs, r.loc ∉ l) : view h' rs = view h rs := by
  refine List.map_congr_left fun r hr => view_congr (hf.2 _ (hd r hr))

theorem reverse_spec (h : Store K) (r : SwathRef K) (hr : r.loc < h.length) :
    SwathRef.view (SwathRef.reverse h r).1 (SwathRef.reverse h r).2 = (SwathRef.view h r).reverse ∧
    (SwathRef.reverse h r).2.loc = r.loc ∧ (SwathRef.reverse h r).2.id = r.id ∧
    Frame h (SwathRef.reverse h r).1 [r.loc] := by
  refine ⟨?_, rfl, rfl, by simp [SwathRef.reverse], fun a ha => ?_⟩
  · simp [SwathRef.view, SwathRef.reverse, Swath.reverse, hr]
  · simp only [SwathRef.reverse]
    rw [List.getElem?_modify]
    have : r.loc ≠ a := fun e => ha (by simp [e])
    simp [this]

theorem own_cons {h : Store K} {r : SwathRef K} {rs : SwathsRef K} (ho : Own h (r :: rs)) :
    r.loc < h.length ∧ (∀ q ∈ rs, q.loc ≠ r.loc) ∧ Own h rs := by
  have hn := List.nodup_cons.1 ho.nodup
  refine ⟨ho.valid r (by simp), fun q hq e => hn.1 ?_, fun q hq => ho.valid q (by simp [hq]), hn.2⟩
  rw [← e]
  exact List.mem_map_of_mem hq

/-- `orient` on swaths with objects of their own. -/
theorem orient_spec (h : Store K) (rs : SwathsRef K) (ho : Own h rs) :
    view (orient h rs).1 (orient h rs).2 = Swaths.orient (view h rs) ∧
    locs (orient h rs).2 = locs rs ∧ Frame h (orient h rs).1 (locs rs) := by
  induction rs generalizing h with
  | nil => exact ⟨rfl, rfl, Frame.refl _ _⟩
  | cons r rs ih =>
    obtain ⟨hr, hd, ho'⟩ := own_cons ho
    obtain ⟨h₁, r', e, hv, hl, hfr⟩ : ∃ h₁ r',
        (if (SwathRef.view h r).endPoint.lt (SwathRef.view h r).startPoint then SwathRef.reverse h r
          else (h, r)) = (h₁, r') ∧
        SwathRef.view h₁ r' = (if (SwathRef.view h r).endPoint.lt (SwathRef.view h r).startPoint
          then (SwathRef.view h r).reverse else SwathRef.view h r) ∧ r'.loc = r.loc ∧
        Frame h h₁ [r.loc] := by
      obtain ⟨s1, s2, -, s3⟩ := reverse_spec h r hr
      split
      · exact ⟨_, _, rfl, s1, s2, s3⟩
      · exact ⟨_, _, rfl, rfl, rfl, Frame.refl _ _⟩
    have ho₁ : Own h₁ rs := ⟨fun q hq => by rw [hfr.1]; exact ho'.valid q hq, ho'.nodup⟩
    obtain ⟨i1, i2, i3⟩ := ih h₁ ho₁
    have hun : orient h (r :: rs) = ((orient h₁ rs).1, r' :: (orient h₁ rs).2) := by
      rw [orient]
      simp only [e]
    rw [hun]
    have hrn : r.loc ∉ locs rs := by
      intro hm
      obtain ⟨q, hq, e⟩ := List.mem_map.1 hm
      exact hd q hq e
    refine ⟨?_, ?_, ?_⟩
    · have e1 : SwathRef.view (orient h₁ rs).1 r' = SwathRef.view h₁ r' :=
        view_congr (i3.2 _ (by rw [hl]; exact hrn))
      have e2 : view h₁ rs = view h rs := views_congr hfr rs (by simpa using hd)
      show SwathRef.view (orient h₁ rs).1 r' :: view (orient h₁ rs).1 (orient h₁ rs).2 = _
      rw [e1, i1, e2, hv]
      simp [Swaths.orient, view]
    · simp only [locs, List.map_cons, hl]
      rw [show (orient h₁ rs).2.map SwathRef.loc = rs.map SwathRef.loc from i2]
    · refine Frame.trans (l := locs (r :: rs)) (m := locs rs) ⟨hfr.1, fun a ha => hfr.2 a ?_⟩ i3
        fun x hx => ?_
      · simp only [locs, List.map_cons, List.mem_cons] at ha
        simp only [List.mem_singleton]
        tauto
      · simp only [locs, List.map_cons, List.mem_cons]; exact .inr hx

theorem targetOpp_spec (h : Store K) (r p : SwathRef K) (hr : r.loc < h.length) (p' : Swath K)
    (hp : p'.creationDir = p.creationDir) :
    SwathRef.view (targetOppositeDirAs h r p).1 (targetOppositeDirAs h r p).2 =
      (SwathRef.view h r).targetOppositeDirAs p' ∧
    (targetOppositeDirAs h r p).2.loc = r.loc ∧ Frame h (targetOppositeDirAs h r p).1 [r.loc] := by
  obtain ⟨s1, s2, -, s3⟩ := reverse_spec h r hr
  unfold targetOppositeDirAs Swath.targetOppositeDirAs Swath.hasSameDir
  rw [hp, show (SwathRef.view h r).creationDir = r.creationDir from rfl]
  split
  · exact ⟨s1, s2, s3⟩
  · exact ⟨rfl, rfl, Frame.refl _ _⟩

theorem reverseDirFrom_spec (h : Store K) (p : SwathRef K) (p' : Swath K)
    (hp : p'.creationDir = p.creationDir) (rs : SwathsRef K) (ho : Own h rs) :
    view (reverseDirFrom h p rs).1 (reverseDirFrom h p rs).2 = Swaths.reverseDirFrom p' (view h rs) ∧
    locs (reverseDirFrom h p rs).2 = locs rs ∧ Frame h (reverseDirFrom h p rs).1 (locs rs) := by
  induction rs generalizing h p p' with
  | nil => exact ⟨rfl, rfl, Frame.refl _ _⟩
  | cons r rs ih =>
    obtain ⟨hr, hd, ho'⟩ := own_cons ho
    obtain ⟨hv, hl, hfr⟩ := targetOpp_spec h r p hr p' hp
    set h₁ := (targetOppositeDirAs h r p).1
    set r' := (targetOppositeDirAs h r p).2
    have ho₁ : Own h₁ rs := ⟨fun q hq => by rw [hfr.1]; exact ho'.valid q hq, ho'.nodup⟩
    have hdir : ((SwathRef.view h r).targetOppositeDirAs p').creationDir = r'.creationDir := by
      rw [← hv]; rfl
    obtain ⟨i1, i2, i3⟩ := ih h₁ r' _ hdir ho₁
    have hun : reverseDirFrom h p (r :: rs) = ((reverseDirFrom h₁ r' rs).1, r' :: (reverseDirFrom h₁ r' rs).2) :=
      rfl
    rw [hun]
    have hrn : r.loc ∉ locs rs := by
      intro hm
      obtain ⟨q, hq, e⟩ := List.mem_map.1 hm
      exact hd q hq e
    refine ⟨?_, ?_, ?_⟩
    · have e1 : SwathRef.view (reverseDirFrom h₁ r' rs).1 r' = SwathRef.view h₁ r' :=
        view_congr (i3.2 _ (by rw [hl]; exact hrn))
      have e2 : view h₁ rs = view h rs := views_congr hfr rs (by simpa using hd)
      show SwathRef.view (reverseDirFrom h₁ r' rs).1 r' ::
        view (reverseDirFrom h₁ r' rs).1 (reverseDirFrom h₁ r' rs).2 = _
      rw [e1, i1, e2, hv]
      rfl
    · simp only [locs, List.map_cons, hl]
      rw [show (reverseDirFrom h₁ r' rs).2.map SwathRef.loc = rs.map SwathRef.loc from i2]
    · refine Frame.trans (l := locs (r :: rs)) (m := locs rs) ⟨hfr.1, fun a ha => hfr.2 a ?_⟩ i3
        fun x hx => ?_
      · simp only [locs, List.map_cons, List.mem_cons] at ha
        simp only [List.mem_singleton]
        tauto
      · simp only [locs, List.map_cons, List.mem_cons]; exact .inr hx

theorem reverseDirOdd_spec (h : Store K) (rs : SwathsRef K) (ho : Own h rs) :
    view (reverseDirOddSwaths h rs).1 (reverseDirOddSwaths h rs).2 =
      Swaths.reverseDirOddSwaths (view h rs) ∧
    locs (reverseDirOddSwaths h rs).2 = locs rs ∧ Frame h (reverseDirOddSwaths h rs).1 (locs rs) := by
  cases rs with
  | nil => exact ⟨rfl, rfl, Frame.refl _ _⟩
  | cons r rs =>
    obtain ⟨hr, hd, ho'⟩ := own_cons ho
    obtain ⟨i1, i2, i3⟩ := reverseDirFrom_spec h r (SwathRef.view h r) rfl rs ho'
    refine ⟨?_, ?_, i3.1, fun a ha => i3.2 a fun hm => ha ?_⟩
    · have hrn : r.loc ∉ locs rs := by
        intro hm
        obtain ⟨q, hq, e⟩ := List.mem_map.1 hm
        exact hd q hq e
      show SwathRef.view (reverseDirFrom h r rs).1 r :: view (reverseDirFrom h r rs).1
        (reverseDirFrom h r rs).2 = _
      rw [view_congr (i3.2 _ hrn), i1]
      rfl
    · show r.loc :: locs (reverseDirFrom h r rs).2 = r.loc :: locs rs
      rw [i2]
    · simp only [locs, List.map_cons, List.mem_cons]; exact .inr hm

/-- `clone`: new objects behind all others. -/
theorem clone_spec (h : Store K) (rs : SwathsRef K) (hv : ∀ r ∈ rs, r.loc < h.length)
    (hw : ∀ r ∈ rs, 0 < r.width) :
    ∃ h' rs', clone h rs = .ok (h', rs') ∧ view h' rs' = (view h rs).map Swath.cloned ∧
      Own h' rs' ∧ (∀ r ∈ rs', h.length ≤ r.loc) ∧ h.length ≤ h'.length ∧
      ∀ a, a < h.length → h'[a]? = h[a]? := by
  induction rs generalizing h with
  | nil => exact ⟨h, [], rfl, rfl, ⟨by simp, by simp [locs]⟩, by simp, le_rfl, fun _ _ => rfl⟩
  | cons r rs ih =>
    have hr := hv r (by simp)
    set h₁ : Store K := h ++ [(h[r.loc]?).getD []] with hh₁
    set r' : SwathRef K := { r with loc := h.length, type := .mainland } with hr'
    have e : SwathRef.clone h r = .ok (h₁, r') := by
      rw [SwathRef.clone, if_neg (not_le.2 (hw r (by simp)))]
    have hlen : h₁.length = h.length + 1 := by simp [hh₁]
    have hold : ∀ a, a < h.length → h₁[a]? = h[a]? := fun a ha => by
      rw [hh₁, List.getElem?_append_left ha]
    obtain ⟨h', rs', c1, c2, c3, c4, c5, c6⟩ := ih h₁
      (fun q hq => by have := hv q (by simp [hq]); omega) (fun q hq => hw q (by simp [hq]))
    refine ⟨h', r' :: rs', ?_, ?_, ⟨?_, ?_⟩, ?_, by omega, fun a ha => ?_⟩
    · rw [clone, e]
      simp only [Outcome.ok_bind, c1]
      rfl
    · have e1 : SwathRef.view h' r' = (SwathRef.view h r).cloned := by
        rw [view_congr (c6 r'.loc (by rw [hlen]; simp [hr']))]
        simp [SwathRef.view, Swath.cloned, hr', hh₁]
      have e2 : view h₁ rs = view h rs :=
        List.map_congr_left fun q hq => view_congr (hold _ (hv q (by simp [hq])))
      show SwathRef.view h' r' :: view h' rs' = _
      rw [e1, c2, e2]
      rfl
    · intro q hq
      rcases List.mem_cons.1 hq with rfl | hq
      · simp only [hr']; omega
      · exact c3.valid q hq
    · show (r'.loc :: locs rs').Nodup
      refine List.nodup_cons.2 ⟨fun hm => ?_, c3.nodup⟩
      obtain ⟨q, hq, e⟩ := List.mem_map.1 hm
      have := c4 q hq
      simp only [hr'] at e
      omega
    · intro q hq
      rcases List.mem_cons.1 hq with rfl | hq
      · simp [hr']
      · have := c4 q hq; omega
    · rw [c6 a (by omega), hold a ha]

theorem own_perm {h : Store K} {rs rs' : SwathsRef K} (ho : Own h rs) (hp : rs'.Perm rs) : Own h rs' :=
  ⟨fun r hr => ho.valid r (hp.mem_iff.1 hr), (hp.map SwathRef.loc).nodup_iff.2 ho.nodup⟩

theorem own_locs {h h' : Store K} {rs rs' : SwathsRef K} (ho : Own h rs) (hl : locs rs' = locs rs)
    (hh : h'.length = h.length) : Own h' rs' := by
  refine ⟨fun r hr => ?_, by rw [hl]; exact ho.nodup⟩
  have : r.loc ∈ locs rs := by rw [← hl]; exact List.mem_map_of_mem hr
  obtain ⟨q, hq, e⟩ := List.mem_map.1 this
  rw [hh, ← e]
  exact ho.valid q hq

theorem changeStart_spec (h : Store K) (rs : SwathsRef K) (v : UInt32) (ho : Own h rs)
    (hne : 0 < rs.length) :
    ∃ h' rs', changeStartPoint h rs v = .ok (h', rs') ∧
      F2C.changeStartPoint (view h rs) v = .ok (view h' rs') ∧ Own h' rs' ∧
      (∀ a, a ∈ locs rs' ↔ a ∈ locs rs) ∧ Frame h h' (locs rs) ∧ rs'.length = rs.length := by
  unfold changeStartPoint F2C.changeStartPoint
  set rs₁ := if v &&& 1 ≠ 0 then rs.reverse else rs with e1
  have hp : rs₁.Perm rs := by
    rw [e1]; split
    · exact rs.reverse_perm
    · exact .refl _
  have ho₁ := own_perm ho hp
  have e2 : (if v &&& 1 ≠ 0 then (view h rs).reverse else view h rs) = view h rs₁ := by
    rw [e1]; split <;> simp [view]
  have hl : ∀ a, a ∈ locs rs₁ ↔ a ∈ locs rs := fun a => (hp.map SwathRef.loc).mem_iff
  rw [e2]
  dsimp only
  by_cases h2 : v &&& 2 ≠ 0
  · rw [if_pos h2, if_pos h2]
    cases hc : rs₁ with
    | nil => rw [hc] at hp; have := hp.length_eq; simp at this; omega
    | cons r l =>
      rw [hc] at ho₁ hl hp
      obtain ⟨hr, hd, ho'⟩ := own_cons ho₁
      obtain ⟨s1, s2, -, s3⟩ := reverse_spec h r hr
      refine ⟨(SwathRef.reverse h r).1, (SwathRef.reverse h r).2 :: l, rfl, ?_, ?_, ?_, ?_, ?_⟩
      · show Outcome.ok ((SwathRef.view h r).reverse :: view h l) = _
        rw [← s1, ← views_congr s3 l (by simpa using hd)]
        rfl
      · refine own_locs ho₁ ?_ s3.1
        simp [locs, s2]
      · intro a
        rw [← hl a]
        simp [locs, s2]
      · exact ⟨s3.1, fun a ha => s3.2 a fun hm => ha ((hl a).1 (by simp at hm; simp [locs, hm]))⟩
      · rw [← hp.length_eq]; rfl
  · rw [if_neg h2, if_neg h2]
    exact ⟨h, rs₁, rfl, rfl, ho₁, hl, Frame.refl _ _, hp.length_eq⟩

end SwathsRef
end F2C
