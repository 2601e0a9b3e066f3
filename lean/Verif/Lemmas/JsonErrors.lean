import Verif.Lemmas.Json

/-! # Lemmas about documents that cannot be read -/

namespace F2C

open Text Props.JsonSpec

set_option linter.unusedSectionVars false

variable {K : Type} [Field K] [LinearOrder K]

theorem Outcome.bind_isOk {α β : Type} (o : Outcome α) (f : α → Outcome β) :
    (o >>= f).isOk = true ↔ ∃ a, o = .ok a ∧ (f a).isOk = true := by
  cases o <;> simp [isOk]

theorem Outcome.bind_isUb {α β : Type} (o : Outcome α) (f : α → Outcome β) :
    (o >>= f).isUb = true ↔ o.isUb = true ∨ ∃ a, o = .ok a ∧ (f a).isUb = true := by
  cases o <;> simp

theorem Outcome.isOk_iff {α : Type} (o : Outcome α) : o.isOk = true ↔ ∃ a, o = .ok a := by
  cases o <;> simp [isOk]

theorem mapOutcome_isOk {α β : Type} (f : α → Outcome β) (l : List α) :
    (mapOutcome f l).isOk = true ↔ ∀ a ∈ l, (f a).isOk = true := by
  induction l with
  | nil => simp [mapOutcome]
  | cons a l ih =>
    rw [mapOutcome, Outcome.bind_isOk, List.forall_mem_cons, ← ih]
    simp only [Outcome.bind_isOk]
    constructor
    · rintro ⟨b, hb, c, hc, -⟩
      exact ⟨by rw [hb]; rfl, by rw [hc]; rfl⟩
    · rintro ⟨h1, h2⟩
      obtain ⟨b, hb⟩ := (Outcome.isOk_iff _).1 h1
      obtain ⟨c, hc⟩ := (Outcome.isOk_iff _).1 h2
      exact ⟨b, hb, c, hc, rfl⟩

theorem mapOutcome_isUb {α β : Type} (f : α → Outcome β) (l : List α) (h : ∀ a ∈ l, (f a).isUb = false) :
    (mapOutcome f l).isUb = false := by
  induction l with
  | nil => rfl
  | cons a l ih =>
    have h1 := h a List.mem_cons_self
    have h2 := ih fun b hb => h b (List.mem_cons_of_mem _ hb)
    rw [mapOutcome]
    cases ha : f a with
    | ok b =>
      rw [Outcome.ok_bind]
      cases hl : mapOutcome f l with
      | ok c => rfl
      | throw e => rfl
      | ub w => rw [hl] at h2; exact h2
    | throw e => rfl
    | ub w => rw [ha] at h1; exact h1

namespace Json

theorem iter_eq (j : Json K) : j.iter = elements j := by cases j <;> rfl

theorem toDouble_isOk (j : Json K) : j.toDouble.isOk = true ↔ ∃ v, IsNumber j v := by
  cases j <;> simp [toDouble, IsNumber, Outcome.isOk]

theorem toDouble_isUb (j : Json K) : j.toDouble.isUb = false := by cases j <;> rfl

theorem point_isUb (j : Json K) : j.point.isUb = false := by
  unfold point
  have key : ∀ i (_ : i < j.size), (j.elem i).isUb = false := by
    intro i hi
    cases j <;> simp only [elem, Outcome.isUb_throw]
    rename_i l
    rw [List.getElem?_eq_getElem (show i < l.length from hi)]
    rfl
  have key2 : ∀ i (_ : i < j.size), (j.elem i >>= toDouble).isUb = false := by
    intro i hi
    have := key i hi
    cases h : j.elem i with
    | ok v => rw [Outcome.ok_bind]; exact toDouble_isUb v
    | throw e => rfl
    | ub w => rw [h] at this; exact this
  split
  · next h =>
    have h0 := key 0 (by omega); have h1 := key 1 (by omega); have h2 := key 2 (by omega)
    by_contra hc
    simp only [Bool.not_eq_false, Outcome.bind_isUb, h0, h1, h2, toDouble_isUb, Outcome.pure_eq, Outcome.isUb_ok] at hc
    simp at hc
  · split
    · next h =>
      have h0 := key 0 (by omega); have h1 := key 1 (by omega)
      by_contra hc
      simp only [Bool.not_eq_false, Outcome.bind_isUb, h0, h1, toDouble_isUb, Outcome.pure_eq, Outcome.isUb_ok] at hc
      simp at hc
    · rfl

theorem point_isOk (j : Json K) : j.point.isOk = true ↔ ReadablePosition j := by
  unfold point ReadablePosition
  rw [← iter_eq]
  change _ ↔ (j.size = 2 ∨ j.size = 3 → _)
  by_cases h3 : j.size = 3
  · rw [if_pos h3]
    simp only [h3, or_true, forall_const]
    cases j with
    | arr l =>
      obtain ⟨a, b, c, rfl⟩ := List.length_eq_three.1 h3
      have : (∃ l, arr [a, b, c] = arr l ∧ ∀ x ∈ l, ∃ v, IsNumber x v) ↔
          a.toDouble.isOk = true ∧ b.toDouble.isOk = true ∧ c.toDouble.isOk = true := by
        simp [toDouble_isOk]
      rw [this]
      simp only [elem, List.getElem?_cons_zero, List.getElem?_cons_succ, Outcome.ok_bind]
      cases a.toDouble <;> cases b.toDouble <;> cases c.toDouble <;> simp [Outcome.isOk]
    | _ => simp [elem, Outcome.isOk]
  · rw [if_neg h3]
    by_cases h2 : j.size = 2
    · rw [if_pos h2]
      simp only [h2, true_or, forall_const]
      cases j with
      | arr l =>
        obtain ⟨a, b, rfl⟩ := List.length_eq_two.1 h2
        have : (∃ l, arr [a, b] = arr l ∧ ∀ x ∈ l, ∃ v, IsNumber x v) ↔
            a.toDouble.isOk = true ∧ b.toDouble.isOk = true := by
          simp [toDouble_isOk]
        rw [this]
        simp only [elem, List.getElem?_cons_zero, List.getElem?_cons_succ, Outcome.ok_bind]
        cases a.toDouble <;> cases b.toDouble <;> simp [Outcome.isOk]
      | _ => simp [elem, Outcome.isOk]
    · rw [if_neg h2]
      simp [h2, h3]

theorem points_isOk (j : Json K) : j.points.isOk = true ↔ ReadableLine j := by
  rw [points, mapOutcome_isOk, ReadableLine, iter_eq]
  exact forall₂_congr fun p _ => point_isOk p

theorem points_isUb (j : Json K) : j.points.isUb = false := mapOutcome_isUb _ _ fun p _ => point_isUb p

theorem rings_isOk (j : Json K) : ∀ k i acc, (rings j k i acc).isOk = true ↔
    ∀ m, m < k → ∃ r, j.subElem (i + m) = .ok r ∧ ReadableLine r := by
  intro k
  induction k with
  | zero => intro i acc; simp [rings]
  | succ k ih =>
    intro i acc
    rw [rings]
    simp only [Outcome.bind_isOk, ih, ← points_isOk]
    constructor
    · rintro ⟨r, hr, ps, hps, h⟩ m hm
      cases m with
      | zero => exact ⟨r, hr, by rw [hps]; rfl⟩
      | succ m =>
        obtain ⟨r', h1, h2⟩ := h m (by omega)
        exact ⟨r', by rw [← h1]; congr 1; omega, h2⟩
    · intro h
      obtain ⟨r, hr, hps⟩ := h 0 (by omega)
      obtain ⟨ps, hps⟩ := (Outcome.isOk_iff _).1 hps
      refine ⟨r, hr, ps, hps, fun m hm => ?_⟩
      obtain ⟨r', h1, h2⟩ := h (m + 1) (by omega)
      exact ⟨r', by rw [← h1]; congr 1; omega, h2⟩

theorem subElem_isUb (j : Json K) (i : Nat) : (j.subElem i).isUb = false := by cases j <;> rfl

theorem rings_isUb (j : Json K) : ∀ k i acc, (rings j k i acc).isUb = false := by
  intro k
  induction k with
  | zero => intro i acc; rfl
  | succ k ih =>
    intro i acc
    rw [rings]
    have h1 := subElem_isUb j i
    cases h : j.subElem i with
    | ok r =>
      rw [Outcome.ok_bind]
      have h2 := points_isUb r
      cases h' : r.points with
      | ok ps => rw [Outcome.ok_bind]; exact ih _ _
      | throw e => rfl
      | ub w => rw [h'] at h2; exact h2
    | throw e => rfl
    | ub w => rw [h] at h1; exact h1

theorem polygon_isOk (j : Json K) : (rings j j.size 0 []).isOk = true ↔ ReadablePolygon j := by
  rw [rings_isOk, ReadablePolygon, ← iter_eq]
  simp only [zero_add]
  cases j with
  | arr l =>
    simp only [subElem, Outcome.ok.injEq, exists_eq_left', arr.injEq, size, iter]
    constructor
    · intro h
      refine .inr fun r hr => ?_
      obtain ⟨i, hi, rfl⟩ := List.mem_iff_getElem.1 hr
      have := h i hi
      rwa [List.getElem?_eq_getElem hi] at this
    · rintro (h | h) m hm
      · subst h
        simp at hm
      · rw [List.getElem?_eq_getElem hm]
        exact h _ (List.getElem_mem hm)
  | obj l => cases l <;> simp [subElem, size, iter]; exact ⟨0, by omega⟩
  | null => simp [size, iter]
  | _ => simp [subElem, size, iter]

theorem at_isOk (j : Json K) (key : String) (v : Json K) : j.at' key.toList = .ok v ↔ Has j key v := by
  constructor
  · intro h
    cases j <;> simp only [at', reduceCtorEq] at h
    rename_i l
    refine ⟨l, rfl, ?_⟩
    cases hl : l.lookup key.toList with
    | none => rw [hl] at h; cases h
    | some w => rw [hl] at h; cases h; rfl
  · exact at_has

theorem at_isUb (j : Json K) (key : String) : (j.at' key.toList).isUb = true ↔ Lacks j key := by
  cases j <;> simp only [at', Lacks, reduceCtorEq, false_and, exists_false, Outcome.isUb_throw, Bool.false_eq_true,
    obj.injEq, exists_eq_left']
  rename_i l
  cases l.lookup key.toList <;> simp

theorem cell_isOk (j : Json K) : j.cell.isOk = true ↔ ReadableCell j := by
  rw [cell]
  simp only [Outcome.bind_isOk, at_isOk, polygon_isOk, ReadableCell]
  constructor
  · rintro ⟨g, h1, k, h2, h3⟩
    exact ⟨g, k, h1, h2, h3⟩
  · rintro ⟨g, k, h1, h2, h3⟩
    exact ⟨g, h1, k, h2, h3⟩

theorem cell_isUb (j : Json K) : j.cell.isUb = true ↔ NoCoordinates j := by
  rw [cell]
  simp only [Outcome.bind_isUb, at_isOk, at_isUb, rings_isUb, Bool.false_eq_true, and_false, exists_false, or_false,
    NoCoordinates]

theorem sub_ok (j : Json K) (key : String) (v : Json K) : j.sub key.toList = .ok v ↔
    Has j key v ∨ (v = .null ∧ (j = .null ∨ Lacks j key)) := by
  cases j with
  | obj l =>
    simp only [sub, Outcome.ok.injEq, Has, Lacks, obj.injEq, exists_eq_left', reduceCtorEq, false_or]
    cases l.lookup key.toList <;> simp [eq_comm]
  | null => simp [sub, Has, eq_comm]
  | _ => simp [sub, Has, Lacks]

theorem sub_isUb (j : Json K) (key : Str) : (j.sub key).isUb = false := by cases j <;> rfl

theorem toStr_isUb (j : Json K) : j.toStr.isUb = false := by cases j <;> rfl

theorem toStr_isOk (j : Json K) : j.toStr.isOk = true ↔ ∃ s, j = .str s := by
  cases j <;> simp [toStr, Outcome.isOk]

theorem propStr_isOk (j : Json K) (key : String) :
    (do (← (← j.sub "properties".toList).sub key.toList).toStr).isOk = true ↔ ∃ s, Named j key s := by
  simp only [Outcome.bind_isOk, toStr_isOk, Named, sub_ok]
  constructor
  · rintro ⟨p, h1, a, h2, s, rfl⟩
    rcases h2 with h2 | ⟨h2, -⟩
    · rcases h1 with h1 | ⟨rfl, -⟩
      · exact ⟨s, p, h1, h2⟩
      · obtain ⟨l, h, -⟩ := h2
        cases h
    · cases h2
  · rintro ⟨s, p, h1, h2⟩
    exact ⟨p, .inl h1, _, .inl h2, s, rfl⟩

theorem propStr_isUb (j : Json K) (key : Str) :
    (do (← (← j.sub "properties".toList).sub key).toStr).isUb = false := by
  by_contra hc
  simp only [Bool.not_eq_false, Outcome.bind_isUb, sub_isUb, toStr_isUb] at hc
  simp at hc

theorem rings_shape (j : Json K) : ∀ k i acc c, rings j k i acc = .ok c →
    ∃ rs, c = acc ++ rs ∧ rs.length = k ∧ ∀ m (h : m < rs.length), ∃ r, j.subElem (i + m) = .ok r ∧
      (rs[m] = [] ↔ elements r = []) := by
  intro k
  induction k with
  | zero =>
    intro i acc c h
    cases h
    exact ⟨[], by simp, rfl, by simp⟩
  | succ k ih =>
    intro i acc c h
    rw [rings] at h
    cases hr : j.subElem i with
    | throw e => rw [hr] at h; cases h
    | ub w => rw [hr] at h; cases h
    | ok r =>
      rw [hr, Outcome.ok_bind] at h
      cases hp : r.points with
      | throw e => rw [hp] at h; cases h
      | ub w => rw [hp] at h; cases h
      | ok ps =>
        rw [hp, Outcome.ok_bind] at h
        obtain ⟨rs, rfl, h2, h3⟩ := ih _ _ _ h
        refine ⟨closeRing ps :: rs, by simp [ContainerOps.add, cellOps], by simp [h2], ?_⟩
        rintro (_ | m) hm
        · refine ⟨r, hr, ?_⟩
          have hl : ps.length = (elements r).length := by
            rw [← iter_eq]
            have : ∀ (l : List (Json K)) qs, mapOutcome point l = .ok qs → qs.length = l.length := by
              intro l
              induction l with
              | nil => intro qs h; cases h; rfl
              | cons a l ih =>
                intro qs h
                rw [mapOutcome] at h
                cases ha : point a with
                | throw e => rw [ha] at h; cases h
                | ub w => rw [ha] at h; cases h
                | ok b =>
                  rw [ha, Outcome.ok_bind] at h
                  cases hb : mapOutcome point l with
                  | throw e => rw [hb] at h; cases h
                  | ub w => rw [hb] at h; cases h
                  | ok c =>
                    rw [hb] at h
                    cases h
                    simp [ih _ hb]
            exact this _ _ hp
          have : closeRing ps = [] ↔ ps = [] := by
            unfold closeRing
            split <;> simp_all
          simp only [List.getElem_cons_zero, this]
          rw [← List.length_eq_zero_iff, ← List.length_eq_zero_iff, hl]
        · obtain ⟨r', h4, h5⟩ := h3 m (by simpa using hm)
          exact ⟨r', by rw [← h4]; congr 1; omega, h5⟩

/-- Field of one polygon. -/
theorem make_isOk (k : Json K) (c : Cell K) (n : Str) (h : rings k k.size 0 [] = .ok c) :
    (FieldObj.make [c] n).isUb = false ∧ ((FieldObj.make [c] n).isOk = true ↔ ¬OuterMissing k) := by
  obtain ⟨rs, hrs, hlen, hs⟩ := rings_shape k _ _ _ _ h
  rw [List.nil_append] at hrs
  obtain rfl : rs = c := hrs.symm
  have hemp : Cells.isEmpty [rs] = true ↔ ∀ r ∈ rs, r = [] := by
    simp [Cells.isEmpty, cellsOps]
  unfold FieldObj.make
  by_cases he : Cells.isEmpty [rs] = true
  · rw [if_pos he]
    refine ⟨rfl, ?_⟩
    simp only [Outcome.isOk_ok, true_iff]
    rintro ⟨r, l, rfl, -, r', hr', hne⟩
    obtain ⟨i, hi, rfl⟩ := List.mem_iff_getElem.1 hr'
    have hi' : i + 1 < rs.length := by rw [hlen]; simpa [size, iter] using hi
    obtain ⟨x, h1, h2⟩ := hs (i + 1) hi'
    simp only [subElem, zero_add, List.getElem?_cons_succ, List.getElem?_eq_getElem hi, Option.getD_some,
      Outcome.ok.injEq] at h1
    subst h1
    exact hne (h2.1 (hemp.1 he _ (List.getElem_mem hi')))
  · rw [if_neg he]
    cases rs with
    | nil => exact absurd (hemp.2 (by simp)) he
    | cons r rs =>
      obtain ⟨x, h1, h2⟩ := hs 0 (by simp)
      simp only [List.getElem_cons_zero, zero_add] at h1 h2
      cases r with
      | cons p r =>
        refine ⟨rfl, ?_⟩
        simp only [Cells.firstPoint, Outcome.ok_bind, Outcome.pure_eq, Outcome.isOk_ok, true_iff]
        rintro ⟨y, l, rfl, hy, -⟩
        simp only [subElem, List.getElem?_cons_zero, Option.getD_some, Outcome.ok.injEq] at h1
        subst h1
        exact absurd (h2.2 hy) (by simp)
      | nil =>
        refine ⟨rfl, ?_⟩
        simp only [Cells.firstPoint, Outcome.throw_bind]
        refine ⟨fun h => absurd h (by simp [Outcome.isOk]), fun hno => absurd ?_ hno⟩
        cases k with
        | arr l =>
          cases l with
          | nil => simp [size, iter] at hlen
          | cons y l =>
            simp only [subElem, List.getElem?_cons_zero, Option.getD_some, Outcome.ok.injEq] at h1
            subst h1
            refine ⟨y, l, rfl, h2.1 rfl, ?_⟩
            have : ∃ r ∈ rs, r ≠ [] := by
              by_contra hc
              push Not at hc
              exact he (hemp.2 (by simpa using hc))
            obtain ⟨r, hr, hne⟩ := this
            obtain ⟨i, hi, rfl⟩ := List.mem_iff_getElem.1 hr
            obtain ⟨z, h3, h4⟩ := hs (i + 1) (by simpa using hi)
            have hi' : i < l.length := by
              simp [size, iter] at hlen
              omega
            simp only [subElem, zero_add, List.getElem?_cons_succ, List.getElem?_eq_getElem hi', Option.getD_some,
              Outcome.ok.injEq, List.getElem_cons_succ] at h3 h4
            subst h3
            exact ⟨_, List.getElem_mem hi', fun h => hne (h4.2 h)⟩
        | null => simp [size, iter] at hlen
        | obj l => simp [subElem] at h1
        | _ => simp [subElem] at h1

theorem field_isUb (j : Json K) : j.field.isUb = true ↔ NoCoordinates j := by
  rw [field, ← cell_isUb]
  rw [Outcome.bind_isUb]
  refine ⟨?_, .inl⟩
  rintro (h | ⟨c, hc, h⟩)
  · exact h
  · exfalso
    simp only [Outcome.bind_isUb, sub_isUb, toStr_isUb, Bool.false_eq_true, false_or] at h
    obtain ⟨p, -, a, -, n, -, h⟩ := h
    rw [cell] at hc
    cases h1 : j.at' "geometry".toList with
    | throw e => rw [h1] at hc; cases hc
    | ub w => rw [h1] at hc; cases hc
    | ok g =>
      rw [h1, Outcome.ok_bind] at hc
      cases h2 : g.at' "coordinates".toList with
      | throw e => rw [h2] at hc; cases hc
      | ub w => rw [h2] at hc; cases hc
      | ok k =>
        rw [h2, Outcome.ok_bind] at hc
        rw [(make_isOk k c n hc).1] at h
        cases h

theorem field_isOk (j : Json K) : j.field.isOk = true ↔ ReadableField j := by
  rw [field, cell, ReadableField, ← propStr_isOk]
  simp only [Outcome.bind_isOk]
  constructor
  · rintro ⟨c, hc, p, hp, a, ha, n, hn, h⟩
    cases h1 : j.at' "geometry".toList with
    | throw e => rw [h1] at hc; cases hc
    | ub w => rw [h1] at hc; cases hc
    | ok g =>
      rw [h1, Outcome.ok_bind] at hc
      cases h2 : g.at' "coordinates".toList with
      | throw e => rw [h2] at hc; cases hc
      | ub w => rw [h2] at hc; cases hc
      | ok k =>
        rw [h2, Outcome.ok_bind] at hc
        exact ⟨⟨g, k, (at_isOk _ _ _).1 h1, (at_isOk _ _ _).1 h2, (polygon_isOk k).1 (by rw [hc]; rfl),
          (make_isOk k c n hc).2.1 h⟩, p, hp, a, ha, by rw [hn]; rfl⟩
  · rintro ⟨⟨g, k, h1, h2, h3, h4⟩, p, hp, a, ha, hn⟩
    obtain ⟨n, hn⟩ := (Outcome.isOk_iff _).1 hn
    obtain ⟨c, hc⟩ := (Outcome.isOk_iff _).1 ((polygon_isOk k).2 h3)
    exact ⟨c, by rw [at_has h1, Outcome.ok_bind, at_has h2, Outcome.ok_bind, hc], p, hp, a, ha, n, hn,
      (make_isOk k c n hc).2.2 h4⟩

theorem strip_isOk (j : Json K) : j.strip.isOk = true ↔ ReadableCell j ∧ ∃ s, Named j "crop_id" s := by
  rw [strip, ← cell_isOk, ← propStr_isOk]
  simp only [Outcome.bind_isOk]
  constructor
  · rintro ⟨p, hp, a, ha, n, hn, c, hc, -⟩
    exact ⟨by rw [hc]; rfl, p, hp, a, ha, by rw [hn]; rfl⟩
  · rintro ⟨hc, p, hp, a, ha, hn⟩
    obtain ⟨n, hn⟩ := (Outcome.isOk_iff _).1 hn
    obtain ⟨c, hc⟩ := (Outcome.isOk_iff _).1 hc
    exact ⟨p, hp, a, ha, n, hn, c, hc, rfl⟩

theorem strip_isUb (j : Json K) : j.strip.isUb = true ↔ NoCoordinates j ∧ ∃ s, Named j "crop_id" s := by
  rw [strip, ← cell_isUb, ← propStr_isOk]
  simp only [Outcome.bind_isUb, Outcome.bind_isOk, sub_isUb, toStr_isUb, Bool.false_eq_true, false_or,
    Outcome.pure_eq, Outcome.isUb_ok, and_false, exists_false, or_false]
  constructor
  · rintro ⟨p, hp, a, ha, n, hn, hc⟩
    exact ⟨hc, p, hp, a, ha, by rw [hn]; rfl⟩
  · rintro ⟨hc, p, hp, a, ha, hn⟩
    obtain ⟨n, hn⟩ := (Outcome.isOk_iff _).1 hn
    exact ⟨p, hp, a, ha, n, hn, hc⟩

theorem path_isOk (j : Json K) (hj : j ≠ .null) :
    (do (← (← j.sub "geometry".toList).sub "coordinates".toList).points).isOk = true ↔ ReadablePath j := by
  simp only [Outcome.bind_isOk, points_isOk, ReadablePath, sub_ok]
  have hnull : ReadableLine (.null : Json K) := by simp [ReadableLine, elements]
  constructor
  · rintro ⟨g, h1, k, h2, h3⟩
    rcases h1 with h1 | ⟨rfl, h | h⟩
    · refine .inr ⟨g, h1, ?_⟩
      rcases h2 with h2 | ⟨-, h | h⟩
      · exact .inr (.inr ⟨k, h2, h3⟩)
      · exact .inl h
      · exact .inr (.inl h)
    · exact absurd h hj
    · exact .inl h
  · rintro (h | ⟨g, h1, h | h | ⟨k, h2, h3⟩⟩)
    · exact ⟨.null, .inr ⟨rfl, .inr h⟩, .null, .inr ⟨rfl, .inl rfl⟩, hnull⟩
    · exact ⟨g, .inl h1, .null, .inr ⟨rfl, .inl h⟩, hnull⟩
    · exact ⟨g, .inl h1, .null, .inr ⟨rfl, .inr h⟩, hnull⟩
    · exact ⟨g, .inl h1, k, .inl h2, h3⟩

theorem propNum (j : Json K) (key : String) (x : K) :
    (∃ p, j.sub "properties".toList = .ok p ∧ ∃ a, p.sub key.toList = .ok a ∧ a.toDouble = .ok x) ↔
      NumberProp j key x := by
  simp only [sub_ok]
  have key2 : ∀ a : Json K, a.toDouble = .ok x ↔ IsNumber a x := by
    intro a
    cases a <;> simp [toDouble, IsNumber, eq_comm]
  constructor
  · rintro ⟨p, h1, a, h2, h3⟩
    rw [key2] at h3
    have hn : a ≠ .null := by
      rintro rfl
      simp [IsNumber] at h3
    rcases h2 with h2 | ⟨h2, -⟩
    · rcases h1 with h1 | ⟨rfl, -⟩
      · exact ⟨p, a, h1, h2, h3⟩
      · obtain ⟨l, h, -⟩ := h2
        cases h
    · exact absurd h2 hn
  · rintro ⟨p, a, h1, h2, h3⟩
    exact ⟨p, .inl h1, a, .inl h2, (key2 a).2 h3⟩

section
variable [IsStrictOrderedRing K] [FloorRing K]

theorem fitsInt (x : K) : (-2 ^ 31 ≤ (if 0 ≤ x then ⌊x⌋ else ⌈x⌉) ∧ (if 0 ≤ x then ⌊x⌋ else ⌈x⌉) < 2 ^ 31) ↔
    FitsInt x := by
  unfold FitsInt
  split
  · next h =>
    have h0 : 0 ≤ ⌊x⌋ := Int.floor_nonneg.2 h
    have : ⌊x⌋ < 2 ^ 31 ↔ x < 2 ^ 31 := by
      rw [Int.floor_lt]
      norm_num
    rw [this]
    constructor
    · rintro ⟨-, h1⟩
      exact ⟨by linarith, h1⟩
    · rintro ⟨-, h1⟩
      exact ⟨by omega, h1⟩
  · next h =>
    have h0 : ⌈x⌉ ≤ 0 := Int.ceil_le.2 (by push_cast; linarith)
    have : -2 ^ 31 ≤ ⌈x⌉ ↔ -2 ^ 31 - 1 < x := by
      rw [← Int.sub_one_lt_iff, Int.lt_ceil]
      norm_num
    rw [this]
    constructor
    · rintro ⟨h1, -⟩
      exact ⟨h1, by linarith⟩
    · rintro ⟨h1, -⟩
      exact ⟨h1, by omega⟩

theorem toInt_isOk (j : Json K) : j.toInt.isOk = true ↔
    ((∃ n : Int, j = .int n) ∨ ∃ b, j = .bool b) ∨ ∃ x, j = .real x ∧ FitsInt x := by
  cases j with
  | real x =>
    simp only [toInt, real.injEq, reduceCtorEq, exists_false, false_or, exists_eq_left', ← fitsInt]
    by_cases h : -2 ^ 31 ≤ (if 0 ≤ x then ⌊x⌋ else ⌈x⌉) ∧ (if 0 ≤ x then ⌊x⌋ else ⌈x⌉) < 2 ^ 31
    · rw [if_pos h]; exact ⟨fun _ => h, fun _ => rfl⟩
    · rw [if_neg h]; exact ⟨fun h' => absurd h' (by simp [Outcome.isOk]), fun h' => absurd h' h⟩
  | _ => simp [toInt, Outcome.isOk]

theorem toInt_isUb (j : Json K) : j.toInt.isUb = true ↔ ∃ x, j = .real x ∧ ¬FitsInt x := by
  cases j with
  | real x =>
    simp only [toInt, real.injEq, exists_eq_left', ← fitsInt]
    by_cases h : -2 ^ 31 ≤ (if 0 ≤ x then ⌊x⌋ else ⌈x⌉) ∧ (if 0 ≤ x then ⌊x⌋ else ⌈x⌉) < 2 ^ 31
    · rw [if_pos h]; exact ⟨fun h' => absurd h' (by simp), fun h' => absurd h h'⟩
    · rw [if_neg h]; exact ⟨fun _ => h, fun _ => rfl⟩
  | _ => simp [toInt]

theorem swath_isOk (j : Json K) : j.swath.isOk = true ↔ ReadableSwath j := by
  have hsplit : j.swath.isOk = true ↔
      (do (← (← j.sub "geometry".toList).sub "coordinates".toList).points).isOk = true ∧
      ∃ p, j.sub "properties".toList = .ok p ∧
        (∃ w, (∃ a, p.sub "width".toList = .ok a ∧ a.toDouble = .ok w) ∧ 0 < w) ∧
        ∃ b, p.sub "path_id".toList = .ok b ∧ b.toInt.isOk = true := by
    rw [swath]
    simp only [Outcome.bind_isOk, Swath.make, Swath.setWidth]
    constructor
    · rintro ⟨g, hg, k, hk, line, hl, p, hp, a, ha, w, hw, b, hb, i, hi, h⟩
      refine ⟨⟨g, hg, k, hk, by rw [hl]; rfl⟩, p, hp, ⟨w, ⟨a, ha, hw⟩, ?_⟩, b, hb, by rw [hi]; rfl⟩
      by_contra hc
      rw [if_pos (not_lt.1 hc)] at h
      cases h
    · rintro ⟨⟨g, hg, k, hk, hl⟩, p, hp, ⟨w, ⟨a, ha, hw⟩, h0⟩, b, hb, hi⟩
      obtain ⟨line, hl⟩ := (Outcome.isOk_iff _).1 hl
      obtain ⟨i, hi⟩ := (Outcome.isOk_iff _).1 hi
      exact ⟨g, hg, k, hk, line, hl, p, hp, a, ha, w, hw, b, hb, i, hi, by rw [if_neg (not_le.2 h0)]; rfl⟩
  rw [hsplit, ReadableSwath]
  constructor
  · rintro ⟨h1, p, hp, ⟨w, ⟨a, ha, hw⟩, h0⟩, b, hb, hi⟩
    obtain ⟨p', a', hp', ha', hw'⟩ := (propNum j "width" w).1 ⟨p, hp, a, ha, hw⟩
    have hj : j ≠ .null := by
      rintro rfl
      obtain ⟨l, h, -⟩ := hp'
      cases h
    have : p' = p := by
      have := sub_has hp'
      rw [hp] at this
      cases this
      rfl
    subst this
    refine ⟨(path_isOk j hj).1 h1, ⟨w, ⟨p', a', hp', ha', hw'⟩, h0⟩, ?_⟩
    rw [toInt_isOk] at hi
    have hb' : Has p' "path_id" b := by
      rcases (sub_ok _ _ _).1 hb with h | ⟨rfl, -⟩
      · exact h
      · simp at hi
    rcases hi with hi | ⟨x, rfl, hx⟩
    · exact .inl ⟨p', b, hp', hb', hi⟩
    · exact .inr ⟨x, ⟨p', hp', hb'⟩, hx⟩
  · rintro ⟨h1, ⟨w, ⟨p, a, hp, ha, hw⟩, h0⟩, h2⟩
    have hj : j ≠ .null := by
      rintro rfl
      obtain ⟨l, h, -⟩ := hp
      cases h
    refine ⟨(path_isOk j hj).2 h1, p, sub_has hp, ⟨w, ⟨a, sub_has ha, toDouble_number hw⟩, h0⟩, ?_⟩
    have huniq : ∀ p', Has j "properties" p' → p' = p := by
      intro p' h
      have := sub_has h
      rw [sub_has hp] at this
      cases this
      rfl
    rcases h2 with ⟨p', b, hp', hb, hi⟩ | ⟨x, ⟨p', hp', hb⟩, hx⟩
    · obtain rfl := huniq p' hp'
      exact ⟨b, sub_has hb, (toInt_isOk b).2 (.inl hi)⟩
    · obtain rfl := huniq p' hp'
      exact ⟨_, sub_has hb, (toInt_isOk _).2 (.inr ⟨x, rfl, hx⟩)⟩

theorem swath_isUb (j : Json K) : j.swath.isUb = true ↔ HugeId j := by
  have hsplit : j.swath.isUb = true ↔
      (do (← (← j.sub "geometry".toList).sub "coordinates".toList).points).isOk = true ∧
      ∃ p, j.sub "properties".toList = .ok p ∧
        (∃ w, ∃ a, p.sub "width".toList = .ok a ∧ a.toDouble = .ok w) ∧
        ∃ b, p.sub "path_id".toList = .ok b ∧ b.toInt.isUb = true := by
    rw [swath]
    have hmk : ∀ (line : List (Point K)) w i, (Swath.make line w i .mainland).isUb = false := by
      intro line w i
      unfold Swath.make Swath.setWidth
      split <;> rfl
    simp only [Outcome.bind_isUb, Outcome.bind_isOk, sub_isUb, points_isUb, toDouble_isUb, hmk, Bool.false_eq_true,
      false_or, and_false, exists_false, or_false]
    constructor
    · rintro ⟨g, hg, k, hk, line, hl, p, hp, a, ha, w, hw, b, hb, hi⟩
      exact ⟨⟨g, hg, k, hk, by rw [hl]; rfl⟩, p, hp, ⟨w, a, ha, hw⟩, b, hb, hi⟩
    · rintro ⟨⟨g, hg, k, hk, hl⟩, p, hp, ⟨w, a, ha, hw⟩, b, hb, hi⟩
      obtain ⟨line, hl⟩ := (Outcome.isOk_iff _).1 hl
      exact ⟨g, hg, k, hk, line, hl, p, hp, a, ha, w, hw, b, hb, hi⟩
  rw [hsplit, HugeId]
  constructor
  · rintro ⟨h1, p, hp, ⟨w, a, ha, hw⟩, b, hb, hi⟩
    obtain ⟨p', a', hp', ha', hw'⟩ := (propNum j "width" w).1 ⟨p, hp, a, ha, hw⟩
    have hj : j ≠ .null := by
      rintro rfl
      obtain ⟨l, h, -⟩ := hp'
      cases h
    have : p' = p := by
      have := sub_has hp'
      rw [hp] at this
      cases this
      rfl
    subst this
    obtain ⟨x, rfl, hx⟩ := (toInt_isUb b).1 hi
    refine ⟨(path_isOk j hj).1 h1, ⟨w, p', a', hp', ha', hw'⟩, x, ⟨p', hp', ?_⟩, hx⟩
    rcases (sub_ok _ _ _).1 hb with h | ⟨h, -⟩
    · exact h
    · cases h
  · rintro ⟨h1, ⟨w, p, a, hp, ha, hw⟩, x, ⟨p', hp', hb⟩, hx⟩
    have hj : j ≠ .null := by
      rintro rfl
      obtain ⟨l, h, -⟩ := hp
      cases h
    have : p' = p := by
      have := sub_has hp'
      rw [sub_has hp] at this
      cases this
      rfl
    subst this
    exact ⟨(path_isOk j hj).2 h1, p', sub_has hp, ⟨w, a, sub_has ha, toDouble_number hw⟩, _, sub_has hb,
      (toInt_isUb _).2 ⟨x, rfl, hx⟩⟩

end

theorem sub_listed (doc : Json K) (fs : List (Json K)) :
    (∃ v, doc.sub "features".toList = .ok v ∧ v.iter = fs) ↔ Listed doc fs := by
  simp only [sub_ok, Listed, iter_eq]
  constructor
  · rintro ⟨v, h | ⟨rfl, h⟩, rfl⟩
    · exact .inl ⟨v, h, rfl⟩
    · exact .inr ⟨h, rfl⟩
  · rintro (⟨v, h, rfl⟩ | ⟨h, rfl⟩)
    · exact ⟨v, .inl h, rfl⟩
    · exact ⟨.null, .inr ⟨rfl, h⟩, rfl⟩

theorem mapOutcome_firstBad {β : Type} (f : Json K → Outcome β) (good bad : Json K → Prop)
    (hg : ∀ j, (f j).isOk = true ↔ good j) (hb : ∀ j, (f j).isUb = true ↔ bad j) (fs : List (Json K)) :
    (mapOutcome f fs).isUb = true ↔ FirstBad good bad fs := by
  unfold FirstBad
  induction fs with
  | nil => simp [mapOutcome]
  | cons j fs ih =>
    rw [mapOutcome]
    have e1 := hg j
    have e2 := hb j
    constructor
    · intro h
      cases hj : f j with
      | throw e => rw [hj] at h; simp at h
      | ub w =>
        rw [hj] at e2
        exact ⟨[], j, fs, rfl, by simp, e2.1 rfl⟩
      | ok y =>
        rw [hj] at h e1
        cases hl : mapOutcome f fs with
        | throw e => rw [hl] at h; simp at h
        | ok ys => rw [hl] at h; simp at h
        | ub w =>
          rw [hl] at ih
          obtain ⟨a, i, b, rfl, h1, h2⟩ := ih.1 rfl
          exact ⟨j :: a, i, b, rfl, by simpa using ⟨e1.1 rfl, h1⟩, h2⟩
    · rintro ⟨a, i, b, h, h1, h2⟩
      cases a with
      | nil =>
        simp only [List.nil_append, List.cons.injEq] at h
        obtain ⟨rfl, rfl⟩ := h
        rw [Outcome.bind_isUb]
        exact .inl (e2.2 h2)
      | cons x a =>
        simp only [List.cons_append, List.cons.injEq] at h
        obtain ⟨rfl, rfl⟩ := h
        obtain ⟨y, hy⟩ := (Outcome.isOk_iff _).1 (e1.2 (h1 _ List.mem_cons_self))
        rw [Outcome.bind_isUb]
        refine .inr ⟨y, hy, ?_⟩
        rw [Outcome.bind_isUb]
        exact .inl (ih.2 ⟨a, i, b, rfl, fun z hz => h1 z (List.mem_cons_of_mem _ hz), h2⟩)

theorem importFields_eq (old : List (FieldObj K)) (fs : List (Json K)) :
    ((importFields old fs).2.isOk = true ↔ (mapOutcome field fs).isOk = true) ∧
    ((importFields old fs).2.isUb = true ↔ (mapOutcome field fs).isUb = true) := by
  induction fs generalizing old with
  | nil => simp [importFields, mapOutcome]
  | cons j fs ih =>
    rw [importFields, mapOutcome]
    cases j.field with
    | throw e => simp [Outcome.isOk]
    | ub w => simp [Outcome.isOk]
    | ok f =>
      obtain ⟨h1, h2⟩ := ih (old ++ [f])
      rw [Outcome.ok_bind]
      dsimp only
      rw [h1, h2]
      cases mapOutcome field fs <;> simp [Outcome.isOk]

end Json
end F2C
