import Verif.Model.FieldObj
import Verif.Lemmas.Text
import Verif.Lemmas.FieldObj

/-! # Names of UTM systems -/

namespace F2C

open Text

theorem contains_skip {h : Char} {p : Str} {a : Str} (ha : h ∉ a) (s : Str) :
    contains (h :: p) (a ++ s) = contains (h :: p) s := by
  induction a with
  | nil => rfl
  | cons x a ih =>
    have hx : h ≠ x := fun e => ha (by simp [e])
    rw [List.cons_append, contains, ih fun hm => ha (List.mem_cons_of_mem _ hm)]
    simp [hx]

theorem search_skip {h : Char} {p : Str} {a : Str} (g : Str → Option Str) (ha : h ∉ a) (s : Str) :
    search (h :: p) g (a ++ s) = search (h :: p) g s := by
  induction a with
  | nil => rfl
  | cons x a ih =>
    have hx : h ≠ x := fun e => ha (by simp [e])
    rw [List.cons_append, search, if_neg (by simp [hx]), ih fun hm => ha (List.mem_cons_of_mem _ hm)]

theorem search_none {lit : Str} (g : Str → Option Str) : ∀ {s : Str}, contains lit s = false → search lit g s = none
  | [], _ => rfl
  | c :: s, h => by
    rw [contains, Bool.or_eq_false_iff] at h
    rw [search, if_neg (by simp [h.1]), search_none g h.2]

theorem search_hit {h : Char} {p r : Str} {g : Str → Option Str} {v : Str} (hv : g r = some v) :
    search (h :: p) g ((h :: p) ++ r) = some v := by
  rw [List.cons_append, search, if_pos (by simp), List.length_cons, List.drop_succ_cons,
    List.drop_left, hv]

/-- A character that is no digit is not among digits. -/
theorem not_mem_digits {ds : Str} (h : ∀ c ∈ ds, c.isDigit = true) {x : Char} (hx : x.isDigit = false) : x ∉ ds :=
  fun hm => by rw [h x hm] at hx; cases hx

theorem isAlpha_facts {c : Char} (h : c.isAlpha = true) : c.isDigit = false ∧ isWord c = true ∧ c ≠ ' ' ∧ c ≠ ':' := by
  refine ⟨?_, ?_, ?_, ?_⟩
  · simp only [Char.isAlpha, Char.isUpper, Char.isLower, Char.isDigit, Bool.or_eq_true, Bool.and_eq_true,
      decide_eq_true_eq, Bool.and_eq_false_iff, decide_eq_false_iff_not, UInt32.le_iff_toNat_le, ge_iff_le] at *
    revert h
    generalize c.val.toNat = n
    simp
    omega
  · simp [isWord, Char.isAlphanum, h]
  · rintro rfl; revert h; decide
  · rintro rfl; revert h; decide

theorem datumGroup_spec {D : Str} (h0 : D ≠ []) (h : ∀ c ∈ D, c.isAlphanum = true) : datumGroup (':' :: D) = some D := by
  obtain ⟨d, D', rfl⟩ := List.exists_cons_of_ne_nil h0
  have hd := h d (by simp)
  have e1 : (':' :: d :: D').dropWhile (fun c => !c.isAlphanum) = d :: D' := by
    simp [hd]
  have e2 : (d :: D').takeWhile Char.isAlphanum = d :: D' := by
    clear e1 h0 hd
    revert h
    generalize d :: D' = l
    intro h
    induction l with
    | nil => rfl
    | cons x l ih => rw [List.takeWhile_cons, if_pos (h x (by simp)), ih fun y hy => h y (by simp [hy])]
  unfold datumGroup
  simp only [e1, e2]
  simp

theorem utmGroup_end {ds : Str} (h : ∀ c ∈ ds, c.isDigit = true) (r : Str)
    (hr : ∀ c ∈ r.head?, c.isDigit = false ∧ isWord c = false) (h2 : 1 ≤ ds.length) :
    utmGroup (':' :: (ds ++ r)) = if 2 ≤ ds.length then some ds else none := by
  obtain ⟨d, ds', rfl⟩ := List.exists_cons_of_ne_nil (l := ds) (by rintro rfl; simp at h2)
  have hd := digit_alnum (h d (by simp))
  have e1 : (':' :: (d :: ds' ++ r)).dropWhile (fun c => !c.isAlphanum) = d :: ds' ++ r := by
    simp [hd]
  obtain ⟨e2, e3⟩ := takeWhile_digits h r (fun c hc => (hr c hc).1)
  simp only [utmGroup, e1, e2, e3]
  cases r with
  | nil => rfl
  | cons c r => 
    simp only
    rw [if_neg]
    rintro ⟨-, hw⟩
    rw [(hr c (by simp)).2] at hw
    cases hw

end F2C
