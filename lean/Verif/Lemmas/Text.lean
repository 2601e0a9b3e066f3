import Mathlib.Data.Nat.Basic
import Mathlib.Tactic.IntervalCases
import Verif.Model.Text

/-! # Lemmas about text -/

set_option linter.unusedSimpArgs false
set_option linter.unusedVariables false

namespace F2C.Text

theorem contains_mem {pat : Str} : ∀ {s : Str}, contains pat s = true → ∀ c ∈ pat, c ∈ s
  | [], h, c, hc => by
    simp only [contains, List.isEmpty_iff] at h
    subst h
    exact hc
  | d :: s, h, c, hc => by
    simp only [contains, Bool.or_eq_true, List.isPrefixOf_iff_prefix] at h
    rcases h with h | h
    · exact h.subset hc
    · exact List.mem_cons_of_mem _ (contains_mem h c hc)

theorem contains_eq_false {pat s : Str} (c : Char) (hc : c ∈ pat) (hs : c ∉ s) :
    contains pat s = false := by
  by_contra h
  exact hs (contains_mem (by simpa using h) c hc)

theorem contains_iff {pat : Str} : ∀ {s : Str}, contains pat s = true ↔ ∃ a b, s = a ++ pat ++ b
  | [] => by
    simp only [contains, List.isEmpty_iff]
    constructor
    · rintro rfl
      exact ⟨[], [], rfl⟩
    · rintro ⟨a, b, h⟩
      simpa using (List.append_eq_nil_iff.1 (List.append_eq_nil_iff.1 h.symm).1).2
  | d :: s => by
    simp only [contains, Bool.or_eq_true, List.isPrefixOf_iff_prefix]
    constructor
    · rintro (⟨b, h⟩ | h)
      · exact ⟨[], b, by simpa using h.symm⟩
      · obtain ⟨a, b, h⟩ := contains_iff.1 h
        exact ⟨d :: a, b, by simp [h]⟩
    · rintro ⟨a, b, h⟩
      cases a with
      | nil => exact .inl ⟨b, by simpa using h.symm⟩
      | cons e a =>
        simp only [List.cons_append, List.cons.injEq] at h
        exact .inr (contains_iff.2 ⟨a, b, by simpa using h.2⟩)

theorem number_snoc (ds : Str) (c : Char) : number (ds ++ [c]) = 10 * number ds + (c.toNat - 48) := by
  simp [number]

theorem digit_char {k : Nat} (h : k < 10) :
    (Char.ofNat (48 + k)).isDigit = true ∧ (Char.ofNat (48 + k)).toNat - 48 = k := by
  interval_cases k <;> decide

theorem digitsTo_spec : ∀ (fuel n : Nat) (acc : Str), n < fuel →
    ∃ ds, digitsTo fuel n acc = ds ++ acc ∧ ds ≠ [] ∧ (∀ c ∈ ds, c.isDigit = true) ∧ number ds = n
  | 0, n, acc, h => absurd h (by omega)
  | fuel + 1, n, acc, h => by
    obtain ⟨d1, d2⟩ := digit_char (k := n % 10) (by omega)
    simp only [digitsTo]
    by_cases h0 : n / 10 = 0
    · rw [if_pos h0]
      refine ⟨[Char.ofNat (48 + n % 10)], rfl, by simp, by simpa using d1, ?_⟩
      have : number [Char.ofNat (48 + n % 10)] = 10 * number [] + _ := number_snoc [] _
      rw [this, d2]
      show 10 * 0 + n % 10 = n
      omega
    · rw [if_neg h0]
      obtain ⟨ds, e, hne, hd, hn⟩ := digitsTo_spec fuel (n / 10) (Char.ofNat (48 + n % 10) :: acc)
        (by omega)
      refine ⟨ds ++ [Char.ofNat (48 + n % 10)], by simp [e], by simp, ?_, ?_⟩
      · intro c hc
        rcases List.mem_append.1 hc with hc | hc
        · exact hd c hc
        · rw [List.mem_singleton.1 hc]
          exact d1
      · rw [number_snoc, hn, d2]
        omega

theorem natStr_spec (n : Nat) :
    natStr n ≠ [] ∧ (∀ c ∈ natStr n, c.isDigit = true) ∧ number (natStr n) = n := by
  obtain ⟨ds, e, h⟩ := digitsTo_spec (n + 1) n [] (by omega)
  rw [List.append_nil] at e
  rw [natStr, e]
  exact h

theorem takeWhile_digits {ds : Str} (h : ∀ c ∈ ds, c.isDigit = true) (r : Str)
    (hr : ∀ c, r.head? = some c → c.isDigit = false) :
    (ds ++ r).takeWhile Char.isDigit = ds ∧ (ds ++ r).dropWhile Char.isDigit = r := by
  induction ds with
  | nil =>
    cases r with
    | nil => simp
    | cons c r => simp [hr c rfl]
  | cons d ds ih =>
    obtain ⟨h1, h2⟩ := ih fun c hc => h c (List.mem_cons_of_mem _ hc)
    simp [h d List.mem_cons_self, h1, h2]

theorem digit_not_space {c : Char} (h : c.isDigit = true) : isSpace c = false := by
  simp only [Char.isDigit, Bool.and_eq_true, decide_eq_true_eq, UInt32.le_iff_toNat_le] at h
  have h2 : 48 ≤ c.toNat := h.1
  have h3 : c ≠ ' ' := by
    rintro rfl
    exact absurd h2 (by decide)
  simp only [isSpace, Bool.or_eq_false_iff, decide_eq_false_iff_not, Bool.and_eq_false_iff]
  exact ⟨h3, .inr (by omega)⟩

theorem digit_alnum {c : Char} (h : c.isDigit = true) : c.isAlphanum = true := by
  simp [Char.isAlphanum, h]

theorem sign_digit {c : Char} (r : Str) (h : c.isDigit = true) : sign (c :: r) = (false, c :: r) := by
  have h1 : c ≠ '-' := by
    rintro rfl
    exact absurd h (by decide)
  have h2 : c ≠ '+' := by
    rintro rfl
    exact absurd h (by decide)
  unfold sign
  split
  · simp_all
  · simp_all
  · rfl

theorem stoi_eq {s r ds : Str} {neg : Bool} (h1 : sign (s.dropWhile isSpace) = (neg, r))
    (h2 : r.takeWhile Char.isDigit = ds) (h3 : ds ≠ []) {v : Int}
    (hv : v = if neg then -(number ds : Int) else (number ds : Int))
    (h4 : -2147483648 ≤ v) (h5 : v ≤ 2147483647) : stoi s = .ok v := by
  subst h2
  simp only [stoi, h1]
  rw [if_neg h3]
  simp only [← hv]
  rw [if_neg (by omega)]

/-- Reading back a printed number. -/
theorem stoi_intStr {n : Int} (h1 : -2147483648 ≤ n) (h2 : n ≤ 2147483647) :
    stoi (intStr n) = .ok n := by
  cases n with
  | ofNat n =>
    obtain ⟨a1, a2, a3⟩ := natStr_spec n
    obtain ⟨c, r, e⟩ := List.exists_cons_of_ne_nil a1
    have hc : c.isDigit = true := a2 c (by simp [e])
    have e2 : (natStr n).dropWhile isSpace = natStr n := by
      rw [e]
      simp [digit_not_space hc]
    have e3 : sign (natStr n) = (false, natStr n) := by
      rw [e]
      exact sign_digit r hc
    have e4 : (natStr n).takeWhile Char.isDigit = natStr n := by
      simpa using (takeWhile_digits a2 [] (by simp)).1
    refine stoi_eq (neg := false) (r := natStr n) (ds := natStr n) ?_ e4 a1 ?_ h1 h2
    · show sign ((natStr n).dropWhile isSpace) = _
      rw [e2, e3]
    · rw [a3]
      rfl
  | negSucc n =>
    obtain ⟨a1, a2, a3⟩ := natStr_spec (n + 1)
    have e2 : ('-' :: natStr (n + 1)).dropWhile isSpace = '-' :: natStr (n + 1) := by
      have : isSpace '-' = false := by decide
      simp [this]
    have e4 : (natStr (n + 1)).takeWhile Char.isDigit = natStr (n + 1) := by
      simpa using (takeWhile_digits a2 [] (by simp)).1
    refine stoi_eq (neg := true) (r := natStr (n + 1)) (ds := natStr (n + 1)) ?_ e4 a1 ?_ h1 h2
    · show sign (('-' :: natStr (n + 1)).dropWhile isSpace) = _
      rw [e2]
      rfl
    · rw [a3]
      simp only [if_true]
      omega

theorem stoi_notUb (s : Str) : (stoi s).isUb = false := by
  unfold stoi
  split
  simp only []
  repeat' split
  all_goals rfl

/-- The group of the UTM expression after a colon. -/
theorem utmGroup_spec {ds : Str} (h0 : ds ≠ []) (h : ∀ c ∈ ds, c.isDigit = true) {c : Char}
    (hc : c.isDigit = false) (hw : isWord c = true) (r : Str) :
    utmGroup (':' :: (ds ++ c :: r)) = some (ds ++ [c]) := by
  obtain ⟨d, ds', e⟩ := List.exists_cons_of_ne_nil h0
  have hd := digit_alnum (h d (by simp [e]))
  have e1 : (':' :: (ds ++ c :: r)).dropWhile (fun c => !c.isAlphanum) = ds ++ c :: r := by
    have : (!':'.isAlphanum) = true := by decide
    subst e
    simp [List.dropWhile_cons, this, hd]
  obtain ⟨e2, e3⟩ := takeWhile_digits h (c :: r) (by simpa using hc)
  simp only [utmGroup, e1, e2, e3]
  rw [if_pos ⟨h0, hw⟩]

theorem replaceFrom_char (a : Char) (rep : Str) : ∀ (fuel : Nat) (s : Str), s.length ≤ fuel →
    replaceFrom [a] rep fuel s = .ok (s.flatMap fun c => if c = a then rep else [c])
  | 0, s, h => by
    cases s with
    | nil => rfl
    | cons c s => simp at h
  | fuel + 1, [], h => by simp [replaceFrom]
  | fuel + 1, c :: s, h => by
    have ih := replaceFrom_char a rep fuel s (by simpa using h)
    simp only [replaceFrom]
    by_cases hc : c = a
    · subst hc
      rw [if_pos (by simp)]
      simp only [List.length_singleton, List.drop_succ_cons, List.drop_zero, ih, Outcome.ok_bind]
      simp [Outcome.pure_eq]
    · have hc' : ¬ a = c := fun e => hc e.symm
      rw [if_neg (by simp [List.isPrefixOf_cons_cons, hc'])]
      simp only [ih, Outcome.ok_bind]
      simp [Outcome.pure_eq, hc]

theorem replaceAll_char (a : Char) (rep s : Str) :
    replaceAll [a] rep s = .ok (s.flatMap fun c => if c = a then rep else [c]) :=
  replaceFrom_char a rep _ s (by omega)

theorem flatMap_word {a : Char} {w : Str} (h : a ∉ w) (rep : Str) :
    (w.flatMap fun c => if c = a then rep else [c]) = w := by
  induction w with
  | nil => rfl
  | cons c w ih =>
    rw [List.mem_cons, not_or] at h
    rw [List.flatMap_cons, ih h.2, if_neg (fun e => h.1 e.symm)]
    rfl

end F2C.Text
