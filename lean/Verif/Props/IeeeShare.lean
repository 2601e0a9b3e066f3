import Verif.Model.IeeeShare
import Verif.Props.Ieee
import Verif.Lemmas.IeeeGeom
import Verif.Lemmas.IeeeShare
import Verif.Props.Objectives

/-! # C147: shares of a field, for all values of type `double` -/

namespace F2C.Props

open Ieee Ieee.Flt Dbl IeeeSpec

variable {fl : ℝ → ℝ}

namespace IeeeShareSpec

/-- The area of something and that of the whole: doubles, the whole positive and no smaller. -/
structure Part (a t : ℝ) : Prop where
  da : IsDouble a
  dt : IsDouble t
  nonneg : 0 ≤ a
  pos : 0 < t
  le : a ≤ t

end IeeeShareSpec

open IeeeShareSpec

/-- a double that is smaller than another one is smaller by at least 2^-53 of it -/
private theorem gap {a t : ℝ} (p : Part a t) (hl : a < t) : a / t ≤ 1 - 1 / 2 ^ 53 := by
  obtain ⟨n, f, hn, -, ea⟩ := p.da
  obtain ⟨m, e, hm, -, et⟩ := p.dt
  have t0 := p.pos
  rw [div_le_iff₀ t0]
  rcases le_or_gt e f with h | h
  · obtain ⟨k, rfl⟩ := Int.le.dest h
    have g0 : (0 : ℝ) < 2 ^ e := by positivity
    have e2 : a = ((n * 2 ^ k : ℤ) : ℝ) * 2 ^ e := by
      rw [ea, zpow_add₀ (by norm_num), zpow_natCast]; push_cast; ring
    have lt : n * 2 ^ k < m := by
      rw [e2, et] at hl
      exact_mod_cast lt_of_mul_lt_mul_right hl g0.le
    have c1 : ((n * 2 ^ k : ℤ) : ℝ) + 1 ≤ m := by exact_mod_cast lt
    have c2 : (m : ℝ) ≤ 2 ^ 53 := by exact_mod_cast (le_abs_self m).trans hm
    rw [e2, et, ← mul_assoc]
    refine mul_le_mul_of_nonneg_right ?_ g0.le
    generalize n * 2 ^ k = N at *
    norm_num at c2 ⊢
    linarith
  · obtain ⟨k, rfl⟩ := Int.le.dest (Int.add_one_le_iff.2 h)
    have g0 : (0 : ℝ) < 2 ^ f := by positivity
    have e2 : t = (2 * (m * 2 ^ k : ℤ) : ℝ) * 2 ^ f := by
      rw [et, zpow_add₀ (by norm_num), zpow_add₀ (by norm_num), zpow_natCast]; push_cast; ring
    have lt : n < 2 * (m * 2 ^ k) := by
      rw [ea, e2] at hl
      exact_mod_cast lt_of_mul_lt_mul_right hl g0.le
    generalize m * 2 ^ k = M at *
    have c2 : n ≤ 2 ^ 53 := (le_abs_self n).trans hn
    have key : 2 ^ 53 * n ≤ (2 ^ 53 - 1) * (2 * M) := by
      norm_num at c2 ⊢
      omega
    have key' : (2 : ℝ) ^ 53 * n ≤ (2 ^ 53 - 1) * (2 * M) := by exact_mod_cast key
    rw [ea, e2, ← mul_assoc]
    refine mul_le_mul_of_nonneg_right ?_ g0.le
    norm_num at key' ⊢
    linarith

private theorem dbl_one : IsDouble 1 := ⟨1, 0, by norm_num, by norm_num, by norm_num⟩
private theorem dbl_below : IsDouble (1 - 1 / 2 ^ 53) := ⟨2 ^ 53 - 1, -53, by norm_num, by norm_num, by norm_num⟩
private theorem dbl_ulp : IsDouble (1 / 2 ^ 53) := ⟨1, -53, by norm_num, by norm_num, by norm_num⟩

private theorem quot_range {a t : ℝ} (p : Part a t) : 0 ≤ a / t ∧ a / t ≤ 1 :=
  ⟨div_nonneg p.nonneg p.pos.le, (div_le_one p.pos).2 p.le⟩

private theorem share_fin {a t : ℝ} (p : Part a t) : div fl (fin a) (fin t) = fin (fl (a / t)) := by
  refine div_fin p.pos.ne' ?_
  rw [abs_of_nonneg (quot_range p).1]
  linarith [(quot_range p).2, one_le_big]

private theorem unit_err (h : IsRounding fl) {x : ℝ} (h0 : 0 ≤ x) (h1 : x ≤ 1) : |fl x - x| ≤ 1 / 2 ^ 54 := by
  have := h.abs_error x (-53) (by norm_num) (by rw [abs_of_nonneg h0]; norm_num; exact h1)
  rw [abs_sub_comm]
  refine this.trans ?_
  norm_num

private theorem share_one (h : IsRounding fl) {a t : ℝ} (p : Part a t) : fl (a / t) = 1 ↔ a = t := by
  constructor
  · intro e
    by_contra hne
    have := h.le dbl_below (gap p (lt_of_le_of_ne p.le hne))
    rw [e] at this
    norm_num at this
  · rintro rfl
    rw [div_self p.pos.ne']
    exact h.self dbl_one

private theorem coverage_eq {covered : Flt → List (List (Point Flt)) → Flt} {s : Swath Flt} {l : Swaths Flt} {v : Flt}
    (hv : covered (div fl s.width (fin 2)) ((s :: l).map fun x => x.path) = v) (t : Flt) :
    Ieee.fieldCoverage fl covered t (s :: l) = .ok (div fl v t) := by
  show Outcome.ok (div fl (covered (div fl s.width (fin 2)) ((s :: l).map fun x => x.path)) t) = _
  rw [hv]

/-- **C147**, coverage: with at least one swath, the part of the field inside the buffer of half the width of the first swath, as a
share of the field: from 0 to 1, right up to 2^-54, and 1 exactly if the two areas are the same number. -/
theorem C147_coverage (h : IsRounding fl) (covered : Flt → List (List (Point Flt)) → Flt) (s : Swath Flt) (l : Swaths Flt) (a t : ℝ)
    (ha : covered (div fl s.width (fin 2)) ((s :: l).map fun x => x.path) = fin a) (p : Part a t) :
    ∃ r, Ieee.fieldCoverage fl covered (fin t) (s :: l) = .ok (fin r) ∧ IsDouble r ∧ 0 ≤ r ∧ r ≤ 1 ∧ |r - a / t| ≤ 1 / 2 ^ 54 ∧
      (r = 1 ↔ a = t) := by
  have q := quot_range p
  refine ⟨fl (a / t), ?_, h.double _, h.ge isDouble_zero q.1, h.le dbl_one q.2, unit_err h q.1 q.2, share_one h p⟩
  rw [coverage_eq ha, share_fin p]

/-- **C147**, coverage: more covered area is never a smaller share. -/
theorem C147_monotone (h : IsRounding fl) (covered : Flt → List (List (Point Flt)) → Flt) (s s' : Swath Flt) (l l' : Swaths Flt)
    (a a' t : ℝ) (ha : covered (div fl s.width (fin 2)) ((s :: l).map fun x => x.path) = fin a)
    (ha' : covered (div fl s'.width (fin 2)) ((s' :: l').map fun x => x.path) = fin a') (p : Part a t) (p' : Part a' t) (hle : a ≤ a') :
    ∃ r r', Ieee.fieldCoverage fl covered (fin t) (s :: l) = .ok (fin r) ∧
      Ieee.fieldCoverage fl covered (fin t) (s' :: l') = .ok (fin r') ∧ r ≤ r' := by
  refine ⟨fl (a / t), fl (a' / t), ?_, ?_, h.mono (div_le_div_of_nonneg_right hle p.pos.le)⟩
  · rw [coverage_eq ha, share_fin p]
  · rw [coverage_eq ha', share_fin p']

/-- **C147**, headlands: the share of the field that remains is from 0 to 1, right up to 2^-53, 1 if nothing is taken away, and 0
exactly if what is taken away has the area of the field. -/
theorem C147_remaining (h : IsRounding fl) (a t : ℝ) (p : Part a t) :
    ∃ r, Ieee.hgCost fl (fin a) (fin t) = fin r ∧ IsDouble r ∧ 0 ≤ r ∧ r ≤ 1 ∧ |r - (1 - a / t)| ≤ 1 / 2 ^ 53 ∧
      (a = 0 → r = 1) ∧ (r = 0 ↔ a = t) := by
  have q := quot_range p
  have s0 := h.ge isDouble_zero q.1
  have s1 := h.le dbl_one q.2
  have er := unit_err h q.1 q.2
  have er' := unit_err h (x := 1 - fl (a / t)) (by linarith) (by linarith)
  refine ⟨fl (1 - fl (a / t)), ?_, h.double _, h.ge isDouble_zero (by linarith), h.le dbl_one (by linarith), ?_, ?_, ?_⟩
  · unfold Ieee.hgCost
    rw [share_fin p, sub_fin]
    refine rnd_fin ?_
    rw [abs_of_nonneg (by linarith)]
    linarith [one_le_big]
  · rw [abs_le] at *
    norm_num at *
    constructor <;> linarith
  · rintro rfl
    rw [zero_div, h.self isDouble_zero, sub_zero, h.self dbl_one]
  · rw [← share_one h p]
    constructor
    · intro e
      by_contra hne
      have hlt : a < t := lt_of_le_of_ne p.le fun e => hne ((share_one h p).2 e)
      have g := h.le dbl_below (gap p hlt)
      have := h.ge dbl_ulp (x := 1 - fl (a / t)) (by linarith)
      rw [e] at this
      norm_num at this
    · intro e
      rw [e, sub_self, h.self isDouble_zero]

/-- **C147**, fields without area: both shares are not numbers if the field has no area, and also if the areas are infinite; of an
infinite field a number is the share 0. Without swaths the coverage is undefined behaviour. -/
theorem C147_no_area (covered : Flt → List (List (Point Flt)) → Flt) (s : Swath Flt) (l : Swaths Flt) (v : Flt)
    (hv : covered (div fl s.width (fin 2)) ((s :: l).map fun x => x.path) = v) :
    (v = fin 0 → Ieee.fieldCoverage fl covered (fin 0) (s :: l) = .ok nan) ∧
    (v = pinf → Ieee.fieldCoverage fl covered pinf (s :: l) = .ok nan) ∧
    (∀ a, v = fin a → Ieee.fieldCoverage fl covered pinf (s :: l) = .ok (fin 0)) ∧
    (∀ t, v = nan → Ieee.fieldCoverage fl covered t (s :: l) = .ok nan) ∧
    Ieee.hgCost fl (fin 0) (fin 0) = nan ∧ Ieee.hgCost fl pinf pinf = nan ∧
    (∀ t, (Ieee.fieldCoverage fl covered t []).isUb = true) := by
  have e : ∀ t, Ieee.fieldCoverage fl covered t (s :: l) = .ok (div fl v t) := coverage_eq hv
  have z : div fl (fin 0) (fin 0) = nan := by simp [div, signed]
  refine ⟨?_, ?_, ?_, ?_, ?_, ?_, fun t => rfl⟩
  · rintro rfl; rw [e, z]
  · rintro rfl; rw [e]; rfl
  · rintro a rfl; rw [e]; rfl
  · rintro t rfl; rw [e]; rfl
  · rw [Ieee.hgCost, z]; rfl
  · rw [Ieee.hgCost]; rfl

/-- **C147**, the search: if every candidate angle has swaths and covers a number as area, the angle that the search for the best
coverage (`FieldCoverage` is maximised) returns covers the largest share of all candidates, up to 2^-53 of the field. -/
theorem C147_search (h : IsRounding fl) (step : Flt) (n : ℤ) (hn : toInt (Ieee.Flt.div fl (fin twoPi) step) = .ok n) (h1 : 1 ≤ n)
    (covered : Flt → List (List (Point Flt)) → Flt) (t : ℝ) (first : Nat → Swath Flt) (others : Nat → Swaths Flt) (a : Nat → ℝ)
    (ha : ∀ k, covered (div fl (first k).width (fin 2)) ((first k :: others k).map fun x => x.path) = fin (a k))
    (p : ∀ k, Part (a k) t) (cost : Nat → Flt)
    (hc : ∀ k v, Ieee.fieldCoverage fl covered (fin t) (first k :: others k) = .ok v → cost k = Ieee.withSign fl false v) :
    ∃ k : Nat, (k : ℤ) < n ∧ bestAngle fl step cost = .ok (mul fl (fin k) step) ∧
      ∀ j : Nat, (j : ℤ) < n → a j ≤ a k + t / 2 ^ 53 := by
  have hc' : ∀ k, cost k = fin (-fl (a k / t)) := fun k => by
    rw [hc k _ (coverage_eq (ha k) _), share_fin (p k), Ieee.withSign]
    have q := quot_range (p k)
    have s0 := h.ge isDouble_zero q.1
    have s1 := h.le dbl_one q.2
    simp only [Bool.false_eq_true, if_false, mul_fin, neg_mul, one_mul]
    rw [rnd_fin (by rw [abs_neg, abs_of_nonneg s0]; linarith [one_le_big]), h.self (h.double _).neg]
  obtain ⟨k, hk, e, -, best, -⟩ := C129_best_partial fl step cost n hn h1 (by rw [hc']; simp)
  refine ⟨k, hk, e, fun j hj => ?_⟩
  have b := best j hj
  rw [hc', hc', lt_fin, not_lt, neg_le_neg_iff] at b
  have e1 := (abs_le.1 (unit_err h (quot_range (p j)).1 (quot_range (p j)).2)).1
  have e2 := (abs_le.1 (unit_err h (quot_range (p k)).1 (quot_range (p k)).2)).2
  have t0 := (p k).pos
  have key : a j / t ≤ a k / t + 1 / 2 ^ 53 := by
    generalize a j / t = x at *
    generalize a k / t = y at *
    norm_num at e1 e2 ⊢
    linarith
  rw [div_le_iff₀ t0, add_mul, div_mul_cancel₀ _ t0.ne'] at key
  refine key.trans (le_of_eq ?_)
  ring

private theorem rnd_good (h : IsRounding fl) {x : ℝ} (hx : 0 ≤ x) : NotNegative (rnd fl x) := by
  unfold rnd
  split
  · trivial
  · rw [if_neg (by linarith [big_huge, big_pos])]
    exact h.ge isDouble_zero hx

private theorem add_good (h : IsRounding fl) {x y : Flt} (hx : NotNegative x) (hy : NotNegative y) : NotNegative (add fl x y) := by
  cases x with
  | nan => exact hx
  | ninf => exact absurd hx (by simp [NotNegative])
  | pinf =>
    cases y with
    | nan => exact hy
    | ninf => exact absurd hy (by simp [NotNegative])
    | pinf => trivial
    | fin b => trivial
  | fin a =>
    cases y with
    | nan => exact hy
    | ninf => exact absurd hy (by simp [NotNegative])
    | pinf => trivial
    | fin b =>
      have h1 : 0 ≤ a := hx
      have h2 : 0 ≤ b := hy
      exact rnd_good h (by linarith)

variable {A : Type}

private theorem inner_good (h : IsRounding fl) (inter : A → A → Flt) (hi : ∀ a b, NotNegative (inter a b)) (areas : List A) (i : Nat) :
    ∀ (n j : Nat) (acc : Flt), i < j → j + n ≤ areas.length → NotNegative acc →
      ∃ v, Ieee.overlapInner fl inter areas i n j acc = .ok v ∧ NotNegative v
  | 0, _, acc, _, _, ha => ⟨acc, rfl, ha⟩
  | n + 1, j, acc, h1, h2, ha => by
    have e1 : areas[i]? = some areas[i] := List.getElem?_eq_getElem (by omega)
    have e2 : areas[j]? = some areas[j] := List.getElem?_eq_getElem (by omega)
    rw [Ieee.overlapInner, e1, e2]
    exact inner_good h inter hi areas i n (j + 1) _ (by omega) (by omega) (add_good h ha (hi _ _))

private theorem outer_good (h : IsRounding fl) (inter : A → A → Flt) (hi : ∀ a b, NotNegative (inter a b)) (covered : Nat → A) :
    ∀ (n : Nat) (areas : List A) (acc : Flt), NotNegative acc →
      ∃ v, Ieee.overlapOuter fl inter covered n areas acc = .ok v ∧ NotNegative v
  | 0, _, acc, ha => ⟨acc, rfl, ha⟩
  | i + 1, areas, acc, ha => by
    have : ∃ v, Ieee.overlapInner fl inter (areas ++ [covered i]) i ((areas ++ [covered i]).length - (i + 1)) (i + 1) acc = .ok v ∧
        NotNegative v := by
      rcases Nat.le_total (i + 1) (areas ++ [covered i]).length with hl | hl
      · exact inner_good h inter hi _ i _ _ _ (by omega) (by omega) ha
      · rw [Nat.sub_eq_zero_of_le hl]
        exact ⟨acc, rfl, ha⟩
    obtain ⟨v, e, hv⟩ := this
    rw [Ieee.overlapOuter, e]
    exact outer_good h inter hi covered i _ v hv

/-- **C147**, overlaps: if the areas of the intersections are not negative, be they infinite, and the field has a positive area, the
value is defined, not negative and not NaN; of a single swath it is 0, and NaN if the field has no area. -/
theorem C147_overlaps (h : IsRounding fl) (inter : A → A → Flt) (hi : ∀ a b, NotNegative (inter a b)) (covered : Nat → A) (n : Nat)
    (t : ℝ) (ht : 0 < t) :
    (∃ v, Ieee.overlaps fl inter covered n (fin t) = .ok v ∧ NotNegative v) ∧
    Ieee.overlaps fl inter covered 1 (fin t) = .ok (fin 0) ∧ Ieee.overlaps fl inter covered 1 (fin 0) = .ok nan := by
  refine ⟨?_, ?_, ?_⟩
  · obtain ⟨v, e, hv⟩ := outer_good h inter hi covered n [] (fin 0) (show (0 : ℝ) ≤ 0 from le_rfl)
    refine ⟨div fl v (fin t), by rw [Ieee.overlaps, e]; rfl, ?_⟩
    cases v with
    | nan => exact hv
    | ninf => exact absurd hv (by simp [NotNegative])
    | pinf =>
      show NotNegative (if t < 0 then ninf else pinf)
      rw [if_neg ht.not_gt]
      trivial
    | fin a =>
      show NotNegative (if t = 0 then signed a else rnd fl (a / t))
      rw [if_neg ht.ne']
      exact rnd_good h (div_nonneg hv ht.le)
  · show Outcome.ok (div fl (fin 0) (fin t)) = _
    rw [div_fin ht.ne' (by rw [zero_div, abs_zero]; linarith [one_le_big]), zero_div, h.self isDouble_zero]
  · show Outcome.ok (div fl (fin 0) (fin 0)) = _
    simp [div, signed]

/-- **C147**, overlaps of two swaths: the share of the field that both cover, from 0 to 1 and right up to 2^-54. -/
theorem C147_two_swaths (h : IsRounding fl) (inter : A → A → Flt) (covered : Nat → A) (a t : ℝ) (p : Part a t) (ha : a ≤ 2 ^ 1000)
    (hi : inter (covered 1) (covered 0) = fin a) :
    ∃ r, Ieee.overlaps fl inter covered 2 (fin t) = .ok (fin r) ∧ 0 ≤ r ∧ r ≤ 1 ∧ |r - a / t| ≤ 1 / 2 ^ 54 ∧ (r = 1 ↔ a = t) := by
  have q := quot_range p
  refine ⟨fl (a / t), ?_, h.ge isDouble_zero q.1, h.le dbl_one q.2, unit_err h q.1 q.2, share_one h p⟩
  show Outcome.ok (div fl (add fl (fin 0) (inter (covered 1) (covered 0))) (fin t)) = _
  have e : rnd fl a = fin a := by
    rw [rnd_fin (by rw [abs_of_nonneg p.nonneg]; exact ha.trans (le_mul_of_one_le_left big_pos.le (by norm_num))), h.self p.da]
  rw [hi, add_fin, zero_add, e, share_fin p]

/-- **C147**, overlaps, value: for areas that are doubles of at most 2^900, a field of at least 1 square metre and up to 2^20 swaths the
value is that of C28, the overlaps of the pairs `i`, `j` with `i + j + 1 ≥ n` as a share of the field, up to (n² + 1) / 2^52 of it. -/
theorem C147_overlaps_value (h : IsRounding fl) (inter : A → A → Flt) (I : A → A → ℝ)
    (hI : ∀ a b, inter a b = fin (I a b) ∧ IsDouble (I a b) ∧ 0 ≤ I a b ∧ I a b ≤ 2 ^ 900) (covered : Nat → A) (n : Nat)
    (hn : n ≤ 2 ^ 20) (t : ℝ) (ht : 1 ≤ t) (v : ℝ) (hv : v = (∑ i ∈ Finset.range n, ∑ j ∈ Finset.range i,
      if n ≤ i + j + 1 then I (covered i) (covered j) else 0) / t) :
    ∃ r, Ieee.overlaps fl inter covered n (fin t) = .ok (fin r) ∧ |r - v| ≤ v * ((n ^ 2 + 1) / 2 ^ 52) + (2 : ℝ) ^ (-1075 : ℤ) := by
  have t0 : 0 < t := by linarith
  have ex := C28_exact_value I covered n 1
  unfold Obj.overlaps at ex
  generalize hS : (∑ i ∈ Finset.range n, ∑ j ∈ Finset.range i, if n ≤ i + j + 1 then I (covered i) (covered j) else 0) = S at *
  have out : Obj.overlapOuter I covered n [] 0 = .ok S := by
    cases hc : Obj.overlapOuter I covered n [] 0 with
    | ok x =>
      rw [hc] at ex
      simp only [Outcome.ok_bind, Outcome.pure_eq, Outcome.ok.injEq, div_one] at ex
      rw [ex]
    | throw x => rw [hc] at ex; cases ex
    | ub x => rw [hc] at ex; cases ex
  have nn : n * n ≤ 2 ^ 40 := by
    calc n * n ≤ 2 ^ 20 * 2 ^ 20 := Nat.mul_le_mul hn hn
      _ = 2 ^ 40 := by norm_num
  have nr : ((n * n : ℕ) : ℝ) ≤ 2 ^ 40 := by exact_mod_cast nn
  obtain ⟨f1, f2⟩ := factors nn
  have x1 : ((n * n : ℕ) : ℝ) / 2 ^ 53 ≤ 1 / 2 ^ 13 := by
    rw [div_le_iff₀ (by norm_num)]
    norm_num at nr ⊢
    linarith
  have x0 : 0 ≤ ((n * n : ℕ) : ℝ) / 2 ^ 53 := by positivity
  have lim : ((n * n : ℕ) : ℝ) * 2 ^ 900 ≤ big := by
    refine (mul_le_mul_of_nonneg_right nr (by positivity)).trans ?_
    rw [← pow_add]
    exact pow_le_pow_right₀ (by norm_num) (by norm_num)
  have start : Rounded 0 0 (fin 0) := ⟨0, rfl, isDouble_zero, by simp, by simp⟩
  obtain ⟨S0, S1, w, ew, x, rfl, -, w1, w2⟩ := outer_near h inter I (B := 2 ^ 900) (by positivity) hI covered n n [] 0 0 S (fin 0)
    (by simp) start le_rfl (by rw [zero_add]; refine f2.trans ?_; norm_num at x1 ⊢; linarith) (by rw [zero_add]; exact lim) out
  rw [zero_add] at S1 w1 w2
  have lo := (mul_le_mul_of_nonneg_right f1 S0).trans w1
  have hi := w2.trans (mul_le_mul_of_nonneg_right f2 S0)
  have xb : x ≤ 2 * S := hi.trans (mul_le_mul_of_nonneg_right (by norm_num at x1 ⊢; linarith) S0)
  have xn : 0 ≤ x := le_trans (mul_nonneg (by norm_num at x1 ⊢; linarith) S0) lo
  have y0 : 0 ≤ x / t := div_nonneg xn t0.le
  have fin' : div fl (fin x) (fin t) = fin (fl (x / t)) := by
    refine div_fin t0.ne' ?_
    rw [abs_of_nonneg y0]
    refine (div_le_self xn ht).trans (xb.trans ((mul_le_mul_of_nonneg_left (S1.trans lim) (by norm_num)).trans ?_))
    exact mul_le_mul_of_nonneg_right (by norm_num) big_pos.le
  refine ⟨fl (x / t), by rw [Ieee.overlaps, ew, Outcome.ok_bind, Outcome.pure_eq, fin'], ?_⟩
  have v0 : 0 ≤ v := by rw [hv]; exact div_nonneg S0 t0.le
  have lo' : (1 - ((n * n : ℕ) : ℝ) / 2 ^ 53) * v ≤ x / t := by
    rw [hv, ← mul_div_assoc]
    exact div_le_div_of_nonneg_right lo t0.le
  have hi' : x / t ≤ (1 + 2 * (((n * n : ℕ) : ℝ) / 2 ^ 53)) * v := by
    rw [hv, ← mul_div_assoc]
    exact div_le_div_of_nonneg_right hi t0.le
  have y1 : x / t ≤ 2 * v := hi'.trans (mul_le_mul_of_nonneg_right (by norm_num at x1 ⊢; linarith) v0)
  have er := h.error (x / t)
  rw [abs_of_nonneg y0, abs_sub_comm] at er
  have tri := abs_sub_le (fl (x / t)) (x / t) v
  have mid : |x / t - v| ≤ 2 * (((n * n : ℕ) : ℝ) / 2 ^ 53) * v := by
    have := mul_nonneg x0 v0
    rw [abs_le]
    constructor <;> linarith
  have e53 : x / t / 2 ^ 53 ≤ v * (1 / 2 ^ 52) := by
    norm_num at y1 ⊢
    linarith
  have final : v * ((n ^ 2 + 1) / 2 ^ 52) = 2 * (((n * n : ℕ) : ℝ) / 2 ^ 53) * v + v * (1 / 2 ^ 52) := by
    push_cast
    ring
  rw [final]
  linarith

/-! ## examples -/

private theorem whole {m n : ℤ} (h0 : 0 ≤ m) (h1 : m ≤ n) (h2 : 0 < n) (h3 : n ≤ 2 ^ 53) : Part m n :=
  ⟨⟨m, 0, by rw [abs_of_nonneg h0]; omega, by norm_num, by norm_num⟩, ⟨n, 0, by rw [abs_of_nonneg h2.le]; omega, by norm_num, by norm_num⟩,
    by exact_mod_cast h0, by exact_mod_cast h2, by exact_mod_cast h1⟩

private noncomputable def strip : Swath Flt := ⟨0, [⟨fin 0, fin 0, fin 0⟩, ⟨fin 10, fin 0, fin 0⟩], fin 2, true, .mainland⟩

/-- one square metre of the largest field whose area is counted in whole square metres is missing: found not to be complete -/
example : ∃ r, Ieee.fieldCoverage toNearest (fun _ _ => fin (2 ^ 53 - 1)) (fin (2 ^ 53)) [strip] = .ok (fin r) ∧ r < 1 := by
  have p : Part (2 ^ 53 - 1) (2 ^ 53) := by
    have := whole (m := 2 ^ 53 - 1) (n := 2 ^ 53) (by norm_num) (by norm_num) (by norm_num) (by norm_num)
    norm_num at this ⊢
    exact this
  obtain ⟨r, e, -, -, r1, -, i⟩ := C147_coverage toNearest_isRounding (fun _ _ => fin (2 ^ 53 - 1)) strip [] _ _ rfl p
  exact ⟨r, e, lt_of_le_of_ne r1 fun e => by have := i.1 e; norm_num at this⟩

/-- 20 of 60 square metres -/
private theorem third : Part 20 60 := by
  exact_mod_cast whole (m := 20) (n := 60) (by norm_num) (by norm_num) (by norm_num) (by norm_num)

private theorem half : Part 30 60 := by
  exact_mod_cast whole (m := 30) (n := 60) (by norm_num) (by norm_num) (by norm_num) (by norm_num)

example : ∃ r, Ieee.hgCost toNearest (fin 20) (fin 60) = fin r ∧ |r - 2 / 3| ≤ 1 / 2 ^ 53 := by
  obtain ⟨r, e, -, -, -, b, -⟩ := C147_remaining toNearest_isRounding 20 60 third
  refine ⟨r, e, ?_⟩
  norm_num at b ⊢
  exact b

open Classical in
example : ∃ r r', Ieee.fieldCoverage toNearest (fun _ l => if l.length = 1 then fin 20 else fin 30) (fin 60) [strip] = .ok (fin r) ∧
    Ieee.fieldCoverage toNearest (fun _ l => if l.length = 1 then fin 20 else fin 30) (fin 60) [strip, strip] = .ok (fin r') ∧ r ≤ r' :=
  C147_monotone toNearest_isRounding _ strip strip [] [strip] 20 30 60 (by simp) (by simp) third half (by norm_num)

/-- candidates that cover 20 and 30 of 60 square metres in turn: one of the latter is found -/
example (cost : Nat → Flt) (hc : ∀ k v, Ieee.fieldCoverage toNearest (fun _ l => if l.length = 1 then fin 20 else fin 30) (fin 60)
      (strip :: if k % 2 = 0 then [] else [strip]) = .ok v → cost k = Ieee.withSign toNearest false v) :
    ∃ k : Nat, k < 4 ∧ bestAngle toNearest (fin (twoPi / 4)) cost = .ok (mul toNearest (fin k) (fin (twoPi / 4))) ∧ k % 2 = 1 := by
  have steps : Flt.toInt (Flt.div toNearest (fin twoPi) (fin (twoPi / 4))) = .ok 4 := by
    have t := twoPi_bounds
    have t0 : twoPi ≠ 0 := by linarith
    have e : twoPi / (twoPi / 4) = 4 := by field_simp
    have r := rnd_pow (fl := toNearest) toNearest_isRounding (x := 4) 2 (by norm_num) (by norm_num)
    have s : toNearest 4 = 4 := toNearest_isRounding.self ⟨4, 0, by norm_num, by norm_num, by norm_num⟩
    simp only [Flt.div]
    rw [if_neg (by linarith), e, r.1, s]
    simp only [Flt.toInt]
    norm_num
  obtain ⟨k, hk, e, best⟩ := C147_search toNearest_isRounding (fin (twoPi / 4)) 4 steps (by norm_num)
    (fun _ l => if l.length = 1 then fin 20 else fin 30) 60 (fun _ => strip) (fun k => if k % 2 = 0 then [] else [strip])
    (fun k => if k % 2 = 0 then 20 else 30) (fun k => by split <;> simp)
    (fun k => by split; exacts [third, half]) cost hc
  refine ⟨k, by exact_mod_cast hk, e, ?_⟩
  have b := best 1 (by norm_num)
  by_contra hne
  have h0 : k % 2 = 0 := by omega
  simp only [h0, if_true] at b
  norm_num at b

example : ∃ v, Ieee.overlaps toNearest (fun _ _ : Unit => fin 3) (fun _ => ()) 7 (fin 60) = .ok v ∧ NotNegative v :=
  (C147_overlaps toNearest_isRounding (fun _ _ : Unit => fin 3) (fun _ _ => show (0 : ℝ) ≤ 3 by norm_num) _ 7 60 (by norm_num)).1

example : ∃ r, Ieee.overlaps toNearest (fun _ _ : Unit => fin 20) (fun _ => ()) 2 (fin 60) = .ok (fin r) ∧ |r - 1 / 3| ≤ 1 / 2 ^ 54 := by
  obtain ⟨r, e, -, -, b, -⟩ := C147_two_swaths toNearest_isRounding (fun _ _ : Unit => fin 20) (fun _ => ()) 20 60 third
    (le_trans (by norm_num : (20 : ℝ) ≤ 2 ^ 5) (pow_le_pow_right₀ (by norm_num) (by norm_num))) rfl
  refine ⟨r, e, ?_⟩
  norm_num at b ⊢
  exact b

/-- seven swaths of which any two overlap by 3 of 60 square metres: 12 of the 21 pairs are counted -/
example : ∃ r, Ieee.overlaps toNearest (fun _ _ : Unit => fin 3) (fun _ => ()) 7 (fin 60) = .ok (fin r) ∧ |r - 3 / 5| ≤ 1 / 10 ^ 10 := by
  obtain ⟨r, e, b⟩ := C147_overlaps_value toNearest_isRounding (fun _ _ : Unit => fin 3) (fun _ _ => 3)
    (fun _ _ => ⟨rfl, ⟨3, 0, by norm_num, by norm_num, by norm_num⟩, by norm_num,
      le_trans (by norm_num : (3 : ℝ) ≤ 2 ^ 2) (pow_le_pow_right₀ (by norm_num) (by norm_num))⟩) (fun _ => ()) 7 (by norm_num) 60
    (by norm_num) (3 / 5) (by norm_num [Finset.sum_range_succ])
  refine ⟨r, e, b.trans ?_⟩
  have : (2 : ℝ) ^ (-1075 : ℤ) ≤ 2 ^ (-60 : ℤ) := zpow_le_zpow_right₀ (by norm_num) (by norm_num)
  norm_num at this ⊢
  linarith

example : Ieee.fieldCoverage toNearest (fun _ _ => fin 0) (fin 0) [strip] = .ok nan :=
  (C147_no_area _ strip [] _ rfl).1 rfl

end F2C.Props
