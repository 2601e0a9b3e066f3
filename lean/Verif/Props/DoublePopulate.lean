import Verif.Lemmas.DoubleSteps
import Verif.Lemmas.PathSpline
import Verif.Lemmas.Border
import Verif.Props.DoublePath

/-! # C126: the sections of the states that `populate` makes, in double precision -/

namespace F2C.Props

open Dbl

variable {fl : ℝ → ℝ}

namespace PopulateSpec

/-- Entry `k` is the last one up to `x`, or one that exceeds `x` by no more than `slack`. -/
def LastUpTo (t : List ℝ) (x slack : ℝ) (k : Nat) : Prop :=
  (∃ a, t[k]? = some a ∧ a ≤ x + slack) ∧ ∀ j b, t[j]? = some b → b ≤ x → j ≤ k

end PopulateSpec

open PopulateSpec

/-- The state at exact distance `x = i L / n`. -/
private theorem sample_error (h : IsRounding fl) {L : ℝ} (hL0 : (2 : ℝ) ^ (-900 : ℤ) ≤ L) {n i : Nat}
    (hn : n < 2 ^ 31) (hi : i < n) :
    |fl (i * fl (L / n)) - i * L / n| ≤ i * L / n / 2 ^ 51 := by
  have hn0 : (0 : ℝ) < n := by exact_mod_cast (by omega : 0 < n)
  have hn1 : (n : ℝ) ≤ 2 ^ 31 := by exact_mod_cast hn.le
  have L0 : 0 < L := lt_of_lt_of_le (two_zpow_pos _) hL0
  have hq : (2 : ℝ) ^ (-931 : ℤ) ≤ L / n := by
    rw [le_div_iff₀ hn0]
    refine le_trans (mul_le_mul_of_nonneg_left hn1 (two_zpow_pos _).le) ?_
    rw [← zpow_natCast, ← zpow_add₀ two_ne_zero]
    exact le_trans (zpow_le_zpow_right₀ (by norm_num) (by norm_num)) hL0
  have q0 : 0 < L / n := lt_of_lt_of_le (two_zpow_pos _) hq
  have e1 := h.rel_error (L / n) (by
    rw [abs_of_pos q0]
    exact (zpow_le_zpow_right₀ (by norm_num) (by norm_num)).trans hq)
  rw [abs_of_pos q0] at e1
  have e1' := abs_le.1 e1
  have s1 : L / n / 2 ≤ fl (L / n) := by
    have : L / n / 2 ^ 53 ≤ L / n / 2 := div_le_div_of_nonneg_left q0.le (by norm_num) (by norm_num)
    linarith [e1'.2]
  rcases Nat.eq_zero_or_pos i with rfl | hi0
  · simp [h.self isDouble_zero]
  have hi1 : (1 : ℝ) ≤ i := by exact_mod_cast hi0
  have hx : (i : ℝ) * L / n = i * (L / n) := by ring
  have p0 : L / n / 2 ≤ i * fl (L / n) := by nlinarith
  have e2 := h.rel_error (i * fl (L / n)) (by
    rw [abs_of_pos (by linarith)]
    refine le_trans ?_ p0
    have : (2 : ℝ) ^ (-1022 : ℤ) ≤ (2 : ℝ) ^ (-931 : ℤ) / 2 := by
      rw [show (-931 : ℤ) = -932 + 1 by norm_num, zpow_add₀ two_ne_zero, zpow_one, mul_div_assoc, div_self two_ne_zero,
        mul_one]
      exact zpow_le_zpow_right₀ (by norm_num) (by norm_num)
    linarith)
  rw [abs_of_pos (a := (i : ℝ) * fl (L / n)) (by linarith)] at e2
  have e2' := abs_le.1 e2
  rw [hx]
  have k1 : (i : ℝ) * fl (L / n) ≤ i * (L / n) + i * (L / n) / 2 ^ 53 := by
    have := mul_le_mul_of_nonneg_left (by linarith [e1'.1] : fl (L / n) ≤ L / n + L / n / 2 ^ 53) (by linarith : (0 : ℝ) ≤ i)
    linarith
  have k2 : i * (L / n) - i * (L / n) / 2 ^ 53 ≤ (i : ℝ) * fl (L / n) := by
    have := mul_le_mul_of_nonneg_left (by linarith [e1'.2] : L / n - L / n / 2 ^ 53 ≤ fl (L / n)) (by linarith : (0 : ℝ) ≤ i)
    linarith
  have X0 : 0 ≤ i * (L / n) := by positivity
  generalize (i : ℝ) * (L / n) = X at k1 k2 X0 ⊢
  generalize (i : ℝ) * fl (L / n) = Y at k1 k2 e2' ⊢
  have k3 : Y ≤ 2 * X := by
    have : X / 2 ^ 53 ≤ X := div_le_self X0 (by norm_num)
    linarith
  have e4 : X / 2 ^ 51 = 4 * (X / 2 ^ 53) := by field_simp; norm_num
  have e3 : Y / 2 ^ 53 ≤ 2 * (X / 2 ^ 53) := by
    have := div_le_div_of_nonneg_right k3 (by norm_num : (0 : ℝ) ≤ 2 ^ 53)
    rwa [mul_div_assoc] at this
  have X1 : 0 ≤ X / 2 ^ 53 := div_nonneg X0 (by norm_num)
  rw [e4, abs_le]
  constructor <;> linarith [e2'.1, e2'.2]

/-- **C126**, on paths of up to 2^17 m (131 km): state `i` of `n` is put at `i / n` of the length, up to the rounding of two
operations and never at or behind the end, and takes velocity, direction and type from the section that begins there or before,
or at most 2 · 10^-10 m further on. -/
theorem C126_sections_partial (h : IsRounding fl) (p : Path) (hp : ∀ s ∈ p, IsDouble s.len ∧ 0 ≤ s.len)
    (hpos : ∃ s ∈ p, 0 < s.len) (hlong : ∀ s ∈ p, s.len ≠ 0 → Dbl.length fl p < 2 ^ 52 * s.len)
    (hL0 : (2 : ℝ) ^ (-900 : ℤ) ≤ Dbl.length fl p) (hL : Dbl.length fl p ≤ 2 ^ 17) (n : Nat) (hn : n < 2 ^ 31) :
    ∃ t res, populateArcs fl p = .ok t ∧ populateSections fl p n = .ok res ∧
      List.Forall₂ (fun (i : Nat) (r : ℝ × Nat) =>
        |r.1 - i * Dbl.length fl p / n| ≤ i * Dbl.length fl p / n / 2 ^ 51 ∧ r.1 < Dbl.length fl p ∧
        LastUpTo t (i * Dbl.length fl p / n) (2 / 10 ^ 10) r.2) (List.range n) res := by
  obtain ⟨t, ht, hinc, hhead, hlast⟩ := C118_accepts_partial h p hp hpos hlong
  set L := Dbl.length fl p with hLdef
  have L0 : 0 < L := lt_of_lt_of_le (two_zpow_pos _) hL0
  refine ⟨t, ?_⟩
  have htne : t ≠ [] := by rintro rfl; simp at hhead
  have hgl : t.getLastD 0 = L := by
    rw [List.getLastD_eq_getLast?, hlast]
    rfl
  have hnth0 : Spline.nth t 0 = 0 := by
    rw [Spline.nth]
    cases t with
    | nil => simp at hhead
    | cons a t => simpa using hhead
  have hun : populateSections fl p n = mapOutcome (fun i : Nat => do
      let it ← Path.sectionAt t (fl (fl (i * fl (L / n)) + fl (1 / 10 ^ 10)))
      return (fl (i * fl (L / n)), it)) (List.range n) := by
    unfold populateSections
    rw [ht, Outcome.ok_bind, hgl]
  rw [hun]
  refine (mapOutcome_spec ?_).imp fun res hres => ⟨ht, hres.1, hres.2⟩
  intro i hi
  have hi := List.mem_range.1 hi
  have e0 := sample_error h hL0 hn hi
  have hn0 : (0 : ℝ) < n := by exact_mod_cast (by omega : 0 < n)
  have hn1 : (n : ℝ) ≤ 2 ^ 31 := by exact_mod_cast hn.le
  have hin : (i : ℝ) + 1 ≤ n := by exact_mod_cast hi
  set d := fl (i * fl (L / n)) with hd
  set x := (i : ℝ) * L / n with hxdef
  have x0 : 0 ≤ x := by positivity
  have xL : x + L / n ≤ L := by
    have : x + L / n = (i + 1) * L / n := by rw [hxdef]; ring
    rw [this, div_le_iff₀ hn0]
    nlinarith
  have hLn : L / 2 ^ 31 ≤ L / n := div_le_div_of_nonneg_left L0.le hn0 hn1
  have x1 : x ≤ L := by linarith [(by positivity : 0 < L / n)]
  have e0' := abs_le.1 e0
  have xs : x / 2 ^ 51 ≤ L / 2 ^ 51 := div_le_div_of_nonneg_right x1 (by norm_num)
  have d0 : 0 ≤ d := h.ge isDouble_zero (mul_nonneg (Nat.cast_nonneg _) (h.ge isDouble_zero (by positivity)))
  have dL : d < L := by
    have : L / 2 ^ 51 < L / 2 ^ 31 := div_lt_div_of_pos_left L0 (by norm_num) (by norm_num)
    linarith [e0'.2]
  have eps := h.rel_error (1 / 10 ^ 10) (by
    rw [abs_of_pos (by norm_num)]
    exact (zpow_le_zpow_right₀ (by norm_num) (by norm_num) : (2 : ℝ) ^ (-1022 : ℤ) ≤ 2 ^ (-34 : ℤ)).trans (by norm_num))
  rw [abs_of_pos (a := (1 / 10 ^ 10 : ℝ)) (by norm_num)] at eps
  have eps' := abs_le.1 eps
  set c := fl (1 / 10 ^ 10) with hc
  have c0 : 1 / 10 ^ 10 - 1 / 10 ^ 20 ≤ c := by norm_num at eps' ⊢; linarith [eps'.2]
  have c1 : c ≤ 1 / 10 ^ 10 + 1 / 10 ^ 20 := by norm_num at eps' ⊢; linarith [eps'.1]
  have hsum : |d + c - fl (d + c)| ≤ 2 ^ (-35 : ℤ) / 2 := by
    refine h.abs_error _ (-35) (by norm_num) ?_
    rw [abs_of_nonneg (by norm_num at c0; linarith)]
    norm_num at c1 hL ⊢
    linarith
  have hsum' := abs_le.1 hsum
  have xs2 : x / 2 ^ 51 ≤ 1 / 2 ^ 34 := by
    refine xs.trans ?_
    rw [div_le_div_iff₀ (by norm_num) (by norm_num)]
    norm_num at hL ⊢
    linarith
  have vlo : x < fl (d + c) := by
    norm_num at hsum' c0 xs2
    linarith [hsum'.2, e0'.1]
  have vhi : fl (d + c) ≤ x + 2 / 10 ^ 10 := by
    norm_num at hsum' c1 xs2 ⊢
    linarith [hsum'.1, e0'.2]
  obtain ⟨k, hk, hkl, hka, hkb⟩ := sectionAt_spec hinc htne (v := fl (d + c)) (by rw [hnth0]; linarith)
  refine ⟨(d, k), by rw [hk]; rfl, e0, dL, ⟨_, List.getElem?_eq_getElem hkl, ?_⟩, ?_⟩
  · rw [← Spline.nth_eq hkl]
    exact hka.le.trans vhi
  · intro j b hj hb
    obtain ⟨hjl, rfl⟩ := List.getElem?_eq_some_iff.1 hj
    by_contra hjk
    have h1 := hkb (by omega)
    have h2 := Spline.nth_le hinc (show k + 1 ≤ j by omega) hjl
    rw [Spline.nth_eq hjl] at h2
    linarith

/-- A state of the given length and velocity. -/
def ahead (len v : ℝ) : PathState ℝ := ⟨⟨0, 0, 0⟩, 0, len, .forward, .swath, v⟩

/-- Three states of 3 · 2^19 m each, driven at 1, 2 and 3 m/s. -/
def farStates : Path := [ahead (3 * 2 ^ 19) 1, ahead (3 * 2 ^ 19) 2, ahead (3 * 2 ^ 19) 3]

/-- **C126** is false of long paths: each of the three states filled into a path of three states of 3 · 2^19 m is put, exactly,
where one of the old states begins, but the second and the third take velocity, direction and type from the state before. -/
theorem C126_long (h : IsRounding fl) :
    (∀ s ∈ farStates, IsDouble s.len ∧ 0 < s.len) ∧
    populateArcs fl farStates = .ok [0, 3 * 2 ^ 19, 3 * 2 ^ 20, 9 * 2 ^ 19] ∧
    populateSections fl farStates 3 = .ok [(0, 0), (3 * 2 ^ 19, 0), (3 * 2 ^ 20, 1)] := by
  have dA : fl (3 * 2 ^ 19) = 3 * 2 ^ 19 := h.self (⟨3 * 2 ^ 19, 0, by norm_num, by norm_num, by norm_num⟩)
  have dB : fl (3 * 2 ^ 20) = 3 * 2 ^ 20 := h.self (⟨3 * 2 ^ 20, 0, by norm_num, by norm_num, by norm_num⟩)
  have dC : fl (9 * 2 ^ 19) = 9 * 2 ^ 19 := h.self (⟨9 * 2 ^ 19, 0, by norm_num, by norm_num, by norm_num⟩)
  have d0 : fl 0 = 0 := h.self isDouble_zero
  have arcs : populateArcs fl farStates = .ok [0, 3 * 2 ^ 19, 3 * 2 ^ 20, 9 * 2 ^ 19] := by
    have a1 : fl (0 + 3 * 2 ^ 19) = 3 * 2 ^ 19 := by rw [zero_add, dA]
    have a2 : fl (3 * 2 ^ 19 + 3 * 2 ^ 19) = 3 * 2 ^ 20 := by rw [← dB]; congr 1; norm_num
    have a3 : fl (3 * 2 ^ 20 + 3 * 2 ^ 19) = 9 * 2 ^ 19 := by rw [← dC]; congr 1; norm_num
    have e : Dbl.arcs fl (Path.knots farStates (ahead (3 * 2 ^ 19) 3)) = [0, 3 * 2 ^ 19, 3 * 2 ^ 20, 9 * 2 ^ 19] := by
      unfold Dbl.arcs Path.knots
      rw [List.dropLast_concat]
      have : farStates.filter (fun s => s.len ≠ 0) = farStates := by
        simp [farStates, ahead]
      rw [this]
      simp only [farStates, ahead, List.map_cons, List.map_nil, List.scanl_cons, List.scanl_nil, a1, a2, a3]
    unfold populateArcs
    rw [show List.getLast? farStates = some (ahead (3 * 2 ^ 19) 3) from rfl]
    simp only [e]
    norm_num [Spline.nth, List.range_succ]
  refine ⟨?_, arcs, ?_⟩
  · intro s hs
    have : s.len = 3 * 2 ^ 19 := by
      simp only [farStates, List.mem_cons, List.not_mem_nil, or_false] at hs
      rcases hs with rfl | rfl | rfl <;> rfl
    rw [this]
    exact ⟨⟨3 * 2 ^ 19, 0, by norm_num, by norm_num, by norm_num⟩, by norm_num⟩
  · have eps := h.rel_error (1 / 10 ^ 10) (by
      rw [abs_of_pos (by norm_num)]
      exact (zpow_le_zpow_right₀ (by norm_num) (by norm_num) : (2 : ℝ) ^ (-1022 : ℤ) ≤ 2 ^ (-34 : ℤ)).trans (by norm_num))
    rw [abs_of_pos (a := (1 / 10 ^ 10 : ℝ)) (by norm_num)] at eps
    have eps' := abs_le.1 eps
    unfold populateSections
    rw [arcs, Outcome.ok_bind]
    generalize fl (1 / 10 ^ 10) = c at eps'
    have c0 : 0 < c := by norm_num at eps' ⊢; linarith [eps'.2]
    have c1 : c < 1 / 2 ^ 33 := by norm_num at eps' ⊢; linarith [eps'.1]
    have c2 : 0 < fl (0 + c) := by
      have := h.ge (x := c) (d := 1 / 2 ^ 34) ⟨1, -34, by norm_num, by norm_num, by norm_num⟩ (by
        norm_num at eps' ⊢; linarith [eps'.2])
      rw [zero_add]
      exact lt_of_lt_of_le (by norm_num) this
    have c3 : fl (0 + c) < 1 := by
      have := h.le (x := c) (d := 1 / 2 ^ 33) ⟨1, -33, by norm_num, by norm_num, by norm_num⟩ c1.le
      rw [zero_add]
      exact lt_of_le_of_lt this (by norm_num)
    have f1 : fl (3 * 2 ^ 19 + c) = 3 * 2 ^ 19 := by
      have := h.eq_of_close (3 * 2 ^ 19 + c) (3 * 2 ^ 51) (-32) (by norm_num) (by norm_num) (by norm_num) (by
        norm_num [abs_lt] at c1 ⊢
        constructor <;> linarith)
      rw [this]; norm_num
    have f2 : fl (3 * 2 ^ 20 + c) = 3 * 2 ^ 20 := by
      have := h.eq_of_close (3 * 2 ^ 20 + c) (3 * 2 ^ 51) (-31) (by norm_num) (by norm_num) (by norm_num) (by
        norm_num [abs_lt] at c1 ⊢
        constructor <;> linarith)
      rw [this]; norm_num
    have st : fl (([0, 3 * 2 ^ 19, 3 * 2 ^ 20, 9 * 2 ^ 19] : List ℝ).getLastD 0 / (3 : Nat)) = 3 * 2 ^ 19 := by
      rw [← dA]; congr 1; norm_num
    have s1 : fl (((1 : Nat) : ℝ) * (3 * 2 ^ 19)) = 3 * 2 ^ 19 := by rw [Nat.cast_one, one_mul, dA]
    have s2 : fl (((2 : Nat) : ℝ) * (3 * 2 ^ 19)) = 3 * 2 ^ 20 := by rw [← dB]; congr 1; norm_num
    have s0 : fl (((0 : Nat) : ℝ) * (3 * 2 ^ 19)) = 0 := by rw [Nat.cast_zero, zero_mul, d0]
    have q0 : Path.sectionAt [0, 3 * 2 ^ 19, 3 * 2 ^ 20, 9 * 2 ^ 19] (fl (0 + c)) = .ok 0 := by
      generalize fl (0 + c) = v at c2 c3
      have k : ∀ a : ℝ, 1 ≤ a → ¬ a < v := fun a ha => by linarith
      simp only [Path.sectionAt, List.takeWhile_cons, c2, decide_true, k (3 * 2 ^ 19) (by norm_num), decide_false, if_true,
        List.length_cons, List.length_nil, List.drop_succ_cons, List.drop_zero, List.any_cons, List.any_nil,
        k (3 * 2 ^ 20) (by norm_num), k (9 * 2 ^ 19) (by norm_num), Bool.false_eq_true, if_false, Bool.or_false]
      rfl
    have q1 : Path.sectionAt [0, 3 * 2 ^ 19, 3 * 2 ^ 20, 9 * 2 ^ 19] (3 * 2 ^ 19 : ℝ) = .ok 0 := by
      norm_num [Path.sectionAt, List.takeWhile_cons]
    have q2 : Path.sectionAt [0, 3 * 2 ^ 19, 3 * 2 ^ 20, 9 * 2 ^ 19] (3 * 2 ^ 20 : ℝ) = .ok 1 := by
      norm_num [Path.sectionAt, List.takeWhile_cons]
    simp only [st, show List.range 3 = [0, 1, 2] from rfl, mapOutcome, s0, s1, s2, f1, f2, q0, q1, q2, Outcome.ok_bind,
      Outcome.pure_eq]

/-- A path of 2 m, a turn of a state of length 0, and 1 m. -/
private def shortPath : Path := [ahead 2 1, ahead 0 1, ahead 1 1]

example : ∃ res, populateSections toNearest shortPath 300 = .ok res ∧ res.length = 300 ∧
    ∀ r ∈ res, r.1 < 3 := by
  have h := toNearest_isRounding
  have hL : Dbl.length toNearest shortPath = 3 := by
    have a2 : toNearest 2 = 2 := h.self (⟨2, 0, by norm_num, by norm_num, by norm_num⟩)
    have a3 : toNearest 3 = 3 := h.self (⟨3, 0, by norm_num, by norm_num, by norm_num⟩)
    norm_num [Dbl.length, shortPath, ahead, a2, a3]
  obtain ⟨t, res, -, h2, h3⟩ := C126_sections_partial h shortPath (by
      intro s hs
      simp only [shortPath, List.mem_cons, List.not_mem_nil, or_false] at hs
      rcases hs with rfl | rfl | rfl
      · exact ⟨⟨2, 0, by norm_num, by norm_num, by norm_num [ahead]⟩, by norm_num [ahead]⟩
      · exact ⟨isDouble_zero, le_refl _⟩
      · exact ⟨⟨1, 0, by norm_num, by norm_num, by norm_num [ahead]⟩, by norm_num [ahead]⟩) ⟨_, List.mem_cons_self, by norm_num [ahead]⟩ (by
      intro s hs h0
      rw [hL]
      simp only [shortPath, List.mem_cons, List.not_mem_nil, or_false] at hs
      rcases hs with rfl | rfl | rfl
      · norm_num [ahead]
      · exact absurd rfl h0
      · norm_num [ahead]) (by
      rw [hL]
      exact (zpow_le_zpow_right₀ (by norm_num) (by norm_num) : (2 : ℝ) ^ (-900 : ℤ) ≤ 2 ^ (0 : ℤ)).trans (by norm_num))
      (by rw [hL]; norm_num) 300 (by norm_num)
  refine ⟨res, h2, by simpa using h3.length_eq.symm, fun r hr => ?_⟩
  obtain ⟨i, -, hi⟩ := forall₂_mem_right h3 hr
  rw [← hL]
  exact hi.2.1

end F2C.Props
