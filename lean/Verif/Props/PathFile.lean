import Mathlib.Data.Int.Log
import Mathlib.Algebra.Order.Round
import Verif.Lemmas.PathFile

/-! # C41: saving and loading paths -/

namespace F2C.Props

open PathFile PathFileSpec

/-- C41: loading a saved path in an empty path gives the same states in the same order, with numbers
equal up to the precision. -/
theorem C41_round_trip (io : NumIO) (hio : Sound io) (prec : Nat) (p : Path) :
    ∃ q, load io [] (serialize io prec p) = .ok q ∧ List.Forall₂ (NearState prec) p q := by
  obtain ⟨q, h1, h2, -⟩ := readStates_spec hio prec p
  refine ⟨q, ?_, h2⟩
  rw [load, words_serialize hio, h1]
  rfl

/-- C41: loading in a path that is not empty appends the states. -/
theorem C41_load_appends (io : NumIO) (p q : Path) (text : List Char)
    (h : load io [] text = .ok q) : load io p text = .ok (p ++ q) := by
  unfold load at h ⊢
  cases hr : readStates io (words [] text) with
  | throw e => rw [hr] at h; cases h
  | ub w => rw [hr] at h; cases h
  | ok r =>
    rw [hr] at h
    simp only [Outcome.ok_bind, Outcome.pure_eq, List.nil_append, Outcome.ok.injEq] at h ⊢
    rw [h]

/-- C41: loading throws no exception, whatever the file holds. -/
theorem C41_never_throws (io : NumIO) (p : Path) (text : List Char) (e : Exn) : load io p text ≠ .throw e := by
  have key : ∀ ws, readStates io ws ≠ .throw e := by
    intro ws
    induction ws using readStates.induct io with
    | case1 a b c d f g k l rest x y z ang vel len dir ty h1 h2 h3 h4 h5 h6 h7 h8 ih =>
      rw [readStates, h1, h2, h3, h4, h5, h6, h7, h8]
      simp only [toDir, toType]
      split_ifs <;> (try simp only [Outcome.ok_bind]) <;> (try (intro h; cases h; done)) <;>
        (cases hr : readStates io rest with
          | throw e' => intro h; exact ih (hr.trans (by cases h; rfl))
          | ok q => intro h; cases h
          | ub w => intro h; cases h)
    | case2 a b c d f g k l rest h =>
      rw [readStates]
      · split
        · next h1 h2 h3 h4 h5 h6 h7 h8 => exact (h _ _ _ _ _ _ _ _ h1 h2 h3 h4 h5 h6 h7 h8).elim
        · intro h; cases h
    | case3 ws h =>
      rw [readStates]
      · intro h; cases h
      · exact h
  unfold load
  cases hr : readStates io (words [] text) with
  | throw e' => exact fun h => key _ (hr.trans h)
  | ok q => intro h; cases h
  | ub w => intro h; cases h

private theorem words_after {io : NumIO} (hio : Sound io) (prec : Nat) (p : Path) (t : List Char) :
    words [] (serialize io prec p ++ t) = p.flatMap (stateWords io prec) ++ words [] t := by
  unfold serialize
  induction p with
  | nil => rfl
  | cons s p ih =>
    rw [List.flatMap_cons, List.flatMap_cons, List.append_assoc, words_line _ (by simp [stateWords]), ih, List.append_assoc]
    intro w hw
    simp only [stateWords, List.mem_cons, List.not_mem_nil, or_false] at hw
    rcases hw with rfl | rfl | rfl | rfl | rfl | rfl | rfl | rfl <;>
      exact ⟨hio.nonempty _ _, hio.word _ _⟩

private theorem readStates_after {io : NumIO} (hio : Sound io) (prec : Nat) (p : Path) (ws : List (List Char)) :
    readStates io (p.flatMap (stateWords io prec) ++ ws) = (do
      let q ← readStates io (p.flatMap (stateWords io prec))
      let r ← readStates io ws
      return q ++ r) := by
  induction p with
  | nil =>
    simp only [List.flatMap_nil, List.nil_append]
    rw [show readStates io [] = .ok [] by rw [readStates]; simp]
    cases readStates io ws <;> rfl
  | cons s p ih =>
    obtain ⟨x, hx, -⟩ := hio.near prec s.point.x
    obtain ⟨y, hy, -⟩ := hio.near prec s.point.y
    obtain ⟨z, hz, -⟩ := hio.near prec s.point.z
    obtain ⟨a, ha, -⟩ := hio.near prec s.angle
    obtain ⟨v, hv, -⟩ := hio.near prec s.velocity
    obtain ⟨l, hl, -⟩ := hio.near prec s.len
    rw [List.flatMap_cons]
    simp only [stateWords, List.cons_append, List.nil_append, readStates, hx, hy, hz, ha, hv,
      hl, parse_dir hio, parse_type hio, toDir_dirNum, toType_typeNum, Outcome.ok_bind]
    rw [ih]
    generalize readStates io _ = o
    generalize readStates io ws = o'
    cases o <;> cases o' <;> rfl

/-- C41: if writing was interrupted within a line, the states before that line are loaded and nothing of the line. -/
theorem C41_interrupted (io : NumIO) (hio : Sound io) (prec : Nat) (p : Path) (t : List Char) (ht : (words [] t).length < 8) :
    load io [] (serialize io prec p ++ t) = load io [] (serialize io prec p) := by
  unfold load
  rw [words_after hio, readStates_after hio, words_serialize hio]
  have : readStates io (words [] t) = .ok [] := by
    match words [] t, ht with
    | [], _ | [_], _ | [_, _], _ | [_, _, _], _ | [_, _, _, _], _ | [_, _, _, _, _], _ | [_, _, _, _, _, _], _ | [_, _, _, _, _, _, _], _ => rfl
    | _ :: _ :: _ :: _ :: _ :: _ :: _ :: _ :: _, h => simp at h; omega
  rw [this]
  generalize readStates io _ = o
  cases o <;> simp

/-- C41: after states that were saved, a line of eight numbers is the next state, where the direction and the type are given by the last
two numbers without their fractions; if one of these is not the number of a direction or a type, no state with a named direction and type
is read (the outcome of the model that stands for this). -/
theorem C41_last_numbers (io : NumIO) (hio : Sound io) (prec : Nat) (p : Path) (t : List Char) (a b c d e f g k : List Char)
    (ht : words [] t = [a, b, c, d, e, f, g, k]) (x y z ang vel len dir type : ℝ) (ha : io.parse a = some x) (hb : io.parse b = some y)
    (hc : io.parse c = some z) (hd : io.parse d = some ang) (he : io.parse e = some vel) (hf : io.parse f = some len)
    (hg : io.parse g = some dir) (hk : io.parse k = some type) :
    (∀ (d' : PathDir) (t' : SectionType), IsTrunc dir (dirNum d') → IsTrunc type (typeNum t') → ∃ q, load io [] (serialize io prec p) = .ok q ∧
      load io [] (serialize io prec p ++ t) = .ok (q ++ [⟨⟨x, y, z⟩, ang, len, d', t', vel⟩])) ∧
    ((∀ d', ¬ IsTrunc dir (dirNum d')) ∨ (∀ t', ¬ IsTrunc type (typeNum t')) → (load io [] (serialize io prec p ++ t)).isUb) := by
  obtain ⟨q, hq, -⟩ := readStates_spec hio prec p
  unfold load
  rw [words_after hio, readStates_after hio, words_serialize hio, hq, ht]
  have e0 : readStates io [] = .ok [] := by rw [readStates]; simp
  simp only [readStates, ha, hb, hc, hd, he, hf, hg, hk, Outcome.ok_bind, e0]
  constructor
  · intro d' t' h1 h2
    refine ⟨q, rfl, ?_⟩
    rw [toDir_trunc h1, toType_trunc h2]
    rfl
  · rintro (h | h)
    · obtain ⟨w, hw⟩ := toDir_ub h
      rw [hw]
      rfl
    · obtain ⟨w, hw⟩ := toType_ub h
      rw [hw]
      unfold toDir
      split_ifs <;> rfl

/-- C41: with the default precision of 6 digits a path in UTM coordinates moves by metres. -/
theorem C41_default_precision (io : NumIO) (hio : Sound io) :
    ∃ (p q : Path) (s t : PathState ℝ), load io [] (serialize io 6 p) = .ok q ∧ p = [s] ∧ q = [t] ∧
      5 ≤ |t.point.y - s.point.y| := by
  obtain ⟨q, h1, -, h3⟩ := readStates_spec hio 6
    [⟨⟨687000, 5761515, 0⟩, 0, 1, .forward, .swath, 1⟩]
  rw [List.forall₂_cons_left_iff] at h3
  obtain ⟨t, q', ht, hq', rfl⟩ := h3
  rw [List.forall₂_nil_left_iff] at hq'
  subst hq'
  refine ⟨[⟨⟨687000, 5761515, 0⟩, 0, 1, .forward, .swath, 1⟩], [t],
    ⟨⟨687000, 5761515, 0⟩, 0, 1, .forward, .swath, 1⟩, t, ?_, rfl, rfl, ?_⟩
  · rw [load, words_serialize hio, h1]; rfl
  · obtain ⟨r, hr1, hr2, m, k, hr3, hm⟩ := hio.near 6 5761515
    rw [hr1, Option.some.injEq] at ht
    rw [← ht]
    simp only
    have hd : digits 6 = 6 := rfl
    rw [hd] at hr2 hm
    have hr2' : |r - 5761515| ≤ 29 := by
      refine hr2.trans ?_
      rw [abs_of_pos (by norm_num)]
      norm_num
    have hk : 1 ≤ k := by
      by_contra hc
      have hk0 : k ≤ 0 := by omega
      have h10 : (10 : ℝ) ^ k ≤ 1 := zpow_le_one_of_nonpos₀ (by norm_num) hk0
      have hpos : (0 : ℝ) < 10 ^ k := zpow_pos (by norm_num) k
      have hmR : |(m : ℝ)| ≤ 1000000 := by
        have : ((|m| : ℤ) : ℝ) ≤ ((10 ^ 6 : ℤ) : ℝ) := by exact_mod_cast hm
        rw [Int.cast_abs] at this
        norm_num at this
        exact this
      have : |r| ≤ 1000000 := by
        rw [hr3, abs_mul, abs_of_pos hpos]
        calc |(m : ℝ)| * 10 ^ k ≤ 1000000 * 1 := mul_le_mul hmR h10 hpos.le (by norm_num)
          _ = 1000000 := by norm_num
      have h2 := abs_le.1 hr2'
      have h3 := abs_le.1 this
      linarith [h2.1, h3.2]
    obtain ⟨n, rfl⟩ : ∃ n : ℕ, k = n + 1 := ⟨(k - 1).toNat, by omega⟩
    have hri : r = ((m * 10 ^ n * 10 : ℤ) : ℝ) := by
      rw [hr3]
      push_cast
      rw [zpow_add_one₀ (by norm_num), zpow_natCast]
      ring
    rw [hri, show (5761515 : ℝ) = ((5761515 : ℤ) : ℝ) by norm_num, ← Int.cast_sub, ← Int.cast_abs]
    have : (5 : ℤ) ≤ |m * 10 ^ n * 10 - 5761515| := by
      rw [le_abs]
      omega
    exact_mod_cast this

/-! ## the assumptions about numbers can be met -/

namespace Sample

/-- significand and exponent of `x` rounded to `d` digits -/
noncomputable def expo (d : Nat) (x : ℝ) : ℤ := Int.log 10 |x| - d + 1
noncomputable def signif (d : Nat) (x : ℝ) : ℤ := round (x / (10 : ℝ) ^ expo d x)

/-- a whole number as strokes -/
def strokes (m : ℤ) : List Char := (if m < 0 then ['-'] else []) ++ List.replicate m.natAbs 'I'

/-- and back -/
def value (l : List Char) : ℤ := if '-' ∈ l then -(l.count 'I' : ℤ) else l.count 'I'

theorem value_strokes (m : ℤ) : value (strokes m) = m := by
  unfold value strokes
  by_cases h : m < 0
  · rw [if_pos h, if_pos (by simp)]
    simp
    rw [abs_of_neg h]; omega
  · rw [if_neg h, if_neg (by simp [List.mem_replicate])]
    simp
    omega

theorem strokes_mem {m : ℤ} {c : Char} (h : c ∈ strokes m) : c = '-' ∨ c = 'I' := by
  unfold strokes at h
  rcases List.mem_append.1 h with h | h
  · by_cases hm : m < 0
    · rw [if_pos hm] at h; left; simpa using h
    · rw [if_neg hm] at h; cases h
  · right; exact (List.mem_replicate.1 h).2

/-- numbers as strokes -/
noncomputable def io : NumIO where
  print prec x := strokes (signif (digits prec) x) ++ 'e' :: strokes (expo (digits prec) x)
  parse l := some (value (l.takeWhile (· ≠ 'e')) * (10 : ℝ) ^ value (l.dropWhile (· ≠ 'e')).tail)

theorem parse_print (prec : Nat) (x : ℝ) : io.parse (io.print prec x) =
    some (signif (digits prec) x * (10 : ℝ) ^ expo (digits prec) x) := by
  have h : ∀ c ∈ strokes (signif (digits prec) x), (decide (c ≠ 'e')) = true := by
    intro c hc
    rcases strokes_mem hc with rfl | rfl <;> decide
  simp only [io]
  rw [List.takeWhile_append_of_pos h, List.dropWhile_append_of_pos h,
    List.takeWhile_cons_of_neg (by decide), List.dropWhile_cons_of_neg (by decide), List.append_nil,
    List.tail_cons, value_strokes, value_strokes]

theorem sound : Sound io where
  nonempty prec x := by simp [io]
  word prec x c hc := by
    simp only [io, List.mem_append, List.mem_cons] at hc
    rcases hc with hc | rfl | hc
    · rcases strokes_mem hc with rfl | rfl <;> decide
    · decide
    · rcases strokes_mem hc with rfl | rfl <;> decide
  near prec x := by
    refine ⟨_, parse_print prec x, ?_, signif (digits prec) x, expo (digits prec) x, rfl, ?_⟩
    · rcases eq_or_ne x 0 with rfl | hx
      · simp [signif]
      · have hpos : (0 : ℝ) < 10 ^ expo (digits prec) x := zpow_pos (by norm_num) _
        have h1 := abs_sub_round (x / (10 : ℝ) ^ expo (digits prec) x)
        rw [abs_sub_comm] at h1
        have e : (signif (digits prec) x : ℝ) * (10 : ℝ) ^ expo (digits prec) x - x =
            ((signif (digits prec) x : ℝ) - x / (10 : ℝ) ^ expo (digits prec) x) *
              (10 : ℝ) ^ expo (digits prec) x := by
          field_simp
        rw [e, abs_mul, abs_of_pos hpos]
        have h2 : (10 : ℝ) ^ expo (digits prec) x ≤ |x| * (10 / 10 ^ digits prec) := by
          have h3 := Int.zpow_log_le_self (b := 10) (r := |x|) (by norm_num) (abs_pos.2 hx)
          have e2 : (10 : ℝ) ^ expo (digits prec) x =
              (10 : ℝ) ^ Int.log 10 |x| * (10 / 10 ^ digits prec) := by
            unfold expo
            rw [zpow_add₀ (by norm_num), zpow_sub₀ (by norm_num), zpow_natCast, zpow_one]
            ring
          rw [e2]
          exact mul_le_mul_of_nonneg_right (by exact_mod_cast h3) (by positivity)
        calc _ ≤ 1 / 2 * (|x| * (10 / 10 ^ digits prec)) :=
              mul_le_mul h1 h2 hpos.le (by norm_num)
          _ = 5 / 10 ^ digits prec * |x| := by ring
    · have hy : |x / (10 : ℝ) ^ expo (digits prec) x| ≤ 10 ^ digits prec := by
        have hpos : (0 : ℝ) < 10 ^ expo (digits prec) x := zpow_pos (by norm_num) _
        rw [abs_div, abs_of_pos hpos, div_le_iff₀ hpos]
        have h3 := Int.lt_zpow_succ_log_self (b := 10) (by norm_num) |x|
        have e2 : (10 : ℝ) ^ digits prec * (10 : ℝ) ^ expo (digits prec) x =
            (10 : ℝ) ^ (Int.log 10 |x| + 1) := by
          unfold expo
          rw [← zpow_natCast, ← zpow_add₀ (by norm_num)]
          congr 1
          ring
        rw [e2]
        exact_mod_cast h3.le
      have hy' := abs_le.1 hy
      have hc : ((10 : ℝ) ^ digits prec) = (((10 ^ digits prec : ℤ)) : ℝ) := by push_cast; rfl
      rw [hc] at hy'
      rw [abs_le]
      unfold signif
      rw [round_eq]
      constructor
      · rw [Int.le_floor]
        have := hy'.1
        push_cast at this ⊢
        linarith
      · have h5 : ⌊x / (10 : ℝ) ^ expo (digits prec) x + 1 / 2⌋ < 10 ^ digits prec + 1 := by
          rw [Int.floor_lt]
          have := hy'.2
          push_cast at this ⊢
          linarith
        omega
  exact k hk := by
    rw [parse_print]
    have hd : digits 6 = 6 := rfl
    rw [hd]
    congr 1
    rcases eq_or_ne k 0 with rfl | hk0
    · simp [signif]
    · have hlog : Int.log 10 |(k : ℝ)| = 0 := by
        rw [← Int.cast_abs]
        obtain ⟨n, hn⟩ : ∃ n : ℕ, |k| = n := ⟨k.natAbs, Int.abs_eq_natAbs k⟩
        rw [hn, Int.cast_natCast, Int.log_natCast]
        have h1 : 0 < |k| := abs_pos.2 hk0
        rw [Nat.log_of_lt (by omega)]
        rfl
      have he : expo 6 (k : ℝ) = -5 := by unfold expo; rw [hlog]; norm_num
      unfold signif
      rw [he]
      have : (k : ℝ) / (10 : ℝ) ^ (-5 : ℤ) = ((k * 100000 : ℤ) : ℝ) := by
        push_cast
        norm_num [zpow_neg]
        ring
      rw [this, round_intCast]
      push_cast
      norm_num [zpow_neg]
      ring

end Sample

/-- the hypothesis of the theorems above can be met -/
example : Sound Sample.io := Sample.sound

/-- two numbers of a line that was not finished -/
example (p : Path) : load Sample.io [] (serialize Sample.io 6 p ++ ['I', 'e', ' ', 'I']) = load Sample.io [] (serialize Sample.io 6 p) :=
  C41_interrupted _ Sample.sound 6 p _ (by decide)

/-- a line with the direction 2 -/
example (p : Path) : (load Sample.io [] (serialize Sample.io 6 p ++
    ['e', ' ', 'e', ' ', 'e', ' ', 'e', ' ', 'e', ' ', 'e', ' ', 'I', 'I', 'e', ' ', 'I', 'e', '\n'])).isUb := by
  refine (C41_last_numbers _ Sample.sound 6 p _ ['e'] ['e'] ['e'] ['e'] ['e'] ['e'] ['I', 'I', 'e'] ['I', 'e'] (by decide)
    0 0 0 0 0 0 2 1 ?_ ?_ ?_ ?_ ?_ ?_ ?_ ?_).2 (Or.inl ?_)
  any_goals simp [Sample.io, Sample.value]
  intro d
  cases d <;> norm_num [IsTrunc, dirNum]

end F2C.Props
