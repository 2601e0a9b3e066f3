import Verif.Model.IeeeTime
import Verif.Lemmas.IeeeGraph
import Verif.Lemmas.DoubleGeom
import Verif.Props.Ieee

/-! # C145: the time a path takes, for all values of type `double` -/

namespace F2C.Props

open Ieee Ieee.Flt Dbl IeeeSpec

variable {fl : ℝ → ℝ}

namespace IeeeTimeSpec

/-- The time for the states one after another. -/
noncomputable def time (p : Path) : ℝ := (p.map fun s => s.len / s.velocity).sum

/-- The same without the signs of the lengths. -/
noncomputable def absTime (p : Path) : ℝ := (p.map fun s => |s.len| / s.velocity).sum

/-- A length and a velocity that are ordinary. -/
def Ordinary (s : PathState ℝ) : Prop := |s.len| ≤ 2 ^ 400 ∧ (2 : ℝ) ^ (-400 : ℤ) ≤ s.velocity

/-- The robot rests for no distance, or goes infinitely far infinitely fast. -/
def Undetermined (s : PathState Flt) : Prop := (s.len = fin 0 ∧ s.velocity = fin 0) ∨ (s.len = pinf ∧ s.velocity = pinf)

/-- The robot never gets to the end of the state: it stands still before, or the way is infinite. -/
def NoEnd (s : PathState Flt) : Prop := (Positive s.len ∧ s.velocity = fin 0) ∨ (s.len = pinf ∧ s.velocity ≠ pinf)

end IeeeTimeSpec

open IeeeTimeSpec

private theorem step_err (h : IsRounding fl) {q T S A n : ℝ} (dT : IsDouble T) (A0 : 0 ≤ A) (hS : |S| ≤ A)
    (hT : |T - S| ≤ 3 * n * u53 * (A + 1)) (hn : 0 ≤ n) (hn' : n ≤ 2 ^ 40) :
    |fl (fl q + T) - (q + S)| ≤ 3 * (n + 1) * u53 * (|q| + A + 1) := by
  have u0 := u53_pos
  have q0 := abs_nonneg q
  have small : 3 * n * u53 ≤ 1 / 1000 := by
    have : n * u53 ≤ 2 ^ 40 * (1 / 2 ^ 53) := mul_le_mul_of_nonneg_right hn' u0.le
    norm_num at this ⊢
    linarith
  have E1 : 3 * n * u53 * (A + 1) ≤ 1 / 1000 * (A + 1) := mul_le_mul_of_nonneg_right small (by linarith)
  have f := Dbl.fl_err h q
  have fq : |fl q| ≤ 2 * |q| + 1 / 1000 := by
    have := abs_sub_abs_le_abs_sub (fl q) q
    have u1 := u53_small
    have : u53 * |q| ≤ 1 * |q| := mul_le_mul_of_nonneg_right (by linarith) q0
    linarith
  have u1 := u53_small
  have fq' : |fl q + T| ≤ 101 / 100 * (|q| + A) + 1 / 100 := by
    have e : fl q + T = (fl q - q) + (T - S) + (q + S) := by ring
    rw [e]
    have t1 := abs_add_le ((fl q - q) + (T - S)) (q + S)
    have t2 := abs_add_le (fl q - q) (T - S)
    have t3 := abs_add_le q S
    have : u53 * |q| ≤ 1 / 1000 * |q| := mul_le_mul_of_nonneg_right (by linarith) q0
    linarith
  have g := h.err_sum (h.double q) dT fq'
  have e : fl (fl q + T) - (q + S) = (fl (fl q + T) - (fl q + T)) + (fl q - q) + (T - S) := by ring
  rw [e]
  have t1 := abs_add_le ((fl (fl q + T) - (fl q + T)) + (fl q - q)) (T - S)
  have t2 := abs_add_le (fl (fl q + T) - (fl q + T)) (fl q - q)
  have m : 3 * n * u53 * (A + 1) ≤ 3 * n * u53 * (|q| + A + 1) := mul_le_mul_of_nonneg_left (by linarith) (by positivity)
  have v1 : 0 ≤ u53 * |q| := by positivity
  have v2 : 0 ≤ u53 * A := by positivity
  linarith

private theorem loop (h : IsRounding fl) : ∀ (p : Path) (q : List (PathState Flt)), List.Forall₂ Numbers p q → (∀ s ∈ p, Ordinary s) →
    ∀ (n : Nat) (T S A : ℝ), n + p.length ≤ 2 ^ 40 → IsDouble T → 0 ≤ A → A ≤ n * 2 ^ 800 → |S| ≤ A → |T - S| ≤ 3 * n * u53 * (A + 1) →
    ∃ T', q.foldl (fun d s => add fl (div fl s.len s.velocity) d) (fin T) = fin T' ∧
      |T' - (time p + S)| ≤ 3 * (n + p.length : ℕ) * u53 * (absTime p + A + 1)
  | [], _, .nil, _, n, T, S, A, _, _, _, _, _, hT => ⟨T, rfl, by simpa [time, absTime] using hT⟩
  | s :: p, _, .cons (b := s') hs hq, ho, n, T, S, A, hn, dT, A0, hA, hS, hT => by
    obtain ⟨o1, o2⟩ := ho s (by simp)
    simp only [List.length_cons] at hn
    have v0 : 0 < s.velocity := lt_of_lt_of_le (two_zpow_pos _) o2
    have q1 : |s.len / s.velocity| ≤ 2 ^ 800 := by
      rw [abs_div, abs_of_pos v0, div_le_iff₀ v0]
      refine o1.trans ?_
      have : (2 : ℝ) ^ 800 * 2 ^ (-400 : ℤ) = 2 ^ 400 := by
        rw [← zpow_natCast, ← zpow_natCast, ← zpow_add₀ two_ne_zero]; norm_num
      rw [← this]
      exact mul_le_mul_of_nonneg_left o2 (by positivity)
    have n40 : (n : ℝ) ≤ 2 ^ 40 := by
      have : n ≤ 2 ^ 40 := by omega
      exact_mod_cast this
    have st := step_err h (q := s.len / s.velocity) dT A0 hS hT (Nat.cast_nonneg n) n40
    have b8 : (2 : ℝ) ^ 800 * 2 ^ 42 ≤ big := by
      unfold big
      rw [← pow_add]
      exact pow_le_pow_right₀ (by norm_num) (by norm_num)
    have b4 : (2 : ℝ) ^ 800 ≤ 4 * big := by
      have : (2 : ℝ) ^ 800 ≤ big := pow_le_pow_right₀ (by norm_num) (by norm_num)
      exact this.trans (le_mul_of_one_le_left big_pos.le (by norm_num))
    have P : (1 : ℝ) ≤ 2 ^ 800 := one_le_pow₀ (by norm_num)
    have TA : |T| ≤ 2 * A + 1 := by
      have small : 3 * n * u53 ≤ 1 / 1000 := by
        have : n * u53 ≤ 2 ^ 40 * (1 / 2 ^ 53) := mul_le_mul_of_nonneg_right n40 u53_pos.le
        norm_num at this ⊢
        linarith
      have E1 : 3 * n * u53 * (A + 1) ≤ 1 / 1000 * (A + 1) := mul_le_mul_of_nonneg_right small (by linarith)
      have := abs_sub_abs_le_abs_sub T S
      linarith
    have dq : IsDouble (2 ^ 800 : ℝ) := ⟨1, 800, by norm_num, by norm_num, by
      rw [← zpow_natCast]; norm_num⟩
    have fq := fl_abs_le h dq q1
    have A40 : A ≤ 2 ^ 40 * 2 ^ 800 := hA.trans (mul_le_mul_of_nonneg_right n40 (by positivity))
    have stepEq : add fl (div fl s'.len s'.velocity) (fin T) = fin (fl (fl (s.len / s.velocity) + T)) := by
      rw [hs]
      simp only
      rw [div_fin v0.ne' (q1.trans b4), add_fin, rnd_fin]
      refine (abs_add_le _ _).trans ?_
      generalize (2 : ℝ) ^ 800 = X at *
      norm_num at *
      linarith
    rw [List.foldl_cons, stepEq]
    obtain ⟨T', e, hT'⟩ := loop h p _ hq (fun t ht => ho t (by simp [ht])) (n + 1) (fl (fl (s.len / s.velocity) + T))
      (s.len / s.velocity + S) (|s.len / s.velocity| + A) (by omega) (h.double _) (by positivity) (by push_cast; linarith)
      ((abs_add_le _ _).trans (by linarith)) (by push_cast; exact st)
    refine ⟨T', e, ?_⟩
    have e1 : time (s :: p) + S = time p + (s.len / s.velocity + S) := by unfold time; simp; ring
    have e2 : absTime (s :: p) + A = absTime p + (|s.len / s.velocity| + A) := by
      unfold absTime; rw [abs_div, abs_of_pos v0]; simp; ring
    rw [e1, e2, List.length_cons, show n + (p.length + 1) = n + 1 + p.length by ring]
    exact hT'

/-- **C145**, accuracy: of a path of ordinary lengths and positive velocities the time is a number, and right up to rounding. -/
theorem C145_time (h : IsRounding fl) (p : Path) (q : List (PathState Flt)) (hq : List.Forall₂ Numbers p q)
    (ho : ∀ s ∈ p, Ordinary s) (hn : p.length ≤ 2 ^ 40) :
    ∃ T, Ieee.taskTime fl q = fin T ∧ |T - time p| ≤ p.length * (absTime p + 1) / 2 ^ 51 := by
  obtain ⟨T, e, hT⟩ := loop h p q hq ho 0 0 0 0 (by omega) isDouble_zero le_rfl (by simp) (by simp) (by simp)
  refine ⟨T, e, ?_⟩
  simp only [add_zero, zero_add] at hT
  refine hT.trans ?_
  have A0 : 0 ≤ absTime p := List.sum_nonneg (by
    intro x hx
    obtain ⟨s, hs, rfl⟩ := List.mem_map.1 hx
    have := (two_zpow_pos (-400)).trans_le (ho s hs).2
    positivity)
  have e : (p.length : ℝ) * (absTime p + 1) / 2 ^ 51 = 4 * p.length * u53 * (absTime p + 1) := by unfold u53; ring
  rw [e]
  have : 0 ≤ p.length * u53 * (absTime p + 1) := by have := u53_pos; positivity
  linarith

private theorem term_cases {s : PathState Flt} (h1 : NotNegative s.len) (h2 : NotNegative s.velocity) (h : IsRounding fl) :
    (div fl s.len s.velocity = nan ↔ Undetermined s) ∧
    (¬ Undetermined s → NotNegative (div fl s.len s.velocity)) ∧ (NoEnd s → div fl s.len s.velocity = pinf) := by
  obtain ⟨pt, a, l, d, t, v⟩ := s
  simp only [Undetermined, NoEnd] at *
  cases l with
  | nan => exact absurd h1 (by simp [NotNegative])
  | ninf => exact absurd h1 (by simp [NotNegative])
  | pinf =>
    cases v with
    | nan => exact absurd h2 (by simp [NotNegative])
    | ninf => exact absurd h2 (by simp [NotNegative])
    | pinf => simp [div, Positive]
    | fin b =>
      have hb : ¬ b < 0 := not_lt.2 h2
      simp [div, hb, NotNegative]
  | fin x =>
    have hx : 0 ≤ x := h1
    cases v with
    | nan => exact absurd h2 (by simp [NotNegative])
    | ninf => exact absurd h2 (by simp [NotNegative])
    | pinf => simp [div, NotNegative]
    | fin b =>
      have hb : 0 ≤ b := h2
      by_cases b0 : b = 0
      · subst b0
        rcases hx.lt_or_eq with x0 | x0
        · simp [div, signed, x0, x0.ne', NotNegative]
        · subst x0
          simp [div, signed, Positive]
      · have q0 : 0 ≤ x / b := by positivity
        have hu : ¬ x / b ≤ -huge := by
          have := big_huge
          have := big_pos
          push Not; linarith
        simp only [div, b0, if_false, rnd, hu]
        split_ifs
        · simp [NotNegative, b0]
        · simp [NotNegative, b0, fl_nonneg h q0]

private theorem add_cases (h : IsRounding fl) {a b : Flt} (ha : NotNegative a) (hb : NotNegative b) :
    NotNegative (add fl a b) ∧ (a = pinf ∨ b = pinf → add fl a b = pinf) := by
  cases a with
  | nan => exact absurd ha (by simp [NotNegative])
  | ninf => exact absurd ha (by simp [NotNegative])
  | pinf => cases b <;> simp_all [add, NotNegative]
  | fin x =>
    cases b with
    | nan => exact absurd hb (by simp [NotNegative])
    | ninf => exact absurd hb (by simp [NotNegative])
    | pinf => simp [add, NotNegative]
    | fin y =>
      have q0 : 0 ≤ x + y := add_nonneg ha hb
      have hu : ¬ x + y ≤ -huge := by
        have := big_huge
        have := big_pos
        push Not; linarith
      simp only [add, rnd, hu, if_false]
      split_ifs
      · simp [NotNegative]
      · simp [NotNegative, fl_nonneg h q0]

private theorem fold_nan (q : List (PathState Flt)) : q.foldl (fun d s => add fl (div fl s.len s.velocity) d) nan = nan := by
  induction q with
  | nil => rfl
  | cons s q ih => rw [List.foldl_cons, add_nan, ih]

private theorem fold_cases (h : IsRounding fl) (q : List (PathState Flt)) (hq : ∀ s ∈ q, NotNegative s.len ∧ NotNegative s.velocity) :
    ∀ d, NotNegative d →
      (q.foldl (fun d s => add fl (div fl s.len s.velocity) d) d = nan ↔ ∃ s ∈ q, Undetermined s) ∧
      ((∀ s ∈ q, ¬ Undetermined s) → NotNegative (q.foldl (fun d s => add fl (div fl s.len s.velocity) d) d) ∧
        (d = pinf ∨ (∃ s ∈ q, NoEnd s) → q.foldl (fun d s => add fl (div fl s.len s.velocity) d) d = pinf)) := by
  induction q with
  | nil =>
    intro d hd
    refine ⟨⟨fun e => ?_, by simp⟩, fun _ => ⟨hd, by simp⟩⟩
    rw [show d = nan from e] at hd
    exact absurd hd (by simp [NotNegative])
  | cons s q ih =>
    intro d hd
    obtain ⟨t1, t2, t3⟩ := term_cases (hq s (by simp)).1 (hq s (by simp)).2 h
    rw [List.foldl_cons]
    by_cases hu : Undetermined s
    · rw [t1.2 hu, nan_add, fold_nan]
      exact ⟨⟨fun _ => ⟨s, by simp, hu⟩, fun _ => rfl⟩, fun hh => absurd hu (hh s (by simp))⟩
    · obtain ⟨a1, a2⟩ := add_cases h (t2 hu) hd
      obtain ⟨i1, i2⟩ := ih (fun t ht => hq t (by simp [ht])) _ a1
      refine ⟨i1.trans ?_, fun hh => ?_⟩
      · constructor
        · rintro ⟨t, m, ht⟩; exact ⟨t, by simp [m], ht⟩
        · rintro ⟨t, m, ht⟩
          rcases List.mem_cons.1 m with rfl | m
          · exact absurd ht hu
          · exact ⟨t, m, ht⟩
      · obtain ⟨j1, j2⟩ := i2 fun t ht => hh t (by simp [ht])
        refine ⟨j1, fun hc => j2 ?_⟩
        rcases hc with e | ⟨t, m, ht⟩
        · exact .inl (a2 (.inr e))
        · rcases List.mem_cons.1 m with rfl | m
          · exact .inl (a2 (.inl (t3 ht)))
          · exact .inr ⟨t, m, ht⟩

/-- **C145**, all values: if no length and no velocity is negative or NaN, the time is NaN exactly if some state is undetermined;
otherwise it is not negative. -/
theorem C145_defined (h : IsRounding fl) (q : List (PathState Flt)) (hq : ∀ s ∈ q, NotNegative s.len ∧ NotNegative s.velocity) :
    (Ieee.taskTime fl q = nan ↔ ∃ s ∈ q, Undetermined s) ∧
    ((∀ s ∈ q, ¬ Undetermined s) → NotNegative (Ieee.taskTime fl q)) := by
  obtain ⟨h1, h2⟩ := fold_cases h q hq (fin 0) (le_refl (0 : ℝ))
  exact ⟨h1, fun hh => (h2 hh).1⟩

/-- **C145**, standing still: then the time is infinite as soon as one state has no end, as with a velocity of 0. -/
theorem C145_standstill (h : IsRounding fl) (q : List (PathState Flt)) (hq : ∀ s ∈ q, NotNegative s.len ∧ NotNegative s.velocity)
    (hu : ∀ s ∈ q, ¬ Undetermined s) (hs : ∃ s ∈ q, NoEnd s) : Ieee.taskTime fl q = pinf :=
  ((fold_cases h q hq (fin 0) (le_refl (0 : ℝ))).2 hu).2 (.inr hs)

/-- **C145**, NaN: one length or velocity that is not a number makes the time one that is not. -/
theorem C145_nan (q : List (PathState Flt)) (s : PathState Flt) (hs : s ∈ q) (hn : s.len = nan ∨ s.velocity = nan) :
    Ieee.taskTime fl q = nan := by
  unfold Ieee.taskTime
  generalize fin 0 = d
  induction q generalizing d with
  | nil => simp at hs
  | cons t q ih =>
    rw [List.foldl_cons]
    rcases List.mem_cons.1 hs with rfl | m
    · have : div fl s.len s.velocity = nan := by
        rcases hn with e | e
        · rw [e]; rfl
        · rw [e]; exact div_nan _
      rw [this, nan_add, fold_nan]
    · exact ih m _

/-- The states of the examples. -/
private noncomputable def go (l v : Flt) : PathState Flt := ⟨⟨fin 0, fin 0, fin 0⟩, fin 0, l, .forward, .swath, v⟩

/-- Three metres at 2 m/s and one at 1 m/s take 2.5 s. -/
example : ∃ T, Ieee.taskTime toNearest [go (fin 3) (fin 2), go (fin 1) (fin 1)] = fin T ∧ |T - 5 / 2| ≤ 7 / 2 ^ 51 := by
  have := C145_time toNearest_isRounding
    [⟨⟨0, 0, 0⟩, 0, 3, .forward, .swath, 2⟩, ⟨⟨0, 0, 0⟩, 0, 1, .forward, .swath, 1⟩] [go (fin 3) (fin 2), go (fin 1) (fin 1)]
    (.cons rfl (.cons rfl .nil)) (by
      have a : (3 : ℝ) ≤ 2 ^ 400 := le_trans (by norm_num) (pow_le_pow_right₀ (by norm_num) (show 2 ≤ 400 by norm_num) : (2 : ℝ) ^ 2 ≤ _)
      have b : (2 : ℝ) ^ (-400 : ℤ) ≤ 1 := zpow_le_one_of_nonpos₀ (by norm_num) (by norm_num)
      intro s hs
      simp only [List.mem_cons, List.not_mem_nil, or_false] at hs
      rcases hs with rfl | rfl
      · refine ⟨?_, ?_⟩
        · show |(3 : ℝ)| ≤ _
          rwa [abs_of_pos (by norm_num)]
        · show _ ≤ (2 : ℝ)
          linarith
      · refine ⟨?_, b⟩
        show |(1 : ℝ)| ≤ _
        rw [abs_of_pos (by norm_num)]
        exact le_trans (by norm_num) a) (by norm_num)
  obtain ⟨T, e, hT⟩ := this
  refine ⟨T, e, ?_⟩
  norm_num [time, absTime] at hT ⊢
  exact hT

/-- A metre at 0 m/s takes for ever; no way at 0 m/s takes an undetermined time. -/
example : Ieee.taskTime toNearest [go (fin 3) (fin 2), go (fin 1) (fin 0)] = pinf ∧
    Ieee.taskTime toNearest [go (fin 3) (fin 2), go (fin 0) (fin 0)] = nan ∧
    Ieee.taskTime toNearest [go (fin 3) nan, go (fin 0) (fin 1)] = nan := by
  refine ⟨C145_standstill toNearest_isRounding _ ?_ ?_ ⟨go (fin 1) (fin 0), by simp, .inl ⟨?_, rfl⟩⟩,
    (C145_defined toNearest_isRounding _ ?_).1.2 ⟨go (fin 0) (fin 0), by simp, .inl ⟨rfl, rfl⟩⟩,
    C145_nan _ (go (fin 3) nan) (by simp) (.inr rfl)⟩
  · simp [go, NotNegative]
  · simp [go, Undetermined]
  · simp [go, Positive]
  · simp [go, NotNegative]

end F2C.Props
