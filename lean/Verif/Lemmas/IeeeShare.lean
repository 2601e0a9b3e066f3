import Verif.Model.IeeeShare
import Verif.Model.Objectives
import Verif.Lemmas.Ieee
import Verif.Lemmas.DoubleSteps

/-! # Lemmas about sums of overlaps -/

namespace F2C.Ieee

open Flt Dbl

variable {fl : ℝ → ℝ} {A : Type}

/-- A number that is the given one after `k` roundings with a relative error of 2^-53 each. -/
def Rounded (k : Nat) (a : ℝ) (v : Flt) : Prop :=
  ∃ x, v = fin x ∧ IsDouble x ∧ (1 - 1 / 2 ^ 53) ^ k * a ≤ x ∧ x ≤ (1 + 1 / 2 ^ 53) ^ k * a

theorem Rounded.mono {k l : Nat} {a : ℝ} {v : Flt} (h : Rounded k a v) (ha : 0 ≤ a) (hk : k ≤ l) : Rounded l a v := by
  obtain ⟨x, e, d, h1, h2⟩ := h
  refine ⟨x, e, d, le_trans ?_ h1, h2.trans ?_⟩
  · exact mul_le_mul_of_nonneg_right (pow_le_pow_of_le_one (by norm_num) (by norm_num) hk) ha
  · exact mul_le_mul_of_nonneg_right (pow_le_pow_right₀ (by norm_num) hk) ha

theorem Rounded.add (h : IsRounding fl) {k : Nat} {a b : ℝ} {v : Flt} (hv : Rounded k a v) (ha : 0 ≤ a) (hb : 0 ≤ b) (db : IsDouble b)
    (hk : (1 + 1 / 2 ^ 53 : ℝ) ^ k ≤ 2) (hs : a + b ≤ big) : Rounded (k + 1) (a + b) (Flt.add fl v (fin b)) := by
  obtain ⟨x, rfl, d, h1, h2⟩ := hv
  have l1 : (1 - 1 / 2 ^ 53 : ℝ) ^ k ≤ 1 := pow_le_one₀ (by norm_num) (by norm_num)
  have l0 : (0 : ℝ) ≤ (1 - 1 / 2 ^ 53) ^ k := pow_nonneg (by norm_num) k
  have u1 : (1 : ℝ) ≤ (1 + 1 / 2 ^ 53) ^ k := one_le_pow₀ (by norm_num)
  have x0 : 0 ≤ x := (mul_nonneg l0 ha).trans h1
  have x1 : x ≤ 2 * a := h2.trans (mul_le_mul_of_nonneg_right hk ha)
  have er := h.sum_error d db
  rw [abs_of_nonneg (add_nonneg x0 hb)] at er
  obtain ⟨e1, e2⟩ := abs_le.1 er
  have m1 : (1 - 1 / 2 ^ 53 : ℝ) ^ k * (a + b) ≤ x + b := by
    rw [mul_add]
    linarith [mul_le_mul_of_nonneg_right l1 hb]
  have m2 : x + b ≤ (1 + 1 / 2 ^ 53 : ℝ) ^ k * (a + b) := by
    rw [mul_add]
    linarith [mul_le_mul_of_nonneg_right u1 hb]
  refine ⟨fl (x + b), ?_, h.double _, ?_, ?_⟩
  · rw [add_fin, rnd_fin]
    rw [abs_of_nonneg (add_nonneg x0 hb)]
    linarith [big_pos]
  · rw [pow_succ]
    generalize (1 - 1 / 2 ^ 53 : ℝ) ^ k = P at *
    have := mul_le_mul_of_nonneg_left m1 (show (0 : ℝ) ≤ 1 - 1 / 2 ^ 53 by norm_num)
    norm_num at this e1 e2 ⊢
    linarith
  · rw [pow_succ]
    generalize (1 + 1 / 2 ^ 53 : ℝ) ^ k = P at *
    have := mul_le_mul_of_nonneg_left m2 (show (0 : ℝ) ≤ 1 + 1 / 2 ^ 53 by norm_num)
    norm_num at this e1 e2 ⊢
    linarith

theorem inner_near (h : IsRounding fl) (inter : A → A → Flt) (I : A → A → ℝ) {B : ℝ}
    (hI : ∀ a b, inter a b = fin (I a b) ∧ IsDouble (I a b) ∧ 0 ≤ I a b ∧ I a b ≤ B) (areas : List A) (i : Nat) :
    ∀ (n j k : Nat) (a a' : ℝ) (v : Flt), Rounded k a v → 0 ≤ a → (1 + 1 / 2 ^ 53 : ℝ) ^ (k + n) ≤ 2 → a + n * B ≤ big →
      Obj.overlapInner I areas i n j a = .ok a' →
      0 ≤ a' ∧ a' ≤ a + n * B ∧ ∃ v', overlapInner fl inter areas i n j v = .ok v' ∧ Rounded (k + n) a' v'
  | 0, _, k, a, a', v, hv, ha, _, _, e => by
    simp only [Obj.overlapInner, Outcome.ok.injEq] at e
    subst e
    exact ⟨ha, by simp, v, rfl, hv⟩
  | n + 1, j, k, a, a', v, hv, ha, hk, hs, e => by
    rw [Obj.overlapInner] at e
    rw [overlapInner]
    split at e
    · next x y e1 e2 =>
      obtain ⟨q1, q2, q3, q4⟩ := hI x y
      have B0 : 0 ≤ n * B := mul_nonneg (Nat.cast_nonneg (α := ℝ) n) (q3.trans q4)
      push_cast at hs
      have hk' : (1 + 1 / 2 ^ 53 : ℝ) ^ k ≤ 2 := (pow_le_pow_right₀ (by norm_num) (by omega)).trans hk
      have r := hv.add h ha q3 q2 hk' (by linarith)
      have hk2 : (1 + 1 / 2 ^ 53 : ℝ) ^ (k + 1 + n) ≤ 2 := by rw [show k + 1 + n = k + (n + 1) by omega]; exact hk
      obtain ⟨p0, p1, v', p2, p3⟩ := inner_near h inter I hI areas i n (j + 1) (k + 1) (a + I x y) a' _ r (by linarith) hk2
        (by linarith) e
      simp only [e1, e2, q1]
      refine ⟨p0, by push_cast; linarith, v', p2, ?_⟩
      rw [show k + (n + 1) = k + 1 + n by omega]
      exact p3
    · exact absurd e (by simp)

theorem outer_near (h : IsRounding fl) (inter : A → A → Flt) (I : A → A → ℝ) {B : ℝ} (B0 : 0 ≤ B)
    (hI : ∀ a b, inter a b = fin (I a b) ∧ IsDouble (I a b) ∧ 0 ≤ I a b ∧ I a b ≤ B) (covered : Nat → A) (N : Nat) :
    ∀ (i : Nat) (areas : List A) (k : Nat) (a a' : ℝ) (v : Flt), areas.length + i = N → Rounded k a v → 0 ≤ a →
      (1 + 1 / 2 ^ 53 : ℝ) ^ (k + i * N) ≤ 2 → a + (i * N : ℕ) * B ≤ big →
      Obj.overlapOuter I covered i areas a = .ok a' →
      0 ≤ a' ∧ a' ≤ a + (i * N : ℕ) * B ∧ ∃ v', overlapOuter fl inter covered i areas v = .ok v' ∧ Rounded (k + i * N) a' v'
  | 0, _, k, a, a', v, _, hv, ha, _, _, e => by
    simp only [Obj.overlapOuter, Outcome.ok.injEq] at e
    subst e
    refine ⟨ha, by simp, v, rfl, ?_⟩
    simpa using hv
  | i + 1, areas, k, a, a', v, hl, hv, ha, hk, hs, e => by
    rw [Obj.overlapOuter] at e
    rw [overlapOuter]
    set n := (areas ++ [covered i]).length - (i + 1) with hn
    have nN : n ≤ N := by
      simp only [List.length_append, List.length_singleton] at hn
      omega
    have nB : (n : ℝ) * B ≤ N * B := mul_le_mul_of_nonneg_right (by exact_mod_cast nN) B0
    have iB : (0 : ℝ) ≤ (i * N : ℕ) * B := mul_nonneg (Nat.cast_nonneg (α := ℝ) _) B0
    have split' : (((i + 1) * N : ℕ) : ℝ) * B = (i * N : ℕ) * B + N * B := by push_cast; ring
    rw [split'] at hs ⊢
    cases hin : Obj.overlapInner I (areas ++ [covered i]) i n (i + 1) a with
    | ok b =>
      obtain ⟨p0, p1, w, p2, p3⟩ := inner_near h inter I hI (areas ++ [covered i]) i n (i + 1) k a b v hv ha
        ((pow_le_pow_right₀ (by norm_num) (by nlinarith)).trans hk) (by linarith) hin
      simp only [hin, Outcome.ok_bind] at e
      simp only [p2, Outcome.ok_bind]
      have p3' : Rounded (k + N) b w := p3.mono p0 (by omega)
      obtain ⟨q0, q1, v', q2, q3⟩ := outer_near h inter I B0 hI covered N i (areas ++ [covered i]) (k + N) b a' w (by simp; omega) p3' p0
        (by rw [show k + N + i * N = k + (i + 1) * N by ring]; exact hk) (by linarith) e
      refine ⟨q0, by linarith, v', q2, ?_⟩
      rw [show k + (i + 1) * N = k + N + i * N by ring]
      exact q3
    | throw x => simp only [hin] at e; exact absurd e (by intro c; cases c)
    | ub x => simp only [hin] at e; exact absurd e (by intro c; cases c)

/-- the factors after `k` roundings -/
theorem factors {k : Nat} (hk : k ≤ 2 ^ 40) :
    1 - k / 2 ^ 53 ≤ (1 - 1 / 2 ^ 53 : ℝ) ^ k ∧ (1 + 1 / 2 ^ 53 : ℝ) ^ k ≤ 1 + 2 * (k / 2 ^ 53) := by
  have b : 1 - (k : ℝ) / 2 ^ 53 ≤ (1 - 1 / 2 ^ 53 : ℝ) ^ k := by
    have := one_add_mul_le_pow (a := (-(1 / 2 ^ 53) : ℝ)) (by norm_num) k
    rw [← sub_eq_add_neg] at this
    refine le_trans (le_of_eq ?_) this
    ring
  refine ⟨b, ?_⟩
  have kr : (k : ℝ) ≤ 2 ^ 40 := by exact_mod_cast hk
  have k0 : (0 : ℝ) ≤ k := Nat.cast_nonneg k
  have x1 : (k : ℝ) / 2 ^ 53 ≤ 1 / 2 := by
    rw [div_le_iff₀ (by norm_num)]
    norm_num at kr ⊢
    linarith
  have x0 : 0 ≤ (k : ℝ) / 2 ^ 53 := by positivity
  have prod : (1 + 1 / 2 ^ 53 : ℝ) ^ k * (1 - 1 / 2 ^ 53 : ℝ) ^ k ≤ 1 := by
    rw [← mul_pow]
    exact pow_le_one₀ (by norm_num) (by norm_num)
  have P0 : (0 : ℝ) ≤ (1 + 1 / 2 ^ 53 : ℝ) ^ k := by positivity
  generalize (k : ℝ) / 2 ^ 53 = x at *
  generalize (1 + 1 / 2 ^ 53 : ℝ) ^ k = P at *
  have := mul_le_mul_of_nonneg_left b P0
  have : P * (1 - x) ≤ 1 := this.trans prod
  nlinarith

end F2C.Ieee
