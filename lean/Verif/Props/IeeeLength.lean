import Verif.Model.IeeeLength
import Verif.Lemmas.IeeeShare

/-! # C149: the length of a path, for all values of type `double` -/

namespace F2C.Props

open Ieee Ieee.Flt Dbl

variable {fl : ℝ → ℝ}

namespace IeeeLengthSpec

/-- A value of type `double`. -/
def Value : Flt → Prop
  | fin x => IsDouble x
  | _ => True

/-- Infinity or a double that is not negative. -/
def Good : Flt → Prop
  | pinf => True
  | fin x => IsDouble x ∧ 0 ≤ x
  | _ => False

end IeeeLengthSpec

open IeeeLengthSpec

private theorem good_abs {v : Flt} (h : Value v) (hn : v ≠ nan) : Good (Flt.abs v) := by
  cases v with
  | nan => exact (hn rfl).elim
  | ninf => trivial
  | pinf => trivial
  | fin x => exact ⟨isDouble_abs h, abs_nonneg x⟩

private theorem le_refl' {v : Flt} (h : Good v) : le v v := by
  cases v with
  | nan => exact h
  | ninf => trivial
  | pinf => trivial
  | fin x => exact le_refl x

private theorem le_trans' {a b c : Flt} (h1 : le a b) (h2 : le b c) : le a c := by
  cases a <;> cases b <;> cases c <;> first | trivial | exact h1.elim | exact h2.elim | exact le_trans (α := ℝ) h1 h2

private theorem good_add (h : IsRounding fl) {a b : Flt} (ha : Good a) (hb : Good b) :
    Good (add fl a b) ∧ le a (add fl a b) ∧ le b (add fl a b) := by
  cases a with
  | nan => exact ha.elim
  | ninf => exact ha.elim
  | pinf =>
    cases b with
    | nan => exact hb.elim
    | ninf => exact hb.elim
    | pinf => exact ⟨trivial, trivial, trivial⟩
    | fin y => exact ⟨trivial, trivial, trivial⟩
  | fin x =>
    cases b with
    | nan => exact hb.elim
    | ninf => exact hb.elim
    | pinf => exact ⟨trivial, trivial, trivial⟩
    | fin y =>
      rw [add_fin]
      unfold rnd
      split
      · exact ⟨trivial, trivial, trivial⟩
      · rw [if_neg (by linarith [big_huge, big_pos, ha.2, hb.2])]
        refine ⟨⟨h.double _, ha.2.trans (h.ge ha.1 (by linarith [hb.2]))⟩, ?_, ?_⟩
        · exact h.ge ha.1 (by linarith [hb.2])
        · exact h.ge hb.1 (by linarith [ha.2])

private theorem fold_good (h : IsRounding fl) : ∀ (p : List (PathState Flt)) (d : Flt), Good d → (∀ s ∈ p, Value s.len ∧ s.len ≠ nan) →
    Good (p.foldl (fun d s => add fl d (Flt.abs s.len)) d) ∧ le d (p.foldl (fun d s => add fl d (Flt.abs s.len)) d) ∧
    ∀ s ∈ p, le (Flt.abs s.len) (p.foldl (fun d s => add fl d (Flt.abs s.len)) d)
  | [], d, hd, _ => ⟨hd, le_refl' hd, by simp⟩
  | s :: p, d, hd, hp => by
    have hs := hp s (by simp)
    obtain ⟨g, l1, l2⟩ := good_add h hd (good_abs hs.1 hs.2)
    obtain ⟨g', l', m'⟩ := fold_good h p _ g fun t m => hp t (by simp [m])
    refine ⟨g', le_trans' l1 l', ?_⟩
    intro t m
    rcases List.mem_cons.1 m with rfl | m
    · exact le_trans' l2 l'
    · exact m' t m

/-- **C149**, values: the length of a path is infinite or a double that is not negative, if no length of a state is NaN; it is infinite if
one of them is. -/
theorem C149_defined (h : IsRounding fl) (p : List (PathState Flt)) (hp : ∀ s ∈ p, Value s.len ∧ s.len ≠ nan) :
    Good (pathLength fl p) ∧ ((∃ s ∈ p, s.len = pinf ∨ s.len = ninf) → pathLength fl p = pinf) := by
  obtain ⟨g, -, m⟩ := fold_good h p (fin 0) ⟨isDouble_zero, le_refl 0⟩ hp
  refine ⟨g, ?_⟩
  rintro ⟨s, hs, e⟩
  have l := m s hs
  have : Flt.abs s.len = pinf := by rcases e with e | e <;> rw [e] <;> rfl
  rw [this] at l
  show p.foldl (fun d s => add fl d (Flt.abs s.len)) (fin 0) = pinf
  revert l
  generalize p.foldl (fun d s => add fl d (Flt.abs s.len)) (fin 0) = v
  intro l
  cases v <;> first | rfl | exact l.elim

/-- **C149**, growth: adding states never makes a path shorter, and no state is longer than the path, overflow and rounding included. -/
theorem C149_grows (h : IsRounding fl) (p q : List (PathState Flt)) (hp : ∀ s ∈ p ++ q, Value s.len ∧ s.len ≠ nan) :
    le (pathLength fl p) (pathLength fl (p ++ q)) ∧ ∀ s ∈ p ++ q, le (Flt.abs s.len) (pathLength fl (p ++ q)) := by
  refine ⟨?_, (fold_good h (p ++ q) (fin 0) ⟨isDouble_zero, le_refl 0⟩ hp).2.2⟩
  unfold pathLength
  rw [List.foldl_append]
  exact (fold_good h q _ (fold_good h p (fin 0) ⟨isDouble_zero, le_refl 0⟩ fun s m => hp s (by simp [m])).1 fun s m => hp s (by simp [m])).2.1

private theorem fold_nan (p : List (PathState Flt)) : p.foldl (fun d s => add fl d (Flt.abs s.len)) nan = nan := by
  induction p with
  | nil => rfl
  | cons s p ih =>
    rw [List.foldl_cons]
    have : add fl nan (Flt.abs s.len) = nan := by cases s.len <;> rfl
    rw [this, ih]

/-- **C149**, not a number: the length is NaN if that of a state is. -/
theorem C149_nan (fl : ℝ → ℝ) (p : List (PathState Flt)) (hp : ∃ s ∈ p, s.len = nan) : pathLength fl p = nan := by
  obtain ⟨s, m, e⟩ := hp
  obtain ⟨a, b, rfl⟩ := List.append_of_mem m
  unfold pathLength
  rw [List.foldl_append, List.foldl_cons, e]
  have : ∀ v, add fl v (Flt.abs nan) = nan := by intro v; cases v <;> rfl
  rw [this, fold_nan]

private theorem fold_rounded (h : IsRounding fl) : ∀ (p : List (PathState Flt)) (l : List ℝ) (k : Nat) (a : ℝ) (v : Flt),
    List.Forall₂ (fun s x => s.len = fin x ∧ IsDouble x ∧ |x| ≤ 2 ^ 900) p l → Rounded k a v → 0 ≤ a →
    (1 + 1 / 2 ^ 53 : ℝ) ^ (k + l.length) ≤ 2 → a + l.length * 2 ^ 900 ≤ big →
    Rounded (k + l.length) (a + (l.map fun x => |x|).sum) (p.foldl (fun d s => add fl d (Flt.abs s.len)) v)
  | [], [], k, a, v, _, hv, _, _, _ => by simpa using hv
  | s :: p, x :: l, k, a, v, hp, hv, ha, hk, hs => by
    obtain ⟨⟨e, d, b⟩, t⟩ := List.forall₂_cons.1 hp
    rw [List.foldl_cons, e, abs_fin]
    simp only [List.length_cons, List.map_cons, List.sum_cons] at hk hs ⊢
    push_cast at hs
    have l0 : (0 : ℝ) ≤ l.length * 2 ^ 900 := mul_nonneg (Nat.cast_nonneg (α := ℝ) _) (pow_nonneg (by norm_num) _)
    have x0 := abs_nonneg x
    have hs' : a + |x| + l.length * 2 ^ 900 ≤ big := by
      rw [add_mul, one_mul] at hs
      linarith
    have hk' : (1 + 1 / 2 ^ 53 : ℝ) ^ k ≤ 2 := (pow_le_pow_right₀ (by norm_num) (by omega)).trans hk
    have r := hv.add h ha x0 (isDouble_abs d) hk' ((le_add_of_nonneg_right l0).trans hs')
    have := fold_rounded h p l (k + 1) (a + |x|) _ t r (by linarith) (by rw [show k + 1 + l.length = k + (l.length + 1) by omega]; exact hk) hs'
    rw [show k + (l.length + 1) = k + 1 + l.length by omega, ← add_assoc]
    exact this
  | [], _ :: _, _, _, _, hp, _, _, _, _ => by cases hp
  | _ :: _, [], _, _, _, hp, _, _, _, _ => by cases hp

/-- **C149**, accuracy: for up to 2^40 states with lengths up to 2^900 the length is the sum of their sizes up to n / 2^52 of it. -/
theorem C149_sum (h : IsRounding fl) (p : List (PathState Flt)) (l : List ℝ)
    (hp : List.Forall₂ (fun s x => s.len = fin x ∧ IsDouble x ∧ |x| ≤ 2 ^ 900) p l) (hn : l.length ≤ 2 ^ 40) :
    ∃ x, pathLength fl p = fin x ∧ IsDouble x ∧ |x - (l.map fun x => |x|).sum| ≤ (l.map fun x => |x|).sum * (l.length / 2 ^ 52) := by
  obtain ⟨f1, f2⟩ := factors hn
  have nr : (l.length : ℝ) ≤ 2 ^ 40 := by exact_mod_cast hn
  have f3 : (1 + 1 / 2 ^ 53 : ℝ) ^ l.length ≤ 2 := by
    refine f2.trans ?_
    have : (l.length : ℝ) / 2 ^ 53 ≤ 2 ^ 40 / 2 ^ 53 := div_le_div_of_nonneg_right nr (by norm_num)
    have : (2 : ℝ) ^ 40 / 2 ^ 53 ≤ 1 / 2 := by norm_num
    linarith
  have hb : (0 : ℝ) + l.length * 2 ^ 900 ≤ big := by
    rw [zero_add]
    refine (mul_le_mul_of_nonneg_right nr (pow_nonneg (by norm_num) _)).trans ?_
    rw [← pow_add]
    exact pow_le_pow_right₀ (by norm_num) (by norm_num)
  have S0 : 0 ≤ (l.map fun x => |x|).sum := List.sum_nonneg (by
    intro y m
    obtain ⟨x, -, rfl⟩ := List.mem_map.1 m
    exact abs_nonneg x)
  obtain ⟨x, e, d, h1, h2⟩ := fold_rounded h p l 0 0 (fin 0) hp ⟨0, rfl, isDouble_zero, by simp, by simp⟩ (le_refl 0)
    (by rw [zero_add]; exact f3) hb
  rw [zero_add, zero_add] at h1 h2
  refine ⟨x, e, d, ?_⟩
  generalize (l.map fun x => |x|).sum = S at *
  have m1 := mul_le_mul_of_nonneg_right f1 S0
  have m2 := mul_le_mul_of_nonneg_right f2 S0
  have q : 0 ≤ S * (l.length : ℝ) := mul_nonneg S0 (Nat.cast_nonneg _)
  have e1 : (1 - (l.length : ℝ) / 2 ^ 53) * S = S - S * l.length * (1 / 2 ^ 53) := by ring
  have e2 : (1 + 2 * ((l.length : ℝ) / 2 ^ 53)) * S = S + S * l.length * (1 / 2 ^ 52) := by ring
  have e3 : S * ((l.length : ℝ) / 2 ^ 52) = S * l.length * (1 / 2 ^ 52) := by ring
  have e4 : S * (l.length : ℝ) * (1 / 2 ^ 53) ≤ S * l.length * (1 / 2 ^ 52) := mul_le_mul_of_nonneg_left (by norm_num) q
  rw [e3, abs_le]
  constructor <;> linarith

/-- Two states, one of them with a negative length. -/
example : ∃ x, pathLength toNearest [⟨⟨fin 0, fin 0, fin 0⟩, fin 0, fin 3, .forward, .swath, fin 1⟩,
    ⟨⟨fin 0, fin 0, fin 0⟩, fin 0, fin (-2), .backward, .swath, fin 1⟩] = fin x ∧ |x - 5| ≤ 5 * (2 / 2 ^ 52) := by
  have t : (16 : ℝ) ≤ 2 ^ 900 := by
    calc (16 : ℝ) = 2 ^ 4 := by norm_num
      _ ≤ 2 ^ 900 := pow_le_pow_right₀ (by norm_num) (by norm_num)
  obtain ⟨x, e, -, b⟩ := C149_sum toNearest_isRounding [⟨⟨fin 0, fin 0, fin 0⟩, fin 0, fin 3, .forward, .swath, fin 1⟩,
    ⟨⟨fin 0, fin 0, fin 0⟩, fin 0, fin (-2), .backward, .swath, fin 1⟩] [3, -2] (by
      refine .cons ⟨rfl, ⟨3, 0, by norm_num, by norm_num, by norm_num⟩, le_trans (by norm_num) t⟩
        (.cons ⟨rfl, ⟨-2, 0, by norm_num, by norm_num, by norm_num⟩, le_trans (by norm_num) t⟩ .nil)) (by norm_num)
  refine ⟨x, e, ?_⟩
  norm_num at b ⊢
  exact b

/-- Two lengths of 2^1023 each: the sum overflows, and is still no smaller than either. -/
example : le (fin (2 ^ 1023)) (pathLength toNearest ([⟨⟨fin 0, fin 0, fin 0⟩, fin 0, fin (2 ^ 1023), .forward, .swath, fin 1⟩] ++
    [⟨⟨fin 0, fin 0, fin 0⟩, fin 0, fin (2 ^ 1023), .forward, .swath, fin 1⟩])) := by
  have d : IsDouble ((2 : ℝ) ^ 1023) := ⟨1, 1023, by norm_num, by norm_num, by rw [Int.cast_one, one_mul]; exact (zpow_natCast 2 1023).symm⟩
  have := (C149_grows toNearest_isRounding [⟨⟨fin 0, fin 0, fin 0⟩, fin 0, fin (2 ^ 1023), .forward, .swath, fin 1⟩]
    [⟨⟨fin 0, fin 0, fin 0⟩, fin 0, fin (2 ^ 1023), .forward, .swath, fin 1⟩] (by
      intro s m
      simp only [List.mem_append, List.mem_singleton, or_self] at m
      subst m
      exact ⟨d, by simp⟩)).2 _ (List.mem_append_left _ (List.mem_singleton.2 rfl))
  rw [abs_fin, abs_of_nonneg (pow_nonneg (by norm_num) _)] at this
  exact this

/-- An infinite length. -/
example : pathLength toNearest [⟨⟨fin 0, fin 0, fin 0⟩, fin 0, ninf, .forward, .swath, fin 1⟩] = pinf :=
  (C149_defined toNearest_isRounding _ (by
    intro s m
    rw [List.mem_singleton.1 m]
    exact ⟨trivial, by simp⟩)).2 ⟨_, List.mem_singleton.2 rfl, Or.inr rfl⟩

end F2C.Props
