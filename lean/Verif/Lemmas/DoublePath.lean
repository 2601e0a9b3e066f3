import Verif.Model.DoublePath
import Verif.Lemmas.Double

/-! # Sums in double precision -/

namespace F2C.Dbl

variable {fl : ℝ → ℝ}

theorem isDouble_abs {a : ℝ} (h : IsDouble a) : IsDouble |a| := by
  rcases abs_choice a with e | e <;> rw [e]
  · exact h
  · exact h.neg

/-- A number of type `double` is a multiple of the smallest one. -/
theorem IsDouble.multiple {a : ℝ} (h : IsDouble a) : ∃ k : ℤ, a = k * (2 : ℝ) ^ (-1074 : ℤ) := by
  obtain ⟨m, e, -, he, rfl⟩ := h
  refine ⟨m * 2 ^ (e + 1074).toNat, ?_⟩
  push_cast
  rw [← zpow_natCast, Int.toNat_of_nonneg (by omega), mul_assoc, ← zpow_add₀ two_ne_zero]
  congr 2
  omega

/-- Sums are rounded with a small relative error, however small they are. -/
theorem IsRounding.sum_error (h : IsRounding fl) {a b : ℝ} (ha : IsDouble a) (hb : IsDouble b) :
    |(a + b) - fl (a + b)| ≤ |a + b| / 2 ^ 53 := by
  by_cases hx : (2 : ℝ) ^ (-1022 : ℤ) ≤ |a + b|
  · exact h.rel_error _ hx
  · obtain ⟨k, hk⟩ := ha.multiple
    obtain ⟨l, hl⟩ := hb.multiple
    have e : a + b = ((k + l : ℤ) : ℝ) * (2 : ℝ) ^ (-1074 : ℤ) := by rw [hk, hl]; push_cast; ring
    have hd : IsDouble (a + b) := by
      refine ⟨k + l, -1074, ?_, le_rfl, e⟩
      rw [e, abs_mul, abs_of_pos (two_zpow_pos _), not_le,
        show (-1022 : ℤ) = 52 + -1074 by norm_num, zpow_add₀ two_ne_zero] at hx
      have := lt_of_mul_lt_mul_right hx (two_zpow_pos _).le
      have h2 : |((k + l : ℤ) : ℝ)| ≤ 2 ^ 53 := by
        refine this.le.trans ?_
        norm_num
      exact_mod_cast h2
    rw [h.self hd, sub_self, abs_zero]
    positivity

theorem IsRounding.diff_error (h : IsRounding fl) {a b : ℝ} (ha : IsDouble a) (hb : IsDouble b) :
    |(a - b) - fl (a - b)| ≤ |a - b| / 2 ^ 53 := by
  have := h.sum_error ha hb.neg
  rwa [← sub_eq_add_neg] at this

/-- The sum of the lengths. -/
theorem foldl_bounds (h : IsRounding fl) : ∀ (p : Path), (∀ s ∈ p, IsDouble s.len) → ∀ d S : ℝ, IsDouble d → 0 ≤ d → ∀ k : Nat,
    S * (1 - 1 / 2 ^ 53) ^ k ≤ d → d ≤ S * (1 + 1 / 2 ^ 53) ^ k →
    (S + (p.map fun s => |s.len|).sum) * (1 - 1 / 2 ^ 53) ^ (k + p.length) ≤ p.foldl (fun d s => fl (d + |s.len|)) d ∧
    p.foldl (fun d s => fl (d + |s.len|)) d ≤ (S + (p.map fun s => |s.len|).sum) * (1 + 1 / 2 ^ 53) ^ (k + p.length) ∧
    IsDouble (p.foldl (fun d s => fl (d + |s.len|)) d) ∧ 0 ≤ p.foldl (fun d s => fl (d + |s.len|)) d
  | [], _, d, S, hd, h0, k, h1, h2 => by
    simp only [List.map_nil, List.sum_nil, add_zero, List.length_nil, List.foldl_nil]
    exact ⟨h1, h2, hd, h0⟩
  | s :: p, hp, d, S, hd, h0, k, h1, h2 => by
    have hs : IsDouble |s.len| := isDouble_abs (hp s (by simp))
    have he := h.sum_error hd hs
    have ha := abs_nonneg s.len
    rw [abs_of_nonneg (by linarith : 0 ≤ d + |s.len|), abs_le] at he
    have hu : (0 : ℝ) < 1 - 1 / 2 ^ 53 := by norm_num
    have hlo : (1 - 1 / 2 ^ 53 : ℝ) ^ k ≤ 1 := pow_le_one₀ hu.le (by norm_num)
    have hhi : (1 : ℝ) ≤ (1 + 1 / 2 ^ 53) ^ k := one_le_pow₀ (by norm_num)
    have ih := foldl_bounds h p (fun x hx => hp x (List.mem_cons_of_mem _ hx)) (fl (d + |s.len|)) (S + |s.len|) (h.double _)
      (h.ge isDouble_zero (by linarith)) (k + 1) (by
        have e1 : (S + |s.len|) * (1 - 1 / 2 ^ 53) ^ k ≤ d + |s.len| := by
          rw [add_mul]
          have := mul_le_of_le_one_right ha hlo
          linarith
        have e2 := mul_le_mul_of_nonneg_right e1 hu.le
        rw [pow_succ, ← mul_assoc]
        linarith [he.2]) (by
        have e1 : d + |s.len| ≤ (S + |s.len|) * (1 + 1 / 2 ^ 53) ^ k := by
          rw [add_mul]
          have := le_mul_of_one_le_right ha hhi
          linarith
        have e2 := mul_le_mul_of_nonneg_right e1 (by norm_num : (0 : ℝ) ≤ 1 + 1 / 2 ^ 53)
        rw [pow_succ, ← mul_assoc]
        linarith [he.1])
    rw [List.foldl_cons, List.map_cons, List.sum_cons, List.length_cons, ← add_assoc]
    rw [show k + (p.length + 1) = k + 1 + p.length by omega]
    exact ih

/-- Differences of numbers of type `double` do not vanish when they are rounded. -/
theorem fl_sub_pos (h : IsRounding fl) {a b : ℝ} (ha : IsDouble a) (hb : IsDouble b) (hlt : b < a) : 0 < fl (a - b) := by
  obtain ⟨m, e, -, he, rfl⟩ := ha
  obtain ⟨n, f, -, hf, rfl⟩ := hb
  have mult : ∀ (k : ℤ) (g : ℤ), -1074 ≤ g → ∃ i : ℤ, (k : ℝ) * (2 : ℝ) ^ g = i * (2 : ℝ) ^ (-1074 : ℤ) := by
    intro k g hg
    obtain ⟨j, hj⟩ := Int.eq_ofNat_of_zero_le (by omega : 0 ≤ g + 1074)
    refine ⟨k * 2 ^ j, ?_⟩
    have : g = j + (-1074 : ℤ) := by omega
    rw [this, zpow_add₀ (by norm_num), zpow_natCast]
    push_cast
    ring
  obtain ⟨i, hi⟩ := mult m e he
  obtain ⟨j, hj⟩ := mult n f hf
  rw [hi, hj] at hlt ⊢
  have hp : (0 : ℝ) < (2 : ℝ) ^ (-1074 : ℤ) := by positivity
  have hij : j < i := by exact_mod_cast lt_of_mul_lt_mul_right hlt hp.le
  have h1 : (1 : ℝ) ≤ (i : ℝ) - j := by
    have : (j : ℝ) + 1 ≤ i := by exact_mod_cast hij
    linarith
  have hd : IsDouble ((2 : ℝ) ^ (-1074 : ℤ)) := ⟨1, -1074, by norm_num, by norm_num, by simp⟩
  refine lt_of_lt_of_le hp (h.ge hd ?_)
  rw [← sub_mul]
  nlinarith

/-- What the loop of `at` finds: a state and a distance within it, or nothing if the distance is not less than the whole
length, up to rounding. -/
theorem atLoop_spec (h : IsRounding fl) (cos sin : ℝ → ℝ) : ∀ (p : Path), (∀ s ∈ p, IsDouble s.len) → ∀ d : ℝ, IsDouble d → 0 ≤ d →
    (∃ pre s post r, p = pre ++ s :: post ∧ 0 ≤ r ∧ r ≤ |s.len| ∧ IsDouble r ∧ (pre = [] ∨ 0 < r) ∧
      |(pre.map fun s => |s.len|).sum + r - d| ≤ pre.length * (d / 2 ^ 53) ∧
      atLoop fl cos sin d p = { s with point := ⟨fl (s.point.x + fl (fl (r * s.dir.sign) * cos s.angle)),
        fl (s.point.y + fl (fl (r * s.dir.sign) * sin s.angle)), 0⟩ }) ∨
    ((p.map fun s => |s.len|).sum ≤ d + p.length * (d / 2 ^ 53) ∧ atLoop fl cos sin d p = PathState.default)
  | [], _, d, _, h0 => by
    right
    exact ⟨by simpa using h0, rfl⟩
  | s :: p, hp, d, hd, h0 => by
    by_cases hc : |s.len| < d
    · have hs : IsDouble |s.len| := isDouble_abs (hp s (by simp))
      have he := h.diff_error hd hs
      have ha := abs_nonneg s.len
      rw [abs_of_pos (by linarith : 0 < d - |s.len|)] at he
      have hle : fl (d - |s.len|) ≤ d := h.le hd (by linarith)
      have hge : 0 ≤ fl (d - |s.len|) := h.ge isDouble_zero (by linarith)
      have hx : (d - |s.len|) / 2 ^ 53 ≤ d / 2 ^ 53 := div_le_div_of_nonneg_right (by linarith) (by norm_num)
      have hy : fl (d - |s.len|) / 2 ^ 53 ≤ d / 2 ^ 53 := div_le_div_of_nonneg_right hle (by norm_num)
      rcases atLoop_spec h cos sin p (fun x hx => hp x (List.mem_cons_of_mem _ hx)) _ (h.double (d - |s.len|)) hge with
        ⟨pre, t, post, r, e, r0, r1, rd, rp, err, res⟩ | ⟨big, res⟩
      · left
        refine ⟨s :: pre, t, post, r, by rw [e]; rfl, r0, r1, rd, ?_, ?_, ?_⟩
        · have hpos := fl_sub_pos h hd hs hc
          rcases rp with rfl | rp
          · right
            simp only [List.map_nil, List.sum_nil, zero_add, List.length_nil, Nat.cast_zero, zero_mul, abs_nonpos_iff] at err
            linarith
          · exact Or.inr rp
        · rw [List.map_cons, List.sum_cons, List.length_cons]
          push_cast
          have h3 := mul_le_mul_of_nonneg_left hy (Nat.cast_nonneg (α := ℝ) pre.length)
          have err := err.trans h3
          have := abs_add_le ((pre.map fun s => |s.len|).sum + r - fl (d - |s.len|)) (-((d - |s.len|) - fl (d - |s.len|)))
          rw [abs_neg] at this
          rw [show |s.len| + (pre.map fun s => |s.len|).sum + r - d =
            ((pre.map fun s => |s.len|).sum + r - fl (d - |s.len|)) + -((d - |s.len|) - fl (d - |s.len|)) by ring]
          linarith
        · rw [atLoop, if_pos hc]
          exact res
      · right
        refine ⟨?_, ?_⟩
        · rw [List.map_cons, List.sum_cons, List.length_cons]
          push_cast
          have h3 := mul_le_mul_of_nonneg_left hy (Nat.cast_nonneg (α := ℝ) p.length)
          have := (abs_le.1 he).1
          linarith
        · rw [atLoop, if_pos hc]
          exact res
    · left
      refine ⟨[], s, p, d, rfl, h0, not_lt.1 hc, hd, Or.inl rfl, ?_, ?_⟩
      · simp
      · rw [atLoop, if_neg hc]

/-! ## Arc lengths -/

theorem foldl_ge (h : IsRounding fl) : ∀ (l : List ℝ), (∀ b ∈ l, 0 ≤ b) → ∀ a, IsDouble a →
    a ≤ l.foldl (fun a b => fl (a + b)) a
  | [], _, _, _ => le_rfl
  | b :: l, hl, a, ha => by
    rw [List.foldl_cons]
    have h1 : a ≤ fl (a + b) := h.ge ha (by linarith [hl b (by simp)])
    exact h1.trans (foldl_ge h l (fun x hx => hl x (List.mem_cons_of_mem _ hx)) _ (h.double _))

theorem scanl_ge (h : IsRounding fl) : ∀ (l : List ℝ), (∀ b ∈ l, 0 ≤ b) → ∀ a, IsDouble a →
    ∀ x ∈ l.scanl (fun a b => fl (a + b)) a, a ≤ x
  | [], _, a, _, x, hx => by simp at hx; exact hx.ge
  | b :: l, hl, a, ha, x, hx => by
    rw [List.scanl_cons, List.mem_cons] at hx
    rcases hx with rfl | hx
    · exact le_rfl
    · have h1 : a ≤ fl (a + b) := h.ge ha (by linarith [hl b (by simp)])
      exact h1.trans (scanl_ge h l (fun x hx => hl x (List.mem_cons_of_mem _ hx)) _ (h.double _) x hx)

/-- Adding a number that is not too small gives a larger one. -/
theorem IsRounding.add_gt (h : IsRounding fl) {a b : ℝ} (ha : IsDouble a) (hb : IsDouble b) (ha0 : 0 ≤ a) (hb0 : 0 < b)
    (hab : a < 2 ^ 52 * b) : a < fl (a + b) := by
  have he := (abs_le.1 (h.sum_error ha hb)).2
  rw [abs_of_pos (by linarith)] at he
  have : (a + b) / 2 ^ 53 < b := by
    rw [div_lt_iff₀ (by norm_num)]
    linarith
  linarith

theorem scanl_increasing (h : IsRounding fl) : ∀ (l : List ℝ), (∀ b ∈ l, IsDouble b ∧ 0 < b) → ∀ a, IsDouble a → 0 ≤ a →
    (∀ b ∈ l, l.foldl (fun a b => fl (a + b)) a < 2 ^ 52 * b) →
    (l.scanl (fun a b => fl (a + b)) a).Pairwise (· < ·)
  | [], _, _, _, _, _ => by simp
  | b :: l, hl, a, ha, h0, hs => by
    have hpos : ∀ x ∈ l, 0 ≤ x := fun x hx => (hl x (List.mem_cons_of_mem _ hx)).2.le
    obtain ⟨hbd, hb0⟩ := hl b (by simp)
    have h1 := hs b (by simp)
    rw [List.foldl_cons] at h1
    have h2 := foldl_ge h l hpos _ (h.double (a + b))
    have h3 : a ≤ fl (a + b) := h.ge ha (by linarith)
    have h4 := h.add_gt ha hbd h0 hb0 (by linarith)
    rw [List.scanl_cons, List.pairwise_cons]
    refine ⟨fun x hx => lt_of_lt_of_le h4 (scanl_ge h l hpos _ (h.double _) x hx), ?_⟩
    refine scanl_increasing h l (fun x hx => hl x (List.mem_cons_of_mem _ hx)) _ (h.double _) (h0.trans h3) fun x hx => ?_
    have := hs x (List.mem_cons_of_mem _ hx)
    rwa [List.foldl_cons] at this

/-- States without length do not count. -/
theorem length_filter (h : IsRounding fl) : ∀ (p : Path), (∀ s ∈ p, 0 ≤ s.len) → ∀ d, IsDouble d →
    p.foldl (fun d s => fl (d + |s.len|)) d =
      ((p.filter (fun s => s.len ≠ 0)).map (·.len)).foldl (fun a b => fl (a + b)) d
  | [], _, _, _ => rfl
  | s :: p, hp, d, hd => by
    have ih := length_filter h p (fun x hx => hp x (List.mem_cons_of_mem _ hx))
    have hs := hp s (by simp)
    rw [List.foldl_cons, abs_of_nonneg hs]
    by_cases h0 : s.len = 0
    · rw [List.filter_cons_of_neg (by simp [h0]), h0, add_zero, h.self hd]
      exact ih d hd
    · rw [List.filter_cons_of_pos (by simpa using h0), List.map_cons, List.foldl_cons]
      exact ih _ (h.double _)

end F2C.Dbl
