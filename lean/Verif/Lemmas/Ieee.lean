import Verif.Model.Ieee
import Verif.Lemmas.DoubleSteps

/-! # Lemmas about infinities and NaN -/

namespace F2C.Ieee

open Flt Dbl

variable {fl : ℝ → ℝ}

namespace Flt

@[simp] theorem lt_nan (a : Flt) : ¬ lt a nan := by cases a <;> simp [lt]
@[simp] theorem nan_lt (a : Flt) : ¬ lt nan a := by simp [lt]
@[simp] theorem lt_fin (a b : ℝ) : lt (fin a) (fin b) ↔ a < b := Iff.rfl
@[simp] theorem fin_lt_pinf (a : ℝ) : lt (fin a) pinf := trivial
@[simp] theorem ninf_lt_fin (a : ℝ) : lt ninf (fin a) := trivial
@[simp] theorem not_pinf_lt (a : Flt) : ¬ lt pinf a := by cases a <;> simp [lt]
@[simp] theorem not_lt_ninf (a : Flt) : ¬ lt a ninf := by cases a <;> simp [lt]
@[simp] theorem le_fin (a b : ℝ) : le (fin a) (fin b) ↔ a ≤ b := Iff.rfl
@[simp] theorem nan_le (a : Flt) : ¬ le nan a := by simp [le]
@[simp] theorem add_nan (a : Flt) : add fl a nan = nan := by cases a <;> rfl
@[simp] theorem nan_add (a : Flt) : add fl nan a = nan := by cases a <;> rfl
@[simp] theorem mul_nan (a : Flt) : mul fl a nan = nan := by cases a <;> rfl
@[simp] theorem nan_mul (a : Flt) : mul fl nan a = nan := by cases a <;> rfl
@[simp] theorem div_nan (a : Flt) : div fl a nan = nan := by cases a <;> rfl
@[simp] theorem add_fin (a b : ℝ) : add fl (fin a) (fin b) = rnd fl (a + b) := rfl
@[simp] theorem sub_fin (a b : ℝ) : sub fl (fin a) (fin b) = rnd fl (a - b) := by rw [sub_eq_add_neg]; rfl
@[simp] theorem mul_fin (a b : ℝ) : mul fl (fin a) (fin b) = rnd fl (a * b) := rfl
@[simp] theorem abs_fin (a : ℝ) : Flt.abs (fin a) = fin |a| := rfl
@[simp] theorem lift_fin (f : ℝ → ℝ) (a : ℝ) : lift f (fin a) = fin (f a) := rfl

theorem lt_irrefl (a : Flt) : ¬ lt a a := by cases a <;> simp [lt]

theorem lt_trans {a b c : Flt} (h1 : lt a b) (h2 : lt b c) : lt a c := by
  cases a <;> cases b <;> cases c <;> simp_all [lt]
  exact _root_.lt_trans h1 h2

theorem lt_of_lt_not_lt {a b c : Flt} (h1 : lt a b) (h2 : ¬ lt c b) (hc : c ≠ nan) : lt a c := by
  cases a <;> cases b <;> cases c <;> simp_all [lt]
  exact lt_of_lt_of_le h1 h2

end Flt

/-- A bound that is far from the largest number. -/
def big : ℝ := 2 ^ 1000

theorem big_pos : 0 < big := by unfold big; positivity

theorem isDouble_big : IsDouble big := ⟨1, 1000, by norm_num, by norm_num, by
  rw [big, Int.cast_one, one_mul]; exact (zpow_natCast 2 1000).symm⟩

theorem isDouble_two_big : IsDouble (2 * big) := ⟨1, 1001, by norm_num, by norm_num, by
  rw [big, Int.cast_one, one_mul, ← pow_succ']; exact (zpow_natCast 2 1001).symm⟩

theorem big_huge : 16 * big < huge := by
  have e : huge = big * (2 ^ 24) - 2 ^ 970 := by
    rw [huge, big, ← pow_add]
  have : (2 : ℝ) ^ 970 ≤ big := pow_le_pow_right₀ (by norm_num) (by norm_num)
  have := big_pos
  have e2 : big * 2 ^ 24 = 16777216 * big := by ring
  rw [e, e2]
  generalize (2 : ℝ) ^ 970 = q at *
  linarith

theorem one_le_big : (1 : ℝ) ≤ big := one_le_pow₀ (by norm_num)

theorem rnd_fin16 {x : ℝ} (hx : |x| ≤ 16 * big) : rnd fl x = fin (fl x) := by
  have := abs_le.1 hx
  have := big_huge
  unfold rnd
  rw [if_neg (by linarith), if_neg (by linarith)]

theorem rnd_fin {x : ℝ} (hx : |x| ≤ 4 * big) : rnd fl x = fin (fl x) :=
  rnd_fin16 (hx.trans (by linarith [big_pos]))

/-- Rounding keeps bounds. -/
theorem fl_abs_le (h : IsRounding fl) {x d : ℝ} (hd : IsDouble d) (hx : |x| ≤ d) : |fl x| ≤ d := by
  have hx := abs_le.1 hx
  exact abs_le.2 ⟨h.ge hd.neg hx.1, h.le hd hx.2⟩

/-! ## Tracks -/

theorem trackLoop_fin (h : IsRounding fl) {H w s : ℝ} (hH : |H| ≤ big) (hw0 : 0 ≤ w) (hw : w ≤ big) (hs : 0 ≤ s) (hs1 : s ≤ big) :
    ∀ (fuel : Nat) (y : ℝ), |y| ≤ 2 * big →
      trackLoop fl (fin H) (fin w) (fin s) fuel (fin y) = (Dbl.trackLoop fl H w s fuel y).map (List.map fin) := by
  have b0 := big_pos
  have hH' := abs_le.1 hH
  intro fuel
  induction fuel with
  | zero =>
    intro y hy
    have hy' := abs_le.1 hy
    rw [trackLoop, Dbl.trackLoop, add_fin, rnd_fin (abs_le.2 ⟨by linarith, by linarith⟩), lt_fin]
    split <;> simp [Outcome.map]
  | succ fuel ih =>
    intro y hy
    have hy' := abs_le.1 hy
    rw [trackLoop, Dbl.trackLoop, add_fin, rnd_fin (abs_le.2 ⟨by linarith, by linarith⟩), lt_fin]
    split
    · rename_i hlt
      have hyb : y + s ≤ big := by
        by_contra hc
        have := h.ge isDouble_big (not_le.1 hc).le
        linarith
      have hb : |y + w| ≤ 2 * big := abs_le.2 ⟨by linarith, by linarith⟩
      rw [add_fin, rnd_fin (hb.trans (by linarith)), ih _ (fl_abs_le h isDouble_two_big hb)]
      cases Dbl.trackLoop fl H w s fuel (fl (y + w)) <;> simp [Outcome.map]
    · simp [Outcome.map]

/-! ## Paths -/

/-- A state of numbers. -/
def ofState (s : PathState ℝ) : PathState Flt :=
  ⟨⟨fin s.point.x, fin s.point.y, fin s.point.z⟩, fin s.angle, fin s.len, s.dir, s.type, fin s.velocity⟩

theorem length_step (h : IsRounding fl) : ∀ (p : Path) (d : ℝ), 0 ≤ d → IsDouble d →
    d ≤ p.foldl (fun d s => fl (d + |s.len|)) d := by
  intro p
  induction p with
  | nil => intro d _ _; exact le_rfl
  | cons s p ih =>
    intro d h0 hd
    rw [List.foldl_cons]
    have h1 : d ≤ fl (d + |s.len|) := h.ge hd (by linarith [abs_nonneg s.len])
    exact h1.trans (ih _ (h0.trans h1) (h.double _))

theorem length_fin (h : IsRounding fl) : ∀ (p : Path) (d : ℝ), 0 ≤ d → IsDouble d →
    p.foldl (fun d s => fl (d + |s.len|)) d ≤ big →
    (p.map ofState).foldl (fun d s => add fl d (Flt.abs s.len)) (fin d) = fin (p.foldl (fun d s => fl (d + |s.len|)) d) := by
  intro p
  induction p with
  | nil => intro d _ _ _; rfl
  | cons s p ih =>
    intro d h0 hd hb
    have b0 := big_pos
    have h1 : d ≤ fl (d + |s.len|) := h.ge hd (by linarith [abs_nonneg s.len])
    rw [List.foldl_cons] at hb ⊢
    have h2 := (length_step h p _ (h0.trans h1) (h.double _)).trans hb
    have h3 : d + |s.len| ≤ 2 * big := by
      by_contra hc
      have := h.ge isDouble_two_big (not_le.1 hc).le
      linarith
    rw [List.map_cons, List.foldl_cons, ← ih _ (h0.trans h1) (h.double _) hb]
    congr 1
    show add fl (fin d) (fin |s.len|) = _
    rw [add_fin, rnd_fin (abs_le.2 ⟨by linarith [abs_nonneg s.len], by linarith⟩)]

theorem atLoop_fin (h : IsRounding fl) {cos sin : ℝ → ℝ} (hc : ∀ x, |cos x| ≤ 1) (hs : ∀ x, |sin x| ≤ 1) :
    ∀ (p : Path) (len : ℝ), 0 ≤ len → len ≤ big → (∀ s ∈ p, |s.point.x| ≤ big ∧ |s.point.y| ≤ big) →
      atLoop fl cos sin (fin len) (p.map ofState) = ofState (Dbl.atLoop fl cos sin len p) := by
  intro p
  induction p with
  | nil => intro _ _ _ _; rfl
  | cons s p ih =>
    intro len h0 h1 hp
    have b0 := big_pos
    obtain ⟨hx, hy⟩ := hp s List.mem_cons_self
    rw [List.map_cons, atLoop, Dbl.atLoop]
    simp only [ofState, abs_fin, lt_fin]
    split
    · rename_i hlt
      have := abs_nonneg s.len
      rw [sub_fin, rnd_fin (abs_le.2 ⟨by linarith, by linarith⟩)]
      exact ih _ (h.ge isDouble_zero (by linarith)) (h.le isDouble_big (by linarith))
        (fun s hs => hp s (List.mem_cons_of_mem _ hs))
    · have hsg : |len * (s.dir.sign : ℝ)| ≤ big := by
        rw [abs_mul, abs_of_nonneg h0]
        cases s.dir <;> simp [PathDir.sign, h1]
      have hl := fl_abs_le h isDouble_big hsg
      have hmul : ∀ c : ℝ, |c| ≤ 1 → |fl (len * s.dir.sign) * c| ≤ big := fun c hc => by
        rw [abs_mul]
        calc |fl (len * s.dir.sign)| * |c| ≤ big * 1 := mul_le_mul hl hc (abs_nonneg _) b0.le
          _ = big := mul_one _
      have hsum : ∀ a c : ℝ, |a| ≤ big → |c| ≤ 1 → |a + fl (fl (len * s.dir.sign) * c)| ≤ 4 * big := fun a c ha hc => by
        have := fl_abs_le h isDouble_big (hmul c hc)
        exact (abs_add_le _ _).trans (by linarith)
      rw [mul_fin, rnd_fin (hsg.trans (by linarith)), lift_fin, lift_fin, mul_fin, mul_fin,
        rnd_fin ((hmul _ (hc _)).trans (by linarith)), rnd_fin ((hmul _ (hs _)).trans (by linarith)), add_fin, add_fin,
        rnd_fin (hsum _ _ hx (hc _)), rnd_fin (hsum _ _ hy (hs _))]

/-! ## Smallest cost -/

theorem minLoop_nan : ∀ (cs : List Flt) (best i : Nat), minLoop best nan i cs = best := by
  intro cs
  induction cs with
  | nil => intro _ _; rfl
  | cons c cs ih => intro best i; rw [minLoop, if_neg (lt_nan c), ih]

theorem minLoop_spec (cost : Nat → Flt) : ∀ (m best i : Nat), best < i → cost best ≠ nan →
    (∀ j < i, ¬ lt (cost j) (cost best)) → (∀ j < best, cost j ≠ nan → lt (cost best) (cost j)) →
    ∃ k < i + m, minLoop best (cost best) i ((List.range' i m).map cost) = k ∧ cost k ≠ nan ∧
      (∀ j < i + m, ¬ lt (cost j) (cost k)) ∧ ∀ j < k, cost j ≠ nan → lt (cost k) (cost j) := by
  intro m
  induction m with
  | zero => intro best i hb hn h1 h2; exact ⟨best, by omega, rfl, hn, h1, h2⟩
  | succ m ih =>
    intro best i hb hn h1 h2
    rw [List.range'_succ, List.map_cons, minLoop]
    split
    · rename_i hlt
      have hin : cost i ≠ nan := fun e => by rw [e] at hlt; exact nan_lt _ hlt
      obtain ⟨k, hk, hk'⟩ := ih i (i + 1) (by omega) hin
        (fun j hj hji => by
          rcases Nat.lt_succ_iff_lt_or_eq.1 hj with hj | rfl
          · exact h1 j hj (lt_trans hji hlt)
          · exact lt_irrefl _ hji)
        (fun j hj hjn => lt_of_lt_not_lt hlt (h1 j hj) hjn)
      rw [show i + 1 + m = i + (m + 1) by omega] at hk hk'
      exact ⟨k, hk, hk'⟩
    · rename_i hlt
      obtain ⟨k, hk, hk'⟩ := ih best (i + 1) (by omega) hn
        (fun j hj => by
          rcases Nat.lt_succ_iff_lt_or_eq.1 hj with hj | rfl
          · exact h1 j hj
          · exact hlt) h2
      rw [show i + 1 + m = i + (m + 1) by omega] at hk hk'
      exact ⟨k, hk, hk'⟩

/-! ## Pieces -/

theorem pieceLoop_pinf (h : IsRounding fl) (s : PathState Flt) (e : Point Flt) : ∀ (fuel : Nat) (j : ℝ), |j| ≤ 2 ^ 55 →
    pieceLoop fl s e pinf fuel (fin j) = .ub "endless loop" := by
  have hd : fl (2 ^ 55 + 1) = 2 ^ 55 := by
    have := h.eq_of_close (2 ^ 55 + 1) (2 ^ 53) 2 (by norm_num) (by norm_num) (by norm_num) (by norm_num [abs_lt])
    rw [this]; norm_num
  have hb : (2 : ℝ) ^ 55 ≤ big := pow_le_pow_right₀ (by norm_num) (by norm_num)
  intro fuel
  induction fuel with
  | zero => intro j _; rw [pieceLoop, if_pos (fin_lt_pinf j)]
  | succ fuel ih =>
    intro j hj
    have hj' := abs_le.1 hj
    have := one_le_big
    rw [pieceLoop, if_pos (fin_lt_pinf j), add_fin, rnd_fin (abs_le.2 ⟨by linarith, by linarith⟩), ih]
    · rfl
    · refine abs_le.2 ⟨h.ge ?_ (by linarith), ?_⟩
      · exact IsDouble.neg ⟨2 ^ 53, 2, by norm_num, by norm_num, by norm_num⟩
      · have := h.mono (show j + 1 ≤ 2 ^ 55 + 1 by linarith)
        rwa [hd] at this

theorem isDouble_four_big : IsDouble (4 * big) := ⟨1, 1002, by norm_num, by norm_num, by
  rw [big, Int.cast_one, one_mul, show (4 : ℝ) = 2 ^ 2 by norm_num, ← pow_add]; exact (zpow_natCast 2 1002).symm⟩

/-- A coordinate of a piece. -/
theorem coord_fin (h : IsRounding fl) {a e t : ℝ} (ha : |a| ≤ big) (he : |e| ≤ 2 * big) (ht : |t| ≤ 1) :
    add fl (fin a) (mul fl (Ieee.Flt.sub fl (fin e) (fin a)) (fin t)) = fin (fl (a + fl (fl (e - a) * t))) := by
  have b0 := big_pos
  have h1 : |e - a| ≤ 4 * big := (abs_sub e a).trans (by linarith)
  have h2 := fl_abs_le h isDouble_four_big h1
  have h3 : |fl (e - a) * t| ≤ 4 * big := by
    rw [abs_mul]
    calc |fl (e - a)| * |t| ≤ 4 * big * 1 := mul_le_mul h2 ht (abs_nonneg _) (by linarith)
      _ = 4 * big := mul_one _
  have h4 := fl_abs_le h isDouble_four_big h3
  rw [sub_fin, rnd_fin h1, mul_fin, rnd_fin h3, add_fin, rnd_fin16 ((abs_add_le _ _).trans (by linarith))]

theorem div_fin {a b : ℝ} (hb : b ≠ 0) (hx : |a / b| ≤ 4 * big) : div fl (fin a) (fin b) = fin (fl (a / b)) := by
  show (if b = 0 then _ else rnd fl (a / b)) = _
  rw [if_neg hb, rnd_fin hx]

/-- A state that is not extremely large. -/
def Fits (s : PathState ℝ) : Prop := |s.point.x| ≤ big ∧ |s.point.y| ≤ big ∧ |s.point.z| ≤ big ∧ |s.len| ≤ big

theorem endPoint_fin (h : IsRounding fl) {cos sin : ℝ → ℝ} (hc : ∀ x, |cos x| ≤ 1) (hs : ∀ x, |sin x| ≤ 1)
    (s : PathState ℝ) (hf : Fits s) :
    endPoint fl cos sin (ofState s) = ⟨fin (Dbl.endPoint fl cos sin s).x, fin (Dbl.endPoint fl cos sin s).y,
      fin (Dbl.endPoint fl cos sin s).z⟩ ∧ |(Dbl.endPoint fl cos sin s).x| ≤ 2 * big ∧
      |(Dbl.endPoint fl cos sin s).y| ≤ 2 * big ∧ (Dbl.endPoint fl cos sin s).z = 0 := by
  have b0 := big_pos
  obtain ⟨bx, bY, bz, bl⟩ := hf
  have hsg : |s.len * (s.dir.sign : ℝ)| ≤ big := by
    rw [abs_mul]
    cases s.dir <;> simpa [PathDir.sign] using bl
  have hl := fl_abs_le h isDouble_big hsg
  have hmul : ∀ c : ℝ, |c| ≤ 1 → |fl (s.len * s.dir.sign) * c| ≤ big := fun c hc => by
    rw [abs_mul]
    calc |fl (s.len * s.dir.sign)| * |c| ≤ big * 1 := mul_le_mul hl hc (abs_nonneg _) b0.le
      _ = big := mul_one _
  have hsum : ∀ a c : ℝ, |a| ≤ big → |c| ≤ 1 → |a + fl (fl (s.len * s.dir.sign) * c)| ≤ 2 * big := fun a c ha hc => by
    have := fl_abs_le h isDouble_big (hmul c hc)
    exact (abs_add_le _ _).trans (by linarith)
  refine ⟨?_, fl_abs_le h isDouble_two_big (hsum _ _ bx (hc _)), fl_abs_le h isDouble_two_big (hsum _ _ bY (hs _)), rfl⟩
  unfold endPoint Dbl.endPoint ofState
  simp only [lift_fin]
  rw [mul_fin, rnd_fin (hsg.trans (by linarith)), mul_fin, mul_fin,
    rnd_fin ((hmul _ (hc _)).trans (by linarith)), rnd_fin ((hmul _ (hs _)).trans (by linarith)), add_fin, add_fin,
    rnd_fin ((hsum _ _ bx (hc _)).trans (by linarith)), rnd_fin ((hsum _ _ bY (hs _)).trans (by linarith))]

theorem pieceLoop_fin (h : IsRounding fl) (s : PathState ℝ) (hf : Fits s) (e : RPoint) (hx : |e.x| ≤ 2 * big)
    (hy : |e.y| ≤ 2 * big) (hz : e.z = 0) {n : ℝ} (hn : 1 ≤ n) (hb : n ≤ big) :
    ∀ (k : Nat) (j : ℝ) (r : Path), 0 ≤ j → Dbl.pieceLoop fl s e n k j = .ok r → ∀ fuel, k ≤ fuel →
      pieceLoop fl (ofState s) ⟨fin e.x, fin e.y, fin e.z⟩ (fin n) fuel (fin j) = .ok (r.map ofState) := by
  have b0 := big_pos
  have hz' : |e.z| ≤ 2 * big := by rw [hz, abs_zero]; linarith
  have d1 : IsDouble 1 := by simpa using isDouble_nat 1 (by norm_num)
  obtain ⟨bx, bY, bz, bl⟩ := hf
  intro k
  induction k with
  | zero =>
    intro j r hj hr fuel _
    rw [Dbl.pieceLoop] at hr
    split at hr
    · cases hr
    · rename_i hlt
      cases hr
      cases fuel <;> simp [pieceLoop, hlt]
  | succ k ih =>
    intro j r hj hr fuel hk
    obtain ⟨fuel, rfl⟩ : ∃ f, fuel = f + 1 := ⟨fuel - 1, by omega⟩
    rw [Dbl.pieceLoop] at hr
    rw [pieceLoop, lt_fin]
    split at hr
    · rename_i hlt
      rw [if_pos hlt]
      cases hrest : Dbl.pieceLoop fl s e n k (fl (j + 1)) with
      | ok rest =>
        rw [hrest] at hr
        cases hr
        have h1 : |j + 1| ≤ 4 * big := by
          rw [abs_of_nonneg (by linarith)]; linarith [one_le_big]
        have t0 : 0 ≤ j / n := by positivity
        have t1 : j / n ≤ 1 := by rw [div_le_one (by linarith)]; exact hlt.le
        have ht : |fl (j / n)| ≤ 1 := fl_abs_le h d1 (by rw [abs_of_nonneg t0]; exact t1)
        have hl : |s.len / n| ≤ 4 * big := by
          rw [abs_div, abs_of_pos (by linarith : 0 < n)]
          exact (div_le_self (abs_nonneg _) hn).trans (by linarith)
        rw [add_fin, rnd_fin h1, ih _ rest (h.ge isDouble_zero (by linarith)) hrest fuel (by omega)]
        have hp : piece fl (ofState s) ⟨fin e.x, fin e.y, fin e.z⟩ (fin n) (fin j) = ofState (Dbl.piece fl s e n j) := by
          unfold piece Dbl.piece
          rw [div_fin (by linarith) (by rw [abs_of_nonneg t0]; linarith [one_le_big])]
          simp only [ofState]
          rw [coord_fin h bx hx ht, coord_fin h bY hy ht, coord_fin h bz hz' ht, div_fin (by linarith) hl]
        rw [hp]
        rfl
      | throw x => rw [hrest] at hr; cases hr
      | ub x => rw [hrest] at hr; cases hr
    · rename_i hlt
      cases hr
      rw [if_neg hlt]
      rfl

end F2C.Ieee
