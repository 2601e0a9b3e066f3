import Verif.Lemmas.DoubleObjective
import Verif.Lemmas.Ieee
import Verif.Props.DoubleTurning
import Verif.Props.Convex
import Verif.Props.Ieee

/-! # C141: the estimated number of turns in double precision, and the search for its minimum -/

namespace F2C.Props

open Dbl TurningSpec DoubleTracksSpec SG Obj Convex F2C.Convex Ieee Ieee.Flt

variable {fl cos sin : ℝ → ℝ} {atan2 : ℝ → ℝ → ℝ}

namespace DoubleObjectiveSpec

/-- A cell of at most 2^50 points with rings that are not empty, whose coordinates are doubles of at most `M`. -/
structure Field (M : ℝ) (cell : Cell ℝ) : Prop where
  one : 1 ≤ M
  le : M ≤ 2 ^ 400
  rings : ∀ r ∈ cell, r ≠ []
  size : cell.flatten.length ≤ 2 ^ 50
  points : ∀ p ∈ cell.flatten, DoublePoint M p

/-- A positive width of type `double`, not larger than the bound for the coordinates. -/
structure GoodWidth (M w : ℝ) : Prop where
  double : IsDouble w
  pos : 0 < w
  le : w ≤ M

/-- What the code is to compute (C27): the length of the border across the direction, plus one more term for every ring, over
twice the width. -/
noncomputable def estimate (ang w : ℝ) (cell : Cell ℝ) : ℝ :=
  (cell.map fun r => projectedLength ang r +
    |across ang (r.getD 0 Point.zero) - across ang (r.getD ((2 ^ 64 - 1) % r.length) Point.zero)|).sum / (2 * w)

/-- What rounding may do to the estimate. -/
noncomputable def costErr (M w : ℝ) (cell : Cell ℝ) : ℝ :=
  cell.flatten.length * (cell.flatten.length + 512) * M / (2 ^ 50 * w)

end DoubleObjectiveSpec

open DoubleObjectiveSpec

private theorem sin_of_library (h : Library cos sin) : ∀ a, IsDouble a → |sin a - Real.sin a| ≤ 2 * u53 := by
  have e : (1 : ℝ) / 2 ^ 52 = 2 * u53 := by norm_num [u53]
  intro a ha
  rw [← e]
  exact (h a ha).2

/-- C141, value: the cost computed with doubles is the estimate up to rounding. -/
theorem C141_value (h : IsRounding fl) (hl : Library cos sin) (ha : IsAtan2 atan2) {M w ang : ℝ} (cell : Cell ℝ) (hf : Field M cell)
    (hw : GoodWidth M w) (hang : |ang| ≤ 50) :
    |Dbl.nSwathModified fl sin atan2 ang w cell - estimate ang w cell| ≤ costErr M w cell := by
  have e : estimate ang w cell = Obj.nSwathModified ang w cell :=
    (C27_exact_value ang w cell hw.pos hf.rings fun r hr => by
      have : r.length ≤ cell.flatten.length := by
        rw [List.length_flatten]
        exact List.le_sum_of_mem (List.mem_map.2 ⟨r, hr, rfl⟩)
      have := hf.size
      omega).symm
  rw [e]
  exact cost_near h (sin_of_library hl) ha hf.one hf.le hf.size hf.points hang hw.double hw.pos hw.le

/-- C141, cells without points and widths that are not positive cost nothing. -/
theorem C141_nothing (w ang : ℝ) (cell : Cell ℝ) (hc : cell.flatten = [] ∨ w ≤ 0) :
    Dbl.nSwathModified fl sin atan2 ang w cell = 0 := by
  unfold Dbl.nSwathModified
  rw [if_pos hc]

private theorem candidate_bound (h : IsRounding fl) {step : ℝ} (hs : 0 < step) {n : ℤ} (h1 : 1 ≤ n)
    (hn : Flt.toInt (Flt.div fl (fin twoPi) (fin step)) = .ok n) {k : Nat} (hk : (k : ℤ) < n) :
    Flt.mul fl (fin k) (fin step) = fin (fl (k * step)) ∧ |fl (k * step)| ≤ 50 := by
  have t := twoPi_bounds
  have f : Flt.div fl (fin twoPi) (fin step) = rnd fl (twoPi / step) := by
    simp only [Flt.div, if_neg hs.ne']
  rw [f] at hn
  have e : rnd fl (twoPi / step) = fin (fl (twoPi / step)) := by
    unfold rnd at hn ⊢
    split_ifs at hn ⊢ with c1 c2
    · simp [Flt.toInt] at hn
    · simp [Flt.toInt] at hn
    · rfl
  rw [e] at hn
  have x0 : 0 < twoPi / step := div_pos (by linarith) hs
  have r0 := h.ge isDouble_zero x0.le
  simp only [Flt.toInt, if_pos r0] at hn
  split_ifs at hn
  injection hn with hn
  have fl1 := Int.floor_le (fl (twoPi / step))
  rw [hn] at fl1
  have n1 : (1 : ℝ) ≤ n := by exact_mod_cast h1
  have x1 : 1 / 2 ≤ twoPi / step := by
    by_contra hc
    push Not at hc
    have := h.le (⟨1, -1, by norm_num, by norm_num, by norm_num⟩ : IsDouble (1 / 2)) hc.le
    linarith
  have er := h.rel_error (twoPi / step) (by
    rw [abs_of_pos x0]
    refine le_trans ?_ x1
    have : (1 : ℝ) / 2 = 2 ^ (-1 : ℤ) := by norm_num
    rw [this]
    exact zpow_le_zpow_right₀ (by norm_num) (by norm_num))
  rw [abs_of_pos x0, abs_sub_comm] at er
  have x2 : (n : ℝ) ≤ 2 * (twoPi / step) := by
    have := (abs_le.1 er).2
    have : twoPi / step / 2 ^ 53 ≤ twoPi / step := div_le_self x0.le (by norm_num)
    linarith
  have kn : (k : ℝ) ≤ n := by
    have : (k : ℤ) ≤ n := hk.le
    exact_mod_cast this
  have ks : (k : ℝ) * step ≤ 16 := by
    have : (k : ℝ) * step ≤ 2 * (twoPi / step) * step := mul_le_mul_of_nonneg_right (kn.trans x2) hs.le
    rw [mul_assoc, div_mul_cancel₀ _ hs.ne'] at this
    linarith
  have k0 : 0 ≤ (k : ℝ) * step := by positivity
  obtain ⟨r1, r2⟩ := rnd_pow h 4 (by norm_num) (x := k * step) (by rw [abs_of_nonneg k0]; norm_num; exact ks)
  refine ⟨?_, r2.trans (by norm_num)⟩
  simp only [Flt.mul]
  exact r1

/-- C141, search: the candidate chosen by the costs computed with doubles is the best one up to rounding. -/
theorem C141_best (h : IsRounding fl) (hl : Library cos sin) (ha : IsAtan2 atan2) {M w step : ℝ} (cell : Cell ℝ) (hf : Field M cell)
    (hw : GoodWidth M w) (hs : 0 < step) (n : ℤ) (hn : Flt.toInt (Flt.div fl (fin twoPi) (fin step)) = .ok n) (h1 : 1 ≤ n) :
    ∃ k : Nat, (k : ℤ) < n ∧
      bestAngle fl (fin step) (fun i => fin (Dbl.nSwathModified fl sin atan2 (fl (i * step)) w cell)) = .ok (fin (fl (k * step))) ∧
      ∀ j : Nat, (j : ℤ) < n → estimate (fl (k * step)) w cell ≤ estimate (fl (j * step)) w cell + 2 * costErr M w cell := by
  obtain ⟨k, hk, e, -, hbest, -⟩ := C129_best_partial fl (fin step)
    (fun i => fin (Dbl.nSwathModified fl sin atan2 (fl (i * step)) w cell)) n hn h1 (by simp)
  obtain ⟨m1, b1⟩ := candidate_bound h hs h1 hn hk
  refine ⟨k, hk, by rw [e, m1], fun j hj => ?_⟩
  have := hbest j hj
  simp only [Flt.lt, not_lt] at this
  have v1 := (abs_le.1 (C141_value h hl ha cell hf hw b1)).1
  have v2 := (abs_le.1 (C141_value h hl ha cell hf hw (candidate_bound h hs h1 hn hj).2)).2
  linarith

/-- C141, convex fields with three or four corners, or another number for which the estimate is exact (C113): at the angle chosen
the field is as narrow as at any candidate, up to rounding. -/
theorem C141_convex (h : IsRounding fl) (hl : Library cos sin) (ha : IsAtan2 atan2) {M w step : ℝ} (c : List RPoint)
    (hc : StrictlyConvex c) (hdiv : c.length + 1 ∣ 2 ^ 64 ∨ c.length + 1 ∣ 2 ^ 64 - 1) (hf : Field M [closeUp c])
    (hw : GoodWidth M w) (hs : 0 < step) (n : ℤ) (hn : Flt.toInt (Flt.div fl (fin twoPi) (fin step)) = .ok n) (h1 : 1 ≤ n) :
    ∃ k : Nat, (k : ℤ) < n ∧
      bestAngle fl (fin step) (fun i => fin (Dbl.nSwathModified fl sin atan2 (fl (i * step)) w [closeUp c])) =
        .ok (fin (fl (k * step))) ∧
      ∀ (j : Nat) (e e' : ℝ), (j : ℤ) < n → IsExtent c (fl (k * step)) e → IsExtent c (fl (j * step)) e' →
        e / w ≤ e' / w + 2 * costErr M w [closeUp c] := by
  obtain ⟨k, hk, hb, hbest⟩ := C141_best (cos := cos) h hl ha [closeUp c] hf hw hs n hn h1
  refine ⟨k, hk, hb, fun j e e' hj he he' => ?_⟩
  have := hbest j hj
  have sz : c.length < 2 ^ 64 := by
    rcases hdiv with hd | hd
    · exact Nat.lt_of_lt_of_le (Nat.lt_succ_self _) (Nat.le_of_dvd (by norm_num) hd)
    · exact Nat.lt_of_lt_of_le (Nat.lt_succ_self _) ((Nat.le_of_dvd (by norm_num) hd).trans (by norm_num))
  have ex : ∀ ang, estimate ang w [closeUp c] = Obj.nSwathModified ang w [closeUp c] := fun ang =>
    (C27_exact_value ang w [closeUp c] hw.pos hf.rings fun r hr => by
      have : r.length ≤ [closeUp c].flatten.length := by
        rw [List.length_flatten]
        exact List.le_sum_of_mem (List.mem_map.2 ⟨r, hr, rfl⟩)
      have := hf.size
      omega).symm
  rw [ex, ex, (C113_value c hc _ w e hw.pos he sz).2.2 hdiv, (C113_value c hc _ w e' hw.pos he' sz).2.2 hdiv] at this
  exact this

/-! ## examples -/

private theorem exact_lib : Library Real.cos Real.sin := fun a _ => by simp

private theorem exact_atan2 : IsAtan2 F2C.atan2 := by
  constructor
  · intro y x
    have := Complex.abs_arg_le_pi ⟨x, y⟩
    have := Real.pi_le_four
    unfold F2C.atan2
    linarith
  · intro y x _ _
    refine ⟨0, ?_⟩
    simp [F2C.atan2, u53_pos.le]

private theorem triangle_field : Field 4 [closeUp triangle] := by
  refine ⟨by norm_num, (by norm_num : (4 : ℝ) ≤ 2 ^ 2).trans (pow_le_pow_right₀ (by norm_num) (by norm_num)), ?_, ?_, ?_⟩
  · simp [closeUp, triangle]
  · simp [closeUp, triangle]
  · have d3 : IsDouble 3 := ⟨3, 0, by norm_num, by norm_num, by norm_num⟩
    have d4 : IsDouble 4 := ⟨4, 0, by norm_num, by norm_num, by norm_num⟩
    intro p hp
    simp only [closeUp, triangle, List.flatten_cons, List.flatten_nil, List.append_nil, List.cons_append, List.nil_append,
      List.mem_cons, List.not_mem_nil, or_false] at hp
    rcases hp with rfl | rfl | rfl | rfl <;> refine ⟨?_, ?_, ?_, ?_⟩ <;>
      first | exact isDouble_zero | exact d3 | exact d4 | norm_num

private theorem half_width : GoodWidth 4 (1 / 2) :=
  ⟨⟨1, -1, by norm_num, by norm_num, by norm_num⟩, by norm_num, by norm_num⟩

private theorem four_steps : Flt.toInt (Flt.div toNearest (fin twoPi) (fin (twoPi / 4))) = .ok 4 := by
  have t := twoPi_bounds
  have t0 : twoPi ≠ 0 := by linarith
  have e : twoPi / (twoPi / 4) = 4 := by field_simp
  have r := rnd_pow (fl := toNearest) toNearest_isRounding (x := 4) 2 (by norm_num) (by norm_num)
  have s : toNearest 4 = 4 := toNearest_isRounding.self ⟨4, 0, by norm_num, by norm_num, by norm_num⟩
  simp only [Flt.div]
  rw [if_neg (by linarith), e, r.1, s]
  simp only [Flt.toInt]
  norm_num

/-- Over the triangle with sides 3 and 4, with steps of a quarter turn: the rounding costs less than 10^-10 turns. -/
example : ∃ k : Nat, k < 4 ∧
    bestAngle toNearest (fin (twoPi / 4)) (fun i => fin (Dbl.nSwathModified toNearest Real.sin F2C.atan2 (toNearest (i * (twoPi / 4))) (1 / 2)
      [closeUp triangle])) = .ok (fin (toNearest (k * (twoPi / 4)))) := by
  have t := twoPi_bounds
  obtain ⟨k, hk, e, -⟩ := C141_convex toNearest_isRounding exact_lib exact_atan2 triangle triangle_convex (Or.inl (by norm_num [triangle]))
    triangle_field half_width (step := twoPi / 4) (by linarith) 4 four_steps (by norm_num)
  exact ⟨k, by exact_mod_cast hk, e⟩

example : costErr 4 (1 / 2) [closeUp triangle] ≤ 1 / 10 ^ 10 := by
  norm_num [costErr, closeUp, triangle]

example : |Dbl.nSwathModified toNearest Real.sin F2C.atan2 0 (1 / 2) [closeUp triangle] - 6| ≤ 1 / 10 ^ 10 := by
  have v := C141_value toNearest_isRounding exact_lib exact_atan2 [closeUp triangle] triangle_field half_width (ang := 0) (by norm_num)
  have e : estimate 0 (1 / 2) [closeUp triangle] = 6 := by
    norm_num [estimate, closeUp, triangle, projectedLength, across]
  rw [e] at v
  refine v.trans ?_
  norm_num [costErr, closeUp, triangle]

end F2C.Props
