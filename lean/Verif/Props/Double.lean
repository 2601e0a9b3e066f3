import Verif.Lemmas.Double
import Verif.Props.Angles

/-! # C114, C115: angles and tracks in double precision

`IsRounding fl` says that `fl` rounds to a nearest number of type `double`; ties may go either way. -/

namespace F2C.Props

open Dbl

variable {fl : ℝ → ℝ}

/-! ## C114 -/

/-- **C114**, range and value: `mod_2pi` returns a number of [0, 2π), the constant 2π being the one of the library, and it
differs from the given one by a multiple of that constant, up to 2^-50. -/
theorem C114_mod (h : IsRounding fl) (v : ℝ) :
    (0 ≤ Dbl.mod2pi fl v ∧ Dbl.mod2pi fl v < twoPi) ∧
    ∃ k : ℤ, |Dbl.mod2pi fl v - (v + k * twoPi)| ≤ 1 / 2 ^ 50 := by
  refine ⟨Dbl.mod2pi_range h v, ?_⟩
  obtain ⟨k, hk⟩ := Dbl.mod2pi_congr h v
  refine ⟨k, hk.trans (le_of_eq ?_)⟩
  norm_num

/-- **C114**, direction: for angles up to ten turns the result is the same direction up to 2^-47. -/
theorem C114_direction (h : IsRounding fl) (v : ℝ) (hv : |v| ≤ 64) :
    ∃ k : ℤ, |Dbl.mod2pi fl v - (v + k * (2 * Real.pi))| ≤ 1 / 2 ^ 47 := by
  obtain ⟨hr, k, hk⟩ := C114_mod h v
  have hT := twoPi_bounds
  have hp := Dbl.pi_error
  rw [abs_le] at hv
  have hk' := abs_le.1 hk
  have h50 : (1 : ℝ) / 2 ^ 50 < 1 / 1000 := by norm_num
  have hkb : |(k : ℝ)| ≤ 12 := by
    rw [abs_le]
    constructor
    · by_contra hlt
      have hlt := not_le.1 hlt
      have : (k : ℝ) * twoPi < -12 * twoPi := mul_lt_mul_of_pos_right hlt (by linarith)
      linarith [hk'.2, hr.1]
    · by_contra hlt
      have hlt := not_le.1 hlt
      have : 12 * twoPi < (k : ℝ) * twoPi := mul_lt_mul_of_pos_right hlt (by linarith)
      linarith [hk'.1, hr.2]
  refine ⟨k, ?_⟩
  have e : Dbl.mod2pi fl v - (v + k * (2 * Real.pi)) =
      (Dbl.mod2pi fl v - (v + k * twoPi)) - k * (2 * (Real.pi - Dbl.pi)) := by
    rw [twoPi_eq]; ring
  rw [e]
  refine (abs_sub _ _).trans ?_
  have h1 : |(k : ℝ) * (2 * (Real.pi - Dbl.pi))| ≤ 12 * (2 * (2 : ℝ) ^ (-52 : ℤ)) := by
    rw [abs_mul]
    refine mul_le_mul hkb ?_ (abs_nonneg _) (by norm_num)
    rw [abs_of_pos (by linarith)]
    linarith
  refine (add_le_add hk h1).trans ?_
  norm_num

/-- **C114**, difference: the difference of two angles is in [0, π]. -/
theorem C114_diff_range (h : IsRounding fl) (a b : ℝ) :
    0 ≤ Dbl.angDiffAbs fl a b ∧ Dbl.angDiffAbs fl a b ≤ Dbl.pi := by
  obtain ⟨h0, h1⟩ := Dbl.mod2pi_range h (fl (b - a))
  rw [twoPi_eq] at h1
  have h2 := h.le isDouble_pi (by linarith : Dbl.mod2pi fl (fl (b - a)) - Dbl.pi ≤ Dbl.pi)
  have h3 := h.ge isDouble_pi.neg (by linarith : -Dbl.pi ≤ Dbl.mod2pi fl (fl (b - a)) - Dbl.pi)
  have h4 := abs_le.2 ⟨h3, h2⟩
  exact ⟨h.ge isDouble_zero (by linarith), h.le isDouble_pi (by linarith [abs_nonneg (fl (Dbl.mod2pi fl (fl (b - a)) - Dbl.pi))])⟩

/-- **C114**, difference: it is the angle between the two directions up to 2^-46. -/
theorem C114_diff_error (h : IsRounding fl) (a b : ℝ) (hab : |b - a| ≤ 63) :
    |Dbl.angDiffAbs fl a b - F2C.angDiffAbs a b| ≤ 1 / 2 ^ 46 := by
  have hp := Dbl.pi_error
  have hpb := Dbl.pi_bounds
  -- the rounded difference
  have e1 := h.abs_error (b - a) (-47) (by norm_num) (hab.trans (by norm_num))
  have hd : |fl (b - a)| ≤ 64 := by
    have := abs_sub_le (fl (b - a)) (b - a) 0
    rw [sub_zero, sub_zero, abs_sub_comm] at this
    refine this.trans ((add_le_add e1 hab).trans ?_)
    norm_num
  obtain ⟨k, hk⟩ := C114_direction h (fl (b - a)) hd
  obtain ⟨h0, h1⟩ := Dbl.mod2pi_range h (fl (b - a))
  rw [twoPi_eq] at h1
  have hdir := angDiffAbs_near a b (Dbl.mod2pi fl (fl (b - a))) k h0 (by linarith)
  have hdir2 : |Dbl.mod2pi fl (fl (b - a)) - (b - a + k * (2 * Real.pi))| ≤ 1 / 2 ^ 47 + 1 / 2 ^ 48 := by
    have := abs_sub_le (Dbl.mod2pi fl (fl (b - a))) (fl (b - a) + k * (2 * Real.pi)) (b - a + k * (2 * Real.pi))
    rw [add_sub_add_right_eq_sub, abs_sub_comm (fl (b - a))] at this
    refine this.trans (add_le_add hk (e1.trans ?_))
    norm_num
  unfold Dbl.angDiffAbs
  generalize Dbl.mod2pi fl (fl (b - a)) = m at *
  have hm : |m - Dbl.pi| ≤ Dbl.pi := abs_le.2 ⟨by linarith, by linarith⟩
  have e2 := h.abs_error (m - Dbl.pi) (-51) (by norm_num) (hm.trans (by norm_num [Dbl.pi]))
  have h2 := h.le isDouble_pi (by linarith : m - Dbl.pi ≤ Dbl.pi)
  have h3 := h.ge isDouble_pi.neg (by linarith : -Dbl.pi ≤ m - Dbl.pi)
  have h4 := abs_le.2 ⟨h3, h2⟩
  have e3 := h.abs_error (Dbl.pi - |fl (m - Dbl.pi)|) (-51) (by norm_num) (by
    rw [abs_of_nonneg (by linarith)]
    have := abs_nonneg (fl (m - Dbl.pi))
    refine le_trans (by linarith : _ ≤ Dbl.pi) (by norm_num [Dbl.pi]))
  have e4 := abs_abs_sub_abs_le_abs_sub (fl (m - Dbl.pi)) (m - Real.pi)
  have e5 : |fl (m - Dbl.pi) - (m - Real.pi)| ≤ (2 : ℝ) ^ (-51 : ℤ) / 2 + (2 : ℝ) ^ (-52 : ℤ) := by
    have := abs_sub_le (fl (m - Dbl.pi)) (m - Dbl.pi) (m - Real.pi)
    rw [abs_sub_comm (fl (m - Dbl.pi)) (m - Dbl.pi)] at this
    refine this.trans (add_le_add e2 ?_)
    rw [show m - Dbl.pi - (m - Real.pi) = Real.pi - Dbl.pi by ring, abs_of_pos hp.1]
    exact hp.2.le
  have e6 := e4.trans e5
  have h51 : ((2 : ℝ) ^ (-51 : ℤ)) = 1 / 2 ^ 51 := by norm_num
  have h52 : ((2 : ℝ) ^ (-52 : ℤ)) = 1 / 2 ^ 52 := by norm_num
  rw [h51] at e3 e6
  rw [h52] at e6 hp
  have hdir := hdir.trans hdir2
  rw [abs_le] at e3 e6 hdir ⊢
  norm_num at e3 e6 hdir hp ⊢
  constructor <;> linarith [e3.1, e3.2, e6.1, e6.2, hdir.1, hdir.2, hp.1, hp.2]

/-- **C114**, small angles: an angle of less than 2^-51 becomes 0. -/
theorem C114_small_angles_vanish (h : IsRounding fl) (v : ℝ) (hv : |v| < 1 / 2 ^ 51) : Dbl.mod2pi fl v = 0 := by
  have hT := twoPi_bounds
  have hv' := abs_lt.1 hv
  have h51 : (1 : ℝ) / 2 ^ 51 < 1 := by norm_num
  have e1 : fmod v twoPi = v := fmod_small (by linarith) (by linarith)
  have e2 : fl (v + twoPi) = twoPi := by
    have := h.eq_of_close (v + twoPi) 7074237752028440 (-50) (by norm_num) (by norm_num) (by norm_num) (by
      rw [show v + twoPi - ((7074237752028440 : ℤ) : ℝ) * (2 : ℝ) ^ (-50 : ℤ) = v by
        unfold twoPi; push_cast; ring]
      refine lt_of_lt_of_le hv ?_
      norm_num)
    rw [this]
    norm_num [twoPi]
  unfold Dbl.mod2pi Dbl.mod
  rw [e1, e2, fmod_second (by linarith) le_rfl (by linarith), sub_self]

/-- **C114**, laws: those of C44 and C45 do not hold exactly.  Normalising a normalised angle changes it, and the
difference of two angles depends on their order. -/
theorem C114_laws_fail (h : IsRounding fl) :
    Dbl.mod2pi fl (-(3 + 1 / 2 ^ 51)) = twoPi - (3 + 1 / 2 ^ 51) ∧
    Dbl.mod2pi fl (twoPi - (3 + 1 / 2 ^ 51)) = twoPi - 3 ∧
    Dbl.angDiffAbs fl 0 (3 + 1 / 2 ^ 51) = 3 ∧
    Dbl.angDiffAbs fl (3 + 1 / 2 ^ 51) 0 = 3 + 1 / 2 ^ 51 := by
  have hT := twoPi_bounds
  have hp := Dbl.pi_bounds
  have h51 : (1 : ℝ) / 2 ^ 51 < 1 / 10000 := by norm_num
  have h51' : (0 : ℝ) < 1 / 2 ^ 51 := by norm_num
  have dr : IsDouble (3 + 1 / 2 ^ 51) := ⟨6755399441055745, -51, by norm_num, by norm_num, by norm_num⟩
  have dTr : IsDouble (twoPi - (3 + 1 / 2 ^ 51)) :=
    ⟨7393076063001135, -51, by norm_num, by norm_num, by norm_num [twoPi]⟩
  have m1 : Dbl.mod2pi fl (-(3 + 1 / 2 ^ 51)) = twoPi - (3 + 1 / 2 ^ 51) := by
    unfold Dbl.mod2pi Dbl.mod
    rw [fmod_small (a := -(3 + 1 / 2 ^ 51)) (by linarith) (by linarith), show -(3 + 1 / 2 ^ 51) + twoPi = twoPi - (3 + 1 / 2 ^ 51) by ring,
      h.self dTr, fmod_small (by linarith) (by linarith)]
  have m2 : Dbl.mod2pi fl (twoPi - (3 + 1 / 2 ^ 51)) = twoPi - 3 := by
    unfold Dbl.mod2pi Dbl.mod
    have e : fl (twoPi - (3 + 1 / 2 ^ 51) + twoPi) = 2 * twoPi - 3 := by
      rw [h.eq_of_close _ 5385387891764504 (-49) (by norm_num) (by norm_num) (by norm_num) (by norm_num [twoPi, abs_lt])]
      norm_num [twoPi]
    rw [fmod_small (a := twoPi - (3 + 1 / 2 ^ 51)) (by linarith) (by linarith), e, fmod_second (by linarith) (by linarith) (by linarith)]
    ring
  have m3 : Dbl.mod2pi fl (3 + 1 / 2 ^ 51) = 3 := by
    unfold Dbl.mod2pi Dbl.mod
    have e : fl (3 + 1 / 2 ^ 51 + twoPi) = twoPi + 3 := by
      rw [h.eq_of_close _ 5225968736278156 (-49) (by norm_num) (by norm_num) (by norm_num) (by norm_num [twoPi, abs_lt])]
      norm_num [twoPi]
    rw [fmod_small (a := 3 + 1 / 2 ^ 51) (by linarith) (by linarith), e, fmod_second (by linarith) (by linarith) (by linarith)]
    ring
  refine ⟨m1, m2, ?_, ?_⟩
  · unfold Dbl.angDiffAbs
    have d1 : IsDouble (3 - Dbl.pi) := ⟨-318838310972696, -51, by norm_num, by norm_num, by norm_num [Dbl.pi]⟩
    rw [sub_zero, h.self dr, m3, h.self d1, abs_of_neg (by linarith), show Dbl.pi - -(3 - Dbl.pi) = 3 by ring]
    exact h.self ⟨3, 0, by norm_num, by norm_num, by norm_num⟩
  · unfold Dbl.angDiffAbs
    have d1 : IsDouble (Dbl.pi - (3 + 1 / 2 ^ 51)) :=
      ⟨318838310972695, -51, by norm_num, by norm_num, by norm_num [Dbl.pi]⟩
    rw [zero_sub, h.self dr.neg, m1,
      show twoPi - (3 + 1 / 2 ^ 51) - Dbl.pi = Dbl.pi - (3 + 1 / 2 ^ 51) by rw [twoPi_eq]; ring, h.self d1,
      abs_of_pos (by linarith), sub_sub_cancel]
    exact h.self dr

/-- C114 on rounding to nearest: the angle −1 turned into [0, 2π), and two angles 1/4 apart. -/
example : (0 ≤ Dbl.mod2pi toNearest (-1) ∧ Dbl.mod2pi toNearest (-1) < twoPi) ∧
    (∃ k : ℤ, |Dbl.mod2pi toNearest (-1) - (-1 + k * (2 * Real.pi))| ≤ 1 / 2 ^ 47) ∧
    |Dbl.angDiffAbs toNearest 6 (25 / 4) - F2C.angDiffAbs 6 (25 / 4)| ≤ 1 / 2 ^ 46 ∧
    Dbl.mod2pi toNearest (-(1 / 2 ^ 60)) = 0 :=
  ⟨(C114_mod toNearest_isRounding _).1, C114_direction toNearest_isRounding _ (by norm_num),
    C114_diff_error toNearest_isRounding _ _ (by norm_num [abs_le]),
    C114_small_angles_vanish toNearest_isRounding _ (by rw [abs_neg]; norm_num [abs_lt])⟩

/-! ## C115 -/

/-- **C115**, tracks: for widths and heights of type `double` with at most 2^24 tracks the loop ends; track `i` is where it
should be up to `(i + 1)² / 2^53` widths, and the tracks fill the height up to a sixteenth of a width: there is no room for
another one, and without the last one there would be. -/
theorem C115_tracks (h : IsRounding fl) (overlap : Bool) (H w : ℝ) (dw : IsDouble w) (hw : (2 : ℝ) ^ (-1000 : ℤ) ≤ w)
    (h0 : 0 ≤ H) (h1 : H ≤ (2 ^ 24 - 2) * w) :
    ∃ ys, trackOffsets fl overlap H w = .ok ys ∧
      (∀ (i : Nat) (hi : i < ys.length), |ys[i] - ((i : ℝ) + 1 / 2) * w| ≤ ((i : ℝ) + 1) ^ 2 / 2 ^ 53 * w) ∧
      H ≤ ((ys.length : ℝ) - (if overlap then 1 / 2 else 0) + 1 / 16) * w ∧
      (ys ≠ [] → ((ys.length : ℝ) - 1 - (if overlap then 1 / 2 else 0) - 1 / 16) * w < H) := by
  have hw0 : 0 < w := lt_of_lt_of_le (two_zpow_pos _) hw
  have hq : 0 ≤ H / w := by positivity
  have hq1 : H / w ≤ 2 ^ 24 - 2 := by rw [div_le_iff₀ hw0]; exact h1
  have hfuel : ⌈H / w⌉₊ + 1 ≤ 2 ^ 24 := by
    have : ⌈H / w⌉₊ ≤ 2 ^ 24 - 2 := by
      apply Nat.ceil_le.2
      refine hq1.trans (le_of_eq ?_)
      norm_num
    omega
  have dhalf : IsDouble (-(1 / 2) * w) := by
    have := (half_double dw hw).neg
    rwa [← neg_mul] at this
  have hunfold : trackOffsets fl overlap H w =
      trackLoop fl H w (if overlap then 0 else 1 / 2 * w) (⌈H / w⌉₊ + 1) (-(1 / 2) * w) := by
    unfold trackOffsets
    rw [h.self dhalf, h.self (half_double dw hw)]
  have hfin : H ≤ fl (offset fl w (-(1 / 2) * w) (⌈H / w⌉₊ + 1) + (if overlap then 0 else 1 / 2 * w)) := by
    have hc := abs_le.1 (check_error h w dw hw overlap (⌈H / w⌉₊ + 1) hfuel)
    have hceil := Nat.le_ceil (H / w)
    rw [div_le_iff₀ hw0] at hceil
    push_cast at hc
    have hs : (if overlap then (1 : ℝ) / 2 else 0) ≤ 1 / 2 := by split <;> norm_num
    nlinarith [hc.1]
  obtain ⟨n, hn, e, hstop, hgo⟩ := trackLoop_ok fl H w _ _ _ hfin
  refine ⟨_, hunfold.trans e, ?_, ?_, ?_⟩
  · intro i hi
    have hi' : i < n := by simpa using hi
    have := offset_error h w hw (i + 1) (by omega)
    simp only [List.getElem_map, List.getElem_range]
    push_cast at this
    rw [show (i : ℝ) + 1 / 2 = (i : ℝ) + 1 - 1 / 2 by ring]
    exact this
  · have hc := abs_le.1 (check_error h w dw hw overlap n (by omega))
    simp only [List.length_map, List.length_range]
    linarith [hc.2]
  · intro hne
    simp only [List.length_map, List.length_range]
    have hn0 : n ≠ 0 := by
      rintro rfl
      exact hne rfl
    obtain ⟨k, rfl⟩ := Nat.exists_eq_succ_of_ne_zero hn0
    have hc := abs_le.1 (check_error h w dw hw overlap k (by omega))
    have := hgo k (by omega)
    push_cast
    linarith [hc.1]

/-- **C115**, number of tracks: unless the height is within a sixteenth of a width of a whole number of widths, there are
exactly as many as without rounding. -/
theorem C115_number (h : IsRounding fl) (H w : ℝ) (dw : IsDouble w) (hw : (2 : ℝ) ^ (-1000 : ℤ) ≤ w)
    (h0 : 0 ≤ H) (h1 : H ≤ (2 ^ 24 - 2) * w) (hk : ∀ k : Nat, w / 16 < |H - k * w|) :
    ∃ ys, trackOffsets fl false H w = .ok ys ∧ ys.length = ⌈H / w⌉₊ := by
  have hw0 : 0 < w := lt_of_lt_of_le (two_zpow_pos _) hw
  obtain ⟨ys, e, -, hup, hlow⟩ := C115_tracks h false H w dw hw h0 h1
  refine ⟨ys, e, ?_⟩
  simp only [Bool.false_eq_true, if_false, sub_zero] at hup hlow
  have hpos : ys ≠ [] := by
    rintro rfl
    have := hk 0
    simp only [List.length_nil, Nat.cast_zero, zero_mul, sub_zero, zero_add] at this hup
    rw [abs_of_nonneg h0] at this
    linarith
  have hlow := hlow hpos
  obtain ⟨k, hlen⟩ := Nat.exists_eq_succ_of_ne_zero (fun hl => hpos (List.length_eq_zero_iff.1 hl))
  rw [hlen] at hup hlow ⊢
  push_cast at hup hlow
  symm
  apply (Nat.ceil_eq_iff (Nat.succ_ne_zero k)).2
  rw [Nat.succ_sub_one, lt_div_iff₀ hw0, div_le_iff₀ hw0]
  have hk0 := hk k
  have hk1 := hk (k + 1)
  push_cast at hk1 ⊢
  constructor
  · by_contra hc
    rw [abs_of_nonpos (by linarith)] at hk0
    linarith
  · by_contra hc
    rw [abs_of_nonneg (by linarith)] at hk1
    linarith

/-- **C115**, endless: if the height is more than 2^55 widths, the loop never ends: the step is lost in rounding. -/
theorem C115_endless (h : IsRounding fl) (overlap : Bool) (H w : ℝ) (dw : IsDouble w) (hw : (2 : ℝ) ^ (-1000 : ℤ) ≤ w)
    (hH : 2 ^ 55 * w < H) (fuel : Nat) :
    trackLoop fl H w (if overlap then 0 else fl (1 / 2 * w)) fuel (fl (-(1 / 2) * w)) = .ub "endless loop" := by
  have hw0 : 0 < w := lt_of_lt_of_le (two_zpow_pos _) hw
  obtain ⟨D, hD0, hD, hb⟩ := barrier h w hw
  have dh := half_double dw hw
  refine trackLoop_endless fl H w _ D (hb w le_rfl) (fun y hy => ?_) fuel _ ?_
  · refine lt_of_le_of_lt (hb _ ?_ y hy) (lt_of_le_of_lt hD hH)
    rw [h.self dh]
    split <;> linarith
  · refine (h.le isDouble_zero (by linarith)).trans hD0

/-- The width 1.7 and the height 13.6 as numbers of type `double`; the second is eight times the first. -/
noncomputable def w17 : ℝ := 7656119366529843 * (2 : ℝ) ^ (-52 : ℤ)

/-- **C115**, an extra track: in a field of height 13.6, exactly eight times the width 1.7, the loop places nine tracks, not
eight as without rounding. -/
theorem C115_extra_track (h : IsRounding fl) :
    ∃ ys, trackOffsets fl false (8 * w17) w17 = .ok ys ∧ ys.length = 9 ∧ ⌈8 * w17 / w17⌉₊ = 8 ∧
      8 * w17 < ys.getLast! := by
  have hwpos : 0 < w17 := by norm_num [w17]
  have dw : IsDouble w17 := ⟨7656119366529843, -52, by norm_num, by norm_num, by norm_num [w17]⟩
  have hw : (2 : ℝ) ^ (-1000 : ℤ) ≤ w17 := by
    refine le_trans (zpow_le_zpow_right₀ (by norm_num) (by norm_num : (-1000 : ℤ) ≤ 0)) ?_
    norm_num [w17]
  have hceil : ⌈8 * w17 / w17⌉₊ = 8 := by
    rw [mul_div_assoc, div_self hwpos.ne']; norm_num
  have dh := half_double dw hw
  have dmh : fl (-(1 / 2) * w17) = -(1 / 2) * w17 := by
    have := dh.neg
    rw [← neg_mul] at this
    exact h.self this
  have y1 : fl (-(1 / 2) * w17 + w17) = 7656119366529843 * (2 : ℝ) ^ (-53 : ℤ) := by
    rw [show -(1 / 2) * w17 + w17 = 1 / 2 * w17 by ring, h.self dh]; norm_num [w17]
  have cl : ∀ (x : ℝ) (m e : ℤ), 2 ^ 52 < m → m ≤ 2 ^ 53 → -1074 ≤ e → |x - m * (2 : ℝ) ^ e| < (2 : ℝ) ^ e / 2 →
      fl x = m * (2 : ℝ) ^ e := h.eq_of_close
  have y2 : fl (7656119366529843 * (2 : ℝ) ^ (-53 : ℤ) + w17) = (5742089524897382 : ℤ) * (2 : ℝ) ^ (-51 : ℤ) :=
    cl _ _ _ (by norm_num) (by norm_num) (by norm_num) (by norm_num [w17, abs_lt])
  have y3 : fl ((5742089524897382 : ℤ) * (2 : ℝ) ^ (-51 : ℤ) + w17) = (4785074604081152 : ℤ) * (2 : ℝ) ^ (-50 : ℤ) :=
    cl _ _ _ (by norm_num) (by norm_num) (by norm_num) (by norm_num [w17, abs_lt])
  have y4 : fl ((4785074604081152 : ℤ) * (2 : ℝ) ^ (-50 : ℤ) + w17) = (6699104445713613 : ℤ) * (2 : ℝ) ^ (-50 : ℤ) :=
    cl _ _ _ (by norm_num) (by norm_num) (by norm_num) (by norm_num [w17, abs_lt])
  have y5 : fl ((6699104445713613 : ℤ) * (2 : ℝ) ^ (-50 : ℤ) + w17) = (8613134287346074 : ℤ) * (2 : ℝ) ^ (-50 : ℤ) :=
    cl _ _ _ (by norm_num) (by norm_num) (by norm_num) (by norm_num [w17, abs_lt])
  have y6 : fl ((8613134287346074 : ℤ) * (2 : ℝ) ^ (-50 : ℤ) + w17) = (5263582064489267 : ℤ) * (2 : ℝ) ^ (-49 : ℤ) :=
    cl _ _ _ (by norm_num) (by norm_num) (by norm_num) (by norm_num [w17, abs_lt])
  have y7 : fl ((5263582064489267 : ℤ) * (2 : ℝ) ^ (-49 : ℤ) + w17) = (6220596985305497 : ℤ) * (2 : ℝ) ^ (-49 : ℤ) :=
    cl _ _ _ (by norm_num) (by norm_num) (by norm_num) (by norm_num [w17, abs_lt])
  have y8 : fl ((6220596985305497 : ℤ) * (2 : ℝ) ^ (-49 : ℤ) + w17) = (7177611906121727 : ℤ) * (2 : ℝ) ^ (-49 : ℤ) :=
    cl _ _ _ (by norm_num) (by norm_num) (by norm_num) (by norm_num [w17, abs_lt])
  have y9 : fl ((7177611906121727 : ℤ) * (2 : ℝ) ^ (-49 : ℤ) + w17) = (8134626826937957 : ℤ) * (2 : ℝ) ^ (-49 : ℤ) :=
    cl _ _ _ (by norm_num) (by norm_num) (by norm_num) (by norm_num [w17, abs_lt])
  have z0 : fl (-(1 / 2) * w17 + 1 / 2 * w17) = 0 := by
    rw [show -(1 / 2) * w17 + 1 / 2 * w17 = 0 by ring, h.self isDouble_zero]
  have z1 : fl (7656119366529843 * (2 : ℝ) ^ (-53 : ℤ) + 1 / 2 * w17) = (7656119366529843 : ℤ) * (2 : ℝ) ^ (-52 : ℤ) :=
    cl _ _ _ (by norm_num) (by norm_num) (by norm_num) (by norm_num [w17, abs_lt])
  have z2 : fl ((5742089524897382 : ℤ) * (2 : ℝ) ^ (-51 : ℤ) + 1 / 2 * w17) = (7656119366529843 : ℤ) * (2 : ℝ) ^ (-51 : ℤ) :=
    cl _ _ _ (by norm_num) (by norm_num) (by norm_num) (by norm_num [w17, abs_lt])
  have z3 : fl ((4785074604081152 : ℤ) * (2 : ℝ) ^ (-50 : ℤ) + 1 / 2 * w17) = (5742089524897382 : ℤ) * (2 : ℝ) ^ (-50 : ℤ) :=
    cl _ _ _ (by norm_num) (by norm_num) (by norm_num) (by norm_num [w17, abs_lt])
  have z4 : fl ((6699104445713613 : ℤ) * (2 : ℝ) ^ (-50 : ℤ) + 1 / 2 * w17) = (7656119366529843 : ℤ) * (2 : ℝ) ^ (-50 : ℤ) :=
    cl _ _ _ (by norm_num) (by norm_num) (by norm_num) (by norm_num [w17, abs_lt])
  have z5 : fl ((8613134287346074 : ℤ) * (2 : ℝ) ^ (-50 : ℤ) + 1 / 2 * w17) = (4785074604081152 : ℤ) * (2 : ℝ) ^ (-49 : ℤ) :=
    cl _ _ _ (by norm_num) (by norm_num) (by norm_num) (by norm_num [w17, abs_lt])
  have z6 : fl ((5263582064489267 : ℤ) * (2 : ℝ) ^ (-49 : ℤ) + 1 / 2 * w17) = (5742089524897382 : ℤ) * (2 : ℝ) ^ (-49 : ℤ) :=
    cl _ _ _ (by norm_num) (by norm_num) (by norm_num) (by norm_num [w17, abs_lt])
  have z7 : fl ((6220596985305497 : ℤ) * (2 : ℝ) ^ (-49 : ℤ) + 1 / 2 * w17) = (6699104445713612 : ℤ) * (2 : ℝ) ^ (-49 : ℤ) :=
    cl _ _ _ (by norm_num) (by norm_num) (by norm_num) (by norm_num [w17, abs_lt])
  have z8 : fl ((7177611906121727 : ℤ) * (2 : ℝ) ^ (-49 : ℤ) + 1 / 2 * w17) = (7656119366529842 : ℤ) * (2 : ℝ) ^ (-49 : ℤ) :=
    cl _ _ _ (by norm_num) (by norm_num) (by norm_num) (by norm_num [w17, abs_lt])
  have z9 : fl ((8134626826937957 : ℤ) * (2 : ℝ) ^ (-49 : ℤ) + 1 / 2 * w17) = (8613134287346072 : ℤ) * (2 : ℝ) ^ (-49 : ℤ) :=
    cl _ _ _ (by norm_num) (by norm_num) (by norm_num) (by norm_num [w17, abs_lt])
  refine ⟨[7656119366529843 * (2 : ℝ) ^ (-53 : ℤ), (5742089524897382 : ℤ) * (2 : ℝ) ^ (-51 : ℤ),
    (4785074604081152 : ℤ) * (2 : ℝ) ^ (-50 : ℤ), (6699104445713613 : ℤ) * (2 : ℝ) ^ (-50 : ℤ),
    (8613134287346074 : ℤ) * (2 : ℝ) ^ (-50 : ℤ), (5263582064489267 : ℤ) * (2 : ℝ) ^ (-49 : ℤ),
    (6220596985305497 : ℤ) * (2 : ℝ) ^ (-49 : ℤ), (7177611906121727 : ℤ) * (2 : ℝ) ^ (-49 : ℤ),
    (8134626826937957 : ℤ) * (2 : ℝ) ^ (-49 : ℤ)], ?_, rfl, hceil, ?_⟩
  · unfold trackOffsets
    rw [hceil, dmh, h.self dh]
    simp only [Bool.false_eq_true, if_false]
    rw [trackLoop, if_pos (by rw [z0]; linarith), y1]
    rw [trackLoop, if_pos (by rw [z1]; norm_num [w17]), y2]
    rw [trackLoop, if_pos (by rw [z2]; norm_num [w17]), y3]
    rw [trackLoop, if_pos (by rw [z3]; norm_num [w17]), y4]
    rw [trackLoop, if_pos (by rw [z4]; norm_num [w17]), y5]
    rw [trackLoop, if_pos (by rw [z5]; norm_num [w17]), y6]
    rw [trackLoop, if_pos (by rw [z6]; norm_num [w17]), y7]
    rw [trackLoop, if_pos (by rw [z7]; norm_num [w17]), y8]
    rw [trackLoop, if_pos (by rw [z8]; norm_num [w17]), y9]
    rw [trackLoop, if_neg (by rw [z9]; norm_num [w17])]
    rfl
  · norm_num [w17, List.getLast!]

/-- **C115**, candidate angles: the default step, one degree, gives exactly 360 of them, in spite of rounding; each is the
intended angle up to 2^-49, and less than a turn. -/
theorem C115_candidates (h : IsRounding fl) :
    candidates fl degree = 360 ∧
    ∀ i : Nat, i < 360 → |candidate fl degree i - i * (Real.pi / 180)| ≤ 1 / 2 ^ 49 ∧
      0 ≤ candidate fl degree i ∧ candidate fl degree i < twoPi := by
  constructor
  · unfold candidates
    rw [h.eq_of_close (twoPi / degree) 6333186975989760 (-44) (by norm_num) (by norm_num) (by norm_num)
      (by norm_num [twoPi, degree, abs_lt])]
    norm_num
  · intro i hi
    have hi' : (i : ℝ) ≤ 359 := by exact_mod_cast (by omega : i ≤ 359)
    have hi0 : (0 : ℝ) ≤ i := by positivity
    have hd : (0 : ℝ) < degree := by norm_num [degree]
    have hb : (i : ℝ) * degree ≤ 359 * degree := mul_le_mul_of_nonneg_right hi' hd.le
    have h7 : 359 * degree < 63 / 10 := by norm_num [degree]
    have he := h.abs_error (i * degree) (-50) (by norm_num) (by
      rw [abs_of_nonneg (by positivity)]
      refine hb.trans (h7.le.trans ?_)
      norm_num)
    have hpi := Dbl.pi_error
    have hdeg : |degree - Real.pi / 180| ≤ 1 / 2 ^ 58 := by
      rw [abs_le]
      constructor
      · have : Dbl.pi / 180 ≤ degree + 1 / 2 ^ 59 := by norm_num [Dbl.pi, degree]
        norm_num at hpi this ⊢
        linarith [hpi.2]
      · have : degree ≤ Dbl.pi / 180 + 1 / 2 ^ 58 := by norm_num [Dbl.pi, degree]
        linarith [hpi.1]
    unfold candidate
    refine ⟨?_, h.ge isDouble_zero (by positivity), ?_⟩
    · have := abs_sub_le (fl (i * degree)) (i * degree) (i * (Real.pi / 180))
      rw [abs_sub_comm (fl (i * degree)) (i * degree)] at this
      refine this.trans ?_
      rw [← mul_sub, abs_mul, abs_of_nonneg hi0]
      have h2 : (i : ℝ) * |degree - Real.pi / 180| ≤ 359 * (1 / 2 ^ 58) :=
        mul_le_mul hi' hdeg (abs_nonneg _) (by norm_num)
      refine (add_le_add he h2).trans ?_
      norm_num
    · have h1 := (abs_le.1 he).1
      have h2 : 359 * degree + (2 : ℝ) ^ (-50 : ℤ) / 2 < twoPi := by norm_num [degree, twoPi]
      linarith

/-- **C115**, candidate angles for any step of at most a turn: they go once around, without room for another one, up to
2^-53 of a turn, and there is at least one. -/
theorem C115_around (h : IsRounding fl) (step : ℝ) (h0 : 0 < step) (h1 : step ≤ twoPi) :
    1 ≤ candidates fl step ∧ candidates fl step * step ≤ twoPi * (1 + 1 / 2 ^ 53) ∧
    twoPi * (1 - 1 / 2 ^ 53) < (candidates fl step + 1) * step := by
  have hT := twoPi_bounds
  have hq : 1 ≤ twoPi / step := by rw [le_div_iff₀ h0]; linarith
  have he := h.rel_error (twoPi / step) (by
    rw [abs_of_pos (by linarith)]
    refine le_trans (zpow_le_zpow_right₀ (by norm_num) (by norm_num : (-1022 : ℤ) ≤ 0)) ?_
    simpa using hq)
  rw [abs_of_pos (by linarith : 0 < twoPi / step), abs_le] at he
  have hlo := Int.floor_le (fl (twoPi / step))
  have hhi := Int.lt_floor_add_one (fl (twoPi / step))
  have e : twoPi / step * step = twoPi := div_mul_cancel₀ _ h0.ne'
  unfold candidates
  refine ⟨?_, ?_, ?_⟩
  · refine Int.le_floor.2 ?_
    refine h.ge ⟨1, 0, by norm_num, by norm_num, by norm_num⟩ ?_
    simpa using hq
  · calc (⌊fl (twoPi / step)⌋ : ℝ) * step ≤ (twoPi / step * (1 + 1 / 2 ^ 53)) * step :=
          mul_le_mul_of_nonneg_right (by linarith [he.1]) h0.le
      _ = twoPi * (1 + 1 / 2 ^ 53) := by rw [mul_right_comm, e]
  · calc twoPi * (1 - 1 / 2 ^ 53) = (twoPi / step * (1 - 1 / 2 ^ 53)) * step := by rw [mul_right_comm, e]
      _ < (⌊fl (twoPi / step)⌋ + 1) * step := mul_lt_mul_of_pos_right (by linarith [he.2]) h0

/-- C115 on rounding to nearest: steps of 1 radian. -/
example : candidates toNearest 1 = 6 := by
  have hT := twoPi_bounds
  obtain ⟨-, h1, h2⟩ := C115_around toNearest_isRounding 1 one_pos (by linarith)
  have a : ((candidates toNearest 1 : ℤ) : ℝ) < ((7 : ℤ) : ℝ) := by norm_num at h1 ⊢; linarith
  have b : ((5 : ℤ) : ℝ) < ((candidates toNearest 1 : ℤ) : ℝ) := by norm_num at h2 ⊢; linarith
  have := Int.cast_lt.1 a
  have := Int.cast_lt.1 b
  omega

/-- C115 on rounding to nearest: three tracks of width 1 in a field of height 5/2. -/
example : ∃ ys, trackOffsets toNearest false (5 / 2) 1 = .ok ys ∧ ys.length = 3 := by
  have h2 : (2 : ℝ) ^ (-1000 : ℤ) ≤ 1 :=
    (zpow_le_zpow_right₀ (by norm_num) (by norm_num : (-1000 : ℤ) ≤ 0)).trans (by norm_num)
  obtain ⟨ys, e, hl⟩ := C115_number toNearest_isRounding (5 / 2) 1 ⟨1, 0, by norm_num, by norm_num, by norm_num⟩ h2
    (by norm_num) (by norm_num) (by
      intro k
      rcases Nat.lt_or_ge k 3 with hk | hk
      · have : (k : ℝ) ≤ 2 := by exact_mod_cast Nat.le_of_lt_succ hk
        rw [abs_of_pos (by linarith)]
        linarith
      · have : (3 : ℝ) ≤ k := by exact_mod_cast hk
        rw [abs_of_neg (by linarith)]
        linarith)
  refine ⟨ys, e, hl.trans ?_⟩
  rw [Nat.ceil_eq_iff (by norm_num)]
  norm_num

/-- C115 on rounding to nearest: tracks that may overlap, an endless loop, the extra track and the candidate angles. -/
example : (∃ ys, trackOffsets toNearest true 100 1 = .ok ys ∧ 100 ≤ (ys.length : ℝ)) ∧
    trackLoop toNearest (2 ^ 56) 1 0 1000 (toNearest (-(1 / 2) * 1)) = .ub "endless loop" ∧
    (∃ ys, trackOffsets toNearest false (8 * w17) w17 = .ok ys ∧ ys.length = 9) ∧
    candidates toNearest degree = 360 := by
  have h2 : (2 : ℝ) ^ (-1000 : ℤ) ≤ 1 :=
    (zpow_le_zpow_right₀ (by norm_num) (by norm_num : (-1000 : ℤ) ≤ 0)).trans (by norm_num)
  have d1 : IsDouble 1 := ⟨1, 0, by norm_num, by norm_num, by norm_num⟩
  refine ⟨?_, C115_endless toNearest_isRounding true _ 1 d1 h2 (by norm_num) 1000, ?_, (C115_candidates toNearest_isRounding).1⟩
  · obtain ⟨ys, e, -, hup, -⟩ := C115_tracks toNearest_isRounding true 100 1 d1 h2 (by norm_num) (by norm_num)
    refine ⟨ys, e, ?_⟩
    simp only [if_true] at hup
    linarith
  · obtain ⟨ys, e, hl, -⟩ := C115_extra_track toNearest_isRounding
    exact ⟨ys, e, hl⟩

end F2C.Props
