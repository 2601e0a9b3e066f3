import Verif.Lemmas.DoubleSteps

/-! # C124: cutting swath sections in double precision

`IsRounding fl` is rounding to a nearest number of type `double`; of `cos` and `sin` only `|cos| ≤ 1` and `|sin| ≤ 1` is
assumed. -/

namespace F2C.Props

open Dbl

namespace StepsSpec

/-- `u` is the unit of rounding, `2^-53`. -/
noncomputable def u : ℝ := 1 / 2 ^ 53

/-- The smallest positive number of type `double`. -/
noncomputable def tiny : ℝ := (2 : ℝ) ^ (-1074 : ℤ)

/-- The pieces `g` of section `s`: their number is the length over the step, rounded and at least 1; they differ from the
section in start and length only; the lengths are equal shares; piece `j` starts at share `j` of the straight line, its
height falling to 0, up to the errors of a few operations. -/
structure CutNear (cos sin : ℝ → ℝ) (step : ℝ) (s : PathState ℝ) (g : List (PathState ℝ)) : Prop where
  nonempty : 1 ≤ g.length
  number : |(g.length : ℝ) - max |s.len / step| 1| ≤ 1 / 2 + |s.len / step| * u + tiny
  same : ∀ t ∈ g, t.angle = s.angle ∧ t.dir = s.dir ∧ t.type = s.type ∧ t.velocity = s.velocity
  share : ∀ t ∈ g, |t.len - s.len / g.length| ≤ |s.len / g.length| * u + tiny
  first : g.head?.map (·.point) = some s.point
  placeX : ∀ (j : Nat) (t : PathState ℝ), g[j]? = some t →
    |t.point.x - (s.point.x + j / g.length * (s.len * s.dir.sign * cos s.angle))| ≤
      (3 * |s.point.x| + 9 * |s.len|) * u + 2 * tiny
  placeY : ∀ (j : Nat) (t : PathState ℝ), g[j]? = some t →
    |t.point.y - (s.point.y + j / g.length * (s.len * s.dir.sign * sin s.angle))| ≤
      (3 * |s.point.y| + 9 * |s.len|) * u + 2 * tiny
  placeZ : ∀ (j : Nat) (t : PathState ℝ), g[j]? = some t →
    |t.point.z - (1 - j / g.length) * s.point.z| ≤ 12 * |s.point.z| * u + 2 * tiny

end StepsSpec

open StepsSpec

variable {fl : ℝ → ℝ}

private theorem tiny_half : (2 : ℝ) ^ (-1075 : ℤ) = tiny / 2 := by
  unfold tiny
  rw [show (-1074 : ℤ) = -1075 + 1 by norm_num, zpow_add₀ two_ne_zero]
  norm_num

private theorem err (h : IsRounding fl) (x : ℝ) : |x - fl x| ≤ u * |x| + tiny / 2 := by
  have := h.error x
  rw [tiny_half] at this
  refine this.trans (le_of_eq ?_)
  unfold u
  ring

private theorem err_sum (h : IsRounding fl) {a b : ℝ} (ha : IsDouble a) (hb : IsDouble b) :
    |(a + b) - fl (a + b)| ≤ u * |a + b| := by
  refine (h.sum_error ha hb).trans (le_of_eq ?_)
  unfold u
  ring

private theorem u_small : 0 ≤ u ∧ u ≤ 1 / 1000 := by unfold u; constructor <;> norm_num

private theorem tiny_pos : 0 < tiny := two_zpow_pos _

private theorem coord (h : IsRounding fl) {x L c : ℝ} (hx : IsDouble x) (hc : |c| ≤ 1) (j n : Nat)
    (hj : j ≤ n) (hn : 1 ≤ n) (hb : n ≤ 2 ^ 53) :
    |fl (x + fl (fl (fl (x + fl (L * c)) - x) * fl ((j : ℝ) / n))) - (x + j / n * (L * c))| ≤
      (3 * |x| + 9 * |L|) * u + 2 * tiny := by
  obtain ⟨t0, t1, ht⟩ := frac_error h j n hj hn hb
  have hA : |L * c| ≤ |L| := by
    rw [abs_mul]
    nlinarith [abs_nonneg L]
  have hw : |L * c - fl (L * c)| ≤ u * |L| + tiny / 2 :=
    (err h _).trans (by linarith [mul_le_mul_of_nonneg_left hA u_small.1])
  have := coord_bound (x := x) u_small.1 u_small.2 (half_pos tiny_pos).le hA t0 t1 ht hw
    (err_sum h hx (h.double _))
    (by
      have := err_sum h (h.double (x + fl (L * c))) hx.neg
      rwa [← sub_eq_add_neg] at this)
    (err h _) (err_sum h hx (h.double _))
  linarith

private theorem height (h : IsRounding fl) {z : ℝ} (hz : IsDouble z) (j n : Nat)
    (hj : j ≤ n) (hn : 1 ≤ n) (hb : n ≤ 2 ^ 53) :
    |fl (z + fl (fl (0 - z) * fl ((j : ℝ) / n))) - (1 - j / n) * z| ≤ 12 * |z| * u + 2 * tiny := by
  obtain ⟨t0, t1, ht⟩ := frac_error h j n hj hn hb
  have u0 := u_small.1
  have tp := tiny_pos
  have e0 : fl (0 - z) = 0 - z := by
    rw [zero_sub]
    exact h.self hz.neg
  rw [e0]
  have := coord_bound (x := z) (a := -z) (A := |z|) (w := -z) (e := 0) (v := 0 - z) u0 u_small.2 (half_pos tp).le
    (by rw [abs_neg]) t0 t1 ht (by rw [sub_self, abs_zero]; positivity)
    (by rw [add_neg_cancel, sub_self, abs_zero, mul_zero]) (by rw [sub_self, abs_zero]; positivity)
    (err h _) (err_sum h hz (h.double _))
  rw [show (1 - (j : ℝ) / n) * z = z + j / n * -z by ring]
  linarith

/-- **C124**, one section. -/
theorem C124_section (h : IsRounding fl) (cos sin : ℝ → ℝ) (hc : ∀ a, |cos a| ≤ 1) (hs : ∀ a, |sin a| ≤ 1) (step : ℝ)
    (hstep : step ≠ 0) (s : PathState ℝ) (hl : IsDouble s.len)
    (hp : IsDouble s.point.x ∧ IsDouble s.point.y ∧ IsDouble s.point.z) (hfew : |s.len / step| ≤ 2 ^ 52) :
    ∃ g, splitState fl cos sin step s = .ok g ∧ CutNear cos sin step s g := by
  set n := max 1 (cround |fl (s.len / step)|).toNat with hn
  have hu := u_small
  have tp := tiny_pos
  have eN := nSteps_nat fl step s
  rw [← hn] at eN
  have n1 : 1 ≤ n := le_max_left _ _
  have ef : |s.len / step - fl (s.len / step)| ≤ u * |s.len / step| + tiny / 2 := err h _
  have ef' : |(|fl (s.len / step)| - |s.len / step|)| ≤ u * |s.len / step| + tiny / 2 := by
    refine (abs_abs_sub_abs_le _ _).trans ?_
    rw [abs_sub_comm]
    exact ef
  have hnum : |(n : ℝ) - max |s.len / step| 1| ≤ 1 / 2 + |s.len / step| * u + tiny := by
    rw [← eN, nSteps, max_comm]
    refine (abs_max_sub_max_le_abs _ _ _).trans ?_
    have h1 := abs_le.1 (cround_dist |fl (s.len / step)|)
    have h2 := abs_le.1 ef'
    rw [abs_le]
    constructor <;> linarith
  have hle : |fl (s.len / step)| ≤ 2 ^ 52 := by
    have d : IsDouble (2 ^ 52 : ℝ) := ⟨2 ^ 52, 0, by norm_num, by norm_num, by norm_num⟩
    have := abs_le.1 hfew
    rw [abs_le]
    exact ⟨h.ge d.neg this.1, h.le d this.2⟩
  have nb : n ≤ 2 ^ 53 := by
    have h1 := (abs_le.1 (cround_dist |fl (s.len / step)|)).2
    have h2 : ((cround |fl (s.len / step)| : ℤ) : ℝ) < ((2 ^ 53 : ℤ) : ℝ) := by
      push_cast
      linarith
    have h3 := Int.cast_lt.1 h2
    omega
  have hloop : splitState fl cos sin step s =
      .ok ((List.range n).map fun i : Nat => piece fl s (endPoint fl cos sin s) n i) := by
    rw [splitState, if_neg (fun hh => hstep hh.1), eN, Nat.ceil_natCast]
    have := pieceLoop_ok h s (endPoint fl cos sin s) n nb n 0 (by omega)
    rw [Nat.cast_zero] at this
    rw [this]
    simp only [zero_add]
  refine ⟨_, hloop, ?_⟩
  have esign : fl (s.len * s.dir.sign) = s.len * s.dir.sign := by
    refine h.self ?_
    cases s.dir
    · simpa [PathDir.sign] using hl
    · simpa [PathDir.sign] using hl.neg
  have asign : |s.len * (s.dir.sign : ℝ)| = |s.len| := by
    cases s.dir <;> simp [PathDir.sign]
  have get : ∀ (j : Nat) (t : PathState ℝ),
      ((List.range n).map fun i : Nat => piece fl s (endPoint fl cos sin s) n i)[j]? = some t →
      j < n ∧ t = piece fl s (endPoint fl cos sin s) n j := by
    intro j t ht
    rw [List.getElem?_map] at ht
    by_cases hj : j < n
    · rw [List.getElem?_range hj] at ht
      exact ⟨hj, (Option.some.inj ht).symm⟩
    · rw [List.getElem?_eq_none (by simpa using hj)] at ht
      cases ht
  constructor
  · simpa using n1
  · simpa using hnum
  · intro t ht
    obtain ⟨i, -, rfl⟩ := List.mem_map.1 ht
    exact ⟨rfl, rfl, rfl, rfl⟩
  · intro t ht
    obtain ⟨i, -, rfl⟩ := List.mem_map.1 ht
    simp only [List.length_map, List.length_range, piece]
    rw [abs_sub_comm]
    linarith [err h (s.len / n)]
  · obtain ⟨k, hk⟩ : ∃ k, n = k + 1 := ⟨n - 1, by omega⟩
    have z : fl 0 = 0 := h.self isDouble_zero
    rw [hk, List.range_succ_eq_map, List.map_cons, List.head?_cons, Option.map_some]
    simp only [piece, Nat.cast_zero, zero_div, z, mul_zero, add_zero, h.self hp.1, h.self hp.2.1, h.self hp.2.2]
  · intro j t ht
    obtain ⟨hj, rfl⟩ := get j t ht
    simp only [List.length_map, List.length_range, piece, endPoint, esign]
    have := coord h (L := s.len * s.dir.sign) hp.1 (hc s.angle) j n hj.le n1 nb
    rwa [asign] at this
  · intro j t ht
    obtain ⟨hj, rfl⟩ := get j t ht
    simp only [List.length_map, List.length_range, piece, endPoint, esign]
    have := coord h (L := s.len * s.dir.sign) hp.2.1 (hs s.angle) j n hj.le n1 nb
    rwa [asign] at this
  · intro j t ht
    obtain ⟨hj, rfl⟩ := get j t ht
    simp only [List.length_map, List.length_range, piece, endPoint]
    exact height h hp.2.2 j n hj.le n1 nb

/-- **C124**: swath sections are cut, the rest stays as it is. -/
theorem C124_discretize (h : IsRounding fl) (cos sin : ℝ → ℝ) (hc : ∀ a, |cos a| ≤ 1) (hs : ∀ a, |sin a| ≤ 1) (step : ℝ)
    (hstep : step ≠ 0) (p : Path) (hp : ∀ s ∈ p, s.type = .swath → IsDouble s.len ∧
      (IsDouble s.point.x ∧ IsDouble s.point.y ∧ IsDouble s.point.z) ∧ |s.len / step| ≤ 2 ^ 52) :
    ∃ groups : List Path, Dbl.discretizeSwath fl cos sin step p = .ok groups.flatten ∧
      List.Forall₂ (fun s g => if s.type = .swath then CutNear cos sin step s g else g = [s]) p groups := by
  induction p with
  | nil => exact ⟨[], rfl, .nil⟩
  | cons s p ih =>
    obtain ⟨groups, h1, h2⟩ := ih fun t ht => hp t (List.mem_cons_of_mem _ ht)
    by_cases hsw : s.type = .swath
    · obtain ⟨a, b, c⟩ := hp s List.mem_cons_self hsw
      obtain ⟨g, h3, h4⟩ := C124_section h cos sin hc hs step hstep s a b c
      refine ⟨g :: groups, ?_, .cons (by rwa [if_pos hsw]) h2⟩
      rw [Dbl.discretizeSwath, if_pos hsw, h3, Outcome.ok_bind, h1]
      rfl
    · refine ⟨[s] :: groups, ?_, .cons (by rw [if_neg hsw]) h2⟩
      rw [Dbl.discretizeSwath, if_neg hsw, Outcome.ok_bind, h1]
      rfl

private theorem share_mul {cos sin : ℝ → ℝ} {step : ℝ} {s : PathState ℝ} {g : List (PathState ℝ)}
    (H : CutNear cos sin step s g) {t : PathState ℝ} (ht : t ∈ g) (c : ℝ) (hc : |c| ≤ 1) :
    |t.len * t.dir.sign * c - 1 / g.length * (s.len * s.dir.sign * c)| ≤ |s.len| * u + tiny := by
  have h1 := H.share t ht
  rw [(H.same t ht).2.1]
  have hn : (1 : ℝ) ≤ g.length := by exact_mod_cast H.nonempty
  have hd : |s.len / g.length| ≤ |s.len| := by
    rw [abs_div, abs_of_nonneg (by linarith : (0 : ℝ) ≤ g.length)]
    exact div_le_self (abs_nonneg _) hn
  have e : t.len * s.dir.sign * c - 1 / g.length * (s.len * s.dir.sign * c) =
      (t.len - s.len / g.length) * (s.dir.sign * c) := by ring
  have hsc : |(s.dir.sign : ℝ) * c| ≤ 1 := by
    cases s.dir <;> simpa [PathDir.sign] using hc
  rw [e, abs_mul]
  have h2 : |t.len - s.len / g.length| * |(s.dir.sign : ℝ) * c| ≤ |t.len - s.len / g.length| :=
    mul_le_of_le_one_right (abs_nonneg _) hsc
  have h3 := mul_le_mul_of_nonneg_right hd u_small.1
  linarith

private theorem step_x {x m d L c q n j : ℝ} {b b' : ℝ} (h1 : |x - (m + j / n * (L * c))| ≤ b)
    (h2 : |d - 1 / n * (L * c)| ≤ b') (h3 : |q - (m + (j + 1) / n * (L * c))| ≤ b) : |x + d - q| ≤ 2 * b + b' := by
  have e : x + d - q = (x - (m + j / n * (L * c))) + (d - 1 / n * (L * c)) - (q - (m + (j + 1) / n * (L * c))) := by ring
  have := abs_le.1 h1
  have := abs_le.1 h2
  have := abs_le.1 h3
  rw [e, abs_le]
  constructor <;> linarith

/-- **C124**, joined: every piece ends where the next one starts, and the last one where the section ended, up to the
errors of a few operations. -/
theorem C124_joined (h : IsRounding fl) (cos sin : ℝ → ℝ) (hc : ∀ a, |cos a| ≤ 1) (hs : ∀ a, |sin a| ≤ 1) (step : ℝ)
    (hstep : step ≠ 0) (s : PathState ℝ) (hl : IsDouble s.len)
    (hp : IsDouble s.point.x ∧ IsDouble s.point.y ∧ IsDouble s.point.z) (hfew : |s.len / step| ≤ 2 ^ 52) (g : Path)
    (hg : splitState fl cos sin step s = .ok g) :
    (∀ (j : Nat) (t r : PathState ℝ), g[j]? = some t → g[j + 1]? = some r →
      |t.point.x + t.len * t.dir.sign * cos t.angle - r.point.x| ≤ (6 * |s.point.x| + 19 * |s.len|) * u + 5 * tiny ∧
      |t.point.y + t.len * t.dir.sign * sin t.angle - r.point.y| ≤ (6 * |s.point.y| + 19 * |s.len|) * u + 5 * tiny) ∧
    ∃ t, g.getLast? = some t ∧
      |t.point.x + t.len * t.dir.sign * cos t.angle - (s.point.x + s.len * s.dir.sign * cos s.angle)| ≤
        (3 * |s.point.x| + 10 * |s.len|) * u + 3 * tiny ∧
      |t.point.y + t.len * t.dir.sign * sin t.angle - (s.point.y + s.len * s.dir.sign * sin s.angle)| ≤
        (3 * |s.point.y| + 10 * |s.len|) * u + 3 * tiny := by
  obtain ⟨g', h1, H⟩ := C124_section h cos sin hc hs step hstep s hl hp hfew
  rw [hg] at h1
  injection h1 with h1
  subst h1
  constructor
  · intro j t r hj hj1
    have ht := List.mem_of_getElem? hj
    have e := (H.same t ht).1
    have ax := step_x (H.placeX j t hj) (share_mul H ht (cos s.angle) (hc _)) (by
      have := H.placeX (j + 1) r hj1
      rwa [Nat.cast_succ] at this)
    have ay := step_x (H.placeY j t hj) (share_mul H ht (sin s.angle) (hs _)) (by
      have := H.placeY (j + 1) r hj1
      rwa [Nat.cast_succ] at this)
    rw [e]
    constructor <;> linarith
  · have hne : g ≠ [] := by
      have := H.nonempty
      rintro rfl
      simp at this
    have hlast := List.getLast?_eq_some_getLast hne
    refine ⟨_, hlast, ?_⟩
    have ht := List.getLast_mem hne
    have e := (H.same _ ht).1
    have hn : (0 : ℝ) < g.length := by exact_mod_cast H.nonempty
    have hj : g[List.length g - 1]? = some (g.getLast hne) := by
      rw [← hlast, List.getLast?_eq_getElem?]
    have hcast : ((List.length g - 1 : ℕ) : ℝ) = List.length g - 1 := by
      have := H.nonempty
      push_cast [this]
      rfl
    have kx := H.placeX _ _ hj
    have ky := H.placeY _ _ hj
    rw [hcast] at kx ky
    have ax := abs_le.1 kx
    have ay := abs_le.1 ky
    have bx := abs_le.1 (share_mul H ht (cos s.angle) (hc _))
    have bY := abs_le.1 (share_mul H ht (sin s.angle) (hs _))
    have split : ∀ c : ℝ, (List.length g - 1 : ℝ) / List.length g * c + 1 / List.length g * c = c := by
      intro c
      field_simp
      ring
    have sx := split (s.len * s.dir.sign * cos s.angle)
    have sy := split (s.len * s.dir.sign * sin s.angle)
    rw [e]
    constructor <;> rw [abs_le] <;> constructor <;> linarith [ax.1, ax.2, ay.1, ay.2, bx.1, bx.2, bY.1, bY.2]

/-- **C124**, length: the pieces together are as long as the section, up to one rounding. -/
theorem C124_length (h : IsRounding fl) (cos sin : ℝ → ℝ) (hc : ∀ a, |cos a| ≤ 1) (hs : ∀ a, |sin a| ≤ 1) (step : ℝ)
    (hstep : step ≠ 0) (s : PathState ℝ) (hl : IsDouble s.len)
    (hp : IsDouble s.point.x ∧ IsDouble s.point.y ∧ IsDouble s.point.z) (hfew : |s.len / step| ≤ 2 ^ 52) (g : Path)
    (hg : splitState fl cos sin step s = .ok g) :
    |(g.map fun t => |t.len|).sum - (|s.len|)| ≤ |s.len| * u + g.length * tiny := by
  obtain ⟨g', h1, H⟩ := C124_section h cos sin hc hs step hstep s hl hp hfew
  rw [hg] at h1
  injection h1 with h1
  subst h1
  have hn : (0 : ℝ) < g.length := by exact_mod_cast H.nonempty
  have key : ∀ l : List (PathState ℝ), (∀ t ∈ l, t ∈ g) →
      |(l.map fun t => |t.len|).sum - l.length * (|s.len / g.length|)| ≤ l.length * (|s.len / g.length| * u + tiny) := by
    intro l
    induction l with
    | nil => intro _; simp
    | cons t l ih =>
      intro hl
      have i1 := abs_le.1 (ih fun r hr => hl r (List.mem_cons_of_mem _ hr))
      have i2 := abs_le.1 ((abs_abs_sub_abs_le _ _).trans (H.share t (hl t List.mem_cons_self)))
      rw [List.map_cons, List.sum_cons, List.length_cons, Nat.cast_succ, abs_le]
      constructor <;> linarith [i1.1, i1.2, i2.1, i2.2]
  have := key g fun t ht => ht
  have e : (g.length : ℝ) * |s.len / g.length| = |s.len| := by
    rw [abs_div, abs_of_pos hn]
    field_simp
  rw [e] at this
  refine this.trans (le_of_eq ?_)
  rw [mul_add, ← mul_assoc, e]

/-- **C124**, short: no piece is longer than one and a half steps, up to rounding. -/
theorem C124_short (h : IsRounding fl) (cos sin : ℝ → ℝ) (hc : ∀ a, |cos a| ≤ 1) (hs : ∀ a, |sin a| ≤ 1) (step : ℝ)
    (hstep : step ≠ 0) (s : PathState ℝ) (hl : IsDouble s.len)
    (hp : IsDouble s.point.x ∧ IsDouble s.point.y ∧ IsDouble s.point.z) (hfew : |s.len / step| ≤ 2 ^ 52) (g : Path)
    (hg : splitState fl cos sin step s = .ok g) :
    ∀ t ∈ g, |t.len| ≤ (3 / 2 + 8 * u) * |step| + tiny := by
  obtain ⟨g', h1, H⟩ := C124_section h cos sin hc hs step hstep s hl hp hfew
  rw [hg] at h1
  injection h1 with h1
  subst h1
  intro t ht
  have hn1 := H.nonempty
  have hn : (0 : ℝ) < g.length := by exact_mod_cast hn1
  have u0 := u_small
  have ut : tiny ≤ u := by
    unfold tiny u
    refine (zpow_le_zpow_right₀ (by norm_num) (by norm_num : (-1074 : ℤ) ≤ -53)).trans (le_of_eq ?_)
    rw [zpow_neg]
    norm_num
  set r := |s.len / step| with hr
  have r0 : 0 ≤ r := abs_nonneg _
  have el : |s.len| = r * |step| := by
    rw [hr, abs_div]
    field_simp
  have st0 : 0 < |step| := abs_pos.2 hstep
  have num := (abs_le.1 H.number).1
  have hm : r ≤ max r 1 := le_max_left _ _
  have h2 : r ≤ g.length + 1 / 2 + r * u + u := by linarith
  have h3 : r ≤ (3 / 2 + 6 * u) * g.length := by
    rcases Nat.lt_or_ge g.length 2 with hg1 | hg2
    · have e1 : List.length g = 1 := by omega
      rw [e1, Nat.cast_one] at h2 ⊢
      have : r ≤ 2 := by nlinarith
      nlinarith
    · have e2 : (2 : ℝ) ≤ g.length := by exact_mod_cast hg2
      nlinarith
  have h4 : |s.len / g.length| ≤ (3 / 2 + 6 * u) * |step| := by
    rw [abs_div, abs_of_pos hn, div_le_iff₀ hn, el]
    nlinarith
  have h5 := (abs_sub_abs_le_abs_sub t.len (s.len / g.length)).trans (H.share t ht)
  have h6 := mul_le_mul_of_nonneg_right h4 u0.1
  have h7 : (3 / 2 + 6 * u) * |step| * u ≤ 2 * u * |step| := by
    have : (3 / 2 + 6 * u) * |step| * u = (3 / 2 + 6 * u) * (u * |step|) := by ring
    rw [this, mul_assoc]
    exact mul_le_mul_of_nonneg_right (by linarith [u0.2]) (mul_nonneg u0.1 st0.le)
  linarith

/-- **C124**, endless: with a step of 0, or one that goes 2^55 times into a section, the loop never ends; in the second case
the counter no longer grows. -/
theorem C124_endless (h : IsRounding fl) (cos sin : ℝ → ℝ) (step : ℝ) (p : Path) (s : PathState ℝ) (hs : s ∈ p)
    (hsw : s.type = .swath) (hmany : (step = 0 ∧ s.len ≠ 0) ∨ (2 : ℝ) ^ 55 ≤ |s.len / step|) :
    Dbl.discretizeSwath fl cos sin step p = .ub "endless loop" := by
  have only : ∀ (t : PathState ℝ) (n : ℝ) (e : RPoint) (k : Nat) (j : ℝ),
      (∃ g, pieceLoop fl t e n k j = .ok g) ∨ pieceLoop fl t e n k j = .ub "endless loop" := by
    intro t n e k
    induction k with
    | zero => intro j; rw [pieceLoop]; split <;> simp
    | succ k ih =>
      intro j
      rw [pieceLoop]
      split
      · rcases ih (fl (j + 1)) with ⟨g, hg⟩ | hg
        · rw [hg]; exact .inl ⟨_, rfl⟩
        · rw [hg]; exact .inr rfl
      · simp
  have one : ∀ t : PathState ℝ, (∃ g, splitState fl cos sin step t = .ok g) ∨
      splitState fl cos sin step t = .ub "endless loop" := by
    intro t
    rw [splitState]
    split
    · exact .inr rfl
    · exact only ..
  have this : splitState fl cos sin step s = .ub "endless loop" := by
    rw [splitState]
    split
    · rfl
    · rename_i hz
      have hbig : (2 : ℝ) ^ 55 ≤ |s.len / step| := hmany.resolve_left hz
      refine pieceLoop_endless h _ _ _ ?_ _ _ (by positivity)
      have d : IsDouble (2 ^ 55 : ℝ) := ⟨2 ^ 52, 3, by norm_num, by norm_num, by norm_num⟩
      have hf : (2 : ℝ) ^ 55 ≤ |fl (s.len / step)| := by
        rcases le_abs.1 hbig with h1 | h1
        · exact (h.ge d h1).trans (le_abs_self _)
        · have := h.le d.neg (by linarith : s.len / step ≤ -2 ^ 55)
          exact le_trans (by linarith) (neg_le_abs _)
      have h1 := (abs_le.1 (cround_dist |fl (s.len / step)|)).1
      have h2 : ((cround |fl (s.len / step)| : ℤ) : ℝ) ≤ nSteps fl step s := le_max_right _ _
      have : (2 : ℝ) ^ 54 + 4 < 2 ^ 55 - 1 / 2 := by norm_num
      linarith
  induction p with
  | nil => simp at hs
  | cons t p ih =>
    rw [Dbl.discretizeSwath]
    rcases List.mem_cons.1 hs with rfl | hs
    · rw [if_pos hsw, this]
      rfl
    · rw [ih hs]
      by_cases ht : t.type = .swath
      · rw [if_pos ht]
        rcases one t with ⟨g, hg⟩ | hg
        · rw [hg]; rfl
        · rw [hg]; rfl
      · rw [if_neg ht]
        rfl

/-- Ten metres from (1, 2, 3) with heading 1. -/
private noncomputable def ten : PathState ℝ := ⟨⟨1, 2, 3⟩, 1, 10, .forward, .swath, 1⟩

private theorem ten_double : IsDouble ten.len ∧ (IsDouble ten.point.x ∧ IsDouble ten.point.y ∧ IsDouble ten.point.z) ∧
    |ten.len / 3| ≤ 2 ^ 52 := by
  refine ⟨?_, ⟨?_, ?_, ?_⟩, by norm_num [ten, abs_of_pos]⟩
  · simpa [ten] using isDouble_nat 10 (by norm_num)
  · simpa [ten] using isDouble_nat 1 (by norm_num)
  · simpa [ten] using isDouble_nat 2 (by norm_num)
  · simpa [ten] using isDouble_nat 3 (by norm_num)

/-- With steps of 3 it is cut into three pieces, the second of which starts a third of the way, up to 10^-13. -/
example : ∃ a b c, splitState toNearest Real.cos Real.sin 3 ten = .ok [a, b, c] ∧ a.point = ⟨1, 2, 3⟩ ∧
    |b.point.x - (1 + 10 / 3 * Real.cos 1)| < 1 / 10 ^ 13 ∧ |b.point.z - 2| < 1 / 10 ^ 13 ∧
    |c.len - 10 / 3| < 1 / 10 ^ 15 := by
  obtain ⟨hl, hp, hf⟩ := ten_double
  obtain ⟨g, h1, H⟩ := C124_section toNearest_isRounding Real.cos Real.sin Real.abs_cos_le_one Real.abs_sin_le_one 3
    (by norm_num) ten hl hp hf
  have tp : tiny < 1 / 10 ^ 20 := by
    unfold tiny
    refine lt_of_le_of_lt (zpow_le_zpow_right₀ (by norm_num) (by norm_num : (-1074 : ℤ) ≤ -70)) ?_
    norm_num
  have er : |ten.len / 3| = 10 / 3 := by norm_num [ten, abs_of_pos]
  have num := abs_le.1 H.number
  rw [er, max_eq_left (by norm_num)] at num
  have hu : u < 1 / 10 ^ 15 := by norm_num [u]
  have len : List.length g = 3 := by
    have h3 : (g.length : ℝ) < (4 : ℕ) := by push_cast; norm_num at hu tp; linarith [num.2]
    have h4 : ((2 : ℕ) : ℝ) < g.length := by push_cast; norm_num at hu tp; linarith [num.1]
    have := Nat.cast_lt.1 h3
    have := Nat.cast_lt.1 h4
    omega
  match g, len with
  | [a, b, c], _ =>
    refine ⟨a, b, c, h1, by simpa [ten] using H.first, ?_, ?_, ?_⟩
    · have := H.placeX 1 b rfl
      norm_num [ten, PathDir.sign] at this hu tp ⊢
      rw [show 1 / 3 * (10 * Real.cos 1) = 10 / 3 * Real.cos 1 by ring] at this
      linarith
    · have := H.placeZ 1 b rfl
      norm_num [ten] at this hu tp ⊢
      linarith
    · have := H.share c (by simp)
      norm_num [ten, u] at this tp ⊢
      linarith

example (g : Path) (hg : splitState toNearest Real.cos Real.sin 3 ten = .ok g) :
    (g.map fun t => |t.len|).sum ≤ 10 + 1 / 10 ^ 14 + g.length * tiny := by
  obtain ⟨hl, hp, hf⟩ := ten_double
  have := (abs_le.1 (C124_length toNearest_isRounding Real.cos Real.sin Real.abs_cos_le_one Real.abs_sin_le_one 3
    (by norm_num) ten hl hp hf g hg)).2
  norm_num [ten, u] at this ⊢
  linarith

/-- A step of a tenth of a femtometre on 10 m. -/
example : Dbl.discretizeSwath toNearest Real.cos Real.sin (1 / 10 ^ 16) [ten] = .ub "endless loop" :=
  C124_endless toNearest_isRounding _ _ _ _ ten (by simp) rfl (.inr (by norm_num [ten, abs_of_pos]))

example : ∃ groups : List Path, Dbl.discretizeSwath toNearest Real.cos Real.sin 3 [ten, { ten with type := .turn }, ten] =
    .ok groups.flatten ∧ groups.length = 3 := by
  obtain ⟨gs, h1, h2⟩ := C124_discretize toNearest_isRounding Real.cos Real.sin Real.abs_cos_le_one Real.abs_sin_le_one 3
    (by norm_num) [ten, { ten with type := .turn }, ten] (by
      intro s hs hsw
      simp only [List.mem_cons, List.not_mem_nil, or_false] at hs
      rcases hs with rfl | rfl | rfl
      · exact ten_double
      · exact absurd hsw (by simp)
      · exact ten_double)
  exact ⟨gs, h1, h2.length_eq.symm⟩

end F2C.Props
