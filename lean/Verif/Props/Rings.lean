import Verif.Props.Objectives

/-! # C125: what driving along the rings of the headland covers -/

namespace F2C.Props

open F2C.HG Obj

namespace RingSpec

/-- On the border of the region: as close as one likes there is something of it and something else. -/
def OnRing (r : Set RPoint) (q : RPoint) : Prop :=
  ∀ ε > 0, (∃ a ∈ r, pdist q a < ε) ∧ ∃ b, b ∉ r ∧ pdist q b < ε

/-- Who drives along the border of `r` with a tool of width `w` covers `p`. -/
def Covers (w : ℝ) (r : Set RPoint) (p : RPoint) : Prop := ∃ q, OnRing r q ∧ pdist p q ≤ w / 2

end RingSpec

open RingSpec

/-- Share `t` of the way from `p` to `c`. -/
private noncomputable def way (p c : RPoint) (t : ℝ) : RPoint :=
  ⟨p.x + t * (c.x - p.x), p.y + t * (c.y - p.y), p.z + t * (c.z - p.z)⟩

private theorem way_dist (p c : RPoint) (s t : ℝ) : pdist (way p c s) (way p c t) = |s - t| * pdist p c := by
  unfold pdist way
  rw [← Real.sqrt_sq_eq_abs, ← Real.sqrt_mul (sq_nonneg _)]
  congr 1
  simp only
  ring

private theorem way_zero (p c : RPoint) : way p c 0 = p := by simp [way]

private theorem way_one (p c : RPoint) : way p c 1 = c := by simp [way]

/-- Between a position of a region and one outside there is one on its border. -/
private theorem crossing (R : Set RPoint) (p c : RPoint) (hp : p ∈ R) (hc : c ∉ R) :
    ∃ T, 0 ≤ T ∧ T ≤ 1 ∧ OnRing R (way p c T) ∧
      ∀ B, (∀ t, 0 ≤ t → t ≤ 1 → way p c t ∈ R → t * pdist p c ≤ B) → T * pdist p c ≤ B := by
  set S : Set ℝ := {t | 0 ≤ t ∧ t ≤ 1 ∧ way p c t ∈ R} with hS
  have h0 : (0 : ℝ) ∈ S := ⟨le_rfl, zero_le_one, by rwa [way_zero]⟩
  have hbdd : BddAbove S := ⟨1, fun t ht => ht.2.1⟩
  have T0 : 0 ≤ sSup S := le_csSup hbdd h0
  have T1 : sSup S ≤ 1 := csSup_le ⟨0, h0⟩ fun t ht => ht.2.1
  have D0 := pdist_nonneg p c
  refine ⟨sSup S, T0, T1, ?_, ?_⟩
  · intro ε hε
    obtain ⟨δ, hδ, hδε⟩ : ∃ δ > 0, δ * pdist p c < ε := by
      refine ⟨ε / (pdist p c + 1), by positivity, ?_⟩
      rw [div_mul_eq_mul_div, div_lt_iff₀ (by linarith)]
      nlinarith
    constructor
    · obtain ⟨t, ht, hlt⟩ := exists_lt_of_lt_csSup ⟨0, h0⟩ (by linarith : sSup S - δ < sSup S)
      refine ⟨_, ht.2.2, ?_⟩
      rw [way_dist, abs_of_nonneg (by linarith [le_csSup hbdd ht])]
      nlinarith
    · rcases T1.lt_or_eq with hlt | he
      · refine ⟨way p c (min 1 (sSup S + δ)), ?_, ?_⟩
        · intro hin
          have hm : sSup S < min 1 (sSup S + δ) := lt_min hlt (by linarith)
          exact absurd (le_csSup hbdd ⟨by linarith, min_le_left _ _, hin⟩) (not_le.2 hm)
        · rw [way_dist]
          have hm : sSup S ≤ min 1 (sSup S + δ) := le_min T1 (by linarith)
          rw [abs_of_nonpos (by linarith)]
          have := min_le_right 1 (sSup S + δ)
          nlinarith
      · refine ⟨c, hc, ?_⟩
        rw [he, way_one, pdist_self]
        exact hε
  · intro B hB
    rcases D0.lt_or_eq with hpos | he
    · rw [← le_div_iff₀ hpos]
      refine csSup_le ⟨0, h0⟩ fun t ht => ?_
      rw [le_div_iff₀ hpos]
      exact hB t ht.1 ht.2.1 ht.2.2
    · rw [← he, mul_zero]
      have := hB 0 le_rfl zero_le_one (by rwa [way_zero])
      linarith

private theorem ring_eq (buffer : Set RPoint → ℝ → Set RPoint) (field : Set RPoint) (w : ℝ) (n : Int) (i : Nat)
    (r : Set RPoint) (hr : (generateHeadlandSwaths buffer field w n true)[i]? = some r) :
    r = buffer field (-(((i : ℝ) + 1 / 2) * w)) := by
  obtain ⟨hi, e⟩ := List.getElem?_eq_some_iff.1 hr
  rw [← e]
  simp only [generateHeadlandSwaths, if_true, List.getElem_map, List.getElem_range]
  rw [neg_mul, mul_comm]

/-- **C125**, inner halves: what ring `i` encloses up to `i + 1` widths deep in the field is covered along it, for every
field. -/
theorem C125_inner_half (buffer : Set RPoint → ℝ → Set RPoint) (hB : IsMitreBuffer buffer) (field : Set RPoint)
    (w : ℝ) (n : Int) (hw : 0 < w) (i : Nat) (r : Set RPoint)
    (hr : (generateHeadlandSwaths buffer field w n true)[i]? = some r) (p : RPoint) (hp : p ∈ r)
    (hd : p ∉ deeperThan field (((i : ℝ) + 1) * w)) : Covers w r p := by
  have hpos : 0 < ((i : ℝ) + 1 / 2) * w := by positivity
  have deep : r ⊆ deeperThan field (((i : ℝ) + 1 / 2) * w) := by
    rw [ring_eq _ _ _ _ _ _ hr]
    exact hB.deep _ _ hpos
  obtain ⟨c, hc, hcd⟩ : ∃ c, c ∉ field ∧ pdist p c < ((i : ℝ) + 1) * w := by
    by_contra hno
    push Not at hno
    exact hd ⟨(deep hp).1, hno⟩
  obtain ⟨T, T0, T1, hon, hle⟩ := crossing r p c hp fun h => hc (deep h).1
  refine ⟨_, hon, ?_⟩
  have e : pdist p (way p c T) = T * pdist p c := by
    have := way_dist p c 0 T
    rwa [way_zero, zero_sub, abs_neg, abs_of_nonneg T0] at this
  rw [e]
  refine hle _ fun t t0 t1 ht => ?_
  have h1 := (deep ht).2 c hc
  have h2 : pdist (way p c t) c = (1 - t) * pdist p c := by
    have := way_dist p c t 1
    rwa [way_one, abs_sub_comm, abs_of_nonneg (by linarith)] at this
  rw [h2] at h1
  nlinarith

/-- **C125**, outer halves of convex fields: ring `i` also covers what is not deeper than `i + 1` widths and not further
than a width from something that is. -/
theorem C125_outer_half_partial (buffer : Set RPoint → ℝ → Set RPoint) (hB : IsMitreBuffer buffer) (field : Set RPoint)
    (hconv : IsConvex field) (w : ℝ) (n : Int) (hw : 0 < w) (i : Nat) (r : Set RPoint)
    (hr : (generateHeadlandSwaths buffer field w n true)[i]? = some r) (p s : RPoint)
    (hp : p ∉ deeperThan field (((i : ℝ) + 1) * w)) (hs : s ∈ deeperThan field (((i : ℝ) + 1) * w))
    (hps : pdist p s ≤ w) : Covers w r p := by
  by_cases hin : p ∈ r
  · exact C125_inner_half buffer hB field w n hw i r hr p hin hp
  have hpos : 0 < ((i : ℝ) + 1 / 2) * w := by positivity
  have er : r = deeperThan field (((i : ℝ) + 1 / 2) * w) := by
    rw [ring_eq _ _ _ _ _ _ hr]
    exact hB.convex _ _ _ hconv hpos (by nlinarith) ⟨s, hs⟩
  -- half of the way to `s`
  have hm : way p s (1 / 2) ∈ r := by
    have d1 : pdist s (way p s (1 / 2)) ≤ w / 2 := by
      have := way_dist p s 1 (1 / 2)
      rw [way_one] at this
      rw [this, abs_of_nonneg (by norm_num)]
      linarith
    rw [er]
    refine ⟨?_, fun q hq => ?_⟩
    · by_contra hq
      have := hs.2 _ hq
      have : 0 ≤ (i : ℝ) * w := by positivity
      nlinarith
    · have h1 := hs.2 q hq
      have h2 := pdist_triangle s (way p s (1 / 2)) q
      nlinarith
  obtain ⟨T, T0, T1, hon, -⟩ := crossing r _ p hm hin
  refine ⟨_, hon, ?_⟩
  have e1 := way_dist (way p s (1 / 2)) p 1 T
  rw [way_one, abs_of_nonneg (by linarith)] at e1
  have e2 := way_dist p s (1 / 2) 0
  rw [way_zero, abs_of_nonneg (by norm_num)] at e2
  rw [e1, e2]
  have D0 := pdist_nonneg p s
  nlinarith

/-! ### Fields that are made of discs -/

/-- The position as a complex number. -/
private def toC (p : RPoint) : ℂ := ⟨p.x, p.y⟩

private theorem dist_toC (a b : RPoint) : dist (toC a) (toC b) = pdist a b := by
  rw [pdist_eq_norm, Complex.dist_eq]
  congr 1

private theorem deeper_convex {field : Set RPoint} (hconv : IsConvex field) {d : ℝ} (hd : 0 < d) :
    IsConvex (deeperThan field d) := by
  intro a ha b hb c hc
  refine ⟨hconv a ha.1 b hb.1 c hc, fun q hq => ?_⟩
  by_contra hlt
  have hlt := not_le.1 hlt
  obtain ⟨t, h0, h1, hx, hy⟩ := hc
  have shift : ∀ e : RPoint, e ∈ deeperThan field d → (⟨e.x + (q.x - c.x), e.y + (q.y - c.y), 0⟩ : RPoint) ∈ field := by
    intro e he
    by_contra hno
    have h2 := he.2 _ hno
    have h3 : pdist e ⟨e.x + (q.x - c.x), e.y + (q.y - c.y), 0⟩ = pdist c q := by
      unfold pdist
      congr 1
      simp only
      ring
    linarith
  exact hq (hconv _ (shift a ha) _ (shift b hb) q ⟨t, h0, h1, by simp only; rw [hx]; ring, by simp only; rw [hy]; ring⟩)

/-- The deep positions, in the plane, are a closed set. -/
private theorem deeper_closed {field : Set RPoint} {d : ℝ} (hd : 0 < d) :
    IsClosed {z : ℂ | (⟨z.re, z.im, 0⟩ : RPoint) ∈ deeperThan field d} := by
  rw [← isSeqClosed_iff_isClosed]
  intro u z hu hz
  have near : ∀ ε > 0, ∃ k, dist (u k) z < ε := by
    intro ε hε
    obtain ⟨k, hk⟩ := (Metric.tendsto_atTop.1 hz) ε hε
    exact ⟨k, hk k le_rfl⟩
  have conv : ∀ v : ℂ, toC ⟨v.re, v.im, 0⟩ = v := fun v => rfl
  have hle : ∀ q, q ∉ field → d ≤ pdist ⟨z.re, z.im, 0⟩ q := by
    intro q hq
    refine le_of_forall_pos_le_add fun ε hε => ?_
    obtain ⟨k, hk⟩ := near ε hε
    have h1 := (hu k).2 q hq
    have h2 := pdist_triangle ⟨(u k).re, (u k).im, 0⟩ ⟨z.re, z.im, 0⟩ q
    have h3 : pdist ⟨(u k).re, (u k).im, 0⟩ ⟨z.re, z.im, 0⟩ = dist (u k) z := by
      rw [← dist_toC, conv, conv]
    linarith
  refine ⟨?_, hle⟩
  by_contra hno
  have := hle _ hno
  rw [pdist_self] at this
  linarith

/-- **C125**, fields without corners: a convex field in which every position is in a disc, with radius the width of the
headland, of the field is covered by the rings, up to the depth of the headland. -/
theorem C125_round_partial (buffer : Set RPoint → ℝ → Set RPoint) (hB : IsMitreBuffer buffer) (field : Set RPoint)
    (hconv : IsConvex field) (w : ℝ) (n : Nat) (hw : 0 < w)
    (hdisc : ∀ p ∈ field, ∃ c ∈ deeperThan field (n * w), pdist p c ≤ n * w) (p : RPoint) (hp : p ∈ field)
    (hd : p ∉ deeperThan field (n * w)) :
    ∃ r ∈ generateHeadlandSwaths buffer field w n true, Covers w r p := by
  classical
  obtain ⟨c₀, hc₀, hpc₀⟩ := hdisc p hp
  rcases Nat.eq_zero_or_pos n with rfl | hn
  · refine absurd ⟨hp, fun q hq => ?_⟩ hd
    rw [Nat.cast_zero, zero_mul]
    exact pdist_nonneg _ _
  have hρ : 0 < (n : ℝ) * w := by positivity
  -- the ring
  have hex : ∃ k : Nat, p ∉ deeperThan field (((k : ℝ) + 1) * w) := by
    refine ⟨n - 1, ?_⟩
    rwa [Nat.cast_sub hn, Nat.cast_one, sub_add_cancel]
  obtain ⟨i, hi, hmin⟩ : ∃ i : Nat, p ∉ deeperThan field (((i : ℝ) + 1) * w) ∧
      ∀ k < i, p ∈ deeperThan field (((k : ℝ) + 1) * w) :=
    ⟨Nat.find hex, Nat.find_spec hex, fun k hk => not_not.1 (Nat.find_min hex hk)⟩
  have hin : i < n := by
    by_contra hge
    have := hmin (n - 1) (by omega)
    rw [Nat.cast_sub hn, Nat.cast_one, sub_add_cancel] at this
    exact hd this
  have hin' : (i : ℝ) + 1 ≤ n := by exact_mod_cast hin
  have hdeep : ∀ q, q ∉ field → (i : ℝ) * w ≤ pdist p q := by
    intro q hq
    rcases Nat.eq_zero_or_pos i with rfl | hi0
    · rw [Nat.cast_zero, zero_mul]
      exact pdist_nonneg _ _
    · have := (hmin (i - 1) (by omega)).2 q hq
      rwa [Nat.cast_sub hi0, Nat.cast_one, sub_add_cancel] at this
  -- the nearest centre
  set E : Set ℂ := {z : ℂ | (⟨z.re, z.im, 0⟩ : RPoint) ∈ deeperThan field (n * w)} with hE
  have flat : ∀ c : RPoint, c ∈ deeperThan field (n * w) → toC c ∈ E := by
    intro c hc
    exact deeper_convex hconv hρ c hc c hc _ ⟨0, le_rfl, zero_le_one, by simp [toC], by simp [toC]⟩
  obtain ⟨e, he, hdist⟩ := (deeper_closed hρ).exists_infDist_eq_dist ⟨_, flat c₀ hc₀⟩ (toC p)
  set e' : RPoint := ⟨e.re, e.im, 0⟩ with he'
  have hmem : e' ∈ deeperThan field (n * w) := he
  have nearest : ∀ c ∈ deeperThan field (n * w), pdist p e' ≤ pdist p c := by
    intro c hc
    have h1 := Metric.infDist_le_dist_of_mem (x := toC p) (flat c hc)
    rw [hdist, dist_toC] at h1
    rw [← dist_toC]
    exact h1
  have D0 := pdist_nonneg p e'
  -- it is not too far
  have hfar : pdist p e' ≤ (n - i) * w := by
    by_contra hgt
    have hgt := not_le.1 hgt
    rcases Nat.eq_zero_or_pos i with rfl | hi0
    · have := nearest c₀ hc₀
      rw [Nat.cast_zero, sub_zero] at hgt
      linarith
    have hi0' : (1 : ℝ) ≤ i := by exact_mod_cast hi0
    have Dpos : 0 < pdist p e' := lt_of_le_of_lt (by nlinarith) hgt
    -- further away from it, less than `i` widths
    obtain ⟨l, hl0, hl1, hl2⟩ : ∃ l, 0 < l ∧ l < i * w ∧ n * w < pdist p e' + l := by
      have h0 : 0 < (i : ℝ) * w := by positivity
      refine ⟨max (i * w / 2) (i * w - (pdist p e' - (n - i) * w) / 2), lt_max_of_lt_left (by linarith),
        max_lt (by linarith) (by linarith), ?_⟩
      have := le_max_right (i * w / 2) (i * w - (pdist p e' - (n - i) * w) / 2)
      nlinarith
    set m : RPoint := way e' p (1 + l / pdist p e') with hm
    have dpm : pdist p m = l := by
      have := way_dist e' p 1 (1 + l / pdist p e')
      rw [way_one, ← hm, pdist_comm e' p] at this
      rw [this, show 1 - (1 + l / pdist p e') = -(l / pdist p e') by ring, abs_neg, abs_of_pos (by positivity)]
      field_simp
    have hmf : m ∉ field := by
      intro hmf
      obtain ⟨x, hx, hmx⟩ := hdisc m hmf
      -- the angle at the nearest centre is not acute
      have obtuse : (p.x - e'.x) * (x.x - e'.x) + (p.y - e'.y) * (x.y - e'.y) ≤ 0 := by
        by_contra hpos
        have hpos := not_le.1 hpos
        set I := (p.x - e'.x) * (x.x - e'.x) + (p.y - e'.y) * (x.y - e'.y) with hI
        set N := (x.x - e'.x) ^ 2 + (x.y - e'.y) ^ 2 with hN
        have N0 : 0 ≤ N := by positivity
        set t := min 1 (I / (N + 1)) with ht
        have t0 : 0 < t := lt_min one_pos (by positivity)
        have t1 : t ≤ 1 := min_le_left _ _
        have t2 : t * (N + 1) ≤ I := by
          rw [← le_div_iff₀ (by positivity)]
          exact min_le_right _ _
        have hc : way e' x t ∈ deeperThan field (n * w) :=
          deeper_convex hconv hρ e' hmem x hx _ ⟨t, t0.le, t1, rfl, rfl⟩
        have h1 := pow_le_pow_left₀ D0 (nearest _ hc) 2
        rw [pdist_sq, pdist_sq] at h1
        simp only [way] at h1
        have h2 : (p.x - (e'.x + t * (x.x - e'.x))) ^ 2 + (p.y - (e'.y + t * (x.y - e'.y))) ^ 2 =
            (p.x - e'.x) ^ 2 + (p.y - e'.y) ^ 2 - 2 * t * I + t ^ 2 * N := by rw [hI, hN]; ring
        rw [h2] at h1
        nlinarith
      have h1 : pdist m e' ^ 2 ≤ pdist m x ^ 2 := by
        rw [pdist_sq, pdist_sq, hm]
        simp only [way]
        have k0 : 0 < 1 + l / pdist p e' := by positivity
        nlinarith [mul_nonneg k0.le (neg_nonneg.2 obtuse), sq_nonneg (x.x - e'.x), sq_nonneg (x.y - e'.y)]
      have h2 : pdist m e' = pdist p e' + l := by
        have := way_dist e' p (1 + l / pdist p e') 0
        rw [way_zero, ← hm, sub_zero, abs_of_pos (by positivity), pdist_comm e' p] at this
        rw [this]
        field_simp
      have h3 := (sq_le_sq₀ (pdist_nonneg _ _) (pdist_nonneg _ _)).1 h1
      linarith
    have := hdeep m hmf
    linarith
  -- a width towards it
  obtain ⟨s, hps, hse⟩ : ∃ s, pdist p s ≤ w ∧ pdist s e' ≤ (n - i - 1) * w := by
    rcases le_total (pdist p e') w with hle | hle
    · refine ⟨e', hle, ?_⟩
      rw [pdist_self]
      exact mul_nonneg (by linarith) hw.le
    · have Dpos : 0 < pdist p e' := lt_of_lt_of_le hw hle
      refine ⟨way p e' (w / pdist p e'), ?_, ?_⟩
      · have := way_dist p e' 0 (w / pdist p e')
        rw [way_zero, zero_sub, abs_neg, abs_of_pos (by positivity), div_mul_cancel₀ _ Dpos.ne'] at this
        exact this.le
      · have := way_dist p e' (w / pdist p e') 1
        rw [way_one, abs_sub_comm, abs_of_nonneg (by rw [sub_nonneg, div_le_one Dpos]; exact hle), sub_mul,
          div_mul_cancel₀ _ Dpos.ne'] at this
        rw [this]
        linarith
  have hsd : s ∈ deeperThan field (((i : ℝ) + 1) * w) := by
    have dist : ∀ q, q ∉ field → ((i : ℝ) + 1) * w ≤ pdist s q := by
      intro q hq
      have h1 := hmem.2 q hq
      have h2 := pdist_triangle e' s q
      rw [pdist_comm e' s] at h2
      linarith
    refine ⟨?_, dist⟩
    by_contra hno
    have := dist s hno
    rw [pdist_self] at this
    have : 0 < ((i : ℝ) + 1) * w := by positivity
    linarith
  have hlen : (generateHeadlandSwaths buffer field w n true).length = n := by simp [generateHeadlandSwaths]
  have hget : (generateHeadlandSwaths buffer field w n true)[i]? =
      some ((generateHeadlandSwaths buffer field w n true)[i]'(by rw [hlen]; exact hin)) :=
    List.getElem?_eq_getElem (by rw [hlen]; exact hin)
  exact ⟨_, List.getElem_mem _, C125_outer_half_partial buffer hB field hconv w n hw i _ hget p s hi hsd hps⟩

private theorem onRing_box {a b c d : ℝ} {q : RPoint} (hq : q ∈ box a b c d)
    (hside : q.x = a ∨ q.x = b ∨ q.y = c ∨ q.y = d) : OnRing (box a b c d) q := by
  obtain ⟨h1, h2, h3, h4⟩ := hq
  intro ε hε
  refine ⟨⟨q, ⟨h1, h2, h3, h4⟩, by rwa [pdist_self]⟩, ?_⟩
  have hx : ∀ s : ℝ, |s| = ε / 2 → pdist q ⟨q.x + s, q.y, q.z⟩ < ε := by
    intro s hs
    have : pdist q ⟨q.x + s, q.y, q.z⟩ = |s| := by
      unfold pdist
      rw [show (q.x - (q.x + s)) ^ 2 + (q.y - q.y) ^ 2 = s ^ 2 by ring, Real.sqrt_sq_eq_abs]
    rw [this, hs]
    linarith
  have hy : ∀ s : ℝ, |s| = ε / 2 → pdist q ⟨q.x, q.y + s, q.z⟩ < ε := by
    intro s hs
    have : pdist q ⟨q.x, q.y + s, q.z⟩ = |s| := by
      unfold pdist
      rw [show (q.x - q.x) ^ 2 + (q.y - (q.y + s)) ^ 2 = s ^ 2 by ring, Real.sqrt_sq_eq_abs]
    rw [this, hs]
    linarith
  have pos : |ε / 2| = ε / 2 := abs_of_pos (by linarith)
  have neg : |-(ε / 2)| = ε / 2 := by rw [abs_neg, pos]
  rcases hside with e | e | e | e
  · exact ⟨_, fun h => by have := h.1; simp only at this; linarith, hx _ neg⟩
  · exact ⟨_, fun h => by have := h.2.1; simp only at this; linarith, hx _ pos⟩
  · exact ⟨_, fun h => by have := h.2.2.1; simp only at this; linarith, hy _ neg⟩
  · exact ⟨_, fun h => by have := h.2.2.2; simp only at this; linarith, hy _ pos⟩

private theorem pdist_x {p q : RPoint} (h : q.y = p.y) : pdist p q = |p.x - q.x| := by
  unfold pdist
  rw [h, show (p.x - q.x) ^ 2 + (p.y - p.y) ^ 2 = (p.x - q.x) ^ 2 by ring, Real.sqrt_sq_eq_abs]

private theorem pdist_y {p q : RPoint} (h : q.x = p.x) : pdist p q = |p.y - q.y| := by
  unfold pdist
  rw [h, show (p.x - p.x) ^ 2 + (p.y - q.y) ^ 2 = (p.y - q.y) ^ 2 by ring, Real.sqrt_sq_eq_abs]

/-- **C125**, rectangles, in both directions: the rings cover every position of the headland that is not about as far from
one side as from the next one (up to half a width). -/
theorem C125_rectangle_partial (buffer : Set RPoint → ℝ → Set RPoint) (hB : IsMitreBuffer buffer)
    (x₀ x₁ y₀ y₁ w : ℝ) (n : Nat) (hw : 0 < w) (hn : 1 ≤ n) (hx : 2 * ((n - 1 / 2) * w) < x₁ - x₀)
    (hy : 2 * ((n - 1 / 2) * w) < y₁ - y₀) (out2in : Bool) (p : RPoint) (hp : p ∈ box x₀ x₁ y₀ y₁)
    (hd : min (min (p.x - x₀) (x₁ - p.x)) (min (p.y - y₀) (y₁ - p.y)) ≤ n * w)
    (hside : w / 2 ≤ |min (p.x - x₀) (x₁ - p.x) - min (p.y - y₀) (y₁ - p.y)|) :
    ∃ r ∈ generateHeadlandSwaths buffer (box x₀ x₁ y₀ y₁) w n out2in, Covers w r p := by
  obtain ⟨e1, e2⟩ := C29_rectangle_partial buffer hB x₀ x₁ y₀ y₁ w n hw hn hx hy
  have mem : ∀ i : Nat, i < n → box (x₀ + (i + 1 / 2) * w) (x₁ - (i + 1 / 2) * w) (y₀ + (i + 1 / 2) * w)
      (y₁ - (i + 1 / 2) * w) ∈ generateHeadlandSwaths buffer (box x₀ x₁ y₀ y₁) w n out2in := by
    intro i hi
    have h1 : box (x₀ + (i + 1 / 2) * w) (x₁ - (i + 1 / 2) * w) (y₀ + (i + 1 / 2) * w)
        (y₁ - (i + 1 / 2) * w) ∈ generateHeadlandSwaths buffer (box x₀ x₁ y₀ y₁) w n true := by
      rw [e1]
      exact List.mem_map.2 ⟨i, List.mem_range.2 hi, rfl⟩
    cases out2in
    · rw [e2, List.mem_reverse]
      exact h1
    · exact h1
  obtain ⟨p1, p2, p3, p4⟩ := hp
  set dx := min (p.x - x₀) (x₁ - p.x) with hdx
  set dy := min (p.y - y₀) (y₁ - p.y) with hdy
  have dx0 : 0 ≤ dx := le_min (by linarith) (by linarith)
  have dy0 : 0 ≤ dy := le_min (by linarith) (by linarith)
  have m0 : 0 ≤ min dx dy := le_min dx0 dy0
  -- the ring
  obtain ⟨i, hin, hi1, hi2⟩ : ∃ i : Nat, i < n ∧ (i : ℝ) * w ≤ min dx dy ∧ min dx dy ≤ ((i : ℝ) + 1) * w := by
    by_cases hlt : min dx dy < n * w
    · refine ⟨⌊min dx dy / w⌋₊, ?_, ?_, ?_⟩
      · rw [Nat.floor_lt (by positivity), div_lt_iff₀ hw]
        exact hlt
      · rw [← le_div_iff₀ hw]
        exact Nat.floor_le (by positivity)
      · rw [← div_le_iff₀ hw]
        exact (Nat.lt_floor_add_one _).le
    · obtain ⟨m, rfl⟩ : ∃ m, n = m + 1 := ⟨n - 1, by omega⟩
      push_cast at hd hlt
      exact ⟨m, by omega, by nlinarith, hd⟩
  have hin' : (i : ℝ) + 1 ≤ n := by exact_mod_cast hin
  have hW : (i + 1 / 2 : ℝ) * w ≤ (n - 1 / 2) * w := mul_le_mul_of_nonneg_right (by linarith) hw.le
  refine ⟨_, mem i hin, ?_⟩
  have a1 : dx ≤ p.x - x₀ := min_le_left _ _
  have a2 : dx ≤ x₁ - p.x := min_le_right _ _
  have b1 : dy ≤ p.y - y₀ := min_le_left _ _
  have b2 : dy ≤ y₁ - p.y := min_le_right _ _
  rcases le_total dx dy with hle | hle
  · rw [min_eq_left hle] at hi1 hi2
    rw [abs_of_nonpos (by linarith)] at hside
    rcases min_choice (p.x - x₀) (x₁ - p.x) with e | e <;> rw [← hdx] at e
    · refine ⟨⟨x₀ + (i + 1 / 2) * w, p.y, p.z⟩, onRing_box ?_ (.inl rfl), ?_⟩
      · exact ⟨le_rfl, by simp only; linarith, by simp only; linarith, by simp only; linarith⟩
      · rw [pdist_x (by rfl), abs_le]
        constructor <;> linarith
    · refine ⟨⟨x₁ - (i + 1 / 2) * w, p.y, p.z⟩, onRing_box ?_ (.inr (.inl rfl)), ?_⟩
      · exact ⟨by simp only; linarith, le_rfl, by simp only; linarith, by simp only; linarith⟩
      · rw [pdist_x (by rfl), abs_le]
        constructor <;> linarith
  · rw [min_eq_right hle] at hi1 hi2
    rw [abs_of_nonneg (by linarith)] at hside
    rcases min_choice (p.y - y₀) (y₁ - p.y) with e | e <;> rw [← hdy] at e
    · refine ⟨⟨p.x, y₀ + (i + 1 / 2) * w, p.z⟩, onRing_box ?_ (.inr (.inr (.inl rfl))), ?_⟩
      · exact ⟨by simp only; linarith, by simp only; linarith, le_rfl, by simp only; linarith⟩
      · rw [pdist_y (by rfl), abs_le]
        constructor <;> linarith
    · refine ⟨⟨p.x, y₁ - (i + 1 / 2) * w, p.z⟩, onRing_box ?_ (.inr (.inr (.inr rfl))), ?_⟩
      · exact ⟨by simp only; linarith, by simp only; linarith, by simp only; linarith, le_rfl⟩
      · rw [pdist_y (by rfl), abs_le]
        constructor <;> linarith

/-- **C125** is false at corners: no ring covers the corner of a rectangle. -/
theorem C125_corner (buffer : Set RPoint → ℝ → Set RPoint) (hB : IsMitreBuffer buffer) (x₀ x₁ y₀ y₁ z w : ℝ) (n : Int)
    (hw : 0 < w) : ∀ r ∈ generateHeadlandSwaths buffer (box x₀ x₁ y₀ y₁) w n true, ¬ Covers w r ⟨x₀, y₀, z⟩ := by
  rintro r hr ⟨q, hon, hq⟩
  obtain ⟨i, hi⟩ := List.mem_iff_getElem?.1 hr
  have hpos : 0 < ((i : ℝ) + 1 / 2) * w := by positivity
  have hge : w / 2 ≤ ((i : ℝ) + 1 / 2) * w := by nlinarith [mul_nonneg (Nat.cast_nonneg (α := ℝ) i) hw.le]
  obtain ⟨⟨a, ha, hqa⟩, -⟩ := hon (w / 10) (by positivity)
  rw [ring_eq _ _ _ _ _ _ hi] at ha
  have := hB.deep _ _ hpos ha
  rw [deeper_box _ _ _ _ _ hpos] at this
  obtain ⟨h1, -, h3, -⟩ := this
  have tri := pdist_triangle ⟨x₀, y₀, z⟩ q a
  have sq := pdist_sq ⟨x₀, y₀, z⟩ a
  have n0 := pdist_nonneg ⟨x₀, y₀, z⟩ a
  simp only at sq
  have k1 : (w / 2) ^ 2 ≤ (x₀ - a.x) ^ 2 := by nlinarith
  have k2 : (w / 2) ^ 2 ≤ (y₀ - a.y) ^ 2 := by nlinarith
  have k3 : pdist ⟨x₀, y₀, z⟩ a ≤ 3 / 5 * w := by linarith
  have k4 : pdist ⟨x₀, y₀, z⟩ a ^ 2 ≤ (3 / 5 * w) ^ 2 := by
    exact pow_le_pow_left₀ n0 k3 2
  nlinarith

/-- Two rings of width 2 in a rectangle of 20 times 30: the middle of the lower side, and a position 3 from it, are
covered; a corner is not. -/
example : ∃ buffer, IsMitreBuffer buffer ∧
    (∃ r ∈ generateHeadlandSwaths buffer (box 0 20 0 30) 2 (2 : ℕ) false, Covers 2 r ⟨10, 0, 0⟩) ∧
    (∃ r ∈ generateHeadlandSwaths buffer (box 0 20 0 30) 2 (2 : ℕ) false, Covers 2 r ⟨10, 3, 0⟩) ∧
    ∀ r ∈ generateHeadlandSwaths buffer (box 0 20 0 30) 2 2 true, ¬ Covers 2 r ⟨0, 0, 0⟩ := by
  refine ⟨_, squareBuffer_isMitreBuffer, ?_, ?_, C125_corner _ squareBuffer_isMitreBuffer 0 20 0 30 0 2 2 (by norm_num)⟩
  · exact C125_rectangle_partial _ squareBuffer_isMitreBuffer 0 20 0 30 2 2 (by norm_num) (by norm_num) (by norm_num)
      (by norm_num) false _ (by norm_num [box]) (by norm_num) (by norm_num)
  · exact C125_rectangle_partial _ squareBuffer_isMitreBuffer 0 20 0 30 2 2 (by norm_num) (by norm_num) (by norm_num)
      (by norm_num) false _ (by norm_num [box]) (by norm_num) (by norm_num [abs_of_pos])

/-- Along the straight border of a half plane the first ring of width 1 covers a position outside of the ring and one
inside. -/
example : ∃ buffer, IsMitreBuffer buffer ∧ ∃ r,
    (generateHeadlandSwaths buffer {p | 0 ≤ p.x} 1 (1 : ℕ) true)[0]? = some r ∧
    Covers 1 r ⟨1 / 10, 7, 0⟩ ∧ Covers 1 r ⟨9 / 10, 7, 0⟩ := by
  have conv : IsConvex {p : RPoint | 0 ≤ p.x} := by
    rintro a ha b hb c ⟨t, h0, h1, hx, -⟩
    simp only [Set.mem_ofPred_eq] at ha hb ⊢
    rw [hx]
    nlinarith
  have shallow : ∀ x y : ℝ, 0 < x → x < 1 → (⟨x, y, 0⟩ : RPoint) ∉ deeperThan {p : RPoint | 0 ≤ p.x} ((((0 : ℕ) : ℝ) + 1) * 1) := by
    intro x y h0 h1 h
    have := h.2 ⟨(x - 1) / 2, y, 0⟩ (by simp only [Set.mem_ofPred_eq]; linarith)
    rw [pdist_x (by rfl)] at this
    simp only at this
    rw [abs_of_pos (by linarith)] at this
    norm_num at this
    linarith
  have deep : (⟨1, 7, 0⟩ : RPoint) ∈ deeperThan {p : RPoint | 0 ≤ p.x} ((((0 : ℕ) : ℝ) + 1) * 1) := by
    refine ⟨by simp, fun q hq => ?_⟩
    simp only [Set.mem_ofPred_eq, not_le] at hq
    unfold pdist
    refine Real.le_sqrt_of_sq_le ?_
    norm_num
    nlinarith [sq_nonneg (7 - q.y)]
  refine ⟨_, squareBuffer_isMitreBuffer, _, rfl, ?_, ?_⟩
  · refine C125_outer_half_partial _ squareBuffer_isMitreBuffer _ conv 1 (1 : ℕ) one_pos 0 _ rfl _ ⟨1, 7, 0⟩
      (shallow _ _ (by norm_num) (by norm_num)) deep ?_
    rw [pdist_x (by rfl)]
    norm_num [abs_of_neg]
  · refine C125_outer_half_partial _ squareBuffer_isMitreBuffer _ conv 1 (1 : ℕ) one_pos 0 _ rfl _ ⟨1, 7, 0⟩
      (shallow _ _ (by norm_num) (by norm_num)) deep ?_
    rw [pdist_x (by rfl)]
    norm_num [abs_of_neg]

/-- Three rings of width 1 along the border of a half plane. -/
example : ∃ buffer, IsMitreBuffer buffer ∧ ∀ p : RPoint, 0 ≤ p.x → p.x < 3 →
    ∃ r ∈ generateHeadlandSwaths buffer {p | 0 ≤ p.x} 1 (3 : ℕ) true, Covers 1 r p := by
  refine ⟨_, squareBuffer_isMitreBuffer, fun p h0 h3 => ?_⟩
  refine C125_round_partial _ squareBuffer_isMitreBuffer {p : RPoint | 0 ≤ p.x} ?_ 1 3 one_pos ?_ p h0 ?_
  · rintro a ha b hb c ⟨t, h0, h1, hx, -⟩
    simp only [Set.mem_ofPred_eq] at ha hb ⊢
    rw [hx]
    nlinarith
  · intro q hq
    simp only [Set.mem_ofPred_eq] at hq
    refine ⟨⟨q.x + 3, q.y, 0⟩, ⟨by simp only [Set.mem_ofPred_eq]; linarith, fun o ho => ?_⟩, ?_⟩
    · simp only [Set.mem_ofPred_eq, not_le] at ho
      unfold pdist
      refine Real.le_sqrt_of_sq_le ?_
      push_cast
      nlinarith [sq_nonneg (q.y - o.y)]
    · rw [pdist_x (by rfl)]
      norm_num [abs_of_neg]
  · intro h
    have := h.2 ⟨(p.x - 3) / 2, p.y, 0⟩ (by simp only [Set.mem_ofPred_eq]; linarith)
    rw [pdist_x (by rfl)] at this
    simp only at this
    rw [abs_of_pos (by linarith)] at this
    norm_num at this
    linarith

end F2C.Props
