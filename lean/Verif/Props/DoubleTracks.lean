import Verif.Lemmas.DoubleTracks
import Verif.Props.SwathGeneratorSpec
import Verif.Props.Double

/-! # C132: the tracks of a cell in double precision -/

namespace F2C.Props

open Dbl F2C.Props.SG

variable {fl cos sin : ℝ → ℝ}

namespace DoubleTracksSpec

/-- A cell with border whose coordinates are of type `double` and at most `M`; `M` is at least 1. -/
structure Bounded (M : ℝ) (poly : Cell ℝ) : Prop where
  one : 1 ≤ M
  some : poly.flatten ≠ []
  double : ∀ p ∈ poly.flatten, IsDouble p.x ∧ IsDouble p.y
  bound : ∀ p ∈ poly.flatten, |p.x| ≤ M ∧ |p.y| ≤ M

/-- A width of type `double`: not larger than the bound for the coordinates and not less than a millionth of it. -/
structure Width (M w : ℝ) : Prop where
  double : IsDouble w
  upper : w ≤ M
  lower : M ≤ 2 ^ 20 * w

/-- Sine and cosine of the C library are off by at most 2^-52. -/
def Library (cos sin : ℝ → ℝ) : Prop :=
  ∀ a, IsDouble a → |cos a - Real.cos a| ≤ 1 / 2 ^ 52 ∧ |sin a - Real.sin a| ≤ 1 / 2 ^ 52

/-- What rounding may do to track `i`. -/
noncomputable def err (M w : ℝ) (i : Nat) : ℝ := M / 2 ^ 44 + ((i : ℝ) + 1) ^ 2 / 2 ^ 53 * w

end DoubleTracksSpec

open DoubleTracksSpec

private theorem Library.trig (h : Library cos sin) : IsTrig cos sin := by
  have e : (1 : ℝ) / 2 ^ 52 = 2 * u53 := by norm_num [u53]
  constructor
  · intro a ha
    rw [← e]
    exact (h a ha).1
  · intro a ha
    rw [← e]
    exact (h a ha).2

private theorem along_rot {q : RPoint} {a x y e : ℝ} (hx : |q.x - (x * Real.cos a - y * Real.sin a)| ≤ e)
    (hy : |q.y - (x * Real.sin a + y * Real.cos a)| ≤ e) : |along a q - x| ≤ 2 * e ∧ |across a q - y| ≤ 2 * e := by
  have C1 := Real.abs_cos_le_one a
  have S1 := Real.abs_sin_le_one a
  have hcs := Real.sin_sq_add_cos_sq a
  unfold along across
  generalize Real.cos a = c at *
  generalize Real.sin a = s at *
  have e0 : 0 ≤ e := (abs_nonneg _).trans hx
  have m : ∀ {d k : ℝ}, |d| ≤ e → |k| ≤ 1 → |d * k| ≤ e := by
    intro d k hd hk
    rw [abs_mul]
    have := mul_le_mul hd hk (abs_nonneg _) e0
    linarith
  constructor
  · have : q.x * c + q.y * s - x = (q.x - (x * c - y * s)) * c + (q.y - (x * s + y * c)) * s := by linear_combination x * hcs
    rw [this]
    refine (abs_add_le _ _).trans ?_
    linarith [m hx C1, m hy S1]
  · have : -(q.x * s) + q.y * c - y = (q.y - (x * s + y * c)) * c - (q.x - (x * c - y * s)) * s := by linear_combination y * hcs
    rw [this]
    refine (abs_sub _ _).trans ?_
    linarith [m hy C1, m hx S1]

/-- Everything about the tracks, in terms of the envelope of the rotated cell. -/
private theorem core (h : IsRounding fl) (hl : Library cos sin) (overlap : Bool) {angle w M : ℝ} {poly : Cell ℝ}
    (da : IsDouble angle) (hb : Bounded M poly) (hw : Width M w) :
    ∃ (ts : List (List RPoint)) (miny maxy H : ℝ), Dbl.tracks fl cos sin overlap angle w poly = .ok ts ∧
      (∀ p ∈ poly.flatten, miny - 11 * u53 * M ≤ across angle p ∧ across angle p ≤ maxy + 11 * u53 * M) ∧
      (∃ p ∈ poly.flatten, |across angle p - miny| ≤ 11 * u53 * M) ∧
      (∃ p ∈ poly.flatten, |across angle p - maxy| ≤ 11 * u53 * M) ∧
      |H - (maxy - miny)| ≤ 7 * u53 * M ∧ 0 ≤ H ∧ H ≤ (2 ^ 24 - 2) * w ∧
      (∃ ys, trackOffsets fl overlap H w = .ok ys ∧ ys.length = ts.length) ∧
      (miny < maxy → ts ≠ []) ∧ H ≤ ts.length * w + ((ts.length : ℝ) + 1) ^ 2 * u53 * w ∧
      ∀ (i : Nat) (hi : i < ts.length), ∃ a b : RPoint, ts[i] = [a, b] ∧
        |across angle a - (miny + ((i : ℝ) + 1 / 2) * w)| ≤ 500 * u53 * M + ((i : ℝ) + 1) ^ 2 * u53 * w ∧
        |across angle b - (miny + ((i : ℝ) + 1 / 2) * w)| ≤ 500 * u53 * M + ((i : ℝ) + 1) ^ 2 * u53 * w ∧
        ∀ p ∈ poly.flatten, along angle a ≤ along angle p + 512 * u53 * M ∧ along angle p ≤ along angle b + 512 * u53 * M := by
  have ht := Library.trig hl
  have hM := hb.one
  have u0 := u53_pos
  have u1 := u53_small
  have uM0 : 0 ≤ u53 * M := mul_nonneg u0.le (by linarith)
  have uM1 : u53 * M ≤ M / 10 ^ 15 := by
    have := mul_le_mul_of_nonneg_right u1 (by linarith : (0 : ℝ) ≤ M)
    linarith
  have hw0 : 0 < w := by linarith [hw.lower]
  have hwl : (2 : ℝ) ^ (-1000 : ℤ) ≤ w := by
    refine le_trans (zpow_le_zpow_right₀ (by norm_num) (by norm_num : (-1000 : ℤ) ≤ -20)) ?_
    have := hw.lower
    norm_num at this ⊢
    linarith
  -- the rotated cell
  let R : RPoint → RPoint := Dbl.rotateFrom fl cos sin Point.zero (-angle)
  let rot : Cell ℝ := poly.map fun ring => ring.map R
  have rotpts : Cell.points rot = poly.flatten.map R := by
    simp only [Cell.points, rot, List.map_flatten]
  have rp : ∀ p ∈ poly.flatten, |(R p).x - along angle p| ≤ 11 * u53 * M ∧ |(R p).y - across angle p| ≤ 11 * u53 * M ∧
      IsDouble (R p).x ∧ IsDouble (R p).y := by
    intro p hp
    obtain ⟨d1, d2⟩ := hb.double p hp
    obtain ⟨b1, b2⟩ := hb.bound p hp
    have := rotate_err h ht da.neg hM d1 d2 b1 b2
    rw [Real.cos_neg, Real.sin_neg] at this
    unfold along across
    rw [show p.x * Real.cos angle + p.y * Real.sin angle = p.x * Real.cos angle - p.y * -Real.sin angle by ring,
      show -(p.x * Real.sin angle) + p.y * Real.cos angle = p.x * -Real.sin angle + p.y * Real.cos angle by ring]
    exact this
  have big : ∀ p ∈ poly.flatten, |along angle p| ≤ 2 * M ∧ |across angle p| ≤ 2 * M := by
    intro p hp
    obtain ⟨b1, b2⟩ := hb.bound p hp
    have m : ∀ {d k : ℝ}, |d| ≤ M → |k| ≤ 1 → |d * k| ≤ M := by
      intro d k hd hk
      rw [abs_mul]
      have := mul_le_mul hd hk (abs_nonneg _) (by linarith)
      linarith
    unfold along across
    constructor
    · exact (abs_add_le _ _).trans (by linarith [m b1 (Real.abs_cos_le_one angle), m b2 (Real.abs_sin_le_one angle)])
    · refine (abs_add_le _ _).trans ?_
      rw [abs_neg]
      linarith [m b1 (Real.abs_sin_le_one angle), m b2 (Real.abs_cos_le_one angle)]
  -- the envelope
  have ext : ∀ (f : RPoint → ℝ) (g : RPoint → ℝ), (∀ p ∈ poly.flatten, |f (R p) - g p| ≤ 11 * u53 * M ∧ IsDouble (f (R p)) ∧ |g p| ≤ 2 * M) →
      (∀ p ∈ poly.flatten, listMin ((Cell.points rot).map f) - 11 * u53 * M ≤ g p ∧
        g p ≤ listMax ((Cell.points rot).map f) + 11 * u53 * M) ∧
      (∃ p ∈ poly.flatten, |g p - listMin ((Cell.points rot).map f)| ≤ 11 * u53 * M) ∧
      (∃ p ∈ poly.flatten, |g p - listMax ((Cell.points rot).map f)| ≤ 11 * u53 * M) ∧
      IsDouble (listMin ((Cell.points rot).map f)) ∧ IsDouble (listMax ((Cell.points rot).map f)) ∧
      |listMin ((Cell.points rot).map f)| ≤ 3 * M ∧ |listMax ((Cell.points rot).map f)| ≤ 3 * M ∧
      listMin ((Cell.points rot).map f) ≤ listMax ((Cell.points rot).map f) := by
    intro f g hfg
    rw [rotpts]
    have hne : (poly.flatten.map R).map f ≠ [] := by
      have := hb.some
      simpa using this
    have ex : ∀ v ∈ (poly.flatten.map R).map f, ∃ p ∈ poly.flatten, f (R p) = v := by
      intro v hv
      obtain ⟨q, hq, rfl⟩ := List.mem_map.1 hv
      obtain ⟨p, hp, rfl⟩ := List.mem_map.1 hq
      exact ⟨p, hp, rfl⟩
    have mem : ∀ p ∈ poly.flatten, f (R p) ∈ (poly.flatten.map R).map f := fun p hp =>
      List.mem_map.2 ⟨_, List.mem_map.2 ⟨p, hp, rfl⟩, rfl⟩
    obtain ⟨p1, hp1, e1⟩ := ex _ (listMin_mem hne)
    obtain ⟨p2, hp2, e2⟩ := ex _ (listMax_mem hne)
    have q1 := hfg p1 hp1
    have q2 := hfg p2 hp2
    rw [e1] at q1
    rw [e2] at q2
    have bnd : ∀ {a b : ℝ}, |a - b| ≤ 11 * u53 * M → |b| ≤ 2 * M → |a| ≤ 3 * M := by
      intro a b h1 h2
      have : a = b + (a - b) := by ring
      rw [this]
      exact (abs_add_le _ _).trans (by linarith)
    refine ⟨fun p hp => ?_, ⟨p1, hp1, by rw [abs_sub_comm]; exact q1.1⟩, ⟨p2, hp2, by rw [abs_sub_comm]; exact q2.1⟩, q1.2.1, q2.2.1,
      bnd q1.1 q1.2.2, bnd q2.1 q2.2.2, (listMin_le (mem p1 hp1)).trans (le_listMax (mem p1 hp1))⟩
    have h1 := listMin_le (mem p hp)
    have h2 := le_listMax (mem p hp)
    have h3 := abs_le.1 (hfg p hp).1
    exact ⟨by linarith [h3.2], by linarith [h3.1]⟩
  obtain ⟨ax, ⟨px, hpx, -⟩, -, dminx, dmaxx, bminx, bmaxx, lex⟩ := ext (·.x) (along angle) (fun p hp =>
    ⟨(rp p hp).1, (rp p hp).2.2.1, (big p hp).1⟩)
  obtain ⟨ay, miny_mem, maxy_mem, dminy, dmaxy, bminy, bmaxy, ley⟩ := ext (·.y) (across angle) (fun p hp =>
    ⟨(rp p hp).2.1, (rp p hp).2.2.2, (big p hp).2⟩)
  change ∀ p ∈ poly.flatten, rot.minX - _ ≤ _ ∧ _ ≤ rot.maxX + _ at ax
  change ∀ p ∈ poly.flatten, rot.minY - _ ≤ _ ∧ _ ≤ rot.maxY + _ at ay
  change ∃ p ∈ poly.flatten, |across angle p - rot.minY| ≤ _ at miny_mem
  change ∃ p ∈ poly.flatten, |across angle p - rot.maxY| ≤ _ at maxy_mem
  change IsDouble rot.minX at dminx
  change IsDouble rot.maxX at dmaxx
  change IsDouble rot.minY at dminy
  change IsDouble rot.maxY at dmaxy
  change |rot.minX| ≤ _ at bminx
  change |rot.maxX| ≤ _ at bmaxx
  change |rot.minY| ≤ _ at bminy
  change |rot.maxY| ≤ _ at bmaxy
  change rot.minX ≤ rot.maxX at lex
  change rot.minY ≤ rot.maxY at ley
  -- height and length
  have diff : ∀ {a b : ℝ}, IsDouble a → IsDouble b → |a| ≤ 3 * M → |b| ≤ 3 * M → a ≤ b →
      |fl (b - a) - (b - a)| ≤ 6 * u53 * M ∧ 0 ≤ fl (b - a) ∧ fl (b - a) ≤ 6 * M + 6 * u53 * M := by
    intro a b dA dB hA hB hab
    have hs : |b + -a| ≤ 6 * M := by
      refine (abs_add_le _ _).trans ?_
      rw [abs_neg]
      linarith
    have e := h.err_sum dB dA.neg hs
    rw [← sub_eq_add_neg] at e hs
    have e' : |fl (b - a) - (b - a)| ≤ 6 * u53 * M := e.trans (le_of_eq (by ring))
    refine ⟨e', h.ge isDouble_zero (by linarith), ?_⟩
    linarith [(abs_le.1 e').2, (abs_le.1 hs).2]
  obtain ⟨wE, w0, wB⟩ := diff dminx dmaxx bminx bmaxx lex
  obtain ⟨hE, h0, hB⟩ := diff dminy dmaxy bminy bmaxy ley
  have lE : |Dbl.minSafeLength fl rot - (fl (rot.maxX - rot.minX) + fl (rot.maxY - rot.minY))| ≤ 13 * u53 * M := by
    have := h.err_sum (h.double (rot.maxX - rot.minX)) (h.double (rot.maxY - rot.minY)) (B := 13 * M) (by
      rw [abs_of_nonneg (by linarith)]
      linarith)
    exact this.trans (le_of_eq (by ring))
  have l0 : 0 ≤ Dbl.minSafeLength fl rot := h.ge isDouble_zero (by linarith)
  have lB : |Dbl.minSafeLength fl rot| ≤ 13 * M := by
    rw [abs_of_nonneg l0]
    linarith [(abs_le.1 lE).2]
  have lge : rot.maxX - rot.minX - 19 * u53 * M ≤ Dbl.minSafeLength fl rot := by
    linarith [(abs_le.1 lE).1, (abs_le.1 wE).1]
  -- the long line
  have tri : ∀ {a b c : ℝ} {k : ℝ}, |a - b| ≤ 2 * u53 → |b - c| ≤ k → |a - c| ≤ 2 * u53 + k := by
    intro a b c k h1 h2
    exact (abs_sub_le a b c).trans (by linarith)
  have z0 : IsDouble 0 := isDouble_zero
  have epi : fl (pi + 0) = pi := by rw [add_zero, h.self isDouble_pi]
  have seed : ∃ s1 s2 : RPoint, Dbl.straightLongLine fl cos sin rot ⟨rot.minX, rot.minY, 0⟩ 0 = [s1, s2] ∧
      (IsDouble s1.x ∧ IsDouble s1.y ∧ IsDouble s2.x ∧ IsDouble s2.y) ∧
      |s1.x - (rot.minX - Dbl.minSafeLength fl rot)| ≤ 97 * u53 * M ∧ |s1.y - rot.minY| ≤ 97 * u53 * M ∧
      |s2.x - (rot.minX + Dbl.minSafeLength fl rot)| ≤ 97 * u53 * M ∧ |s2.y - rot.minY| ≤ 97 * u53 * M := by
    refine ⟨_, _, rfl, ⟨h.double _, h.double _, h.double _, h.double _⟩, ?_, ?_, ?_, ?_⟩
    · have := point_err h hM dminx bminx lB (c := cos pi) (C := -1) (by
        have := tri (ht.cos pi isDouble_pi) cos_pi_near
        linarith) (by norm_num)
      simp only [Dbl.pointFromAngle, epi]
      rw [show rot.minX - Dbl.minSafeLength fl rot = rot.minX + Dbl.minSafeLength fl rot * -1 by ring]
      exact this
    · have := point_err h hM dminy bminy lB (c := sin pi) (C := 0) (by
        have := tri (ht.sin pi isDouble_pi) sin_pi_near
        linarith) (by norm_num)
      simp only [Dbl.pointFromAngle, epi]
      rw [mul_zero, add_zero] at this
      exact this
    · have := point_err h hM dminx bminx lB (c := cos 0) (C := 1) (by
        have := ht.cos 0 z0
        rw [Real.cos_zero] at this
        linarith) (by norm_num)
      simp only [Dbl.pointFromAngle]
      rw [mul_one] at this
      exact this
    · have := point_err h hM dminy bminy lB (c := sin 0) (C := 0) (by
        have := ht.sin 0 z0
        rw [Real.sin_zero] at this
        linarith) (by norm_num)
      simp only [Dbl.pointFromAngle]
      rw [mul_zero, add_zero] at this
      exact this
  obtain ⟨s1, s2, hseed, ⟨d1x, d1y, d2x, d2y⟩, e1x, e1y, e2x, e2y⟩ := seed
  -- the offsets
  have hH : Dbl.height fl rot ≤ (2 ^ 24 - 2) * w := by
    have := hw.lower
    have e : Dbl.height fl rot = fl (rot.maxY - rot.minY) := rfl
    rw [e]
    linarith
  obtain ⟨ys, hys, hlen, hdy, hoff, hup, hlow, hpos⟩ := offsets_fine h overlap (Dbl.height fl rot) w hw.double hwl h0 hH
  have htr : Dbl.tracks fl cos sin overlap angle w poly = .ok (ys.map fun y => Dbl.placeTrack fl cos sin angle y [s1, s2]) := by
    unfold Dbl.tracks
    show (Dbl.trackOffsets fl overlap (Dbl.height fl rot) w >>= fun ys => _) = _
    rw [hys]
    simp only [Outcome.ok_bind, Outcome.pure_eq]
    rw [← hseed]
  refine ⟨_, rot.minY, rot.maxY, Dbl.height fl rot, htr, ay, miny_mem, maxy_mem, ?_, h0, hH, ⟨ys, hys, by simp⟩, ?_, ?_, ?_⟩
  · refine hE.trans ?_
    linarith
  · intro hlt
    have := hpos (fl_sub_pos h dmaxy dminy hlt)
    simpa using this
  · simpa using hup
  -- one track
  intro i hi
  have hi' : i < ys.length := by simpa using hi
  have hoffi := hoff i hi'
  have dyi := hdy _ (List.getElem_mem hi')
  have hne : ys ≠ [] := by
    rintro rfl
    simp at hi'
  have hlow := hlow hne
  have hi24 : ((i : ℝ) + 1) ≤ ys.length := by exact_mod_cast hi'
  have h24 : (ys.length : ℝ) ≤ 2 ^ 24 := by exact_mod_cast hlen
  have hsq : ((i : ℝ) + 1) ^ 2 * u53 * w ≤ w / 32 := by
    have hi0 : (0 : ℝ) ≤ (i : ℝ) + 1 := by positivity
    have : ((i : ℝ) + 1) ^ 2 ≤ (2 ^ 24) ^ 2 := by
      apply pow_le_pow_left₀ hi0
      linarith
    have : ((i : ℝ) + 1) ^ 2 * u53 ≤ (2 ^ 24) ^ 2 * u53 := by gcongr
    have h32 : ((2 : ℝ) ^ 24) ^ 2 * u53 = 1 / 32 := by norm_num [u53]
    rw [h32] at this
    have := mul_le_mul_of_nonneg_right this hw0.le
    linarith
  have hyB : |ys[i]| ≤ 9 * M := by
    have hwM := hw.upper
    have e : Dbl.height fl rot = fl (rot.maxY - rot.minY) := rfl
    have h1 : ((i : ℝ) + 1 / 2) * w ≤ Dbl.height fl rot + 3 / 2 * w := by
      have : ((i : ℝ) + 1) * w ≤ ys.length * w := by gcongr
      linarith
    have h2 : 0 ≤ ((i : ℝ) + 1 / 2) * w := by positivity
    have h3 := abs_le.1 hoffi
    rw [abs_le]
    constructor
    · linarith [h3.1]
    · linarith [h3.2]
  -- an end of the track
  have onEnd : ∀ s : RPoint, IsDouble s.x → IsDouble s.y → |s.x| ≤ 17 * M → |s.y - rot.minY| ≤ 97 * u53 * M →
      |along angle (Dbl.rotateFrom fl cos sin Point.zero angle ⟨fl (s.x + 0), fl (s.y + ys[i]), fl (s.z + 0)⟩) - s.x| ≤ 374 * u53 * M ∧
      |across angle (Dbl.rotateFrom fl cos sin Point.zero angle ⟨fl (s.x + 0), fl (s.y + ys[i]), fl (s.z + 0)⟩) -
        (rot.minY + ((i : ℝ) + 1 / 2) * w)| ≤ 500 * u53 * M + ((i : ℝ) + 1) ^ 2 * u53 * w := by
    intro s dsx dsy bsx esy
    have bsy : |s.y + ys[i]| ≤ 13 * M := by
      have : s.y + ys[i] = (s.y - rot.minY) + rot.minY + ys[i] := by ring
      rw [this]
      refine (abs_add_le _ _).trans ?_
      have := abs_add_le (s.y - rot.minY) rot.minY
      linarith
    have ey := h.err_sum dsy dyi bsy
    have by2 : |fl (s.y + ys[i])| ≤ 17 * M := by
      have : fl (s.y + ys[i]) = (fl (s.y + ys[i]) - (s.y + ys[i])) + (s.y + ys[i]) := by ring
      rw [this]
      refine (abs_add_le _ _).trans ?_
      linarith
    rw [add_zero, h.self dsx]
    obtain ⟨r1, r2, -, -⟩ := rotate_err h ht da (by linarith : (1 : ℝ) ≤ 17 * M)
      (p := ⟨s.x, fl (s.y + ys[i]), fl (s.z + 0)⟩) dsx (h.double _) bsx by2
    obtain ⟨a1, a2⟩ := along_rot r1 r2
    refine ⟨a1.trans (le_of_eq (by ring)), ?_⟩
    have t1 := abs_sub_le (across angle (Dbl.rotateFrom fl cos sin Point.zero angle ⟨s.x, fl (s.y + ys[i]), fl (s.z + 0)⟩))
      (fl (s.y + ys[i])) (rot.minY + ((i : ℝ) + 1 / 2) * w)
    have t2 : |fl (s.y + ys[i]) - (rot.minY + ((i : ℝ) + 1 / 2) * w)| ≤ 13 * u53 * M + 97 * u53 * M +
        ((i : ℝ) + 1) ^ 2 * u53 * w := by
      have : fl (s.y + ys[i]) - (rot.minY + ((i : ℝ) + 1 / 2) * w) = (fl (s.y + ys[i]) - (s.y + ys[i])) + (s.y - rot.minY) +
        (ys[i] - ((i : ℝ) + 1 / 2) * w) := by ring
      rw [this]
      refine (abs_add_le _ _).trans (add_le_add ((abs_add_le _ _).trans (add_le_add ?_ esy)) hoffi)
      exact ey.trans (le_of_eq (by ring))
    have a2' : |across angle (Dbl.rotateFrom fl cos sin Point.zero angle ⟨s.x, fl (s.y + ys[i]), fl (s.z + 0)⟩) -
        fl (s.y + ys[i])| ≤ 374 * u53 * M := a2.trans (le_of_eq (by ring))
    linarith
  have lB' : Dbl.minSafeLength fl rot ≤ 13 * M := (le_abs_self _).trans lB
  have bs1 : |s1.x| ≤ 17 * M := by
    have h3 := abs_le.1 bminx
    have h4 := abs_le.1 e1x
    rw [abs_le]
    constructor <;> linarith [h3.1, h3.2, h4.1, h4.2]
  have bs2 : |s2.x| ≤ 17 * M := by
    have h3 := abs_le.1 bminx
    have h4 := abs_le.1 e2x
    rw [abs_le]
    constructor <;> linarith [h3.1, h3.2, h4.1, h4.2]
  obtain ⟨f1, f2⟩ := onEnd s1 d1x d1y bs1 e1y
  obtain ⟨g1, g2⟩ := onEnd s2 d2x d2y bs2 e2y
  refine ⟨_, _, by simp only [List.getElem_map, Dbl.placeTrack, List.map_cons, List.map_nil], f2, g2, fun p hp => ?_⟩
  have hp' := ax p hp
  have f1 := (abs_le.1 f1).2
  have g1 := (abs_le.1 g1).1
  have e1x := (abs_le.1 e1x).2
  have e2x := (abs_le.1 e2x).1
  exact ⟨by linarith [hp'.1], by linarith [hp'.2]⟩

private theorem u44 (M : ℝ) : M / 2 ^ 44 = 512 * u53 * M := by
  rw [u53]
  ring

/-- **C132**, places: let `lo` be where the cell begins, measured across the angle.  Track `i` is the straight line at
`lo + (i + 1/2) w` up to 2^-44 times the largest coordinate and `(i + 1)² / 2^53` widths, and it reaches past every point of the
border, on both sides, up to 2^-44 times the largest coordinate. -/
theorem C132_tracks (h : IsRounding fl) (hl : Library cos sin) (overlap : Bool) {angle w M lo : ℝ} {poly : Cell ℝ}
    (da : IsDouble angle) (hb : Bounded M poly) (hw : Width M w)
    (hlo : ∀ p ∈ poly.flatten, lo ≤ across angle p) (hlo' : ∃ p ∈ poly.flatten, across angle p = lo) :
    ∃ ts, Dbl.tracks fl cos sin overlap angle w poly = .ok ts ∧
      ∀ (i : Nat) (hi : i < ts.length), ∃ a b : RPoint, ts[i] = [a, b] ∧
        |across angle a - (lo + ((i : ℝ) + 1 / 2) * w)| ≤ err M w i ∧
        |across angle b - (lo + ((i : ℝ) + 1 / 2) * w)| ≤ err M w i ∧
        ∀ p ∈ poly.flatten, along angle a ≤ along angle p + M / 2 ^ 44 ∧ along angle p ≤ along angle b + M / 2 ^ 44 := by
  obtain ⟨ts, miny, maxy, H, e, hall, ⟨p1, hp1, hmin⟩, -, -, -, -, -, -, -, hts⟩ := core h hl overlap da hb hw
  refine ⟨ts, e, fun i hi => ?_⟩
  obtain ⟨a, b, e1, h1, h2, h3⟩ := hts i hi
  obtain ⟨p0, hp0, e0⟩ := hlo'
  have uM0 : 0 ≤ u53 * M := mul_nonneg u53_pos.le (by linarith [hb.one])
  have hd : |miny - lo| ≤ 11 * u53 * M := by
    have t1 := hlo p1 hp1
    have t2 := (hall p0 hp0).1
    have t3 := abs_le.1 hmin
    rw [abs_le]
    constructor <;> linarith [t3.1, t3.2]
  have fin : ∀ {v : ℝ}, |v - (miny + ((i : ℝ) + 1 / 2) * w)| ≤ 500 * u53 * M + ((i : ℝ) + 1) ^ 2 * u53 * w →
      |v - (lo + ((i : ℝ) + 1 / 2) * w)| ≤ err M w i := by
    intro v hv
    have : v - (lo + ((i : ℝ) + 1 / 2) * w) = (v - (miny + ((i : ℝ) + 1 / 2) * w)) + (miny - lo) := by ring
    rw [this, err, u44, show ((i : ℝ) + 1) ^ 2 / 2 ^ 53 * w = ((i : ℝ) + 1) ^ 2 * u53 * w by rw [u53]; ring]
    refine (abs_add_le _ _).trans ?_
    linarith
  refine ⟨a, b, e1, fin h1, fin h2, fun p hp => ?_⟩
  rw [u44]
  exact h3 p hp

/-- A point of the segment opposite to `p`. -/
private theorem opposite {a b p : RPoint} {angle Y d e : ℝ} (e0 : 0 ≤ e) (ha : |across angle a - Y| ≤ d) (hb : |across angle b - Y| ≤ d)
    (h1 : along angle a ≤ along angle p + e) (h2 : along angle p ≤ along angle b + e) :
    ∃ q, OnSegment a b q ∧ |along angle q - along angle p| ≤ e ∧ |across angle q - Y| ≤ d := by
  rcases le_total (along angle p) (along angle a) with c1 | c1
  · exact ⟨a, ⟨0, le_rfl, zero_le_one, by ring, by ring⟩, by rw [abs_le]; constructor <;> linarith, ha⟩
  rcases le_total (along angle b) (along angle p) with c2 | c2
  · exact ⟨b, ⟨1, zero_le_one, le_rfl, by ring, by ring⟩, by rw [abs_le]; constructor <;> linarith, hb⟩
  rcases eq_or_lt_of_le (c1.trans c2) with c3 | c3
  · exact ⟨a, ⟨0, le_rfl, zero_le_one, by ring, by ring⟩, by rw [abs_le]; constructor <;> linarith, ha⟩
  have hpos : 0 < along angle b - along angle a := by linarith
  let t := (along angle p - along angle a) / (along angle b - along angle a)
  have t0 : 0 ≤ t := div_nonneg (by linarith) hpos.le
  have t1 : t ≤ 1 := (div_le_one hpos).2 (by linarith)
  have ht : t * (along angle b - along angle a) = along angle p - along angle a := div_mul_cancel₀ _ hpos.ne'
  refine ⟨⟨a.x + t * (b.x - a.x), a.y + t * (b.y - a.y), 0⟩, ⟨t, t0, t1, rfl, rfl⟩, ?_, ?_⟩
  · have : along angle ⟨a.x + t * (b.x - a.x), a.y + t * (b.y - a.y), 0⟩ =
        along angle a + t * (along angle b - along angle a) := by
      unfold along
      ring
    rw [this, ht, show along angle a + (along angle p - along angle a) - along angle p = 0 by ring, abs_zero]
    exact e0
  · have : across angle ⟨a.x + t * (b.x - a.x), a.y + t * (b.y - a.y), 0⟩ - Y =
        (1 - t) * (across angle a - Y) + t * (across angle b - Y) := by
      unfold across
      ring
    rw [this]
    refine (abs_add_le _ _).trans ?_
    rw [abs_mul, abs_mul, abs_of_nonneg t0, abs_of_nonneg (by linarith : 0 ≤ 1 - t)]
    have k1 := mul_le_mul_of_nonneg_left ha (by linarith : 0 ≤ 1 - t)
    have k2 := mul_le_mul_of_nonneg_left hb t0
    linarith

private theorem pdist_le (angle : ℝ) (p q : RPoint) :
    pdist p q ≤ |along angle q - along angle p| + |across angle q - across angle p| := by
  unfold pdist
  rw [F2C.SG.pdist_sq_coords angle]
  apply Real.sqrt_le_iff.2
  refine ⟨by positivity, ?_⟩
  rw [abs_sub_comm (along angle q), abs_sub_comm (across angle q)]
  have k1 := sq_abs (along angle p - along angle q)
  have k2 := sq_abs (across angle p - across angle q)
  have k3 := mul_nonneg (abs_nonneg (along angle p - along angle q)) (abs_nonneg (across angle p - across angle q))
  nlinarith

/-- **C132**, no gap: if the cell has some extent across the angle, every point of the cell (even of its convex hull) has a point
of a track at most half a width away, up to 2^-42 times the largest coordinate and `(n + 1)² / 2^52` widths for `n` tracks. -/
theorem C132_no_gap (h : IsRounding fl) (hl : Library cos sin) (overlap : Bool) {angle w M : ℝ} {poly : Cell ℝ}
    (da : IsDouble angle) (hb : Bounded M poly) (hw : Width M w)
    (hext : ∃ p ∈ poly.flatten, ∃ q ∈ poly.flatten, across angle p + M / 2 ^ 48 < across angle q) :
    ∃ ts, Dbl.tracks fl cos sin overlap angle w poly = .ok ts ∧
      ∀ p, InHull poly.flatten p → ∃ t ∈ ts, ∃ q, OnLine t q ∧
        pdist p q ≤ w / 2 + M / 2 ^ 42 + ((ts.length : ℝ) + 1) ^ 2 / 2 ^ 52 * w := by
  obtain ⟨ts, miny, maxy, H, e, hall, -, -, hH, -, -, -, hne, hup, hts⟩ := core h hl overlap da hb hw
  refine ⟨ts, e, fun p hp => ?_⟩
  have uM0 : 0 ≤ u53 * M := mul_nonneg u53_pos.le (by linarith [hb.one])
  have hw0 : 0 < w := by linarith [hw.lower, hb.one]
  have uw0 : 0 ≤ u53 * w := mul_nonneg u53_pos.le hw0.le
  have hne : ts ≠ [] := hne (by
    obtain ⟨p1, hp1, p2, hp2, hlt⟩ := hext
    have t1 := (hall p1 hp1).1
    have t2 := (hall p2 hp2).2
    rw [show M / 2 ^ 48 = 32 * u53 * M by rw [u53]; ring] at hlt
    linarith)
  have hlen : 0 < ts.length := List.length_pos_of_ne_nil hne
  -- the point in the hull
  have b1 : miny - 11 * u53 * M ≤ across angle p := by
    have := hp (Real.sin angle) (-Real.cos angle) (-(miny - 11 * u53 * M)) (by
      intro q hq
      have := (hall q hq).1
      unfold across at this
      linarith)
    unfold across
    linarith
  have b2 : across angle p ≤ maxy + 11 * u53 * M := by
    have := hp (-Real.sin angle) (Real.cos angle) (maxy + 11 * u53 * M) (by
      intro q hq
      have := (hall q hq).2
      unfold across at this
      linarith)
    unfold across
    linarith
  have hH := abs_le.1 hH
  have b3 : across angle p - miny ≤ ts.length * w + (((ts.length : ℝ) + 1) ^ 2 * u53 * w + 18 * u53 * M) := by linarith [hH.1]
  obtain ⟨i, hi, hd⟩ : ∃ i < ts.length, |across angle p - miny - ((i : ℝ) + 1 / 2) * w| ≤
      w / 2 + (((ts.length : ℝ) + 1) ^ 2 * u53 * w + 18 * u53 * M) := by
    have hx0 : 0 ≤ ((ts.length : ℝ) + 1) ^ 2 * u53 * w := by
      have := mul_nonneg (sq_nonneg ((ts.length : ℝ) + 1)) uw0
      linarith
    rcases lt_or_ge (across angle p - miny) 0 with c | c
    · refine ⟨0, hlen, ?_⟩
      rw [abs_le]
      push_cast
      constructor <;> linarith
    rcases lt_or_ge (across angle p - miny) (ts.length * w) with c' | c'
    · have hf : ⌊(across angle p - miny) / w⌋₊ < ts.length := by
        rw [Nat.floor_lt (div_nonneg c hw0.le), div_lt_iff₀ hw0]
        exact c'
      refine ⟨_, hf, ?_⟩
      have f1 := Nat.floor_le (div_nonneg c hw0.le)
      have f2 := Nat.lt_floor_add_one ((across angle p - miny) / w)
      rw [le_div_iff₀ hw0] at f1
      rw [div_lt_iff₀ hw0] at f2
      rw [abs_le]
      constructor <;> linarith
    · refine ⟨ts.length - 1, by omega, ?_⟩
      rw [Nat.cast_sub (by omega)]
      push_cast
      rw [abs_le]
      constructor <;> linarith
  obtain ⟨a, b, e1, h1, h2, h3⟩ := hts i hi
  have r1 : along angle a ≤ along angle p + 512 * u53 * M := by
    have := hp (-Real.cos angle) (-Real.sin angle) (-(along angle a - 512 * u53 * M)) (by
      intro q hq
      have := (h3 q hq).1
      unfold along at this ⊢
      linarith)
    unfold along at this ⊢
    linarith
  have r2 : along angle p ≤ along angle b + 512 * u53 * M := by
    have := hp (Real.cos angle) (Real.sin angle) (along angle b + 512 * u53 * M) (by
      intro q hq
      have := (h3 q hq).2
      unfold along at this ⊢
      linarith)
    unfold along at this ⊢
    linarith
  obtain ⟨q, hq, d1, d2⟩ := opposite (by linarith : 0 ≤ 512 * u53 * M) h1 h2 r1 r2
  refine ⟨[a, b], e1 ▸ List.getElem_mem hi, q, Or.inl hq, (pdist_le angle p q).trans ?_⟩
  have d3 : |across angle q - across angle p| ≤ (500 * u53 * M + ((i : ℝ) + 1) ^ 2 * u53 * w) +
      (w / 2 + (((ts.length : ℝ) + 1) ^ 2 * u53 * w + 18 * u53 * M)) := by
    have : across angle q - across angle p = (across angle q - (miny + ((i : ℝ) + 1 / 2) * w)) -
      (across angle p - miny - ((i : ℝ) + 1 / 2) * w) := by ring
    rw [this]
    exact (abs_sub _ _).trans (add_le_add d2 hd)
  have d4 : ((i : ℝ) + 1) ^ 2 * u53 * w ≤ ((ts.length : ℝ) + 1) ^ 2 * u53 * w := by
    have hi' : (i : ℝ) ≤ ts.length := by exact_mod_cast hi.le
    have := u53_pos
    gcongr
  have k1 : M / 2 ^ 42 = 2048 * u53 * M := by rw [u53]; ring
  have k2 : ((ts.length : ℝ) + 1) ^ 2 / 2 ^ 52 * w = 2 * (((ts.length : ℝ) + 1) ^ 2 * u53 * w) := by rw [u53]; ring
  rw [k1, k2]
  linarith

/-- **C132**, number: unless the extent of the cell across the angle is within a sixteenth of a width (and 2^-48 times the largest
coordinate) of a whole number of widths, there are as many tracks as without rounding. -/
theorem C132_number (h : IsRounding fl) (hl : Library cos sin) {angle w M ext : ℝ} {poly : Cell ℝ}
    (da : IsDouble angle) (hb : Bounded M poly) (hw : Width M w) (hext : IsExtent poly.flatten angle ext)
    (hk : ∀ k : Nat, w / 16 + M / 2 ^ 48 < |ext - k * w|) :
    ∃ ts, Dbl.tracks fl cos sin false angle w poly = .ok ts ∧ ts.length = ⌈ext / w⌉₊ := by
  obtain ⟨ts, miny, maxy, H, e, hall, ⟨p1, hp1, m1⟩, ⟨p2, hp2, m2⟩, hH, H0, H1, ⟨ys, hys, hlen⟩, -⟩ := core h hl false da hb hw
  refine ⟨ts, e, ?_⟩
  have uM0 : 0 ≤ u53 * M := mul_nonneg u53_pos.le (by linarith [hb.one])
  have hw0 : 0 < w := by linarith [hw.lower, hb.one]
  have hwl : (2 : ℝ) ^ (-1000 : ℤ) ≤ w := by
    refine le_trans (zpow_le_zpow_right₀ (by norm_num) (by norm_num : (-1000 : ℤ) ≤ -20)) ?_
    have := hw.lower
    have := hb.one
    norm_num at *
    linarith
  have kM : M / 2 ^ 48 = 32 * u53 * M := by rw [u53]; ring
  have hd : |H - ext| ≤ M / 2 ^ 48 := by
    obtain ⟨x1, q1, hq1, q2, hq2, x2⟩ := hext
    have t1 := x1 p2 hp2 p1 hp1
    have t2 := hall q1 hq1
    have t3 := hall q2 hq2
    have m1 := abs_le.1 m1
    have m2 := abs_le.1 m2
    have hH := abs_le.1 hH
    rw [abs_le, kM]
    constructor <;> linarith [m1.1, m1.2, m2.1, m2.2, hH.1, hH.2, t2.2, t3.1]
  have hk' : ∀ k : Nat, w / 16 < |H - k * w| := by
    intro k
    have := hk k
    have t := abs_sub_le ext H (k * w)
    rw [abs_sub_comm ext H] at t
    linarith
  obtain ⟨ys', hys', hl'⟩ := C115_number h H w hw.double hwl H0 H1 hk'
  obtain rfl : ys = ys' := by
    have := hys.symm.trans hys'
    simpa using this
  rw [← hlen, hl']
  have hd := abs_le.1 hd
  have M0 : 0 ≤ M / 2 ^ 48 := by rw [kM]; linarith
  have ext0 : 0 < ext := by
    obtain ⟨x1, q1, hq1, -⟩ := hext
    have := x1 q1 hq1 q1 hq1
    have h0 := hk 0
    simp only [Nat.cast_zero, zero_mul, sub_zero] at h0
    rw [sub_self] at this
    rw [abs_of_nonneg this] at h0
    linarith
  obtain ⟨k, hkk⟩ := Nat.exists_eq_succ_of_ne_zero (Nat.ceil_pos.2 (div_pos ext0 hw0)).ne'
  rw [hkk]
  have hc := (Nat.ceil_eq_iff (Nat.succ_ne_zero k)).1 hkk
  apply (Nat.ceil_eq_iff (Nat.succ_ne_zero k)).2
  rw [Nat.succ_sub_one, lt_div_iff₀ hw0, div_le_iff₀ hw0] at hc ⊢
  have k0 := hk k
  have k1 := hk (k + 1)
  push_cast at hc k1 ⊢
  rw [abs_of_nonneg (by linarith)] at k0
  rw [abs_of_nonpos (by linarith)] at k1
  constructor <;> linarith [hd.1, hd.2]

/-! ## A rectangle of 40 by 10.5, half a million metres from the origin, with a width of 3 -/

/-- The rectangle. -/
private noncomputable def utm : Cell ℝ :=
  [[⟨500000, 500000, 0⟩, ⟨500040, 500000, 0⟩, ⟨500040, 1000021 / 2, 0⟩, ⟨500000, 1000021 / 2, 0⟩, ⟨500000, 500000, 0⟩]]

private theorem utm_bounded : Bounded (2 ^ 19) utm := by
  have d1 : IsDouble 500000 := ⟨500000, 0, by norm_num, by norm_num, by norm_num⟩
  have d2 : IsDouble 500040 := ⟨500040, 0, by norm_num, by norm_num, by norm_num⟩
  have d3 : IsDouble (1000021 / 2) := ⟨1000021, -1, by norm_num, by norm_num, by norm_num⟩
  refine ⟨by norm_num, by simp [utm], ?_, ?_⟩
  · intro p hp
    simp only [utm, List.flatten_cons, List.flatten_nil, List.append_nil, List.mem_cons, List.not_mem_nil, or_false] at hp
    rcases hp with rfl | rfl | rfl | rfl | rfl <;> exact ⟨by assumption, by assumption⟩
  · intro p hp
    simp only [utm, List.flatten_cons, List.flatten_nil, List.append_nil, List.mem_cons, List.not_mem_nil, or_false] at hp
    rcases hp with rfl | rfl | rfl | rfl | rfl <;> constructor <;> norm_num [abs_le]

private theorem utm_width : Width (2 ^ 19) 3 :=
  ⟨⟨3, 0, by norm_num, by norm_num, by norm_num⟩, by norm_num, by norm_num⟩

private theorem exact_library : Library Real.cos Real.sin := fun a _ => by
  simp

/-- Less than a tenth of a micrometre is lost for the first tracks. -/
example : err (2 ^ 19) 3 3 ≤ 1 / 2 ^ 24 := by norm_num [err]

example : ∃ ts, Dbl.tracks toNearest Real.cos Real.sin false 0 3 utm = .ok ts ∧
    ∀ (i : Nat) (hi : i < ts.length), ∃ a b : RPoint, ts[i] = [a, b] ∧
      |across 0 a - (500000 + ((i : ℝ) + 1 / 2) * 3)| ≤ err (2 ^ 19) 3 i ∧
      |across 0 b - (500000 + ((i : ℝ) + 1 / 2) * 3)| ≤ err (2 ^ 19) 3 i ∧
      ∀ p ∈ utm.flatten, along 0 a ≤ along 0 p + 2 ^ 19 / 2 ^ 44 ∧ along 0 p ≤ along 0 b + 2 ^ 19 / 2 ^ 44 :=
  C132_tracks toNearest_isRounding exact_library false isDouble_zero utm_bounded utm_width
    (by
      intro p hp
      simp only [utm, List.flatten_cons, List.flatten_nil, List.append_nil, List.mem_cons, List.not_mem_nil, or_false] at hp
      rcases hp with rfl | rfl | rfl | rfl | rfl <;> norm_num [across])
    ⟨⟨500000, 500000, 0⟩, by simp [utm], by norm_num [across]⟩

example : ∃ ts, Dbl.tracks toNearest Real.cos Real.sin true 0 3 utm = .ok ts ∧
    ∀ p, InHull utm.flatten p → ∃ t ∈ ts, ∃ q, OnLine t q ∧
      pdist p q ≤ 3 / 2 + 2 ^ 19 / 2 ^ 42 + ((ts.length : ℝ) + 1) ^ 2 / 2 ^ 52 * 3 :=
  C132_no_gap toNearest_isRounding exact_library true isDouble_zero utm_bounded utm_width
    ⟨⟨500000, 500000, 0⟩, by simp [utm], ⟨500000, 1000021 / 2, 0⟩, by simp [utm], by norm_num [across]⟩

example : ∃ ts, Dbl.tracks toNearest Real.cos Real.sin false 0 3 utm = .ok ts ∧ ts.length = 4 := by
  obtain ⟨ts, e, hn⟩ := C132_number toNearest_isRounding exact_library isDouble_zero utm_bounded utm_width (ext := 21 / 2)
    ⟨by
      intro p hp q hq
      simp only [utm, List.flatten_cons, List.flatten_nil, List.append_nil, List.mem_cons, List.not_mem_nil, or_false] at hp hq
      rcases hp with rfl | rfl | rfl | rfl | rfl <;> rcases hq with rfl | rfl | rfl | rfl | rfl <;> norm_num [across],
      ⟨500000, 1000021 / 2, 0⟩, by simp [utm], ⟨500000, 500000, 0⟩, by simp [utm], by norm_num [across]⟩
    (by
      intro k
      rcases Nat.lt_or_ge k 4 with hk | hk
      · have : (k : ℝ) ≤ 3 := by exact_mod_cast Nat.lt_succ_iff.1 hk
        rw [abs_of_nonneg (by linarith)]
        norm_num
        linarith
      · have : (4 : ℝ) ≤ k := by exact_mod_cast hk
        rw [abs_of_nonpos (by linarith)]
        norm_num
        linarith)
  refine ⟨ts, e, hn.trans ?_⟩
  rw [Nat.ceil_eq_iff (by norm_num)]
  norm_num

end F2C.Props
