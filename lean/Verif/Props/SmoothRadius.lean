import Verif.Lemmas.SmoothRadius

/-! # C100: the radius of smooth turns -/

namespace F2C.Props

open Real SmoothRadius

/-- What is assumed of `end_of_clothoid` when driving forward: the heading is the integral of a curvature that
grows with the given sharpness, the position is the integral of the direction. -/
def IsEndOfClothoid (lib : EndOfClothoid) : Prop :=
  ∀ x y θ κ σ L, lib x y θ κ σ 1 L =
    (x + ∫ t in (0 : ℝ)..L, cos (θ + κ * t + σ * t ^ 2 / 2),
     y + ∫ t in (0 : ℝ)..L, sin (θ + κ * t + σ * t ^ 2 / 2),
     θ + κ * L + σ * L ^ 2 / 2, κ + σ * L)

/-- Planar distance. -/
noncomputable def flatDist (a b : ℝ × ℝ) : ℝ := sqrt ((a.1 - b.1) ^ 2 + (a.2 - b.2) ^ 2)

/-- The robot starts a turn in the origin in the direction of the x axis and turns its wheels with its largest
rate: where it is after `s`. -/
noncomputable def turning (r : Robot) (s : ℝ) : ℝ × ℝ :=
  (∫ t in (0 : ℝ)..s, cos (r.diffCurv * t ^ 2 / 2), ∫ t in (0 : ℝ)..s, sin (r.diffCurv * t ^ 2 / 2))

/-- Its direction of travel after `s`. -/
noncomputable def turningHeading (r : Robot) (s : ℝ) : ℝ := r.diffCurv * s ^ 2 / 2

/-- Where the wheels are turned fully. -/
noncomputable def fullyTurned (r : Robot) : ℝ := r.maxCurv / r.diffCurv

/-- The centre of the circle that the robot drives from there on: on its left at the distance of the smallest
turning radius. -/
noncomputable def turnCentre (r : Robot) : ℝ × ℝ :=
  let p := turning r (fullyTurned r)
  let a := turningHeading r (fullyTurned r)
  (p.1 - sin a * (1 / r.maxCurv), p.2 + cos a * (1 / r.maxCurv))

private theorem value (lib : EndOfClothoid) (hl : IsEndOfClothoid lib) (r : Robot) (hκ : 0 < r.maxCurv)
    (hσ : 0 < r.diffCurv) :
    smoothTurningRadius lib r = sqrt (d2 r.diffCurv (fullyTurned r) 0) ∧
    turnCentre r = (cx r.diffCurv (fullyTurned r), cy r.diffCurv (fullyTurned r)) ∧
    r.diffCurv * fullyTurned r = r.maxCurv := by
  have hm : r.diffCurv * fullyTurned r = r.maxCurv := by
    unfold fullyTurned; field_simp
  refine ⟨?_, ?_, hm⟩
  · unfold smoothTurningRadius
    rw [hl]
    simp only [d2, cx, cy, px_zero, py_zero, hm, zero_add, zero_mul]
    congr 1
    have e1 : (∫ t in (0 : ℝ)..r.maxCurv / r.diffCurv, cos (r.diffCurv * t ^ 2 / 2)) =
        px r.diffCurv (fullyTurned r) := rfl
    have e2 : (∫ t in (0 : ℝ)..r.maxCurv / r.diffCurv, sin (r.diffCurv * t ^ 2 / 2)) =
        py r.diffCurv (fullyTurned r) := rfl
    have e3 : r.diffCurv * (r.maxCurv / r.diffCurv) ^ 2 / 2 = hd r.diffCurv (fullyTurned r) := rfl
    rw [e1, e2, e3]
    ring
  · simp only [turnCentre, cx, cy, hm]
    rw [mul_one_div, mul_one_div]
    rfl

/-- C100: while the wheels are turned from straight to the largest curvature, the robot stays within the smooth
turning radius of the centre of the circle it drives afterwards, and outside of that circle; the start of the turn is
at the smooth turning radius exactly. -/
theorem C100_turn_within (lib : EndOfClothoid) (hl : IsEndOfClothoid lib) (r : Robot) (hκ : 0 < r.maxCurv)
    (hσ : 0 < r.diffCurv) :
    flatDist (turning r 0) (turnCentre r) = smoothTurningRadius lib r ∧
    flatDist (turning r (fullyTurned r)) (turnCentre r) = 1 / r.maxCurv ∧
    ∀ s, 0 ≤ s → s ≤ fullyTurned r →
      1 / r.maxCurv ≤ flatDist (turning r s) (turnCentre r) ∧
      flatDist (turning r s) (turnCentre r) ≤ smoothTurningRadius lib r := by
  obtain ⟨h1, h2, h3⟩ := value lib hl r hκ hσ
  have hL : 0 < fullyTurned r := div_pos hκ hσ
  have hd : ∀ s, flatDist (turning r s) (turnCentre r) = sqrt (d2 r.diffCurv (fullyTurned r) s) := by
    intro s
    rw [h2]; rfl
  have he : sqrt (d2 r.diffCurv (fullyTurned r) (fullyTurned r)) = 1 / r.maxCurv := by
    rw [d2_end hσ hL, h3]
    exact sqrt_sq (by positivity)
  have hanti := d2_antitone (σ := r.diffCurv) (L := fullyTurned r) hσ
  refine ⟨by rw [hd, h1], by rw [hd, he], fun s hs hs' => ⟨?_, ?_⟩⟩
  · rw [hd, ← he]
    exact sqrt_le_sqrt (hanti ⟨hs, hs'⟩ ⟨hL.le, le_rfl⟩ hs')
  · rw [hd, h1]
    exact sqrt_le_sqrt (hanti ⟨le_rfl, hL.le⟩ ⟨hs, hs'⟩ hs)

/-- C100: the smooth turning radius is at least the smallest turning radius and exceeds it at most by the distance
driven while the wheels are turned. -/
theorem C100_bounds (lib : EndOfClothoid) (hl : IsEndOfClothoid lib) (r : Robot) (hκ : 0 < r.maxCurv)
    (hσ : 0 < r.diffCurv) :
    r.minTurningRadius ≤ smoothTurningRadius lib r ∧ 1 / r.maxCurv ≤ smoothTurningRadius lib r ∧
    smoothTurningRadius lib r ≤ 1 / r.maxCurv + r.maxCurv / r.diffCurv := by
  have hL : 0 < fullyTurned r := div_pos hκ hσ
  obtain ⟨h1, -, h3⟩ := C100_turn_within lib hl r hκ hσ
  have h4 := h3 0 le_rfl hL.le
  have h5 : 1 / r.maxCurv ≤ smoothTurningRadius lib r := h4.1.trans h4.2
  refine ⟨le_trans ?_ h5, h5, ?_⟩
  · unfold Robot.minTurningRadius
    exact one_div_le_one_div_of_le hκ (by norm_num)
  · rw [← h1]
    have hc := chord (σ := r.diffCurv) hL.le
    set x := px r.diffCurv (fullyTurned r) with hx
    set y := py r.diffCurv (fullyTurned r) with hy
    set a := turningHeading r (fullyTurned r) with ha
    have e : flatDist (turning r 0) (turnCentre r) =
        sqrt ((x - sin a * (1 / r.maxCurv)) ^ 2 + (y + cos a * (1 / r.maxCurv)) ^ 2) := by
      have z1 : (turning r 0).1 = 0 := px_zero _
      have z2 : (turning r 0).2 = 0 := py_zero _
      have z3 : (turnCentre r).1 = x - sin a * (1 / r.maxCurv) := rfl
      have z4 : (turnCentre r).2 = y + cos a * (1 / r.maxCurv) := rfl
      rw [flatDist, z1, z2, z3, z4]
      congr 1
      ring
    rw [e]
    show _ ≤ 1 / r.maxCurv + fullyTurned r
    set k := 1 / r.maxCurv with hk
    have hk0 : 0 < k := by rw [hk]; positivity
    refine sqrt_le_iff.2 ⟨by linarith, ?_⟩
    have hsc := sin_sq_add_cos_sq a
    have h6 : -x * sin a + y * cos a ≤ fullyTurned r := by
      refine le_of_sq_le_sq (le_trans ?_ hc) hL.le
      nlinarith [sq_nonneg (x * cos a + y * sin a)]
    have h7 := mul_le_mul_of_nonneg_left h6 hk0.le
    have e : (x - sin a * k) ^ 2 + (y + cos a * k) ^ 2 =
        x ^ 2 + y ^ 2 + 2 * (k * (-x * sin a + y * cos a)) + k ^ 2 * (sin a ^ 2 + cos a ^ 2) := by ring
    rw [e, hsc]
    nlinarith

/-- Driving along a clothoid as assumed. -/
noncomputable def exactClothoid : EndOfClothoid := fun x y θ κ σ _ L =>
  (x + ∫ t in (0 : ℝ)..L, cos (θ + κ * t + σ * t ^ 2 / 2),
   y + ∫ t in (0 : ℝ)..L, sin (θ + κ * t + σ * t ^ 2 / 2), θ + κ * L + σ * L ^ 2 / 2, κ + σ * L)

/-- The default robot: radius 1, and 10/3 until the wheels are turned. -/
example : 1 ≤ smoothTurningRadius exactClothoid Robot.default ∧
    smoothTurningRadius exactClothoid Robot.default ≤ 1 + 10 / 3 := by
  obtain ⟨-, h1, h2⟩ := C100_bounds exactClothoid (fun _ _ _ _ _ _ => rfl) Robot.default
    (by norm_num [Robot.default]) (by norm_num [Robot.default])
  norm_num [Robot.default] at h1 h2 ⊢
  exact ⟨h1, h2⟩

example : ∀ s, 0 ≤ s → s ≤ fullyTurned Robot.default →
    flatDist (turning Robot.default s) (turnCentre Robot.default) ≤
      smoothTurningRadius exactClothoid Robot.default := fun s h h' =>
  ((C100_turn_within exactClothoid (fun _ _ _ _ _ _ => rfl) Robot.default
    (by norm_num [Robot.default]) (by norm_num [Robot.default])).2.2 s h h').2

end F2C.Props
