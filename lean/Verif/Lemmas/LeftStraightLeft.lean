import Mathlib.Analysis.SpecialFunctions.Complex.Arg
import Mathlib.Analysis.SpecialFunctions.Trigonometric.Bounds
import Mathlib.Algebra.Order.ToIntervalMod
import Verif.Lemmas.Turning

/-!
# Curves of a left arc, a straight line and a left arc

An instance of what is assumed of steering_functions in C102.  It is no model of code in /repo.
-/

namespace F2C.LSL

open Real F2C.Turning F2C.Props.TurningSpec

/-- A pose on the circle with the centre `(cx, cy)` that is driven to the left, with heading `φ`. -/
noncomputable def onArc (ρ cx cy φ : ℝ) : SteerState := ⟨cx + ρ * sin φ, cy - ρ * cos φ, φ, 1 / ρ, 1⟩

/-- A pose on the straight line that leaves that circle with heading `φ`. -/
noncomputable def onStraight (ρ cx cy φ s : ℝ) : SteerState :=
  ⟨cx + ρ * sin φ + s * cos φ, cy - ρ * cos φ + s * sin φ, φ, 0, 1⟩

/-- Number of steps of at most `disc`. -/
noncomputable def steps (len disc : ℝ) : Nat := ⌈len / disc⌉₊ + 1

/-- `n + 1` states from `f 0` to `f 1`. -/
noncomputable def sample (n : Nat) (f : ℝ → SteerState) : List SteerState :=
  (List.range (n + 1)).map fun i : Nat => f (i / n)

/-- Angle of the way from one centre to the other. -/
noncomputable def between (dx dy : ℝ) : ℝ := Complex.arg ⟨dx, dy⟩

/-- The angle from one heading to another, to the left. -/
noncomputable def leftTurn (a b : ℝ) : ℝ := toIcoMod two_pi_pos 0 (b - a)

/-- The curve. -/
noncomputable def curve (k disc : ℝ) (a b : SteerState) : List SteerState :=
  let ρ := 1 / k
  let cx := a.x - ρ * sin a.theta
  let cy := a.y + ρ * cos a.theta
  let dx := b.x - ρ * sin b.theta - cx
  let dy := b.y + ρ * cos b.theta - cy
  let φ := between dx dy
  let D := √(dx ^ 2 + dy ^ 2)
  let α := leftTurn a.theta φ
  let β := leftTurn φ b.theta
  sample (steps (ρ * α) disc) (fun t => onArc ρ cx cy (a.theta + t * α)) ++
    (sample (steps D disc) (fun t => onStraight ρ cx cy φ (t * D)) ++
      sample (steps (ρ * β) disc) (fun t => onArc ρ (cx + dx) (cy + dy) (φ + t * β)))

theorem between_spec (dx dy : ℝ) :
    √(dx ^ 2 + dy ^ 2) * cos (between dx dy) = dx ∧ √(dx ^ 2 + dy ^ 2) * sin (between dx dy) = dy := by
  have hn : ‖(⟨dx, dy⟩ : ℂ)‖ = √(dx ^ 2 + dy ^ 2) := by
    rw [Complex.norm_def, Complex.normSq_mk]
    congr 1
    ring
  rw [← hn]
  exact ⟨Complex.norm_mul_cos_arg _, Complex.norm_mul_sin_arg _⟩

theorem leftTurn_nonneg (a b : ℝ) : 0 ≤ leftTurn a b := left_le_toIcoMod _ _ _

theorem leftTurn_same (a b : ℝ) : SameHeading (a + leftTurn a b) b := by
  refine ⟨toIcoDiv two_pi_pos 0 (b - a), ?_⟩
  have := toIcoMod_add_toIcoDiv_zsmul two_pi_pos 0 (b - a)
  rw [zsmul_eq_mul] at this
  unfold leftTurn
  linarith

theorem steps_pos (len disc : ℝ) : (0 : ℝ) < steps len disc := by
  unfold steps
  positivity

theorem steps_le (len disc : ℝ) (hd : 0 < disc) : len / steps len disc ≤ disc := by
  rw [div_le_iff₀ (steps_pos len disc)]
  have h1 : len / disc ≤ steps len disc := (Nat.le_ceil _).trans (by unfold steps; push_cast; linarith)
  rw [div_le_iff₀ hd] at h1
  linarith

theorem sample_head (n : Nat) (f : ℝ → SteerState) : (sample n f).head? = some (f 0) := by
  unfold sample
  rw [List.range_succ_eq_map]
  simp

theorem sample_last (n : Nat) (hn : (0 : ℝ) < n) (f : ℝ → SteerState) : (sample n f).getLast? = some (f 1) := by
  unfold sample
  rw [List.range_succ, List.map_append, List.map_singleton, List.getLast?_concat, div_self hn.ne']

theorem sample_mem {n : Nat} {f : ℝ → SteerState} {s : SteerState} (h : s ∈ sample n f) : ∃ t, s = f t := by
  obtain ⟨i, -, rfl⟩ := List.mem_map.1 h
  exact ⟨_, rfl⟩

theorem sample_chain (n : Nat) (hn : (0 : ℝ) < n) (f : ℝ → SteerState) (R : SteerState → SteerState → Prop)
    (h : ∀ t, R (f t) (f (t + 1 / n))) : (sample n f).IsChain R := by
  unfold sample
  rw [List.isChain_iff_getElem]
  intro i hi
  simp only [List.getElem_map, List.getElem_range]
  have := h (i / n)
  rw [← add_div] at this
  simpa using this

theorem arc_chord (ρ cx cy φ ψ : ℝ) (hρ : 0 ≤ ρ) :
    pdist ⟨(onArc ρ cx cy φ).x, (onArc ρ cx cy φ).y, 0⟩ ⟨(onArc ρ cx cy ψ).x, (onArc ρ cx cy ψ).y, 0⟩ ≤
      ρ * |ψ - φ| := by
  unfold pdist onArc
  simp only
  rw [Real.sqrt_le_left (by positivity), mul_pow, sq_abs]
  have h := one_sub_sq_div_two_le_cos (x := ψ - φ)
  rw [cos_sub] at h
  have e : (cx + ρ * sin φ - (cx + ρ * sin ψ)) ^ 2 + (cy - ρ * cos φ - (cy - ρ * cos ψ)) ^ 2 =
      ρ ^ 2 * ((sin φ ^ 2 + cos φ ^ 2) + (sin ψ ^ 2 + cos ψ ^ 2) - 2 * (cos ψ * cos φ + sin ψ * sin φ)) := by ring
  rw [e, sin_sq_add_cos_sq, sin_sq_add_cos_sq]
  exact mul_le_mul_of_nonneg_left (by linarith) (sq_nonneg ρ)

theorem straight_dist (ρ cx cy φ s t : ℝ) :
    pdist ⟨(onStraight ρ cx cy φ s).x, (onStraight ρ cx cy φ s).y, 0⟩
      ⟨(onStraight ρ cx cy φ t).x, (onStraight ρ cx cy φ t).y, 0⟩ = |t - s| := by
  unfold pdist onStraight
  simp only
  rw [← sqrt_sq_eq_abs]
  congr 1
  have := sin_sq_add_cos_sq φ
  linear_combination (t - s) ^ 2 * this

/-- Consecutive states: near in place and heading. -/
def Step (k disc : ℝ) (s t : SteerState) : Prop :=
  pdist ⟨s.x, s.y, 0⟩ ⟨t.x, t.y, 0⟩ ≤ disc ∧ NearHeading (k * disc) s.theta t.theta

theorem arc_step (k disc cx cy θ α : ℝ) (hk : 0 < k) (hd : 0 < disc) (hα : 0 ≤ α) :
    (sample (steps (1 / k * α) disc) fun t => onArc (1 / k) cx cy (θ + t * α)).IsChain (Step k disc) := by
  have hn := steps_pos (1 / k * α) disc
  have hle := steps_le (1 / k * α) disc hd
  refine sample_chain _ hn _ _ fun t => ?_
  generalize steps (1 / k * α) disc = n at hn hle
  have e : θ + (t + 1 / n) * α - (θ + t * α) = α / n := by ring
  have h0 : 0 ≤ α / n := div_nonneg hα hn.le
  have hle' : 1 / k * (α / n) ≤ disc := by rw [← mul_div_assoc]; exact hle
  refine ⟨(arc_chord _ _ _ _ _ (by positivity)).trans ?_, 0, ?_⟩
  · rw [e, abs_of_nonneg h0]
    exact hle'
  · show |θ + t * α - (θ + (t + 1 / n) * α) + _| ≤ _
    rw [show θ + t * α - (θ + (t + 1 / n) * α) + ((0 : ℤ) : ℝ) * (2 * π) = -(α / n) by push_cast; ring, abs_neg,
      abs_of_nonneg h0]
    rw [one_div, inv_mul_le_iff₀ hk] at hle'
    exact hle'

theorem straight_step (k disc cx cy φ D : ℝ) (hk : 0 < k) (hd : 0 < disc) (hD : 0 ≤ D) :
    (sample (steps D disc) fun t => onStraight (1 / k) cx cy φ (t * D)).IsChain (Step k disc) := by
  have hn := steps_pos D disc
  have hle := steps_le D disc hd
  refine sample_chain _ hn _ _ fun t => ?_
  generalize steps D disc = n at hn hle
  refine ⟨?_, 0, ?_⟩
  · rw [straight_dist, show (t + 1 / n) * D - t * D = D / n by ring, abs_of_nonneg (div_nonneg hD hn.le)]
    exact hle
  · simp only [onStraight]
    simp only [sub_self, Int.cast_zero, zero_mul, add_zero, abs_zero]
    positivity

/-- The curve starts and ends in the given poses, has small steps and bends no more than allowed. -/
theorem curve_spec (k disc : ℝ) (a b : SteerState) (hk : 0 < k) (hd : 0 < disc) :
    (∃ f, (curve k disc a b).head? = some f ∧ f.x = a.x ∧ f.y = a.y ∧ SameHeading f.theta a.theta) ∧
    (∃ l, (curve k disc a b).getLast? = some l ∧ l.x = b.x ∧ l.y = b.y ∧ SameHeading l.theta b.theta) ∧
    (curve k disc a b).IsChain (Step k disc) ∧ ∀ s ∈ curve k disc a b, s.d = 1 := by
  unfold curve
  simp only
  set cx := a.x - 1 / k * sin a.theta with hcx
  set cy := a.y + 1 / k * cos a.theta with hcy
  set dx := b.x - 1 / k * sin b.theta - cx with hdx
  set dy := b.y + 1 / k * cos b.theta - cy with hdy
  obtain ⟨b1, b2⟩ := between_spec dx dy
  set φ := between dx dy
  set D := √(dx ^ 2 + dy ^ 2) with hDdef
  have hD : 0 ≤ D := sqrt_nonneg _
  have hα := leftTurn_nonneg a.theta φ
  have hβ := leftTurn_nonneg φ b.theta
  have sα := leftTurn_same a.theta φ
  have sβ := leftTurn_same φ b.theta
  set α := leftTurn a.theta φ
  set β := leftTurn φ b.theta
  have near : ∀ {u v : ℝ}, SameHeading u v → NearHeading (k * disc) u v := by
    rintro u v ⟨n, rfl⟩
    refine ⟨n, ?_⟩
    rw [show u - (u + n * (2 * π)) + n * (2 * π) = 0 by ring, abs_zero]
    positivity
  have trig : ∀ {u v : ℝ}, SameHeading u v → sin u = sin v ∧ cos u = cos v := by
    rintro u v ⟨n, rfl⟩
    exact ⟨(sin_add_int_mul_two_pi u n).symm, (cos_add_int_mul_two_pi u n).symm⟩
  refine ⟨⟨onArc (1 / k) cx cy (a.theta + 0 * α), ?_, ?_⟩,
    ⟨onArc (1 / k) (cx + dx) (cy + dy) (φ + 1 * β), ?_, ?_⟩, ?_, ?_⟩
  · rw [List.head?_append, sample_head]
    rfl
  · simp only [onArc, zero_mul, add_zero]
    exact ⟨by rw [hcx]; ring, by rw [hcy]; ring, SameHeading.refl _⟩
  · rw [List.getLast?_append, List.getLast?_append, sample_last _ (steps_pos _ _)]
    rfl
  · simp only [onArc, one_mul]
    obtain ⟨t1, t2⟩ := trig sβ
    rw [t1, t2]
    exact ⟨by rw [hdx]; ring, by rw [hdy]; ring, sβ⟩
  · rw [List.isChain_append]
    refine ⟨arc_step k disc cx cy _ α hk hd hα, ?_, ?_⟩
    · rw [List.isChain_append]
      refine ⟨straight_step k disc cx cy φ D hk hd hD, arc_step k disc _ _ φ β hk hd hβ, ?_⟩
      intro s hs t ht
      rw [sample_last _ (steps_pos _ _)] at hs
      rw [sample_head] at ht
      cases hs; cases ht
      refine ⟨le_of_eq_of_le ?_ hd.le, near ?_⟩
      · simp only [onStraight, onArc, one_mul, zero_mul, add_zero]
        rw [b1, b2, show cx + 1 / k * sin φ + dx = cx + dx + 1 / k * sin φ by ring,
          show cy - 1 / k * cos φ + dy = cy + dy - 1 / k * cos φ by ring]
        simp [pdist]
      · simp only [onStraight, onArc, zero_mul, add_zero]
        exact SameHeading.refl _
    · intro s hs t ht
      rw [sample_last _ (steps_pos _ _)] at hs
      rw [List.head?_append, sample_head] at ht
      cases hs; cases ht
      obtain ⟨t1, t2⟩ := trig sα
      refine ⟨le_of_eq_of_le ?_ hd.le, near ?_⟩
      · simp only [onStraight, onArc, one_mul, zero_mul, add_zero]
        rw [t1, t2]
        simp [pdist]
      · simp only [onStraight, onArc, one_mul]
        exact sα
  · intro s hs
    rcases List.mem_append.1 hs with hs | hs
    · obtain ⟨t, rfl⟩ := sample_mem hs; rfl
    rcases List.mem_append.1 hs with hs | hs
    · obtain ⟨t, rfl⟩ := sample_mem hs; rfl
    · obtain ⟨t, rfl⟩ := sample_mem hs; rfl

end F2C.LSL
