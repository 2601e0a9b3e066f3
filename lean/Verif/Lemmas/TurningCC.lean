import Verif.Lemmas.Turning

/-! # More lemmas about turns: normal form of moved turns, cache keys, the search for loop free curves,
steering states -/

namespace F2C

open Real Turning Props.TurningSpec

set_option linter.unusedSimpArgs false
set_option linter.unusedVariables false

theorem angle_unit : angleFromPoint (Point.sub ⟨1, 0, 0⟩ ⟨0, 0, 0⟩) = 0 := by
  rw [angleFromPoint_eq]
  have : (⟨(Point.sub (⟨1, 0, 0⟩ : RPoint) ⟨0, 0, 0⟩).x,
    (Point.sub (⟨1, 0, 0⟩ : RPoint) ⟨0, 0, 0⟩).y⟩ : ℂ) = 1 := by
    apply Complex.ext <;> simp [Point.sub]
  rw [this, Complex.arg_one]
  exact mod2pi_of_range (le_refl _) (by positivity)

theorem angle_null : angleFromPoint (Point.sub (⟨0, 0, 0⟩ : RPoint) ⟨0, 0, 0⟩) = 0 := by
  rw [angleFromPoint_eq]
  have : (⟨(Point.sub (⟨0, 0, 0⟩ : RPoint) ⟨0, 0, 0⟩).x,
    (Point.sub (⟨0, 0, 0⟩ : RPoint) ⟨0, 0, 0⟩).y⟩ : ℂ) = 0 := by
    apply Complex.ext <;> simp [Point.sub]
  rw [this, Complex.arg_zero]
  exact mod2pi_of_range (le_refl _) (by positivity)

/-! ## normal form -/

/-- start angle, end angle and inversion from the relative headings -/
noncomputable def half (u v : ℝ) : ℝ × ℝ × Bool :=
  if mod2pi u > π then (mod2pi (-mod2pi u), mod2pi (-mod2pi v), true) else (mod2pi u, mod2pi v, false)

theorem normal_half (p1 p2 : RPoint) (a1 a2 : ℝ) :
    ((normalTurn p1 a1 p2 a2).start, (normalTurn p1 a1 p2 a2).stop,
      (normalTurn p1 a1 p2 a2).inverted) =
    half (a1 - mod2pi (angleFromPoint (p2.sub p1))) (a2 - mod2pi (angleFromPoint (p2.sub p1))) := by
  unfold normalTurn half
  simp only
  split <;> rfl

theorem half_congr {u v u' v' : ℝ} (h : SameHeading u u') (h' : SameHeading v v') :
    half u v = half u' v' := by
  unfold half
  rw [(sameHeading_iff _ _).1 h, (sameHeading_iff _ _).1 h']

theorem mod2pi_neg {u : ℝ} (h : mod2pi u ≠ 0) : mod2pi (-u) = 2 * π - mod2pi u := by
  have h0 := mod2pi_nonneg u
  have h1 := mod2pi_lt u
  obtain ⟨k, hk⟩ := mod2pi_congr u
  have : 0 < mod2pi u := lt_of_le_of_ne h0 (Ne.symm h)
  exact mod2pi_unique (by linarith) (by linarith) ⟨1 - k, by rw [hk]; push_cast; ring⟩

theorem half_neg {u v : ℝ} (h0 : (half u v).1 ≠ 0) (hp : (half u v).1 ≠ π) :
    (half (-u) (-v)).1 = (half u v).1 ∧ (half (-u) (-v)).2.1 = (half u v).2.1 ∧
    (half (-u) (-v)).2.2 = !(half u v).2.2 := by
  have hpi := Real.pi_pos
  have hl := mod2pi_lt u
  have hn := mod2pi_nonneg u
  have hm : ∀ w : ℝ, mod2pi (-mod2pi w) = mod2pi (-w) := fun w =>
    (sameHeading_iff _ _).1 (sameHeading_mod2pi w).symm.neg
  have hm2 : ∀ w : ℝ, mod2pi (-mod2pi (-w)) = mod2pi w := fun w => by rw [hm, neg_neg]
  by_cases hu : mod2pi u > π
  · have e : half u v = (mod2pi (-mod2pi u), mod2pi (-mod2pi v), true) := by
      unfold half; rw [if_pos hu]
    have hne : mod2pi u ≠ 0 := by linarith
    have e2 : half (-u) (-v) = (mod2pi (-u), mod2pi (-v), false) := by
      unfold half
      rw [if_neg]
      rw [mod2pi_neg hne]; linarith
    rw [e, e2]
    simp [hm]
  · have e : half u v = (mod2pi u, mod2pi v, false) := by unfold half; rw [if_neg hu]
    rw [e] at h0 hp
    simp only at h0 hp
    have e2 : half (-u) (-v) = (mod2pi (-mod2pi (-u)), mod2pi (-mod2pi (-v)), true) := by
      unfold half
      rw [if_pos]
      rw [mod2pi_neg h0]
      have := lt_of_le_of_ne (not_lt.1 hu) hp
      linarith
    rw [e, e2]
    simp [hm2]

theorem normal_moved (m : Placement) (p1 p2 q1 q2 : RPoint) (a1 a2 b1 b2 : ℝ)
    (h1 : xy q1 = m.map (xy p1)) (h2 : xy q2 = m.map (xy p2))
    (g1 : SameHeading b1 (m.heading a1)) (g2 : SameHeading b2 (m.heading a2))
    (hd : ¬ (p1.x = p2.x ∧ p1.y = p2.y))
    (hm : m.flip = true → (normalTurn p1 a1 p2 a2).start ≠ 0 ∧ (normalTurn p1 a1 p2 a2).start ≠ π) :
    (normalTurn q1 b1 q2 b2).dist = (normalTurn p1 a1 p2 a2).dist ∧
    (normalTurn q1 b1 q2 b2).start = (normalTurn p1 a1 p2 a2).start ∧
    (normalTurn q1 b1 q2 b2).stop = (normalTurn p1 a1 p2 a2).stop ∧
    (normalTurn q1 b1 q2 b2).inverted = ((normalTurn p1 a1 p2 a2).inverted != m.flip) := by
  have hdist : pdist q1 q2 = pdist p1 p2 := by
    have := Placement.map_dist m (xy p1) (xy p2)
    rw [← h1, ← h2] at this
    exact this
  have hne : pdist p1 p2 ≠ 0 := fun h => hd ((pdist_eq_zero p1 p2).1 h)
  obtain ⟨c1, s1⟩ := pdist_polar p1 p2
  obtain ⟨c2, s2⟩ := pdist_polar q1 q2
  rw [hdist] at c2 s2
  set φ := angleFromPoint (p2.sub p1) with hφ
  set ψ := angleFromPoint (q2.sub q1) with hψ
  have hang : SameHeading ψ (m.heading φ) := by
    simp only [xy, Placement.map, Prod.mk.injEq] at h1 h2
    have hx : q2.x - q1.x = cos m.rot * (p2.x - p1.x) -
        sin m.rot * (if m.flip then -(p2.y - p1.y) else p2.y - p1.y) := by
      rw [h1.1, h2.1]; cases m.flip <;> simp <;> ring
    have hy : q2.y - q1.y = sin m.rot * (p2.x - p1.x) +
        cos m.rot * (if m.flip then -(p2.y - p1.y) else p2.y - p1.y) := by
      rw [h1.2, h2.2]; cases m.flip <;> simp <;> ring
    rw [hx, ← c1, ← s1] at c2
    rw [hy, ← c1, ← s1] at s2
    apply sameHeading_of_cos_sin
    · apply mul_left_cancel₀ hne
      rw [c2]
      unfold Placement.heading
      cases m.flip <;> simp [cos_add] <;> ring
    · apply mul_left_cancel₀ hne
      rw [s2]
      unfold Placement.heading
      cases m.flip <;> simp [sin_add] <;> ring
  have hrel : ∀ a b : ℝ, SameHeading b (m.heading a) →
      SameHeading (b - mod2pi ψ) (if m.flip then -(a - mod2pi φ) else a - mod2pi φ) := by
    intro a b hb
    have hψ' : SameHeading (mod2pi ψ) (m.heading (mod2pi φ)) := by
      refine ((sameHeading_mod2pi ψ).symm.trans hang).trans ?_
      unfold Placement.heading
      cases m.flip
      · exact (sameHeading_mod2pi φ).add (SameHeading.refl _)
      · exact (sameHeading_mod2pi φ).neg.add (SameHeading.refl _)
    have := hb.sub hψ'
    unfold Placement.heading at this
    cases hf : m.flip
    · simpa [hf] using this
    · simp only [hf, if_true] at this ⊢
      have e : -a + m.rot - (-mod2pi φ + m.rot) = -(a - mod2pi φ) := by ring
      rwa [e] at this
  have n1 := normal_half p1 p2 a1 a2
  have n2 := normal_half q1 q2 b1 b2
  rw [← hφ] at n1
  rw [← hψ] at n2
  rw [half_congr (hrel a1 b1 g1) (hrel a2 b2 g2)] at n2
  refine ⟨by rw [normal_dist, normal_dist, hdist], ?_⟩
  cases hf : m.flip
  · simp only [hf, Bool.false_eq_true, if_false] at n2
    rw [← n1] at n2
    simp only [Prod.mk.injEq] at n2
    refine ⟨n2.1, n2.2.1, ?_⟩
    rw [n2.2.2]; simp
  · simp only [hf, if_true] at n2
    obtain ⟨k0, kp⟩ := hm hf
    have e0 := congrArg Prod.fst n1
    simp only at e0
    rw [e0] at k0 kp
    obtain ⟨r1, r2, r3⟩ := half_neg k0 kp
    have m1 := congrArg Prod.fst n2
    have m2 := congrArg (fun x => x.2.1) n2
    have m3 := congrArg (fun x => x.2.2) n2
    have l2 := congrArg (fun x => x.2.1) n1
    have l3 := congrArg (fun x => x.2.2) n1
    simp only at m1 m2 m3 l2 l3
    rw [m1, m2, m3, r1, r2, r3, ← e0, ← l2, ← l3]
    simp

/-! ## keys -/

theorem toInt_defined {v : ℝ} (h : |v| ≤ 2000000) : ∃ k, Path.toInt (1000 * v) = .ok k := by
  rw [abs_le] at h
  unfold Path.toInt
  simp only
  have hb : ¬ ((if 0 ≤ 1000 * v then ⌊1000 * v⌋ else ⌈1000 * v⌉) < -2147483648 ∨
      2147483647 < (if 0 ≤ 1000 * v then ⌊1000 * v⌋ else ⌈1000 * v⌉)) := by
    have f1 : (-2000000000 : ℤ) ≤ ⌊1000 * v⌋ := by
      rw [Int.le_floor]; push_cast; linarith
    have f2 : ⌊1000 * v⌋ ≤ (2000000000 : ℤ) := by
      have : (⌊1000 * v⌋ : ℝ) ≤ 2000000000 := le_trans (Int.floor_le _) (by linarith)
      exact_mod_cast this
    have g1 : (-2000000000 : ℤ) ≤ ⌈1000 * v⌉ := le_trans f1 (Int.floor_le_ceil _)
    have g2 : ⌈1000 * v⌉ ≤ (2000000000 : ℤ) := by
      rw [Int.ceil_le]; push_cast; linarith
    split <;> omega
  rw [if_neg hb]
  exact ⟨_, rfl⟩

theorem key_defined (r : Robot) (d a b : ℝ)
    (h : ∀ v ∈ [r.maxCurv, r.diffCurv, d, a, b], |v| ≤ 2000000) : ∃ k, key r d a b = .ok k := by
  simp only [List.mem_cons, List.not_mem_nil, or_false, forall_eq_or_imp, forall_eq] at h
  obtain ⟨h1, h2, h3, h4, h5⟩ := h
  obtain ⟨k1, e1⟩ := toInt_defined h1
  obtain ⟨k2, e2⟩ := toInt_defined h2
  obtain ⟨k3, e3⟩ := toInt_defined h3
  obtain ⟨k4, e4⟩ := toInt_defined h4
  obtain ⟨k5, e5⟩ := toInt_defined h5
  refine ⟨[k1, k2, k3, k4, k5], ?_⟩
  unfold key
  rw [e1, e2, e3, e4, e5]; rfl

theorem turn_new (solve : Solver) (t : Planner) (r : Robot) (d a b : ℝ) (k : List Int) (p : Path)
    (hk : key r d a b = .ok k) (hl : t.cache.lookup k = none)
    (hs : solve r t.disc d a b = .ok p) :
    turnIfNotCached solve t r d a b = .ok (p, { t with cache := (k, p) :: t.cache }) := by
  unfold turnIfNotCached
  rw [hk, Outcome.ok_bind]
  simp only [hl]
  rw [hs]; rfl

/-! ## search -/

theorem ccLoop_spec (c : Curves) (r : Robot) : ∀ (fuel n : Nat), n ≤ 21 → 22 - n ≤ fuel →
    ∃ k, ccLoop c r true fuel n = .ok k ∧ k ≤ 21 ∧ n ≤ k ∧
      (∀ m, n ≤ m → m < k → Loops (c.controls (limits r m).1 (limits r m).2)) ∧
      (¬ Loops (c.controls (limits r k).1 (limits r k).2) ∨ k = 21) := by
  intro fuel
  induction fuel with
  | zero => intro n hn hf; omega
  | succ fuel ih =>
    intro n hn hf
    unfold ccLoop
    by_cases h : (true = true) ∧ loopDetected (c.controls (limits r n).1 (limits r n).2) = true ∧ n ≤ 20
    · rw [if_pos h]
      obtain ⟨k, hk, h21, hnk, hall, hlast⟩ := ih (n + 1) (by omega) (by omega)
      refine ⟨k, hk, h21, by omega, fun m hm hmk => ?_, hlast⟩
      rcases Nat.eq_or_lt_of_le hm with rfl | hlt
      · exact (loopDetected_iff _).1 h.2.1
      · exact hall m hlt hmk
    · rw [if_neg h]
      refine ⟨n, rfl, hn, le_refl _, fun m h1 h2 => absurd h1 (by omega), ?_⟩
      by_cases hl : loopDetected (c.controls (limits r n).1 (limits r n).2) = true
      · right
        by_contra h21
        exact h ⟨rfl, hl, by omega⟩
      · left; rw [← loopDetected_iff]; exact hl

/-! ## states -/

theorem steerDir_ok {d : ℝ} (h : d = 1 ∨ d = -1) :
    ∃ e, steerDir d = .ok e ∧ (e = .forward ↔ d = 1) := by
  unfold steerDir
  rcases h with rfl | rfl
  · exact ⟨.forward, by simp, by simp⟩
  · refine ⟨.backward, ?_, ?_⟩
    · rw [if_neg (by norm_num), if_pos rfl]
    · simp; norm_num

theorem steerToPath_spec (vel : ℝ) (ss : List SteerState) (hd : ∀ s ∈ ss, s.d = 1 ∨ s.d = -1) :
    ∃ p, steerToPath vel ss = .ok p ∧
      List.Forall₂ (fun s t => t.point = ⟨s.x, s.y, 0⟩ ∧ t.angle = s.theta ∧ t.velocity = vel ∧
        t.type = .turn ∧ (t.dir = .forward ↔ s.d = 1) ∧ 0 ≤ t.len) ss p ∧
      (∀ (i : Nat) (t u : PathState ℝ), p[i]? = some t → p[i + 1]? = some u →
        t.len = pdist t.point u.point) ∧
      (∀ t, List.getLast? p = some t → t.len = 0) ∧
      p.totalLength = lineLength (ss.map fun s => ⟨s.x, s.y, 0⟩) := by
  induction ss with
  | nil =>
    refine ⟨[], rfl, .nil, by simp, by simp, ?_⟩
    rw [totalLength_eq]; simp [Props.PathSpec.lengthOf, lineLength]
  | cons a l ih =>
    obtain ⟨dir, hdir, hiff⟩ := steerDir_ok (hd a List.mem_cons_self)
    cases l with
    | nil =>
      refine ⟨[⟨⟨a.x, a.y, 0⟩, a.theta, 0, dir, .turn, vel⟩], ?_, ?_, ?_, ?_, ?_⟩
      · unfold steerToPath; rw [hdir]; rfl
      · exact .cons ⟨rfl, rfl, rfl, rfl, hiff, le_refl _⟩ .nil
      · intro i t u h1 h2; simp at h2
      · intro t ht; simp at ht; rw [← ht]
      · rw [totalLength_eq]; simp [Props.PathSpec.lengthOf, lineLength]
    | cons b l =>
      obtain ⟨p, hp, hall, hnext, hlast, hlen⟩ := ih fun s hs => hd s (List.mem_cons_of_mem _ hs)
      refine ⟨⟨⟨a.x, a.y, 0⟩, a.theta, pdist ⟨a.x, a.y, 0⟩ ⟨b.x, b.y, 0⟩, dir, .turn, vel⟩ :: p,
        ?_, ?_, ?_, ?_, ?_⟩
      · unfold steerToPath; rw [hdir, Outcome.ok_bind, hp, Outcome.ok_bind]; rfl
      · exact .cons ⟨rfl, rfl, rfl, rfl, hiff, pdist_nonneg _ _⟩ hall
      · intro i t u h1 h2
        cases i with
        | zero =>
          simp only [List.getElem?_cons_zero, Option.some.injEq] at h1
          simp only [List.getElem?_cons_succ] at h2
          subst h1
          cases hall with
          | cons hb hrest =>
            simp only [List.getElem?_cons_zero, Option.some.injEq] at h2
            subst h2
            rw [hb.1]
        | succ i =>
          simp only [List.getElem?_cons_succ] at h1 h2
          exact hnext i t u h1 h2
      · intro t ht
        cases hall with
        | cons hb hrest => exact hlast t (by rwa [List.getLast?_cons_cons] at ht)
      · rw [totalLength_eq] at hlen ⊢
        rw [lengthOf_cons, hlen]
        simp only [List.map_cons, lineLength]
        rw [abs_of_nonneg (pdist_nonneg _ _)]

theorem onCurve_length {curve : ℝ → RPoint} {len : ℝ} (hl : 0 ≤ len) {ts : List ℝ}
    {ss : List SteerState} (h : OnCurve curve len ts ss) :
    lineLength (ss.map fun s => ⟨s.x, s.y, 0⟩) ≤ len := by
  have key : ∀ (ts : List ℝ) (ss : List SteerState), ts.Pairwise (· ≤ ·) → (∀ t ∈ ts, t ≤ len) →
      ss.map (fun s => ((s.x, s.y) : ℝ × ℝ)) = ts.map (fun t => xy (curve t)) →
      ∀ t0, (∀ t ∈ ts, t0 ≤ t) → t0 ≤ len →
      lineLength (ss.map fun s => ⟨s.x, s.y, 0⟩) ≤ len - t0 := by
    intro ts
    induction ts with
    | nil =>
      intro ss _ _ hm t0 _ h0
      have : ss = [] := by simpa using hm
      subst this
      simpa [lineLength] using h0
    | cons t ts ih =>
      intro ss hs hi hm t0 h0 hlen
      cases ss with
      | nil => simp at hm
      | cons s ss =>
        simp only [List.map_cons, List.cons.injEq] at hm
        cases ss with
        | nil => simpa [lineLength] using hlen
        | cons s' ss =>
          cases ts with
          | nil => simp at hm
          | cons t' ts =>
            have ih' := ih (s' :: ss) hs.tail (fun x hx => hi x (List.mem_cons_of_mem _ hx)) hm.2 t'
              (fun x hx => by
                rcases List.mem_cons.1 hx with rfl | hx
                · exact le_refl _
                · exact List.rel_of_pairwise_cons hs.tail hx)
              (hi t' (by simp))
            have hm2 := hm.2
            simp only [List.map_cons, List.cons.injEq] at hm2
            have hst : pdist ⟨s.x, s.y, 0⟩ ⟨s'.x, s'.y, 0⟩ ≤ t' - t := by
              have := h.speed t t'
              rw [abs_of_nonneg (by linarith [List.rel_of_pairwise_cons hs (List.mem_cons_self (a := t'))])] at this
              have e : pdist (⟨s.x, s.y, 0⟩ : RPoint) ⟨s'.x, s'.y, 0⟩ = pdist (curve t) (curve t') :=
                pdist_congr hm.1 hm2.1
              rw [e]; exact this
            have ht0 := h0 t List.mem_cons_self
            simp only [List.map_cons, lineLength] at ih' ⊢
            linarith
  have := key ts ss h.sorted (fun t ht => (h.inside t ht).2) h.points 0
    (fun t ht => (h.inside t ht).1) hl
  linarith

end F2C
