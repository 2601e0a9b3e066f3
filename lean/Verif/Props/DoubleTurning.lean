import Verif.Lemmas.DoubleTurning
import Verif.Props.DoubleTracks
import Verif.Props.Turning

/-! # C140: turns in double precision -/

namespace F2C.Props

open Dbl TurningSpec DoubleTracksSpec

variable {fl cos sin : ℝ → ℝ} {atan2 : ℝ → ℝ → ℝ}

private theorem trig_of_library (h : Library cos sin) : IsTrig cos sin := by
  have e : (1 : ℝ) / 2 ^ 52 = 2 * u53 := by norm_num [u53]
  constructor
  · intro a ha
    rw [← e]
    exact (h a ha).1
  · intro a ha
    rw [← e]
    exact (h a ha).2

/-- C140, the normal form: the request handed to the solver has a direction of at most half a revolution to start with; moved
back, it joins the poses up to 2^-42 of the largest coordinate and 2^-45 rad. -/
theorem C140_normal_form (h : IsRounding fl) (ha : IsAtan2 atan2) {M : ℝ} (hM : 1 ≤ M) (hM' : M ≤ 2 ^ 400) (p1 p2 : RPoint)
    (h1 : DoublePoint M p1) (h2 : DoublePoint M p2) (a1 a2 : ℝ) (ha1 : |a1| ≤ 50) (ha2 : |a2| ≤ 50) :
    let n := Dbl.normalTurn fl atan2 p1 a1 p2 a2
    let m : Placement := ⟨n.inverted, n.angle, p1.x, p1.y⟩
    0 ≤ n.start ∧ n.start ≤ Real.pi ∧ 0 ≤ n.stop ∧ n.stop < 2 * Real.pi ∧
    |n.dist - pdist p1 p2| ≤ M / 2 ^ 46 ∧ m.map (0, 0) = xy p1 ∧ NearXY (M / 2 ^ 42) (m.map (n.dist, 0)) (xy p2) ∧
    NearHeading (1 / 2 ^ 45) (m.heading n.start) a1 ∧ NearHeading (1 / 2 ^ 45) (m.heading n.stop) a2 := by
  obtain ⟨r1, r2, r3, r4⟩ := Dbl.normal_ranges (atan2 := atan2) h p1 p2 a1 a2
  obtain ⟨d1, d2⟩ := normal_point h ha hM hM' h1 h2 a1 a2
  obtain ⟨b1, b2⟩ := normal_heading (atan2 := atan2) h p1 p2 ha1 ha2
  have e := twoPi_eq
  have l := pi_error.1
  exact ⟨r1, by linarith, r3, by linarith, d1, by simp [Placement.map, xy], d2, b1, b2⟩

/-- C140, the turn is computed (the cache is off or empty): it is empty, or starts and ends exactly in the two positions. -/
theorem C140_computed (h : IsRounding fl) (hl : Library cos sin) (ha : IsAtan2 atan2) {M ε δ : ℝ} (hM : 1 ≤ M) (hε0 : 0 ≤ ε)
    (hε : ε + M / 2 ^ 40 ≤ 1 / 20) (solve : Turning.Solver) (hs : SoundSolver ε δ M solve) (t t' : Turning.Planner)
    (hnew : t.useCache = false ∨ t.cache = []) (r : Robot) (p1 p2 : RPoint) (a1 a2 : ℝ) (hp : Poses M p1 a1 p2 a2) (q : Path)
    (hq : Dbl.createTurn fl cos sin atan2 solve t r p1 a1 p2 a2 = .ok (q, t')) :
    q = [] ∨ Joins (δ + 1 / 2 ^ 44) p1 a1 p2 a2 q := by
  have hM' : M ≤ 2 ^ 400 := by
    have : (2 : ℝ) ^ 40 ≤ 2 ^ 400 := pow_le_pow_right₀ (by norm_num) (by norm_num)
    refine le_trans ?_ this
    norm_num at *
    linarith
  obtain ⟨p, rfl, hc⟩ := Dbl.createTurn_ok hq
  have fits := normal_fits h ha hM hM' hp
  refine Dbl.finish_joins h (trig_of_library hl) ha hM hM' hε hp ?_
  rcases simpleTurn_ok hc with ⟨hu, k, -, ⟨hk, -⟩ | ⟨ho, -⟩⟩ | ⟨-, ho, -⟩
  · rcases hnew with hn | hn
    · rw [hn] at hu; cases hu
    · rw [hn] at hk; simp at hk
  · exact hs _ _ _ _ _ _ fits ho
  · exact hs _ _ _ _ _ _ fits ho

/-- C140, for a planner with a past: the cache costs a good millimetre of the 5 cm, and a good milliradian of the headings. -/
theorem C140_used (h : IsRounding fl) (hl : Library cos sin) (ha : IsAtan2 atan2) {M ε δ : ℝ} (hM : 1 ≤ M) (hε0 : 0 ≤ ε)
    (hε : ε + M / 2 ^ 40 ≤ 489 / 10000) (solve : Turning.Solver) (hs : SoundSolver ε δ M solve) (t t' : Turning.Planner)
    (ht : Used fl cos sin atan2 solve M t) (r : Robot) (p1 p2 : RPoint) (a1 a2 : ℝ) (hp : Poses M p1 a1 p2 a2) (q : Path)
    (hq : Dbl.createTurn fl cos sin atan2 solve t r p1 a1 p2 a2 = .ok (q, t')) :
    q = [] ∨ Joins (δ + 11 / 10000) p1 a1 p2 a2 q := by
  have hM' : M ≤ 2 ^ 400 := by
    have : (2 : ℝ) ^ 40 ≤ 2 ^ 400 := pow_le_pow_right₀ (by norm_num) (by norm_num)
    refine le_trans ?_ this
    norm_num at *
    linarith
  obtain ⟨p, rfl, hc⟩ := Dbl.createTurn_ok hq
  have fits := normal_fits h ha hM hM' hp
  have key : Sound (ε + 1001 / 1000000) (δ + 1001 / 1000000) M (Dbl.normalTurn fl atan2 p1 a1 p2 a2).dist
      (Dbl.normalTurn fl atan2 p1 a1 p2 a2).start (Dbl.normalTurn fl atan2 p1 a1 p2 a2).stop p := by
    generalize Dbl.normalTurn fl atan2 p1 a1 p2 a2 = n at *
    have weaken : ∀ {d a b : ℝ}, |n.dist - d| ≤ 1001 / 1000000 → |n.start - a| ≤ 1001 / 1000000 → |n.stop - b| ≤ 1001 / 1000000 →
        Sound ε δ M d a b p → Sound (ε + 1001 / 1000000) (δ + 1001 / 1000000) M n.dist n.start n.stop p := by
      intro d a b hd hda hdb hsd
      refine ⟨hsd.states, fun f l hf hl => ?_⟩
      obtain ⟨e1, e2, e3, e4⟩ := hsd.ends f l hf hl
      have t := pdist_triangle l.point ⟨d, 0, 0⟩ ⟨n.dist, 0, 0⟩
      have t2 : pdist (⟨d, 0, 0⟩ : RPoint) ⟨n.dist, 0, 0⟩ ≤ 1001 / 1000000 := by
        rw [abs_sub_comm] at hd
        unfold pdist
        simp only [sub_self, ne_eq, OfNat.ofNat_ne_zero, not_false_eq_true, zero_pow, add_zero, Real.sqrt_sq_eq_abs]
        exact hd
      rw [abs_sub_comm] at hda hdb
      exact ⟨by linarith, near_trans e2 (near_of_abs hda), by linarith, near_trans e4 (near_of_abs hdb)⟩
    have self : Sound ε δ M n.dist n.start n.stop p → Sound (ε + 1001 / 1000000) (δ + 1001 / 1000000) M n.dist n.start n.stop p :=
      weaken (by norm_num) (by norm_num) (by norm_num)
    rcases simpleTurn_ok hc with ⟨-, k, hk, ⟨hlk, -⟩ | ⟨ho, -⟩⟩ | ⟨-, ho, -⟩
    · obtain ⟨r0, disc, d, a, b, f0, k0, ho⟩ := used_cache h ha hM hM' ht k p (lookup_mem hlk)
      obtain ⟨n1, n2, n3⟩ := turnKey_near h fits f0 hk k0
      exact weaken n1 n2 n3 (hs _ _ _ _ _ _ f0 ho)
    · exact self (hs _ _ _ _ _ _ fits ho)
    · exact self (hs _ _ _ _ _ _ fits ho)
  refine (Dbl.finish_joins h (trig_of_library hl) ha hM hM' (by linarith) hp key).imp id ?_
  rintro ⟨f, l, e1, e2, e3, e4, e5, e6⟩
  exact ⟨f, l, e1, e2, e3, e4, near_mono e5 (by norm_num; linarith), near_mono e6 (by norm_num; linarith)⟩

/-- C140, between the ends: the solver's path is moved as a whole, up to 2^-49 of the largest coordinate and 2^-45 rad; lengths,
directions, types and velocities stay.  The ends are either moved like this or put on the targets. -/
theorem C140_shape (h : IsRounding fl) (hl : Library cos sin) (ha : IsAtan2 atan2) {M : ℝ} (hM : 1 ≤ M) (hM' : M ≤ 2 ^ 400)
    (solve : Turning.Solver) (t t' : Turning.Planner) (hc : t.useCache = false) (r : Robot) (p1 p2 : RPoint) (a1 a2 : ℝ)
    (hp : Poses M p1 a1 p2 a2)
    (hs : ∀ d a b p, Fits M d a b → solve r t.disc d a b = .ok p → ∀ s ∈ p, DoublePoint M s.point ∧ |s.angle| ≤ 50) (q : Path)
    (hq : Dbl.createTurn fl cos sin atan2 solve t r p1 a1 p2 a2 = .ok (q, t')) :
    ∃ d a b p, Fits M d a b ∧ solve r t.disc d a b = .ok p ∧ t' = t ∧ ((List.length p ≤ 1 ∧ q = []) ∨
      ∃ (m : Placement) (f l f' l' : PathState ℝ) (mid mid' : Path),
        p = f :: (mid ++ [l]) ∧ q = f' :: (mid' ++ [l']) ∧
        m.map (0, 0) = xy p1 ∧ NearXY (M / 2 ^ 42) (m.map (d, 0)) (xy p2) ∧
        List.Forall₂ (CarriedNear (M / 2 ^ 49) (1 / 2 ^ 45) m) mid mid' ∧
        (CarriedNear (M / 2 ^ 49) (1 / 2 ^ 45) m f f' ∨
          f'.point = p1 ∧ CarriedNear (M / 2 ^ 49) (1 / 2 ^ 45) m f { f' with point := ⟨(m.map (xy f.point)).1, (m.map (xy f.point)).2, 0⟩ }) ∧
        (CarriedNear (M / 2 ^ 49) (1 / 2 ^ 45) m l l' ∨
          l'.point = p2 ∧ CarriedNear (M / 2 ^ 49) (1 / 2 ^ 45) m l { l' with point := ⟨(m.map (xy l.point)).1, (m.map (xy l.point)).2, 0⟩ })) := by
  obtain ⟨p, rfl, hsim⟩ := Dbl.createTurn_ok hq
  have fits := normal_fits h ha hM hM' hp
  rcases simpleTurn_ok hsim with ⟨hu, -⟩ | ⟨-, ho, ht⟩
  · rw [hc] at hu; cases hu
  refine ⟨_, _, _, p, fits, ho, ht, ?_⟩
  have st := hs _ _ _ _ fits ho
  have np := (normal_point h ha hM hM' hp.start hp.stop a1 a2).2
  by_cases hlen : List.length p ≤ 1
  · exact .inl ⟨hlen, by unfold Dbl.finish; rw [if_pos hlen]⟩
  right
  obtain ⟨f, mid, l, rfl⟩ := two_ends p hlen
  have nα : IsDouble (Dbl.normalTurn fl atan2 p1 a1 p2 a2).angle ∧ |(Dbl.normalTurn fl atan2 p1 a1 p2 a2).angle| ≤ 7 := by
    rw [Dbl.normal_angle]
    exact ⟨isDouble_mod2pi h _, mod2pi_abs h _⟩
  have car := fun s hm => placed_near (cos := cos) (sin := sin) h (trig_of_library hl) hM hp.start nα.1 nα.2 (st s hm).1 (st s hm).2
  generalize Dbl.normalTurn fl atan2 p1 a1 p2 a2 = n at *
  have hend : ∀ (s : PathState ℝ) (target : RPoint), s ∈ f :: (mid ++ [l]) →
      let s' := if Dbl.dist fl (Dbl.placed fl cos sin p1 n s).point target < Turning.maxError then
        { Dbl.placed fl cos sin p1 n s with point := target } else Dbl.placed fl cos sin p1 n s
      CarriedNear (M / 2 ^ 49) (1 / 2 ^ 45) (Dbl.back p1 n) s s' ∨ s'.point = target ∧
        CarriedNear (M / 2 ^ 49) (1 / 2 ^ 45) (Dbl.back p1 n) s
          { s' with point := ⟨((Dbl.back p1 n).map (xy s.point)).1, ((Dbl.back p1 n).map (xy s.point)).2, 0⟩ } := by
    intro s target hm s'
    have c := car s hm
    by_cases hd : Dbl.dist fl (Dbl.placed fl cos sin p1 n s).point target < Turning.maxError
    · simp only [s', if_pos hd]
      refine .inr ⟨trivial, ⟨?_, c.heading, c.len, c.dir, c.type, c.velocity⟩⟩
      have : 0 ≤ M / 2 ^ 49 := by positivity
      simpa [NearXY, xy] using this
    · simp only [s', if_neg hd]
      exact .inl c
  refine ⟨Dbl.back p1 n, f, l, _, _, mid, mid.map (Dbl.placed fl cos sin p1 n), rfl, ?_, ?_, np, ?_, hend f p1 (by simp), hend l p2 (by simp)⟩
  · unfold Dbl.finish
    rw [if_neg hlen, Dbl.place_mirror, List.map_cons, List.map_append, List.map_singleton, correct_eq]
  · simp [Placement.map, Dbl.back, xy]
  · rw [List.forall₂_map_right_iff]
    exact List.forall₂_same.2 fun s hm => car s (by simp [hm])

/-! ## examples -/

private theorem real_library : Library Real.cos Real.sin := fun a _ => by simp

private theorem real_atan2 : IsAtan2 F2C.atan2 := by
  constructor
  · intro y x
    have := Complex.abs_arg_le_pi ⟨x, y⟩
    have := Real.pi_le_four
    unfold F2C.atan2
    linarith
  · intro y x _ _
    refine ⟨0, ?_⟩
    simp [F2C.atan2, u53_pos.le]

private theorem line_sound (M : ℝ) : SoundSolver 0 0 M lineSolver := by
  intro r disc d a b p hf hp
  unfold lineSolver at hp
  injection hp with hp
  subst hp
  have t := twoPi_bounds
  have e := twoPi_eq
  have M0 : 0 ≤ M := hf.d0.trans hf.d1
  constructor
  · intro s hs
    simp only [List.mem_cons, List.not_mem_nil, or_false] at hs
    rcases hs with rfl | rfl
    · refine ⟨⟨isDouble_zero, isDouble_zero, by simpa, by simpa⟩, ?_⟩
      rw [abs_of_nonneg hf.a0]
      linarith [hf.a1]
    · refine ⟨⟨hf.dd, isDouble_zero, ?_, by simpa⟩, ?_⟩
      · rw [abs_of_nonneg hf.d0]; exact hf.d1
      · rw [abs_of_nonneg hf.b0]
        linarith [hf.b1]
  · intro f l h1 h2
    simp at h1 h2
    subst h1 h2
    refine ⟨?_, ⟨0, by simp⟩, ?_, ⟨0, by simp⟩⟩ <;> simp [pdist]

/-- two poses in UTM coordinates, 3.5 m apart -/
private theorem utm_poses : Poses (2 ^ 23) ⟨500000, 4000000, 0⟩ 1 ⟨1000007 / 2, 4000000, 0⟩ 4 := by
  refine ⟨⟨⟨500000, 0, by norm_num, by norm_num, by norm_num⟩, ⟨4000000, 0, by norm_num, by norm_num, by norm_num⟩, by norm_num, by norm_num⟩,
    ⟨⟨1000007, -1, by norm_num, by norm_num, by norm_num⟩, ⟨4000000, 0, by norm_num, by norm_num, by norm_num⟩, ?_, by norm_num⟩, ?_, by norm_num,
    by norm_num⟩
  · rw [abs_of_nonneg] <;> norm_num
  · unfold pdist
    rw [Real.sqrt_le_left (by norm_num)]
    norm_num

example (r : Robot) : ∃ q, Dbl.createTurn toNearest Real.cos Real.sin F2C.atan2 lineSolver (Turning.Planner.default.setUsingCache false) r
      ⟨500000, 4000000, 0⟩ 1 ⟨1000007 / 2, 4000000, 0⟩ 4 = .ok (q, Turning.Planner.default.setUsingCache false) ∧
    Joins (0 + 1 / 2 ^ 44) ⟨500000, 4000000, 0⟩ 1 ⟨1000007 / 2, 4000000, 0⟩ 4 q := by
  refine ⟨_, rfl, ?_⟩
  refine (C140_computed toNearest_isRounding real_library real_atan2 (M := 2 ^ 23) (by norm_num) le_rfl (by norm_num) lineSolver
    (line_sound _) (Turning.Planner.default.setUsingCache false) _ (.inl rfl) r _ _ _ _ utm_poses _ rfl).resolve_left ?_
  intro h0
  have := congrArg List.length h0
  simp only [Dbl.finish, Dbl.place_mirror] at this
  rw [if_neg (by simp)] at this
  rw [List.map_cons, List.map_singleton] at this
  have e := fun f l => correct_eq (fl := toNearest) ⟨500000, 4000000, 0⟩ ⟨1000007 / 2, 4000000, 0⟩ f l []
  simp only [List.nil_append] at e
  rw [e] at this
  simp at this

example (r : Robot) (q : Path) (t' : Turning.Planner)
    (hq : Dbl.createTurn toNearest Real.cos Real.sin F2C.atan2 lineSolver Turning.Planner.default r
      ⟨500000, 4000000, 0⟩ 1 ⟨1000007 / 2, 4000000, 0⟩ 4 = .ok (q, t')) :
    q = [] ∨ Joins (0 + 11 / 10000) ⟨500000, 4000000, 0⟩ 1 ⟨1000007 / 2, 4000000, 0⟩ 4 q :=
  C140_used toNearest_isRounding real_library real_atan2 (M := 2 ^ 23) (by norm_num) le_rfl (by norm_num) lineSolver (line_sound _) _ _ .new r
    _ _ _ _ utm_poses q hq

example := C140_normal_form toNearest_isRounding real_atan2 (M := 2 ^ 23) (by norm_num)
  (pow_le_pow_right₀ (by norm_num) (by norm_num)) _ _ utm_poses.start utm_poses.stop 1 4
  utm_poses.ha1 utm_poses.ha2

example (r : Robot) := C140_shape toNearest_isRounding real_library real_atan2 (M := 2 ^ 23) (by norm_num)
  (pow_le_pow_right₀ (by norm_num) (by norm_num)) lineSolver (Turning.Planner.default.setUsingCache false) _ rfl r _ _ _ _ utm_poses
  (fun d a b p hf hp => (line_sound (2 ^ 23) _ _ d a b p hf hp).states) _ rfl

end F2C.Props
