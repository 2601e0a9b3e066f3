import Verif.Lemmas.DoubleSwath
import Verif.Props.DoubleTurning

/-! # C142: the path along a swath in double precision, and the turn to the next one -/

namespace F2C.Props

open Dbl TurningSpec DoubleTracksSpec

variable {fl cos sin : ℝ → ℝ} {atan2 : ℝ → ℝ → ℝ}

namespace DoubleSwathSpec

/-- A state that drives the segment from `a` to `b`: it starts exactly in `a`; driving its length in its direction ends in `b` up to
2^-42 of the largest coordinate, and the end the library computes for it is `b` up to 2^-41 of it. -/
structure Drives (fl cos sin : ℝ → ℝ) (M speed : ℝ) (a b : RPoint) (s : PathState ℝ) : Prop where
  start : s.point = a
  reaches : NearXY (M / 2 ^ 42) (a.x + s.len * Real.cos s.angle, a.y + s.len * Real.sin s.angle) (b.x, b.y)
  ends : NearXY (M / 2 ^ 41) ((Dbl.endPoint fl cos sin s).x, (Dbl.endPoint fl cos sin s).y) (b.x, b.y)
  len : |s.len - pdist a b| ≤ M / 2 ^ 46
  angle0 : 0 ≤ s.angle
  angle1 : s.angle < 2 * Real.pi
  forward : s.dir = .forward
  swath : s.type = .swath
  velocity : s.velocity = speed

/-- A polyline of doubles of at most `M`. -/
structure Line (M : ℝ) (line : List RPoint) : Prop where
  one : 1 ≤ M
  le : M ≤ 2 ^ 400
  points : ∀ p ∈ line, DoublePoint M p

end DoubleSwathSpec

open DoubleSwathSpec

private theorem drives (h : IsRounding fl) (hl : Library cos sin) (ha : IsAtan2 atan2) {M : ℝ} (speed : ℝ) :
    ∀ line : List RPoint, Line M line →
      List.Forall₂ (fun ab s => Drives fl cos sin M speed ab.1 ab.2 s) (line.zip line.tail) (Dbl.swathStates fl atan2 speed line)
  | [], _ => by simp [Dbl.swathStates]
  | [_], _ => by simp [Dbl.swathStates]
  | a :: b :: l, hp => by
    have pa := hp.points a (by simp)
    have pb := hp.points b (by simp)
    have rest := drives h hl ha speed (b :: l) ⟨hp.one, hp.le, fun p m => hp.points p (by simp at m ⊢; tauto)⟩
    simp only [List.tail_cons, List.zip_cons_cons, Dbl.swathStates]
    refine .cons ?_ rest
    obtain ⟨d0, dn⟩ := dist_near h hp.one hp.le pa pb
    obtain ⟨rx, ry⟩ := reach h ha hp.one hp.le pa pb 0
    have five := dist_le_five h hp.one hp.le pa pb
    have dα := isDouble_angle (atan2 := atan2) h ⟨fl (b.x - a.x), fl (b.y - a.y), 0⟩
    have e : (1 : ℝ) / 2 ^ 52 = 2 * u53 := by norm_num [u53]
    obtain ⟨lc, ls⟩ := hl _ dα
    rw [e] at lc ls
    have r := mod2pi_range h (atan2 (fl (fl (1 * fl (b.y - a.y)) - fl (0 * fl (b.x - a.x))))
      (fl (fl (fl (1 * fl (b.x - a.x)) + fl (0 * fl (b.y - a.y))) + fl (0 * 0))))
    have t := twoPi_eq
    have p := pi_error.1
    refine ⟨rfl, ⟨?_, ?_⟩, ⟨?_, ?_⟩, dn, r.1, lt_of_lt_of_le r.2 (by linarith), rfl, rfl, rfl⟩
    · refine le_of_eq_of_le ?_ rx
      simp only; congr 1; ring
    · refine le_of_eq_of_le ?_ ry
      simp only; congr 1; ring
    · simp only [Dbl.endPoint, PathDir.sign, mul_one, h.self (isDouble_dist h b a)]
      exact coord_end h hp.one pa.bx d0 five (Real.abs_cos_le_one _) lc rx
    · simp only [Dbl.endPoint, PathDir.sign, mul_one, h.self (isDouble_dist h b a)]
      exact coord_end h hp.one pa.by' d0 five (Real.abs_sin_le_one _) ls ry

/-- C142, states: appending a swath with points adds one state per segment, which drives it up to rounding. -/
theorem C142_states (h : IsRounding fl) (hl : Library cos sin) (ha : IsAtan2 atan2) {M : ℝ} (p : Path) (s : Swath ℝ) (speed : ℝ)
    (hp : Line M s.path) (hne : s.path ≠ []) :
    ∃ q : Path, Dbl.appendSwath fl atan2 p s speed = .ok (p ++ q) ∧ q.length = s.path.length - 1 ∧
      List.Forall₂ (fun ab st => Drives fl cos sin M speed ab.1 ab.2 st) (s.path.zip s.path.tail) q := by
  have d := drives h hl ha speed s.path hp
  refine ⟨Dbl.swathStates fl atan2 speed s.path, ?_, ?_, d⟩
  · unfold Dbl.appendSwath
    split
    · contradiction
    · rfl
  · have := d.length_eq
    rw [List.length_zip, List.length_tail] at this
    omega

/-- C142, no gaps inside a swath: every state added ends, as the library computes it, where the next one starts, up to 2^-41 of the
largest coordinate; the last one ends there in the end of the swath. -/
theorem C142_no_gaps (h : IsRounding fl) (hl : Library cos sin) (ha : IsAtan2 atan2) {M : ℝ} (s : Swath ℝ) (speed : ℝ)
    (hp : Line M s.path) (q : Path) (hq : Dbl.appendSwath fl atan2 [] s speed = .ok q) (i : Nat) (hi : i < q.length) :
    ∃ e : RPoint, NearXY (M / 2 ^ 41) ((Dbl.endPoint fl cos sin (q[i]'hi)).x, (Dbl.endPoint fl cos sin (q[i]'hi)).y) (e.x, e.y) ∧
      (∀ hi' : i + 1 < q.length, e = (q[i + 1]'hi').point) ∧ (i + 1 = q.length → s.path.getLast? = some e) := by
  have hne : s.path ≠ [] := by
    intro h0
    unfold Dbl.appendSwath at hq
    rw [h0] at hq
    cases hq
  obtain ⟨q', hq', hlen, hd⟩ := C142_states h hl ha [] s speed hp hne
  rw [hq, List.nil_append] at hq'
  injection hq' with hq'
  subst hq'
  have get : ∀ j (hj : j < q.length) (h1 : j < s.path.length) (h2 : j + 1 < s.path.length),
      Drives fl cos sin M speed (s.path[j]) (s.path[j + 1]) (q[j]) := by
    intro j hj h1 h2
    have := hd.get (i := j) (by rw [hd.length_eq]; exact hj) hj
    simpa using this
  have l2 : i + 1 < s.path.length := by omega
  refine ⟨s.path[i + 1], (get i hi (by omega) l2).ends, fun hi' => ?_, fun hi' => ?_⟩
  · exact ((get (i + 1) hi' l2 (by omega)).start).symm
  · rw [List.getLast?_eq_getElem?]
    have : s.path.length - 1 = i + 1 := by omega
    rw [this, List.getElem?_eq_getElem l2]

/-- C142, length: the length the library computes for the path of a swath of `n` segments is the length of the swath up to rounding. -/
theorem C142_length (h : IsRounding fl) {M : ℝ} (s : Swath ℝ) (speed : ℝ) (hp : Line M s.path) (hn : s.path.length ≤ 2 ^ 50) (q : Path)
    (hq : Dbl.appendSwath fl atan2 [] s speed = .ok q) :
    |Dbl.length fl q - lineLength s.path| ≤ (s.path.length - 1 : ℕ) * (s.path.length + 2048) * (M / 2 ^ 50) := by
  have e : q = Dbl.swathStates fl atan2 speed s.path := by
    unfold Dbl.appendSwath at hq
    split at hq
    · cases hq
    · injection hq with hq
      rw [← hq, List.nil_append]
  have := swath_length h atan2 hp.one hp.le speed (N := s.path.length) hn s.path 0 0 0 hp.points (by omega) (by simp) le_rfl (by simp)
  rw [zero_add, zero_add, ← e] at this
  refine this.trans ?_
  rw [mul_assoc ((s.path.length - 1 : ℕ) : ℝ)]
  refine mul_le_mul_of_nonneg_left ?_ (Nat.cast_nonneg (α := ℝ) (s.path.length - 1))
  have M0 : 0 ≤ M := by linarith [hp.one]
  have n0 : (0 : ℝ) ≤ s.path.length * M := by positivity
  norm_num [u53]
  linarith

/-- C142, nothing to append: a swath without points throws, one of a single point adds nothing. -/
theorem C142_short (fl : ℝ → ℝ) (atan2 : ℝ → ℝ → ℝ) (p : Path) (s : Swath ℝ) (speed : ℝ) :
    (s.path = [] → Dbl.appendSwath fl atan2 p s speed = .throw .outOfRange) ∧
    (s.path.length = 1 → Dbl.appendSwath fl atan2 p s speed = .ok p) := by
  constructor
  · intro h0
    unfold Dbl.appendSwath
    rw [h0]
  · intro h1
    obtain ⟨a, ha⟩ := List.length_eq_one_iff.1 h1
    unfold Dbl.appendSwath
    rw [ha]
    simp [Dbl.swathStates]

/-- C142, the turn to the next swath: it is empty, or starts exactly in the last point of the one and ends exactly in the first point
of the other; its headings there are those of the last state of the one and of the first state of the other, up to the error of the
solver and 2^-44 rad. -/
theorem C142_turn (h : IsRounding fl) (hl : Library cos sin) (ha : IsAtan2 atan2) {M ε δ : ℝ} (hε0 : 0 ≤ ε)
    (hε : ε + M / 2 ^ 40 ≤ 1 / 20) (solve : Turning.Solver) (hs : SoundSolver ε δ M solve) (t t' : Turning.Planner)
    (hnew : t.useCache = false ∨ t.cache = []) (r : Robot) (s s' : Swath ℝ) (speed : ℝ) (hp : Line M s.path) (hp' : Line M s'.path)
    (hapart : ∀ a ∈ s.path, ∀ b ∈ s'.path, pdist a b ≤ M / 2) (q q' turn : Path) (last first : PathState ℝ)
    (hq : Dbl.appendSwath fl atan2 [] s speed = .ok q) (hq' : Dbl.appendSwath fl atan2 [] s' speed = .ok q')
    (hlast : List.getLast? q = some last) (hfirst : List.head? q' = some first)
    (hturn : Dbl.turnBetween fl cos sin atan2 solve t r s s' = .ok (turn, t')) :
    turn = [] ∨ ∃ f l : PathState ℝ, List.head? turn = some f ∧ List.getLast? turn = some l ∧
      s.path.getLast? = some f.point ∧ s'.path.head? = some l.point ∧ l.point = first.point ∧
      NearHeading (δ + 1 / 2 ^ 44) f.angle last.angle ∧ NearHeading (δ + 1 / 2 ^ 44) l.angle first.angle := by
  have states : ∀ {s : Swath ℝ} {q : Path}, Dbl.appendSwath fl atan2 [] s speed = .ok q →
      s.path ≠ [] ∧ q = Dbl.swathStates fl atan2 speed s.path := by
    intro s q hq
    unfold Dbl.appendSwath at hq
    split at hq
    · cases hq
    · rename_i hne
      injection hq with hq
      exact ⟨hne, by rw [← hq, List.nil_append]⟩
  obtain ⟨n1, rfl⟩ := states hq
  obtain ⟨n2, rfl⟩ := states hq'
  have oa := outAngle_last h speed s hlast
  obtain ⟨ia, sp⟩ := inAngle_head h speed s' hfirst
  have ang : ∀ {line : List RPoint} {st : PathState ℝ}, Line M line → st ∈ Dbl.swathStates fl atan2 speed line → |st.angle| ≤ 50 := by
    intro line st hline hm
    have d := drives (cos := cos) (sin := sin) h hl ha speed line hline
    obtain ⟨i, hi, rfl⟩ := List.getElem_of_mem hm
    have g := d.get (i := i) (by rw [d.length_eq]; exact hi) hi
    have := g.angle1
    have := Real.pi_le_four
    have g0 := g.angle0
    simp only [List.get_eq_getElem] at *
    rw [abs_of_nonneg g0]
    linarith
  obtain ⟨e, he⟩ : ∃ e, s.path.getLast? = some e := ⟨_, List.getLast?_eq_some_getLast n1⟩
  obtain ⟨b, hb⟩ : ∃ b, s'.path.head? = some b := ⟨_, List.head?_eq_some_head n2⟩
  have ep : s.endPoint = e := by unfold Swath.endPoint; rw [he]; rfl
  have bp : s'.startPoint = b := by unfold Swath.startPoint; rw [hb]; rfl
  have me := List.mem_of_getLast? he
  have mb := List.mem_of_mem_head? (l := s'.path) (a := b) (by rw [hb]; rfl)
  have poses : Poses M s.endPoint last.angle s'.startPoint first.angle := by
    rw [ep, bp]
    exact ⟨hp.points _ me, hp'.points _ mb, hapart _ me _ mb, ang hp (List.mem_of_getLast? hlast),
      ang hp' (List.mem_of_mem_head? (by rw [hfirst]; rfl))⟩
  unfold Dbl.turnBetween at hturn
  rw [oa, ia] at hturn
  simp only [Outcome.ok_bind] at hturn
  refine (C140_computed h hl ha hp.one hε0 hε solve hs t t' hnew r _ _ _ _ poses turn hturn).imp id ?_
  rintro ⟨f, l, e1, e2, e3, e4, e5, e6⟩
  exact ⟨f, l, e1, e2, by rw [he, e3, ep], by rw [hb, e4, bp], by rw [e4, sp], e5, e6⟩

/-! ## examples -/

private theorem real_library : Library Real.cos Real.sin := fun a _ => by simp

private theorem real_atan2 : IsAtan2 F2C.atan2 := by
  constructor
  · intro y x
    have := Complex.abs_arg_le_pi ⟨x, y⟩
    have := Real.pi_le_four
    unfold F2C.atan2
    linarith
  · intro y x _ _
    refine ⟨0, ?_⟩
    simp [F2C.atan2, u53_pos.le]

/-- a swath with a bend in UTM coordinates, and the next one back -/
private noncomputable def there : Swath ℝ := { Swath.default with
  path := [⟨500000, 4000000, 0⟩, ⟨500100, 4000000, 0⟩, ⟨500200, 4000010, 0⟩] }

private noncomputable def andBack : Swath ℝ := { Swath.default with path := [⟨500200, 4000013, 0⟩, ⟨500000, 4000003, 0⟩] }

private theorem utm_point {x y : ℤ} (hx : |(x : ℝ)| ≤ 2 ^ 23) (hy : |(y : ℝ)| ≤ 2 ^ 23) : DoublePoint (2 ^ 23) ⟨x, y, 0⟩ := by
  have bd : ∀ {x : ℤ}, |(x : ℝ)| ≤ 2 ^ 23 → IsDouble x := by
    intro x hx
    have : |x| ≤ 2 ^ 23 := by exact_mod_cast hx
    refine ⟨x, 0, ?_, by norm_num, by norm_num⟩
    norm_num at *
    omega
  exact ⟨bd hx, bd hy, hx, hy⟩

private theorem line_there : Line (2 ^ 23) there.path := by
  refine ⟨by norm_num, pow_le_pow_right₀ (by norm_num) (by norm_num), ?_⟩
  intro p hp
  simp only [there, List.mem_cons, List.not_mem_nil, or_false] at hp
  rcases hp with rfl | rfl | rfl
  · exact_mod_cast utm_point (x := 500000) (y := 4000000) (by norm_num) (by norm_num)
  · exact_mod_cast utm_point (x := 500100) (y := 4000000) (by norm_num) (by norm_num)
  · exact_mod_cast utm_point (x := 500200) (y := 4000010) (by norm_num) (by norm_num)

private theorem line_back : Line (2 ^ 23) andBack.path := by
  refine ⟨by norm_num, pow_le_pow_right₀ (by norm_num) (by norm_num), ?_⟩
  intro p hp
  simp only [andBack, List.mem_cons, List.not_mem_nil, or_false] at hp
  rcases hp with rfl | rfl
  · exact_mod_cast utm_point (x := 500200) (y := 4000013) (by norm_num) (by norm_num)
  · exact_mod_cast utm_point (x := 500000) (y := 4000003) (by norm_num) (by norm_num)

/-- two states, and what is between them is less than 4 micrometres -/
example (speed : ℝ) : ∃ q : Path, Dbl.appendSwath toNearest F2C.atan2 [] there speed = .ok ([] ++ q) ∧ q.length = 2 ∧
    List.Forall₂ (fun ab st => Drives toNearest Real.cos Real.sin (2 ^ 23) speed ab.1 ab.2 st) (there.path.zip there.path.tail) q :=
  C142_states toNearest_isRounding real_library real_atan2 [] there speed line_there (by simp [there])

example (speed : ℝ) (q : Path) (hq : Dbl.appendSwath toNearest F2C.atan2 [] there speed = .ok q) (h0 : 0 < q.length) :=
  C142_no_gaps (cos := Real.cos) (sin := Real.sin) toNearest_isRounding real_library real_atan2 there speed line_there q hq 0 h0

example (speed : ℝ) : ∃ q : Path, Dbl.appendSwath toNearest F2C.atan2 [] there speed = .ok q ∧
    |Dbl.length toNearest q - lineLength there.path| ≤ 1 / 2 ^ 14 := by
  refine ⟨_, rfl, (C142_length (atan2 := F2C.atan2) toNearest_isRounding there speed line_there (by simp [there]) _ rfl).trans ?_⟩
  norm_num [there]

private theorem line_sound' (M : ℝ) : SoundSolver 0 0 M lineSolver := by
  intro r disc d a b p hf hp
  unfold lineSolver at hp
  injection hp with hp
  subst hp
  have t := twoPi_bounds
  have e := twoPi_eq
  have M0 : 0 ≤ M := hf.d0.trans hf.d1
  constructor
  · intro s hs
    simp only [List.mem_cons, List.not_mem_nil, or_false] at hs
    rcases hs with rfl | rfl
    · refine ⟨⟨isDouble_zero, isDouble_zero, by simpa, by simpa⟩, ?_⟩
      rw [abs_of_nonneg hf.a0]
      linarith [hf.a1]
    · refine ⟨⟨hf.dd, isDouble_zero, ?_, by simpa⟩, ?_⟩
      · rw [abs_of_nonneg hf.d0]; exact hf.d1
      · rw [abs_of_nonneg hf.b0]
        linarith [hf.b1]
  · intro f l h1 h2
    simp at h1 h2
    subst h1 h2
    refine ⟨?_, ⟨0, by simp⟩, ?_, ⟨0, by simp⟩⟩ <;> simp [pdist]

/-- the turn between the two swaths -/
example (r : Robot) (speed : ℝ) := C142_turn toNearest_isRounding real_library real_atan2 (M := 2 ^ 23) (ε := 0) (δ := 0) le_rfl
  (by norm_num) lineSolver (line_sound' _) (Turning.Planner.default.setUsingCache false) _ (.inl rfl) r there andBack speed line_there
  line_back (by
    intro a ha b hb
    simp only [there, andBack, List.mem_cons, List.not_mem_nil, or_false] at ha hb
    rcases ha with rfl | rfl | rfl <;> rcases hb with rfl | rfl <;>
      (unfold pdist; rw [Real.sqrt_le_left (by norm_num)]; norm_num)) _ _ _ _ _ rfl rfl rfl rfl rfl

example (speed : ℝ) : Dbl.appendSwath toNearest F2C.atan2 [] { Swath.default with path := [⟨1, 2, 0⟩] } speed = .ok [] :=
  (C142_short _ _ _ _ _).2 rfl

end F2C.Props
