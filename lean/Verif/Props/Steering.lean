import Verif.Model.Steering
import Verif.Props.Turning
import Verif.Lemmas.LeftStraightLeft

/-! # C102: the turn planners -/

namespace F2C.Props

open Real Turning TurningSpec

set_option linter.unusedSimpArgs false

/-- What is assumed of a curve between two states: it starts and ends there up to `ε`, its states are at most
`disc` apart, each has a direction, and from one to the next the heading changes by at most what the curvature `κ`
allows on that length. -/
structure Reaches (ε κ disc : ℝ) (a b : SteerState) (ss : List SteerState) : Prop where
  first : ∃ f, ss.head? = some f ∧ pdist ⟨f.x, f.y, 0⟩ ⟨a.x, a.y, 0⟩ ≤ ε ∧ SameHeading f.theta a.theta
  last : ∃ l, ss.getLast? = some l ∧ pdist ⟨l.x, l.y, 0⟩ ⟨b.x, b.y, 0⟩ ≤ ε ∧ SameHeading l.theta b.theta
  steps : ss.IsChain fun s t => pdist ⟨s.x, s.y, 0⟩ ⟨t.x, t.y, 0⟩ ≤ disc
  dirs : ∀ s ∈ ss, s.d = 1 ∨ s.d = -1
  bends : ss.IsChain fun s t => NearHeading (κ * disc) s.theta t.theta

/-- What is assumed of the library: for positive limits its curves reach and bend at most as much as the
limit for the curvature allows; those for Dubins curves go forward. -/
structure Sound (ε : ℝ) (lib : Library) : Prop where
  dubins : ∀ k disc a b, 0 < k → 0 < disc →
    Reaches ε k disc a b (lib.dubins k disc a b) ∧ ∀ s ∈ lib.dubins k disc a b, s.d = 1
  reedsShepp : ∀ k disc a b, 0 < k → 0 < disc → Reaches ε k disc a b (lib.reedsShepp k disc a b)
  hc00 : ∀ k σ disc a b, 0 < k → 0 < σ → 0 < disc → Reaches ε k disc a b (lib.hc00ReedsShepp k σ disc a b)
  cc00 : ∀ k σ disc a b, 0 < k → 0 < σ → 0 < disc →
    Reaches ε k disc a b (lib.cc00Dubins k σ disc a b) ∧ ∀ s ∈ lib.cc00Dubins k σ disc a b, s.d = 1
  cc : ∀ k σ disc a b, 0 < k → 0 < σ → 0 < disc →
    Reaches ε k disc a b (lib.ccDubins k σ disc a b) ∧ ∀ s ∈ lib.ccDubins k σ disc a b, s.d = 1

/-- The planner only drives forward. -/
def Kind.forwardOnly : Kind → Prop
  | .dubins | .dubinsCC => True
  | .reedsShepp | .reedsSheppHC => False

/-- The states of a turn: of type turn, at the turning speed of the robot, at most `disc` long, and forward if the
planner only drives forward. -/
def TurnStates (r : Robot) (disc : ℝ) (forward : Prop) (p : Path) : Prop :=
  ∀ s ∈ p, s.type = .turn ∧ s.velocity = r.turnVel ∧ 0 ≤ s.len ∧ s.len ≤ disc ∧ (forward → s.dir = .forward)

/-- From one state to the next the heading changes by at most what the largest curvature of the robot allows. -/
def Bends (r : Robot) (disc : ℝ) (p : Path) : Prop :=
  List.IsChain (fun s t => NearHeading (r.maxCurv * disc) s.angle t.angle) p

/-- What a curve of the library becomes. -/
structure PathOf (ε disc : ℝ) (r : Robot) (forward : Prop) (a b : SteerState) (p : Path) : Prop where
  first : ∃ f, List.head? p = some f ∧ pdist f.point ⟨a.x, a.y, 0⟩ ≤ ε ∧ SameHeading f.angle a.theta
  last : ∃ l, List.getLast? p = some l ∧ pdist l.point ⟨b.x, b.y, 0⟩ ≤ ε ∧ SameHeading l.angle b.theta ∧ l.len = 0
  states : TurnStates r disc forward p
  bends : Bends r disc p

private theorem chain_of {α β : Type} {R : α → β → Prop} {S : α → α → Prop} {T : β → β → Prop}
    (hT : ∀ a a' b b', R a b → R a' b' → S a a' → T b b') {l : List α} {m : List β} (h : List.Forall₂ R l m)
    (hs : l.IsChain S) : m.IsChain T := by
  induction h with
  | nil => exact .nil
  | cons h1 h2 ih =>
    cases h2 with
    | nil => exact .singleton _
    | cons h3 h4 =>
      rw [List.isChain_cons_cons] at hs ⊢
      exact ⟨hT _ _ _ _ h1 h3 hs.1, ih hs.2⟩

private theorem NearHeading.mono {δ δ' a b : ℝ} (h : NearHeading δ a b) (hd : δ ≤ δ') : NearHeading δ' a b := by
  obtain ⟨k, hk⟩ := h
  exact ⟨k, hk.trans hd⟩

private theorem NearHeading.placed {δ a b a' b' : ℝ} (m : Placement) (h : NearHeading δ a b)
    (ha : SameHeading (m.heading a) a') (hb : SameHeading (m.heading b) b') : NearHeading δ a' b' := by
  refine NearHeading.congr ?_ ha hb
  obtain ⟨k, hk⟩ := h
  unfold Placement.heading
  cases m.flip with
  | false => exact ⟨k, by simpa using hk⟩
  | true =>
    refine ⟨-k, ?_⟩
    rw [← abs_neg]
    convert hk using 2
    simp only [if_true]
    push_cast
    ring

private theorem head_of {α β : Type} {R : α → β → Prop} {l : List α} {m : List β} (h : List.Forall₂ R l m)
    {a : α} (ha : l.head? = some a) : ∃ b, m.head? = some b ∧ R a b := by
  cases h with
  | nil => simp at ha
  | cons h1 h2 => simp at ha; subst ha; exact ⟨_, rfl, h1⟩

private theorem last_of {α β : Type} {R : α → β → Prop} {l : List α} {m : List β} (h : List.Forall₂ R l m)
    {a : α} (ha : l.getLast? = some a) : ∃ b, m.getLast? = some b ∧ R a b := by
  rw [← List.head?_reverse] at ha
  obtain ⟨b, hb, hr⟩ := head_of (List.rel_reverse h) ha
  exact ⟨b, by rwa [List.head?_reverse] at hb, hr⟩

private theorem path_of {ε disc κ : ℝ} (r : Robot) (hd : 0 < disc) (hκ : κ ≤ r.maxCurv) (forward : Prop) (a b : SteerState)
    (ss : List SteerState) (h : Reaches ε κ disc a b ss) (hf : forward → ∀ s ∈ ss, s.d = 1) :
    ∃ p, steerToPath r.turnVel ss = .ok p ∧ PathOf ε disc r forward a b p := by
  obtain ⟨p, hp, h1, h2, h3, -⟩ := C43_states r.turnVel ss h.dirs
  refine ⟨p, hp, ?_, ?_, ?_, ?_⟩
  · obtain ⟨f, e1, e2, e3⟩ := h.first
    obtain ⟨f', g1, g2, g3, -⟩ := head_of h1 e1
    exact ⟨f', g1, by rw [g2]; exact e2, by rw [g3]; exact e3⟩
  · obtain ⟨l, e1, e2, e3⟩ := h.last
    obtain ⟨l', g1, g2, g3, -⟩ := last_of h1 e1
    exact ⟨l', g1, by rw [g2]; exact e2, by rw [g3]; exact e3, h3 l' g1⟩
  · intro t ht
    obtain ⟨i, hi, rfl⟩ := List.mem_iff_getElem.1 ht
    have hlen := h1.length_eq
    have hR := h1.get (by omega) hi (i := i)
    simp only [List.get_eq_getElem] at hR
    obtain ⟨q1, q2, q3, q4, q5, q6⟩ := hR
    refine ⟨q4, q3, q6, ?_, fun hfw => q5.2 (hf hfw _ (List.getElem_mem _))⟩
    by_cases hn : i + 1 < List.length p
    · have hR' := h1.get (by omega) hn (i := i + 1)
      simp only [List.get_eq_getElem] at hR'
      rw [h2 i _ _ (List.getElem?_eq_getElem hi) (List.getElem?_eq_getElem hn), q1, hR'.1]
      exact List.isChain_iff_getElem.1 h.steps i (by omega)
    · have hl : List.getLast? p = some p[i] := by
        rw [List.getLast?_eq_getElem?, show List.length p - 1 = i by omega, List.getElem?_eq_getElem hi]
      rw [h3 _ hl]
      exact hd.le
  · refine chain_of (fun s s' t t' hst hst' hn => ?_) h1 h.bends
    rw [hst.2.1, hst'.2.1]
    exact NearHeading.mono hn (mul_le_mul_of_nonneg_right hκ hd.le)

private theorem cc_path {ε disc : ℝ} (r : Robot) (hκ : 0 < r.maxCurv) (hσ : 0 < r.diffCurv) (hd : 0 < disc)
    (c : Curves) (a b : SteerState)
    (h : ∀ k σ, 0 < k → 0 < σ → Reaches ε k disc a b (c.states k σ) ∧ ∀ s ∈ c.states k σ, s.d = 1) (fix : Bool) :
    ∃ p, ccTurn c r fix 22 = .ok p ∧ PathOf ε disc r True a b p := by
  cases fix with
  | true =>
    obtain ⟨n, -, h1, -⟩ := C42_search c r 22 le_rfl
    obtain ⟨-, -, l0, -, l1, l2⟩ := C42_limits r n
    obtain ⟨hr, hf⟩ := h _ _ (l1 hκ) (l2 hσ)
    rw [h1]
    exact path_of r hd (l0 hκ.le).2 True a b _ hr fun _ => hf
  | false =>
    obtain ⟨hr, hf⟩ := h _ _ hκ hσ
    rw [C42_no_loop_fixing c r 22 (by norm_num)]
    exact path_of r hd le_rfl True a b _ hr fun _ => hf

/-- C102: with a sound library every planner finds a path for every simple turn. -/
theorem C102_simple (ε : ℝ) (lib : Library) (hs : Sound ε lib) (k : Kind) (r : Robot) (disc d a b : ℝ)
    (hκ : 0 < r.maxCurv) (hσ : 0 < r.diffCurv) (hd : 0 < disc) :
    ∃ p, simple lib k r disc d a b = .ok p ∧ Accurate ε d a b p ∧ List.length p ≠ 0 ∧
      (∀ l, List.getLast? p = some l → l.len = 0) ∧ TurnStates r disc (Kind.forwardOnly k) p ∧
      Bends r disc p := by
  have key : ∃ p, simple lib k r disc d a b = .ok p ∧
      PathOf ε disc r (Kind.forwardOnly k) (startState a) (endState d b) p := by
    cases k with
    | dubins =>
      obtain ⟨h1, h2⟩ := hs.dubins r.maxCurv disc (startState a) (endState d b) hκ hd
      exact path_of r hd le_rfl _ _ _ _ h1 fun _ => h2
    | dubinsCC =>
      exact cc_path r hκ hσ hd _ _ _ (fun k σ h1 h2 => hs.cc00 k σ disc _ _ h1 h2 hd) true
    | reedsShepp =>
      exact path_of r hd le_rfl _ _ _ _ (hs.reedsShepp _ _ _ _ hκ hd) fun hf => hf.elim
    | reedsSheppHC =>
      exact path_of r hd le_rfl _ _ _ _ (hs.hc00 _ _ _ _ _ hκ hσ hd) fun hf => hf.elim
  obtain ⟨p, hp, ⟨f, f1, f2, f3⟩, ⟨l, l1, l2, l3, l4⟩, h3, h4⟩ := key
  refine ⟨p, hp, ?_, ?_, ?_, h3, h4⟩
  · intro f' l' hf' hl'
    rw [f1] at hf'; rw [l1] at hl'
    cases hf'; cases hl'
    exact ⟨f2, f3, l2, l3⟩
  · intro h0
    rw [List.length_eq_zero_iff] at h0
    rw [h0] at f1; cases f1
  · intro l' hl'
    rw [l1] at hl'; cases hl'
    exact l4

/-- C102: a turn between any two poses that is computed (not taken from the cache) exists, joins the poses exactly
and ends in the second one, at the turning speed of the robot, with states at most the discretization apart and bent at most as much as the robot
can turn;
it is empty only if the poses are within twice the accuracy of the library. -/
theorem C102_turn (ε : ℝ) (hε : ε ≤ 1 / 20) (lib : Library) (hs : Sound ε lib) (k : Kind) (r : Robot)
    (t : Planner) (hκ : 0 < r.maxCurv) (hσ : 0 < r.diffCurv) (hd : 0 < t.disc) (hc : t.useCache = false)
    (p1 : RPoint) (a1 : ℝ) (p2 : RPoint) (a2 : ℝ) :
    ∃ q, createTurn (simple lib k) t r p1 a1 p2 a2 = .ok (q, t) ∧
      TurnStates r t.disc (Kind.forwardOnly k) q ∧ Bends r t.disc q ∧
      ((q = [] ∧ pdist p1 p2 ≤ 2 * ε) ∨
        (Joins 0 p1 a1 p2 a2 q ∧ ∃ e, q.atEnd = .ok e ∧ xy e = xy p2)) := by
  obtain ⟨p, hp, hacc, hne, hlast, hst, -⟩ := C102_simple ε lib hs k r t.disc (normalTurn p1 a1 p2 a2).dist
    (normalTurn p1 a1 p2 a2).start (normalTurn p1 a1 p2 a2).stop hκ hσ hd
  set q := finish (normalTurn p1 a1 p2 a2) p1 p2 p with hq
  have hturn : createTurn (simple lib k) t r p1 a1 p2 a2 = .ok (q, t) := by
    unfold createTurn simpleTurn
    simp only [hc, hp, Bool.false_eq_true, if_false, Outcome.ok_bind]
    rfl
  have hjoin := C30_computed_partial (simple lib k) t t r p1 a1 p2 a2 q
    (fun d a b p' hp' => by
      obtain ⟨p'', hp'', h2, -⟩ := C102_simple ε lib hs k r t.disc d a b hκ hσ hd
      rw [hp'] at hp''; cases hp''
      intro f l hf hl
      obtain ⟨g1, g2, g3, g4⟩ := h2 f l hf hl
      exact ⟨g1.trans hε, g2, g3.trans hε, g4⟩) (.inl hc) hturn
  obtain ⟨d', a', b', p', hp', hmove⟩ := C30_only_ends_moved (simple lib k) t t r p1 a1 p2 a2 q hc hturn
  obtain ⟨p'', hp'', -, -, hlast', hst', hbend'⟩ := C102_simple ε lib hs k r t.disc d' a' b' hκ hσ hd
  rw [hp'] at hp''; cases hp''
  have hstates : TurnStates r t.disc (Kind.forwardOnly k) q ∧
      (∀ l, List.getLast? q = some l → l.len = 0) := by
    rcases hmove with ⟨-, h0⟩ | ⟨m, f, l, f', l', mid, mid', e1, e2, hcf, hcl, hmid⟩
    · rw [h0]; exact ⟨by intro s hs; simp at hs, by simp⟩
    · have carry : ∀ s s' : PathState ℝ, s ∈ p' → Carried m s s' →
          s'.type = .turn ∧ s'.velocity = r.turnVel ∧ 0 ≤ s'.len ∧ s'.len ≤ t.disc ∧
            (Kind.forwardOnly k → s'.dir = .forward) := by
        intro s s' hs' hc'
        obtain ⟨c1, c2, c3, c4, c5⟩ := hst' s hs'
        rw [hc'.type, hc'.velocity, hc'.len, hc'.dir]
        exact ⟨c1, c2, c3, c4, c5⟩
      constructor
      · intro s' hs'
        rw [e2] at hs'
        rcases List.mem_cons.1 hs' with rfl | hs'
        · exact carry f _ (by rw [e1]; simp) hcf.1
        rcases List.mem_append.1 hs' with hs' | hs'
        · obtain ⟨i, hi, rfl⟩ := List.mem_iff_getElem.1 hs'
          have hR := hmid.get (by have := hmid.length_eq; omega) hi (i := i)
          simp only [List.get_eq_getElem] at hR
          exact carry _ _ (by rw [e1]; simp) hR.1
        · simp only [List.mem_singleton] at hs'
          subst hs'
          exact carry l _ (by rw [e1]; simp) hcl.1
      · intro x hx
        rw [e2, ← List.cons_append, List.getLast?_concat] at hx
        cases hx
        rw [hcl.1.len]
        refine hlast' l ?_
        rw [e1, ← List.cons_append, List.getLast?_concat]
  have hbends : Bends r t.disc q := by
    rcases hmove with ⟨-, h0⟩ | ⟨m, f, l, f', l', mid, mid', e1, e2, hcf, hcl, hmid⟩
    · rw [h0]; exact .nil
    · have hall : List.Forall₂ (Carried m) p' q := by
        rw [e1, e2]
        exact .cons hcf.1 (List.rel_append (hmid.imp fun _ _ h => h.1) (.cons hcl.1 .nil))
      exact chain_of (fun s s' t t' hst hst' hn => NearHeading.placed m hn hst.heading hst'.heading) hall hbend'
  refine ⟨q, hturn, hstates.1, hbends, ?_⟩
  by_cases h0 : q = []
  · refine .inl ⟨h0, ?_⟩
    by_cases hlen : List.length p ≤ 1
    · have h1 : List.length p = 1 := by omega
      obtain ⟨s, rfl⟩ := List.length_eq_one_iff.1 h1
      obtain ⟨g1, -, g3, -⟩ := hacc s s rfl rfl
      rw [normal_dist] at g3
      have ht := pdist_triangle ⟨0, 0, 0⟩ s.point ⟨pdist p1 p2, 0, 0⟩
      have e : pdist (⟨0, 0, 0⟩ : RPoint) ⟨pdist p1 p2, 0, 0⟩ = pdist p1 p2 := by
        have hp := pdist_nonneg p1 p2
        generalize pdist p1 p2 = x at hp
        unfold pdist
        simp only
        rw [show ((0 : ℝ) - x) ^ 2 + (0 - 0) ^ 2 = x ^ 2 by ring]
        exact sqrt_sq hp
      rw [e, pdist_comm ⟨0, 0, 0⟩ s.point] at ht
      linarith
    · exfalso
      rw [hq] at h0
      unfold finish at h0
      rw [if_neg hlen] at h0
      unfold correct at h0
      have hl : List.length (place (normalTurn p1 a1 p2 a2).angle p1
          (mirror (normalTurn p1 a1 p2 a2).inverted p)) = List.length p := by
        unfold place mirror
        split <;> simp
      rw [if_neg (by omega)] at h0
      have hce : ∀ (x : RPoint) (y : Path), List.length (correctEnd x y) = List.length y := by
        intro x y
        unfold correctEnd
        split
        · rfl
        · next s hs =>
          split
          · have : y ≠ [] := by rintro rfl; simp at hs
            have := List.length_pos_iff.2 this
            simp; omega
          · rfl
      have hcs : ∀ (x : RPoint) (y : Path), List.length (correctStart x y) = List.length y := by
        intro x y
        cases y <;> simp [correctStart]
      have := congrArg List.length h0
      rw [hce, hcs, hl, List.length_nil] at this
      omega
  · rcases hjoin with h1 | h1
    · exact absurd h1 h0
    · exact .inr ⟨h1, C30_end_of_path 0 p1 a1 p2 a2 q h1 hstates.2⟩

/-- C102, turns that start and end with a curvature: the path exists, its ends are at most `ε` away from the given
positions in the plane, it drives forward at turning speed and bends at most as much as the robot can turn. -/
theorem C102_constrained (ε : ℝ) (lib : Library) (hs : Sound ε lib) (r : Robot) (disc : ℝ) (hκ : 0 < r.maxCurv)
    (hσ : 0 < r.diffCurv) (hd : 0 < disc) (p1 : RPoint) (a1 k1 : ℝ) (p2 : RPoint) (a2 k2 : ℝ) (fix : Bool) :
    ∃ p, constrained lib r disc p1 a1 k1 p2 a2 k2 fix = .ok p ∧ TurnStates r disc True p ∧ Bends r disc p ∧
      (∃ f, List.head? p = some f ∧ pdist f.point ⟨p1.x, p1.y, 0⟩ ≤ ε ∧ SameHeading f.angle a1) ∧
      ∃ l, List.getLast? p = some l ∧ pdist l.point ⟨p2.x, p2.y, 0⟩ ≤ ε ∧ SameHeading l.angle a2 := by
  obtain ⟨p, hp, ⟨f, f1, f2, f3⟩, ⟨l, l1, l2, l3, l4⟩, h3, h4⟩ :=
    cc_path r hκ hσ hd ⟨fun k σ => lib.ccControls k σ disc ⟨p1.x, p1.y, a1, k1, 0⟩ ⟨p2.x, p2.y, a2, k2, 0⟩,
      fun k σ => lib.ccDubins k σ disc ⟨p1.x, p1.y, a1, k1, 0⟩ ⟨p2.x, p2.y, a2, k2, 0⟩⟩ _ _
      (fun k σ h1 h2 => hs.cc k σ disc _ _ h1 h2 hd) fix
  exact ⟨p, hp, h3, h4, ⟨f, f1, f2, f3⟩, l, l1, l2, l3⟩

/-- The path is the curve between these states, at turning speed. -/
def Drives (r : Robot) (curve : List SteerState) (p : Path) : Prop := steerToPath r.turnVel curve = .ok p

/-- The path is the first curve without loops for limits that are reduced step by step, by one twentieth for the
curvature and one fifth for its change, or else the one after 21 reductions. -/
def DrivesFirst (r : Robot) (curve : ℝ → ℝ → List SteerState) (controls : ℝ → ℝ → List Control) (p : Path) : Prop :=
  ∃ n : ℕ, n ≤ 21 ∧ Drives r (curve (r.maxCurv / (1 + n / 20)) (r.diffCurv / (1 + n / 5))) p ∧
    (∀ m : ℕ, m < n → Loops (controls (r.maxCurv / (1 + m / 20)) (r.diffCurv / (1 + m / 5)))) ∧
    (¬ Loops (controls (r.maxCurv / (1 + n / 20)) (r.diffCurv / (1 + n / 5))) ∨ n = 21)

/-- The curve that a planner should drive from the origin with heading `a` to `(d, 0)` with heading `b`, with the
wheels straight at both ends and the limits of the robot. -/
def SimpleCurve (lib : Library) (r : Robot) (disc d a b : ℝ) (p : Path) : Kind → Prop
  | .dubins => Drives r (lib.dubins r.maxCurv disc ⟨0, 0, a, 0, 0⟩ ⟨d, 0, b, 0, 0⟩) p
  | .reedsShepp => Drives r (lib.reedsShepp r.maxCurv disc ⟨0, 0, a, 0, 0⟩ ⟨d, 0, b, 0, 0⟩) p
  | .reedsSheppHC => Drives r (lib.hc00ReedsShepp r.maxCurv r.diffCurv disc ⟨0, 0, a, 0, 0⟩ ⟨d, 0, b, 0, 0⟩) p
  | .dubinsCC => DrivesFirst r (fun κ σ => lib.cc00Dubins κ σ disc ⟨0, 0, a, 0, 0⟩ ⟨d, 0, b, 0, 0⟩)
      (fun κ σ => lib.cc00Controls κ σ disc ⟨0, 0, a, 0, 0⟩ ⟨d, 0, b, 0, 0⟩) p

private theorem limits_eq (r : Robot) (n : ℕ) :
    limits r n = (r.maxCurv / (1 + n / 20), r.diffCurv / (1 + n / 5)) := by
  unfold limits
  congr 2 <;> ring

private theorem cc_first (c : Curves) (r : Robot) (p : Path) (h : ccTurn c r true 22 = .ok p) :
    DrivesFirst r c.states c.controls p := by
  obtain ⟨n, hn, h1, h2, h3⟩ := C42_search c r 22 le_rfl
  rw [h1] at h
  simp only [limits_eq] at h h2 h3
  exact ⟨n, hn, h, h2, h3⟩

/-- C102: the curve that is driven, for any library. -/
theorem C102_simple_curve (lib : Library) (k : Kind) (r : Robot) (disc d a b : ℝ) (p : Path)
    (h : simple lib k r disc d a b = .ok p) : SimpleCurve lib r disc d a b p k := by
  cases k with
  | dubins => exact h
  | reedsShepp => exact h
  | reedsSheppHC => exact h
  | dubinsCC => exact cc_first _ r p h

/-- C102: the curve that is driven between two poses with curvatures, for any library; limits are reduced only if
that is asked for. -/
theorem C102_constrained_curve (lib : Library) (r : Robot) (disc : ℝ) (p1 : RPoint) (a1 k1 : ℝ) (p2 : RPoint)
    (a2 k2 : ℝ) (fix : Bool) (p : Path) (h : constrained lib r disc p1 a1 k1 p2 a2 k2 fix = .ok p) :
    if fix then
      DrivesFirst r (fun κ σ => lib.ccDubins κ σ disc ⟨p1.x, p1.y, a1, k1, 0⟩ ⟨p2.x, p2.y, a2, k2, 0⟩)
        (fun κ σ => lib.ccControls κ σ disc ⟨p1.x, p1.y, a1, k1, 0⟩ ⟨p2.x, p2.y, a2, k2, 0⟩) p
    else Drives r (lib.ccDubins r.maxCurv r.diffCurv disc ⟨p1.x, p1.y, a1, k1, 0⟩ ⟨p2.x, p2.y, a2, k2, 0⟩) p := by
  cases fix with
  | true => exact cc_first _ r p h
  | false =>
    unfold constrained at h
    simp only at h
    rw [C42_no_loop_fixing _ r 22 (by norm_num)] at h
    exact h

/-- Left arc, straight line and left arc reach every pose. -/
theorem lsl_reaches (k disc : ℝ) (hk : 0 < k) (hd : 0 < disc) (a b : SteerState) :
    Reaches 0 k disc a b (LSL.curve k disc a b) ∧ ∀ s ∈ LSL.curve k disc a b, s.d = 1 := by
  obtain ⟨⟨f, f1, f2, f3, f4⟩, ⟨l, l1, l2, l3, l4⟩, h3, h4⟩ := LSL.curve_spec k disc a b hk hd
  exact ⟨⟨⟨f, f1, by rw [f2, f3]; simp [pdist], f4⟩, ⟨l, l1, by rw [l2, l3]; simp [pdist], l4⟩,
    h3.imp fun _ _ h => h.1, fun s hs => .inl (h4 s hs), h3.imp fun _ _ h => h.2⟩, h4⟩

/-- A library that always drives a left arc, a straight line and a left arc. -/
noncomputable def lslLibrary : Library :=
  ⟨LSL.curve, LSL.curve, fun k _ => LSL.curve k, fun k _ => LSL.curve k, fun _ _ _ _ _ => [],
    fun k _ => LSL.curve k, fun _ _ _ _ _ => []⟩

theorem lslLibrary_sound : Sound 0 lslLibrary where
  dubins k disc a b hk hd := lsl_reaches k disc hk hd a b
  reedsShepp k disc a b hk hd := (lsl_reaches k disc hk hd a b).1
  hc00 k _ disc a b hk _ hd := (lsl_reaches k disc hk hd a b).1
  cc00 k _ disc a b hk _ hd := lsl_reaches k disc hk hd a b
  cc k _ disc a b hk _ hd := lsl_reaches k disc hk hd a b

example : ∃ q, createTurn (simple lslLibrary .dubinsCC) ⟨[], 1 / 100, false⟩ Robot.default ⟨3, 0, 0⟩ (π / 2)
      ⟨5, 1, 0⟩ (3 * π / 2) = .ok (q, ⟨[], 1 / 100, false⟩) ∧ Joins 0 ⟨3, 0, 0⟩ (π / 2) ⟨5, 1, 0⟩ (3 * π / 2) q := by
  obtain ⟨q, h1, -, -, ⟨-, h2⟩ | ⟨h2, -⟩⟩ := C102_turn 0 (by norm_num) lslLibrary lslLibrary_sound .dubinsCC
    Robot.default ⟨[], 1 / 100, false⟩ (by norm_num [Robot.default]) (by norm_num [Robot.default]) (by norm_num)
    rfl ⟨3, 0, 0⟩ (π / 2) ⟨5, 1, 0⟩ (3 * π / 2)
  · exfalso
    have : (0 : ℝ) < pdist ⟨3, 0, 0⟩ ⟨5, 1, 0⟩ := by
      unfold pdist
      exact sqrt_pos.2 (by norm_num)
    linarith
  · exact ⟨q, h1, h2⟩

/-- Both exist for the library of left turns. -/
example : ∃ p, constrained lslLibrary Robot.default (1 / 100) ⟨3, 0, 0⟩ (π / 2) (1 / 2) ⟨5, 1, 0⟩ 0 0 false = .ok p ∧
    ∃ p', simple lslLibrary .reedsSheppHC Robot.default (1 / 100) 5 1 2 = .ok p' := by
  have h1 : 0 < Robot.default.maxCurv := by norm_num [Robot.default]
  have h2 : 0 < Robot.default.diffCurv := by norm_num [Robot.default]
  obtain ⟨p, hp, -⟩ := C102_constrained 0 lslLibrary lslLibrary_sound Robot.default (1 / 100) h1 h2 (by norm_num)
    ⟨3, 0, 0⟩ (π / 2) (1 / 2) ⟨5, 1, 0⟩ 0 0 false
  obtain ⟨p', hp', -⟩ := C102_simple 0 lslLibrary lslLibrary_sound .reedsSheppHC Robot.default (1 / 100) 5 1 2 h1 h2
    (by norm_num)
  exact ⟨p, hp, p', hp'⟩

end F2C.Props
