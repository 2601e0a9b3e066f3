import Verif.Model.IeeeRoute
import Verif.Lemmas.IeeeGraph
import Verif.Lemmas.IeeeShare
import Verif.Lemmas.RouteCost

/-! # Lemmas about the cost of routes in double precision -/

namespace F2C.Ieee

open Flt Dbl

variable {fl : ℝ → ℝ}

/-- a bound for the distance of two points -/
noncomputable def far : ℝ := 2 ^ 403
/-- the error of the square root of numbers that are too small -/
noncomputable def eta : ℝ := (2 : ℝ) ^ (-329 : ℤ)

theorem far_pos : 0 < far := by unfold far; positivity
theorem eta_pos : 0 < eta := by unfold eta; positivity
theorem eta_far : eta ≤ far := by
  have h1 : eta ≤ (2 : ℝ) ^ (0 : ℤ) := zpow_le_zpow_right₀ (by norm_num) (by norm_num)
  have h2 : (1 : ℝ) ≤ far := one_le_pow₀ (by norm_num)
  rw [zpow_zero] at h1
  exact h1.trans h2
theorem far_big : 2 ^ 30 * far ≤ big := by
  unfold far
  rw [← pow_add]
  exact pow_le_pow_right₀ (by norm_num) (by norm_num)

/-- A number that is the given one after `k` steps with a relative error of 10 / 2^52 each. -/
def Near (k : Nat) (a : ℝ) (v : Flt) : Prop :=
  ∃ x, v = fin x ∧ IsDouble x ∧ 0 ≤ x ∧ 0 ≤ a ∧ a ≤ k * far ∧ (1 - 10 / 2 ^ 52) ^ k * a - k * eta ≤ x ∧
    x ≤ (1 + 10 / 2 ^ 52) ^ k * (a + k * eta)

theorem near_zero : Near 0 0 (fin 0) := ⟨0, rfl, isDouble_zero, le_rfl, le_rfl, by simp, by simp, by simp⟩

theorem Near.mono {k l : Nat} {a : ℝ} {v : Flt} (h : Near k a v) (hk : k ≤ l) : Near l a v := by
  obtain ⟨x, e, d, x0, a0, a1, h1, h2⟩ := h
  have kl : (k : ℝ) ≤ l := by exact_mod_cast hk
  have ke := mul_le_mul_of_nonneg_right kl eta_pos.le
  have k0 : (0 : ℝ) ≤ k * eta := mul_nonneg (Nat.cast_nonneg (α := ℝ) k) eta_pos.le
  refine ⟨x, e, d, x0, a0, a1.trans (mul_le_mul_of_nonneg_right kl far_pos.le), le_trans ?_ h1, h2.trans ?_⟩
  · have := mul_le_mul_of_nonneg_right (pow_le_pow_of_le_one (a := (1 - 10 / 2 ^ 52 : ℝ)) (by norm_num) (by norm_num) hk) a0
    linarith
  · exact mul_le_mul (pow_le_pow_right₀ (by norm_num) hk) (by linarith) (by linarith) (by positivity)

theorem hi_two {k : Nat} (hk : k ≤ 2 ^ 30) : (1 + 10 / 2 ^ 52 : ℝ) ^ k ≤ 1 + 2 * (k * (10 / 2 ^ 52)) ∧
    1 - k * (10 / 2 ^ 52) ≤ (1 - 10 / 2 ^ 52 : ℝ) ^ k := by
  have b : 1 - k * (10 / 2 ^ 52) ≤ (1 - 10 / 2 ^ 52 : ℝ) ^ k := by
    have := one_add_mul_le_pow (a := (-(10 / 2 ^ 52) : ℝ)) (by norm_num) k
    rw [← sub_eq_add_neg] at this
    refine le_trans (le_of_eq ?_) this
    ring
  refine ⟨?_, b⟩
  have kr : (k : ℝ) ≤ 2 ^ 30 := by exact_mod_cast hk
  have k0 : (0 : ℝ) ≤ k := Nat.cast_nonneg k
  have x1 : (k : ℝ) * (10 / 2 ^ 52) ≤ 1 / 2 := (mul_le_mul_of_nonneg_right kr (by norm_num)).trans (by norm_num)
  have x0 : 0 ≤ (k : ℝ) * (10 / 2 ^ 52) := by positivity
  have prod : (1 + 10 / 2 ^ 52 : ℝ) ^ k * (1 - 10 / 2 ^ 52 : ℝ) ^ k ≤ 1 := by
    rw [← mul_pow]
    exact pow_le_one₀ (by norm_num) (by norm_num)
  have P0 : (0 : ℝ) ≤ (1 + 10 / 2 ^ 52 : ℝ) ^ k := by positivity
  generalize (k : ℝ) * (10 / 2 ^ 52) = x at *
  generalize (1 + 10 / 2 ^ 52 : ℝ) ^ k = P at *
  have := (mul_le_mul_of_nonneg_left b P0).trans prod
  nlinarith

theorem hi_le_two {k : Nat} (hk : k ≤ 2 ^ 30) : (1 + 10 / 2 ^ 52 : ℝ) ^ k ≤ 2 := by
  refine (hi_two hk).1.trans ?_
  have kr : (k : ℝ) ≤ 2 ^ 30 := by exact_mod_cast hk
  have : (k : ℝ) * (10 / 2 ^ 52) ≤ 1 / 2 := (mul_le_mul_of_nonneg_right kr (by norm_num)).trans (by norm_num)
  linarith

theorem Near.add (h : IsRounding fl) {k l : Nat} {a b : ℝ} {v w : Flt} (hv : Near k a v) (hw : Near l b w) (hk : k + l + 1 ≤ 2 ^ 30) :
    Near (k + l + 1) (a + b) (Flt.add fl v w) := by
  obtain ⟨x, rfl, dx, x0, a0, a1, x1, x2⟩ := hv
  obtain ⟨y, rfl, dy, y0, b0, b1, y1, y2⟩ := hw
  have k0 : (0 : ℝ) ≤ k * eta := mul_nonneg (Nat.cast_nonneg (α := ℝ) k) eta_pos.le
  have l0 : (0 : ℝ) ≤ l * eta := mul_nonneg (Nat.cast_nonneg (α := ℝ) l) eta_pos.le
  have up1 : x ≤ (1 + 10 / 2 ^ 52) ^ (k + l) * (a + k * eta) :=
    x2.trans (mul_le_mul_of_nonneg_right (pow_le_pow_right₀ (by norm_num) (by omega)) (by linarith))
  have up2 : y ≤ (1 + 10 / 2 ^ 52) ^ (k + l) * (b + l * eta) :=
    y2.trans (mul_le_mul_of_nonneg_right (pow_le_pow_right₀ (by norm_num) (by omega)) (by linarith))
  have lo1 : (1 - 10 / 2 ^ 52) ^ (k + l) * a - k * eta ≤ x := le_trans (sub_le_sub_right
    (mul_le_mul_of_nonneg_right (pow_le_pow_of_le_one (by norm_num) (by norm_num) (by omega)) a0) _) x1
  have lo2 : (1 - 10 / 2 ^ 52) ^ (k + l) * b - l * eta ≤ y := le_trans (sub_le_sub_right
    (mul_le_mul_of_nonneg_right (pow_le_pow_of_le_one (by norm_num) (by norm_num) (by omega)) b0) _) y1
  have s0 : 0 ≤ x + y := add_nonneg x0 y0
  have er := h.sum_error dx dy
  rw [abs_of_nonneg s0] at er
  obtain ⟨e1, e2⟩ := abs_le.1 er
  have two := hi_le_two (k := k + l) (by omega)
  have E0 := eta_pos
  have cast : ((k + l + 1 : ℕ) : ℝ) = k + l + 1 := by push_cast; ring
  have sum2 : x + y ≤ (1 + 10 / 2 ^ 52) ^ (k + l) * (a + b + (k + l) * eta) := by linarith
  have sum1 : (1 - 10 / 2 ^ 52) ^ (k + l) * (a + b) - (k + l) * eta ≤ x + y := by linarith
  have ab : a + b ≤ (k + l + 1) * far := by linarith [far_pos]
  have kl : (k : ℝ) + l + 1 ≤ 2 ^ 30 := by rw [← cast]; exact_mod_cast hk
  have kl0 : (0 : ℝ) ≤ (k + l) * eta := by linarith
  have fits : x + y ≤ 4 * big := by
    have m1 : x + y ≤ 2 * (a + b + (k + l) * eta) := sum2.trans (mul_le_mul_of_nonneg_right two (by linarith))
    have m2 : ((k : ℝ) + l) * eta ≤ (k + l + 1) * far :=
      mul_le_mul (by linarith) eta_far E0.le (by positivity)
    have m3 : ((k : ℝ) + l + 1) * far ≤ big := (mul_le_mul_of_nonneg_right kl far_pos.le).trans far_big
    linarith
  refine ⟨fl (x + y), ?_, h.double _, h.ge isDouble_zero s0, add_nonneg a0 b0, by rw [cast]; exact ab, ?_, ?_⟩
  · rw [add_fin, rnd_fin]
    rwa [abs_of_nonneg s0]
  · rw [cast, pow_succ]
    clear up1 up2 lo1 lo2 x1 x2 y1 y2 two fits
    generalize (1 - 10 / 2 ^ 52 : ℝ) ^ (k + l) = P at *
    have := mul_le_mul_of_nonneg_left sum1 (show (0 : ℝ) ≤ 1 - 10 / 2 ^ 52 by norm_num)
    norm_num at this e1 e2 ⊢
    linarith
  · rw [cast, pow_succ]
    clear up1 up2 lo1 lo2 x1 x2 y1 y2 fits
    have P0 : (0 : ℝ) ≤ (1 + 10 / 2 ^ 52 : ℝ) ^ (k + l) := by positivity
    generalize (1 + 10 / 2 ^ 52 : ℝ) ^ (k + l) = P at *
    have := mul_le_mul_of_nonneg_left sum2 (show (0 : ℝ) ≤ 1 + 10 / 2 ^ 52 by norm_num)
    have := mul_nonneg P0 E0.le
    norm_num at *
    linarith

theorem near_distance (h : IsRounding fl) {p q : RPoint} (dx : |p.x - q.x| ≤ 2 ^ 401) (dy : |p.y - q.y| ≤ 2 ^ 401) :
    Near 1 (pdist p q) (distance fl (ofPoint p) (ofPoint q)) := by
  have up : (2 : ℝ) ^ 401 ≤ 2 ^ 402 := pow_le_pow_right₀ (by norm_num) (by norm_num)
  obtain ⟨e, d0, -, c1, c2⟩ := distance_close_eq h (z := fin p.z) (z' := fin q.z) (dx.trans up) (dy.trans up) _ rfl
  have D0 := pdist_nonneg p q
  have D1 : pdist p q ≤ far := by
    refine (pdist_le_coords p q).trans ((add_le_add dx dy).trans ?_)
    unfold far
    rw [← two_mul, ← pow_succ']
    exact pow_le_pow_right₀ (by norm_num) (by norm_num)
  have E0 := eta_pos
  refine ⟨_, e, h.double _, d0, D0, by simpa using D1, ?_, ?_⟩
  · change _ ≤ _ * _ + eta at c1
    rw [pow_one, Nat.cast_one, one_mul]
    generalize fl √_ = d at *
    norm_num at *
    nlinarith
  · change _ ≤ _ * _ + eta at c2
    rw [pow_one, Nat.cast_one, one_mul]
    generalize fl √_ = d at *
    norm_num at *
    nlinarith

/-- Points with coordinates of at most 2^400. -/
def Small (p : RPoint) : Prop := |p.x| ≤ 2 ^ 400 ∧ |p.y| ≤ 2 ^ 400

theorem small_distance (h : IsRounding fl) {p q : RPoint} (hp : Small p) (hq : Small q) :
    Near 1 (pdist p q) (distance fl (ofPoint p) (ofPoint q)) := by
  have e : (2 : ℝ) ^ 400 + 2 ^ 400 = 2 ^ 401 := by rw [← two_mul, ← pow_succ']
  refine near_distance h ?_ ?_
  · exact (abs_sub _ _).trans ((add_le_add hp.1 hq.1).trans e.le)
  · exact (abs_sub _ _).trans ((add_le_add hp.2 hq.2).trans e.le)

/-- The swath with these numbers. -/
def ofSwath (s : Swath ℝ) : Swath Flt := ⟨s.id, s.path.map ofPoint, fin s.width, s.creationDir, s.type⟩

/-- The route with these numbers. -/
def ofRoute (r : Route ℝ) : Route Flt := ⟨r.connections.map fun c => c.map ofPoint, r.groups.map fun g => g.map ofSwath⟩

/-- The same exception or undefined behaviour, or numbers that are near. -/
def Sim (k : Nat) : Outcome ℝ → Outcome Flt → Prop
  | .ok a, .ok v => Near k a v
  | .throw e, .throw e' => e = e'
  | .ub w, .ub w' => w = w'
  | _, _ => False

theorem Sim.bind {k l : Nat} {o : Outcome ℝ} {o' : Outcome Flt} {f : ℝ → Outcome ℝ} {g : Flt → Outcome Flt} (h : Sim k o o')
    (hf : ∀ a v, Near k a v → Sim l (f a) (g v)) : Sim l (o >>= f) (o' >>= g) := by
  match o, o', h with
  | .ok a, .ok v, h => exact hf a v h
  | .throw e, .throw e', h => exact h
  | .ub w, .ub w', h => exact h

theorem Sim.mono {k l : Nat} {o : Outcome ℝ} {o' : Outcome Flt} (h : Sim k o o') (hk : k ≤ l) : Sim l o o' := by
  match o, o', h with
  | .ok a, .ok v, h => exact Near.mono h hk
  | .throw e, .throw e', h => exact h
  | .ub w, .ub w', h => exact h

theorem multiFrom_near (h : IsRounding fl) : ∀ (ps : List RPoint) (k : Nat) (a : ℝ) (v : Flt), (∀ p ∈ ps, Small p) → Near k a v →
    k + 2 * ps.length ≤ 2 ^ 30 → Near (k + 2 * ps.length) (a + lineLength ps) (RPCost.multiFrom fl v (ps.map ofPoint))
  | p :: q :: l, k, a, v, hs, hv, hk => by
    simp only [List.length_cons] at hk
    have n := hv.add h (small_distance h (hs p (by simp)) (hs q (by simp))) (by omega)
    have := multiFrom_near h (q :: l) (k + 1 + 1) _ _ (fun x m => hs x (by simp at m ⊢; tauto)) n (by simp only [List.length_cons]; omega)
    simp only [List.map_cons, RPCost.multiFrom, lineLength] at this ⊢
    rw [add_assoc a] at this
    refine Near.mono this ?_
    simp only [List.length_cons]
    omega
  | [p], k, a, v, _, hv, _ => by
    simp only [List.map_cons, List.map_nil, RPCost.multiFrom, lineLength, add_zero]
    exact hv.mono (by simp)
  | [], k, a, v, _, hv, _ => by
    simp only [List.map_nil, RPCost.multiFrom, lineLength, add_zero]
    exact hv.mono (by simp)

theorem multi_near (h : IsRounding fl) (ps : List RPoint) (hs : ∀ p ∈ ps, Small p) (hk : 2 * ps.length ≤ 2 ^ 30) :
    Near (2 * ps.length) (lineLength ps) (RPCost.multi fl (ps.map ofPoint)) := by
  have := multiFrom_near h ps 0 0 (fin 0) hs near_zero (by omega)
  rwa [zero_add, zero_add] at this

theorem angle_in (s : Swath ℝ) : (∃ a, s.inAngle = .ok a ∧ RPCost.angle (ofSwath s) = .ok ()) ∨
    (s.inAngle = .throw .outOfRange ∧ RPCost.angle (ofSwath s) = .throw .outOfRange) := by
  unfold Swath.inAngle RPCost.angle ofSwath
  match s.path with
  | [] => exact Or.inl ⟨_, rfl, rfl⟩
  | [_] => exact Or.inr ⟨rfl, rfl⟩
  | _ :: _ :: _ => exact Or.inl ⟨_, rfl, rfl⟩

theorem angle_out (s : Swath ℝ) : (∃ a, s.outAngle = .ok a ∧ RPCost.angle (ofSwath s) = .ok ()) ∨
    (s.outAngle = .throw .outOfRange ∧ RPCost.angle (ofSwath s) = .throw .outOfRange) := by
  rcases angle_in s with ⟨a, e, e'⟩ | ⟨e, e'⟩
  · refine Or.inl ?_
    rw [e']
    have hp : s.path.length ≠ 1 := by
      intro hl
      obtain ⟨x, hx⟩ := List.length_eq_one_iff.1 hl
      simp [Swath.inAngle, hx] at e
    unfold Swath.outAngle
    have hr : s.path.reverse.length ≠ 1 := by simpa using hp
    match s.path.reverse, hr with
    | [], _ => exact ⟨_, rfl, rfl⟩
    | _ :: _ :: _, _ => exact ⟨_, rfl, rfl⟩
  · refine Or.inr ⟨?_, e'⟩
    unfold Swath.inAngle at e
    split at e
    · cases e
    · next hx => simp [Swath.outAngle, hx]
    · cases e

theorem small_zero : Small Point.zero := by
  constructor <;> · simp [Point.zero]

theorem start_eq (s : Swath ℝ) : RPCost.startPoint (ofSwath s) = ofPoint s.startPoint := by
  unfold RPCost.startPoint ofSwath Swath.startPoint
  cases s.path <;> rfl

theorem end_eq (s : Swath ℝ) : RPCost.endPoint (ofSwath s) = ofPoint s.endPoint := by
  unfold RPCost.endPoint ofSwath Swath.endPoint
  simp only [List.getLast?_map]
  cases s.path.getLast? <;> rfl

theorem small_start {s : Swath ℝ} (hs : ∀ p ∈ s.path, Small p) : Small s.startPoint := by
  unfold Swath.startPoint
  cases e : s.path.head? with
  | none => exact small_zero
  | some p => exact hs p (List.mem_of_mem_head? e)

theorem small_end {s : Swath ℝ} (hs : ∀ p ∈ s.path, Small p) : Small s.endPoint := by
  unfold Swath.endPoint
  cases e : s.path.getLast? with
  | none => exact small_zero
  | some p => exact hs p (List.mem_of_mem_getLast? e)

theorem gaps_near (h : IsRounding fl) : ∀ (l : Swaths ℝ) (prev : Swath ℝ) (k : Nat) (a : ℝ) (v : Flt), (∀ p ∈ prev.path, Small p) →
    (∀ s ∈ l, ∀ p ∈ s.path, Small p) → Near k a v → k + 2 * l.length ≤ 2 ^ 30 →
    Sim (k + 2 * l.length) (F2C.RPCost.gaps a prev l) (RPCost.gaps fl v (ofSwath prev) (l.map ofSwath))
  | [], prev, k, a, v, _, _, hv, _ => by simpa [F2C.RPCost.gaps, RPCost.gaps, Sim] using hv
  | s :: l, prev, k, a, v, hp, hl, hv, hk => by
    simp only [List.length_cons] at hk
    have hs := hl s (by simp)
    rw [List.map_cons, F2C.RPCost.gaps, RPCost.gaps, end_eq, start_eq]
    rcases angle_out prev with ⟨x, e1, e2⟩ | ⟨e1, e2⟩
    · rcases angle_in s with ⟨y, e3, e4⟩ | ⟨e3, e4⟩
      · rw [e1, e2, e3, e4]
        simp only [Outcome.ok_bind]
        have n := hv.add h (small_distance h (small_end hp) (small_start hs)) (by omega)
        exact (gaps_near h l s (k + 1 + 1) _ _ hs (fun t m => hl t (by simp [m])) n (by omega)).mono (by simp only [List.length_cons]; omega)
      · rw [e1, e2, e3, e4]; exact rfl
    · rw [e1, e2]; exact rfl

/-- the number of steps for a group of swaths -/
def steps (l : Swaths ℝ) : Nat := (l.map fun s => 2 * s.path.length + 1).sum + 2 * l.length

theorem fold_near {α β : Type} (h : IsRounding fl) (f : α → ℝ) (g : β → Flt) (φ : α → β) (c : α → Nat) : ∀ (l : List α) (k : Nat) (a : ℝ)
    (v : Flt), (∀ x ∈ l, c x ≤ 2 ^ 30 → Near (c x) (f x) (g (φ x))) → Near k a v → k + (l.map fun x => c x + 1).sum ≤ 2 ^ 30 →
    Near (k + (l.map fun x => c x + 1).sum) (l.foldl (fun d x => d + f x) a) ((l.map φ).foldl (fun d x => Flt.add fl d (g x)) v)
  | [], k, a, v, _, hv, _ => by simpa using hv
  | x :: l, k, a, v, hl, hv, hk => by
    simp only [List.map_cons, List.sum_cons, List.foldl_cons] at hk ⊢
    have n := hv.add h (hl x (by simp) (by omega)) (by omega)
    exact (fold_near h f g φ c l (k + c x + 1) _ _ (fun y m => hl y (by simp [m])) n (by omega)).mono (by omega)

theorem swaths_near (h : IsRounding fl) (l : Swaths ℝ) (hl : ∀ s ∈ l, ∀ p ∈ s.path, Small p) (hk : steps l ≤ 2 ^ 30) :
    Sim (steps l) (F2C.RPCost.swaths l) (RPCost.swaths fl (l.map ofSwath)) := by
  unfold steps at *
  have n := fold_near h (fun s : Swath ℝ => F2C.RPCost.swath s) (fun s : Swath Flt => RPCost.multi fl s.path) ofSwath
    (fun s => 2 * s.path.length) l 0 0 (fin 0) (fun s m hc => by
      show Near _ (F2C.RPCost.multi s.path) _
      rw [RouteL.multi_eq]
      exact multi_near h s.path (hl s m) hc) near_zero (by omega)
  rw [zero_add] at n
  unfold F2C.RPCost.swaths RPCost.swaths
  cases l with
  | nil => exact n
  | cons s r =>
    simp only [List.map_cons] at n ⊢
    exact (gaps_near h r s _ _ _ (hl s (by simp)) (fun t m => hl t (by simp [m])) n (by simp only [List.map_cons, List.length_cons] at hk ⊢; omega)).mono
      (by simp only [List.length_cons]; omega)

theorem swathsMulti_near (h : IsRounding fl) (l : Swaths ℝ) (ps : List RPoint) (hl : ∀ s ∈ l, ∀ p ∈ s.path, Small p) (hp : ∀ p ∈ ps, Small p) :
    Sim 1 (F2C.RPCost.swathsMulti l ps) (RPCost.swathsMulti fl (l.map ofSwath) (ps.map ofPoint)) := by
  unfold F2C.RPCost.swathsMulti RPCost.swathsMulti
  cases ps with
  | nil => exact near_zero.mono (by omega)
  | cons p ps =>
    simp only [List.map_cons, List.getLast?_map]
    cases e : l.getLast? with
    | none => exact rfl
    | some s =>
      have hs := hl s (List.mem_of_mem_getLast? e)
      simp only [Option.map_some]
      rcases angle_out s with ⟨x, e1, e2⟩ | ⟨e1, e2⟩
      · rw [e1, e2, end_eq]
        exact small_distance h (small_end hs) (hp p (by simp))
      · rw [e1, e2]; exact rfl

theorem multiSwaths_near (h : IsRounding fl) (l : Swaths ℝ) (ps : List RPoint) (hl : ∀ s ∈ l, ∀ p ∈ s.path, Small p) (hp : ∀ p ∈ ps, Small p) :
    Sim 1 (F2C.RPCost.multiSwaths ps l) (RPCost.multiSwaths fl (ps.map ofPoint) (l.map ofSwath)) := by
  unfold F2C.RPCost.multiSwaths RPCost.multiSwaths
  cases l with
  | nil => exact rfl
  | cons s l =>
    simp only [List.map_cons, List.getLast?_map]
    cases e : ps.getLast? with
    | none => exact near_zero.mono (by omega)
    | some p =>
      have hs := hl s (by simp)
      simp only [Option.map_some]
      rcases angle_in s with ⟨x, e1, e2⟩ | ⟨e1, e2⟩
      · rw [e1, e2, start_eq]
        exact small_distance h (hp p (List.mem_of_mem_getLast? e)) (small_start hs)
      · rw [e1, e2]; exact rfl

theorem sim_fold {α β : Type} (f : ℝ → α → Outcome ℝ) (g : Flt → β → Outcome Flt) (φ : α → β) (c : α → Nat) : ∀ (l : List α) (k : Nat)
    (a : ℝ) (v : Flt), (∀ x ∈ l, ∀ k a v, Near k a v → k + c x ≤ 2 ^ 30 → Sim (k + c x) (f a x) (g v (φ x))) → Near k a v →
    k + (l.map c).sum ≤ 2 ^ 30 → Sim (k + (l.map c).sum) (foldOutcome f a l) (foldOutcome g v (l.map φ))
  | [], k, a, v, _, hv, _ => by simpa [foldOutcome, Sim] using hv
  | x :: l, k, a, v, hl, hv, hk => by
    simp only [List.map_cons, List.sum_cons] at hk ⊢
    rw [foldOutcome, foldOutcome]
    refine Sim.bind (hl x (by simp) k a v hv (by omega)) ?_
    intro a' v' hv'
    exact (sim_fold f g φ c l (k + c x) a' v' (fun y m => hl y (by simp [m])) hv' (by omega)).mono (by omega)

/-- All points of the route. -/
def SmallRoute (r : Route ℝ) : Prop := (∀ c ∈ r.connections, ∀ p ∈ c, Small p) ∧ ∀ g ∈ r.groups, ∀ s ∈ g, ∀ p ∈ s.path, Small p

theorem routeStep_near (h : IsRounding fl) (r : Route ℝ) (hr : SmallRoute r) (i k : Nat) (a : ℝ) (v : Flt) (hv : Near k a v)
    (hk : k + 4 ≤ 2 ^ 30) : Sim (k + 4) (F2C.RPCost.routeStep r a i) (RPCost.routeStep fl (ofRoute r) v i) := by
  unfold F2C.RPCost.routeStep RPCost.routeStep
  simp only [ofRoute, List.getElem?_map, List.length_map]
  cases e1 : r.connections[i]? with
  | none => exact rfl
  | some c =>
    cases e2 : r.groups[i]? with
    | none => exact rfl
    | some g =>
      have hc := hr.1 c (List.mem_of_getElem? e1)
      have hg := hr.2 g (List.mem_of_getElem? e2)
      simp only [Option.map_some]
      refine Sim.bind (multiSwaths_near h g c hg hc) ?_
      intro b w hw
      have n1 := hv.add h hw (by omega)
      split
      · cases e3 : r.connections[i + 1]? with
        | none => exact rfl
        | some c' =>
          simp only [Option.map_some]
          refine Sim.bind (swathsMulti_near h g c' hg (hr.1 c' (List.mem_of_getElem? e3))) ?_
          intro b' w' hw'
          exact (n1.add h hw' (by omega)).mono (by omega)
      · exact n1.mono (by omega)

/-- the number of steps for a route -/
def routeSteps (r : Route ℝ) : Nat :=
  (r.groups.map fun g => steps g + 1).sum + (r.connections.map fun c => 2 * c.length + 1).sum + 4 * r.groups.length

theorem route_near (h : IsRounding fl) (r : Route ℝ) (hr : SmallRoute r) (hk : routeSteps r ≤ 2 ^ 30) :
    Sim (routeSteps r) (F2C.RPCost.route r) (RPCost.route fl (ofRoute r)) := by
  unfold routeSteps at *
  unfold F2C.RPCost.route RPCost.route
  have s1 := sim_fold (fun d g => do let a ← F2C.RPCost.swaths g; return d + a) (fun d g => do let a ← RPCost.swaths fl g; return Flt.add fl d a)
    (fun g : Swaths ℝ => g.map ofSwath) (fun g => steps g + 1) r.groups 0 0 (fin 0) (fun g m k a v hv hk' => by
      refine Sim.bind (swaths_near h g (hr.2 g m) (by omega)) ?_
      intro b w hw
      exact (hv.add h hw (by omega)).mono (by omega)) near_zero (by omega)
  refine Sim.bind s1 ?_
  intro a v hv
  have n := fold_near h (fun c : List (Point ℝ) => F2C.RPCost.multi c) (fun c : List (Point Flt) => RPCost.multi fl c) (fun c => c.map ofPoint)
    (fun c => 2 * c.length) r.connections _ a v (fun c m hc => by
      rw [RouteL.multi_eq]
      exact multi_near h c (hr.1 c m) hc) hv (by omega)
  have hl : (ofRoute r).groups.length = r.groups.length := by simp [ofRoute]
  rw [hl]
  have e4 : ((List.range r.groups.length).map fun _ => 4).sum = 4 * r.groups.length := by simp [mul_comm]
  have s2 := sim_fold (F2C.RPCost.routeStep r) (RPCost.routeStep fl (ofRoute r)) id (fun _ => 4) (List.range r.groups.length) _ _ _
    (fun i _ k a v hv hk' => routeStep_near h r hr i k a v hv hk') n (by rw [e4]; simpa using hk)
  rw [List.map_id, e4] at s2
  exact Sim.mono s2 (by simp)

theorem Near.err {k : Nat} {a : ℝ} {v : Flt} (hv : Near k a v) (hk : k ≤ 2 ^ 30) :
    ∃ x, v = fin x ∧ IsDouble x ∧ |x - a| ≤ a * (k * 20 / 2 ^ 52) + 2 * k * eta := by
  obtain ⟨x, e, d, x0, a0, a1, h1, h2⟩ := hv
  obtain ⟨g1, g2⟩ := hi_two hk
  have g3 := hi_le_two hk
  have k0 : (0 : ℝ) ≤ k * eta := mul_nonneg (Nat.cast_nonneg (α := ℝ) k) eta_pos.le
  have k1 : (0 : ℝ) ≤ k := Nat.cast_nonneg k
  refine ⟨x, e, d, ?_⟩
  have m1 := mul_le_mul_of_nonneg_right g1 a0
  have m2 := mul_le_mul_of_nonneg_right g2 a0
  have m3 := mul_le_mul_of_nonneg_right g3 k0
  have m4 : 0 ≤ a * (k : ℝ) := mul_nonneg a0 k1
  rw [abs_le]
  constructor
  · have : a * (k * 20 / 2 ^ 52) = a * k * (20 / 2 ^ 52) := by ring
    rw [this]
    have : (1 - (k : ℝ) * (10 / 2 ^ 52)) * a = a - a * k * (10 / 2 ^ 52) := by ring
    have : a * (k : ℝ) * (10 / 2 ^ 52) ≤ a * k * (20 / 2 ^ 52) := mul_le_mul_of_nonneg_left (by norm_num) m4
    linarith
  · rw [mul_add] at h2
    have : (1 + 2 * ((k : ℝ) * (10 / 2 ^ 52))) * a = a + a * (k * 20 / 2 ^ 52) := by ring
    linarith

/-- Points, swaths, groups and connections of a route. -/
def size (r : Route ℝ) : Nat :=
  (r.connections.map fun c => c.length + 1).sum + (r.groups.map fun g => (g.map fun s => s.path.length + 1).sum + 1).sum

theorem sum_le_mul {α : Type} (f g : α → Nat) (c : Nat) (l : List α) (h : ∀ x ∈ l, f x ≤ c * g x) : (l.map f).sum ≤ c * (l.map g).sum := by
  induction l with
  | nil => simp
  | cons a l ih =>
    have h1 := h a (by simp)
    have h2 := ih fun x m => h x (by simp [m])
    simp only [List.map_cons, List.sum_cons, Nat.mul_add]
    omega

theorem steps_le (l : Swaths ℝ) : steps l ≤ 3 * (l.map fun s => s.path.length + 1).sum := by
  unfold steps
  induction l with
  | nil => simp
  | cons s l ih => simp only [List.map_cons, List.sum_cons, List.length_cons] at *; omega

theorem steps_size (r : Route ℝ) : routeSteps r ≤ 5 * size r := by
  unfold routeSteps size
  have h1 := sum_le_mul (fun c : List (Point ℝ) => 2 * c.length + 1) (fun c => c.length + 1) 5 r.connections (fun c _ => by omega)
  have h2 : (r.groups.map fun g => steps g + 1).sum + 4 * r.groups.length ≤
      5 * (r.groups.map fun g => (g.map fun s => s.path.length + 1).sum + 1).sum := by
    induction r.groups with
    | nil => simp
    | cons g l ih =>
      have := steps_le g
      simp only [List.map_cons, List.sum_cons, List.length_cons] at *
      omega
  omega

/-- From the number of steps to the size. -/
theorem err_size {k n c : Nat} {a : ℝ} {v : Flt} (hv : Near k a v) (hk : k ≤ c * n) (hc : c ≤ 5) (hn : n ≤ 2 ^ 27) :
    ∃ x, v = fin x ∧ IsDouble x ∧ |x - a| ≤ a * (n / 2 ^ 45) + n / 2 ^ 320 := by
  have hk5 : k ≤ 5 * n := hk.trans (Nat.mul_le_mul_right n hc)
  obtain ⟨x, e, d, b⟩ := hv.err (by omega)
  refine ⟨x, e, d, b.trans ?_⟩
  have a0 : 0 ≤ a := by obtain ⟨_, _, _, _, a0, _⟩ := hv; exact a0
  have kr : (k : ℝ) ≤ 5 * n := by exact_mod_cast hk5
  have n0 : (0 : ℝ) ≤ n := Nat.cast_nonneg n
  have t1 : (k : ℝ) * 20 / 2 ^ 52 ≤ n / 2 ^ 45 := by
    have : (k : ℝ) * (20 / 2 ^ 52) ≤ 5 * n * (20 / 2 ^ 52) := mul_le_mul_of_nonneg_right kr (by norm_num)
    have : (n : ℝ) * (100 / 2 ^ 52) ≤ n * (1 / 2 ^ 45) := mul_le_mul_of_nonneg_left (by norm_num) n0
    linarith
  have e1 : (eta : ℝ) * 2 ^ 9 = 1 / 2 ^ 320 := by
    unfold eta
    rw [one_div, ← zpow_natCast (2 : ℝ) 9, ← zpow_natCast (2 : ℝ) 320, ← zpow_add₀ (by norm_num), ← zpow_neg]
    rfl
  have t2 : 2 * (k : ℝ) * eta ≤ n / 2 ^ 320 := by
    rw [div_eq_mul_one_div, ← e1]
    have := eta_pos
    have : (k : ℝ) * eta ≤ 5 * n * eta := mul_le_mul_of_nonneg_right kr this.le
    have : 0 ≤ (n : ℝ) * eta := mul_nonneg n0 eta_pos.le
    linarith
  exact add_le_add (mul_le_mul_of_nonneg_left t1 a0) t2

/-! ### not a number -/

theorem nan_add (v : Flt) : add fl nan v = nan := by cases v <;> rfl

theorem add_nan (v : Flt) : add fl v nan = nan := by cases v <;> rfl

/-- two points or more, and a coordinate that is not a number -/
def HasNan (ps : List (Point Flt)) : Prop := 2 ≤ ps.length ∧ ∃ p ∈ ps, p.x = nan ∨ p.y = nan

theorem distance_nan_left {p : Point Flt} (hp : p.x = nan ∨ p.y = nan) (q : Point Flt) : distance fl p q = nan := by
  unfold distance
  rcases hp with e | e
  · have : sub fl p.x q.x = nan := by rw [e]; cases q.x <;> rfl
    simp only [this]
    have : mul fl nan nan = nan := rfl
    rw [this, nan_add]
    rfl
  · have : sub fl p.y q.y = nan := by rw [e]; cases q.y <;> rfl
    simp only [this]
    have : mul fl nan nan = nan := rfl
    rw [this, add_nan]
    rfl

theorem distance_nan_right {p : Point Flt} (hp : p.x = nan ∨ p.y = nan) (q : Point Flt) : distance fl q p = nan := by
  unfold distance
  rcases hp with e | e
  · have : sub fl q.x p.x = nan := by rw [e]; cases q.x <;> rfl
    simp only [this]
    have : mul fl nan nan = nan := rfl
    rw [this, nan_add]
    rfl
  · have : sub fl q.y p.y = nan := by rw [e]; cases q.y <;> rfl
    simp only [this]
    have : mul fl nan nan = nan := rfl
    rw [this, add_nan]
    rfl

theorem multiFrom_nan : ∀ ps : List (Point Flt), RPCost.multiFrom fl nan ps = nan
  | [] => rfl
  | [_] => rfl
  | _ :: b :: l => by
    rw [RPCost.multiFrom, nan_add]
    exact multiFrom_nan (b :: l)

theorem multiFrom_hasNan : ∀ (ps : List (Point Flt)) (d : Flt), HasNan ps → RPCost.multiFrom fl d ps = nan
  | [], _, h => by simp [HasNan] at h
  | [_], _, h => by simp [HasNan] at h
  | a :: b :: l, d, h => by
    obtain ⟨-, p, m, hp⟩ := h
    rw [RPCost.multiFrom]
    rcases List.mem_cons.1 m with rfl | m
    · rw [distance_nan_left hp, add_nan, multiFrom_nan]
    · rcases List.mem_cons.1 m with rfl | m
      · rw [distance_nan_right hp, add_nan, multiFrom_nan]
      · refine multiFrom_hasNan (b :: l) _ ⟨?_, p, by simp [m], hp⟩
        have := List.length_pos_of_mem m
        simp only [List.length_cons]
        omega

theorem foldl_nan {α : Type} (f : α → Flt) : ∀ (l : List α) (d : Flt), (d = nan ∨ ∃ x ∈ l, f x = nan) →
    l.foldl (fun d x => add fl d (f x)) d = nan
  | [], d, h => by simpa using h
  | x :: l, d, h => by
    rw [List.foldl_cons]
    refine foldl_nan f l _ ?_
    rcases h with rfl | ⟨y, m, e⟩
    · exact Or.inl (nan_add _)
    · rcases List.mem_cons.1 m with rfl | m
      · rw [e]; exact Or.inl (add_nan _)
      · exact Or.inr ⟨y, m, e⟩

/-- A step that keeps not-a-number. -/
theorem foldOutcome_nan {α : Type} (f : Flt → α → Outcome Flt) (hf : ∀ x v, f nan x = .ok v → v = nan) : ∀ (l : List α) (d v : Flt),
    (d = nan ∨ ∃ x ∈ l, ∀ d v, f d x = .ok v → v = nan) → foldOutcome f d l = .ok v → v = nan
  | [], d, v, h, e => by
    rw [foldOutcome] at e
    cases e
    simpa using h
  | x :: l, d, v, h, e => by
    rw [foldOutcome] at e
    cases hx : f d x with
    | throw _ => rw [hx] at e; cases e
    | ub _ => rw [hx] at e; cases e
    | ok d' =>
      rw [hx] at e
      refine foldOutcome_nan f hf l d' v ?_ e
      rcases h with rfl | ⟨y, m, hy⟩
      · exact Or.inl (hf x d' hx)
      · rcases List.mem_cons.1 m with rfl | m
        · exact Or.inl (hy d d' hx)
        · exact Or.inr ⟨y, m, hy⟩

theorem gaps_nan : ∀ (l : Swaths Flt) (prev : Swath Flt) (v : Flt), RPCost.gaps fl nan prev l = .ok v → v = nan
  | [], _, v, e => by rw [RPCost.gaps] at e; cases e; rfl
  | s :: l, prev, v, e => by
    rw [RPCost.gaps, nan_add] at e
    cases h1 : RPCost.angle prev with
    | throw _ => rw [h1] at e; cases e
    | ub _ => rw [h1] at e; cases e
    | ok _ =>
      cases h2 : RPCost.angle s with
      | throw _ => rw [h1, h2] at e; cases e
      | ub _ => rw [h1, h2] at e; cases e
      | ok _ => rw [h1, h2] at e; exact gaps_nan l s v e

theorem swaths_nan (l : Swaths Flt) (v : Flt) (h : ∃ s ∈ l, HasNan s.path) (e : RPCost.swaths fl l = .ok v) : v = nan := by
  obtain ⟨s, m, hs⟩ := h
  unfold RPCost.swaths at e
  rw [foldl_nan (fun s : Swath Flt => RPCost.multi fl s.path) l (fin 0) (Or.inr ⟨s, m, multiFrom_hasNan _ _ hs⟩)] at e
  cases l with
  | nil => simp at m
  | cons t r => exact gaps_nan r t v e

theorem routeStep_nan (r : Route Flt) (i : Nat) (v : Flt) (e : RPCost.routeStep fl r nan i = .ok v) : v = nan := by
  unfold RPCost.routeStep at e
  split at e
  · next c g _ _ =>
    cases h1 : RPCost.multiSwaths fl c g with
    | throw _ => rw [h1] at e; cases e
    | ub _ => rw [h1] at e; cases e
    | ok a =>
      rw [h1, Outcome.ok_bind] at e
      split at e
      · split at e
        · next c' _ =>
          cases h2 : RPCost.swathsMulti fl g c' with
          | throw _ => rw [h2] at e; cases e
          | ub _ => rw [h2] at e; cases e
          | ok b =>
            rw [h2, Outcome.ok_bind, nan_add, nan_add] at e
            cases e
            rfl
        · cases e
      · rw [nan_add] at e
        cases e
        rfl
  · cases e

theorem route_nan (r : Route Flt) (v : Flt) (h : (∃ c ∈ r.connections, HasNan c) ∨ ∃ g ∈ r.groups, ∃ s ∈ g, HasNan s.path)
    (e : RPCost.route fl r = .ok v) : v = nan := by
  unfold RPCost.route at e
  cases h1 : foldOutcome (fun d g => do let a ← RPCost.swaths fl g; return add fl d a) (fin 0) r.groups with
  | throw _ => rw [h1] at e; cases e
  | ub _ => rw [h1] at e; cases e
  | ok d =>
    rw [h1, Outcome.ok_bind] at e
    have k : r.connections.foldl (fun d c => add fl d (RPCost.multi fl c)) d = nan := by
      refine foldl_nan (fun c => RPCost.multi fl c) r.connections d ?_
      rcases h with ⟨c, m, hc⟩ | ⟨g, m, hg⟩
      · exact Or.inr ⟨c, m, multiFrom_hasNan _ _ hc⟩
      · refine Or.inl (foldOutcome_nan _ ?_ r.groups (fin 0) d (Or.inr ⟨g, m, ?_⟩) h1)
        · intro x v ev
          cases hx : RPCost.swaths fl x with
          | throw _ => rw [hx] at ev; cases ev
          | ub _ => rw [hx] at ev; cases ev
          | ok a => rw [hx, Outcome.ok_bind, nan_add] at ev; cases ev; rfl
        · intro d v ev
          cases hx : RPCost.swaths fl g with
          | throw _ => rw [hx] at ev; cases ev
          | ub _ => rw [hx] at ev; cases ev
          | ok a => rw [hx, Outcome.ok_bind, swaths_nan g a hg hx, add_nan] at ev; cases ev; rfl
    rw [k] at e
    exact foldOutcome_nan _ (fun i v => routeStep_nan r i v) _ nan v (Or.inl rfl) e

end F2C.Ieee
