import Mathlib.Tactic.Linarith
import Mathlib.Tactic.Ring
import Mathlib.Tactic.FieldSimp
import Mathlib.Tactic.NormNum
import Mathlib.Tactic.Positivity
import Mathlib.Analysis.SpecialFunctions.Trigonometric.Angle
import Mathlib.Data.List.Induction
import Verif.Lemmas.Angle
import Verif.Lemmas.Geom
import Verif.Lemmas.Path
import Verif.Props.TurningSpec

/-! # Lemmas about turns -/

namespace F2C

open Real Turning Props.TurningSpec

set_option linter.unusedSimpArgs false
set_option linter.unusedVariables false

theorem Props.TurningSpec.SameHeading.refl (a : ℝ) : SameHeading a a := ⟨0, by simp⟩

theorem Props.TurningSpec.SameHeading.symm {a b : ℝ} (h : SameHeading a b) : SameHeading b a := by
  obtain ⟨k, rfl⟩ := h
  exact ⟨-k, by push_cast; ring⟩

theorem Props.TurningSpec.SameHeading.trans {a b c : ℝ} (h : SameHeading a b) (h' : SameHeading b c) :
    SameHeading a c := by
  obtain ⟨k, rfl⟩ := h
  obtain ⟨m, rfl⟩ := h'
  exact ⟨k + m, by push_cast; ring⟩

theorem sameHeading_mod2pi (a : ℝ) : SameHeading a (mod2pi a) := mod2pi_congr a

theorem sameHeading_iff (a b : ℝ) : SameHeading a b ↔ mod2pi a = mod2pi b :=
  (mod2pi_eq_iff a b).symm

theorem Props.TurningSpec.SameHeading.add {a b c d : ℝ} (h : SameHeading a b) (h' : SameHeading c d) :
    SameHeading (a + c) (b + d) := by
  obtain ⟨k, rfl⟩ := h
  obtain ⟨m, rfl⟩ := h'
  exact ⟨k + m, by push_cast; ring⟩

theorem Props.TurningSpec.SameHeading.neg {a b : ℝ} (h : SameHeading a b) : SameHeading (-a) (-b) := by
  obtain ⟨k, rfl⟩ := h
  exact ⟨-k, by push_cast; ring⟩

theorem Props.TurningSpec.SameHeading.sub {a b c d : ℝ} (h : SameHeading a b) (h' : SameHeading c d) :
    SameHeading (a - c) (b - d) := by
  rw [sub_eq_add_neg, sub_eq_add_neg]; exact h.add h'.neg

theorem nearHeading_zero {a b : ℝ} : NearHeading 0 a b ↔ SameHeading a b := by
  constructor
  · rintro ⟨k, hk⟩
    have h := abs_nonpos_iff.1 hk
    exact ⟨k, by linarith⟩
  · rintro ⟨k, rfl⟩
    exact ⟨k, by rw [abs_nonpos_iff]; ring⟩

theorem Props.TurningSpec.NearHeading.congr {δ a b a' b' : ℝ} (h : NearHeading δ a b) (ha : SameHeading a a')
    (hb : SameHeading b b') : NearHeading δ a' b' := by
  obtain ⟨k, hk⟩ := h
  obtain ⟨m, rfl⟩ := ha
  obtain ⟨n, rfl⟩ := hb
  refine ⟨k - m + n, ?_⟩
  have : a + m * (2 * π) - (b + n * (2 * π)) + ((k - m + n : ℤ) : ℝ) * (2 * π) =
      a - b + k * (2 * π) := by push_cast; ring
  rw [this]; exact hk

theorem Props.TurningSpec.NearHeading.add_right {δ a b : ℝ} (h : NearHeading δ a b) (c : ℝ) :
    NearHeading δ (a + c) (b + c) := by
  obtain ⟨k, hk⟩ := h
  exact ⟨k, by rw [add_sub_add_right_eq_sub]; exact hk⟩

theorem Props.TurningSpec.NearHeading.neg {δ a b : ℝ} (h : NearHeading δ a b) : NearHeading δ (-a) (-b) := by
  obtain ⟨k, hk⟩ := h
  refine ⟨-k, ?_⟩
  have : -a - -b + ((-k : ℤ) : ℝ) * (2 * π) = -(a - b + k * (2 * π)) := by push_cast; ring
  rw [this, abs_neg]; exact hk

theorem sameHeading_of_cos_sin {a b : ℝ} (hc : cos a = cos b) (hs : sin a = sin b) :
    SameHeading a b := by
  have h := Real.Angle.cos_sin_inj hc.symm hs.symm
  rw [Real.Angle.angle_eq_iff_two_pi_dvd_sub] at h
  obtain ⟨k, hk⟩ := h
  exact ⟨k, by linarith⟩

/-! ## placements -/

theorem Props.TurningSpec.Placement.map_dist (m : Placement) (u v : ℝ × ℝ) :
    √(((m.map u).1 - (m.map v).1) ^ 2 + ((m.map u).2 - (m.map v).2) ^ 2) =
      √((u.1 - v.1) ^ 2 + (u.2 - v.2) ^ 2) := by
  congr 1
  have h := Real.sin_sq_add_cos_sq m.rot
  have e : ∀ x y : ℝ, (cos m.rot * x - sin m.rot * y) ^ 2 + (sin m.rot * x + cos m.rot * y) ^ 2 =
      (x ^ 2 + y ^ 2) * (sin m.rot ^ 2 + cos m.rot ^ 2) := fun x y => by ring
  cases hf : m.flip
  · have e2 := e (u.1 - v.1) (u.2 - v.2)
    rw [h, mul_one] at e2
    simp only [Placement.map, hf]
    rw [← e2]
    simp only [Bool.false_eq_true, if_false]; ring
  · have e2 := e (u.1 - v.1) (-u.2 + v.2)
    rw [h, mul_one] at e2
    simp only [Placement.map, hf, if_true]
    have e3 : (u.1 - v.1) ^ 2 + (u.2 - v.2) ^ 2 = (u.1 - v.1) ^ 2 + (-u.2 + v.2) ^ 2 := by ring
    rw [e3, ← e2]; ring

/-- the way back from the normal form -/
noncomputable def back (p1 : RPoint) (n : Normal) : Placement := ⟨n.inverted, n.angle, p1.x, p1.y⟩

/-! ## normal form -/

theorem normal_dist (p1 p2 : RPoint) (a1 a2 : ℝ) :
    (normalTurn p1 a1 p2 a2).dist = pdist p1 p2 := by
  unfold normalTurn; simp only; split <;> rfl

theorem normal_angle (p1 p2 : RPoint) (a1 a2 : ℝ) :
    (normalTurn p1 a1 p2 a2).angle = mod2pi (angleFromPoint (p2.sub p1)) := by
  unfold normalTurn; simp only; split <;> rfl

theorem normal_ranges (p1 p2 : RPoint) (a1 a2 : ℝ) :
    0 ≤ (normalTurn p1 a1 p2 a2).start ∧ (normalTurn p1 a1 p2 a2).start ≤ π ∧
    0 ≤ (normalTurn p1 a1 p2 a2).stop ∧ (normalTurn p1 a1 p2 a2).stop < 2 * π := by
  unfold normalTurn
  simp only
  split
  · rename_i h
    refine ⟨mod2pi_nonneg _, ?_, mod2pi_nonneg _, mod2pi_lt _⟩
    have h2 := mod2pi_lt (a1 - mod2pi (angleFromPoint (p2.sub p1)))
    simp only
    rw [mod2pi_unique (a := -mod2pi (a1 - mod2pi (angleFromPoint (p2.sub p1))))
      (x := 2 * π - mod2pi (a1 - mod2pi (angleFromPoint (p2.sub p1)))) (by linarith)
      (by linarith [Real.pi_pos]) ⟨1, by push_cast; ring⟩]
    linarith
  · rename_i h
    exact ⟨mod2pi_nonneg _, le_of_not_gt h, mod2pi_nonneg _, mod2pi_lt _⟩

theorem normal_back_heading (p1 p2 : RPoint) (a1 a2 : ℝ) :
    SameHeading ((back p1 (normalTurn p1 a1 p2 a2)).heading (normalTurn p1 a1 p2 a2).start) a1 ∧
    SameHeading ((back p1 (normalTurn p1 a1 p2 a2)).heading (normalTurn p1 a1 p2 a2).stop) a2 := by
  have h1 : ∀ a c : ℝ, SameHeading (mod2pi (a - c) + c) a := fun a c => by
    have := (sameHeading_mod2pi (a - c)).symm.add (SameHeading.refl c)
    rwa [sub_add_cancel] at this
  have h2 : ∀ a c : ℝ, SameHeading (-(mod2pi (-(mod2pi (a - c)))) + c) a := fun a c => by
    have h := (sameHeading_mod2pi (-(mod2pi (a - c)))).symm.neg
    rw [neg_neg] at h
    exact (h.add (SameHeading.refl c)).trans (h1 a c)
  unfold normalTurn back Placement.heading
  simp only
  split
  · exact ⟨h2 _ _, h2 _ _⟩
  · exact ⟨h1 _ _, h1 _ _⟩

theorem pdist_polar (p1 p2 : RPoint) :
    pdist p1 p2 * cos (angleFromPoint (p2.sub p1)) = p2.x - p1.x ∧
    pdist p1 p2 * sin (angleFromPoint (p2.sub p1)) = p2.y - p1.y := by
  rw [pdist_comm]
  exact ⟨pdist_polar_x p2 p1, pdist_polar_y p2 p1⟩

theorem normal_back_points (p1 p2 : RPoint) (a1 a2 : ℝ) :
    (back p1 (normalTurn p1 a1 p2 a2)).map (0, 0) = xy p1 ∧
    (back p1 (normalTurn p1 a1 p2 a2)).map ((normalTurn p1 a1 p2 a2).dist, 0) = xy p2 := by
  obtain ⟨hx, hy⟩ := pdist_polar p1 p2
  have ha := normal_angle p1 p2 a1 a2
  have hd := normal_dist p1 p2 a1 a2
  simp only [back, Placement.map, xy, neg_zero, ite_self, mul_zero, sub_zero, add_zero, zero_add,
    true_and, Prod.mk.injEq]
  rw [ha, hd, cos_mod2pi, sin_mod2pi]
  constructor
  · linarith [mul_comm (pdist p1 p2) (cos (angleFromPoint (p2.sub p1)))]
  · linarith [mul_comm (pdist p1 p2) (sin (angleFromPoint (p2.sub p1)))]

/-! ## createTurn -/

/-- what becomes of one state of the simple turn -/
noncomputable def placed (p1 : RPoint) (n : Normal) (s : PathState ℝ) : PathState ℝ :=
  { (if n.inverted then
      { s with point := { s.point with y := -s.point.y }, angle := mod2pi (-s.angle) } else s) with
    point := (rotateFrom ⟨0, 0, 0⟩ n.angle (if n.inverted then { s.point with y := -s.point.y }
      else s.point)).add p1,
    angle := mod2pi ((if n.inverted then mod2pi (-s.angle) else s.angle) + n.angle) }

theorem place_mirror (p1 : RPoint) (n : Normal) (p : Path) :
    place n.angle p1 (mirror n.inverted p) = p.map (placed p1 n) := by
  unfold place mirror
  cases h : n.inverted
  · simp only [Bool.false_eq_true, if_false]
    refine List.map_congr_left fun s _ => ?_
    simp [placed, h]
  · simp only [if_true, List.map_map]
    refine List.map_congr_left fun s _ => ?_
    simp [placed, h]

theorem placed_xy (p1 : RPoint) (n : Normal) (s : PathState ℝ) :
    xy (placed p1 n s).point = (back p1 n).map (xy s.point) := by
  cases h : n.inverted <;>
  simp only [placed, xy, back, Placement.map, rotateFrom, Point.add, h, Bool.false_eq_true, if_false,
    if_true, Prod.mk.injEq] <;> constructor <;> ring

theorem placed_heading (p1 : RPoint) (n : Normal) (s : PathState ℝ) :
    SameHeading ((back p1 n).heading s.angle) (placed p1 n s).angle := by
  cases h : n.inverted
  · simp only [placed, back, Placement.heading, h, Bool.false_eq_true, if_false]
    exact sameHeading_mod2pi _
  · simp only [placed, back, Placement.heading, h, if_true]
    exact ((sameHeading_mod2pi _).add (SameHeading.refl _)).trans (sameHeading_mod2pi _)

theorem placed_rest (p1 : RPoint) (n : Normal) (s : PathState ℝ) :
    (placed p1 n s).len = s.len ∧ (placed p1 n s).dir = s.dir ∧ (placed p1 n s).type = s.type ∧
    (placed p1 n s).velocity = s.velocity := by
  cases h : n.inverted <;> simp [placed, h]

theorem back_near (p1 : RPoint) (n : Normal) {δ a b c : ℝ} (h : NearHeading δ a b)
    (hb : SameHeading ((back p1 n).heading b) c) :
    NearHeading δ ((back p1 n).heading a) c := by
  refine NearHeading.congr (δ := δ) ?_ (SameHeading.refl _) hb
  unfold Placement.heading
  cases (back p1 n).flip
  · simpa using h.add_right _
  · simpa using h.neg.add_right _

theorem pdist_congr {a b c d : RPoint} (h : xy a = xy c) (h' : xy b = xy d) :
    pdist a b = pdist c d := by
  simp only [xy, Prod.mk.injEq] at h h'
  unfold pdist; rw [h.1, h.2, h'.1, h'.2]

theorem pdist_placed (p1 p2 : RPoint) (a1 a2 : ℝ) (s : PathState ℝ) (q r : RPoint)
    (h : (back p1 (normalTurn p1 a1 p2 a2)).map (xy q) = xy r) :
    pdist (placed p1 (normalTurn p1 a1 p2 a2) s).point r = pdist s.point q := by
  have h1 := Placement.map_dist (back p1 (normalTurn p1 a1 p2 a2)) (xy s.point) (xy q)
  rw [← placed_xy, h] at h1
  exact h1

/-- `correctPath` on a path with both ends near -/
theorem correct_spec (p1 p2 : RPoint) (f l : PathState ℝ) (mid : Path)
    (hf : pdist f.point p1 < maxError) (hl : pdist l.point p2 < maxError) :
    correct p1 p2 (f :: (mid ++ [l])) =
      { f with point := p1 } :: (mid ++ [{ l with point := p2 }]) := by
  unfold correct
  rw [if_neg (by simp)]
  have e0 : correctStart p1 (f :: (mid ++ [l])) = { f with point := p1 } :: (mid ++ [l]) := by
    unfold correctStart; simp only; rw [if_pos hf]
  rw [e0]
  unfold correctEnd
  have e : ({ f with point := p1 } : PathState ℝ) :: (mid ++ [l]) =
      ({ f with point := p1 } :: mid) ++ [l] := rfl
  rw [e, List.getLast?_append]
  simp only [List.getLast?_singleton, Option.some_or]
  rw [if_pos hl, List.dropLast_concat]
  rfl

/-- the finished turn, from first and last state of the simple turn -/
theorem finish_spec (p1 p2 : RPoint) (a1 a2 : ℝ) (f l : PathState ℝ) (mid : Path)
    (hf : pdist f.point ⟨0, 0, 0⟩ < maxError)
    (hl : pdist l.point ⟨pdist p1 p2, 0, 0⟩ < maxError) :
    finish (normalTurn p1 a1 p2 a2) p1 p2 (f :: (mid ++ [l])) =
      { placed p1 (normalTurn p1 a1 p2 a2) f with point := p1 } ::
        (mid.map (placed p1 (normalTurn p1 a1 p2 a2)) ++
          [{ placed p1 (normalTurn p1 a1 p2 a2) l with point := p2 }]) := by
  unfold finish
  rw [if_neg (by simp), place_mirror, List.map_cons, List.map_append, List.map_singleton]
  obtain ⟨h1, h2⟩ := normal_back_points p1 p2 a1 a2
  apply correct_spec
  · rw [pdist_placed p1 p2 a1 a2 f ⟨0, 0, 0⟩ p1 h1]; exact hf
  · rw [pdist_placed p1 p2 a1 a2 l ⟨pdist p1 p2, 0, 0⟩ p2
      (by rw [normal_dist] at h2; exact h2)]
    exact hl

theorem two_ends (p : Path) (h : ¬ List.length p ≤ 1) :
    ∃ f mid l, p = f :: (mid ++ [l]) := by
  match p, h with
  | [], h => simp at h
  | [_], h => simp at h
  | f :: g :: rest, _ =>
    refine ⟨f, (g :: rest).dropLast, (g :: rest).getLast (by simp), ?_⟩
    rw [List.dropLast_append_getLast]

theorem finish_joins {δ : ℝ} (p1 p2 : RPoint) (a1 a2 : ℝ) (p : Path)
    (h : ∀ f l : PathState ℝ, List.head? p = some f → List.getLast? p = some l →
      pdist f.point ⟨0, 0, 0⟩ < maxError ∧
      NearHeading δ f.angle (normalTurn p1 a1 p2 a2).start ∧
      pdist l.point ⟨pdist p1 p2, 0, 0⟩ < maxError ∧
      NearHeading δ l.angle (normalTurn p1 a1 p2 a2).stop) :
    finish (normalTurn p1 a1 p2 a2) p1 p2 p = [] ∨
      Joins δ p1 a1 p2 a2 (finish (normalTurn p1 a1 p2 a2) p1 p2 p) := by
  by_cases hlen : List.length p ≤ 1
  · left; unfold finish; rw [if_pos hlen]
  · right
    obtain ⟨f, mid, l, rfl⟩ := two_ends p hlen
    obtain ⟨h1, h2, h3, h4⟩ := h f l rfl (by simp [List.getLast?_cons])
    obtain ⟨b1, b2⟩ := normal_back_heading p1 p2 a1 a2
    rw [finish_spec p1 p2 a1 a2 f l mid h1 h3]
    refine ⟨_, { placed p1 (normalTurn p1 a1 p2 a2) l with point := p2 }, rfl, ?_, rfl, rfl, ?_, ?_⟩
    · rw [← List.cons_append, List.getLast?_append]; rfl
    · exact (back_near p1 _ h2 b1).congr (placed_heading p1 _ f) (SameHeading.refl _)
    · exact (back_near p1 _ h4 b2).congr (placed_heading p1 _ l) (SameHeading.refl _)

/-! ## the cache -/

theorem toInt_thousand {v : ℝ} {k : ℤ} (h : Path.toInt (1000 * v) = .ok k) : k = thousandths v := by
  have e : (if 0 ≤ 1000 * v then ⌊1000 * v⌋ else ⌈1000 * v⌉) = thousandths v := by
    unfold thousandths
    by_cases hv : 0 ≤ v
    · rw [if_pos hv, if_pos (by positivity)]
    · rw [if_neg hv, if_neg (by linarith)]
  unfold Path.toInt at h
  simp only [e] at h
  generalize thousandths v = m at h ⊢
  by_cases hm : m < -2147483648 ∨ 2147483647 < m
  · rw [if_pos hm] at h; cases h
  · rw [if_neg hm] at h; injection h with h; exact h.symm

theorem bind_ok {α β : Type} {x : Outcome α} {f : α → Outcome β} {b : β}
    (h : (x >>= f) = .ok b) : ∃ a, x = .ok a ∧ f a = .ok b := by
  cases x with
  | ok a => exact ⟨a, rfl, h⟩
  | throw e => cases h
  | ub e => cases h

/-- the key, as far as it is defined -/
theorem key_ok {r : Robot} {d a b : ℝ} {k : List Int} (h : key r d a b = .ok k) :
    k = [thousandths r.maxCurv, thousandths r.diffCurv, thousandths d, thousandths a,
      thousandths b] := by
  unfold key at h
  obtain ⟨k1, h1, h⟩ := bind_ok h
  obtain ⟨k2, h2, h⟩ := bind_ok h
  obtain ⟨k3, h3, h⟩ := bind_ok h
  obtain ⟨k4, h4, h⟩ := bind_ok h
  obtain ⟨k5, h5, h⟩ := bind_ok h
  rw [← toInt_thousand h1, ← toInt_thousand h2, ← toInt_thousand h3, ← toInt_thousand h4,
    ← toInt_thousand h5]
  injection h with h
  exact h.symm

theorem alike_of_key {q q' : Request} {k : List Int}
    (h : key q.robot q.dist q.start q.stop = .ok k)
    (h' : key q'.robot q'.dist q'.start q'.stop = .ok k) : Alike q q' := by
  have e := (key_ok h).symm.trans (key_ok h')
  simp only [List.cons.injEq, and_true] at e
  exact e

theorem lookup_mem {k : List Int} {p : Path} : ∀ {l : List (List Int × Path)},
    l.lookup k = some p → (k, p) ∈ l := by
  intro l
  induction l with
  | nil => intro h; cases h
  | cons x l ih =>
    intro h
    obtain ⟨k', p'⟩ := x
    rw [List.lookup_cons] at h
    by_cases hk : k = k'
    · subst hk
      simp only [beq_self_eq_true, Option.some.injEq] at h
      subst h
      exact List.mem_cons_self
    · have : (k == k') = false := by simpa using hk
      rw [this] at h
      exact List.mem_cons_of_mem _ (ih h)

/-- what an answer with the cache on is, and what becomes of the planner -/
theorem turnIfNotCached_ok {solve : Solver} {t t' : Planner} {r : Robot} {d a b : ℝ} {p : Path}
    (h : turnIfNotCached solve t r d a b = .ok (p, t')) :
    ∃ k, key r d a b = .ok k ∧
      ((t.cache.lookup k = some p ∧ t' = t) ∨
       (t.cache.lookup k = none ∧ solve r t.disc d a b = .ok p ∧
        t' = { t with cache := (k, p) :: t.cache })) := by
  unfold turnIfNotCached at h
  obtain ⟨k, hk, h⟩ := bind_ok h
  refine ⟨k, hk, ?_⟩
  cases hl : t.cache.lookup k with
  | some q =>
    rw [hl] at h
    injection h with h
    injection h with h1 h2
    left; exact ⟨by rw [h1], h2.symm⟩
  | none =>
    rw [hl] at h
    obtain ⟨q, hq, h⟩ := bind_ok h
    injection h with h
    injection h with h1 h2
    subst h1
    right; exact ⟨rfl, hq, h2.symm⟩

/-- `createTurn` asks for the normal form and finishes the answer -/
theorem createTurn_ok {solve : Solver} {t t' : Planner} {r : Robot} {p1 p2 : RPoint} {a1 a2 : ℝ}
    {q : Path} (h : createTurn solve t r p1 a1 p2 a2 = .ok (q, t')) :
    ∃ p, q = finish (normalTurn p1 a1 p2 a2) p1 p2 p ∧
      ((t.useCache = true ∧ turnIfNotCached solve t r (normalTurn p1 a1 p2 a2).dist
          (normalTurn p1 a1 p2 a2).start (normalTurn p1 a1 p2 a2).stop = .ok (p, t')) ∨
       (t.useCache = false ∧ t' = t ∧ solve r t.disc (normalTurn p1 a1 p2 a2).dist
          (normalTurn p1 a1 p2 a2).start (normalTurn p1 a1 p2 a2).stop = .ok p)) := by
  unfold createTurn at h
  simp only at h
  obtain ⟨⟨p, t1⟩, h1, h⟩ := bind_ok h
  injection h with h
  injection h with h2 h3
  unfold simpleTurn at h1
  refine ⟨p, h2.symm, ?_⟩
  cases hu : t.useCache
  · rw [hu] at h1
    simp only [Bool.false_eq_true, if_false] at h1
    obtain ⟨p', hp, h1⟩ := bind_ok h1
    injection h1 with h1
    injection h1 with h4 h5
    subst h4
    right; exact ⟨rfl, (h5.trans h3).symm, hp⟩
  · rw [hu] at h1
    simp only [if_true] at h1
    left; refine ⟨rfl, ?_⟩
    rw [h1]; simp only at h3; rw [h3]

/-- every entry of the cache is the answer to an earlier request with that key -/
theorem reach_cache {solve : Solver} {t : Planner} {hist : List Request}
    (h : Reach solve t hist) : ∀ k p, (k, p) ∈ t.cache →
      ∃ q ∈ hist, key q.robot q.dist q.start q.stop = .ok k ∧ q.answer solve = .ok p := by
  have step : ∀ (t t' : Planner) (hist : List Request) (r : Robot) (d a b : ℝ) (p0 : Path),
      (∀ k p, (k, p) ∈ t.cache →
        ∃ q ∈ hist, key q.robot q.dist q.start q.stop = .ok k ∧ q.answer solve = .ok p) →
      turnIfNotCached solve t r d a b = .ok (p0, t') →
      ∀ k p, (k, p) ∈ t'.cache →
        ∃ q ∈ (⟨r, t.disc, d, a, b⟩ :: hist : List Request),
          key q.robot q.dist q.start q.stop = .ok k ∧ q.answer solve = .ok p := by
    intro t t' hist r d a b p0 ih hc k p hm
    obtain ⟨k0, hk, h1 | h1⟩ := turnIfNotCached_ok hc
    · obtain ⟨_, rfl⟩ := h1
      obtain ⟨q, hq, h2⟩ := ih k p hm
      exact ⟨q, List.mem_cons_of_mem _ hq, h2⟩
    · obtain ⟨_, hs, rfl⟩ := h1
      simp only [List.mem_cons] at hm
      rcases hm with hm | hm
      · injection hm with e1 e2
        subst e1; subst e2
        exact ⟨_, List.mem_cons_self, hk, hs⟩
      · obtain ⟨q, hq, h2⟩ := ih k p hm
        exact ⟨q, List.mem_cons_of_mem _ hq, h2⟩
  induction h with
  | new => intro k p hm; simp [Planner.default] at hm
  | setDisc d _ ih => exact ih
  | setUsingCache c _ ih => exact ih
  | call hr hc ih => exact step _ _ _ _ _ _ _ _ ih hc
  | turn hr hu hc ih =>
    obtain ⟨p, _, h1 | h1⟩ := createTurn_ok hc
    · exact step _ _ _ _ _ _ _ _ ih h1.2
    · rw [hu] at h1; exact absurd h1.1 (by simp)

/-- an answer with the cache on is the solver's answer to a request with the same key -/
theorem cached_answer {solve : Solver} {t t' : Planner} {hist : List Request}
    (h : Reach solve t hist) {r : Robot} {d a b : ℝ} {p : Path}
    (hc : turnIfNotCached solve t r d a b = .ok (p, t')) :
    ∃ q ∈ (⟨r, t.disc, d, a, b⟩ :: hist : List Request),
      Alike q ⟨r, t.disc, d, a, b⟩ ∧ q.answer solve = .ok p := by
  obtain ⟨k, hk, h1 | h1⟩ := turnIfNotCached_ok hc
  · obtain ⟨q, hq, h2, h3⟩ := reach_cache h k p (lookup_mem h1.1)
    exact ⟨q, List.mem_cons_of_mem _ hq, alike_of_key h2 hk, h3⟩
  · exact ⟨_, List.mem_cons_self, ⟨rfl, rfl, rfl, rfl, rfl⟩, h1.2.1⟩

theorem thousandths_near {u v : ℝ} (hu : 0 ≤ u) (hv : 0 ≤ v) (h : thousandths u = thousandths v) :
    |u - v| ≤ 1 / 1000 := by
  unfold thousandths at h
  rw [if_pos hu, if_pos hv] at h
  have h1 := Int.floor_le (1000 * u)
  have h2 := Int.lt_floor_add_one (1000 * u)
  have h3 := Int.floor_le (1000 * v)
  have h4 := Int.lt_floor_add_one (1000 * v)
  rw [h] at h1 h2
  rw [abs_le]; constructor <;> linarith

/-! ## loops -/

theorem loopFrom_iff (cs : List Control) : ∀ t u : ℝ,
    loopFrom t u cs = true ↔ ((∃ c ∈ cs, 9 / 10 < |revolutions c|) ∨
      9 / 10 < |t + (cs.map revolutions).sum| ∨
      15 / 10 < u + (cs.map fun c => |revolutions c|).sum) := by
  induction cs with
  | nil => intro t u; simp [loopFrom]
  | cons c cs ih =>
    intro t u
    unfold loopFrom
    by_cases hk : c.kappa = 0
    · have h0 : revolutions c = 0 := by simp [revolutions, hk]
      rw [if_neg (by simp [hk]), ih]
      simp only [List.map_cons, List.sum_cons, h0, zero_add, abs_zero, List.mem_cons,
        exists_eq_or_imp]
      have : ¬ ((9 : ℝ) / 10 < 0) := by norm_num
      simp [this]
    · rw [if_pos hk]
      have hr : 5 / 10 * c.ds * c.kappa / π = revolutions c := by
        unfold revolutions
        have := Real.pi_ne_zero
        field_simp; ring
      simp only [hr]
      by_cases hb : |revolutions c| > 9 / 10
      · rw [if_pos hb]
        exact ⟨fun _ => .inl ⟨c, List.mem_cons_self, hb⟩, fun _ => rfl⟩
      · rw [if_neg hb, ih]
        simp only [List.map_cons, List.sum_cons, List.mem_cons, exists_eq_or_imp, add_assoc]
        have : ¬ ((9 : ℝ) / 10 < |revolutions c|) := hb
        simp [this]

theorem loopDetected_iff (cs : List Control) : loopDetected cs = true ↔ Loops cs := by
  unfold loopDetected Loops
  rw [loopFrom_iff]; simp

end F2C
