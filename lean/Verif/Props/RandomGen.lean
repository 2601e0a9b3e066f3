import Verif.Lemmas.FieldObj
import Verif.Model.RandomGen
import Verif.Props.Random

/-!
# Property C108: random numbers and random fields
-/

namespace F2C.Props

open Rand FieldSpec Geo

/-- The contract of `std::generate_canonical`. -/
def InUnit {S : Type} (g : Gen S) : Prop := ∀ s, 0 ≤ (g.unit s).1 ∧ (g.unit s).1 < 1

/-- For the examples: a generator that runs through the multiples of 1/8. -/
noncomputable def eighths : Gen Nat := ⟨fun s => ((s % 8 : Nat) / 8, s + 1)⟩

theorem eighths_inUnit : InUnit eighths := by
  intro s
  have h : s % 8 < 8 := Nat.mod_lt _ (by norm_num)
  have h' : ((s % 8 : Nat) : ℝ) < 8 := by exact_mod_cast h
  simp only [eighths]
  constructor
  · positivity
  · rw [div_lt_one (by norm_num)]
    exact h'

variable {S : Type} {g : Gen S}

/-- **C108**, uniform numbers: in the range, and the part of the range below the number is the one drawn, so that all
parts of the range are equally likely. -/
theorem C108_linear (hg : InUnit g) (lo hi : ℝ) (h : lo < hi) (s : S) :
    ∃ x s', linear g lo hi s = .ok (x, s') ∧ lo ≤ x ∧ x < hi ∧ (x - lo) / (hi - lo) = (g.unit s).1 ∧
      s' = (g.unit s).2 := by
  obtain ⟨h0, h1⟩ := hg s
  have hd : 0 < hi - lo := by linarith
  refine ⟨_, _, if_pos h, ?_, ?_, ?_, rfl⟩
  · nlinarith
  · nlinarith
  · rw [add_sub_cancel_right, mul_div_assoc, div_self hd.ne', mul_one]

example : ∃ x s', linear eighths 2 4 3 = .ok (x, s') ∧ 2 ≤ x ∧ x < 4 ∧ (x - 2) / (4 - 2) = (eighths.unit 3).1 ∧
    s' = (eighths.unit 3).2 := C108_linear eighths_inUnit 2 4 (by norm_num) 3

/-- **C108**, an empty range is a failed assertion. -/
theorem C108_empty_range (lo hi : ℝ) (h : hi ≤ lo) (s : S) :
    (linear g lo hi s).isUb = true ∧ (Rand.exp g lo hi s).isUb = true := by
  unfold linear Rand.exp
  rw [if_neg (not_lt.2 h), if_neg (not_lt.2 h)]
  exact ⟨rfl, rfl⟩

example : (linear eighths 2 2 3).isUb = true := (C108_empty_range 2 2 le_rfl 3).1

/-- **C108**, angles. -/
theorem C108_angle (hg : InUnit g) (s : S) :
    ∃ x s', angle g s = .ok (x, s') ∧ 0 ≤ x ∧ x < 2 * Real.pi := by
  obtain ⟨x, s', h1, h2, h3, -⟩ := C108_linear hg 0 (2 * Real.pi) (by positivity) s
  exact ⟨x, s', h1, h2, h3⟩

example : ∃ x s', angle eighths 3 = .ok (x, s') ∧ 0 ≤ x ∧ x < 2 * Real.pi := C108_angle eighths_inUnit 3

/-- **C108**, exponentially spread numbers between two positive ones: in the range, and as often below the geometric
mean, which is less than the middle of the range, as not below it. -/
theorem C108_exp_partial (hg : InUnit g) (lo hi : ℝ) (h0 : 0 < lo) (h : lo < hi) (s : S) :
    ∃ x s', Rand.exp g lo hi s = .ok (some x, s') ∧ lo ≤ x ∧ x < hi ∧
      (x ^ 2 < lo * hi ↔ (g.unit s).1 < 1 / 2) ∧ lo * hi < ((lo + hi) / 2) ^ 2 := by
  obtain ⟨u0, u1⟩ := hg s
  have hl : Real.log lo < Real.log hi := Real.log_lt_log h0 h
  have hhi : 0 < hi := h0.trans h
  refine ⟨Real.exp ((Real.log hi - Real.log lo) * (g.unit s).1 + Real.log lo), (g.unit s).2, ?_, ?_, ?_, ?_, ?_⟩
  · unfold Rand.exp double linear
    rw [if_pos h, if_pos (by norm_num), Outcome.ok_bind]
    simp only [if_neg (not_le.2 h0), sub_zero, mul_one, add_zero, Outcome.pure_eq]
  · rw [← Real.log_le_iff_le_exp h0]
    nlinarith
  · rw [← Real.lt_log_iff_exp_lt hhi]
    nlinarith
  · rw [← Real.exp_nat_mul, ← Real.lt_log_iff_exp_lt (by positivity), Real.log_mul h0.ne' hhi.ne']
    push_cast
    constructor <;> intro hx <;> nlinarith
  · nlinarith [sq_nonneg (hi - lo), mul_pos (sub_pos.2 h) (sub_pos.2 h)]

example : ∃ x s', Rand.exp eighths 1 9 3 = .ok (some x, s') ∧ 1 ≤ x ∧ x < 9 ∧
    (x ^ 2 < 1 * 9 ↔ (eighths.unit 3).1 < 1 / 2) ∧ (1 : ℝ) * 9 < ((1 + 9) / 2) ^ 2 :=
  C108_exp_partial eighths_inUnit 1 9 (by norm_num) (by norm_num) 3

/-- **C108** is false of exponentially spread numbers: in a range that begins at zero or below, which the assertion
accepts, the result is not a number. -/
theorem C108_exp_nan (lo hi : ℝ) (h0 : lo ≤ 0) (h : lo < hi) (s : S) :
    ∃ s', Rand.exp g lo hi s = .ok (none, s') := by
  refine ⟨(g.unit s).2, ?_⟩
  unfold Rand.exp double linear
  rw [if_pos h, if_pos (by norm_num), Outcome.ok_bind]
  simp only [if_pos h0, Outcome.pure_eq]

example : ∃ s', Rand.exp eighths 0 5 3 = .ok (none, s') := C108_exp_nan 0 5 le_rfl (by norm_num) 3

/-- **C108**, the exponential distribution: numbers from zero on, which exceed `t` exactly for the draws in the last
`exp (-rate * t)` of the unit interval.  The documentation says that they are positive, see `C108_exp_dist_zero`. -/
theorem C108_exp_dist_partial (hg : InUnit g) (rate : ℝ) (h : 0 < rate) (s : S) :
    ∃ x s', expDist g rate s = .ok (x, s') ∧ 0 ≤ x ∧
      ∀ t, t < x ↔ 1 - Real.exp (-rate * t) < (g.unit s).1 := by
  obtain ⟨u0, u1⟩ := hg s
  refine ⟨_, _, if_pos h, ?_, ?_⟩
  · have : Real.log (1 - (g.unit s).1) ≤ 0 := Real.log_nonpos (by linarith) (by linarith)
    exact div_nonneg (by linarith) h.le
  · intro t
    rw [lt_div_iff₀ h, lt_neg, Real.log_lt_iff_lt_exp (by linarith),
      show -(t * rate) = -rate * t by ring]
    constructor <;> intro hx <;> linarith

example : ∃ x s', expDist eighths 2 3 = .ok (x, s') ∧ 0 ≤ x ∧
    ∀ t, t < x ↔ 1 - Real.exp (-2 * t) < (eighths.unit 3).1 :=
  C108_exp_dist_partial eighths_inUnit 2 (by norm_num) 3

/-- **C108** is false of the exponential distribution: the number can be zero, though it is documented as positive. -/
theorem C108_exp_dist_zero : ∃ (g : Gen Nat) (s s' : Nat), InUnit g ∧ expDist g 1 s = .ok (0, s') := by
  refine ⟨eighths, 0, 1, eighths_inUnit, ?_⟩
  unfold expDist
  rw [if_pos one_pos]
  simp [eighths]

theorem draws_spec (hg : InUnit g) {lo hi : ℝ} (h : lo < hi) : ∀ (n : Nat) (s : S),
    ∃ l s', draws g lo hi n s = .ok (l, s') ∧ Draws n lo hi l
  | 0, s => ⟨[], s, rfl, rfl, by simp⟩
  | n + 1, s => by
    obtain ⟨x, s1, h1, h2, h3, -⟩ := C108_linear hg lo hi h s
    obtain ⟨y, s2, h4, h5, h6, -⟩ := C108_linear hg 0 1 one_pos s1
    obtain ⟨l, s3, h7, h8, h9⟩ := draws_spec hg h n s2
    refine ⟨(x, y) :: l, s3, ?_, ?_, ?_⟩
    · rw [draws, h1, Outcome.ok_bind, double, h4, Outcome.ok_bind, h7, Outcome.ok_bind]
      rfl
    · push_cast [List.length_cons, ← h8]
      rfl
    · intro d hd
      rcases List.mem_cons.1 hd with rfl | hd
      · exact ⟨h2, h3, h5, h6⟩
      · exact h9 d hd

/-- **C108**, random cells: whatever the seed, the radii and angles drawn are in their ranges, so that C64 describes the
cell. -/
theorem C108_cell (hg : InUnit g) (area lo hi : ℝ) (n : Int) (hn : 3 ≤ n) (ha : 0 < area) (h : lo < hi) (s : S) :
    ∃ l s', Draws n lo hi l ∧ randCell g area n lo hi s = (generateRandCell area n l).map fun c => (c, s') := by
  obtain ⟨l, s', h1, h2⟩ := draws_spec hg h n.toNat s
  refine ⟨l, s', ?_, ?_⟩
  · rwa [Int.toNat_of_nonneg (by omega)] at h2
  · unfold randCell
    rw [if_neg (by omega), if_neg (not_le.2 ha), h1, Outcome.ok_bind]
    cases generateRandCell area n l <;> rfl

example : ∃ l s', Draws 5 (1 / 2) 1 l ∧
    randCell eighths 100 5 (1 / 2) 1 3 = (generateRandCell 100 5 l).map fun c => (c, s') :=
  C108_cell eighths_inUnit 100 (1 / 2) 1 5 (by norm_num) (by norm_num) (by norm_num) 3

/-- **C108**, bad arguments are reported before the range of the radii is looked at; an empty range of radii is a failed
assertion. -/
theorem C108_bad_arguments (area lo hi : ℝ) (n : Int) (s : S) :
    (n ≤ 2 ∨ area ≤ 0 → randCell g area n lo hi s = .throw .invalidArgument ∧
      randField g area n lo hi s = .throw .invalidArgument) ∧
    (¬ (n ≤ 2 ∨ area ≤ 0) → hi ≤ lo → (randCell g area n lo hi s).isUb = true) := by
  constructor
  · intro h
    have : randCell g area n lo hi s = .throw .invalidArgument := by
      unfold randCell
      by_cases h1 : n ≤ 2
      · rw [if_pos h1]
      · rw [if_neg h1, if_pos (h.resolve_left h1)]
    exact ⟨this, by rw [randField, this]; rfl⟩
  · intro h hle
    push Not at h
    obtain ⟨k, hk⟩ : ∃ k, n.toNat = k + 1 := ⟨n.toNat - 1, by omega⟩
    unfold randCell
    rw [if_neg (by omega), if_neg (not_le.2 h.2), hk, draws, linear, if_neg (not_lt.2 hle)]
    rfl

example : (randCell eighths 100 5 1 1 3).isUb = true :=
  (C108_bad_arguments 100 1 1 5 3).2 (by norm_num) le_rfl

theorem ringField {cs : List RPoint} (h : 3 ≤ cs.length) :
    ∃ p f, cs.head? = some p ∧ FieldObj.make [[cs ++ cs.take 1]] [] = .ok f ∧
      f.ref = p ∧ f.id = [] ∧ f.crs = [] ∧ f.absCells = [[cs ++ cs.take 1]] := by
  cases cs with
  | nil => simp at h
  | cons p cs =>
    have hc : Closed (p :: cs ++ (p :: cs).take 1) := by
      refine ⟨by simp, ?_⟩
      rw [show (p :: cs).take 1 = [p] from rfl, List.getLast?_concat]
      rfl
    have hw : WellFormed [[p :: cs ++ (p :: cs).take 1]] := by
      intro c hc'
      obtain rfl := List.mem_singleton.1 hc'
      refine ⟨by simp, fun r hr => ?_⟩
      obtain rfl := List.mem_singleton.1 hr
      exact hc
    have hf : First [[p :: cs ++ (p :: cs).take 1]] p := ⟨cs ++ [p], [], [], rfl⟩
    exact ⟨p, _, rfl, FieldObj.make_first hf [], rfl, rfl, rfl, FieldObj.absCells_of_shift hw.normal rfl rfl⟩

/-- **C108**, random fields: of four or more corners, with positive radii.  The field is one cell of `n` corners, given
relative to its first corner; the cell agrees, up to less than 1e-7 in the coordinates, with one of exactly the requested
area. -/
theorem C108_field_partial (hg : InUnit g) (area lo hi : ℝ) (n : Int) (hn : 4 ≤ n) (ha : 0 < area) (h0 : 0 < lo)
    (h : lo < hi) (s : S) :
    ∃ f s' cs exact, randField g area n lo hi s = .ok (f, s') ∧ f.absCells = [[cs ++ cs.take 1]] ∧
      (cs.length : Int) = n ∧ cs.head? = some f.ref ∧ f.id = [] ∧ f.crs = [] ∧ surveyed exact = area ∧
      List.Forall₂ (fun p q : RPoint => p = q ∨
        (|p.x - q.x| < 1 / 10000000 ∧ |p.y - q.y| < 1 / 10000000)) (cs ++ cs.take 1) exact := by
  obtain ⟨l, s', hd, hc⟩ := C108_cell hg area lo hi n (by omega) ha h s
  obtain ⟨ring, ex, h1, -, -, h4, h5⟩ := C64_area_partial area lo hi n l hn ha h0 hd
  obtain ⟨cs, h6, h7, h8, -⟩ := generateRandCell_ring hd.1 h1
  obtain rfl : ring = _ := by simpa using h6
  obtain ⟨p, f, f1, f2, f3, f4, f5, f6⟩ := ringField h7
  refine ⟨f, s', cs, ex, ?_, f6, h8, by rw [f1, f3], f4, f5, h4, h5⟩
  rw [randField, hc, h1, Outcome.map, Outcome.ok_bind, f2]
  rfl

example : ∃ f s' cs exact, randField eighths 100 5 (1 / 2) 1 3 = .ok (f, s') ∧ f.absCells = [[cs ++ cs.take 1]] ∧
      (cs.length : Int) = 5 ∧ cs.head? = some f.ref ∧ f.id = [] ∧ f.crs = [] ∧ surveyed exact = 100 ∧
      List.Forall₂ (fun p q : RPoint => p = q ∨
        (|p.x - q.x| < 1 / 10000000 ∧ |p.y - q.y| < 1 / 10000000)) (cs ++ cs.take 1) exact :=
  C108_field_partial eighths_inUnit 100 (1 / 2) 1 5 (by norm_num) (by norm_num) (by norm_num) (by norm_num) 3

theorem cellUntil_ok (hg : InUnit g) (want : Bool) (area : ℝ) (n : Int) (c : Cell ℝ) (s' : S) :
    ∀ (fuel : Nat) (s : S), cellUntil g want area n fuel s = .ok (c, s') →
      3 ≤ n ∧ 0 < area ∧ Cell.isConvex c = .ok want ∧
        ∃ l, Draws n (1 / 2) 1 l ∧ generateRandCell area n l = .ok c
  | 0, s, h => by simp [cellUntil] at h
  | fuel + 1, s, h => by
    rw [cellUntil] at h
    have hn : 3 ≤ n := by
      by_contra hc
      rw [((C108_bad_arguments area (1 / 2) 1 n s).1 (.inl (by omega))).1] at h
      cases h
    have ha : 0 < area := by
      by_contra hc
      rw [((C108_bad_arguments area (1 / 2) 1 n s).1 (.inr (not_lt.1 hc))).1] at h
      cases h
    obtain ⟨l, s1, h1, h2⟩ := C108_cell hg area (1 / 2) 1 n hn ha (by norm_num) s
    rw [h2] at h
    cases hl : generateRandCell area n l with
    | throw e => rw [hl] at h; cases h
    | ub w => rw [hl] at h; cases h
    | ok d =>
      rw [hl, Outcome.map, Outcome.ok_bind] at h
      cases hb : Cell.isConvex d with
      | throw e => rw [hb] at h; cases h
      | ub w => rw [hb] at h; cases h
      | ok b =>
        rw [hb, Outcome.ok_bind] at h
        by_cases hw : b = want
        · rw [if_pos hw] at h
          cases h
          exact ⟨hn, ha, by rw [hb, hw], l, h1, hl⟩
        · rw [if_neg hw] at h
          exact cellUntil_ok hg want area n c s' fuel s1 h

/-- **C108**, random convex and non-convex fields: if the loop ends, the field is a cell of the requested number of
corners (nine for non-convex ones) that could have been drawn by `generateRandCell`, passes or fails `isConvex` as
requested, and is given relative to its first corner. -/
theorem C108_convex_field_partial (hg : InUnit g) (area : ℝ) (n : Int) (fuel : Nat) (s : S) (f : FieldObj ℝ) (s' : S)
    (want : Bool) (h : (if want then convexField g area n fuel s else nonConvexField g area fuel s) = .ok (f, s')) :
    ∃ cs l, f.absCells = [[cs ++ cs.take 1]] ∧ (cs.length : Int) = (if want then n else 9) ∧
      cs.head? = some f.ref ∧ Draws (if want then n else 9) (1 / 2) 1 l ∧
      generateRandCell area (if want then n else 9) l = .ok f.absCells.head! ∧
      Cell.isConvex f.absCells.head! = .ok want := by
  have key : ∀ m, (do
      let c ← cellUntil g want area m fuel s
      let f ← FieldObj.make [c.1] []
      return (f, c.2)) = Outcome.ok (f, s') →
      ∃ cs l, f.absCells = [[cs ++ cs.take 1]] ∧ (cs.length : Int) = m ∧
        cs.head? = some f.ref ∧ Draws m (1 / 2) 1 l ∧
        generateRandCell area m l = .ok f.absCells.head! ∧ Cell.isConvex f.absCells.head! = .ok want := by
    intro m h
    cases hc : cellUntil g want area m fuel s with
    | throw e => rw [hc] at h; cases h
    | ub w => rw [hc] at h; cases h
    | ok c =>
      obtain ⟨c, s1⟩ := c
      obtain ⟨-, -, h3, l, h4, h5⟩ := cellUntil_ok hg want area m c s1 fuel s hc
      rw [hc, Outcome.ok_bind] at h
      obtain ⟨cs, rfl, h7, h8, -⟩ := generateRandCell_ring h4.1 h5
      obtain ⟨p, f', f1, f2, f3, f4, f5, f6⟩ := ringField h7
      rw [f2, Outcome.ok_bind] at h
      cases h
      refine ⟨cs, l, f6, h8, by rw [f1, f3], h4, ?_, ?_⟩
      · rw [f6]; exact h5
      · rw [f6]; exact h3
  cases want with
  | true => exact key n h
  | false => exact key 9 h

/-- For the witness: a generator that leads to the given draws, with the default widths. -/
noncomputable def replay : Gen (List (ℝ × ℝ) × Bool) := ⟨fun s => match s with
  | ([], b) => (0, [], b)
  | (d :: l, false) => (2 * d.1 - 1, d :: l, true)
  | (d :: l, true) => (d.2, l, false)⟩

/-- The same with all numbers that are no draws replaced. -/
noncomputable def clamped : Gen (List (ℝ × ℝ) × Bool) := ⟨fun s =>
  (if 0 ≤ (replay.unit s).1 ∧ (replay.unit s).1 < 1 then (replay.unit s).1 else 0, (replay.unit s).2)⟩

theorem clamped_inUnit : InUnit clamped := by
  intro s
  unfold clamped
  dsimp only
  split
  · assumption
  · norm_num

theorem clamped_unit {s : List (ℝ × ℝ) × Bool} (h : 0 ≤ (replay.unit s).1 ∧ (replay.unit s).1 < 1) :
    clamped.unit s = replay.unit s := by
  show ((if 0 ≤ (replay.unit s).1 ∧ (replay.unit s).1 < 1 then (replay.unit s).1 else 0), (replay.unit s).2) = _
  rw [if_pos h]

theorem clamped_draws : ∀ (l : List (ℝ × ℝ)), (∀ d ∈ l, 1 / 2 ≤ d.1 ∧ d.1 < 1 ∧ 0 ≤ d.2 ∧ d.2 < 1) →
    draws clamped (1 / 2) 1 l.length (l, false) = .ok (l, ([], false))
  | [], _ => rfl
  | (r, u) :: l, h => by
    obtain ⟨h1, h2, h3, h4⟩ := h _ List.mem_cons_self
    have ih := clamped_draws l fun d hd => h d (List.mem_cons_of_mem _ hd)
    have e1 : linear clamped (1 / 2) 1 ((r, u) :: l, false) = .ok (r, ((r, u) :: l, true)) := by
      unfold linear
      rw [if_pos (by norm_num)]
      rw [clamped_unit (s := ((r, u) :: l, false)) ⟨show 0 ≤ 2 * r - 1 by linarith, show 2 * r - 1 < 1 by linarith⟩]
      show Outcome.ok ((2 * r - 1) * (1 - 1 / 2) + 1 / 2, _) = _
      congr 2
      ring
    have e2 : double clamped ((r, u) :: l, true) = .ok (u, (l, false)) := by
      unfold double linear
      rw [if_pos (by norm_num)]
      rw [clamped_unit (s := ((r, u) :: l, true)) ⟨h3, h4⟩]
      show Outcome.ok (u * (1 - 0) + 0, _) = _
      congr 2
      ring
    rw [List.length_cons, draws, e1, Outcome.ok_bind, e2, Outcome.ok_bind, ih]
    rfl

/-- **C108** is false of convex fields: for numbers that can be drawn, `genConvexField` returns a field with a dent. -/
theorem C108_convex_field_dent : ∃ (g : Gen (List (ℝ × ℝ) × Bool)) (s s' : List (ℝ × ℝ) × Bool) (area : ℝ)
    (f : FieldObj ℝ) (cs : List RPoint), InUnit g ∧ 0 < area ∧ convexField g area 4 1 s = .ok (f, s') ∧
      f.absCells = [[cs ++ cs.take 1]] ∧ ¬ ConvexCorners cs := by
  obtain ⟨area, cs, h1, h2, h3, h4⟩ := C72_not_convex
  obtain ⟨m, m1, m2, m3, m4, -⟩ := genUntil_ok true area 4 _ _ 1 0 h3
  obtain rfl : m = 0 := by omega
  have hlen : dent.length = 4 := by exact_mod_cast h2.1
  have hd := clamped_draws dent h2.2
  rw [hlen] at hd
  obtain ⟨cs', e1, e2, e3, -⟩ := generateRandCell_ring h2.1 m3
  have hcs : 3 ≤ cs.length := by
    have := congrArg (fun c : Cell ℝ => c.map List.length) e1
    simp at this
    omega
  obtain ⟨p, f, f1, f2, f3, f4, f5, f6⟩ := ringField hcs
  refine ⟨clamped, (dent, false), ([], false), area, f, cs, clamped_inUnit, h1, ?_, f6, h4⟩
  have hc : randCell clamped area 4 (1 / 2) 1 (dent, false) = .ok ([cs ++ cs.take 1], ([], false)) := by
    unfold randCell
    rw [if_neg (by norm_num), if_neg (not_le.2 h1), show (4 : Int).toNat = 4 from rfl, hd, Outcome.ok_bind]
    dsimp only at m3 ⊢
    rw [m3]
    rfl
  rw [convexField, cellUntil, hc, Outcome.ok_bind]
  dsimp only
  rw [m4, Outcome.ok_bind, if_pos rfl, Outcome.pure_eq, Outcome.ok_bind, f2]
  rfl

/-- The hypotheses of `C108_convex_field_partial` can be met. -/
example : ∃ (g : Gen (List (ℝ × ℝ) × Bool)) (area : ℝ) (s s' : List (ℝ × ℝ) × Bool) (f : FieldObj ℝ),
    InUnit g ∧ convexField g area 4 1 s = .ok (f, s') ∧ ∃ cs l, f.absCells = [[cs ++ cs.take 1]] ∧
      (cs.length : Int) = 4 ∧ cs.head? = some f.ref ∧ Draws 4 (1 / 2) 1 l ∧
      generateRandCell area 4 l = .ok f.absCells.head! ∧ Cell.isConvex f.absCells.head! = .ok true := by
  obtain ⟨g, s, s', area, f, -, h1, -, h3, -⟩ := C108_convex_field_dent
  exact ⟨g, area, s, s', f, h1, h3, C108_convex_field_partial h1 area 4 1 s f s' true h3⟩

end F2C.Props
