import Mathlib.Algebra.Order.Round
import Mathlib.Analysis.SpecialFunctions.Trigonometric.Bounds
import Mathlib.Analysis.SpecialFunctions.Trigonometric.Inverse
import Verif.Model.Turning
import Verif.Props.PathBox
import Verif.Props.SwathGeneratorSpec

/-!
# C133 and C134: the line of a path and the check of a turn

C133: `Path::toLineString` gives the line that is driven.
C134: `isTurnValid` accepts exactly the turns that stay on their side and end where and how they should.
-/

namespace F2C.Props

open PathSpec

/-! ### C133 -/

private theorem pdist_atEnd (s : PathState ℝ) : pdist s.point s.atEnd = |s.len| := by
  obtain ⟨ex, ey, -⟩ := atEnd_xy s
  rw [pdist, ex, ey, ← Real.sqrt_sq_eq_abs]
  congr 1
  have h := Real.sin_sq_add_cos_sq s.angle
  have h2 : (s.dir.sign : ℝ) ^ 2 = 1 := by cases s.dir <;> norm_num [PathDir.sign]
  linear_combination s.len ^ 2 * s.dir.sign ^ 2 * h + s.len ^ 2 * h2

private theorem pdist_same {a b c : RPoint} (h : SameXY b c) : pdist a c = pdist a b := by
  rw [pdist, pdist, h.1, h.2]

private theorem toLineString_eq {p : Path} {s : PathState ℝ} (h : List.getLast? p = some s) :
    p.toLineString = .ok (p.map (·.point) ++ [s.atEnd]) := by
  rw [Path.toLineString, Path.atEnd, h]
  rfl

private theorem line_length : ∀ {p : Path} {s : PathState ℝ}, List.getLast? p = some s → Connected p →
    lineLength (p.map (·.point) ++ [s.atEnd]) = lengthOf p
  | [], _, h, _ => by simp at h
  | [a], s, h, _ => by
    simp only [List.getLast?_singleton, Option.some.injEq] at h
    subst h
    simp [lineLength, lengthOf, pdist_atEnd]
  | a :: b :: l, s, h, hc => by
    have ih := line_length (p := b :: l) (s := s) (by simpa using h) hc.2
    have e : lengthOf (a :: b :: l) = |a.len| + lengthOf (b :: l) := by simp [lengthOf]
    rw [e, ← ih, ← pdist_atEnd, ← pdist_same hc.1]
    rfl

private theorem driven_onSegment {s : PathState ℝ} {d : ℝ} {q : RPoint} (hd : 0 ≤ d) (hdl : d ≤ s.len)
    (hq : SameXY s.atEnd q) : SG.OnSegment s.point q ⟨(driven s d).1, (driven s d).2, 0⟩ := by
  obtain ⟨ex, ey, -⟩ := atEnd_xy s
  obtain ⟨qx, qy⟩ := hq
  rcases eq_or_lt_of_le (hd.trans hdl) with h | h
  · have h0 : d = 0 := by linarith
    exact ⟨0, le_rfl, zero_le_one, by simp [driven, h0], by simp [driven, h0]⟩
  · refine ⟨d / s.len, div_nonneg hd h.le, (div_le_one h).2 hdl, ?_, ?_⟩
    · rw [← qx, ex]
      simp only [driven]
      field_simp
      ring
    · rw [← qy, ey]
      simp only [driven]
      field_simp
      ring

private theorem segment_driven {s : PathState ℝ} {q r : RPoint} (hl : 0 ≤ s.len) (hq : SameXY s.atEnd q)
    (h : SG.OnSegment s.point q r) : ∃ d, 0 ≤ d ∧ d ≤ s.len ∧ driven s d = (r.x, r.y) := by
  obtain ⟨t, h0, h1, hx, hy⟩ := h
  obtain ⟨ex, ey, -⟩ := atEnd_xy s
  obtain ⟨qx, qy⟩ := hq
  refine ⟨t * s.len, by positivity, mul_le_of_le_one_left hl h1, ?_⟩
  rw [driven, hx, hy, ← qx, ← qy, ex, ey]
  ext <;> simp only <;> ring

private theorem line_driven : ∀ {p : Path} {s : PathState ℝ}, List.getLast? p = some s → Connected p →
    (∀ s ∈ p, 0 ≤ s.len) → ∀ q : RPoint,
    SG.OnLine (p.map (·.point) ++ [s.atEnd]) q ↔
      ∃ r ∈ p, ∃ d, 0 ≤ d ∧ d ≤ r.len ∧ driven r d = (q.x, q.y)
  | [], _, h, _, _, _ => by simp at h
  | [a], s, h, _, hl, q => by
    simp only [List.getLast?_singleton, Option.some.injEq] at h
    subst h
    simp only [List.map_cons, List.map_nil, List.cons_append, List.nil_append, SG.OnLine, or_false,
      List.mem_singleton, exists_eq_left]
    constructor
    · exact segment_driven (hl a (by simp)) ⟨rfl, rfl⟩
    · rintro ⟨d, h0, h1, e⟩
      obtain ⟨t, a1, a2, a3, a4⟩ := driven_onSegment h0 h1 (q := a.atEnd) ⟨rfl, rfl⟩
      rw [e] at a3 a4
      exact ⟨t, a1, a2, a3, a4⟩
  | a :: b :: l, s, h, hc, hl, q => by
    have ih := line_driven (p := b :: l) (s := s) (by simpa using h) hc.2
      (fun s hs => hl s (List.mem_cons_of_mem _ hs)) q
    have e : SG.OnLine ((a :: b :: l).map (·.point) ++ [s.atEnd]) q ↔
        SG.OnSegment a.point b.point q ∨ SG.OnLine ((b :: l).map (·.point) ++ [s.atEnd]) q := Iff.rfl
    rw [e, ih, List.exists_mem_cons_iff (a := a)]
    refine or_congr_left ⟨segment_driven (hl a (by simp)) hc.1, ?_⟩
    rintro ⟨d, h0, h1, e⟩
    obtain ⟨t, a1, a2, a3, a4⟩ := driven_onSegment h0 h1 hc.1
    rw [e] at a3 a4
    exact ⟨t, a1, a2, a3, a4⟩

/-- **C133**: the line of a path whose sections join has one point more than the path has sections, starts and
ends where the path does, is as long as the path, and consists of exactly the positions that are driven. -/
theorem C133_line (p : Path) (hp : p ≠ []) (hc : Connected p) (hl : ∀ s ∈ p, 0 ≤ s.len) :
    ∃ line e, p.toLineString = .ok line ∧ p.atEnd = .ok e ∧ List.length line = List.length p + 1 ∧
      List.head? line = (List.head? p).map (·.point) ∧ List.getLast? line = some e ∧
      lineLength line = lengthOf p ∧
      ∀ q : RPoint, SG.OnLine line q ↔ ∃ s ∈ p, ∃ d, 0 ≤ d ∧ d ≤ s.len ∧ driven s d = (q.x, q.y) := by
  obtain ⟨s, hs⟩ : ∃ s, List.getLast? p = some s := ⟨_, List.getLast?_eq_some_getLast hp⟩
  refine ⟨_, s.atEnd, toLineString_eq hs, by rw [Path.atEnd, hs], by simp, ?_, by simp, line_length hs hc,
    line_driven hs hc hl⟩
  cases p with
  | nil => exact absurd rfl hp
  | cons a l => rfl

/-- Three sections: forwards, backwards and resting; 8 m. -/
example : ∃ line, thereAndBack.toLineString = .ok line ∧ List.length line = 4 ∧ lineLength line = 8 ∧
    ∀ q : RPoint, SG.OnLine line q ↔
      ∃ s ∈ thereAndBack, ∃ d, 0 ≤ d ∧ d ≤ s.len ∧ driven s d = (q.x, q.y) := by
  obtain ⟨line, e, h1, -, h2, -, -, h3, h4⟩ := C133_line thereAndBack (by simp [thereAndBack])
    (by refine ⟨⟨?_, ?_⟩, ⟨?_, ?_⟩, trivial⟩ <;> norm_num [atEnd_xy, PathDir.sign])
    (by simp [thereAndBack])
  refine ⟨line, h1, by rw [h2]; rfl, ?_, h4⟩
  rw [h3]
  norm_num [lengthOf, thereAndBack]

/-- **C133**: an empty path has no line: the end of its last section is undefined. -/
theorem C133_empty_ub : (Path.toLineString []).isUb = true := rfl

/-- **C133** needs sections that join: the line bridges a jump, so it can be longer than what is driven. -/
theorem C133_jump : ∃ (p : Path) (line : List RPoint), p.toLineString = .ok line ∧ lengthOf p = 1 ∧
    lineLength line = 10 := by
  refine ⟨[⟨⟨0, 0, 0⟩, 0, 0, .forward, .swath, 1⟩, ⟨⟨9, 0, 0⟩, 0, 1, .forward, .swath, 1⟩], _, rfl, ?_, ?_⟩
  · norm_num [lengthOf]
  · have h1 : pdist ⟨0, 0, 0⟩ ⟨9, 0, 0⟩ = 9 := by
      rw [pdist, show ((0 : ℝ) - 9) ^ 2 + (0 - 0) ^ 2 = 9 ^ 2 by norm_num]
      exact Real.sqrt_sq (by norm_num)
    have h2 := pdist_atEnd ⟨⟨9, 0, 0⟩, 0, 1, .forward, .swath, 1⟩
    simp only [List.map_cons, List.map_nil, List.cons_append, List.nil_append, lineLength, h1,
      List.getLast_cons_cons, List.getLast_singleton] at h2 ⊢
    rw [h2]
    norm_num

/-! ### C134 -/

/-- The directions differ by at most `e`, up to full turns. -/
def WithinAngle (a b e : ℝ) : Prop := ∃ k : ℤ, |a - b - 2 * Real.pi * k| ≤ e

private theorem cos_ge_iff {x c : ℝ} (h0 : -1 ≤ c) (h1 : c ≤ 1) :
    c ≤ Real.cos x ↔ ∃ k : ℤ, |x - 2 * Real.pi * k| ≤ Real.arccos c := by
  have hper : ∀ k : ℤ, Real.cos |x - 2 * Real.pi * k| = Real.cos x := by
    intro k
    rw [Real.cos_abs, mul_comm, Real.cos_sub_int_mul_two_pi]
  constructor
  · intro h
    refine ⟨round (x / (2 * Real.pi)), ?_⟩
    have hpi := Real.pi_pos
    have hr : |x - 2 * Real.pi * (round (x / (2 * Real.pi)) : ℤ)| ≤ Real.pi := by
      have h2 := abs_sub_round (x / (2 * Real.pi))
      have e : x - 2 * Real.pi * (round (x / (2 * Real.pi)) : ℤ) =
          2 * Real.pi * (x / (2 * Real.pi) - (round (x / (2 * Real.pi)) : ℤ)) := by
        field_simp
      rw [e, abs_mul, abs_of_pos (by positivity)]
      nlinarith
    rw [← Real.arccos_cos (abs_nonneg _) hr, hper]
    exact Real.arccos_le_arccos h
  · rintro ⟨k, hk⟩
    rw [← hper k]
    calc c = Real.cos (Real.arccos c) := (Real.cos_arccos h0 h1).symm
      _ ≤ _ := Real.cos_le_cos_of_nonneg_of_le_pi (abs_nonneg _) (Real.arccos_le_pi c) hk

private theorem y_between {a b lo d len : ℝ} (e : ℝ) (hd : 0 ≤ d) (hdl : d ≤ len)
    (hb : b = a + len * e) (ha : lo ≤ a) (hb' : lo ≤ b) : lo ≤ a + d * e := by
  subst hb
  by_cases h : 0 ≤ e
  · have h1 : 0 ≤ d * e := mul_nonneg hd h
    linarith
  · have h2 : len * e ≤ d * e := mul_le_mul_of_nonpos_right hdl (by linarith)
    linarith

private theorem above_iff : ∀ {p : Path} {s : PathState ℝ} {m : ℝ}, List.getLast? p = some s → Connected p →
    (∀ r ∈ p, 0 ≤ r.len) → -m ≤ s.atEnd.y → ((∀ r ∈ p, -m ≤ r.point.y) ↔
      ∀ r ∈ p, ∀ d, 0 ≤ d → d ≤ r.len → -m ≤ (driven r d).2) := by
  intro p s m h hc hl hs
  constructor
  · intro hy
    have key : ∀ {p : Path}, List.getLast? p = some s → Connected p → (∀ r ∈ p, -m ≤ r.point.y) →
        ∀ r ∈ p, ∀ d, 0 ≤ d → d ≤ r.len → -m ≤ (driven r d).2 := by
      intro p
      induction p with
      | nil => intro h; simp at h
      | cons a l ih =>
        intro h hc hy r hr d h0 h1
        have hend : -m ≤ a.atEnd.y := by
          cases l with
          | nil =>
            simp only [List.getLast?_singleton, Option.some.injEq] at h
            rwa [h]
          | cons b l =>
            rw [hc.1.2]
            exact hy b (by simp)
        rcases List.mem_cons.1 hr with rfl | hr
        · obtain ⟨-, ey, -⟩ := atEnd_xy r
          have := y_between (r.dir.sign * Real.sin r.angle) h0 h1 (by rw [ey]; ring) (hy r (by simp)) hend
          simpa only [driven, mul_assoc] using this
        · cases l with
          | nil => simp at hr
          | cons b l =>
            exact ih (by simpa using h) hc.2 (fun r hr => hy r (List.mem_cons_of_mem _ hr)) r hr d h0 h1
    exact key h hc hy
  · intro hy r hr
    have := hy r hr 0 le_rfl (hl r hr)
    simpa [driven] using this

/-- **C134**: a turn whose sections join is accepted if and only if no position driven is more than `maxDist`
behind the line through its ends, its end is less than `maxDist` from `(dist, 0)` in x and in y, and its last
heading differs from the wanted one by at most `arccos (1 - maxRot)`, up to full turns. -/
theorem C134_valid (p : Path) (hp : p ≠ []) (hc : Connected p) (hl : ∀ s ∈ p, 0 ≤ s.len)
    (dist stop maxDist maxRot : ℝ) (h0 : 0 ≤ maxRot) (h2 : maxRot ≤ 2) :
    ∃ b s, Turning.isTurnValid p dist stop maxDist maxRot = .ok b ∧ List.getLast? p = some s ∧
      (b = true ↔ (∀ r ∈ p, ∀ d, 0 ≤ d → d ≤ r.len → -maxDist ≤ (driven r d).2) ∧
        |(driven s s.len).1 - dist| < maxDist ∧ |(driven s s.len).2| < maxDist ∧
        WithinAngle s.angle stop (Real.arccos (1 - maxRot))) := by
  obtain ⟨s, hs⟩ : ∃ s, List.getLast? p = some s := ⟨_, List.getLast?_eq_some_getLast hp⟩
  have ex : (driven s s.len).1 = s.atEnd.x := (atEnd_xy s).1.symm
  have ey : (driven s s.len).2 = s.atEnd.y := (atEnd_xy s).2.1.symm
  have hcos := cos_ge_iff (x := s.angle - stop) (c := 1 - maxRot) (by linarith) (by linarith)
  unfold Turning.isTurnValid WithinAngle
  by_cases hneg : ∃ s ∈ p, s.point.y < -maxDist
  · refine ⟨false, s, if_pos hneg, hs, iff_of_false (by simp) ?_⟩
    rintro ⟨hy, -⟩
    obtain ⟨r, hr, hlt⟩ := hneg
    have := hy r hr 0 le_rfl (hl r hr)
    simp only [driven, zero_mul, add_zero] at this
    linarith
  · rw [if_neg hneg, hs]
    refine ⟨_, s, rfl, rfl, ?_⟩
    rw [decide_eq_true_iff, ex, ey, ← hcos]
    push Not at hneg
    constructor
    · rintro ⟨a, b, c⟩
      exact ⟨(above_iff hs hc hl (abs_lt.1 c).1.le).1 hneg, b, c, a⟩
    · rintro ⟨-, b, c, a⟩
      exact ⟨a, b, c⟩

/-- A U turn of three straight sections, 2 m wide, is accepted; its end is met and its direction is exact. -/
noncomputable def boxTurn : Path :=
  [⟨⟨0, 0, 0⟩, Real.pi / 2, 1, .forward, .turn, 1⟩, ⟨⟨0, 1, 0⟩, 0, 2, .forward, .turn, 1⟩,
    ⟨⟨2, 1, 0⟩, -(Real.pi / 2), 1, .forward, .turn, 1⟩]

example : Turning.isTurnValid boxTurn 2 (3 * (Real.pi / 2)) (1 / 100) (1 / 10) = .ok true := by
  obtain ⟨b, s, h1, h2, h3⟩ := C134_valid boxTurn (by simp [boxTurn])
    (by refine ⟨⟨?_, ?_⟩, ⟨?_, ?_⟩, trivial⟩ <;> norm_num [atEnd_xy, PathDir.sign])
    (by simp [boxTurn]) 2 (3 * (Real.pi / 2)) (1 / 100) (1 / 10) (by norm_num) (by norm_num)
  have hs : s = ⟨⟨2, 1, 0⟩, -(Real.pi / 2), 1, .forward, .turn, 1⟩ := by
    simpa [boxTurn] using h2.symm
  rw [h1, h3.2]
  subst hs
  refine ⟨?_, ?_, ?_, -1, ?_⟩
  · simp only [boxTurn, List.mem_cons, List.not_mem_nil, or_false, forall_eq_or_imp, forall_eq]
    refine ⟨?_, ?_, ?_⟩ <;> intro d h0 h1 <;> simp [driven, PathDir.sign] <;> linarith
  · norm_num [driven, PathDir.sign]
  · norm_num [driven, PathDir.sign]
  · rw [show -(Real.pi / 2) - 3 * (Real.pi / 2) - 2 * Real.pi * ((-1 : ℤ) : ℝ) = 0 by push_cast; ring, abs_zero]
    exact Real.arccos_nonneg _

/-- **C134**: asking about an empty path is undefined behaviour. -/
theorem C134_empty_ub (dist stop maxDist maxRot : ℝ) :
    (Turning.isTurnValid [] dist stop maxDist maxRot).isUb = true := by
  rw [Turning.isTurnValid, if_neg (by simp)]
  rfl

/-- **C134**: the tolerance for the direction applies to the cosine.  With the default values a turn of one
straight section that ends 0.4 rad (23 degrees) off is accepted. -/
theorem C134_direction_tolerance : ∃ p : Path, Turning.isTurnValid p 0 (2 / 5) (1 / 20) (1 / 10) = .ok true ∧
    ∀ s ∈ p, s.angle = 0 := by
  refine ⟨[⟨⟨0, 0, 0⟩, 0, 1 / 100, .forward, .turn, 1⟩], ?_, by simp⟩
  have h := Real.one_sub_sq_div_two_le_cos (x := 2 / 5)
  rw [Turning.isTurnValid, if_neg (by norm_num)]
  simp only [List.getLast?_singleton, Outcome.ok.injEq, decide_eq_true_eq]
  refine ⟨?_, ?_, ?_⟩
  · rw [zero_sub, Real.cos_neg]
    norm_num at h ⊢
    linarith
  · rw [(atEnd_xy _).1]
    norm_num [PathDir.sign]
  · rw [(atEnd_xy _).2.1]
    norm_num [PathDir.sign]

end F2C.Props
