import Verif.Lemmas.DoublePath
import Verif.Props.PathSpline

/-! # C117, C118: distances along paths and arc lengths in double precision

The sum of the lengths of the states without rounding is written out; `IsRounding fl` is rounding to a nearest number of type
`double`, and `cos` and `sin` are arbitrary. -/

namespace F2C.Props

open Dbl

variable {fl : ℝ → ℝ}

/-- **C117**, length: the length of a path is the sum of the lengths of its `n` states up to a factor `(1 ± 2^-53)^n`. -/
theorem C117_length (h : IsRounding fl) (p : Path) (hp : ∀ s ∈ p, IsDouble s.len) :
    (p.map fun s => |s.len|).sum * (1 - 1 / 2 ^ 53) ^ p.length ≤ Dbl.length fl p ∧
    Dbl.length fl p ≤ (p.map fun s => |s.len|).sum * (1 + 1 / 2 ^ 53) ^ p.length := by
  obtain ⟨h1, h2, -, -⟩ := foldl_bounds h p hp 0 0 isDouble_zero le_rfl 0 (by simp) (by simp)
  rw [zero_add, zero_add] at h1 h2
  exact ⟨h1, h2⟩

/-- **C117**, position, except at the end: at a distance less than the sum of the lengths by `n / 2^53` of it, `at` finds the state that covers
that distance up to `n / 2^53` of it, and returns that state moved along its heading by the rest.  Where two states meet it
is the first one. -/
theorem C117_position_partial (h : IsRounding fl) (cos sin : ℝ → ℝ) (p : Path) (hp : ∀ s ∈ p, IsDouble s.len) (d : ℝ)
    (hd : IsDouble d) (h0 : 0 ≤ d) (hl : d ≤ Dbl.length fl p)
    (hfar : d + p.length * (d / 2 ^ 53) < (p.map fun s => |s.len|).sum) :
    ∃ pre s post r, p = pre ++ s :: post ∧ 0 ≤ r ∧ r ≤ |s.len| ∧ (pre = [] ∨ 0 < r) ∧
      |(pre.map fun s => |s.len|).sum + r - d| ≤ p.length * (d / 2 ^ 53) ∧
      Dbl.stateAt fl cos sin p d = { s with point :=
        ⟨fl (s.point.x + fl (r * s.dir.sign * cos s.angle)), fl (s.point.y + fl (r * s.dir.sign * sin s.angle)), 0⟩ } := by
  have e : Dbl.stateAt fl cos sin p d = Dbl.atLoop fl cos sin d p := by
    unfold Dbl.stateAt
    rw [if_neg (not_lt.2 hl), if_neg (not_lt.2 h0)]
  rcases Dbl.atLoop_spec h cos sin p hp d hd h0 with ⟨pre, s, post, r, ep, r0, r1, rd, rp, err, res⟩ | ⟨big, -⟩
  · refine ⟨pre, s, post, r, ep, r0, r1, rp, err.trans ?_, ?_⟩
    · refine mul_le_mul_of_nonneg_right ?_ (by positivity)
      have : pre.length ≤ List.length p := by rw [ep]; simp
      exact_mod_cast this
    · have hdir : fl (r * s.dir.sign) = r * s.dir.sign := by
        refine h.self ?_
        cases s.dir
        · simpa [PathDir.sign] using rd
        · simpa [PathDir.sign] using rd.neg
      rw [e, res, hdir]
  · exact absurd hfar (not_lt.2 big)

/-- **C117**, lost: if `at` falls off the end of the path, it returns a default state at the origin; that happens only at
distances of at least the whole length up to `n / 2^53` of it. -/
theorem C117_lost_only_at_end (h : IsRounding fl) (cos sin : ℝ → ℝ) (p : Path) (hp : ∀ s ∈ p, IsDouble s.len) (d : ℝ)
    (hd : IsDouble d) (h0 : 0 ≤ d) (hl : d ≤ Dbl.length fl p)
    (hlost : ∀ s ∈ p, (Dbl.stateAt fl cos sin p d).angle ≠ s.angle) :
    Dbl.stateAt fl cos sin p d = ⟨⟨0, 0, 0⟩, 0, 0, .forward, .swath, 1⟩ ∧
    (p.map fun s => |s.len|).sum ≤ d + p.length * (d / 2 ^ 53) := by
  have e : Dbl.stateAt fl cos sin p d = Dbl.atLoop fl cos sin d p := by
    unfold Dbl.stateAt
    rw [if_neg (not_lt.2 hl), if_neg (not_lt.2 h0)]
  rcases Dbl.atLoop_spec h cos sin p hp d hd h0 with ⟨pre, s, post, r, ep, r0, r1, rd, -, err, res⟩ | ⟨big, res⟩
  · refine absurd ?_ (hlost s (by rw [ep]; simp))
    rw [e, res]
  · exact ⟨e.trans res, big⟩

/-- **C117**, start: at negative distances and at 0, the first state is returned, put down on the plane. -/
theorem C117_before (h : IsRounding fl) (cos sin : ℝ → ℝ) (s : PathState ℝ) (p : Path) (hp : ∀ t ∈ s :: p, IsDouble t.len)
    (hx : IsDouble s.point.x) (hy : IsDouble s.point.y) (d : ℝ) (hd : d ≤ 0) :
    Dbl.stateAt fl cos sin (s :: p) d = { s with point := ⟨s.point.x, s.point.y, 0⟩ } := by
  have hl : 0 ≤ Dbl.length fl (s :: p) := by
    refine le_trans ?_ (C117_length h (s :: p) hp).1
    refine mul_nonneg (List.sum_nonneg ?_) (by positivity)
    intro x hx
    obtain ⟨t, -, rfl⟩ := List.mem_map.1 hx
    exact abs_nonneg _
  have z : fl 0 = 0 := h.self isDouble_zero
  have key : Dbl.atLoop fl cos sin 0 (s :: p) = { s with point := ⟨s.point.x, s.point.y, 0⟩ } := by
    rw [Dbl.atLoop, if_neg (not_lt.2 (abs_nonneg _))]
    simp only [zero_mul, z, add_zero, h.self hx, h.self hy]
  unfold Dbl.stateAt
  rw [if_neg (not_lt.2 (hd.trans hl))]
  by_cases hc : d < 0
  · rw [if_pos hc, key]
  · rw [if_neg hc, le_antisymm hd (not_lt.1 hc), key]

/-- The number 0.1 of type `double`. -/
noncomputable def tenth : ℝ := 7205759403792794 * (2 : ℝ) ^ (-56 : ℤ)

/-- A path of two states, 1 m and 0.1 m, due east from (100, 200). -/
noncomputable def twoStates : Path :=
  [⟨⟨100, 200, 0⟩, 0, 1, .forward, .swath, 2⟩, ⟨⟨101, 200, 0⟩, 0, tenth, .forward, .swath, 2⟩]

/-- **C117** is false of the end of the path, where without rounding the last state is returned (C36): for a path of two
states of 1 m and 0.1 m, `at` of the length of the path, and of everything beyond, is a default state at the origin, 223 m
away from the path. -/
theorem C117_end_lost (h : IsRounding fl) (cos sin : ℝ → ℝ) (d : ℝ) (hd : Dbl.length fl twoStates ≤ d) :
    Dbl.stateAt fl cos sin twoStates d = ⟨⟨0, 0, 0⟩, 0, 0, .forward, .swath, 1⟩ := by
  have d1 : IsDouble 1 := ⟨1, 0, by norm_num, by norm_num, by norm_num⟩
  have ht : 0 < tenth := by norm_num [tenth]
  have ht1 : tenth < 1 := by norm_num [tenth]
  have es : fl (1 + tenth) = (4953959590107546 : ℤ) * (2 : ℝ) ^ (-52 : ℤ) :=
    h.eq_of_close _ _ _ (by norm_num) (by norm_num) (by norm_num) (by norm_num [tenth, abs_lt])
  have el : Dbl.length fl twoStates = (4953959590107546 : ℤ) * (2 : ℝ) ^ (-52 : ℤ) := by
    simp only [Dbl.length, twoStates, List.foldl_cons, List.foldl_nil, zero_add, abs_one, h.self d1, abs_of_pos ht]
    exact es
  have er : fl (((4953959590107546 : ℤ) : ℝ) * (2 : ℝ) ^ (-52 : ℤ) - 1) = 450359962737050 * (2 : ℝ) ^ (-52 : ℤ) := by
    have : ((4953959590107546 : ℤ) : ℝ) * (2 : ℝ) ^ (-52 : ℤ) - 1 = 450359962737050 * (2 : ℝ) ^ (-52 : ℤ) := by norm_num
    rw [this]
    exact h.self ⟨450359962737050, -52, by norm_num, by norm_num, by norm_num⟩
  have key : Dbl.atLoop fl cos sin ((4953959590107546 : ℤ) * (2 : ℝ) ^ (-52 : ℤ)) twoStates = PathState.default := by
    unfold twoStates
    rw [Dbl.atLoop, if_pos (by norm_num), abs_one, er, Dbl.atLoop, if_pos (by rw [abs_of_pos ht]; norm_num [tenth]), Dbl.atLoop]
  rw [el] at hd
  unfold Dbl.stateAt
  rw [el]
  by_cases hc : d > ((4953959590107546 : ℤ) : ℝ) * (2 : ℝ) ^ (-52 : ℤ)
  · rw [if_pos hc]
    exact key
  · have : d = ((4953959590107546 : ℤ) : ℝ) * (2 : ℝ) ^ (-52 : ℤ) := le_antisymm (not_lt.1 hc) hd
    rw [if_neg hc, this, if_neg (by norm_num)]
    exact key

/-- Without rounding, the end of the same path is where it should be. -/
example : (Path.stateAt twoStates (1 + tenth)).point = ⟨101 + tenth, 200, 0⟩ := by
  have ht : 0 < tenth := by norm_num [tenth]
  have el : Path.totalLength twoStates = 1 + tenth := by
    simp [Path.totalLength, twoStates, abs_of_pos ht]
  unfold Path.stateAt
  rw [el, if_neg (lt_irrefl _), if_neg (by linarith)]
  unfold twoStates
  rw [Path.atLoop, if_pos (by simpa using ht), abs_one, add_sub_cancel_left, Path.atLoop, if_neg (by simp [le_abs_self])]
  simp [PathDir.sign]

/-- C117 on the same path with rounding to nearest: half a metre from its start, and its length. -/
example : (∃ pre s post r, twoStates = pre ++ s :: post ∧ 0 ≤ r ∧ r ≤ |s.len| ∧
      |(pre.map fun s => |s.len|).sum + r - 1 / 2| ≤ 1 / 2 ^ 53 ∧
      (Dbl.stateAt toNearest Real.cos Real.sin twoStates (1 / 2)).angle = s.angle) ∧
    Dbl.length toNearest twoStates ≤ 2 ∧
    (Dbl.stateAt toNearest Real.cos Real.sin twoStates 5).point = ⟨0, 0, 0⟩ := by
  have ht : 0 < tenth := by norm_num [tenth]
  have ht1 : tenth < 1 := by norm_num [tenth]
  have hp : ∀ s ∈ twoStates, IsDouble s.len := by
    intro s hs
    simp only [twoStates, List.mem_cons, List.not_mem_nil, or_false] at hs
    rcases hs with rfl | rfl
    · exact ⟨1, 0, by norm_num, by norm_num, by norm_num⟩
    · exact ⟨7205759403792794, -56, by norm_num, by norm_num, by norm_num [tenth]⟩
  have hs : (twoStates.map fun s => |s.len|).sum = 1 + tenth := by simp [twoStates, abs_of_pos ht]
  obtain ⟨l1, l2⟩ := C117_length toNearest_isRounding twoStates hp
  rw [hs, show twoStates.length = 2 from rfl] at l1 l2
  have l3 : Dbl.length toNearest twoStates ≤ 2 := by norm_num [tenth] at l2 ⊢; linarith
  refine ⟨?_, l3, ?_⟩
  · obtain ⟨pre, s, post, r, e, r0, r1, -, err, res⟩ := C117_position_partial toNearest_isRounding Real.cos Real.sin twoStates hp (1 / 2)
      ⟨1, -1, by norm_num, by norm_num, by norm_num⟩ (by norm_num) (by norm_num [tenth] at l1 ⊢; linarith)
      (by rw [hs, show twoStates.length = 2 from rfl]; norm_num [tenth])
    refine ⟨pre, s, post, r, e, r0, r1, ?_, by rw [res]⟩
    rw [show twoStates.length = 2 from rfl] at err
    norm_num at err ⊢
    linarith
  · rw [C117_end_lost toNearest_isRounding Real.cos Real.sin 5 (by linarith)]

/-- C117 one metre before the start of the same path. -/
example : Dbl.stateAt toNearest Real.cos Real.sin twoStates (-1) = ⟨⟨100, 200, 0⟩, 0, 1, .forward, .swath, 2⟩ :=
  C117_before toNearest_isRounding _ _ _ _ (by
    intro s hs
    simp only [List.mem_cons, List.not_mem_nil, or_false] at hs
    rcases hs with rfl | rfl
    · exact ⟨1, 0, by norm_num, by norm_num, by norm_num⟩
    · exact ⟨7205759403792794, -56, by norm_num, by norm_num, by norm_num [tenth]⟩)
    ⟨100, 0, by norm_num, by norm_num, by norm_num⟩ ⟨200, 0, by norm_num, by norm_num, by norm_num⟩ (-1) (by norm_num)

/-! ## C118 -/

/-- **C118**, empty: `populate` of a path without states reads the last one, which is undefined behaviour. -/
theorem C118_empty (fl : ℝ → ℝ) : (populateArcs fl []).isUb = true := rfl

/-- **C118**, the part that holds: if every state that is not of length 0 has more than 2^-52 of the length of the path, the
arc lengths that `populate` gives to the splines increase, so that they are accepted. -/
theorem C118_accepts_partial (h : IsRounding fl) (p : Path) (hp : ∀ s ∈ p, IsDouble s.len ∧ 0 ≤ s.len)
    (hpos : ∃ s ∈ p, 0 < s.len) (hlong : ∀ s ∈ p, s.len ≠ 0 → Dbl.length fl p < 2 ^ 52 * s.len) :
    ∃ t, populateArcs fl p = .ok t ∧ t.Pairwise (· < ·) ∧ t.head? = some 0 ∧ t.getLast? = some (Dbl.length fl p) := by
  obtain ⟨s0, hs0, hs1⟩ := hpos
  obtain ⟨last, hlast⟩ : ∃ last, List.getLast? p = some last := by
    cases hl : List.getLast? p with
    | none => rw [List.getLast?_eq_none_iff] at hl; subst hl; simp at hs0
    | some l => exact ⟨l, rfl⟩
  have hlen := length_filter h p (fun s hs => (hp s hs).2) 0 isDouble_zero
  have harcs : Dbl.arcs fl (Path.knots p last) =
      ((p.filter (fun s => s.len ≠ 0)).map (·.len)).scanl (fun a b => fl (a + b)) 0 := by
    unfold Dbl.arcs Path.knots
    rw [List.dropLast_concat]
  have hmem : ∀ b ∈ (p.filter (fun s => s.len ≠ 0)).map (·.len), IsDouble b ∧ 0 < b ∧ Dbl.length fl p < 2 ^ 52 * b := by
    intro b hb
    obtain ⟨s, hs, rfl⟩ := List.mem_map.1 hb
    obtain ⟨hs, hne⟩ := List.mem_filter.1 hs
    have hne : s.len ≠ 0 := by simpa using hne
    exact ⟨(hp s hs).1, lt_of_le_of_ne (hp s hs).2 hne.symm, hlong s hs hne⟩
  have hinc := scanl_increasing h _ (fun b hb => ⟨(hmem b hb).1, (hmem b hb).2.1⟩) 0 isDouble_zero le_rfl
    (fun b hb => by
      have := (hmem b hb).2.2
      unfold Dbl.length at this
      rwa [hlen] at this)
  have hcard : 0 < (p.filter (fun s => s.len ≠ 0)).length :=
    List.length_pos_of_mem (a := s0) (List.mem_filter.2 ⟨hs0, by simpa using hs1.ne'⟩)
  refine ⟨_, ?_, hinc, ?_, ?_⟩
  · unfold populateArcs
    rw [hlast]
    simp only [harcs]
    rw [if_neg (by simp only [List.length_scanl, List.length_map]; omega), if_neg]
    simp only [List.all_eq_true, List.mem_range, decide_eq_true_eq, not_not]
    intro i hi
    unfold Spline.nth
    rw [List.getD_eq_getElem?_getD, List.getD_eq_getElem?_getD, List.getElem?_eq_getElem (by omega),
      List.getElem?_eq_getElem (by omega), Option.getD_some, Option.getD_some]
    exact List.pairwise_iff_getElem.1 hinc _ _ _ _ (by omega)
  · cases (p.filter (fun s => s.len ≠ 0)).map (·.len) <;> simp
  · unfold Dbl.length
    rw [hlen, List.getLast?_eq_some_getLast (by simp), List.getLast_scanl]

/-- A path of three states, 1024 m, 2^-60 m and 1 m. -/
noncomputable def shortState : Path :=
  [⟨⟨0, 0, 0⟩, 0, 1024, .forward, .swath, 2⟩, ⟨⟨1024, 0, 0⟩, 0, 1 / 2 ^ 60, .forward, .swath, 2⟩,
   ⟨⟨1024, 0, 0⟩, 0, 1, .forward, .swath, 2⟩]

/-- **C118** is false of paths with very short states: though all lengths are positive, and `populate` accepts the path
without rounding (C35), it throws an exception about the order of the knots of a spline. -/
theorem C118_throws (h : IsRounding fl) :
    (∀ s ∈ shortState, IsDouble s.len ∧ 0 < s.len) ∧ populateArcs fl shortState = .throw .outOfRange ∧
    ∃ q, shortState.populate 10 = .ok q ∧ List.length q = 10 := by
  have d1 : fl (0 + 1024) = 1024 := by
    rw [zero_add]; exact h.self ⟨1, 10, by norm_num, by norm_num, by norm_num⟩
  have d2 : fl (1024 + 1 / 2 ^ 60) = 1024 := by
    have := h.eq_of_close (1024 + 1 / 2 ^ 60) (2 ^ 53) (-43) (by norm_num) (by norm_num) (by norm_num)
      (by norm_num [abs_lt])
    rw [this]; norm_num
  refine ⟨?_, ?_, ?_⟩
  · intro s hs
    simp only [shortState, List.mem_cons, List.not_mem_nil, or_false] at hs
    rcases hs with rfl | rfl | rfl
    · exact ⟨⟨1, 10, by norm_num, by norm_num, by norm_num⟩, by norm_num⟩
    · exact ⟨⟨1, -60, by norm_num, by norm_num, by norm_num⟩, by norm_num⟩
    · exact ⟨⟨1, 0, by norm_num, by norm_num, by norm_num⟩, by norm_num⟩
  · have ea : ∀ last, Dbl.arcs fl (Path.knots shortState last) = [0, 1024, 1024, fl (1024 + 1)] := by
      intro last
      unfold Dbl.arcs Path.knots
      rw [List.dropLast_concat]
      have : (shortState.filter (fun s => decide (s.len ≠ 0))).map (·.len) = [1024, 1 / 2 ^ 60, 1] := by
        norm_num [shortState, List.filter_cons]
      rw [this]
      simp only [List.scanl_cons, List.scanl_nil, d1, d2]
    unfold populateArcs
    rw [show List.getLast? shortState = some ⟨⟨1024, 0, 0⟩, 0, 1, .forward, .swath, 2⟩ from rfl]
    simp only [ea]
    rw [if_neg (by simp), if_pos]
    simp [Spline.nth, List.range_succ]
  · obtain ⟨q, e, hl, -⟩ := C35_populate_partial shortState 10 (by norm_num) (by simp [shortState])
      (by intro s hs; simp only [shortState, List.mem_cons, List.not_mem_nil, or_false] at hs
          rcases hs with rfl | rfl | rfl <;> norm_num)
      ⟨_, List.mem_cons_self, by norm_num⟩
      (by intro s hs; simp only [shortState, List.mem_cons, List.not_mem_nil, or_false] at hs
          rcases hs with rfl | rfl | rfl <;> norm_num)
      (by simp [shortState])
    exact ⟨q, e, hl⟩

/-- C118 on the path of C117 with rounding to nearest. -/
example : ∃ t, populateArcs toNearest twoStates = .ok t ∧ t.Pairwise (· < ·) := by
  have ht : 0 < tenth := by norm_num [tenth]
  have hp : ∀ s ∈ twoStates, IsDouble s.len ∧ 0 ≤ s.len := by
    intro s hs
    simp only [twoStates, List.mem_cons, List.not_mem_nil, or_false] at hs
    rcases hs with rfl | rfl
    · exact ⟨⟨1, 0, by norm_num, by norm_num, by norm_num⟩, by norm_num⟩
    · exact ⟨⟨7205759403792794, -56, by norm_num, by norm_num, by norm_num [tenth]⟩, ht.le⟩
  have hs : (twoStates.map fun s => |s.len|).sum = 1 + tenth := by simp [twoStates, abs_of_pos ht]
  obtain ⟨l1, l2⟩ := C117_length toNearest_isRounding twoStates fun s hs => (hp s hs).1
  rw [hs, show twoStates.length = 2 from rfl] at l1 l2
  have l3 : Dbl.length toNearest twoStates ≤ 2 := by norm_num [tenth] at l2 ⊢; linarith
  obtain ⟨t, e, hi, -⟩ := C118_accepts_partial toNearest_isRounding twoStates hp ⟨_, List.mem_cons_self, by norm_num⟩ (by
    intro s hs _
    simp only [twoStates, List.mem_cons, List.not_mem_nil, or_false] at hs
    rcases hs with rfl | rfl
    · norm_num; linarith
    · refine lt_of_le_of_lt l3 ?_
      norm_num [tenth])
  exact ⟨t, e, hi⟩

end F2C.Props
