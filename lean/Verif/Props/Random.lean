import Mathlib.Analysis.SpecialFunctions.Trigonometric.Arctan
import Verif.Lemmas.Random
import Verif.Props.Geometry

/-!
# Properties C64 and C72: random cells
-/

namespace F2C.Props

open Rand Geo

/-- Area inside of a closed ring, by the surveyor's formula. -/
noncomputable def surveyed (ring : List RPoint) : ℝ :=
  |((ring.zip ring.tail).map fun e => e.1.x * e.2.y - e.2.x * e.1.y).sum| / 2

theorem surveyed_eq (ring : List RPoint) : surveyed ring = ringArea ring := by
  have : ∀ l : List RPoint, ((l.zip l.tail).map fun e => e.1.x * e.2.y - e.2.x * e.1.y).sum = shoelace l := by
    intro l
    induction l with
    | nil => simp [shoelace]
    | cons a l ih =>
      cases l with
      | nil => simp [shoelace]
      | cons b l =>
        simp only [List.tail_cons, List.zip_cons_cons, List.map_cons, List.sum_cons, shoelace] at ih ⊢
        rw [ih]
  unfold surveyed ringArea
  rw [this]

/-- The random numbers a call can draw: `n` pairs of a radius in `[lo, hi)` and a number in `[0, 1)`. -/
def Draws (n : Int) (lo hi : ℝ) (draws : List (ℝ × ℝ)) : Prop :=
  (draws.length : Int) = n ∧ ∀ d ∈ draws, lo ≤ d.1 ∧ d.1 < hi ∧ 0 ≤ d.2 ∧ d.2 < 1

/-! ## C64 -/

/-- **C64**, bad arguments. -/
theorem C64_throws (area : ℝ) (n : Int) (draws : List (ℝ × ℝ)) (h : n ≤ 2 ∨ area ≤ 0) :
    generateRandCell area n draws = .throw .invalidArgument := by
  unfold generateRandCell
  by_cases hn : n ≤ 2
  · rw [if_pos hn]
  · rw [if_neg hn, if_pos (h.resolve_left hn)]

/-- The part of C64 for three or more corners, if the corners drawn are not in a line. -/
theorem C64_of_area (area lo hi : ℝ) (n : Int) (draws : List (ℝ × ℝ)) (hn : 3 ≤ n) (ha : 0 < area)
    (hd : Draws n lo hi draws) (h0 : ringArea (base draws) ≠ 0) :
    ∃ ring exact : List RPoint, generateRandCell area n draws = .ok [ring] ∧
      (ring.length : Int) = n + 1 ∧ ring.head? = ring.getLast? ∧
      surveyed exact = area ∧ List.Forall₂ (fun p q : RPoint => p = q ∨
        (|p.x - q.x| < 1 / 10000000 ∧ |p.y - q.y| < 1 / 10000000)) ring exact := by
  refine ⟨scaleLine (base draws) (Real.sqrt (area / ringArea (base draws))),
    (base draws).map fun p => p.smul (Real.sqrt (area / ringArea (base draws))), ?_, ?_, ?_, ?_,
    scale_near _ _⟩
  · unfold generateRandCell
    rw [if_neg (by omega), if_neg (by linarith), if_neg h0]
    rfl
  · have := hd.1
    simp only [scaleLine, forEachPoint, List.length_map, base, List.length_append, points_length, List.length_take]
    omega
  · match draws, hd with
    | [], hd => have := hd.1; simp at this; omega
    | d :: l, _ =>
      unfold scaleLine forEachPoint
      rw [List.head?_map, List.getLast?_map]
      congr 1
      simp only [base, points, List.take_succ_cons, List.take_zero, List.cons_append, List.head?_cons]
      rw [← List.cons_append, List.getLast?_concat]
  · rw [surveyed_eq]
    exact ringArea_scaled ha _ h0

/-- **C64**, area: for four or more corners and positive radii, the cell is a closed ring of `n` sides
which agrees, up to less than 1e-7 in the coordinates, with a ring of exactly the requested area.  What is
missing of C64: equality of the area (`C64_not_scaled`), and three corners (`C64_three_corners_ub`). -/
theorem C64_area_partial (area lo hi : ℝ) (n : Int) (draws : List (ℝ × ℝ)) (hn : 4 ≤ n) (ha : 0 < area)
    (hlo : 0 < lo) (hd : Draws n lo hi draws) :
    ∃ ring exact : List RPoint, generateRandCell area n draws = .ok [ring] ∧
      (ring.length : Int) = n + 1 ∧ ring.head? = ring.getLast? ∧
      surveyed exact = area ∧ List.Forall₂ (fun p q : RPoint => p = q ∨
        (|p.x - q.x| < 1 / 10000000 ∧ |p.y - q.y| < 1 / 10000000)) ring exact := by
  refine C64_of_area area lo hi n draws (by omega) ha hd ?_
  have := base_neg draws (by have := hd.1; omega) fun d h =>
    ⟨lt_of_lt_of_le hlo (hd.2 d h).1, (hd.2 d h).2.2⟩
  unfold ringArea
  have : 0 < |shoelace (base draws)| := abs_pos.2 this.ne
  positivity

/-- **C64**, exact area: for areas from `n * hi^2` on (so that the ring grows noticeably) the area is exactly
the requested one. -/
theorem C64_exact_area (area lo hi : ℝ) (n : Int) (draws : List (ℝ × ℝ)) (hn : 4 ≤ n)
    (hlo : 1 / 1000000 ≤ lo) (hd : Draws n lo hi draws) (ha : n * hi ^ 2 ≤ area) :
    ∃ ring : List RPoint, generateRandCell area n draws = .ok [ring] ∧ surveyed ring = area := by
  have hlen : (draws.length : ℝ) = n := by exact_mod_cast hd.1
  have hne : draws ≠ [] := by
    rintro rfl
    have := hd.1
    simp at this
    omega
  obtain ⟨d, l, rfl⟩ := List.exists_cons_of_ne_nil hne
  have hdd := hd.2 d (by simp)
  have hhi : 0 < hi := by linarith
  have hn' : (4 : ℝ) ≤ n := by exact_mod_cast hn
  have ha0 : 0 < area := lt_of_lt_of_le (by positivity) ha
  have hneg := base_neg (d :: l) (by have := hd.1; omega) fun x h =>
    ⟨lt_of_lt_of_le (by linarith) (hd.2 x h).1, (hd.2 x h).2.2⟩
  have hpos : 0 < ringArea (base (d :: l)) := by
    unfold ringArea
    have : 0 < |shoelace (base (d :: l))| := abs_pos.2 hneg.ne
    positivity
  have hle := ringArea_base_le hhi.le (d :: l) fun x h => ⟨by linarith [(hd.2 x h).1], (hd.2 x h).2.1.le⟩
  rw [hlen] at hle
  have hk : 5 / 4 ≤ Real.sqrt (area / ringArea (base (d :: l))) := by
    apply Real.le_sqrt_of_sq_le
    rw [le_div_iff₀ hpos]
    nlinarith
  refine ⟨(base (d :: l)).map fun p => p.smul (Real.sqrt (area / ringArea (base (d :: l)))), ?_, ?_⟩
  · unfold generateRandCell
    rw [if_neg (by omega), if_neg (by linarith), if_neg hpos.ne']
    show Outcome.ok [scaleLine _ _] = _
    rw [scale_exact]
    intro p hp
    obtain ⟨x, hx, a, rfl⟩ := mem_base hp
    apply written
    have h1 := (hd.2 x hx).1
    rw [abs_of_nonneg (by linarith), abs_of_nonneg (by linarith)]
    nlinarith
  · rw [surveyed_eq]
    exact ringArea_scaled ha0 _ hpos.ne'

/-- For the witnesses: the random numbers that lead to the given radii and angles. -/
noncomputable def drawsFor (n : Nat) : Nat → List (ℝ × ℝ) → List (ℝ × ℝ)
  | _, [] => []
  | i, d :: l => (d.1, d.2 * n / (2 * Real.pi) - i) :: drawsFor n (i + 1) l

theorem points_drawsFor {n : Nat} (hn : n ≠ 0) : ∀ (l : List (ℝ × ℝ)) (i : Nat),
    points n i (drawsFor n i l) = l.map fun d => polar d.1 d.2
  | [], _ => rfl
  | d :: l, i => by
    simp only [drawsFor, points, List.map_cons, points_drawsFor hn l (i + 1)]
    have : 2 * Real.pi * ((i : ℝ) + (d.2 * n / (2 * Real.pi) - i)) / n = d.2 := by
      have := Real.pi_pos
      have : (n : ℝ) ≠ 0 := by exact_mod_cast hn
      field_simp
      ring
    rw [this]

theorem drawsFor_length (n : Nat) : ∀ (l : List (ℝ × ℝ)) (i : Nat), (drawsFor n i l).length = l.length
  | [], _ => rfl
  | d :: l, i => by simp [drawsFor, drawsFor_length n l (i + 1)]

/-- An angle of sector `i`. -/
theorem sector {n : Nat} (hn : 0 < n) {i : Nat} {a : ℝ} (h1 : 2 * Real.pi * i ≤ a * n)
    (h2 : a * n < 2 * Real.pi * (i + 1)) :
    0 ≤ a * n / (2 * Real.pi) - i ∧ a * n / (2 * Real.pi) - i < 1 := by
  have hpi := Real.pi_pos
  constructor
  · rw [sub_nonneg, le_div_iff₀ (by positivity)]
    linarith
  · rw [sub_lt_iff_lt_add, div_lt_iff₀ (by positivity)]
    linarith

theorem polar_arctan (d t φ : ℝ) : polar (d * Real.sqrt (1 + t ^ 2)) (φ + Real.arctan t) =
    ⟨d * (Real.sin φ + t * Real.cos φ), d * (Real.cos φ - t * Real.sin φ), 0⟩ := by
  have hs : Real.sqrt (1 + t ^ 2) ≠ 0 := (Real.sqrt_pos.2 (by positivity)).ne'
  unfold polar
  rw [Real.sin_add, Real.cos_add, Real.sin_arctan, Real.cos_arctan]
  ext
  · show d * Real.sqrt (1 + t ^ 2) * _ = _
    field_simp
  · show d * Real.sqrt (1 + t ^ 2) * _ = _
    field_simp
  · rfl

theorem sqrt_between {x lo hi : ℝ} (h0 : 0 ≤ lo) (h1 : lo ^ 2 ≤ x) (h2 : x < hi ^ 2) (h3 : 0 < hi) :
    lo ≤ Real.sqrt x ∧ Real.sqrt x < hi :=
  ⟨Real.le_sqrt_of_sq_le h1, (Real.sqrt_lt' h3).2 h2⟩

/-- For the witnesses: a square with half diagonal 3/4. -/
noncomputable def square : List (ℝ × ℝ) := [(3 / 4, 0), (3 / 4, 0), (3 / 4, 0), (3 / 4, 0)]

theorem base_square : base square =
    [⟨0, 3 / 4, 0⟩, ⟨3 / 4, 0, 0⟩, ⟨0, -(3 / 4), 0⟩, ⟨-(3 / 4), 0, 0⟩, ⟨0, 3 / 4, 0⟩] := by
  have e0 : 2 * Real.pi * (((0 : Nat) : ℝ) + 0) / ((4 : Nat) : ℝ) = 0 := by simp
  have e1 : 2 * Real.pi * (((0 + 1 : Nat) : ℝ) + 0) / ((4 : Nat) : ℝ) = Real.pi / 2 := by push_cast; ring
  have e2 : 2 * Real.pi * (((0 + 1 + 1 : Nat) : ℝ) + 0) / ((4 : Nat) : ℝ) = Real.pi := by push_cast; ring
  have e3 : 2 * Real.pi * (((0 + 1 + 1 + 1 : Nat) : ℝ) + 0) / ((4 : Nat) : ℝ) = Real.pi / 2 + Real.pi := by
    push_cast; ring
  unfold base square
  simp only [points, List.length_cons, List.length_nil]
  simp only [show (0 + 1 + 1 + 1 + 1 : Nat) = 4 from rfl, e0, e1, e2, e3]
  simp [polar]

theorem draws_square : Draws 4 (1 / 2) 1 square := by
  refine ⟨rfl, ?_⟩
  intro d hd
  simp [square] at hd
  subst hd
  norm_num

/-- **C64** is false for areas close to that of the ring drawn: here the ring has the area 9/8, and is left as it
is although another area is asked for. -/
theorem C64_not_scaled : ∃ (area : ℝ) (ring : List RPoint), 0 < area ∧ Draws 4 (1 / 2) 1 square ∧
    generateRandCell area 4 square = .ok [ring] ∧ surveyed ring ≠ area := by
  have hr : ringArea (base square) = 9 / 8 := by
    rw [base_square]
    unfold ringArea
    simp only [shoelace]
    norm_num
  refine ⟨9 / 8 * (1 + 1 / 100000000) ^ 2, base square, by positivity, draws_square, ?_, ?_⟩
  · unfold generateRandCell
    rw [if_neg (by norm_num), if_neg (by norm_num), if_neg (by rw [hr]; norm_num), hr]
    rw [show (9 / 8 * (1 + 1 / 100000000) ^ 2 / (9 / 8) : ℝ) = (1 + 1 / 100000000) ^ 2 by ring,
      Real.sqrt_sq (by norm_num), base_square]
    simp only [scaleLines, scaleLine, forEachPoint, List.map_cons, List.map_nil]
    have h : ∀ x y : ℝ, |x| ≤ 1 → |y| ≤ 1 → Point.eqv (⟨x, y, 0⟩ : RPoint)
        (Point.smul ⟨x, y, 0⟩ (1 + 1 / 100000000)) = true := by
      intro x y hx hy
      rw [near_iff]
      simp only [Point.smul]
      refine ⟨?_, ?_, by norm_num⟩
      · rw [show x - x * (1 + 1 / 100000000) = -(x / 100000000) by ring, abs_neg, abs_div]
        norm_num
        linarith
      · rw [show y - y * (1 + 1 / 100000000) = -(y / 100000000) by ring, abs_neg, abs_div]
        norm_num
        linarith
    rw [h 0 (3 / 4) (by norm_num) (by norm_num), h (3 / 4) 0 (by norm_num) (by norm_num),
      h 0 (-(3 / 4)) (by norm_num) (by norm_num [abs_of_pos]), h (-(3 / 4)) 0 (by norm_num [abs_of_pos]) (by norm_num)]
    simp
  · rw [surveyed_eq, hr]
    norm_num

/-- **C64** is false for three corners: they can be drawn in a line, with the default widths, and then the scale is a
division by zero (infinite or not a number in the coordinates). -/
theorem C64_three_corners_ub : ∃ draws, Draws 3 (1 / 2) 1 draws ∧
    ∀ area, 0 < area → (generateRandCell area 3 draws).isUb = true := by
  have hpi := Real.pi_pos
  set l : List (ℝ × ℝ) := [(2 / 5 * Real.sqrt (1 + (3 / 2) ^ 2), Real.pi / 3 + Real.arctan (3 / 2)),
    (2 / 5 * Real.sqrt (1 + (7 / 4) ^ 2), Real.pi / 3 + Real.arctan (7 / 4)),
    (2 / 5 * Real.sqrt (1 + (-(7 / 4)) ^ 2), (Real.pi / 3 + 2 * Real.pi) + Real.arctan (-(7 / 4)))] with hl
  have h3 : Real.arctan (Real.sqrt 3) = Real.pi / 3 := by
    rw [← Real.tan_pi_div_three, Real.arctan_tan] <;> linarith
  have hs3 : 3 / 2 < Real.sqrt 3 ∧ Real.sqrt 3 < 7 / 4 :=
    ⟨(Real.lt_sqrt (by norm_num)).2 (by norm_num), (Real.sqrt_lt' (by norm_num)).2 (by norm_num)⟩
  have a1 : Real.arctan (3 / 2) < Real.pi / 3 := by rw [← h3]; exact Real.arctan_strictMono hs3.1
  have a2 : Real.pi / 3 < Real.arctan (7 / 4) := by rw [← h3]; exact Real.arctan_strictMono hs3.2
  have a3 := Real.arctan_lt_pi_div_two (7 / 4)
  have a4 : 0 < Real.arctan (3 / 2) := Real.arctan_pos.2 (by norm_num)
  have r1 := sqrt_between (x := 1 + (3 / 2) ^ 2) (lo := 5 / 4) (hi := 5 / 2) (by norm_num) (by norm_num) (by norm_num)
    (by norm_num)
  have r2 := sqrt_between (x := 1 + (7 / 4) ^ 2) (lo := 5 / 4) (hi := 5 / 2) (by norm_num) (by norm_num) (by norm_num)
    (by norm_num)
  have e2 : (1 + (-(7 / 4)) ^ 2 : ℝ) = 1 + (7 / 4) ^ 2 := by norm_num
  have pts : (l.map fun d => polar d.1 d.2) = [
      ⟨2 / 5 * (Real.sin (Real.pi / 3) + 3 / 2 * Real.cos (Real.pi / 3)),
        2 / 5 * (Real.cos (Real.pi / 3) - 3 / 2 * Real.sin (Real.pi / 3)), 0⟩,
      ⟨2 / 5 * (Real.sin (Real.pi / 3) + 7 / 4 * Real.cos (Real.pi / 3)),
        2 / 5 * (Real.cos (Real.pi / 3) - 7 / 4 * Real.sin (Real.pi / 3)), 0⟩,
      ⟨2 / 5 * (Real.sin (Real.pi / 3) + -(7 / 4) * Real.cos (Real.pi / 3)),
        2 / 5 * (Real.cos (Real.pi / 3) - -(7 / 4) * Real.sin (Real.pi / 3)), 0⟩] := by
    simp only [hl, List.map_cons, List.map_nil, polar_arctan, Real.sin_add_two_pi, Real.cos_add_two_pi]
  refine ⟨drawsFor 3 0 l, ⟨by rw [drawsFor_length]; rfl, ?_⟩, ?_⟩
  · intro d hd
    simp only [hl, drawsFor, List.mem_cons, List.not_mem_nil, or_false] at hd
    rcases hd with rfl | rfl | rfl
    · exact ⟨by linarith [r1.1], by linarith [r1.2],
        sector (by norm_num) (by push_cast; linarith) (by push_cast; linarith)⟩
    · exact ⟨by linarith [r2.1], by linarith [r2.2],
        sector (by norm_num) (by push_cast; linarith) (by push_cast; linarith)⟩
    · rw [e2, Real.arctan_neg]
      exact ⟨by linarith [r2.1], by linarith [r2.2],
        sector (by norm_num) (by push_cast; linarith) (by push_cast; linarith)⟩
  · intro area ha
    have hb : ringArea (base (drawsFor 3 0 l)) = 0 := by
      have : shoelace (base (drawsFor 3 0 l)) = 0 := by
        unfold base
        rw [drawsFor_length, show l.length = 3 from rfl, points_drawsFor (by norm_num), pts]
        simp only [List.take_succ_cons, List.take_zero, List.cons_append, List.nil_append, shoelace]
        ring
      unfold ringArea
      rw [this]
      simp
    unfold generateRandCell
    rw [if_neg (by norm_num), if_neg (by linarith), if_pos hb]
    rfl

/-- The hypotheses of C64 can be met. -/
example : ∃ ring : List RPoint, generateRandCell 100 4 square = .ok [ring] ∧ surveyed ring = 100 :=
  C64_exact_area 100 (1 / 2) 1 4 square (by norm_num) (by norm_num) draws_square (by norm_num)

/-! ## C72 -/

theorem genUntil_ok (want : Bool) (area : ℝ) (n : Int) (draws : Nat → List (ℝ × ℝ)) (c : Cell ℝ) :
    ∀ (fuel k : Nat), genUntil want area n draws fuel k = .ok c →
      ∃ m, k ≤ m ∧ m < k + fuel ∧ generateRandCell area n (draws m) = .ok c ∧ Cell.isConvex c = .ok want ∧
        ∀ j, k ≤ j → j < m → ∃ c', generateRandCell area n (draws j) = .ok c' ∧ Cell.isConvex c' = .ok (!want)
  | 0, k, h => by simp [genUntil] at h
  | fuel + 1, k, h => by
    unfold genUntil at h
    cases hc : generateRandCell area n (draws k) with
    | throw e => simp [hc] at h
    | ub m => simp [hc] at h
    | ok c' =>
      rw [hc, Outcome.ok_bind] at h
      cases hb : Cell.isConvex c' with
      | throw e => simp [hb] at h
      | ub m => simp [hb] at h
      | ok b =>
        rw [hb, Outcome.ok_bind] at h
        by_cases hw : b = want
        · rw [if_pos hw] at h
          simp only [Outcome.pure_eq, Outcome.ok.injEq] at h
          subst h hw
          exact ⟨k, le_refl _, by omega, hc, hb, fun j h1 h2 => by omega⟩
        · rw [if_neg hw] at h
          obtain ⟨m, m1, m2, m3, m4, m5⟩ := genUntil_ok want area n draws c fuel (k + 1) h
          refine ⟨m, by omega, by omega, m3, m4, ?_⟩
          intro j h1 h2
          by_cases hj : j = k
          · subst hj
            exact ⟨c', hc, by rw [hb]; cases b <;> cases want <;> simp_all⟩
          · exact m5 j (by omega) h2

theorem generateRandCell_ring {area : ℝ} {n : Int} {draws : List (ℝ × ℝ)} {c : Cell ℝ}
    (hn : (draws.length : Int) = n) (h : generateRandCell area n draws = .ok c) :
    ∃ cs : List RPoint, c = [cs ++ cs.take 1] ∧ 3 ≤ cs.length ∧ (cs.length : Int) = n ∧ 0 < area := by
  unfold generateRandCell at h
  split at h
  · cases h
  · split at h
    · cases h
    · split at h
      · cases h
      · rename_i h1 h2 h3
        simp only [Outcome.ok.injEq] at h
        refine ⟨scaleLine (points draws.length 0 draws) (Real.sqrt (area / ringArea (base draws))), ?_, ?_, ?_, ?_⟩
        · rw [← h]
          simp [scaleLines, scaleLine, forEachPoint, base, List.map_append, List.map_take]
        · simp only [scaleLine, forEachPoint, List.length_map, points_length]
          omega
        · simp only [scaleLine, forEachPoint, List.length_map, points_length]
          omega
        · linarith

/-- **C72**, what holds of convex cells: the cell returned is the first generated one that passes the test `isConvex`, and
if it has no straight corner, it turns to the same side at all corners except the one it starts with.  Missing: the first
corner (`C72_not_convex`). -/
theorem C72_convex_partial (area : ℝ) (n : Int) (draws : Nat → List (ℝ × ℝ)) (fuel : Nat) (c : Cell ℝ)
    (hn : ∀ k, ((draws k).length : Int) = n) (h : genConvexCell area n draws fuel = .ok c) :
    ∃ (k : Nat) (cs : List RPoint), c = [cs ++ cs.take 1] ∧ (cs.length : Int) = n ∧
      generateRandCell area n (draws k) = .ok c ∧
      (∀ j, j < k → ∃ c', generateRandCell area n (draws j) = .ok c' ∧ Cell.isConvex c' = .ok false) ∧
      (Geo.Bent (cs ++ cs.take 1) → ∃ s, Geo.Turning s (cs ++ cs.take 1)) := by
  obtain ⟨m, -, -, m3, m4, m5⟩ := genUntil_ok true area n draws c fuel 0 h
  obtain ⟨cs, rfl, c2, c3, -⟩ := generateRandCell_ring (hn m) m3
  refine ⟨m, cs, rfl, c3, m3, fun j hj => m5 j (by omega) hj, ?_⟩
  intro hb
  have ha : shoelace (cs ++ cs.take 1) ≠ 0 := by
    intro h0
    unfold Cell.isConvex at m4
    simp only [] at m4
    rw [if_pos (by right; rw [h0]; simp)] at m4
    simp at m4
  obtain ⟨r, r1, r2⟩ := C50_iff_partial cs c2 ha hb
  rw [m4] at r1
  exact r2.1 (by simpa using r1.symm)

/-- **C72**, non-convex cells: they have nine corners, and if their area is not 0 they do not turn to the same side at
all corners. -/
theorem C72_non_convex (area : ℝ) (draws : Nat → List (ℝ × ℝ)) (fuel : Nat) (c : Cell ℝ)
    (hn : ∀ k, (draws k).length = 9) (h : genNonConvexCell area draws fuel = .ok c) :
    ∃ (k : Nat) (cs : List RPoint), c = [cs ++ cs.take 1] ∧ cs.length = 9 ∧
      generateRandCell area 9 (draws k) = .ok c ∧
      (surveyed (cs ++ cs.take 1) ≠ 0 → ¬ ConvexCorners cs) := by
  obtain ⟨m, -, -, m3, m4, m5⟩ := genUntil_ok false area 9 draws c fuel 0 h
  obtain ⟨cs, rfl, c2, c3, -⟩ := generateRandCell_ring (by rw [hn m]; rfl) m3
  refine ⟨m, cs, rfl, by omega, m3, ?_⟩
  intro ha hc
  have ha' : shoelace (cs ++ cs.take 1) ≠ 0 := by
    intro h0
    rw [surveyed_eq] at ha
    unfold ringArea at ha
    rw [h0] at ha
    simp at ha
  rw [C50_convex cs c2 hc ha'] at m4
  simp at m4

/-- For the witness: four corners, with a dent at the first. -/
noncomputable def dent : List (ℝ × ℝ) := drawsFor 4 0 [
  (9 / 25 * Real.sqrt (1 + 1 ^ 2), 0 + Real.arctan 1),
  (9 / 10 * Real.sqrt (1 + 0 ^ 2), Real.pi / 2 + Real.arctan 0),
  (9 / 10 * Real.sqrt (1 + 0 ^ 2), Real.pi + Real.arctan 0),
  (9 / 10 * Real.sqrt (1 + (-(1 / 10)) ^ 2), (0 + 2 * Real.pi) + Real.arctan (-(1 / 10)))]

theorem base_dent : base dent =
    [⟨9 / 25, 9 / 25, 0⟩, ⟨9 / 10, 0, 0⟩, ⟨0, -(9 / 10), 0⟩, ⟨-(9 / 100), 9 / 10, 0⟩, ⟨9 / 25, 9 / 25, 0⟩] := by
  unfold base dent
  rw [drawsFor_length]
  simp only [List.length_cons, List.length_nil]
  rw [points_drawsFor (by norm_num)]
  simp only [List.map_cons, List.map_nil, polar_arctan, Real.sin_add_two_pi, Real.cos_add_two_pi]
  simp
  norm_num

theorem draws_dent : Draws 4 (1 / 2) 1 dent := by
  have hpi := Real.pi_pos
  refine ⟨by unfold dent; rw [drawsFor_length]; rfl, ?_⟩
  have r1 := sqrt_between (x := 1 + 1 ^ 2) (lo := 7 / 5) (hi := 25 / 9) (by norm_num) (by norm_num) (by norm_num)
    (by norm_num)
  have r2 := sqrt_between (x := 1 + (-(1 / 10)) ^ 2) (lo := 1) (hi := 10 / 9) (by norm_num) (by norm_num) (by norm_num)
    (by norm_num)
  have a1 : Real.arctan 1 = Real.pi / 4 := Real.arctan_one
  have a2 : Real.arctan (-(1 / 10)) < 0 := by
    rw [Real.arctan_neg]
    have : 0 < Real.arctan (1 / 10) := Real.arctan_pos.2 (by norm_num)
    linarith
  have a3 := Real.neg_pi_div_two_lt_arctan (-(1 / 10))
  have a4 : Real.arctan 0 = 0 := Real.arctan_zero
  intro d hd
  simp only [dent, drawsFor, List.mem_cons, List.not_mem_nil, or_false] at hd
  rcases hd with rfl | rfl | rfl | rfl
  · exact ⟨by linarith [r1.1], by linarith [r1.2],
      sector (by norm_num) (by push_cast; linarith) (by push_cast; linarith)⟩
  · exact ⟨by norm_num, by norm_num,
      sector (by norm_num) (by push_cast; linarith) (by push_cast; linarith)⟩
  · exact ⟨by norm_num, by norm_num,
      sector (by norm_num) (by push_cast; linarith) (by push_cast; linarith)⟩
  · exact ⟨by linarith [r2.1], by linarith [r2.2],
      sector (by norm_num) (by push_cast; linarith) (by push_cast; linarith)⟩

/-- **C72** is false: with default widths and random numbers that can be drawn, `genConvexCell` returns a cell with a
dent, at its first corner. -/
theorem C72_not_convex : ∃ (area : ℝ) (cs : List RPoint), 0 < area ∧ Draws 4 (1 / 2) 1 dent ∧
    genConvexCell area 4 (fun _ => dent) 1 = .ok [cs ++ cs.take 1] ∧ ¬ ConvexCorners cs := by
  have hr : ringArea (base dent) = 7857 / 10000 := by
    rw [base_dent]
    unfold ringArea
    simp only [shoelace]
    norm_num
  have hg : generateRandCell (7857 / 2500) 4 dent = .ok [[⟨18 / 25, 18 / 25, 0⟩, ⟨9 / 5, 0, 0⟩, ⟨0, -(9 / 5), 0⟩,
      ⟨-(9 / 50), 9 / 5, 0⟩, ⟨18 / 25, 18 / 25, 0⟩]] := by
    unfold generateRandCell
    rw [if_neg (by norm_num), if_neg (by norm_num), if_neg (by rw [hr]; norm_num), hr]
    rw [show (7857 / 2500 / (7857 / 10000) : ℝ) = 2 ^ 2 by norm_num, Real.sqrt_sq (by norm_num)]
    show Outcome.ok [scaleLine _ _] = _
    rw [scale_exact]
    · rw [base_dent]
      simp only [List.map_cons, List.map_nil, Point.smul]
      norm_num
    · intro p hp
      obtain ⟨x, hx, a, rfl⟩ := mem_base hp
      apply written
      have h1 := (draws_dent.2 x hx).1
      have h2 : |x.1| = x.1 := abs_of_nonneg (by linarith)
      rw [h2]
      norm_num
      linarith
  refine ⟨7857 / 2500, [⟨18 / 25, 18 / 25, 0⟩, ⟨9 / 5, 0, 0⟩, ⟨0, -(9 / 5), 0⟩, ⟨-(9 / 50), 9 / 5, 0⟩], by norm_num,
    draws_dent, ?_, ?_⟩
  · unfold genConvexCell genUntil
    rw [hg, Outcome.ok_bind]
    have ha : shoelace ([⟨18 / 25, 18 / 25, 0⟩, ⟨9 / 5, 0, 0⟩, ⟨0, -(9 / 5), 0⟩, ⟨-(9 / 50), 9 / 5, 0⟩] ++
        ([⟨18 / 25, 18 / 25, 0⟩, ⟨9 / 5, 0, 0⟩, ⟨0, -(9 / 5), 0⟩, ⟨-(9 / 50), 9 / 5, 0⟩] : List RPoint).take 1) ≠ 0 := by
      simp only [shoelace, List.take, List.append_eq, List.cons_append, List.nil_append]; norm_num
    have hp : Geo.Turning (-1) ([⟨18 / 25, 18 / 25, 0⟩, ⟨9 / 5, 0, 0⟩, ⟨0, -(9 / 5), 0⟩, ⟨-(9 / 50), 9 / 5, 0⟩] ++
        ([⟨18 / 25, 18 / 25, 0⟩, ⟨9 / 5, 0, 0⟩, ⟨0, -(9 / 5), 0⟩, ⟨-(9 / 50), 9 / 5, 0⟩] : List RPoint).take 1) := by
      simp only [List.take, List.append_eq, List.cons_append, List.nil_append, Geo.Turning, cross]
      norm_num
    obtain ⟨r, r1, r2⟩ := isConvex_iff ha (by simp) (F2C.Turning.bent hp)
    have hr : r = true := r2.2 ⟨_, hp⟩
    subst hr
    simp only [List.take, List.append_eq, List.cons_append, List.nil_append] at r1
    rw [r1, Outcome.ok_bind]
    rfl
  · rintro ⟨s, h⟩
    simp only [List.take, List.append_eq, List.cons_append, List.nil_append, Geo.Turning, cross] at h
    obtain ⟨h1, _, _, h4, _⟩ := h
    norm_num at h1 h4
    linarith

end F2C.Props
