import Mathlib.Tactic.Linarith
import Mathlib.Tactic.Ring
import Mathlib.Tactic.FieldSimp
import Mathlib.Tactic.Positivity
import Verif.Model.Random

/-! # Lemmas about random cells -/

set_option linter.unusedSimpArgs false
set_option linter.unusedVariables false

namespace F2C.Rand

theorem points_length (n : Nat) : ∀ (l : List (ℝ × ℝ)) (i : Nat), (points n i l).length = l.length
  | [], _ => rfl
  | d :: l, i => by simp [points, points_length n l (i + 1)]

/-- The corner products of consecutive points. -/
theorem corner_polar (r a r' a' : ℝ) :
    (polar r a).x * (polar r' a').y - (polar r' a').x * (polar r a).y = -(r * r' * Real.sin (a' - a)) := by
  simp only [polar, Real.sin_sub]
  ring

/-- A list of points in polar coordinates. -/
noncomputable def polars (l : List (ℝ × ℝ)) : List RPoint := l.map fun d => polar d.1 d.2

/-- Clockwise around the origin, with less than a half turn from each point to the next. -/
inductive Around : List (ℝ × ℝ) → Prop
  | one (d) : 0 < d.1 → Around [d]
  | cons (d e l) : 0 < d.1 → 0 < e.2 - d.2 → e.2 - d.2 < Real.pi → Around (e :: l) → Around (d :: e :: l)

theorem Around.head {d : ℝ × ℝ} {l : List (ℝ × ℝ)} (h : Around (d :: l)) : 0 < d.1 := by
  cases h <;> assumption

theorem Around.shoelace_nonpos : ∀ {l : List (ℝ × ℝ)}, Around l → shoelace (polars l) ≤ 0 := by
  intro l h
  induction h with
  | one d _ => simp [polars, shoelace]
  | cons d e l h1 h2 h3 h4 ih =>
    have he := h4.head
    have hs := Real.sin_pos_of_pos_of_lt_pi h2 h3
    show ((polar d.1 d.2).x * (polar e.1 e.2).y - (polar e.1 e.2).x * (polar d.1 d.2).y) +
      shoelace (polars (e :: l)) ≤ 0
    rw [corner_polar]
    have : 0 < d.1 * e.1 * Real.sin (e.2 - d.2) := by positivity
    linarith

theorem Around.shoelace_neg {d e : ℝ × ℝ} {l : List (ℝ × ℝ)} (h : Around (d :: e :: l)) :
    shoelace (polars (d :: e :: l)) < 0 := by
  cases h with
  | cons _ _ _ h1 h2 h3 h4 =>
    have he := h4.head
    have hs := Real.sin_pos_of_pos_of_lt_pi h2 h3
    have := h4.shoelace_nonpos
    show ((polar d.1 d.2).x * (polar e.1 e.2).y - (polar e.1 e.2).x * (polar d.1 d.2).y) +
      shoelace (polars (e :: l)) < 0
    rw [corner_polar]
    have : 0 < d.1 * e.1 * Real.sin (e.2 - d.2) := by positivity
    linarith

/-- Radius and angle of the points. -/
noncomputable def angles (n : Nat) : Nat → List (ℝ × ℝ) → List (ℝ × ℝ)
  | _, [] => []
  | i, d :: l => (d.1, 2 * Real.pi * ((i : ℝ) + d.2) / n) :: angles n (i + 1) l

theorem points_eq (n : Nat) : ∀ (l : List (ℝ × ℝ)) (i : Nat), points n i l = polars (angles n i l)
  | [], _ => rfl
  | d :: l, i => by
    simp only [points, angles, polars, List.map_cons]
    rw [points_eq n l (i + 1)]
    rfl

/-- The gap between two consecutive points, for four or more corners. -/
theorem gap {n : Nat} (hn : 4 ≤ n) (i : ℝ) (u v : ℝ) (hu : 0 ≤ u ∧ u < 1) (hv : 0 ≤ v ∧ v < 1) :
    0 < 2 * Real.pi * (i + 1 + v) / n - 2 * Real.pi * (i + u) / n ∧
      2 * Real.pi * (i + 1 + v) / n - 2 * Real.pi * (i + u) / n < Real.pi := by
  have hpi := Real.pi_pos
  have hn' : (4 : ℝ) ≤ n := by exact_mod_cast hn
  have hn0 : (0 : ℝ) < n := by linarith
  have he : 2 * Real.pi * (i + 1 + v) / n - 2 * Real.pi * (i + u) / n = 2 * Real.pi * (1 + v - u) / n := by ring
  rw [he]
  constructor
  · have : 0 < 1 + v - u := by linarith [hu.2, hv.1]
    positivity
  · rw [div_lt_iff₀ hn0]
    have h2 : 1 + v - u < 2 := by linarith [hu.1, hv.2]
    nlinarith

theorem around_angles {n : Nat} (hn : 4 ≤ n) (last : ℝ × ℝ) (hl : 0 < last.1 ∧ 0 ≤ last.2 ∧ last.2 < 1) :
    ∀ (l : List (ℝ × ℝ)) (i : Nat), (∀ d ∈ l, 0 < d.1 ∧ 0 ≤ d.2 ∧ d.2 < 1) →
      Around (angles n i l ++ [(last.1, 2 * Real.pi * (((i + l.length : Nat) : ℝ) + last.2) / n)])
  | [], i, _ => .one _ hl.1
  | [d], i, h => by
    have hd := h d (by simp)
    have := gap hn i d.2 last.2 hd.2 hl.2
    refine .cons _ _ _ hd.1 ?_ ?_ (.one _ hl.1)
    · simpa using this.1
    · simpa using this.2
  | d :: e :: l, i, h => by
    have hd := h d (by simp)
    have he := h e (by simp)
    have ih := around_angles hn last hl (e :: l) (i + 1) fun x hx => h x (List.mem_cons_of_mem _ hx)
    have hg := gap hn i d.2 e.2 hd.2 he.2
    have hlen : i + (d :: e :: l).length = i + 1 + (e :: l).length := by simp; omega
    rw [hlen]
    refine .cons _ _ _ hd.1 ?_ ?_ ih
    · simpa using hg.1
    · simpa using hg.2

theorem polar_period (r a : ℝ) : polar r (a + 2 * Real.pi) = polar r a := by
  simp [polar]

/-- A ring of four or more corners runs clockwise and has an area. -/
theorem base_neg (draws : List (ℝ × ℝ)) (hn : 4 ≤ draws.length)
    (h : ∀ d ∈ draws, 0 < d.1 ∧ 0 ≤ d.2 ∧ d.2 < 1) : shoelace (base draws) < 0 := by
  match draws, hn, h with
  | d :: e :: l, hn, h =>
    have hd := h d (by simp)
    have ha := around_angles hn d hd (d :: e :: l) 0 h
    have hb : base (d :: e :: l) = polars (angles (d :: e :: l).length 0 (d :: e :: l) ++
        [(d.1, 2 * Real.pi * (((0 + (d :: e :: l).length : Nat) : ℝ) + d.2) / (d :: e :: l).length)]) := by
      unfold base
      rw [points_eq]
      simp only [polars, List.map_append, List.map_cons, List.map_nil]
      congr 1
      simp only [angles, List.map_cons, List.take_succ_cons, List.take_zero]
      congr 1
      have h0 : (((d :: e :: l).length : Nat) : ℝ) ≠ 0 := by
        simp only [List.length_cons]
        positivity
      rw [← polar_period]
      congr 1
      field_simp
      push_cast
      ring
    rw [hb]
    exact ha.shoelace_neg

/-- Scaling multiplies the corner products by the square. -/
theorem shoelace_smul (k : ℝ) : ∀ l : List RPoint, shoelace (l.map fun p => p.smul k) = k ^ 2 * shoelace l
  | [] => by simp [shoelace]
  | [a] => by simp [shoelace]
  | a :: b :: l => by
    have ih := shoelace_smul k (b :: l)
    show ((a.smul k).x * (b.smul k).y - (b.smul k).x * (a.smul k).y) +
      shoelace ((b :: l).map fun p => p.smul k) = k ^ 2 * ((a.x * b.y - b.x * a.y) + shoelace (b :: l))
    rw [ih]
    simp only [Point.smul]
    ring

theorem ringArea_smul (k : ℝ) (l : List RPoint) : ringArea (l.map fun p => p.smul k) = k ^ 2 * ringArea l := by
  unfold ringArea
  rw [shoelace_smul, abs_mul, abs_of_nonneg (sq_nonneg k)]
  ring

/-- The ring with the requested area. -/
theorem ringArea_scaled {area : ℝ} (ha : 0 < area) (l : List RPoint) (h0 : ringArea l ≠ 0) :
    ringArea (l.map fun p => p.smul (Real.sqrt (area / ringArea l))) = area := by
  have hp : 0 < ringArea l := lt_of_le_of_ne (by unfold ringArea; positivity) (Ne.symm h0)
  rw [ringArea_smul, Real.sq_sqrt (by positivity)]
  field_simp

theorem near_iff (p q : RPoint) : Point.eqv p q = true ↔
    |p.x - q.x| < 1 / 10000000 ∧ |p.y - q.y| < 1 / 10000000 ∧ |p.z - q.z| < 1 / 10000000 := by
  simp [Point.eqv, Point.tol, and_assoc]

/-- What scaling through the iterator does to each point. -/
theorem scale_near (k : ℝ) (l : List RPoint) : List.Forall₂ (fun p q : RPoint => p = q ∨
    (|p.x - q.x| < 1 / 10000000 ∧ |p.y - q.y| < 1 / 10000000)) (scaleLine l k) (l.map fun p => p.smul k) := by
  unfold scaleLine forEachPoint
  rw [List.forall₂_map_left_iff, List.forall₂_map_right_iff]
  refine List.forall₂_same.2 fun p _ => ?_
  split
  · rename_i h
    rw [near_iff] at h
    exact .inr ⟨h.1, h.2.1⟩
  · exact .inl rfl

/-- Points far enough from the origin are scaled exactly. -/
theorem scale_exact (k : ℝ) (l : List RPoint) (h : ∀ p ∈ l, Point.eqv p (p.smul k) = false) :
    scaleLine l k = l.map fun p => p.smul k := by
  unfold scaleLine forEachPoint
  refine List.map_congr_left fun p hp => ?_
  rw [h p hp]
  simp

theorem mem_points {n : Nat} : ∀ {l : List (ℝ × ℝ)} {i : Nat} {p : RPoint}, p ∈ points n i l →
    ∃ d ∈ l, ∃ a, p = polar d.1 a
  | [], _, _, h => by simp [points] at h
  | d :: l, i, p, h => by
    simp only [points, List.mem_cons] at h
    rcases h with rfl | h
    · exact ⟨d, by simp, _, rfl⟩
    · obtain ⟨e, he, a, rfl⟩ := mem_points h
      exact ⟨e, List.mem_cons_of_mem _ he, a, rfl⟩

theorem mem_base {draws : List (ℝ × ℝ)} {p : RPoint} (h : p ∈ base draws) : ∃ d ∈ draws, ∃ a, p = polar d.1 a := by
  unfold base at h
  rw [List.mem_append] at h
  rcases h with h | h
  · exact mem_points h
  · exact mem_points (List.mem_of_mem_take h)

/-- A point is written back if its radius times the change of scale is at least `2e-7`. -/
theorem written {r a k : ℝ} (h : 2 / 10000000 ≤ |k - 1| * |r|) : Point.eqv (polar r a) ((polar r a).smul k) = false := by
  rw [Bool.eq_false_iff, ne_eq, near_iff]
  rintro ⟨h1, h2, -⟩
  simp only [polar, Point.smul] at h1 h2
  rw [show r * Real.sin a - r * Real.sin a * k = -(r * (k - 1) * Real.sin a) by ring, abs_neg] at h1
  rw [show r * Real.cos a - r * Real.cos a * k = -(r * (k - 1) * Real.cos a) by ring, abs_neg] at h2
  have e : 2 / 10000000 ≤ |r * (k - 1)| := by rw [abs_mul]; linarith [mul_comm |k - 1| |r|]
  have s1 : (r * (k - 1) * Real.sin a) ^ 2 < (1 / 10000000) ^ 2 := sq_lt_sq' (by linarith [(abs_lt.1 h1).1]) (abs_lt.1 h1).2
  have s2 : (r * (k - 1) * Real.cos a) ^ 2 < (1 / 10000000) ^ 2 := sq_lt_sq' (by linarith [(abs_lt.1 h2).1]) (abs_lt.1 h2).2
  have s3 : (2 / 10000000) ^ 2 ≤ (r * (k - 1)) ^ 2 := by
    rw [← sq_abs (r * (k - 1))]
    exact pow_le_pow_left₀ (by norm_num) e 2
  have s4 := Real.sin_sq_add_cos_sq a
  have : (r * (k - 1)) ^ 2 = (r * (k - 1) * Real.sin a) ^ 2 + (r * (k - 1) * Real.cos a) ^ 2 := by
    linear_combination (-(r * (k - 1)) ^ 2) * s4
  norm_num at s1 s2 s3
  linarith

/-- The area of the ring before scaling is at most half of `n * R^2`. -/
theorem shoelace_polars_le {R : ℝ} (hR : 0 ≤ R) : ∀ l : List (ℝ × ℝ), (∀ d ∈ l, 0 ≤ d.1 ∧ d.1 ≤ R) →
    |shoelace (polars l)| ≤ ((l.length - 1 : Nat) : ℝ) * R ^ 2
  | [], _ => by simp [polars, shoelace]
  | [d], _ => by simp [polars, shoelace]
  | d :: e :: l, h => by
    have ih := shoelace_polars_le hR (e :: l) fun x hx => h x (List.mem_cons_of_mem _ hx)
    have hd := h d (by simp)
    have he := h e (by simp)
    show |((polar d.1 d.2).x * (polar e.1 e.2).y - (polar e.1 e.2).x * (polar d.1 d.2).y) +
      shoelace (polars (e :: l))| ≤ _
    rw [corner_polar]
    have h1 : |-(d.1 * e.1 * Real.sin (e.2 - d.2))| ≤ R ^ 2 := by
      rw [abs_neg, abs_mul, abs_of_nonneg (mul_nonneg hd.1 he.1)]
      calc d.1 * e.1 * |Real.sin (e.2 - d.2)| ≤ d.1 * e.1 * 1 :=
            mul_le_mul_of_nonneg_left (Real.abs_sin_le_one _) (mul_nonneg hd.1 he.1)
        _ ≤ R * R := by rw [mul_one]; exact mul_le_mul hd.2 he.2 he.1 hR
        _ = R ^ 2 := by ring
    have h2 := abs_add_le (-(d.1 * e.1 * Real.sin (e.2 - d.2))) (shoelace (polars (e :: l)))
    simp only [List.length_cons, Nat.add_sub_cancel] at ih ⊢
    push_cast
    linarith

theorem ringArea_base_le {R : ℝ} (hR : 0 ≤ R) (draws : List (ℝ × ℝ)) (h : ∀ d ∈ draws, 0 ≤ d.1 ∧ d.1 ≤ R) :
    ringArea (base draws) ≤ draws.length * R ^ 2 / 2 := by
  have hb : base draws = polars (angles draws.length 0 draws ++ (angles draws.length 0 draws).take 1) := by
    unfold base polars
    rw [points_eq, List.map_append, List.map_take]
    rfl
  have hang : ∀ (l : List (ℝ × ℝ)) (n i : Nat), (∀ d ∈ l, 0 ≤ d.1 ∧ d.1 ≤ R) → ∀ d ∈ angles n i l, 0 ≤ d.1 ∧ d.1 ≤ R := by
    intro l n
    induction l with
    | nil => intro i _ d hd; simp [angles] at hd
    | cons x l ih =>
      intro i hx d hd
      simp only [angles, List.mem_cons] at hd
      rcases hd with rfl | hd
      · exact hx x (by simp)
      · exact ih (i + 1) (fun y hy => hx y (List.mem_cons_of_mem _ hy)) d hd
  have hlen : ∀ (l : List (ℝ × ℝ)) (n i : Nat), (angles n i l).length = l.length := by
    intro l n
    induction l with
    | nil => intro i; rfl
    | cons x l ih => intro i; simp [angles, ih]
  have := shoelace_polars_le hR (angles draws.length 0 draws ++ (angles draws.length 0 draws).take 1) (by
    intro d hd
    rw [List.mem_append] at hd
    rcases hd with hd | hd
    · exact hang _ _ _ h d hd
    · exact hang _ _ _ h d (List.mem_of_mem_take hd))
  unfold ringArea
  rw [hb]
  have hl : ((angles draws.length 0 draws ++ (angles draws.length 0 draws).take 1).length - 1) ≤ draws.length := by
    simp only [List.length_append, hlen, List.length_take]
    omega
  have hl' : (((angles draws.length 0 draws ++ (angles draws.length 0 draws).take 1).length - 1 : Nat) : ℝ) ≤
      draws.length := by exact_mod_cast hl
  have := mul_le_mul_of_nonneg_right hl' (sq_nonneg R)
  linarith

end F2C.Rand
