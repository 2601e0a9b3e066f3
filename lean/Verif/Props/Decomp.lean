import Mathlib.Tactic.NormNum
import Verif.Lemmas.Decomp
import Verif.Lemmas.Geom

/-! # C78-C80: decompositions -/

namespace F2C.Props

open F2C.Decomp F2C.Props.SG F2C.Props.DecompSpec

/-- **C78**, what is returned: nothing, or a line from `p` to the nearest point of the pieces that is more
than 1e-5 away. -/
theorem C78_nearest (p : RPoint) (i : Inter) (hi : LinesOnly i) :
    (lineUntilBorder p i = [] ∧ ∀ l ∈ pieces i, ∀ q ∈ l, pdist q p ≤ 1 / 100000) ∨
    ∃ e, lineUntilBorder p i = [p, e] ∧ (∃ l ∈ pieces i, e ∈ l) ∧ 1 / 100000 < pdist e p ∧
      ∀ l ∈ pieces i, ∀ q ∈ l, 1 / 100000 < pdist q p → pdist e p ≤ pdist q p := by
  have h := nearer_fold p i.append.flatten none (by simp)
  cases hr : i.append.flatten.foldl (nearer p) none with
  | none =>
    rw [hr] at h
    exact .inl ⟨by simp [lineUntilBorder, hr],
      fun l hl q hq => h.2 q ((append_of_linesOnly hi).2 ⟨l, hl, hq⟩)⟩
  | some e =>
    rw [hr] at h
    obtain ⟨h1, h2, -, h4⟩ := h
    refine .inr ⟨e, by simp [lineUntilBorder, hr, not_eqv_of_far h2], ?_, h2,
      fun l hl q hq => h4 q ((append_of_linesOnly hi).2 ⟨l, hl, hq⟩)⟩
    rcases h1 with h1 | h1
    · exact (append_of_linesOnly hi).1 h1
    · cases h1

/-- **C78**, partial: if the ray enters the cell at `p` and meets it in lines only, a line is returned, it
goes in the given direction and lies in the cell.  Missing: rays that also
touch the cell in isolated points (`C78_touching_ray`) and stretches shorter than 1e-5 (`C78_leaves_cell`). -/
theorem C78_inside_partial (region : Set (ℝ × ℝ)) (p : RPoint) (θ len ε : ℝ) (i : Inter)
    (hi : LinesOnly i) (hc : RayCut region p θ len i) (hε : 1 / 100000 < ε) (hlen : ε ≤ len)
    (hin : ∀ t, 0 ≤ t → t ≤ ε → ray p θ t ∈ region) :
    ∃ e t, lineUntilBorder p i = [p, e] ∧ 1 / 100000 < t ∧ t ≤ len ∧ xy e = ray p θ t ∧
      ∀ s, 0 ≤ s → s ≤ t → ray p θ s ∈ region := by
  have hε0 : (0 : ℝ) < ε := by linarith
  have hno : isolated i = [] := by rcases hi with ⟨_, rfl⟩ | ⟨_, rfl⟩ <;> rfl
  have cover : ∀ t, 0 ≤ t → t ≤ ε → ∃ l ∈ pieces i, ∃ q, OnLine l q ∧ xy q = ray p θ t := by
    intro t h0 h1
    simpa [hno] using hc.complete t h0 (h1.trans hlen) (hin t h0 h1)
  have key : ∀ τ, 1 / 100000 < τ → τ ≤ ε → ∃ lo hi', lo ≤ τ ∧ τ ≤ hi' ∧
      (∃ l ∈ pieces i, ∃ q ∈ l, xy q = ray p θ lo ∧ 0 ≤ lo) ∧
      (∃ l ∈ pieces i, ∃ q ∈ l, xy q = ray p θ hi' ∧ 0 ≤ hi') ∧
      ∀ s, lo ≤ s → s ≤ hi' → ray p θ s ∈ region := by
    intro τ h1 h2
    obtain ⟨l, hl, q, hq, hqt⟩ := cover τ (by linarith) h2
    obtain ⟨a, ha, b, hb, ⟨k, hk0, hk1, hkx, hky⟩, hall⟩ := OnLine.segment hq
    obtain ⟨ta, ta0, -, hta⟩ := hc.onRay l hl a ha
    obtain ⟨tb, tb0, -, htb⟩ := hc.onRay l hl b hb
    have hax : a.x = p.x + ta * Real.cos θ := congrArg Prod.fst hta
    have hay : a.y = p.y + ta * Real.sin θ := congrArg Prod.snd hta
    have hbx : b.x = p.x + tb * Real.cos θ := congrArg Prod.fst htb
    have hby : b.y = p.y + tb * Real.sin θ := congrArg Prod.snd htb
    have hqx : q.x = p.x + τ * Real.cos θ := congrArg Prod.fst hqt
    have hqy : q.y = p.y + τ * Real.sin θ := congrArg Prod.snd hqt
    have hτ : τ = ta + k * (tb - ta) := by
      have e1 : (τ - (ta + k * (tb - ta))) * Real.cos θ = 0 := by
        rw [hqx, hax, hbx] at hkx; linear_combination hkx
      have e2 : (τ - (ta + k * (tb - ta))) * Real.sin θ = 0 := by
        rw [hqy, hay, hby] at hky; linear_combination hky
      linear_combination Real.cos θ * e1 + Real.sin θ * e2 -
        (τ - (ta + k * (tb - ta))) * Real.sin_sq_add_cos_sq θ
    have seg : ∀ s m : ℝ, 0 ≤ m → m ≤ 1 → s = ta + m * (tb - ta) → ray p θ s ∈ region := by
      intro s m hm0 hm1 hs
      have := hc.inside l hl ⟨p.x + s * Real.cos θ, p.y + s * Real.sin θ, 0⟩
        (hall _ ⟨m, hm0, hm1, by simp only [hax, hbx, hs]; ring, by simp only [hay, hby, hs]; ring⟩)
      exact this
    have between : ∀ s, min ta tb ≤ s → s ≤ max ta tb → ray p θ s ∈ region := by
      intro s hs1 hs2
      rcases eq_or_ne ta tb with e | ne
      · subst e
        simp only [min_self, max_self] at hs1 hs2
        exact seg s 0 le_rfl zero_le_one (by linarith)
      · refine seg s ((s - ta) / (tb - ta)) ?_ ?_ ?_
        · rcases lt_or_gt_of_ne ne with h | h
          · rw [min_eq_left h.le] at hs1; exact div_nonneg (by linarith) (by linarith)
          · rw [max_eq_left h.le] at hs2; exact div_nonneg_of_nonpos (by linarith) (by linarith)
        · rcases lt_or_gt_of_ne ne with h | h
          · rw [max_eq_right h.le] at hs2; exact (div_le_one (by linarith)).2 (by linarith)
          · rw [min_eq_right h.le] at hs1; exact (div_le_one_of_neg (by linarith)).2 (by linarith)
        · have : tb - ta ≠ 0 := sub_ne_zero.2 ne.symm
          rw [div_mul_cancel₀ _ this]; ring
    rcases le_total ta tb with h | h
    · rw [min_eq_left h, max_eq_right h] at between
      exact ⟨ta, tb, by nlinarith, by nlinarith, ⟨l, hl, a, ha, hta, ta0⟩, ⟨l, hl, b, hb, htb, tb0⟩, between⟩
    · rw [min_eq_right h, max_eq_left h] at between
      exact ⟨tb, ta, by nlinarith, by nlinarith, ⟨l, hl, b, hb, htb, tb0⟩, ⟨l, hl, a, ha, hta, ta0⟩, between⟩
  rcases C78_nearest p i hi with ⟨-, hno⟩ | ⟨e, he, ⟨le, hle, hel⟩, hfar, hmin⟩
  · obtain ⟨lo, hi', -, h2, -, ⟨l, hl, q, hq, hqt, h0⟩, -⟩ := key ε hε le_rfl
    have := hno l hl q hq
    rw [pdist_ray h0 hqt] at this
    linarith
  · obtain ⟨t, t0, tlen, ht⟩ := hc.onRay le hle e hel
    rw [pdist_ray t0 ht] at hfar hmin
    refine ⟨e, t, he, hfar, tlen, ht, fun s s0 st => ?_⟩
    rcases le_or_gt s ε with hsε | hsε
    · exact hin s s0 hsε
    · obtain ⟨lo, hi', h1, h2, ⟨l, hl, q, hq, hqt, q0⟩, ⟨l', hl', q', hq', hqt', q0'⟩, hb⟩ := key ε hε le_rfl
      have hhi := hmin l' hl' q' hq' (by rw [pdist_ray q0' hqt']; linarith)
      rw [pdist_ray q0' hqt'] at hhi
      exact hb s (by linarith) (by linarith)

/-- A point with z = 0. -/
def pt (x y : ℝ) : RPoint := ⟨x, y, 0⟩

theorem pdist_x (a b y : ℝ) (h : b ≤ a) : pdist (pt a y) (pt b y) = a - b := by
  rw [pdist_ray (θ := 0) (t := a - b) (by linarith) (by simp [xy, ray, pt])]

theorem onLine_x {a b y : ℝ} (h : a ≤ b) (q : RPoint) :
    OnLine [pt a y, pt b y] q ↔ a ≤ q.x ∧ q.x ≤ b ∧ q.y = y := by
  simp only [OnLine, or_false, OnSegment, pt]
  constructor
  · rintro ⟨t, h0, h1, hx, hy⟩
    refine ⟨by nlinarith, by nlinarith, by linarith⟩
  · rintro ⟨h0, h1, hy⟩
    rcases eq_or_lt_of_le h with rfl | h
    · exact ⟨0, le_rfl, zero_le_one, by linarith, by linarith⟩
    · have : b - a ≠ 0 := by linarith
      exact ⟨(q.x - a) / (b - a), div_nonneg (by linarith) (by linarith),
        (div_le_one (by linarith)).2 (by linarith), by rw [div_mul_cancel₀ _ this]; ring, by rw [hy]; ring⟩

/-- The square with corners (0, 0) and (2, 2), seen from the middle of its left border. -/
def squarePlot : Set (ℝ × ℝ) := {q | 0 ≤ q.1 ∧ q.1 ≤ 2 ∧ 0 ≤ q.2 ∧ q.2 ≤ 2}

/-- The hypotheses of `C78_inside_partial` are met by a ray across the square. -/
example : ∃ e t, lineUntilBorder (pt 0 1) (.line [pt 0 1, pt 2 1]) = [pt 0 1, e] ∧ 1 / 100000 < t ∧
    t ≤ 4 ∧ xy e = ray (pt 0 1) 0 t ∧ ∀ s, 0 ≤ s → s ≤ t → ray (pt 0 1) 0 s ∈ squarePlot := by
  refine C78_inside_partial squarePlot (pt 0 1) 0 4 2 _ (.inl ⟨_, rfl⟩) ⟨?_, ?_, ?_, ?_, ?_⟩
    (by norm_num) (by norm_num) ?_
  · simp only [pieces, List.mem_singleton, forall_eq, List.mem_cons, List.not_mem_nil, or_false]
    rintro q (rfl | rfl)
    · exact ⟨0, by norm_num, by norm_num, by simp [xy, ray, pt]⟩
    · exact ⟨2, by norm_num, by norm_num, by simp [xy, ray, pt]⟩
  · simp only [pieces, List.mem_singleton, forall_eq]
    intro q hq
    obtain ⟨h1, h2, h3⟩ := (onLine_x (by norm_num) q).1 hq
    exact ⟨h1, h2, by simp [xy, h3], by simp only [xy, h3]; norm_num⟩
  · intro t h0 h1 hr
    refine .inl ⟨_, List.mem_singleton_self _, pt t 1, (onLine_x (by norm_num) _).2 ⟨h0, ?_, rfl⟩, by simp [xy, ray, pt]⟩
    have := hr.2.1
    simpa [ray, pt] using this
  · simp [isolated]
  · simp
  · intro t h0 h1
    refine ⟨?_, ?_, ?_, ?_⟩ <;> simp [ray, pt] <;> linarith

/-- A block, a foot below it and a spike on the foot whose tip is at (3, 0). -/
def blockAndSpike : Set (ℝ × ℝ) := {q | (0 ≤ q.1 ∧ q.1 ≤ 1 ∧ -2 ≤ q.2 ∧ q.2 ≤ 1) ∨
  (0 ≤ q.1 ∧ q.1 ≤ 4 ∧ -2 ≤ q.2 ∧ q.2 ≤ -1) ∨ (-1 ≤ q.2 ∧ q.2 ≤ 0 ∧ |q.1 - 3| ≤ -q.2 / 2)}

theorem blockAndSpike_ray (t : ℝ) (h : 0 ≤ t) :
    ray (pt 0 0) 0 t ∈ blockAndSpike ↔ t ≤ 1 ∨ t = 3 := by
  simp only [blockAndSpike, ray, pt, Real.cos_zero, Real.sin_zero, Set.mem_ofPred_eq]
  constructor
  · rintro (⟨-, h1, -⟩ | ⟨-, -, -, h1⟩ | ⟨-, -, h1⟩)
    · exact .inl (by linarith)
    · norm_num at h1
    · right
      have h2 := abs_le.1 h1
      linarith [h2.1, h2.2]
  · rintro (h1 | rfl)
    · exact .inl ⟨by linarith, by linarith, by norm_num, by norm_num⟩
    · exact .inr (.inr ⟨by norm_num, by norm_num, by norm_num⟩)

/-- **C78** is false: the ray crosses the block for a metre, but as it also touches the tip of the spike the
intersection is a geometry collection and no line is returned. -/
theorem C78_touching_ray : ∃ (region : Set (ℝ × ℝ)) (i : Inter), RayCut region (pt 0 0) 0 4 i ∧
    (∀ t, 0 ≤ t → t ≤ 1 → ray (pt 0 0) 0 t ∈ region) ∧ lineUntilBorder (pt 0 0) i = [] := by
  refine ⟨blockAndSpike, .collection [pt 3 0] [[pt 0 0, pt 1 0]], ⟨?_, ?_, ?_, ?_, ?_⟩,
    fun t h0 h1 => (blockAndSpike_ray t h0).2 (.inl h1), rfl⟩
  · simp only [pieces, List.mem_singleton, forall_eq, List.mem_cons, List.not_mem_nil, or_false]
    rintro q (rfl | rfl)
    · exact ⟨0, by norm_num, by norm_num, by simp [xy, ray, pt]⟩
    · exact ⟨1, by norm_num, by norm_num, by simp [xy, ray, pt]⟩
  · simp only [pieces, List.mem_singleton, forall_eq]
    intro q hq
    obtain ⟨h1, h2, h3⟩ := (onLine_x (by norm_num) q).1 hq
    have := (blockAndSpike_ray q.x h1).2 (.inl h2)
    simpa [ray, pt, xy, h3] using this
  · intro t h0 h1 hr
    rcases (blockAndSpike_ray t h0).1 hr with h | rfl
    · exact .inl ⟨_, List.mem_singleton_self _, pt t 0, (onLine_x (by norm_num) _).2 ⟨h0, h, rfl⟩,
        by simp [xy, ray, pt]⟩
    · exact .inr ⟨pt 3 0, by simp [isolated], by simp [xy, ray, pt]⟩
  · simp only [isolated, pieces, List.mem_singleton, forall_eq]
    refine ⟨?_, fun c hc h => ?_⟩
    · have := (blockAndSpike_ray 3 (by norm_num)).2 (.inr rfl)
      simpa [ray, pt, xy] using this
    · have h1 := ((onLine_x (by norm_num) c).1 hc).2.1
      have h2 : c.x = 3 := congrArg Prod.fst h
      linarith
  · rintro ps ls h
    cases h
    simp

/-- A thin post (5e-6 wide), a foot and a block. -/
def postAndBlock : Set (ℝ × ℝ) := {q | (0 ≤ q.1 ∧ q.1 ≤ 1 / 200000 ∧ -2 ≤ q.2 ∧ q.2 ≤ 1) ∨
  (0 ≤ q.1 ∧ q.1 ≤ 3 ∧ -2 ≤ q.2 ∧ q.2 ≤ -1) ∨ (2 ≤ q.1 ∧ q.1 ≤ 3 ∧ -2 ≤ q.2 ∧ q.2 ≤ 1)}

theorem postAndBlock_ray (t : ℝ) (h : 0 ≤ t) :
    ray (pt 0 0) 0 t ∈ postAndBlock ↔ t ≤ 1 / 200000 ∨ (2 ≤ t ∧ t ≤ 3) := by
  simp only [postAndBlock, ray, pt, Real.cos_zero, Real.sin_zero, Set.mem_ofPred_eq]
  constructor
  · rintro (⟨-, h1, -⟩ | ⟨-, -, -, h1⟩ | ⟨h1, h2, -⟩)
    · exact .inl (by linarith)
    · norm_num at h1
    · exact .inr ⟨by linarith, by linarith⟩
  · rintro (h1 | ⟨h1, h2⟩)
    · exact .inl ⟨by linarith, by linarith, by norm_num, by norm_num⟩
    · exact .inr (.inr ⟨by linarith, by linarith, by norm_num, by norm_num⟩)

/-- **C78** is false: the first stretch is shorter than 1e-5, so the line ends at the next one and runs
outside the cell in between. -/
theorem C78_leaves_cell : ∃ (region : Set (ℝ × ℝ)) (i : Inter), LinesOnly i ∧
    RayCut region (pt 0 0) 0 4 i ∧ xy (pt 0 0) ∈ region ∧
    lineUntilBorder (pt 0 0) i = [pt 0 0, pt 2 0] ∧ ray (pt 0 0) 0 1 ∉ region := by
  refine ⟨postAndBlock, .lines [[pt 0 0, pt (1 / 200000) 0], [pt 2 0, pt 3 0]], .inr ⟨_, rfl⟩,
    ⟨?_, ?_, ?_, ?_, ?_⟩, ?_, ?_, ?_⟩
  · simp only [pieces, List.mem_cons, List.not_mem_nil, or_false]
    rintro l (rfl | rfl) q hq <;> simp only [List.mem_cons, List.not_mem_nil, or_false] at hq <;>
      rcases hq with rfl | rfl
    · exact ⟨0, by norm_num, by norm_num, by simp [xy, ray, pt]⟩
    · exact ⟨1 / 200000, by norm_num, by norm_num, by simp [xy, ray, pt]⟩
    · exact ⟨2, by norm_num, by norm_num, by simp [xy, ray, pt]⟩
    · exact ⟨3, by norm_num, by norm_num, by simp [xy, ray, pt]⟩
  · simp only [pieces, List.mem_cons, List.not_mem_nil, or_false]
    rintro l (rfl | rfl) q hq
    · obtain ⟨h1, h2, h3⟩ := (onLine_x (by norm_num) q).1 hq
      have := (postAndBlock_ray q.x h1).2 (.inl h2)
      simpa [ray, pt, xy, h3] using this
    · obtain ⟨h1, h2, h3⟩ := (onLine_x (by norm_num) q).1 hq
      have := (postAndBlock_ray q.x (by linarith)).2 (.inr ⟨h1, h2⟩)
      simpa [ray, pt, xy, h3] using this
  · intro t h0 h1 hr
    rcases (postAndBlock_ray t h0).1 hr with h | h
    · exact .inl ⟨_, List.mem_cons_self, pt t 0, (onLine_x (by norm_num) _).2 ⟨h0, h, rfl⟩,
        by simp [xy, ray, pt]⟩
    · exact .inl ⟨_, List.mem_cons_of_mem _ List.mem_cons_self, pt t 0,
        (onLine_x (by norm_num) _).2 ⟨h.1, h.2, rfl⟩, by simp [xy, ray, pt]⟩
  · simp [isolated]
  · simp
  · have := (postAndBlock_ray 0 le_rfl).2 (.inl (by norm_num))
    simpa [ray, pt, xy] using this
  · have hfar : pdist (pt 2 0) (pt 0 0) = 2 := by rw [pdist_x 2 0 0 (by norm_num)]; norm_num
    rcases C78_nearest (pt 0 0) (.lines [[pt 0 0, pt (1 / 200000) 0], [pt 2 0, pt 3 0]]) (.inr ⟨_, rfl⟩) with
      ⟨-, h⟩ | ⟨e, he, ⟨l, hl, hel⟩, h1, h2⟩
    · have := h [pt 2 0, pt 3 0] (by simp [pieces]) (pt 2 0) (by simp)
      rw [hfar] at this
      norm_num at this
    · have h3 := h2 [pt 2 0, pt 3 0] (by simp [pieces]) (pt 2 0) (by simp) (by rw [hfar]; norm_num)
      rw [hfar] at h3
      simp only [pieces, List.mem_cons, List.not_mem_nil, or_false] at hl
      rcases hl with rfl | rfl <;> simp only [List.mem_cons, List.not_mem_nil, or_false] at hel <;>
        rcases hel with rfl | rfl
      · rw [pdist_x 0 0 0 le_rfl] at h1; norm_num at h1
      · rw [pdist_x _ 0 0 (by norm_num)] at h1; norm_num at h1
      · exact he
      · rw [pdist_x 3 0 0 (by norm_num)] at h3; norm_num at h3
  · rw [postAndBlock_ray 1 zero_le_one]
    norm_num

/-- **C79**: split lines are straight: the trapezoidal decomposition makes lines of two points or none. -/
theorem C79_straight_lines (inter : RPoint → Bool → Inter) (cells : Cells ℝ) :
    ∀ l ∈ trapezoidalLines (fun p b => lineUntilBorder p (inter p b)) cells, List.length l ≤ 2 := by
  intro l hl
  simp only [trapezoidalLines, List.mem_flatMap, List.mem_cons, List.not_mem_nil, or_false] at hl
  obtain ⟨p, -, rfl | rfl⟩ := hl <;>
  · unfold lineUntilBorder
    split
    · simp
    · split <;> simp

/-- **C79**, partial: a decomposition adds nothing to the field and loses only points within 1e-8 of the
split lines.  Missing: that it loses nothing (`C79_gap`). -/
theorem C79_thin_gaps_partial (diff : Set RPoint → Set RPoint → Set RPoint)
    (around : List RPoint → Set RPoint) (hd : IsDiff diff) (hb : IsBuffer (1 / 100000000) around)
    (region : Set RPoint) (lines : List (List RPoint)) (hstraight : ∀ l ∈ lines, List.length l ≤ 2) :
    decompose diff around region lines ⊆ region ∧
    ∀ q ∈ region, (∀ l ∈ lines, ¬ Near (1 / 100000000) l q) → q ∈ decompose diff around region lines := by
  simp only [decompose, splitByLines]
  have hsub : ∀ l ∈ (if lines.all List.isEmpty then [] else lines), l ∈ lines := by
    intro l hl
    split at hl
    · simp at hl
    · exact hl
  replace hstraight := fun l hl => hstraight l (hsub l hl)
  suffices h : ∀ ls : List (List RPoint), (∀ l ∈ ls, List.length l ≤ 2) →
      ls.foldl (splitByLine diff around) region ⊆ region ∧
      ∀ q ∈ region, (∀ l ∈ ls, ¬ Near (1 / 100000000) l q) → q ∈ ls.foldl (splitByLine diff around) region by
    obtain ⟨h1, h2⟩ := h _ hstraight
    exact ⟨h1, fun q hq hn => h2 q hq fun l hl => hn l (hsub l hl)⟩
  clear hstraight hsub
  intro lines hstraight
  induction lines generalizing region with
  | nil => exact ⟨fun q h => h, fun q h _ => h⟩
  | cons l ls ih =>
    obtain ⟨h1, h2⟩ := ih (splitByLine diff around region l) (fun m hm => hstraight m (List.mem_cons_of_mem _ hm))
    refine ⟨fun q hq => hd.sub _ _ (h1 hq), fun q hq hn => h2 q ?_ fun m hm => hn m (List.mem_cons_of_mem _ hm)⟩
    exact hd.keeps _ _ _ hq fun hc => hn l List.mem_cons_self ((hb l q).1 (hstraight l List.mem_cons_self) hc)

/-- **C79** is false: whatever is within 9e-9 of a point of a split line, and closer to it than the corners and ends
of the line, is lost, as the cells are not widened again.  So a field is never the union of its parts if a split
line meets it. -/
theorem C79_gap (diff : Set RPoint → Set RPoint → Set RPoint)
    (around : List RPoint → Set RPoint) (hd : IsDiff diff) (hb : IsBuffer (1 / 100000000) around)
    (region : Set RPoint) (lines : List (List RPoint)) (l : List RPoint) (hl : l ∈ lines) (q c : RPoint)
    (hc : OnLine l c) (hq : pdist c q < 9 / 1000000000) (he : ∀ e ∈ l, pdist c q < pdist c e) :
    q ∉ decompose diff around region lines := by
  have keep : ∀ (ls : List (List RPoint)) (r : Set RPoint), q ∉ r →
      q ∉ ls.foldl (splitByLine diff around) r := by
    intro ls
    induction ls with
    | nil => exact fun r h => h
    | cons a ls ih => exact fun r h => ih _ fun hm => h (hd.sub _ _ hm)
  obtain ⟨δ, hδ, hle⟩ : ∃ δ > 0, ∀ e ∈ l, pdist c q + δ ≤ pdist c e := by
    clear hl hc
    induction l with
    | nil => exact ⟨1, one_pos, by simp⟩
    | cons e l ih =>
      obtain ⟨δ, h1, h2⟩ := ih fun e he' => he e (List.mem_cons_of_mem _ he')
      have h3 := he e List.mem_cons_self
      refine ⟨min δ (pdist c e - pdist c q), lt_min h1 (by linarith), fun e' he' => ?_⟩
      rcases List.mem_cons.1 he' with rfl | he'
      · linarith [min_le_right δ (pdist c e' - pdist c q)]
      · linarith [min_le_left δ (pdist c e - pdist c q), h2 e' he']
  have gone : ∀ r, q ∉ splitByLine diff around r l := by
    intro r
    refine hd.takes _ _ _ (min δ (9 / 1000000000 - pdist c q)) (lt_min hδ (by linarith)) fun d hdq =>
      (hb l d).2 ⟨c, hc, ?_, fun e hel => ?_⟩
    · have := pdist_triangle c q d
      rw [pdist_comm q d] at this
      linarith [min_le_right δ (9 / 1000000000 - pdist c q)]
    · have := pdist_triangle c q d
      rw [pdist_comm q d] at this
      linarith [min_le_left δ (9 / 1000000000 - pdist c q), hle e hel]
  have hl0 : l ≠ [] := by rintro rfl; exact hc
  simp only [decompose, splitByLines]
  rw [if_neg (by simp only [List.all_eq_true, List.isEmpty_iff]; exact fun h => hl0 (h l hl))]
  obtain ⟨u, v, rfl⟩ := List.append_of_mem hl
  simp only [List.foldl_append, List.foldl_cons]
  exact keep v _ (gone _)

/-- The exact difference and an exact buffer meet the assumptions; the middle of the line from (0, 0) to (1, 0) is
lost. -/
example : ∃ diff around, IsDiff diff ∧ IsBuffer (1 / 100000000) around ∧
    pt (1 / 2) 0 ∉ decompose diff around Set.univ [[pt 0 0, pt 1 0]] ∧
    pt 0 1 ∈ decompose diff around Set.univ [[pt 0 0, pt 1 0]] := by
  have hd : IsDiff (fun a b : Set RPoint => a \ b) := ⟨fun a b q h => h.1, fun a b q h1 h2 => ⟨h1, h2⟩,
    fun a b q r hr h hq => hq.2 (h q (by rw [pdist_self]; exact hr))⟩
  have hb : IsBuffer (1 / 100000000) (fun l => {q | Near (1 / 100000000) l q}) := fun l q =>
    ⟨fun _ h => h, fun ⟨c, h1, h2, _⟩ => ⟨c, h1, by linarith⟩⟩
  refine ⟨_, _, hd, hb, ?_, ?_⟩
  · refine C79_gap _ _ hd hb _ _ [pt 0 0, pt 1 0] (List.mem_singleton_self _) _ (pt (1 / 2) 0)
      ((onLine_x zero_le_one _).2 ⟨by norm_num [pt], by norm_num [pt], rfl⟩) (by rw [pdist_self]; norm_num) ?_
    intro e hel
    simp only [List.mem_cons, List.not_mem_nil, or_false] at hel
    rw [pdist_self]
    rcases hel with rfl | rfl
    · rw [pdist_x _ 0 0 (by norm_num)]
      norm_num
    · rw [pdist_comm, pdist_x _ _ 0 (by norm_num)]
      norm_num
  · refine (C79_thin_gaps_partial _ _ hd hb _ _ (by simp)).2 _ trivial ?_
    simp only [List.mem_singleton, forall_eq]
    rintro ⟨c, hc, h⟩
    have hy := ((onLine_x zero_le_one c).1 hc).2.2
    have : (1 : ℝ) ≤ pdist c (pt 0 1) := by
      rw [pdist]
      refine Real.le_sqrt_of_sq_le ?_
      simp only [pt, hy]
      nlinarith [sq_nonneg (c.x - 0)]
    linarith

/-- **C80**: at every corner of a ring both loops along the ring end, after at most as many rounds as
steps of 1e-5 fit into the extent of the cell.  No line or two lines are added; two lines are longer than
1e-5, neither joins the ends of an edge of the ring, and each is a line until the border. -/
theorem C80_corner (θ : ℝ) (interF interB : RPoint → Inter) (ring : List RPoint) (p : RPoint) (hi lo : ℝ)
    (hF : ∀ q, ∀ l ∈ pieces (interF q), ∀ e ∈ l, (∃ t, 0 ≤ t ∧ xy e = ray q θ t) ∧ along θ e ≤ hi)
    (hB : ∀ q, ∀ l ∈ pieces (interB q), ∀ e ∈ l,
      (∃ t, 0 ≤ t ∧ xy e = ray q (θ + Real.pi) t) ∧ lo ≤ along θ e)
    (n : ℕ) (h1 : (hi - along θ p) * 100000 < n) (h2 : (along θ p - lo) * 100000 < n) (h0 : 0 < n) :
    let fwd := fun q => lineUntilBorder q (interF q)
    let bwd := fun q => lineUntilBorder q (interB q)
    cornerLines n fwd bwd ring p = .ok [] ∨
    ∃ a b c d, cornerLines n fwd bwd ring p = .ok [[a, b], [c, d]] ∧ fwd a = [a, b] ∧ bwd c = [c, d] ∧
      1 / 100000 < pdist a b ∧ 1 / 100000 < pdist c d ∧ ¬ RingEdge ring a b ∧ ¬ RingEdge ring c d := by
  intro fwd bwd
  have shape : ∀ (inter : RPoint → Inter) q, lineUntilBorder q (inter q) = [] ∨
      ∃ e, lineUntilBorder q (inter q) = [q, e] ∧ (∃ l ∈ pieces (inter q), e ∈ l) ∧
        1 / 100000 < pdist e q := by
    intro inter q
    by_cases hl : LinesOnly (inter q)
    · rcases C78_nearest q _ hl with h | ⟨e, h, h', h'', -⟩
      · exact .inl h.1
      · exact .inr ⟨e, h, h', h''⟩
    · left
      cases hq : inter q with
      | line l => exact (hl (.inl ⟨l, hq⟩)).elim
      | lines ls => exact (hl (.inr ⟨ls, hq⟩)).elim
      | points ps => rfl
      | collection ps ls => rfl
  have al : ∀ (q e : RPoint) φ t, xy e = ray q φ t → along φ e = along φ q + t := by
    intro q e φ t h
    have hx : e.x = q.x + t * Real.cos φ := congrArg Prod.fst h
    have hy : e.y = q.y + t * Real.sin φ := congrArg Prod.snd h
    rw [along, along, hx, hy]
    linear_combination t * Real.sin_sq_add_cos_sq φ
  have neg : ∀ q, along (θ + Real.pi) q = -along θ q := by
    intro q; simp only [along, Real.cos_add_pi, Real.sin_add_pi]; ring
  have aF : Advances θ hi fwd := by
    intro q
    rcases shape interF q with h | ⟨e, h, ⟨l, hl, he⟩, hfar⟩
    · exact .inl h
    · obtain ⟨⟨t, t0, ht⟩, hh⟩ := hF q l hl e he
      rw [pdist_ray t0 ht] at hfar
      exact .inr ⟨e, h, by rw [al _ _ _ _ ht]; linarith, hh⟩
  have aB : Advances (θ + Real.pi) (-lo) bwd := by
    intro q
    rcases shape interB q with h | ⟨e, h, ⟨l, hl, he⟩, hfar⟩
    · exact .inl h
    · obtain ⟨⟨t, t0, ht⟩, hh⟩ := hB q l hl e he
      rw [pdist_ray t0 ht] at hfar
      exact .inr ⟨e, h, by rw [al _ _ _ _ ht]; linarith, by rw [neg]; linarith⟩
  obtain ⟨l1, e1, n1, c1⟩ := follow_ok aF ring n p h1 h0
  obtain ⟨l2, e2, n2, c2⟩ := follow_ok aB ring n p (by rw [neg]; linarith) h0
  simp only [cornerLines, e1, e2, Outcome.ok_bind]
  by_cases hlen : 1 / 100000 < lineLength l1 ∧ 1 / 100000 < lineLength l2
  · right
    have form : ∀ (inter : RPoint → Inter) (l : List RPoint), 1 / 100000 < lineLength l →
        (l = [] ∨ ∃ s, lineUntilBorder s (inter s) = l) →
        ∃ a b, l = [a, b] ∧ lineUntilBorder a (inter a) = [a, b] ∧ 1 / 100000 < pdist a b := by
      intro inter l hl h
      rcases h with rfl | ⟨s, hs⟩
      · norm_num [lineLength] at hl
      · rcases shape inter s with h | ⟨e, h, -, hf⟩
        · rw [← hs, h] at hl; norm_num [lineLength] at hl
        · exact ⟨s, e, by rw [← hs, h], h, by rw [pdist_comm]; exact hf⟩
    obtain ⟨a, b, rfl, ha, hab⟩ := form interF l1 hlen.1 c1
    obtain ⟨c, d, rfl, hc, hcd⟩ := form interB l2 hlen.2 c2
    refine ⟨a, b, c, d, by rw [if_pos hlen], ha, hc, hab, hcd, ?_, ?_⟩
    · rw [← isEdge_pair, n1]; simp
    · rw [← isEdge_pair, n2]; simp
  · left
    rw [if_neg hlen]

/-- Intersection with the strip 0 ≤ x ≤ 2 of the rays to the right and to the left. -/
noncomputable def stripInter (right : Bool) (q : RPoint) : Inter :=
  open Classical in
  if right then (if q.x < 2 then .line [q, pt 2 q.y] else .points [])
  else if 0 < q.x then .line [q, pt 0 q.y] else .points []

/-- The hypotheses of `C80_corner` are met by a reflex corner at (1, 1) in a strip two metres wide. -/
example : (∀ q, ∀ l ∈ pieces (stripInter true q), ∀ e ∈ l,
      (∃ t, 0 ≤ t ∧ xy e = ray q 0 t) ∧ along 0 e ≤ 2) ∧
    (∀ q, ∀ l ∈ pieces (stripInter false q), ∀ e ∈ l,
      (∃ t, 0 ≤ t ∧ xy e = ray q (0 + Real.pi) t) ∧ 0 ≤ along 0 e) := by
  constructor
  · intro q l hl e he
    by_cases h : q.x < 2
    · simp only [stripInter, if_true, h, pieces, List.mem_singleton] at hl
      subst hl
      simp only [List.mem_cons, List.not_mem_nil, or_false] at he
      rcases he with rfl | rfl
      · exact ⟨⟨0, le_rfl, by simp [xy, ray]⟩, by simp [along]; linarith⟩
      · exact ⟨⟨2 - q.x, by linarith, by simp [xy, ray, pt]⟩, by simp [along, pt]⟩
    · simp [stripInter, h, pieces] at hl
  · intro q l hl e he
    by_cases h : 0 < q.x
    · simp only [stripInter, Bool.false_eq_true, if_false, h, if_true, pieces, List.mem_singleton] at hl
      subst hl
      simp only [List.mem_cons, List.not_mem_nil, or_false] at he
      rcases he with rfl | rfl
      · exact ⟨⟨0, le_rfl, by simp [xy, ray]⟩, by simp [along]; linarith⟩
      · exact ⟨⟨q.x, by linarith, by simp [xy, ray, pt]⟩, by simp [along, pt]⟩
    · simp [stripInter, h, pieces] at hl

/-- At that corner two lines are added, one to each side. -/
example : cornerLines 1 (fun q => lineUntilBorder q (stripInter true q))
    (fun q => lineUntilBorder q (stripInter false q)) [] (pt 1 1) =
    .ok [[pt 1 1, pt 2 1], [pt 1 1, pt 0 1]] := by
  have d0 : pdist (pt 1 1) (pt 1 1) = 0 := pdist_self _
  have d1 : pdist (pt 2 1) (pt 1 1) = 1 := by rw [pdist_x 2 1 1 (by norm_num)]; norm_num
  have d2 : pdist (pt 0 1) (pt 1 1) = 1 := by rw [pdist_comm, pdist_x 1 0 1 (by norm_num)]; norm_num
  have line : ∀ e : RPoint, pdist e (pt 1 1) = 1 →
      lineUntilBorder (pt 1 1) (.line [pt 1 1, e]) = [pt 1 1, e] := by
    intro e he
    rcases C78_nearest (pt 1 1) (.line [pt 1 1, e]) (.inl ⟨_, rfl⟩) with ⟨-, h⟩ | ⟨f, hf, ⟨l, hl, hfl⟩, h1, -⟩
    · have := h [pt 1 1, e] (by simp [pieces]) e (by simp)
      rw [he] at this
      norm_num at this
    · simp only [pieces, List.mem_singleton] at hl
      subst hl
      simp only [List.mem_cons, List.not_mem_nil, or_false] at hfl
      rcases hfl with rfl | rfl
      · rw [d0] at h1; norm_num at h1
      · exact hf
  have i1 : stripInter true (pt 1 1) = .line [pt 1 1, pt 2 1] := by
    have : (pt 1 1).x < 2 := by norm_num [pt]
    simp only [stripInter, if_true, this]; rfl
  have i2 : stripInter false (pt 1 1) = .line [pt 1 1, pt 0 1] := by
    have : 0 < (pt 1 1).x := by norm_num [pt]
    simp only [stripInter, Bool.false_eq_true, if_false, this, if_true]; rfl
  have hlen : 1 / 100000 < lineLength [pt 1 1, pt 2 1] ∧ 1 / 100000 < lineLength [pt 1 1, pt 0 1] := by
    simp only [lineLength, pdist_comm (pt 1 1), d1, d2]
    norm_num
  have f : ∀ (ray : RPoint → List RPoint) (l : List RPoint), isEdge [] l = false → follow ray [] 1 l = .ok l := by
    intro ray l h; simp [follow, h]
  simp only [cornerLines, i1, i2, line _ d1, line _ d2]
  rw [f _ _ (by simp [isEdge, edges]), Outcome.ok_bind, f _ _ (by simp [isEdge, edges]), Outcome.ok_bind, if_pos hlen]

end F2C.Props
