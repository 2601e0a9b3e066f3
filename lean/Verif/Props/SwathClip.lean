import Verif.Props.SwathClipSpec
import Verif.Props.SwathGenerator
import Verif.Props.Decomp

/-! # C81: what becomes of the tracks in a cell -/

namespace F2C.Props

open F2C.SG F2C.Decomp F2C.Props.SG F2C.Props.DecompSpec F2C.Props.SwathClipSpec

/-- **C81**, partial: if the tracks meet the cell in lines only, the swaths are exactly the parts of the
tracks in the cell.  Missing: tracks that touch the cell in isolated points (`C81_swaths_lost`). -/
theorem C81_parts_partial (region : Set (ℝ × ℝ)) (inter : Cell ℝ → List (List RPoint) → Inter)
    (overlap : Bool) (angle w : ℝ) (poly : Cell ℝ) (hw : 0 < w) (hne : poly.flatten ≠ [])
    (hcut : ∀ ts, tracks overlap angle w poly = .ok ts →
      LinesCut region ts (inter poly ts) ∧ LinesOnly (inter poly ts)) :
    ∃ ts ss, tracks overlap angle w poly = .ok ts ∧
      generateSwaths (fun c t => (inter c t).append) overlap angle w poly = .ok ss ∧
      ∀ c, (∃ s ∈ ss, ∃ q, OnLine s.path q ∧ xy q = c) ↔ Inside region ts c := by
  obtain ⟨ts, ss, e1, e2, e3, e3', -⟩ :=
    C25_generated_numbers (fun c t => (inter c t).append) overlap angle w poly hw hne
  obtain ⟨hc, hl⟩ := hcut ts e1
  refine ⟨ts, ss, e1, e2, fun c => ?_⟩
  have hno : isolated (inter poly ts) = [] := by rcases hl with ⟨_, e⟩ | ⟨_, e⟩ <;> rw [e] <;> rfl
  have happ : ∀ l q, OnLine l q → (l ∈ (inter poly ts).append ↔ l ∈ pieces (inter poly ts)) := by
    intro l q hq
    rcases hl with ⟨m, e⟩ | ⟨m, e⟩ <;> rw [e]
    · cases m with
      | nil =>
        simp only [Inter.append, List.isEmpty_nil, if_true, pieces, List.mem_singleton, List.not_mem_nil,
          false_iff]
        rintro rfl; exact hq
      | cons a m => simp [Inter.append, pieces]
    · simp [Inter.append, pieces]
  constructor
  · rintro ⟨s, hs, q, hq, rfl⟩
    have := mem_lines_of_append e3 e3' hs
    exact hc.sound _ ((happ _ q hq).1 this) q hq
  · intro h
    rcases hc.complete c h with ⟨l, hm, q, hq, e⟩ | ⟨q, hq, -⟩
    · have hmem := (happ l q hq).2 hm
      have hl0 : l ≠ [] := by rintro rfl; exact hq
      have : l ∈ ss.map Swath.path := by rw [e3 ⟨l, hmem, hl0⟩]; exact hmem
      obtain ⟨s, hs, rfl⟩ := List.mem_map.1 this
      exact ⟨s, hs, q, hq, e⟩
    · simp [hno] at hq

/-- **C81** is false: an intersection with isolated points and lines leaves no swath at all. -/
theorem C81_touching_drops_all (region : Set (ℝ × ℝ)) (inter : Cell ℝ → List (List RPoint) → Inter)
    (overlap : Bool) (angle w : ℝ) (poly : Cell ℝ) (hw : 0 < w) (hne : poly.flatten ≠ [])
    (ts : List (List RPoint)) (ht : tracks overlap angle w poly = .ok ts)
    (hcut : LinesCut region ts (inter poly ts))
    (a b : RPoint) (ha : Inside region ts (xy a)) (hb : Inside region ts (xy b))
    (hpt : ∃ r > 0, ∀ c : RPoint, pdist c a < r → Inside region ts (xy c) → xy c = xy a)
    (hseg : ∀ r > 0, ∃ c : RPoint, pdist c b < r ∧ Inside region ts (xy c) ∧ xy c ≠ xy b) :
    generateSwaths (fun c t => (inter c t).append) overlap angle w poly = .ok [] := by
  obtain ⟨ts', ss, e1, e2, -, e3, -⟩ :=
    C25_generated_numbers (fun c t => (inter c t).append) overlap angle w poly hw hne
  rw [ht] at e1
  cases e1
  have move : ∀ u v c : RPoint, xy u = xy v → pdist c u = pdist c v := by
    intro u v c h
    have hx : u.x = v.x := congrArg Prod.fst h
    have hy : u.y = v.y := congrArg Prod.snd h
    rw [pdist, pdist, hx, hy]
  have hiso : isolated (inter poly ts) ≠ [] := by
    rcases hcut.complete _ ha with ⟨l, hl, q, hq, e⟩ | ⟨q, hq, -⟩
    · obtain ⟨r, hr, h⟩ := hpt
      obtain ⟨c, hc, hne', hd⟩ := hcut.spread l hl q hq r hr
      rw [move q a c e] at hd
      exact absurd ((h c hd (hcut.sound l hl c hc)).trans e.symm) hne'
    · exact List.ne_nil_of_mem hq
  have hpie : pieces (inter poly ts) ≠ [] := by
    rcases hcut.complete _ hb with ⟨l, hl, -⟩ | ⟨q, hq, e⟩
    · exact List.ne_nil_of_mem hl
    · obtain ⟨-, r, hr, h⟩ := hcut.alone q hq
      obtain ⟨c, hd, hin, hne'⟩ := hseg r hr
      rw [← move q b c e] at hd
      exact absurd ((h c hd hin).trans e) hne'
  have : (inter poly ts).append = [] := by
    cases hi : inter poly ts with
    | line l => simp [hi, isolated] at hiso
    | lines ls => simp [hi, isolated] at hiso
    | points ps => simp [hi, pieces] at hpie
    | collection ps ls => rfl
  rw [this] at e3
  rw [e2, e3 (by simp)]

/-- A block of 1 × 2, a foot of 4 × 1/4 and a spike on the foot with its tip at (3, 1/2). -/
noncomputable def spiked : Cell ℝ := [[pt 0 0, pt 4 0, pt 4 (1 / 4), pt (13 / 4) (1 / 4), pt 3 (1 / 2),
  pt (11 / 4) (1 / 4), pt 1 (1 / 4), pt 1 2, pt 0 2, pt 0 0]]

/-- The positions in `spiked`. -/
def spikedRegion : Set (ℝ × ℝ) := {q | (0 ≤ q.1 ∧ q.1 ≤ 1 ∧ 0 ≤ q.2 ∧ q.2 ≤ 2) ∨
  (0 ≤ q.1 ∧ q.1 ≤ 4 ∧ 0 ≤ q.2 ∧ q.2 ≤ 1 / 4) ∨ (1 / 4 ≤ q.2 ∧ |q.1 - 3| ≤ 1 / 2 - q.2)}

theorem spiked_low : lowAlong spiked 0 = 0 ∧ lowAcross spiked 0 = 0 ∧ extent spiked 0 = 2 ∧
    reach spiked 0 = 6 := by
  refine ⟨?_, ?_, ?_, ?_⟩ <;>
    norm_num [lowAlong, lowAcross, extent, reach, spiked, pt, Cell.rotate, rotateFrom, Point.zero, Cell.minX,
      Cell.minY, Cell.maxX, Cell.maxY, Cell.height, Cell.minSafeLength, Cell.points, listMin, listMax]

/-- Its tracks for width 1 and angle 0. -/
theorem spiked_track (i : ℕ) (q : RPoint) :
    OnLine (track spiked 0 1 i) q ↔ -6 ≤ q.x ∧ q.x ≤ 6 ∧ q.y = i + 1 / 2 := by
  obtain ⟨a, b, e, h1, h2, h3, h4⟩ := track_ends spiked 0 1 i
  obtain ⟨l1, l2, -, l4⟩ := spiked_low
  simp only [along, across, Real.cos_zero, Real.sin_zero, mul_zero, mul_one, add_zero, neg_zero, zero_add,
    l1, l2, l4] at h1 h2 h3 h4
  rw [e]
  simp only [OnLine, or_false, OnSegment, h1, h2, h3, h4]
  constructor
  · rintro ⟨t, h0, h1, hx, hy⟩
    exact ⟨by linarith, by linarith, by linarith⟩
  · rintro ⟨h0, h1, hy⟩
    exact ⟨(q.x + 6) / 12, by linarith, by linarith, by linarith, by linarith⟩

theorem spiked_inside (overlap : Bool) (ts : List (List RPoint))
    (ht : tracks overlap 0 1 spiked = .ok ts) (c : ℝ × ℝ) :
    Inside spikedRegion ts c ↔ (c.2 = 1 / 2 ∧ (0 ≤ c.1 ∧ c.1 ≤ 1 ∨ c.1 = 3)) ∨
      (c.2 = 3 / 2 ∧ 0 ≤ c.1 ∧ c.1 ≤ 1) := by
  have hne : spiked.flatten ≠ [] := by simp [spiked]
  rw [tracks_eq overlap 0 1 spiked one_pos hne, spiked_low.2.2.1] at ht
  cases ht
  have h2 : 2 ≤ trackCount overlap (2 : ℝ) 1 := by
    cases overlap
    · norm_num [trackCount]
    · have : (2 : ℕ) ≤ ⌈(2 : ℝ) / 1 + 1 / 2⌉₊ := by
        have := Nat.le_ceil ((2 : ℝ) / 1 + 1 / 2)
        have h : (2 : ℝ) < (⌈(2 : ℝ) / 1 + 1 / 2⌉₊ : ℝ) := by linarith
        exact_mod_cast h.le
      simpa [trackCount] using this
  constructor
  · rintro ⟨hr, t, ht, q, hq, rfl⟩
    obtain ⟨i, -, rfl⟩ := List.mem_map.1 ht
    obtain ⟨-, -, hy⟩ := (spiked_track i q).1 hq
    simp only [spikedRegion, Set.mem_ofPred_eq, xy] at hr ⊢
    have hi0 : (0 : ℝ) ≤ i := Nat.cast_nonneg i
    rcases hr with ⟨a, b, -, d⟩ | ⟨-, -, -, d⟩ | ⟨-, d⟩
    · have : (i : ℝ) < 2 := by linarith
      have : i < 2 := by exact_mod_cast this
      rcases (by omega : i = 0 ∨ i = 1) with rfl | rfl
      · exact .inl ⟨by rw [hy]; norm_num, .inl ⟨a, b⟩⟩
      · exact .inr ⟨by rw [hy]; norm_num, a, b⟩
    · linarith
    · have h0 := (abs_nonneg (q.x - 3)).trans d
      have hd := abs_le.1 d
      exact .inl ⟨by linarith, .inr (by linarith [hd.1, hd.2])⟩
  · have mem : ∀ i, i < 2 → track spiked 0 1 i ∈
        (List.range (trackCount overlap (2 : ℝ) 1)).map (track spiked 0 1) :=
      fun i hi => List.mem_map_of_mem (List.mem_range.2 (by omega))
    rintro (⟨hy, hx⟩ | ⟨hy, h0, h1⟩)
    · refine ⟨?_, _, mem 0 (by norm_num), ⟨c.1, c.2, 0⟩, (spiked_track 0 _).2 ?_, rfl⟩
      · simp only [spikedRegion, Set.mem_ofPred_eq, hy]
        rcases hx with ⟨h0, h1⟩ | h
        · exact .inl ⟨h0, h1, by norm_num, by norm_num⟩
        · exact .inr (.inr ⟨by norm_num, by rw [h]; norm_num⟩)
      · rcases hx with ⟨h0, h1⟩ | h
        · exact ⟨by linarith, by linarith, by simp [hy]⟩
        · exact ⟨by rw [h]; norm_num, by rw [h]; norm_num, by simp [hy]⟩
    · refine ⟨.inl ⟨h0, h1, by rw [hy]; norm_num, by rw [hy]; norm_num⟩, _, mem 1 (by norm_num),
        ⟨c.1, c.2, 0⟩, (spiked_track 1 _).2 ⟨by linarith, by linarith, by simp only [hy]; norm_num⟩, rfl⟩

theorem coord_le_pdist (c q : RPoint) : |c.x - q.x| ≤ pdist c q ∧ |c.y - q.y| ≤ pdist c q := by
  constructor <;> rw [← Real.sqrt_sq_eq_abs] <;> exact Real.sqrt_le_sqrt (by nlinarith [sq_nonneg (c.x - q.x), sq_nonneg (c.y - q.y)])

/-- The tip is alone. -/
theorem spiked_tip (overlap : Bool) (ts : List (List RPoint)) (ht : tracks overlap 0 1 spiked = .ok ts)
    (c : RPoint) (hd : pdist c (pt 3 (1 / 2)) < 1) (hc : Inside spikedRegion ts (xy c)) :
    xy c = xy (pt 3 (1 / 2)) := by
  obtain ⟨h1, -⟩ := coord_le_pdist c (pt 3 (1 / 2))
  have h3 := abs_lt.1 (h1.trans_lt hd)
  simp only [pt] at h3
  rcases (spiked_inside overlap ts ht _).1 hc with ⟨hy, ⟨-, h⟩ | h⟩ | ⟨-, -, h⟩
  · simp only [xy] at h; linarith [h3.1]
  · exact Prod.ext h hy
  · simp only [xy] at h; linarith [h3.1]

/-- **C81** is false, a witness: both tracks cross the block for a metre, but the lower one also touches the
tip of the spike, and no swath is generated, whatever correct intersection is used. -/
theorem C81_swaths_lost (overlap : Bool) (inter : Cell ℝ → List (List RPoint) → Inter)
    (hcut : ∀ ts, tracks overlap 0 1 spiked = .ok ts → LinesCut spikedRegion ts (inter spiked ts)) :
    (∃ ts, tracks overlap 0 1 spiked = .ok ts ∧
      ∀ x, 0 ≤ x → x ≤ 1 → Inside spikedRegion ts (x, 1 / 2) ∧ Inside spikedRegion ts (x, 3 / 2)) ∧
    generateSwaths (fun c t => (inter c t).append) overlap 0 1 spiked = .ok [] := by
  have hne : spiked.flatten ≠ [] := by simp [spiked]
  have ht := tracks_eq overlap 0 1 spiked one_pos hne
  have ins := spiked_inside overlap _ ht
  refine ⟨⟨_, ht, fun x h0 h1 => ⟨(ins _).2 (.inl ⟨rfl, .inl ⟨h0, h1⟩⟩), (ins _).2 (.inr ⟨rfl, h0, h1⟩)⟩⟩, ?_⟩
  refine C81_touching_drops_all spikedRegion inter overlap 0 1 spiked one_pos hne _ ht (hcut _ ht)
    (pt 3 (1 / 2)) (pt 0 (1 / 2)) ((ins _).2 (.inl ⟨rfl, .inr rfl⟩))
    ((ins _).2 (.inl ⟨rfl, .inl ⟨le_rfl, zero_le_one⟩⟩)) ⟨1, one_pos, spiked_tip overlap _ ht⟩ ?_
  intro r hr
  have hm : 0 < min r 1 := lt_min hr one_pos
  refine ⟨pt (min r 1 / 2) (1 / 2), ?_, (ins _).2 (.inl ⟨rfl, .inl ⟨?_, ?_⟩⟩), fun h => ?_⟩
  · rw [pdist_x _ 0 _ (by linarith)]
    linarith [min_le_left r 1]
  · simp only [xy, pt]; linarith
  · simp only [xy, pt]; linarith [min_le_right r 1]
  · have : min r 1 / 2 = 0 := congrArg Prod.fst h
    linarith

theorem spread_x {a b y : ℝ} (h : a < b) (q : RPoint) (hq : OnLine [pt a y, pt b y] q) (r : ℝ) (hr : 0 < r) :
    ∃ c, OnLine [pt a y, pt b y] c ∧ xy c ≠ xy q ∧ pdist c q < r := by
  obtain ⟨h0, h1, hy⟩ := (onLine_x h.le q).1 hq
  have hm : 0 < min r (b - a) := lt_min hr (by linarith)
  have hm1 := min_le_left r (b - a)
  have hm2 := min_le_right r (b - a)
  have dist : ∀ x : ℝ, pdist (pt x y) q = |x - q.x| := by
    intro x
    rw [pdist, ← Real.sqrt_sq_eq_abs]
    congr 1
    simp only [pt, hy]; ring
  rcases le_total q.x ((a + b) / 2) with hh | hh
  · refine ⟨pt (q.x + min r (b - a) / 2) y, (onLine_x h.le _).2 ⟨?_, ?_, rfl⟩, fun e => ?_, ?_⟩
    · simp only [pt]; linarith
    · simp only [pt]; linarith
    · have : q.x + min r (b - a) / 2 = q.x := congrArg Prod.fst e
      linarith
    · rw [dist, add_sub_cancel_left, abs_of_pos (by linarith)]; linarith
  · refine ⟨pt (q.x - min r (b - a) / 2) y, (onLine_x h.le _).2 ⟨?_, ?_, rfl⟩, fun e => ?_, ?_⟩
    · simp only [pt]; linarith
    · simp only [pt]; linarith
    · have : q.x - min r (b - a) / 2 = q.x := congrArg Prod.fst e
      linarith
    · rw [dist, sub_sub_cancel_left, abs_neg, abs_of_pos (by linarith)]; linarith

/-- The hypothesis of `C81_swaths_lost` is met: this is the intersection. -/
example (overlap : Bool) (ts : List (List RPoint)) (ht : tracks overlap 0 1 spiked = .ok ts) :
    LinesCut spikedRegion ts (.collection [pt 3 (1 / 2)]
      [[pt 0 (1 / 2), pt 1 (1 / 2)], [pt 0 (3 / 2), pt 1 (3 / 2)]]) := by
  have ins := spiked_inside overlap ts ht
  refine ⟨?_, ?_, ?_, ?_⟩
  · simp only [pieces, List.mem_cons, List.not_mem_nil, or_false]
    rintro l (rfl | rfl) q hq <;> obtain ⟨h0, h1, hy⟩ := (onLine_x zero_le_one q).1 hq
    · exact (ins _).2 (.inl ⟨hy, .inl ⟨h0, h1⟩⟩)
    · exact (ins _).2 (.inr ⟨hy, h0, h1⟩)
  · intro c hc
    rcases (ins c).1 hc with ⟨hy, ⟨h0, h1⟩ | h⟩ | ⟨hy, h0, h1⟩
    · exact .inl ⟨_, List.mem_cons_self, ⟨c.1, c.2, 0⟩, (onLine_x zero_le_one _).2 ⟨h0, h1, hy⟩, rfl⟩
    · exact .inr ⟨_, List.mem_singleton_self _, Prod.ext h.symm hy.symm⟩
    · exact .inl ⟨_, List.mem_cons_of_mem _ List.mem_cons_self, ⟨c.1, c.2, 0⟩,
        (onLine_x zero_le_one _).2 ⟨h0, h1, hy⟩, rfl⟩
  · simp only [pieces, List.mem_cons, List.not_mem_nil, or_false]
    rintro l (rfl | rfl) q hq r hr <;> exact spread_x zero_lt_one q hq r hr
  · simp only [isolated, List.mem_singleton, forall_eq]
    exact ⟨(ins _).2 (.inl ⟨rfl, .inr rfl⟩), 1, one_pos, spiked_tip overlap ts ht⟩

/-- The block alone. -/
def block : Cell ℝ := [[pt 0 0, pt 1 0, pt 1 2, pt 0 2, pt 0 0]]

/-- The positions in `block`. -/
def blockRegion : Set (ℝ × ℝ) := {q | 0 ≤ q.1 ∧ q.1 ≤ 1 ∧ 0 ≤ q.2 ∧ q.2 ≤ 2}

theorem block_low : lowAlong block 0 = 0 ∧ lowAcross block 0 = 0 ∧ extent block 0 = 2 ∧ reach block 0 = 3 := by
  refine ⟨?_, ?_, ?_, ?_⟩ <;>
    norm_num [lowAlong, lowAcross, extent, reach, block, pt, Cell.rotate, rotateFrom, Point.zero, Cell.minX,
      Cell.minY, Cell.maxX, Cell.maxY, Cell.height, Cell.minSafeLength, Cell.points, listMin, listMax]

theorem block_track (i : ℕ) (q : RPoint) :
    OnLine (track block 0 1 i) q ↔ -3 ≤ q.x ∧ q.x ≤ 3 ∧ q.y = i + 1 / 2 := by
  obtain ⟨a, b, e, h1, h2, h3, h4⟩ := track_ends block 0 1 i
  obtain ⟨l1, l2, -, l4⟩ := block_low
  simp only [along, across, Real.cos_zero, Real.sin_zero, mul_zero, mul_one, add_zero, neg_zero, zero_add,
    l1, l2, l4] at h1 h2 h3 h4
  rw [e]
  simp only [OnLine, or_false, OnSegment, h1, h2, h3, h4]
  constructor
  · rintro ⟨t, h0, h1, hx, hy⟩
    exact ⟨by linarith, by linarith, by linarith⟩
  · rintro ⟨h0, h1, hy⟩
    exact ⟨(q.x + 3) / 6, by linarith, by linarith, by linarith, by linarith⟩

theorem block_inside (c : ℝ × ℝ) : Inside blockRegion ((List.range 2).map (track block 0 1)) c ↔
    (c.2 = 1 / 2 ∨ c.2 = 3 / 2) ∧ 0 ≤ c.1 ∧ c.1 ≤ 1 := by
  constructor
  · rintro ⟨⟨h0, h1, -⟩, t, ht, q, hq, rfl⟩
    obtain ⟨i, hi, rfl⟩ := List.mem_map.1 ht
    obtain ⟨-, -, hy⟩ := (block_track i q).1 hq
    refine ⟨?_, h0, h1⟩
    rcases (by have := List.mem_range.1 hi; omega : i = 0 ∨ i = 1) with rfl | rfl
    · exact .inl (by simp only [xy, hy]; norm_num)
    · exact .inr (by simp only [xy, hy]; norm_num)
  · rintro ⟨hy | hy, h0, h1⟩
    · exact ⟨⟨h0, h1, by rw [hy]; norm_num, by rw [hy]; norm_num⟩, _,
        List.mem_map_of_mem (List.mem_range.2 (by norm_num : 0 < 2)), ⟨c.1, c.2, 0⟩,
        (block_track 0 _).2 ⟨by linarith, by linarith, by simp only [hy]; norm_num⟩, rfl⟩
    · exact ⟨⟨h0, h1, by rw [hy]; norm_num, by rw [hy]; norm_num⟩, _,
        List.mem_map_of_mem (List.mem_range.2 (by norm_num : 1 < 2)), ⟨c.1, c.2, 0⟩,
        (block_track 1 _).2 ⟨by linarith, by linarith, by simp only [hy]; norm_num⟩, rfl⟩

theorem block_tracks : tracks false 0 1 block = .ok ((List.range 2).map (track block 0 1)) := by
  have ht := tracks_eq false 0 1 block one_pos (by simp [block])
  have hcount : trackCount false (extent block 0) 1 = 2 := by
    rw [block_low.2.2.1]; norm_num [trackCount]
  rwa [hcount] at ht

/-- What the tracks share with the block. -/
noncomputable def blockLines : Inter := .lines [[pt 0 (1 / 2), pt 1 (1 / 2)], [pt 0 (3 / 2), pt 1 (3 / 2)]]

theorem block_cut (ts : List (List RPoint)) (h : tracks false 0 1 block = .ok ts) :
    LinesCut blockRegion ts blockLines ∧ LinesOnly blockLines := by
  rw [block_tracks] at h
  cases h
  refine ⟨⟨?_, ?_, ?_, by simp [isolated, blockLines]⟩, .inr ⟨_, rfl⟩⟩
  · simp only [blockLines, pieces, List.mem_cons, List.not_mem_nil, or_false]
    rintro l (rfl | rfl) q hq <;> obtain ⟨h0, h1, hy⟩ := (onLine_x zero_le_one q).1 hq
    · exact (block_inside _).2 ⟨.inl hy, h0, h1⟩
    · exact (block_inside _).2 ⟨.inr hy, h0, h1⟩
  · intro c hc
    rcases (block_inside c).1 hc with ⟨hy | hy, h0, h1⟩
    · exact .inl ⟨_, List.mem_cons_self, ⟨c.1, c.2, 0⟩, (onLine_x zero_le_one _).2 ⟨h0, h1, hy⟩, rfl⟩
    · exact .inl ⟨_, List.mem_cons_of_mem _ List.mem_cons_self, ⟨c.1, c.2, 0⟩,
        (onLine_x zero_le_one _).2 ⟨h0, h1, hy⟩, rfl⟩
  · simp only [blockLines, pieces, List.mem_cons, List.not_mem_nil, or_false]
    rintro l (rfl | rfl) q hq r hr <;> exact spread_x zero_lt_one q hq r hr

/-- The hypotheses of `C81_parts_partial` are met by the block; its swaths reach (1, 3/2). -/
example : ∃ ss, generateSwaths (fun _ _ => blockLines.append) false 0 1 block =
      .ok ss ∧ ∃ s ∈ ss, ∃ q, OnLine s.path q ∧ xy q = (1, 3 / 2) := by
  obtain ⟨ts, ss, e1, e2, h⟩ := C81_parts_partial blockRegion (fun _ _ => blockLines) false 0 1 block one_pos
    (by simp [block]) block_cut
  rw [block_tracks] at e1
  cases e1
  exact ⟨ss, e2, (h _).2 ((block_inside _).2 ⟨.inr rfl, zero_le_one, le_rfl⟩)⟩

end F2C.Props
