import Mathlib.Tactic.NormNum
import Mathlib.Topology.Order.IntermediateValue
import Verif.Lemmas.SetOps

/-!
# C105-C107: results of geometric operations

* C105: intersection, difference and union of cells
* C106: the area that a swath covers
* C107: buffers and hulls that are single cells
-/

namespace F2C.Props

open SetOpsSpec SG DecompSpec OgrGeom

/-! ### C105 -/

/-- C105, for geometries as GEOS returns them: the cells made of a geometry are its polygons, in order. -/
theorem C105_polygons_partial {K : Type} (g : OgrGeom K) (h : Flat g) : g.toCells = polygonsIn g := toCells_flat h

/-- C105, for all geometries: cells are made of polygons of the geometry only. -/
theorem C105_nothing_else {K : Type} (g : OgrGeom K) : ∀ c ∈ g.toCells, c ∈ polygonsIn g := by
  intro c hc
  cases g with
  | polygon d => simpa [toCells, polygonsIn] using hc
  | polygons cs => simpa [toCells, polygonsIn] using hc
  | collection gs =>
    rw [polygonsIn]
    simp only [toCells] at hc
    induction gs with
    | nil => cases hc
    | cons g gs ih =>
      rw [polygonsInAll, List.mem_append]
      rw [List.filterMap_cons] at hc
      cases hg : asPolygon g with
      | none =>
        rw [hg] at hc
        exact .inr (ih hc)
      | some d =>
        rw [hg] at hc
        rcases List.mem_cons.1 hc with rfl | hc
        · left
          cases g <;> simp [asPolygon] at hg
          simp [polygonsIn, hg]
        · exact .inr (ih hc)
  | point p => cases hc
  | line l => cases hc
  | points ps => cases hc
  | lines ls => cases hc
  | other => cases hc

/-- C105 is false of nested geometries: multi polygons in a collection are dropped. -/
theorem C105_nested_dropped {K : Type} (cs : Cells K) :
    polygonsIn (.collection [.polygons cs]) = cs ∧ toCells (.collection [.polygons cs]) = [] :=
  ⟨by simp [polygonsIn, polygonsInAll], rfl⟩

/-- C105, a null pointer: a failure of GEOS is undefined behaviour. -/
theorem C105_failure_ub {K : Type} (G : Geos K) (a b : Cells K) (h : G.inter (.polygons a) (.polygons b) = none) :
    (intersection G a b).isUb = true ∧ (cellsInside G a b).isUb = true := by
  simp [cellsInside, intersection, h, resCells]

/-- C105: if GEOS is exact, intersections cover the common area without the parts that are points or lines
only. -/
theorem C105_intersection (region : Cell ℝ → Set (ℝ × ℝ)) (G : Geos ℝ) (a b : Cells ℝ)
    (h : Exact region (G.inter (.polygons a) (.polygons b)) (cover region a ∩ cover region b)) :
    ∃ cs, intersection G a b = .ok cs ∧ cellsInside G a b = .ok cs ∧
      cover region cs = closure (interior (cover region a ∩ cover region b)) ∧
      interior (cover region a ∩ cover region b) ⊆ cover region cs ∧
      cover region cs ⊆ cover region a ∩ cover region b := by
  obtain ⟨cs, h1, -, h2, h3⟩ := exact_cells h
  exact ⟨cs, h1, h1, h2, h2 ▸ subset_closure, h2 ▸ closure_minimal interior_subset h3⟩

/-- C105, the other two intersections, of cells with one cell and of two cells. -/
theorem C105_intersection_cell (region : Cell ℝ → Set (ℝ × ℝ)) (G : Geos ℝ) (a : Cells ℝ) (b c : Cell ℝ)
    (h : Exact region (G.inter (.polygon c) (.polygons a)) (region c ∩ cover region a))
    (h2 : Exact region (G.inter (.polygon b) (.polygon c)) (region b ∩ region c)) :
    (∃ cs, intersectionCell G a c = .ok cs ∧ cover region cs = closure (interior (region c ∩ cover region a))) ∧
    ∃ cs, cellIntersection G b c = .ok cs ∧ cover region cs = closure (interior (region b ∩ region c)) := by
  obtain ⟨cs, h1, -, h3, -⟩ := exact_cells h
  obtain ⟨ds, h4, -, h5, -⟩ := exact_cells h2
  exact ⟨⟨cs, h1, h3⟩, ds, h4, h5⟩

/-- C105: if GEOS is exact and the cells are valid, differences cover what is in the first but not in the second,
and the border. -/
theorem C105_difference (region : Cell ℝ → Set (ℝ × ℝ)) (G : Geos ℝ) (a b : Cells ℝ)
    (ha : ∀ c ∈ a, Regular (region c)) (hb : ∀ c ∈ b, Regular (region c))
    (h : Exact region (G.diff (.polygons a) (.polygons b)) (closure (cover region a \ cover region b))) :
    ∃ cs, difference G a b = .ok cs ∧ cover region cs = closure (cover region a \ cover region b) := by
  obtain ⟨cs, h1, -, h2, -⟩ := exact_cells h
  refine ⟨cs, h1, h2.trans ?_⟩
  exact (Regular.cover ha).diff (Regular.cover hb).closed

/-- C105: the same for the difference with one cell. -/
theorem C105_difference_cell (region : Cell ℝ → Set (ℝ × ℝ)) (G : Geos ℝ) (a : Cells ℝ) (b : Cell ℝ)
    (ha : ∀ c ∈ a, Regular (region c)) (hb : Regular (region b))
    (h : Exact region (G.diff (.polygons a) (.polygon b)) (closure (cover region a \ region b))) :
    ∃ cs, differenceCell G a b = .ok cs ∧ cover region cs = closure (cover region a \ region b) := by
  obtain ⟨cs, h1, -, h2, -⟩ := exact_cells h
  exact ⟨cs, h1, h2.trans ((Regular.cover ha).diff hb.closed)⟩

/-- C105: if GEOS is exact and the cells are valid, unions cover exactly what one of them covers. -/
theorem C105_union (region : Cell ℝ → Set (ℝ × ℝ)) (G : Geos ℝ) (a b : Cells ℝ)
    (ha : ∀ c ∈ a, Regular (region c)) (hb : ∀ c ∈ b, Regular (region c))
    (h : Exact region (G.union (.polygons a) (.polygons b)) (cover region a ∪ cover region b)) :
    ∃ cs, unionOp G a b = .ok cs ∧ cover region cs = cover region a ∪ cover region b := by
  obtain ⟨cs, h1, -, h2, -⟩ := exact_cells h
  exact ⟨cs, h1, h2.trans ((Regular.cover ha).union (Regular.cover hb))⟩

/-- C105: the same for the union with one cell. -/
theorem C105_union_cell (region : Cell ℝ → Set (ℝ × ℝ)) (G : Geos ℝ) (a : Cells ℝ) (b : Cell ℝ)
    (ha : ∀ c ∈ a, Regular (region c)) (hb : Regular (region b))
    (h : Exact region (G.union (.polygons a) (.polygon b)) (cover region a ∪ region b)) :
    ∃ cs, unionCell G a b = .ok cs ∧ cover region cs = cover region a ∪ region b := by
  obtain ⟨cs, h1, -, h2, -⟩ := exact_cells h
  exact ⟨cs, h1, h2.trans ((Regular.cover ha).union hb)⟩

/-! ### C106 -/

/-- C106, for straight swaths: if GEOS is exact, a swath covers the part of the field beside its path, up to half
its width to either side: nothing else and all of it but possibly for the sides of the rectangle.  Missing: paths
with bends, for which the first part is false (`C106_bends_partial`, `C106_corner`). -/
theorem C106_area_covered_partial (region : Cell ℝ → Set (ℝ × ℝ)) (G : Geos ℝ) (width : ℝ) (a b : RPoint)
    (hab : (b.x, b.y) ≠ (a.x, a.y)) (polys : Cells ℝ) (hpolys : ∀ c ∈ polys, Regular (region c))
    (hb : Exact region (G.buffer (.line [a, b]) (1 / 2 * width)) (beside a b (width / 2)))
    (hi : ∀ cs, resCells (G.buffer (.line [a, b]) (1 / 2 * width)) = .ok cs →
      Exact region (G.inter (.polygons polys) (.polygons cs)) (cover region polys ∩ cover region cs)) :
    ∃ cs, swathAreaIn G [a, b] width polys = .ok cs ∧
      cover region cs ⊆ cover region polys ∩ beside a b (width / 2) ∧
      cover region polys ∩ insideBeside a b (width / 2) ⊆ cover region cs := by
  have hpos : 0 < (b.x - a.x) ^ 2 + (b.y - a.y) ^ 2 := by
    by_contra h
    have h1 : (b.x - a.x) ^ 2 = 0 := by nlinarith [sq_nonneg (b.x - a.x), sq_nonneg (b.y - a.y)]
    have h2 : (b.y - a.y) ^ 2 = 0 := by nlinarith [sq_nonneg (b.x - a.x), sq_nonneg (b.y - a.y)]
    exact hab (Prod.ext (sub_eq_zero.1 (pow_eq_zero_iff two_ne_zero |>.1 h1))
      (sub_eq_zero.1 (pow_eq_zero_iff two_ne_zero |>.1 h2)))
  have hopen := insideBeside_open a b (width / 2) hpos
  obtain ⟨r, h1, -, h2, h3⟩ := exact_cells hb
  obtain ⟨cs, h4, -, h5, h6⟩ := exact_cells (hi r h1)
  have harea : swathArea G [a, b] width = .ok r := by
    rw [swathArea, if_neg (by simp)]
    exact h1
  refine ⟨cs, ?_, ?_, ?_⟩
  · rw [swathAreaIn, harea, Outcome.ok_bind]
    exact h4
  · rw [h5]
    refine (closure_minimal interior_subset h6).trans (Set.inter_subset_inter_right _ ?_)
    rw [h2]
    exact closure_minimal interior_subset h3
  · rintro q ⟨hq1, hq2⟩
    rw [h5]
    have hq1' : q ∈ closure (interior (cover region polys)) := by
      rw [Regular.cover hpolys]
      exact hq1
    rw [mem_closure_iff] at hq1' ⊢
    intro o ho hqo
    obtain ⟨x, hx1, hx2⟩ := hq1' (o ∩ insideBeside a b (width / 2)) (ho.inter hopen) ⟨hqo, hq2⟩
    refine ⟨x, hx1.1, ?_⟩
    rw [mem_interior]
    refine ⟨interior (cover region polys) ∩ insideBeside a b (width / 2), ?_, isOpen_interior.inter hopen, hx2, hx1.2⟩
    rintro y ⟨hy1, hy2⟩
    refine ⟨interior_subset hy1, ?_⟩
    rw [h2]
    exact subset_closure (interior_mono (insideBeside_sub a b _) (by rwa [hopen.interior_eq]))

/-- C106, for paths with bends: whatever set the buffer is, if it contains the strips beside all segments and
reaches no further than `m` half widths (mitred corners), a swath covers nothing of the field that is further away,
and all of the field beside its segments. -/
theorem C106_bends_partial (region : Cell ℝ → Set (ℝ × ℝ)) (G : Geos ℝ) (width m : ℝ) (l : List RPoint)
    (hl : l ≠ []) (hseg : ∀ ab ∈ l.zip l.tail, (ab.2.x, ab.2.y) ≠ (ab.1.x, ab.1.y)) (polys : Cells ℝ)
    (hpolys : ∀ c ∈ polys, Regular (region c)) (B : Set (ℝ × ℝ))
    (hb : Exact region (G.buffer (.line l) (1 / 2 * width)) B) (hB : insideStrips l (width / 2) ⊆ B)
    (hB' : B ⊆ near l (m * (width / 2)))
    (hi : ∀ cs, resCells (G.buffer (.line l) (1 / 2 * width)) = .ok cs →
      Exact region (G.inter (.polygons polys) (.polygons cs)) (cover region polys ∩ cover region cs)) :
    ∃ cs, swathAreaIn G l width polys = .ok cs ∧
      cover region cs ⊆ cover region polys ∩ near l (m * (width / 2)) ∧
      cover region polys ∩ insideStrips l (width / 2) ⊆ cover region cs := by
  have hopen : IsOpen (insideStrips l (width / 2)) := by
    rw [show insideStrips l (width / 2) = ⋃ ab ∈ l.zip l.tail, insideBeside ab.1 ab.2 (width / 2) by
      ext q; simp [insideStrips]]
    refine isOpen_biUnion fun ab hab => insideBeside_open ab.1 ab.2 (width / 2) ?_
    by_contra h
    have h1 : (ab.2.x - ab.1.x) ^ 2 = 0 := by nlinarith [sq_nonneg (ab.2.x - ab.1.x), sq_nonneg (ab.2.y - ab.1.y)]
    have h2 : (ab.2.y - ab.1.y) ^ 2 = 0 := by nlinarith [sq_nonneg (ab.2.x - ab.1.x), sq_nonneg (ab.2.y - ab.1.y)]
    exact hseg ab hab (Prod.ext (sub_eq_zero.1 (pow_eq_zero_iff two_ne_zero |>.1 h1))
      (sub_eq_zero.1 (pow_eq_zero_iff two_ne_zero |>.1 h2)))
  obtain ⟨r, h1, -, h2, h3⟩ := exact_cells hb
  obtain ⟨cs, h4, -, h5, h6⟩ := exact_cells (hi r h1)
  have harea : swathArea G l width = .ok r := by
    rw [swathArea, if_neg (by simpa using hl)]
    exact h1
  refine ⟨cs, ?_, ?_, ?_⟩
  · rw [swathAreaIn, harea, Outcome.ok_bind]
    exact h4
  · rw [h5]
    refine (closure_minimal interior_subset h6).trans (Set.inter_subset_inter_right _ ?_)
    rw [h2]
    exact (closure_minimal interior_subset h3).trans hB'
  · rintro q ⟨hq1, hq2⟩
    rw [h5]
    have hq1' : q ∈ closure (interior (cover region polys)) := by
      rw [Regular.cover hpolys]
      exact hq1
    rw [mem_closure_iff] at hq1' ⊢
    intro o ho hqo
    obtain ⟨x, hx1, hx2⟩ := hq1' (o ∩ insideStrips l (width / 2)) (ho.inter hopen) ⟨hqo, hq2⟩
    refine ⟨x, hx1.1, ?_⟩
    rw [mem_interior]
    refine ⟨interior (cover region polys) ∩ insideStrips l (width / 2), ?_, isOpen_interior.inter hopen, hx2, hx1.2⟩
    rintro y ⟨hy1, hy2⟩
    refine ⟨interior_subset hy1, ?_⟩
    rw [h2]
    exact subset_closure (interior_mono hB (by rwa [hopen.interior_eq]))

/-- C106 is false at bends: around a right angle the corner of the buffer is mitred, and the swath of width 2 covers
a position that is more than 1 away from its path. -/
theorem C106_corner (region : Cell ℝ → Set (ℝ × ℝ)) (G : Geos ℝ)
    (hb : Exact region (G.buffer (.line [⟨0, 0, 0⟩, ⟨2, 0, 0⟩, ⟨2, 2, 0⟩]) (1 / 2 * 2))
      (beside ⟨0, 0, 0⟩ ⟨2, 0, 0⟩ 1 ∪ beside ⟨2, 0, 0⟩ ⟨2, 2, 0⟩ 1 ∪ Set.Icc 2 3 ×ˢ Set.Icc (-1) 0)) :
    ∃ cs, swathArea G [⟨0, 0, 0⟩, ⟨2, 0, 0⟩, ⟨2, 2, 0⟩] 2 = .ok cs ∧
      ∃ q ∈ cover region cs, q ∉ near [⟨0, 0, 0⟩, ⟨2, 0, 0⟩, ⟨2, 2, 0⟩] 1 := by
  obtain ⟨r, h1, -, h2, h3⟩ := exact_cells hb
  refine ⟨r, ?_, (14 / 5, -(4 / 5)), ?_, ?_⟩
  · rw [swathArea, if_neg (by simp)]
    exact h1
  · rw [h2]
    refine subset_closure (mem_interior.2 ⟨Set.Ioo 2 3 ×ˢ Set.Ioo (-1) 0, ?_, isOpen_Ioo.prod isOpen_Ioo, ?_⟩)
    · exact (Set.prod_mono Set.Ioo_subset_Icc_self Set.Ioo_subset_Icc_self).trans Set.subset_union_right
    · constructor <;> constructor <;> norm_num
  · rintro ⟨c, hc, hd⟩
    simp only [OnLine, OnSegment, or_false] at hc
    rcases hc with ⟨t, h0, h1, hx, hy⟩ | ⟨t, h0, h1, hx, hy⟩
    · simp only at hx hy hd
      rw [hx, hy] at hd
      nlinarith
    · simp only at hx hy hd
      rw [hx, hy] at hd
      nlinarith

/-- C106: a swath without path covers nothing. -/
theorem C106_no_path (region : Cell ℝ → Set (ℝ × ℝ)) (G : Geos ℝ) (width : ℝ) (polys : Cells ℝ)
    (h : Exact region (G.inter (.polygons polys) (.polygons [])) ∅) :
    ∃ cs, swathAreaIn G [] width polys = .ok cs ∧ cover region cs = ∅ := by
  obtain ⟨cs, h1, -, h2, -⟩ := exact_cells h
  exact ⟨cs, h1, by rw [h2]; simp⟩

/-! ### C107 -/

/-- C107, partial: if the result of a buffer or a hull is a single polygon, the cell covers exactly the result.
Missing: results that are not, which throw (`C107_apart_throws`, `C107_flat_throws`). -/
theorem C107_cell_partial (region : Cell ℝ → Set (ℝ × ℝ)) (r : Option (OgrGeom ℝ)) (s : Set (ℝ × ℝ))
    (h : Exact region r s) (c : Cell ℝ) (hc : r = some (.polygon c)) :
    resCell r = .ok c ∧ region c = s := by
  obtain ⟨g, rfl, -, -, hs⟩ := h
  cases hc
  refine ⟨rfl, Set.ext fun q => ?_⟩
  rw [← hs]
  constructor
  · exact .polygon c q
  · rintro ⟨⟩
    assumption

/-- C107 is false: if a cell falls apart when it is shrunk, `Cell::buffer` throws. -/
theorem C107_apart_throws (region : Cell ℝ → Set (ℝ × ℝ)) (hcon : ∀ c, IsPreconnected (region c))
    (r : Option (OgrGeom ℝ)) (s : Set (ℝ × ℝ)) (h : Exact region r s) (hs : ¬ IsPreconnected s) :
    resCell r = .throw .invalidArgument := by
  obtain ⟨g, rfl, hf, hreg, hcov⟩ := h
  cases g with
  | polygon c =>
    refine absurd ?_ hs
    rw [← (C107_cell_partial region _ s ⟨_, rfl, hf, hreg, hcov⟩ c rfl).2]
    exact hcon c
  | _ => rfl

/-- C107 is false: if a result has no area, as the hull of points on a line, the function throws. -/
theorem C107_flat_throws (region : Cell ℝ → Set (ℝ × ℝ)) (r : Option (OgrGeom ℝ)) (s : Set (ℝ × ℝ))
    (h : Exact region r s) (hne : s.Nonempty) (hs : interior s = ∅) :
    resCell r = .throw .invalidArgument := by
  obtain ⟨g, rfl, hf, hreg, hcov⟩ := h
  cases g with
  | polygon c =>
    have e := (C107_cell_partial region _ s ⟨_, rfl, hf, hreg, hcov⟩ c rfl).2
    have hr := hreg c (by simp [polygonsIn])
    rw [e, Regular, hs, closure_empty] at hr
    rw [← hr] at hne
    simp at hne
  | _ => rfl

/-- C107: the buffer of a ring needs all three results, and keeps one cell of the difference at most. -/
theorem C107_ring_buffer (a b : Cell ℝ) (diff : Cell ℝ → Cell ℝ → Option (OgrGeom ℝ)) (g : OgrGeom ℝ)
    (hg : diff a b = some g) (hne : ∃ c ∈ g.toCells, ∃ r ∈ c, r ≠ []) :
    ∃ c ∈ g.toCells, ringBuffer (some (.polygon a)) (some (.polygon b)) diff = .ok c ∧
      g.toCells.head? = some c := by
  obtain ⟨c, hc, r, hr, hr2⟩ := hne
  cases hcs : g.toCells with
  | nil =>
    rw [hcs] at hc
    cases hc
  | cons d ds =>
    refine ⟨d, List.mem_cons_self, ?_, rfl⟩
    simp only [ringBuffer, resCell, toCell, hg, resCells, Outcome.ok_bind, hcs, Outcome.pure_eq]
    rw [if_neg]
    · rfl
    · intro hall
      rw [hcs] at hc
      have := List.all_eq_true.1 (List.all_eq_true.1 hall c hc) r hr
      exact hr2 (by simpa using this)

/-! ### Examples -/

/-- Positions of an upright rectangle: between the coordinates of its points. -/
private def box (c : Cell ℝ) : Set (ℝ × ℝ) :=
  {q | (∃ p ∈ c.flatten, p.x ≤ q.1) ∧ (∃ p ∈ c.flatten, q.1 ≤ p.x) ∧
    (∃ p ∈ c.flatten, p.y ≤ q.2) ∧ ∃ p ∈ c.flatten, q.2 ≤ p.y}

/-- The rectangle from `x` to `x'` and from `y` to `y'`. -/
private def rect (x x' y y' : ℝ) : Cell ℝ := [[⟨x, y, 0⟩, ⟨x', y, 0⟩, ⟨x', y', 0⟩, ⟨x, y', 0⟩, ⟨x, y, 0⟩]]

private theorem box_rect {x x' y y' : ℝ} (hx : x ≤ x') (hy : y ≤ y') :
    box (rect x x' y y') = Set.Icc x x' ×ˢ Set.Icc y y' := by
  ext ⟨u, v⟩
  simp only [box, rect, List.flatten_cons, List.flatten_nil, List.append_nil, List.mem_cons, List.not_mem_nil,
    or_false, exists_eq_or_imp, exists_eq_left, Set.mem_ofPred_eq, Set.mem_prod, Set.mem_Icc]
  constructor
  · rintro ⟨h1, h2, h3, h4⟩
    refine ⟨⟨?_, ?_⟩, ?_, ?_⟩
    · rcases h1 with h | h | h | h | h <;> linarith
    · rcases h2 with h | h | h | h | h <;> linarith
    · rcases h3 with h | h | h | h | h <;> linarith
    · rcases h4 with h | h | h | h | h <;> linarith
  · rintro ⟨⟨h1, h2⟩, h3, h4⟩
    exact ⟨.inl h1, .inr (.inl h2), .inl h3, .inr (.inr (.inl h4))⟩

private theorem rect_regular {x x' y y' : ℝ} (hx : x < x') (hy : y < y') : Regular (box (rect x x' y y')) := by
  rw [box_rect hx.le hy.le, Regular, interior_prod_eq, closure_prod_eq, interior_Icc, interior_Icc,
    closure_Ioo hx.ne, closure_Ioo hy.ne]

/-- Two unit squares, and two unit squares of which one is the same and the other touches the second: the
intersection of GEOS is a square and a line, the cells are the square. -/
private theorem touching : Exact box (some (.collection [.line [⟨3, 0, 0⟩, ⟨3, 1, 0⟩], .polygon (rect 0 1 0 1)]))
    (cover box [rect 0 1 0 1, rect 2 3 0 1] ∩ cover box [rect 0 1 0 1, rect 3 4 0 1]) := by
  refine ⟨_, rfl, ?_, ?_, ?_⟩
  · simp [Flat, Simple]
  · intro c hc
    simp only [polygonsIn, polygonsInAll, List.append_nil, List.nil_append, List.mem_singleton] at hc
    subst hc
    exact rect_regular one_pos one_pos
  · rintro ⟨u, v⟩
    simp only [cover, List.mem_cons, List.not_mem_nil, or_false, exists_eq_or_imp, exists_eq_left, Set.mem_inter_iff,
      Set.mem_ofPred_eq]
    rw [box_rect (by norm_num) (by norm_num), box_rect (by norm_num) (by norm_num),
      box_rect (by norm_num) (by norm_num)]
    simp only [Set.mem_prod, Set.mem_Icc]
    constructor
    · intro hcov
      obtain ⟨g, hg, hq⟩ : ∃ g ∈ [OgrGeom.line [⟨3, 0, 0⟩, ⟨3, 1, 0⟩], OgrGeom.polygon (rect 0 1 0 1)],
          Covers box g (u, v) := by
        cases hcov
        exact ⟨_, ‹_›, ‹_›⟩
      simp only [List.mem_cons, List.not_mem_nil, or_false] at hg
      rcases hg with rfl | rfl
      · generalize hw : ((u, v) : ℝ × ℝ) = w at hq
        cases hq with
        | line l q hl =>
          simp only [OnLine, or_false, OnSegment] at hl
          obtain ⟨t, h0, h1, hx, hy⟩ := hl
          simp only [xy, Prod.mk.injEq] at hw
          refine ⟨.inr ⟨⟨?_, ?_⟩, ?_, ?_⟩, .inr ⟨⟨?_, ?_⟩, ?_, ?_⟩⟩ <;> linarith
      · cases hq with
        | polygon c q hc =>
          rw [box_rect (by norm_num) (by norm_num)] at hc
          simp only [Set.mem_prod, Set.mem_Icc] at hc
          exact ⟨.inl hc, .inl hc⟩
    · rintro ⟨h1, h2⟩
      rcases h1 with h1 | h1
      · refine .collection _ (.polygon (rect 0 1 0 1)) _ (by simp) (.polygon _ _ ?_)
        rw [box_rect (by norm_num) (by norm_num)]
        exact ⟨⟨h1.1.1, h1.1.2⟩, h1.2.1, h1.2.2⟩
      · have hu : u = 3 := by
          rcases h2 with h2 | h2 <;> linarith [h1.1.1, h1.1.2, h2.1.1, h2.1.2]
        refine .collection _ (.line [⟨3, 0, 0⟩, ⟨3, 1, 0⟩]) _ (by simp) ?_
        have := Covers.line (region := box) [⟨3, 0, 0⟩, ⟨3, 1, 0⟩] ⟨3, v, 0⟩
          (.inl ⟨v, h1.2.1, h1.2.2, by norm_num, by norm_num⟩)
        rw [hu]
        exact this

/-- Such a GEOS. -/
private def touchGeos : Geos ℝ :=
  ⟨fun _ _ => some (.collection [.line [⟨3, 0, 0⟩, ⟨3, 1, 0⟩], .polygon (rect 0 1 0 1)]), fun _ _ => none,
    fun _ _ => none, fun _ _ => none⟩

example : ∃ cs, intersection touchGeos [rect 0 1 0 1, rect 2 3 0 1] [rect 0 1 0 1, rect 3 4 0 1] = .ok cs ∧
    cs = [rect 0 1 0 1] ∧ (1 / 2, 1 / 2) ∈ cover box cs ∧
    cover box cs ⊆ cover box [rect 0 1 0 1, rect 2 3 0 1] ∩ cover box [rect 0 1 0 1, rect 3 4 0 1] := by
  obtain ⟨cs, h1, -, -, h4, h5⟩ := C105_intersection box touchGeos [rect 0 1 0 1, rect 2 3 0 1]
    [rect 0 1 0 1, rect 3 4 0 1] touching
  refine ⟨cs, h1, ?_, h4 ?_, h5⟩
  · cases h1
    rfl
  · rw [mem_interior]
    refine ⟨Set.Ioo 0 1 ×ˢ Set.Ioo 0 1, ?_, isOpen_Ioo.prod isOpen_Ioo, by norm_num⟩
    rintro q ⟨⟨h1, h2⟩, h3, h4⟩
    have : q ∈ box (rect 0 1 0 1) := by
      rw [box_rect (by norm_num) (by norm_num)]
      exact ⟨⟨h1.le, h2.le⟩, h3.le, h4.le⟩
    exact ⟨⟨_, by simp, this⟩, _, by simp, this⟩

/-- The flat geometry of the example has one polygon, and `toCells` finds it. -/
example : toCells (.collection [.line [⟨3, 0, 0⟩, ⟨3, 1, 0⟩], .polygon (rect 0 1 0 1)]) = [rect 0 1 0 1] :=
  (C105_polygons_partial _ (by simp [Flat, Simple])).trans (by simp [polygonsIn, polygonsInAll])

/-- A hull that is a line: exactly its positions, but no cell. -/
example : resCell (some (.line [⟨0, 0, 0⟩, ⟨1, 0, 0⟩] : OgrGeom ℝ)) = .throw .invalidArgument := by
  refine C107_flat_throws box _ {q | ∃ p : RPoint, OnLine [⟨0, 0, 0⟩, ⟨1, 0, 0⟩] p ∧ xy p = q}
    ⟨.line [⟨0, 0, 0⟩, ⟨1, 0, 0⟩], rfl, trivial, by simp [polygonsIn], fun q => ⟨?_, ?_⟩⟩ ⟨(0, 0), ⟨0, 0, 0⟩, .inl ⟨0, by simp⟩, rfl⟩
    (Thin.line _).2
  · rintro ⟨⟩
    exact ⟨_, ‹_›, rfl⟩
  · rintro ⟨p, hp, rfl⟩
    exact .line _ p hp

/-- A single polygon is exactly its region. -/
private theorem exact_polygon {region : Cell ℝ → Set (ℝ × ℝ)} {c : Cell ℝ} {s : Set (ℝ × ℝ)} (hr : Regular (region c))
    (hs : region c = s) : Exact region (some (.polygon c)) s := by
  refine ⟨_, rfl, trivial, ?_, fun q => ?_⟩
  · intro d hd
    simp only [polygonsIn, List.mem_singleton] at hd
    exact hd ▸ hr
  · rw [← hs]
    constructor
    · rintro ⟨⟩
      assumption
    · exact .polygon c q

private theorem cover_one {c : Cell ℝ} : cover box [c] = box c := by
  ext q
  simp [cover]

/-- A swath of width 2 from (0, 1) to (2, 1) in the field from 1 to 3: it covers the rectangle from 1 to 2. -/
example : ∃ cs, swathAreaIn (⟨fun _ _ => some (.polygon (rect 1 2 0 2)), fun _ _ => none, fun _ _ => none,
      fun _ _ => some (.polygon (rect 0 2 0 2))⟩ : Geos ℝ) [⟨0, 1, 0⟩, ⟨2, 1, 0⟩] 2 [rect 1 3 0 2] = .ok cs ∧
    (3 / 2, 1) ∈ cover box cs ∧ (1 / 2, 1) ∉ cover box cs := by
  have hbox : box (rect 0 2 0 2) = beside ⟨0, 1, 0⟩ ⟨2, 1, 0⟩ (2 / 2) := by
    rw [box_rect (by norm_num) (by norm_num)]
    ext ⟨u, v⟩
    simp only [Set.mem_prod, Set.mem_Icc, beside, Set.mem_ofPred_eq]
    constructor
    · rintro ⟨⟨h1, h2⟩, h3, h4⟩
      refine ⟨⟨u, 1, 0⟩, ⟨u / 2, by linarith, by linarith, ?_, ?_⟩, ?_, ?_⟩
      · simp only
        ring
      · simp
      · simp
      · simp only [sub_self]
        nlinarith
    · rintro ⟨c, ⟨t, h0, h1, hx, hy⟩, hp, hd⟩
      simp only at hx hy hp
      have hy1 : c.y = 1 := by linarith
      have hu : u = c.x := by linarith
      rw [hu, hy1] at hd
      refine ⟨⟨by rw [hu, hx]; linarith, by rw [hu, hx]; linarith⟩, ?_, ?_⟩ <;> nlinarith
  have hcap : box (rect 1 2 0 2) = cover box [rect 1 3 0 2] ∩ cover box [rect 0 2 0 2] := by
    rw [cover_one, cover_one, box_rect (by norm_num) (by norm_num), box_rect (by norm_num) (by norm_num),
      box_rect (by norm_num) (by norm_num), Set.prod_inter_prod, Set.Icc_inter_Icc, Set.inter_self]
    norm_num
  obtain ⟨cs, h1, h2, h3⟩ := C106_area_covered_partial box (⟨fun _ _ => some (.polygon (rect 1 2 0 2)),
      fun _ _ => none, fun _ _ => none, fun _ _ => some (.polygon (rect 0 2 0 2))⟩ : Geos ℝ) 2 ⟨0, 1, 0⟩ ⟨2, 1, 0⟩
    (by norm_num) [rect 1 3 0 2]
    (fun c hc => by
      rw [List.mem_singleton.1 hc]
      exact rect_regular (by norm_num) (by norm_num))
    (exact_polygon (rect_regular (by norm_num) (by norm_num)) hbox)
    (fun cs hcs => by
      cases hcs
      exact exact_polygon (rect_regular (by norm_num) (by norm_num)) hcap)
  refine ⟨cs, h1, h3 ⟨?_, ?_⟩, fun h => ?_⟩
  · rw [cover_one, box_rect (by norm_num) (by norm_num)]
    norm_num
  · exact ⟨⟨3 / 2, 1, 0⟩, ⟨3 / 4, by norm_num⟩, by norm_num, by norm_num⟩
  · have := (h2 h).1
    rw [cover_one, box_rect (by norm_num) (by norm_num)] at this
    norm_num at this

/-- The buffer around a right angle, mitred, as two rectangles. -/
private def elbow : Cells ℝ := [rect 0 3 (-1) 1, rect 1 3 (-1) 2]

private theorem elbow_mem (q : ℝ × ℝ) : q ∈ cover box elbow ↔
    (0 ≤ q.1 ∧ q.1 ≤ 3 ∧ -1 ≤ q.2 ∧ q.2 ≤ 1) ∨ (1 ≤ q.1 ∧ q.1 ≤ 3 ∧ -1 ≤ q.2 ∧ q.2 ≤ 2) := by
  simp only [cover, elbow, List.mem_cons, List.not_mem_nil, or_false, exists_eq_or_imp, exists_eq_left,
    box_rect (show (0 : ℝ) ≤ 3 by norm_num) (show (-1 : ℝ) ≤ 1 by norm_num),
    box_rect (show (1 : ℝ) ≤ 3 by norm_num) (show (-1 : ℝ) ≤ 2 by norm_num), Set.mem_ofPred_eq, Set.mem_prod,
    Set.mem_Icc, and_assoc]

private theorem elbow_exact (s : Set (ℝ × ℝ)) (hs : cover box elbow = s) :
    Exact box (some (.polygons elbow)) s := by
  refine ⟨_, rfl, trivial, ?_, fun q => ?_⟩
  · intro d hd
    simp only [polygonsIn, elbow, List.mem_cons, List.not_mem_nil, or_false] at hd
    rcases hd with rfl | rfl <;> exact rect_regular (by norm_num) (by norm_num)
  · rw [← hs]
    constructor
    · rintro ⟨⟩
      exact ⟨_, ‹_›, ‹_›⟩
    · rintro ⟨c, hc, hq⟩
      exact .polygons _ c q hc hq

private theorem elbow_strips : cover box elbow =
    beside ⟨0, 0, 0⟩ ⟨2, 0, 0⟩ 1 ∪ beside ⟨2, 0, 0⟩ ⟨2, 2, 0⟩ 1 ∪ Set.Icc 2 3 ×ˢ Set.Icc (-1) 0 := by
  ext ⟨u, v⟩
  rw [elbow_mem]
  simp only [Set.mem_union, Set.mem_prod, Set.mem_Icc, beside, Set.mem_ofPred_eq]
  constructor
  · intro h
    have hb : 0 ≤ u ∧ u ≤ 3 ∧ -1 ≤ v ∧ v ≤ 2 ∧ (v ≤ 1 ∨ 1 ≤ u) := by
      rcases h with ⟨h1, h2, h3, h4⟩ | ⟨h1, h2, h3, h4⟩
      · exact ⟨h1, h2, h3, by linarith, .inl h4⟩
      · exact ⟨by linarith, h2, h3, h4, .inr h1⟩
    obtain ⟨h1, h2, h3, h4, h5⟩ := hb
    by_cases hu : u ≤ 2 ∧ v ≤ 1
    · refine .inl (.inl ⟨⟨u, 0, 0⟩, ⟨u / 2, by linarith, by linarith [hu.1], ?_, ?_⟩, ?_, ?_⟩)
      · simp only; ring
      · simp
      · simp
      · simp only [sub_self]
        nlinarith [hu.2]
    · by_cases hv : 0 ≤ v
      · have hu1 : 1 ≤ u := by
          rcases h5 with h5 | h5
          · by_contra hn
            exact hu ⟨by linarith, h5⟩
          · exact h5
        refine .inl (.inr ⟨⟨2, v, 0⟩, ⟨v / 2, by linarith, by linarith, ?_, ?_⟩, ?_, ?_⟩)
        · simp
        · simp only; ring
        · simp
        · simp only [sub_self]
          nlinarith
      · refine .inr ⟨⟨?_, h2⟩, h3, by linarith⟩
        by_contra hn
        exact hu ⟨by linarith, by linarith⟩
  · rintro ((⟨c, ⟨t, h0, h1, hx, hy⟩, hp, hd⟩ | ⟨c, ⟨t, h0, h1, hx, hy⟩, hp, hd⟩) | ⟨⟨h1, h2⟩, h3, h4⟩)
    · simp only at hx hy hp hd
      have hu : u = c.x := by linarith
      have hy0 : c.y = 0 := by linarith
      rw [hy0] at hd
      exact .inl ⟨by linarith, by linarith, by nlinarith, by nlinarith⟩
    · simp only at hx hy hp hd
      have hv : v = c.y := by linarith
      have hx0 : c.x = 2 := by linarith
      rw [hx0] at hd
      exact .inr ⟨by nlinarith, by nlinarith, by linarith, by linarith⟩
    · exact .inl ⟨by linarith, h2, h3, by linarith⟩

/-- A GEOS that knows this buffer. -/
private def elbowGeos : Geos ℝ := ⟨fun _ _ => some (.polygons elbow), fun _ _ => none, fun _ _ => none,
  fun _ _ => some (.polygons elbow)⟩

/-- The swath around a right angle covers (5/2, 1/2), which is beside its second segment, and (14/5, -4/5). -/
example : (∃ cs, swathAreaIn elbowGeos [⟨0, 0, 0⟩, ⟨2, 0, 0⟩, ⟨2, 2, 0⟩] 2 [rect (-9) 9 (-9) 9] = .ok cs ∧
      (5 / 2, 1 / 2) ∈ cover box cs) ∧
    ∃ cs, swathArea elbowGeos [⟨0, 0, 0⟩, ⟨2, 0, 0⟩, ⟨2, 2, 0⟩] 2 = .ok cs ∧
      ∃ q ∈ cover box cs, q ∉ near [⟨0, 0, 0⟩, ⟨2, 0, 0⟩, ⟨2, 2, 0⟩] 1 := by
  refine ⟨?_, C106_corner box elbowGeos (elbow_exact _ elbow_strips)⟩
  have hfield : cover box [rect (-9) 9 (-9) 9] = Set.Icc (-9) 9 ×ˢ Set.Icc (-9) 9 := by
    rw [cover_one, box_rect (by norm_num) (by norm_num)]
  obtain ⟨cs, h1, -, h3⟩ := C106_bends_partial box elbowGeos 2 2 [⟨0, 0, 0⟩, ⟨2, 0, 0⟩, ⟨2, 2, 0⟩] (by simp)
    (by simp) [rect (-9) 9 (-9) 9]
    (fun c hc => by
      rw [List.mem_singleton.1 hc]
      exact rect_regular (by norm_num) (by norm_num)) (cover box elbow) (elbow_exact _ rfl)
    (by
      rintro q ⟨ab, hab, hq⟩
      have hq' := insideBeside_sub _ _ _ hq
      rw [elbow_strips]
      simp only [List.tail_cons, List.zip_cons_cons, List.zip_nil_right, List.mem_cons, List.not_mem_nil, or_false] at hab
      rw [show (2 : ℝ) / 2 = 1 by norm_num] at hq'
      rcases hab with rfl | rfl
      · exact .inl (.inl hq')
      · exact .inl (.inr hq'))
    (by
      rintro q hq
      rw [elbow_strips] at hq
      rcases hq with (⟨c, hc, -, hd⟩ | ⟨c, hc, -, hd⟩) | ⟨⟨h1, h2⟩, h3, h4⟩
      · exact ⟨c, .inl hc, by linarith⟩
      · exact ⟨c, .inr (.inl hc), by linarith⟩
      · refine ⟨⟨2, 0, 0⟩, .inr (.inl ⟨0, le_rfl, zero_le_one, by simp, by simp⟩), ?_⟩
        simp only
        nlinarith)
    (fun cs hcs => by
      cases hcs
      refine elbow_exact _ (Set.ext fun q => ⟨fun hq => ⟨?_, hq⟩, fun h => h.2⟩)
      rw [hfield]
      rcases (elbow_mem q).1 hq with ⟨h1, h2, h3, h4⟩ | ⟨h1, h2, h3, h4⟩ <;>
        exact ⟨⟨by linarith, by linarith⟩, by linarith, by linarith⟩)
  refine ⟨cs, h1, h3 ⟨?_, (⟨2, 0, 0⟩, ⟨2, 2, 0⟩), by simp, ⟨2, 1 / 2, 0⟩, ⟨1 / 4, by norm_num⟩, by norm_num, by norm_num⟩⟩
  rw [hfield]
  norm_num

private theorem box_preconnected (c : Cell ℝ) : IsPreconnected (box c) := by
  have : box c = {u | (∃ p ∈ c.flatten, p.x ≤ u) ∧ ∃ p ∈ c.flatten, u ≤ p.x} ×ˢ
      {v | (∃ p ∈ c.flatten, p.y ≤ v) ∧ ∃ p ∈ c.flatten, v ≤ p.y} := by
    ext q
    simp only [box, Set.mem_ofPred_eq, Set.mem_prod]
    tauto
  rw [this]
  refine IsPreconnected.prod ?_ ?_
  · refine Set.OrdConnected.isPreconnected ⟨?_⟩
    rintro u ⟨⟨p, hp, h1⟩, -⟩ v ⟨-, r, hr, h2⟩ w ⟨h3, h4⟩
    exact ⟨⟨p, hp, h1.trans h3⟩, r, hr, h4.trans h2⟩
  · refine Set.OrdConnected.isPreconnected ⟨?_⟩
    rintro u ⟨⟨p, hp, h1⟩, -⟩ v ⟨-, r, hr, h2⟩ w ⟨h3, h4⟩
    exact ⟨⟨p, hp, h1.trans h3⟩, r, hr, h4.trans h2⟩

/-- A cell that becomes two squares when it is shrunk: `Cell::buffer` throws. -/
example : resCell (some (.polygons [rect 0 1 0 1, rect 2 3 0 1])) = .throw .invalidArgument := by
  refine C107_apart_throws box box_preconnected _ (cover box [rect 0 1 0 1, rect 2 3 0 1])
    ⟨.polygons [rect 0 1 0 1, rect 2 3 0 1], rfl, trivial, ?_, fun q => ⟨?_, ?_⟩⟩ ?_
  · intro c hc
    simp only [polygonsIn, List.mem_cons, List.not_mem_nil, or_false] at hc
    rcases hc with rfl | rfl <;> exact rect_regular (by norm_num) (by norm_num)
  · rintro ⟨⟩
    exact ⟨_, ‹_›, ‹_›⟩
  · rintro ⟨c, hc, hq⟩
    exact .polygons _ c q hc hq
  · intro h
    have h2 := h.image Prod.fst continuous_fst.continuousOn
    have hm : ∀ x, x ∈ Prod.fst '' cover box [rect 0 1 0 1, rect 2 3 0 1] →
        x ≤ 1 ∨ 2 ≤ x := by
      rintro x ⟨q, ⟨c, hc, hq⟩, rfl⟩
      simp only [List.mem_cons, List.not_mem_nil, or_false] at hc
      rcases hc with rfl | rfl <;> rw [box_rect (by norm_num) (by norm_num)] at hq
      · exact .inl hq.1.2
      · exact .inr hq.1.1
    have hin : ∀ x : ℝ, ∀ c ∈ [rect 0 1 0 1, rect 2 3 0 1], (x, 0) ∈ box c →
        x ∈ Prod.fst '' cover box [rect 0 1 0 1, rect 2 3 0 1] := fun x c hc hq => ⟨(x, 0), ⟨c, hc, hq⟩, rfl⟩
    have h3 := h2.ordConnected.out
      (hin 0 (rect 0 1 0 1) (by simp) (by rw [box_rect (by norm_num) (by norm_num)]; norm_num))
      (hin 3 (rect 2 3 0 1) (by simp) (by rw [box_rect (by norm_num) (by norm_num)]; norm_num))
      (show (3 / 2 : ℝ) ∈ Set.Icc 0 3 by norm_num)
    rcases hm _ h3 with h | h <;> norm_num at h

end F2C.Props
