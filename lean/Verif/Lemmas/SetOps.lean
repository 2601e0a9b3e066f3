import Mathlib.Topology.Order.DenselyOrdered
import Mathlib.Topology.Algebra.Order.Field
import Mathlib.Tactic.Linarith
import Verif.Props.SetOpsSpec

/-! # Geometries as sets of positions -/

namespace F2C

open Props.SetOpsSpec Props.SG Props.DecompSpec OgrGeom

/-! ### Regular sets -/

theorem Props.SetOpsSpec.Regular.closed {s : Set (ℝ × ℝ)} (h : Regular s) : IsClosed s := by
  rw [← h]
  exact isClosed_closure

theorem Props.SetOpsSpec.Regular.of_subset {s : Set (ℝ × ℝ)} (hc : IsClosed s) (h : s ⊆ closure (interior s)) : Regular s :=
  subset_antisymm (closure_minimal interior_subset hc) h

theorem Props.SetOpsSpec.Regular.union {s t : Set (ℝ × ℝ)} (hs : Regular s) (ht : Regular t) : Regular (s ∪ t) := by
  refine Regular.of_subset (hs.closed.union ht.closed) (Set.union_subset ?_ ?_)
  · exact hs.symm.subset.trans (closure_mono (interior_mono Set.subset_union_left))
  · exact ht.symm.subset.trans (closure_mono (interior_mono Set.subset_union_right))

theorem Props.SetOpsSpec.Regular.cover {region : Cell ℝ → Set (ℝ × ℝ)} : ∀ {cs : Cells ℝ}, (∀ c ∈ cs, Regular (region c)) →
    Regular (cover region cs)
  | [], _ => by
    have : Props.SetOpsSpec.cover region [] = ∅ := by
      ext q
      simp [Props.SetOpsSpec.cover]
    rw [this, Regular]
    simp
  | c :: cs, h => by
    have : Props.SetOpsSpec.cover region (c :: cs) = region c ∪ Props.SetOpsSpec.cover region cs := by
      ext q
      simp [Props.SetOpsSpec.cover]
    rw [this]
    exact (h c List.mem_cons_self).union (Regular.cover fun c hc => h c (List.mem_cons_of_mem _ hc))

theorem Props.SetOpsSpec.Regular.diff {s t : Set (ℝ × ℝ)} (hs : Regular s) (ht : IsClosed t) : Regular (closure (s \ t)) := by
  refine Regular.of_subset isClosed_closure (closure_minimal ?_ isClosed_closure)
  rintro q ⟨h1, h2⟩
  rw [← hs] at h1
  rw [mem_closure_iff] at h1 ⊢
  intro o ho hq
  obtain ⟨x, hx, hx2⟩ := h1 (o ∩ tᶜ) (ho.inter ht.isOpen_compl) ⟨hq, h2⟩
  refine ⟨x, hx.1, ?_⟩
  rw [mem_interior]
  exact ⟨interior s ∩ tᶜ, fun y hy => subset_closure ⟨interior_subset hy.1, hy.2⟩,
    isOpen_interior.inter ht.isOpen_compl, hx2, hx.2⟩

/-! ### Thin sets -/

/-- The positions where `a x + b y = c` have no interior. -/
theorem interior_level (a b c : ℝ) (h : a ≠ 0 ∨ b ≠ 0) : interior {q : ℝ × ℝ | a * q.1 + b * q.2 = c} = ∅ := by
  rw [Set.eq_empty_iff_forall_notMem]
  intro q hq
  have hc : Continuous fun t : ℝ => ((q.1 + t * a, q.2 + t * b) : ℝ × ℝ) := by fun_prop
  have h0 : (fun t : ℝ => ((q.1 + t * a, q.2 + t * b) : ℝ × ℝ)) 0 ∈ interior {q : ℝ × ℝ | a * q.1 + b * q.2 = c} := by
    simpa using hq
  have hn := hc.continuousAt.preimage_mem_nhds (isOpen_interior.mem_nhds h0)
  rw [Metric.mem_nhds_iff] at hn
  obtain ⟨e, he, hsub⟩ := hn
  have h1 := interior_subset (hsub (show e / 2 ∈ Metric.ball 0 e by
    rw [Metric.mem_ball, Real.dist_eq, sub_zero, abs_of_pos (half_pos he)]
    exact half_lt_self he))
  have h2 := interior_subset hq
  simp only [Set.mem_ofPred_eq] at h1 h2
  have h3 : e / 2 * (a ^ 2 + b ^ 2) = 0 := by linarith [h1, h2, mul_comm a b]
  rcases mul_eq_zero.1 h3 with h4 | h4
  · linarith
  · rcases h with h | h
    · exact absurd (by nlinarith [sq_nonneg a, sq_nonneg b] : a ^ 2 = 0) (pow_ne_zero 2 h)
    · exact absurd (by nlinarith [sq_nonneg a, sq_nonneg b] : b ^ 2 = 0) (pow_ne_zero 2 h)

/-- Positions of a segment. -/
def segSet (a b : RPoint) : Set (ℝ × ℝ) := {q | ∃ p, OnSegment a b p ∧ xy p = q}

theorem segSet_closed (a b : RPoint) : IsClosed (segSet a b) := by
  have : segSet a b = (fun t : ℝ => ((a.x + t * (b.x - a.x), a.y + t * (b.y - a.y)) : ℝ × ℝ)) '' Set.Icc 0 1 := by
    ext q
    constructor
    · rintro ⟨p, ⟨t, h0, h1, hx, hy⟩, rfl⟩
      exact ⟨t, ⟨h0, h1⟩, by simp [xy, hx, hy]⟩
    · rintro ⟨t, ⟨h0, h1⟩, rfl⟩
      exact ⟨⟨a.x + t * (b.x - a.x), a.y + t * (b.y - a.y), 0⟩, ⟨t, h0, h1, rfl, rfl⟩, rfl⟩
  rw [this]
  exact (isCompact_Icc.image (by fun_prop)).isClosed

theorem segSet_thin (a b : RPoint) : interior (segSet a b) = ∅ := by
  by_cases h : b.y - a.y = 0 ∧ b.x - a.x = 0
  · refine Set.subset_eq_empty (interior_mono ?_) (interior_level 1 0 a.x (.inl one_ne_zero))
    rintro q ⟨p, ⟨t, -, -, hx, -⟩, rfl⟩
    simp [xy, hx, h.2]
  · refine Set.subset_eq_empty (interior_mono ?_)
      (interior_level (b.y - a.y) (-(b.x - a.x)) ((b.y - a.y) * a.x - (b.x - a.x) * a.y)
        (by
          by_contra hc
          rw [not_or, not_not, not_not, neg_eq_zero] at hc
          exact h hc))
    rintro q ⟨p, ⟨t, -, -, hx, hy⟩, rfl⟩
    simp only [xy, Set.mem_ofPred_eq, hx, hy]
    ring

/-- A closed set without interior. -/
def Thin (s : Set (ℝ × ℝ)) : Prop := IsClosed s ∧ interior s = ∅

theorem Thin.union {s t : Set (ℝ × ℝ)} (hs : Thin s) (ht : Thin t) : Thin (s ∪ t) :=
  ⟨hs.1.union ht.1, by rw [interior_union_isClosed_of_interior_empty hs.1 ht.2, hs.2]⟩

theorem Thin.empty : Thin ∅ := ⟨isClosed_empty, interior_empty⟩

theorem Thin.iUnion {α : Type} {f : α → Set (ℝ × ℝ)} : ∀ {l : List α}, (∀ a ∈ l, Thin (f a)) →
    Thin {q | ∃ a ∈ l, q ∈ f a}
  | [], _ => by
    convert Thin.empty using 1
    ext q
    simp
  | a :: l, h => by
    convert (h a List.mem_cons_self).union (Thin.iUnion (l := l) fun b hb => h b (List.mem_cons_of_mem _ hb)) using 1
    ext q
    simp

theorem Thin.point (p : RPoint) : Thin {xy p} :=
  ⟨isClosed_singleton, by
    refine Set.subset_eq_empty (interior_mono ?_) (interior_level 1 0 p.x (.inl one_ne_zero))
    rintro q rfl
    simp [xy]⟩

theorem Thin.line : ∀ l : List RPoint, Thin {q | ∃ p, OnLine l p ∧ xy p = q}
  | [] => by
    convert Thin.empty using 1
    ext q
    simp [OnLine]
  | [_] => by
    convert Thin.empty using 1
    ext q
    simp [OnLine]
  | a :: b :: l => by
    convert Thin.union ⟨segSet_closed a b, segSet_thin a b⟩ (Thin.line (b :: l)) using 1
    ext q
    simp only [OnLine, segSet, Set.mem_ofPred_eq, Set.mem_union]
    constructor
    · rintro ⟨p, h | h, rfl⟩
      · exact .inl ⟨p, h, rfl⟩
      · exact .inr ⟨p, h, rfl⟩
    · rintro (⟨p, h, rfl⟩ | ⟨p, h, rfl⟩)
      · exact ⟨p, .inl h, rfl⟩
      · exact ⟨p, .inr h, rfl⟩

/-! ### Geometries -/

theorem polygonsInAll_simple {K : Type} : ∀ {gs : List (OgrGeom K)}, (∀ g ∈ gs, Simple g) →
    gs.filterMap asPolygon = polygonsInAll gs
  | [], _ => by
    rw [polygonsInAll]
    rfl
  | g :: gs, h => by
    have ih := polygonsInAll_simple (gs := gs) fun g hg => h g (List.mem_cons_of_mem _ hg)
    have hg := h g List.mem_cons_self
    rw [polygonsInAll, ← ih]
    cases g <;> simp [asPolygon, polygonsIn, Simple, List.filterMap_cons] at hg ⊢

theorem toCells_flat {K : Type} {g : OgrGeom K} (h : Flat g) : g.toCells = polygonsIn g := by
  cases g <;> simp only [toCells, polygonsIn]
  exact polygonsInAll_simple h

/-- The positions of a simple geometry: those of its polygon and a thin set. -/
theorem simple_split (region : Cell ℝ → Set (ℝ × ℝ)) {g : OgrGeom ℝ} (h : Simple g) :
    ∃ t, Thin t ∧ ∀ q, Covers region g q ↔ q ∈ cover region (polygonsIn g) ∨ q ∈ t := by
  cases g with
  | point p =>
    refine ⟨_, Thin.point p, fun q => ⟨?_, ?_⟩⟩
    · rintro ⟨⟩
      exact .inr rfl
    · rintro (⟨c, hc, -⟩ | rfl)
      · cases hc
      · exact .point p
  | line l =>
    refine ⟨_, Thin.line l, fun q => ⟨?_, ?_⟩⟩
    · rintro ⟨⟩
      exact .inr ⟨_, ‹_›, rfl⟩
    · rintro (⟨c, hc, -⟩ | ⟨p, hp, rfl⟩)
      · cases hc
      · exact .line l p hp
  | polygon c =>
    refine ⟨_, Thin.empty, fun q => ⟨?_, ?_⟩⟩
    · rintro ⟨⟩
      exact .inl ⟨c, List.mem_singleton_self _, ‹_›⟩
    · rintro (⟨c', hc, hq⟩ | h)
      · cases List.mem_singleton.1 hc
        exact .polygon c q hq
      · cases h
  | points ps =>
    refine ⟨_, Thin.iUnion (l := ps) (f := fun p => {xy p}) fun p _ => Thin.point p, fun q => ⟨?_, ?_⟩⟩
    · rintro ⟨⟩
      exact .inr ⟨_, ‹_›, rfl⟩
    · rintro (⟨c, hc, -⟩ | ⟨p, hp, rfl⟩)
      · cases hc
      · exact .points ps p hp
  | lines ls =>
    refine ⟨_, Thin.iUnion (l := ls) (f := fun l => {q | ∃ p, OnLine l p ∧ xy p = q}) fun l _ => Thin.line l,
      fun q => ⟨?_, ?_⟩⟩
    · rintro ⟨⟩
      exact .inr ⟨_, ‹_›, _, ‹_›, rfl⟩
    · rintro (⟨c, hc, -⟩ | ⟨l, hl, p, hp, rfl⟩)
      · cases hc
      · exact .lines ls l p hl hp
  | polygons _ => exact absurd h (by simp [Simple])
  | collection _ => exact absurd h (by simp [Simple])
  | other => exact absurd h (by simp [Simple])

theorem all_split (region : Cell ℝ → Set (ℝ × ℝ)) : ∀ {gs : List (OgrGeom ℝ)}, (∀ g ∈ gs, Simple g) →
    ∃ t, Thin t ∧ ∀ q, (∃ g ∈ gs, Covers region g q) ↔ q ∈ cover region (polygonsInAll gs) ∨ q ∈ t
  | [], _ => ⟨∅, Thin.empty, fun q => by simp [cover, polygonsInAll]⟩
  | g :: gs, h => by
    obtain ⟨t1, h1, h2⟩ := simple_split region (h g List.mem_cons_self)
    obtain ⟨t2, h3, h4⟩ := all_split region (gs := gs) fun g hg => h g (List.mem_cons_of_mem _ hg)
    refine ⟨_, h1.union h3, fun q => ?_⟩
    have e : q ∈ cover region (polygonsInAll (g :: gs)) ↔
        q ∈ cover region (polygonsIn g) ∨ q ∈ cover region (polygonsInAll gs) := by
      simp only [cover, polygonsInAll, List.mem_append, Set.mem_ofPred_eq, or_and_right, exists_or]
    rw [e, List.exists_mem_cons_iff, h2, h4, Set.mem_union]
    tauto

/-- The positions of a flat geometry: those of its polygons and a thin set. -/
theorem flat_split (region : Cell ℝ → Set (ℝ × ℝ)) {g : OgrGeom ℝ} (h : Flat g) :
    ∃ t, Thin t ∧ ∀ q, Covers region g q ↔ q ∈ cover region (polygonsIn g) ∨ q ∈ t := by
  cases g with
  | point p => exact simple_split region (g := .point p) trivial
  | line l => exact simple_split region (g := .line l) trivial
  | polygon c => exact simple_split region (g := .polygon c) trivial
  | points ps => exact simple_split region (g := .points ps) trivial
  | lines ls => exact simple_split region (g := .lines ls) trivial
  | polygons cs =>
    refine ⟨_, Thin.empty, fun q => ⟨?_, ?_⟩⟩
    · rintro ⟨⟩
      exact .inl ⟨_, ‹_›, ‹_›⟩
    · rintro (⟨c', hc, hq⟩ | h)
      · exact .polygons cs c' q hc hq
      · cases h
  | collection gs =>
    obtain ⟨t, h1, h2⟩ := all_split region (gs := gs) h
    refine ⟨t, h1, fun q => ?_⟩
    rw [polygonsIn, ← h2]
    constructor
    · rintro ⟨⟩
      exact ⟨_, ‹_›, ‹_›⟩
    · rintro ⟨g, hg, hq⟩
      exact .collection gs g q hg hq
  | other => exact absurd h (by simp [Flat])

/-- What cells are made of an exact result. -/
theorem exact_cells {region : Cell ℝ → Set (ℝ × ℝ)} {r : Option (OgrGeom ℝ)} {s : Set (ℝ × ℝ)}
    (h : Exact region r s) :
    ∃ cs, resCells r = .ok cs ∧ (∀ c ∈ cs, Regular (region c)) ∧
      Props.SetOpsSpec.cover region cs = closure (interior s) ∧ IsClosed s := by
  obtain ⟨g, rfl, hf, hr, hs⟩ := h
  obtain ⟨t, ht, hsplit⟩ := flat_split region hf
  have hreg : Regular (cover region (polygonsIn g)) := Regular.cover hr
  have e : s = cover region (polygonsIn g) ∪ t := by
    ext q
    rw [← hs, hsplit]
    rfl
  refine ⟨_, rfl, ?_, ?_, ?_⟩
  · rw [toCells_flat hf]
    exact hr
  · rw [toCells_flat hf, e, interior_union_isClosed_of_interior_empty hreg.closed ht.2]
    exact hreg.symm
  · rw [e]
    exact hreg.closed.union ht.1

/-- Coordinates along and across a segment. -/
theorem insideBeside_iff {a b : RPoint} {d : ℝ} (hab : 0 < (b.x - a.x) ^ 2 + (b.y - a.y) ^ 2) (q : ℝ × ℝ) :
    q ∈ insideBeside a b d ↔
      0 < (q.1 - a.x) * (b.x - a.x) + (q.2 - a.y) * (b.y - a.y) ∧
      (q.1 - a.x) * (b.x - a.x) + (q.2 - a.y) * (b.y - a.y) < (b.x - a.x) ^ 2 + (b.y - a.y) ^ 2 ∧
      ((q.1 - a.x) * (b.y - a.y) - (q.2 - a.y) * (b.x - a.x)) ^ 2 < d ^ 2 * ((b.x - a.x) ^ 2 + (b.y - a.y) ^ 2) := by
  constructor
  · rintro ⟨c, ⟨t, h0, h1, hx, hy⟩, hp, hd⟩
    have e : (q.1 - a.x) * (b.x - a.x) + (q.2 - a.y) * (b.y - a.y) = t * ((b.x - a.x) ^ 2 + (b.y - a.y) ^ 2) := by
      rw [hx, hy] at hp
      linarith
    refine ⟨by rw [e]; positivity, ?_, ?_⟩
    · rw [e]
      nlinarith
    · have e2 : ((q.1 - a.x) * (b.y - a.y) - (q.2 - a.y) * (b.x - a.x)) ^ 2 =
          ((q.1 - c.x) ^ 2 + (q.2 - c.y) ^ 2) * ((b.x - a.x) ^ 2 + (b.y - a.y) ^ 2) -
          ((q.1 - c.x) * (b.x - a.x) + (q.2 - c.y) * (b.y - a.y)) ^ 2 := by
        rw [hx, hy]
        ring
      rw [e2, hp]
      have := mul_lt_mul_of_pos_right hd hab
      linarith
  · rintro ⟨h1, h2, h3⟩
    set n := (b.x - a.x) ^ 2 + (b.y - a.y) ^ 2 with hn
    set t := ((q.1 - a.x) * (b.x - a.x) + (q.2 - a.y) * (b.y - a.y)) / n with ht
    have htn : t * n = (q.1 - a.x) * (b.x - a.x) + (q.2 - a.y) * (b.y - a.y) := div_mul_cancel₀ _ hab.ne'
    have hp : (q.1 - (a.x + t * (b.x - a.x))) * (b.x - a.x) + (q.2 - (a.y + t * (b.y - a.y))) * (b.y - a.y) = 0 := by
      rw [hn] at htn
      linarith
    refine ⟨⟨a.x + t * (b.x - a.x), a.y + t * (b.y - a.y), 0⟩,
      ⟨t, div_pos h1 hab, (div_lt_one hab).2 h2, rfl, rfl⟩, hp, ?_⟩
    have e2 : ((q.1 - a.x) * (b.y - a.y) - (q.2 - a.y) * (b.x - a.x)) ^ 2 =
        ((q.1 - (a.x + t * (b.x - a.x))) ^ 2 + (q.2 - (a.y + t * (b.y - a.y))) ^ 2) * n -
        ((q.1 - (a.x + t * (b.x - a.x))) * (b.x - a.x) + (q.2 - (a.y + t * (b.y - a.y))) * (b.y - a.y)) ^ 2 := by
      rw [hn]
      ring
    rw [e2, hp] at h3
    have : ((q.1 - (a.x + t * (b.x - a.x))) ^ 2 + (q.2 - (a.y + t * (b.y - a.y))) ^ 2) * n < d ^ 2 * n := by
      linarith
    exact lt_of_mul_lt_mul_right this hab.le

theorem insideBeside_open (a b : RPoint) (d : ℝ) (hab : 0 < (b.x - a.x) ^ 2 + (b.y - a.y) ^ 2) :
    IsOpen (insideBeside a b d) := by
  have : insideBeside a b d = {q | 0 < (q.1 - a.x) * (b.x - a.x) + (q.2 - a.y) * (b.y - a.y)} ∩
      ({q | (q.1 - a.x) * (b.x - a.x) + (q.2 - a.y) * (b.y - a.y) < (b.x - a.x) ^ 2 + (b.y - a.y) ^ 2} ∩
      {q | ((q.1 - a.x) * (b.y - a.y) - (q.2 - a.y) * (b.x - a.x)) ^ 2 <
        d ^ 2 * ((b.x - a.x) ^ 2 + (b.y - a.y) ^ 2)}) := by
    ext q
    exact insideBeside_iff hab q
  rw [this]
  refine (isOpen_lt (by fun_prop) (by fun_prop)).inter ((isOpen_lt (by fun_prop) (by fun_prop)).inter
    (isOpen_lt (by fun_prop) (by fun_prop)))

theorem insideBeside_sub (a b : RPoint) (d : ℝ) : insideBeside a b d ⊆ beside a b d := by
  rintro q ⟨c, ⟨t, h0, h1, hx, hy⟩, hp, hd⟩
  exact ⟨c, ⟨t, h0.le, h1.le, hx, hy⟩, hp, hd.le⟩

end F2C
