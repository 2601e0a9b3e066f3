import Mathlib.Tactic.Linarith
import Mathlib.Tactic.Ring
import Mathlib.Tactic.Push
import Mathlib.Data.List.Perm.Subperm
import Verif.Props.ShortestGraphSpec
import Verif.Lemmas.Graph2D
import Verif.Lemmas.Border

/-! # Lemmas about the headland graph -/

set_option linter.unusedSimpArgs false
set_option linter.unusedVariables false
set_option linter.unusedSectionVars false

namespace F2C.HeadL

open Outcome Graph2DSpec Graph2DL GraphL HeadSpec Planner Props.SG Props.Geo

/-! ## Geometry -/

theorem onSegment_symm {a b m : RPoint} (h : OnSegment a b m) : OnSegment b a m := by
  obtain ⟨t, h0, h1, hx, hy⟩ := h
  exact ⟨1 - t, by linarith, by linarith, by rw [hx]; ring, by rw [hy]; ring⟩

theorem onSegment_left (a b : RPoint) : OnSegment a b a := ⟨0, le_refl _, zero_le_one, by ring, by ring⟩

theorem onSegment_right (a b : RPoint) : OnSegment a b b := ⟨1, zero_le_one, le_refl _, by ring, by ring⟩

theorem pdist_mix (x y u v : RPoint) {t : ℝ} (h0 : 0 ≤ t) (h1 : t ≤ 1) {m w : RPoint}
    (mx : m.x = x.x + t * (y.x - x.x)) (my : m.y = x.y + t * (y.y - x.y))
    (wx : w.x = u.x + t * (v.x - u.x)) (wy : w.y = u.y + t * (v.y - u.y)) :
    pdist m w ≤ (1 - t) * pdist x u + t * pdist y v := by
  rw [pdist_eq_norm, pdist_eq_norm, pdist_eq_norm]
  have e : (⟨m.x - w.x, m.y - w.y⟩ : ℂ) =
      ((1 - t : ℝ) : ℂ) * ⟨x.x - u.x, x.y - u.y⟩ + (t : ℂ) * ⟨y.x - v.x, y.y - v.y⟩ := by
    apply Complex.ext
    · simp [mx, wx]; ring
    · simp [my, wy]; ring
  rw [e]
  refine (norm_add_le _ _).trans ?_
  rw [norm_mul, norm_mul, Complex.norm_real, Complex.norm_real, Real.norm_of_nonneg (by linarith),
    Real.norm_of_nonneg h0]

/-- a point between two points of a segment is on it -/
theorem onSegment_mix {a b u v w : RPoint} (hu : OnSegment a b u) (hv : OnSegment a b v) {t : ℝ}
    (h0 : 0 ≤ t) (h1 : t ≤ 1) (wx : w.x = u.x + t * (v.x - u.x)) (wy : w.y = u.y + t * (v.y - u.y)) :
    OnSegment a b w := by
  obtain ⟨s, s0, s1, ux, uy⟩ := hu
  obtain ⟨r, r0, r1, vx, vy⟩ := hv
  refine ⟨s + t * (r - s), ?_, ?_, ?_, ?_⟩
  · nlinarith [mul_nonneg h0 r0, mul_nonneg (sub_nonneg.2 h1) s0]
  · nlinarith [mul_nonneg h0 (sub_nonneg.2 r1), mul_nonneg (sub_nonneg.2 h1) (sub_nonneg.2 s1)]
  · rw [wx, ux, vx]; ring
  · rw [wy, uy, vy]; ring

/-- Both points are near a track. -/
def Tr (R : RPoint → RPoint → Prop) (δ : ℝ) (x y : RPoint) : Prop :=
  ∃ a b, R a b ∧ (∃ u, OnSegment a b u ∧ pdist x u ≤ δ) ∧ ∃ v, OnSegment a b v ∧ pdist y v ≤ δ

theorem Tr.symm {R δ x y} (h : Tr R δ x y) : Tr R δ y x := by
  obtain ⟨a, b, h1, h2, h3⟩ := h
  exact ⟨a, b, h1, h3, h2⟩

theorem Tr.mono {R δ δ' x y} (h : Tr R δ x y) (hd : δ ≤ δ') : Tr R δ' x y := by
  obtain ⟨a, b, h1, ⟨u, h2, h3⟩, v, h4, h5⟩ := h
  exact ⟨a, b, h1, ⟨u, h2, h3.trans hd⟩, v, h4, h5.trans hd⟩

theorem Tr.of {R : RPoint → RPoint → Prop} {x y} (h : R x y) : Tr R 0 x y :=
  ⟨x, y, h, ⟨x, onSegment_left _ _, by rw [pdist_self]⟩, y, onSegment_right _ _, by rw [pdist_self]⟩

theorem Tr.along {R δ x y} (h : Tr R δ x y) :
    ∃ a b, R a b ∧ ∀ m, OnSegment x y m → ∃ w, OnSegment a b w ∧ pdist m w ≤ δ := by
  obtain ⟨a, b, h1, ⟨u, hu, hu'⟩, v, hv, hv'⟩ := h
  refine ⟨a, b, h1, ?_⟩
  rintro m ⟨t, h0, h1, mx, my⟩
  refine ⟨⟨u.x + t * (v.x - u.x), u.y + t * (v.y - u.y), 0⟩, onSegment_mix hu hv h0 h1 rfl rfl, ?_⟩
  refine (pdist_mix x y u v h0 h1 mx my rfl rfl).trans ?_
  have a1 := mul_le_mul_of_nonneg_left hu' (sub_nonneg.2 h1)
  have a2 := mul_le_mul_of_nonneg_left hv' h0
  linarith

theorem segmentDistance_zero {a b q : RPoint} (h : OnSegment a b q) : segmentDistance q a b = 0 := by
  unfold segmentDistance
  have h' : OnSegment { a with z := 0 } { b with z := 0 } q := h
  have := closest_min { q with z := 0 } { a with z := 0 } { b with z := 0 } rfl h'
  have e : pdist ({ q with z := 0 } : RPoint) q = 0 := by rw [pdist_eq_zero]; exact ⟨rfl, rfl⟩
  rw [e] at this
  exact le_antisymm this (pdist_nonneg _ _)

/-- a node near the way between two points near a track -/
theorem Tr.split {R δ d x y n} (h : Tr R δ x y) (hn : segmentDistance n x y < d) : Tr R (δ + d) x n := by
  obtain ⟨a, b, h1, h2⟩ := h.along
  obtain ⟨u, hu, hu'⟩ := h2 x (onSegment_left _ _)
  have hc : OnSegment x y (closestInSegment { n with z := 0 } { x with z := 0 } { y with z := 0 }) :=
    closest_on_segment { n with z := 0 } { x with z := 0 } { y with z := 0 }
  obtain ⟨v, hv, hv'⟩ := h2 _ hc
  refine ⟨a, b, h1, ⟨u, hu, ?_⟩, v, hv, ?_⟩
  · have := (pdist_nonneg _ _).trans_lt (show pdist n _ < d from hn)
    linarith
  · refine (pdist_triangle _ (closestInSegment { n with z := 0 } { x with z := 0 } { y with z := 0 }) _).trans ?_
    have : pdist n (closestInSegment { n with z := 0 } { x with z := 0 } { y with z := 0 }) < d := hn
    linarith

theorem segmentDistance_symm_split {R δ d x y n} (h : Tr R δ x y) (hn : segmentDistance n x y < d) :
    Tr R (δ + d) n y := by
  obtain ⟨a, b, h1, h2⟩ := h.along
  obtain ⟨u, hu, hu'⟩ := h2 y (onSegment_right _ _)
  obtain ⟨a', b', h1', ⟨_, _, _⟩, v, hv, hv'⟩ := h.split hn
  have hc : OnSegment x y (closestInSegment { n with z := 0 } { x with z := 0 } { y with z := 0 }) :=
    closest_on_segment { n with z := 0 } { x with z := 0 } { y with z := 0 }
  obtain ⟨w, hw, hw'⟩ := h2 _ hc
  refine ⟨a, b, h1, ⟨w, hw, ?_⟩, u, hu, ?_⟩
  · refine (pdist_triangle _ (closestInSegment { n with z := 0 } { x with z := 0 } { y with z := 0 }) _).trans ?_
    have : pdist n (closestInSegment { n with z := 0 } { x with z := 0 } { y with z := 0 }) < d := hn
    linarith
  · have := (pdist_nonneg _ _).trans_lt (show pdist n _ < d from hn)
    linarith

/-! ## Where points are joined to the border -/

theorem pickClosest_mem (p : RPoint) {ps : List RPoint} (h : ps ≠ []) :
    ∃ q ∈ ps, pickClosest p ps = .ok q := by
  obtain ⟨q, h1, h2, -⟩ := pickClosest_spec p h
  exact ⟨q, h1, h2⟩

theorem joined_ring (p : RPoint) (r : Ring ℝ) (h : 2 ≤ r.length) :
    ∃ q, closestPointTo p r = .ok q ∧ OnLine r q := by
  have hne : segmentClosest p r ≠ [] := by
    match r, h with
    | a :: b :: l, _ => simp [segmentClosest]
  obtain ⟨q, hq, he⟩ := pickClosest_mem p hne
  refine ⟨q, ?_, segmentClosest_on p r q hq⟩
  match r, h with
  | a :: b :: l, _ => simpa [closestPointTo] using he

theorem iter_cell {c : Cell ℝ} (h : c ≠ [] ∧ ∀ r ∈ c, 2 ≤ r.length) : Cell.iter c = c := by
  unfold Cell.iter
  rw [if_neg]
  intro hall
  obtain ⟨r, hr⟩ := List.exists_mem_of_ne_nil _ h.1
  have h1 := List.all_eq_true.1 hall r hr
  have h2 := h.2 r hr
  cases r with
  | nil => simp at h2
  | cons => simp at h1

theorem iter_cells {cells : Cells ℝ} (h : Usable cells) : Cells.iter cells = cells := by
  unfold Cells.iter
  rw [if_neg]
  intro hall
  obtain ⟨c, hc⟩ := List.exists_mem_of_ne_nil _ h.1
  have h1 := List.all_eq_true.1 hall c hc
  obtain ⟨r, hr⟩ := List.exists_mem_of_ne_nil _ (h.2 c hc).1
  have h3 := List.all_eq_true.1 h1 r hr
  have h2 := (h.2 c hc).2 r hr
  cases r with
  | nil => simp at h2
  | cons => simp at h3

theorem iter_rings {cells : Cells ℝ} (h : Usable cells) :
    (Cells.iter cells).flatMap Cell.iter = cells.flatten := by
  rw [iter_cells h]
  have := h.2
  clear h
  induction cells with
  | nil => rfl
  | cons c cells ih =>
    rw [List.flatMap_cons, List.flatten_cons, iter_cell (this c (by simp)),
      ih (fun x hx => this x (List.mem_cons_of_mem _ hx))]

theorem joined_cell (p : RPoint) {c : Cell ℝ} (h : c ≠ [] ∧ ∀ r ∈ c, 2 ≤ r.length) :
    ∃ q, Cell.closestOnBorder p c = .ok q ∧ ∃ r ∈ c, OnLine r q := by
  unfold Cell.closestOnBorder
  rw [iter_cell h]
  obtain ⟨bs, h1, h2⟩ := mapOutcome_spec (f := closestPointTo p) (P := fun r q => OnLine r q)
    (fun r hr => joined_ring p r (h.2 r hr))
  have hne : bs ≠ [] := by rintro rfl; cases h2; exact h.1 rfl
  obtain ⟨q, hq, he⟩ := pickClosest_mem p hne
  obtain ⟨r, hr, hon⟩ := forall₂_mem_right h2 hq
  exact ⟨q, by rw [h1]; exact he, r, hr, hon⟩

theorem joined_cells (p : RPoint) {cells : Cells ℝ} (h : Usable cells) :
    ∃ q, Cells.closestOnBorder p cells = .ok q ∧ ∃ r ∈ cells.flatten, OnLine r q := by
  unfold Cells.closestOnBorder
  rw [iter_cells h]
  obtain ⟨bs, h1, h2⟩ := mapOutcome_spec (f := Cell.closestOnBorder p) (P := fun c q => ∃ r ∈ c, OnLine r q)
    (fun c hc => joined_cell p (h.2 c hc))
  have hne : bs ≠ [] := by rintro rfl; cases h2; exact h.1 rfl
  obtain ⟨q, hq, he⟩ := pickClosest_mem p hne
  obtain ⟨c, hc, r, hr, hon⟩ := forall₂_mem_right h2 hq
  exact ⟨q, by rw [h1]; exact he, r, List.mem_flatten.2 ⟨c, hc, hr⟩, hon⟩

theorem onLine_side {r : List RPoint} {q : RPoint} (h : OnLine r q) :
    ∃ a b pre post, r = pre ++ a :: b :: post ∧ OnSegment a b q := by
  induction r with
  | nil => exact absurd h (by simp [OnLine])
  | cons a l ih =>
    cases l with
    | nil => exact absurd h (by simp [OnLine])
    | cons b l =>
      rcases h with h | h
      · exact ⟨a, b, [], l, rfl, h⟩
      · obtain ⟨a', b', pre, post, e, h'⟩ := ih h
        exact ⟨a', b', a :: pre, post, by rw [e]; rfl, h'⟩

theorem mem_zip_tail {r : List RPoint} {a b : RPoint} (h : (a, b) ∈ r.zip r.tail) :
    ∃ pre post, r = pre ++ a :: b :: post := by
  induction r with
  | nil => simp at h
  | cons x l ih =>
    cases l with
    | nil => simp at h
    | cons y l =>
      simp only [List.tail_cons, List.zip_cons_cons, List.mem_cons, Prod.mk.injEq] at h
      rcases h with ⟨rfl, rfl⟩ | h
      · exact ⟨[], l, rfl⟩
      · obtain ⟨pre, post, e⟩ := ih h
        exact ⟨x :: pre, post, by rw [e]; rfl⟩

theorem zip_tail_mem (pre post : List RPoint) (a b : RPoint) :
    (a, b) ∈ (pre ++ a :: b :: post).zip (pre ++ a :: b :: post).tail := by
  induction pre with
  | nil => simp
  | cons x pre ih =>
    cases pre with
    | nil => simp
    | cons y pre =>
      simp only [List.cons_append, List.tail_cons, List.zip_cons_cons, List.mem_cons] at ih ⊢
      exact Or.inr ih

/-! ## Edges as a relation -/

/-- There is an edge. -/
def Ed (es : List (PEdit ℝ)) (a b : RPoint) : Prop := costs es a b ≠ none

/-- There is a way. -/
def Reach (es : List (PEdit ℝ)) : RPoint → RPoint → Prop := Relation.ReflTransGen (Ed es)

theorem costs_concat (es : List (PEdit ℝ)) (e : PEdit ℝ) (a b : RPoint) :
    costs (es ++ [e]) a b = costAfter a b (costs es a b) e := by
  simp [costs, List.foldl_append]

theorem ed_add (es : List (PEdit ℝ)) (a b : RPoint) (c : Int) (x y : RPoint) :
    Ed (es ++ [.add a b c]) x y ↔ Ed es x y ∨ (x = a ∧ y = b) ∨ (x = b ∧ y = a) := by
  unfold Ed
  rw [costs_concat]
  simp only [costAfter]
  by_cases h : (a = x ∧ b = y) ∨ (a = y ∧ b = x)
  · rw [if_pos h]
    simp only [ne_eq, reduceCtorEq, not_false_eq_true, true_iff]
    rcases h with ⟨rfl, rfl⟩ | ⟨rfl, rfl⟩ <;> simp
  · rw [if_neg h]
    constructor
    · exact Or.inl
    · rintro (h' | ⟨rfl, rfl⟩ | ⟨rfl, rfl⟩)
      · exact h'
      · exact absurd (Or.inl ⟨rfl, rfl⟩) h
      · exact absurd (Or.inr ⟨rfl, rfl⟩) h

theorem ed_remove (es : List (PEdit ℝ)) (a b x y : RPoint) :
    Ed (es ++ [.remove a b]) x y ↔ Ed es x y ∧ ¬ ((x = a ∧ y = b) ∨ (x = b ∧ y = a)) := by
  unfold Ed
  rw [costs_concat]
  simp only [costAfter]
  by_cases h : (a = x ∧ b = y) ∨ (a = y ∧ b = x)
  · rw [if_pos h]
    simp only [ne_eq, not_true_eq_false, false_iff, not_and, not_not]
    rintro -
    rcases h with ⟨rfl, rfl⟩ | ⟨rfl, rfl⟩ <;> simp
  · rw [if_neg h]
    refine ⟨fun h' => ⟨h', fun hn => h ?_⟩, And.left⟩
    rcases hn with ⟨rfl, rfl⟩ | ⟨rfl, rfl⟩ <;> simp

/-! ## The state -/

/-- What holds of the graph all the time: it was made by the calls `es`, which are about points of
`S` and cost at most `M`, namely the distance in whole millimetres. -/
structure St (T : PointTable ℝ) (S : List RPoint) (M : Int) (g : Graph2D ℝ) (es : List (PEdit ℝ)) : Prop where
  run : run T es = .ok g
  sub : ∀ p ∈ nodes es, p ∈ S
  known : RemovesKnown es
  und : Undirected (M + 1) es
  len : ∀ a b c, PEdit.add a b c ∈ es → c = ⌊1000 * pdist a b⌋

/-- What is assumed of the points. -/
structure Pts (T : PointTable ℝ) (S : List RPoint) (M : Int) : Prop where
  law : T.IsLawful
  sep : Separated S
  hash : HashOk T S
  near : ∀ a ∈ S, ∀ b ∈ S, ⌊1000 * pdist a b⌋ ≤ M
  M0 : 0 ≤ M
  M1 : M < 2 ^ 30

variable {T : PointTable ℝ} {S : List RPoint} {M : Int}

theorem St.good (hp : Pts T S M) {g es} (h : St T S M g es) : Good g (nodes es) (costs es) := by
  obtain ⟨g', h1, h2, -⟩ := run_good hp.law es (fun p hp' q hq => hp.sep p (h.sub p hp') q (h.sub q hq))
    (fun p hp' => hp.hash p (h.sub p hp')) h.known
  rw [h.run] at h1
  obtain rfl : g = g' := by simpa using h1
  exact h2

theorem St.ed_mem (hp : Pts T S M) {g es} (h : St T S M g es) {a b} (he : Ed es a b) :
    a ∈ nodes es ∧ b ∈ nodes es := (h.good hp).dom a b he

theorem mem_nodes_add (es : List (PEdit ℝ)) (a b : RPoint) (c : Int) (p : RPoint) :
    p ∈ nodes (es ++ [.add a b c]) ↔ p ∈ nodes es ∨ p = a ∨ p = b := by
  rw [nodes_concat]
  simp [PEdit.points, mem_ext, or_assoc]

theorem nodes_remove (es : List (PEdit ℝ)) (a b : RPoint) :
    nodes (es ++ [.remove a b]) = nodes es := by
  rw [nodes_concat]; rfl

theorem nodes_add_eq (es : List (PEdit ℝ)) {a b : RPoint} (c : Int) (ha : a ∈ nodes es) (hb : b ∈ nodes es) :
    nodes (es ++ [.add a b c]) = nodes es := by
  rw [nodes_concat]
  simp [PEdit.points, ext_of_mem ha, ext_of_mem hb]

theorem removesKnown_concat {es : List (PEdit ℝ)} (h : RemovesKnown es) (e : PEdit ℝ)
    (he : ∀ a b, e = .remove a b → a ∈ nodes es ∧ b ∈ nodes es) : RemovesKnown (es ++ [e]) := by
  intro pre a b post heq
  rcases List.eq_nil_or_concat post with rfl | ⟨post', x, rfl⟩
  · obtain ⟨rfl, h2⟩ := List.append_inj' heq rfl
    exact he a b (by simpa using h2)
  · have : es ++ [e] = (pre ++ .remove a b :: post') ++ [x] := by rw [heq]; simp
    obtain ⟨rfl, -⟩ := List.append_inj' this rfl
    exact h pre a b post' rfl

theorem undirected_concat {inf : Int} {es : List (PEdit ℝ)} (h : Undirected inf es) (e : PEdit ℝ)
    (he : Undirected inf [e]) : Undirected inf (es ++ [e]) := by
  intro x hx
  rcases List.mem_append.1 hx with hx | hx
  · exact h x hx
  · exact he x hx

theorem St.addEdge (hp : Pts T S M) {g es} (h : St T S M g es) {a b : RPoint} (ha : a ∈ S) (hb : b ∈ S) :
    ∃ g' c, addEdgeDist T g a b = .ok g' ∧ St T S M g' (es ++ [.add a b c]) := by
  have h0 : 0 ≤ ⌊1000 * pdist a b⌋ := Int.floor_nonneg.2 (by have := pdist_nonneg a b; linarith)
  have hM := hp.near a ha b hb
  have hs : scaledDist a b = .ok ⌊1000 * pdist a b⌋ := by
    unfold scaledDist
    rw [if_pos]
    have := hp.M1
    norm_num at this
    linarith
  generalize hc : ⌊1000 * pdist a b⌋ = c at *
  have hsub : ∀ p ∈ nodes (es ++ [.add a b c]), p ∈ S := by
    intro p hp'
    rw [mem_nodes_add] at hp'
    rcases hp' with hp' | rfl | rfl
    · exact h.sub p hp'
    · exact ha
    · exact hb
  obtain ⟨g', h1, h2, -⟩ := exec_good hp.law (e := .add a b c) (h.good hp)
    (fun p hp' q hq => hp.sep p (hsub p hp') q (hsub q hq)) (fun p hp' => hp.hash p (hsub p hp'))
    (by intro x y hxy; cases hxy)
  refine ⟨g', c, ?_, ?_, hsub, removesKnown_concat h.known _ (by intro x y hxy; cases hxy), ?_, ?_⟩
  · unfold addEdgeDist
    rw [hs, Outcome.ok_bind]
    exact h1
  · rw [run_concat, h.run, Outcome.ok_bind, h1]
  · refine undirected_concat h.und _ ?_
    intro e he
    simp only [List.mem_singleton] at he
    subst he
    exact ⟨h0, by linarith⟩
  · intro x y z hz
    rcases List.mem_append.1 hz with hz | hz
    · exact h.len x y z hz
    · simp only [List.mem_singleton, PEdit.add.injEq] at hz
      obtain ⟨rfl, rfl, rfl⟩ := hz
      exact hc.symm

theorem St.removeEdge (hp : Pts T S M) {g es} (h : St T S M g es) {a b : RPoint} (ha : a ∈ nodes es)
    (hb : b ∈ nodes es) : ∃ g', g.removeEdge T a b = .ok g' ∧ St T S M g' (es ++ [.remove a b]) := by
  have hn := nodes_remove es a b
  have hsub : ∀ p ∈ nodes (es ++ [.remove a b]), p ∈ S := by rw [hn]; exact h.sub
  obtain ⟨g', h1, h2, -⟩ := exec_good hp.law (e := .remove a b) (h.good hp)
    (fun p hp' q hq => hp.sep p (hsub p hp') q (hsub q hq)) (fun p hp' => hp.hash p (hsub p hp'))
    (by intro x y hxy; cases hxy; exact ⟨ha, hb⟩)
  refine ⟨g', h1, ?_, hsub, removesKnown_concat h.known _ (by intro x y hxy; cases hxy; exact ⟨ha, hb⟩), ?_, ?_⟩
  · rw [run_concat, h.run, Outcome.ok_bind, h1]
  · refine undirected_concat h.und _ ?_
    intro e he
    simp only [List.mem_singleton] at he
    subst he
    trivial
  · intro x y z hz
    rcases List.mem_append.1 hz with hz | hz
    · exact h.len x y z hz
    · simp at hz

/-! ## Loops -/

/-- One loop over a list: an invariant, an order, and what is established by each element. -/
theorem fold_phase {β : Type} (f : Graph2D ℝ → β → Outcome (Graph2D ℝ))
    (I : Graph2D ℝ → List (PEdit ℝ) → Prop) (R : List (PEdit ℝ) → List (PEdit ℝ) → Prop)
    (Q : β → List (PEdit ℝ) → Prop) (rfl' : ∀ es, R es es) (tr : ∀ a b c, R a b → R b c → R a c)
    (mono : ∀ x a b, R a b → Q x a → Q x b) (l : List β)
    (step : ∀ x ∈ l, ∀ g es, I g es → ∃ g' es', f g x = .ok g' ∧ I g' es' ∧ R es es' ∧ Q x es') :
    ∀ g es, I g es → ∃ g' es', foldOutcome f g l = .ok g' ∧ I g' es' ∧ R es es' ∧ ∀ x ∈ l, Q x es' := by
  induction l with
  | nil => intro g es h; exact ⟨g, es, rfl, h, rfl' es, by simp⟩
  | cons x l ih =>
    intro g es h
    obtain ⟨g₁, e₁, h1, h2, h3, h4⟩ := step x (by simp) g es h
    obtain ⟨g₂, e₂, k1, k2, k3, k4⟩ := ih (fun y hy => step y (List.mem_cons_of_mem _ hy)) g₁ e₁ h2
    refine ⟨g₂, e₂, ?_, k2, tr _ _ _ h3 k3, ?_⟩
    · simp only [foldOutcome, h1, Outcome.ok_bind]; exact k1
    · intro y hy
      rcases List.mem_cons.1 hy with rfl | hy
      · exact mono _ _ _ k3 h4
      · exact k4 y hy

/-- More edges. -/
def Grows (a b : List (PEdit ℝ)) : Prop := ∀ x y, Ed a x y → Ed b x y

/-- More ways. -/
def Keeps (a b : List (PEdit ℝ)) : Prop := ∀ x y, Reach a x y → Reach b x y

theorem Grows.keeps {a b} (h : Grows a b) : Keeps a b := fun x y hr => Relation.ReflTransGen.mono h x y hr

theorem ed_symm {g es} (hp : Pts T S M) (h : St T S M g es) {a b} (he : Ed es a b) : Ed es b a := by
  have hu := h.und
  clear h
  induction es using List.reverseRecOn generalizing a b with
  | nil => simp [Ed, costs] at he
  | append_singleton es e ih =>
    have hu' : Undirected (M + 1) es := fun x hx => hu x (by simp [hx])
    have hl := hu e (by simp)
    cases e with
    | addDirected x y d => exact absurd hl (by simp)
    | add x y d =>
      rw [ed_add] at he ⊢
      rcases he with he | ⟨rfl, rfl⟩ | ⟨rfl, rfl⟩
      · exact Or.inl (ih he hu')
      · exact Or.inr (Or.inr ⟨rfl, rfl⟩)
      · exact Or.inr (Or.inl ⟨rfl, rfl⟩)
    | remove x y =>
      rw [ed_remove] at he ⊢
      refine ⟨ih he.1 hu', fun h => he.2 ?_⟩
      tauto

theorem reach_symm {g es} (hp : Pts T S M) (h : St T S M g es) {a b} (hr : Reach es a b) : Reach es b a := by
  induction hr with
  | refl => exact .refl
  | tail _ he ih => exact .head (ed_symm hp h he) ih

/-- Adding edges along a list of pairs. -/
theorem phase_add (hp : Pts T S M) {β : Type} (f : Graph2D ℝ → β → Outcome (Graph2D ℝ)) (l : List β)
    (pr : β → RPoint × RPoint) (Rel : RPoint → RPoint → Prop)
    (hf : ∀ x ∈ l, ∀ g, f g x = addEdgeDist T g (pr x).1 (pr x).2)
    (hS : ∀ x ∈ l, (pr x).1 ∈ S ∧ (pr x).2 ∈ S ∧ Tr Rel 0 (pr x).1 (pr x).2) :
    ∀ g es, St T S M g es ∧ (∀ x y, Ed es x y → Tr Rel 0 x y) →
      ∃ g' es', foldOutcome f g l = .ok g' ∧ (St T S M g' es' ∧ (∀ x y, Ed es' x y → Tr Rel 0 x y)) ∧
        Grows es es' ∧ ∀ x ∈ l, Ed es' (pr x).1 (pr x).2 := by
  refine fold_phase f (fun g es => St T S M g es ∧ ∀ x y, Ed es x y → Tr Rel 0 x y) Grows
    (fun x es => Ed es (pr x).1 (pr x).2) (fun _ _ _ h => h) (fun a b c h1 h2 x y h => h2 x y (h1 x y h))
    (fun x a b h hq => h _ _ hq) l ?_
  rintro x hx g es ⟨hst, htr⟩
  obtain ⟨s1, s2, s3⟩ := hS x hx
  obtain ⟨g', c, h1, h2⟩ := hst.addEdge hp s1 s2
  refine ⟨g', _, (hf x hx g).trans h1, ⟨h2, ?_⟩, ?_, ?_⟩
  · intro u v huv
    rw [ed_add] at huv
    rcases huv with huv | ⟨rfl, rfl⟩ | ⟨rfl, rfl⟩
    · exact htr u v huv
    · exact s3
    · exact s3.symm
  · intro u v huv
    rw [ed_add]
    exact Or.inl huv
  · rw [ed_add]
    exact Or.inr (Or.inl ⟨rfl, rfl⟩)

/-! ## Splitting edges -/

theorem keeps_trans (a b c : List (PEdit ℝ)) (h1 : Keeps a b) (h2 : Keeps b c) : Keeps a c :=
  fun x y h => h2 x y (h1 x y h)

theorem split_keeps {es : List (PEdit ℝ)} {a b n : RPoint} {c d : Int} (ha : n ≠ a) (hb : n ≠ b) :
    let es' := es ++ [.add a n c] ++ [.add n b d] ++ [.remove a b]
    Keeps es es' ∧ Reach es' a n ∧ ∀ x y, Ed es' x y → Ed es x y ∨
      (x = a ∧ y = n) ∨ (x = n ∧ y = a) ∨ (x = n ∧ y = b) ∨ (x = b ∧ y = n) := by
  intro es'
  have key : ∀ x y, Ed es' x y ↔ (((Ed es x y ∨ (x = a ∧ y = n) ∨ (x = n ∧ y = a)) ∨
      (x = n ∧ y = b) ∨ (x = b ∧ y = n)) ∧ ¬ ((x = a ∧ y = b) ∨ (x = b ∧ y = a))) := by
    intro x y
    rw [ed_remove, ed_add, ed_add]
  have an : Ed es' a n := by
    rw [key]
    refine ⟨Or.inl (Or.inr (Or.inl ⟨rfl, rfl⟩)), ?_⟩
    rintro (⟨-, h⟩ | ⟨-, h⟩)
    · exact hb h
    · exact ha h
  have na : Ed es' n a := by
    rw [key]
    refine ⟨Or.inl (Or.inr (Or.inr ⟨rfl, rfl⟩)), ?_⟩
    rintro (⟨h, -⟩ | ⟨h, -⟩)
    · exact ha h
    · exact hb h
  have nb : Ed es' n b := by
    rw [key]
    refine ⟨Or.inr (Or.inl ⟨rfl, rfl⟩), ?_⟩
    rintro (⟨h, -⟩ | ⟨h, -⟩)
    · exact ha h
    · exact hb h
  have bn : Ed es' b n := by
    rw [key]
    refine ⟨Or.inr (Or.inr ⟨rfl, rfl⟩), ?_⟩
    rintro (⟨-, h⟩ | ⟨-, h⟩)
    · exact hb h
    · exact ha h
  refine ⟨?_, .single an, ?_⟩
  · intro x y hr
    induction hr with
    | refl => exact .refl
    | @tail y z _ he ih =>
      refine ih.trans ?_
      by_cases hyz : (y = a ∧ z = b) ∨ (y = b ∧ z = a)
      · rcases hyz with ⟨rfl, rfl⟩ | ⟨rfl, rfl⟩
        · exact (Relation.ReflTransGen.single an).tail nb
        · exact (Relation.ReflTransGen.single bn).tail na
      · exact .single ((key y z).2 ⟨Or.inl (Or.inl he), hyz⟩)
  · intro x y h
    rw [key] at h
    tauto

/-- The invariant of the rounds: the nodes stay, and the edges are near tracks. -/
structure Inv (T : PointTable ℝ) (S : List RPoint) (M : Int) (N : List RPoint)
    (Rel : RPoint → RPoint → Prop) (δ : ℝ) (g : Graph2D ℝ) (es : List (PEdit ℝ)) : Prop where
  st : St T S M g es
  nodes : nodes es = N
  tr : ∀ x y, Ed es x y → Tr Rel δ x y

theorem eqv_false {p q : RPoint} (hsep : Separated S) (hp : p ∈ S) (hq : q ∈ S) :
    p.eqv q = false ↔ p ≠ q := by
  constructor
  · rintro h rfl
    rw [eqv_refl] at h
    cases h
  · intro h
    cases he : p.eqv q with
    | false => rfl
    | true => exact absurd (hsep p hp q hq he) h

theorem splitAt_step (hp : Pts T S M) {N : List RPoint} {Rel δ d} {a b n : RPoint} (ha : a ∈ N) (hb : b ∈ N)
    (hn : n ∈ N) (hd : 0 < d) (hab : Tr Rel δ a b) {g es} (h : Inv T S M N Rel (δ + d) g es) :
    ∃ g' es', splitAt T d a b g n = .ok g' ∧ Inv T S M N Rel (δ + d) g' es' ∧ Keeps es es' ∧
      (n ≠ a → n ≠ b → segmentDistance n a b < d → Reach es' a n) := by
  have hNS : ∀ p ∈ N, p ∈ S := fun p hp' => h.st.sub p (by rw [h.nodes]; exact hp')
  unfold splitAt
  have q1 := eqv_false hp.sep (hNS n hn) (hNS a ha)
  have q2 := eqv_false hp.sep (hNS n hn) (hNS b hb)
  split
  · rename_i hc
    rw [q1, q2] at hc
    obtain ⟨c1, c2, c3⟩ := hc
    obtain ⟨g₁, x₁, h1, s1⟩ := h.st.addEdge hp (hNS a ha) (hNS n hn)
    obtain ⟨g₂, x₂, h2, s2⟩ := s1.addEdge hp (hNS n hn) (hNS b hb)
    have n1 : nodes (es ++ [.add a n x₁]) = N := by
      rw [nodes_add_eq _ _ (by rw [h.nodes]; exact ha) (by rw [h.nodes]; exact hn), h.nodes]
    have n2 : nodes (es ++ [.add a n x₁] ++ [.add n b x₂]) = N := by
      rw [nodes_add_eq _ _ (by rw [n1]; exact hn) (by rw [n1]; exact hb), n1]
    obtain ⟨g₃, h3, s3⟩ := s2.removeEdge hp (a := a) (b := b) (by rw [n2]; exact ha) (by rw [n2]; exact hb)
    obtain ⟨k1, k2, k3⟩ := split_keeps (es := es) (c := x₁) (d := x₂) c1 c2
    refine ⟨g₃, _, ?_, ⟨s3, by rw [nodes_remove, n2], ?_⟩, k1, fun _ _ _ => k2⟩
    · rw [h1, Outcome.ok_bind, h2, Outcome.ok_bind, h3]
    · intro x y hxy
      rcases k3 x y hxy with hxy | ⟨rfl, rfl⟩ | ⟨rfl, rfl⟩ | ⟨rfl, rfl⟩ | ⟨rfl, rfl⟩
      · exact h.tr x y hxy
      · exact hab.split c3
      · exact (hab.split c3).symm
      · exact segmentDistance_symm_split hab c3
      · exact (segmentDistance_symm_split hab c3).symm
  · rename_i hc
    rw [q1, q2] at hc
    exact ⟨g, es, rfl, h, fun _ _ h => h, fun h1 h2 h3 => absurd ⟨h1, h2, h3⟩ hc⟩

theorem splitEdge_step (hp : Pts T S M) {N nds : List RPoint} {Rel δ d} {i j : Nat} {a b : RPoint}
    (hi : N[i]? = some a) (hj : N[j]? = some b) (hnds : ∀ n ∈ nds, n ∈ N) (hd : 0 < d) (hab : Tr Rel δ a b) {g es}
    (h : Inv T S M N Rel (δ + d) g es) :
    ∃ g' es', splitEdge T d nds g (i, j) = .ok g' ∧ Inv T S M N Rel (δ + d) g' es' ∧ Keeps es es' ∧
      ∀ n ∈ nds, n ≠ a → n ≠ b → segmentDistance n a b < d → Reach es' a n := by
  have hg := h.st.good hp
  rw [h.nodes] at hg
  unfold splitEdge
  rw [indexToNode_good hg hi, Outcome.ok_bind, indexToNode_good hg hj, Outcome.ok_bind]
  exact fold_phase (splitAt T d a b) (Inv T S M N Rel (δ + d)) Keeps
    (fun n es => n ≠ a → n ≠ b → segmentDistance n a b < d → Reach es a n)
    (fun _ _ _ h => h) keeps_trans (fun x u v huv hq h1 h2 h3 => huv _ _ (hq h1 h2 h3)) nds
    (fun n hn g es hI => splitAt_step hp (List.mem_of_getElem? hi) (List.mem_of_getElem? hj) (hnds n hn) hd hab hI)
    g es h

theorem mem_allEdges {e : EdgeMap} (hk : KeysOk e) {i j : Nat} :
    (i, j) ∈ allEdges e ↔ e.cost? i j ≠ none := by
  unfold allEdges EdgeMap.cost?
  simp only [List.mem_flatMap, List.mem_map, Prod.mk.injEq]
  constructor
  · rintro ⟨⟨k, ds⟩, hm, ⟨l, c⟩, hl, rfl, rfl⟩
    have h1 : e.lookup k = some ds := lookup_of_mem hk.keys hm
    have h2 : ds.lookup l = some c := lookup_of_mem (hk.dkeys _ hm) hl
    rw [h1]
    simp [h2]
  · intro h
    cases h1 : e.lookup i with
    | none => rw [h1] at h; simp at h
    | some ds =>
      rw [h1] at h
      cases h2 : ds.lookup j with
      | none => simp [h2] at h
      | some c => exact ⟨(i, ds), mem_of_lookup h1, (j, c), mem_of_lookup h2, rfl, rfl⟩

theorem Tr.nonneg {R δ x y} (h : Tr R δ x y) : 0 ≤ δ := by
  obtain ⟨a, b, -, ⟨u, -, hu⟩, -⟩ := h
  exact (pdist_nonneg _ _).trans hu

theorem splitRound_step (hp : Pts T S M) {N nds : List RPoint} {Rel δ d}
    {ord : List (Nat × Nat) → List (Nat × Nat)} (hord : ∀ l, (ord l).Perm l) (hnds : ∀ n ∈ nds, n ∈ N)
    (hd : 0 < d) {g es} (h : Inv T S M N Rel δ g es) :
    ∃ g' es', splitRound T ord d nds g = .ok g' ∧ Inv T S M N Rel (δ + d) g' es' ∧ Keeps es es' ∧
      ∀ a b, Ed es a b → ∀ n ∈ nds, n ≠ a → n ≠ b → segmentDistance n a b < d → Reach es' a n := by
  have hg := h.st.good hp
  rw [h.nodes] at hg
  have hI : Inv T S M N Rel (δ + d) g es :=
    ⟨h.st, h.nodes, fun x y hxy => (h.tr x y hxy).mono (by linarith)⟩
  unfold splitRound
  have hpts : ∀ x ∈ ord (allEdges g.graph.edges), ∃ a b, N[x.1]? = some a ∧ N[x.2]? = some b ∧ Ed es a b := by
    rintro ⟨i, j⟩ hx
    have hm := (mem_allEdges hg.keysOk).1 ((hord _).mem_iff.1 hx)
    cases hc : g.graph.edges.cost? i j with
    | none => exact absurd hc hm
    | some c =>
      obtain ⟨b1, b2⟩ := hg.dstB i j c hc
      refine ⟨_, _, List.getElem?_eq_getElem b1, List.getElem?_eq_getElem b2, ?_⟩
      have := hg.cost i j _ _ (List.getElem?_eq_getElem b1) (List.getElem?_eq_getElem b2)
      unfold Ed
      rw [← this, hc]
      simp
  obtain ⟨g', es', k1, k2, k3, k4⟩ := fold_phase (splitEdge T d nds) (Inv T S M N Rel (δ + d)) Keeps
    (fun x es' => ∀ a b, N[x.1]? = some a → N[x.2]? = some b → ∀ n ∈ nds, n ≠ a → n ≠ b →
      segmentDistance n a b < d → Reach es' a n)
    (fun _ _ _ h => h) keeps_trans
    (fun x u v huv hq a b ha hb n hn h1 h2 h3 => huv _ _ (hq a b ha hb n hn h1 h2 h3)) (ord (allEdges g.graph.edges))
    (by
      rintro ⟨i, j⟩ hx g es hI
      obtain ⟨a, b, ha, hb, hab⟩ := hpts _ hx
      obtain ⟨g', es', m1, m2, m3, m4⟩ := splitEdge_step hp ha hb hnds hd (h.tr a b hab) hI
      refine ⟨g', es', m1, m2, m3, ?_⟩
      intro a' b' ha' hb'
      rw [ha] at ha'
      rw [hb] at hb'
      simp only [Option.some.injEq] at ha' hb'
      subst ha' hb'
      exact m4) g es hI
  refine ⟨g', es', k1, k2, k3, ?_⟩
  intro a b hab
  have hdom := hg.dom a b hab
  obtain ⟨i, hi⟩ := List.mem_iff_getElem?.1 hdom.1
  obtain ⟨j, hj⟩ := List.mem_iff_getElem?.1 hdom.2
  refine k4 (i, j) ((hord _).mem_iff.2 ((mem_allEdges hg.keysOk).2 ?_)) a b hi hj
  rw [hg.cost i j a b hi hj]
  exact hab

/-! ## The whole function -/

/-- The tracks: sides of rings and the ways to the border. -/
def Track (cells : Cells ℝ) (V : List RPoint) (a b : RPoint) : Prop := Side cells a b ∨ Access cells V a b

theorem links_phase (hp : Pts T S M) {cells : Cells ℝ} (hu : Usable cells) {V : List RPoint}
    (hS : Contains cells V S) {l : List RPoint} (hl : ∀ p ∈ l, p ∈ V) :
    ∀ g es, St T S M g es ∧ (∀ x y, Ed es x y → Tr (Track cells V) 0 x y) →
      ∃ g' es', foldOutcome (linkPoint T cells) g l = .ok g' ∧
        (St T S M g' es' ∧ (∀ x y, Ed es' x y → Tr (Track cells V) 0 x y)) ∧
        Grows es es' ∧ ∀ p ∈ l, ∀ q, Cells.closestOnBorder p cells = .ok q → Ed es' p q := by
  classical
  intro g es h
  have hq : ∀ p, ∃ q, Cells.closestOnBorder p cells = .ok q := fun p => by
    obtain ⟨q, h1, -⟩ := joined_cells p hu
    exact ⟨q, h1⟩
  choose f hf using hq
  obtain ⟨g', es', k1, k2, k3, k4⟩ := phase_add hp (linkPoint T cells) l (fun p => (p, f p)) (Track cells V)
    (by
      intro p hp' g
      unfold linkPoint
      rw [hf p, Outcome.ok_bind])
    (fun p hp' => ⟨hS.1 p (hl p hp'), hS.2.2 p (hl p hp') _ (hf p), Tr.of (Or.inr ⟨hl p hp', hf p⟩)⟩) g es h
  refine ⟨g', es', k1, k2, k3, ?_⟩
  intro p hp' q hq
  rw [hf p] at hq
  obtain rfl : f p = q := by simpa using hq
  exact k4 p hp'

theorem ring_phase (hp : Pts T S M) {Rel : RPoint → RPoint → Prop} (r : Ring ℝ) (hlen : 2 ≤ r.length)
    (hmem : ∀ e ∈ r.zip r.tail, e.1 ∈ S ∧ e.2 ∈ S ∧ Tr Rel 0 e.1 e.2) (g : Graph2D ℝ) (es : List (PEdit ℝ))
    (h : St T S M g es ∧ (∀ x y, Ed es x y → Tr Rel 0 x y)) :
    ∃ g' es', addRing T g r = .ok g' ∧ (St T S M g' es' ∧ (∀ x y, Ed es' x y → Tr Rel 0 x y)) ∧
      Grows es es' ∧ ∀ e ∈ r.zip r.tail, Ed es' e.1 e.2 := by
  have hadd : addRing T g r = foldOutcome (fun g e => addEdgeDist T g e.1 e.2) g (r.zip r.tail) := by
    cases r with
    | nil => simp at hlen
    | cons a l => simp only [addRing]
  rw [hadd]
  exact phase_add hp (β := RPoint × RPoint) (fun g e => addEdgeDist T g e.1 e.2) (r.zip r.tail) (fun e => e) Rel
    (by intro x _ g; dsimp only) hmem g es h

theorem rings_phase (hp : Pts T S M) {cells : Cells ℝ} (hu : Usable cells) {V : List RPoint}
    (hS : Contains cells V S) (g : Graph2D ℝ) (es : List (PEdit ℝ))
    (h : St T S M g es ∧ (∀ x y, Ed es x y → Tr (Track cells V) 0 x y)) :
      ∃ g' es', foldOutcome (addRing T) g cells.flatten = .ok g' ∧
        (St T S M g' es' ∧ (∀ x y, Ed es' x y → Tr (Track cells V) 0 x y)) ∧
        Grows es es' ∧ ∀ r ∈ cells.flatten, ∀ e ∈ r.zip r.tail, Ed es' e.1 e.2 := by
  have hlen : ∀ r ∈ cells.flatten, 2 ≤ r.length := by
    intro r hr
    obtain ⟨c, hc, hrc⟩ := List.mem_flatten.1 hr
    exact (hu.2 c hc).2 r hrc
  have hmem : ∀ r ∈ cells.flatten, ∀ e ∈ r.zip r.tail, e.1 ∈ S ∧ e.2 ∈ S ∧ Tr (Track cells V) 0 e.1 e.2 := by
    rintro r hr ⟨a, b⟩ he
    obtain ⟨pre, post, e⟩ := mem_zip_tail he
    have hc : ∀ p ∈ r, p ∈ S := fun p hp' => hS.2.1 p (List.mem_flatten.2 ⟨r, hr, hp'⟩)
    exact ⟨hc a (by rw [e]; simp), hc b (by rw [e]; simp), Tr.of (Or.inl ⟨r, hr, pre, post, e⟩)⟩
  generalize Track cells V = Rel at h hmem ⊢
  generalize (cells.flatten : List (Ring ℝ)) = rs at hlen hmem ⊢
  exact fold_phase (addRing T) (fun g es => St T S M g es ∧ ∀ x y, Ed es x y → Tr Rel 0 x y) Grows
    (fun r es => ∀ e ∈ r.zip r.tail, Ed es e.1 e.2) (fun _ _ _ h => h)
    (fun a b c h1 h2 x y h => h2 x y (h1 x y h)) (fun x a b h hq e he => h _ _ (hq e he)) rs
    (fun r hr g es h => ring_phase hp r (hlen r hr) (hmem r hr) g es h) g es h

theorem st_empty (hM : 0 ≤ M) : St T S M Graph2D.empty [] :=
  ⟨rfl, by simp [nodes, firsts], by intro pre a b post h; simp at h, by intro e he; simp at he,
    by intro a b c h; simp at h⟩

/-- What is known about the finished graph. -/
structure Built (T : PointTable ℝ) (S : List RPoint) (M : Int) (cells : Cells ℝ) (V : List RPoint) (d : ℝ)
    (g : Graph2D ℝ) (es : List (PEdit ℝ)) : Prop where
  st : St T S M g es
  tr : ∀ x y, Ed es x y → Tr (Track cells V) (2 * d) x y
  link : ∀ p ∈ V, ∀ q, Cells.closestOnBorder p cells = .ok q → Reach es p q ∧ p ∈ nodes es ∧ q ∈ nodes es
  corner : ∀ r ∈ cells.flatten, ∀ p ∈ r, p ∈ nodes es
  side : ∀ a b, Side cells a b → Reach es a b
  near : ∀ a b, Side cells a b → ∀ n ∈ nodes es, OnSegment a b n → Reach es a n

theorem mem_pair {r : List RPoint} (h : 2 ≤ r.length) {p : RPoint} (hp : p ∈ r) :
    ∃ e ∈ r.zip r.tail, p = e.1 ∨ p = e.2 := by
  obtain ⟨i, hi, rfl⟩ := List.mem_iff_getElem.1 hp
  by_cases hl : i + 1 < r.length
  · refine ⟨(r[i], r[i+1]), ?_, Or.inl rfl⟩
    rw [List.mem_iff_getElem]
    exact ⟨i, by simp; omega, by simp⟩
  · refine ⟨(r[i-1], r[i]), ?_, Or.inr rfl⟩
    rw [List.mem_iff_getElem]
    refine ⟨i - 1, by simp; omega, ?_⟩
    have : i - 1 + 1 = i := by omega
    simp [this]

theorem getNodes_good {g : Graph2D ℝ} {N F} (h : Good g N F) : g.getNodes = N := by
  unfold Graph2D.getNodes
  rw [h.tab]
  simp

theorem built (hp : Pts T S M) {cells : Cells ℝ} (hu : Usable cells) {rse : Option RPoint} {d : SwathsByCells ℝ}
    (hS : Contains cells (PlannerSpec.ends rse d.flatten) S) {ordE : List (Nat × Nat) → List (Nat × Nat)}
    (hE : ∀ l, (ordE l).Perm l) {ordN : List RPoint → List RPoint} (hN : ∀ l, (ordN l).Perm l) {tol : ℝ}
    (ht : 0 < tol) :
    ∃ g es, createShortestGraph T ordE ordN tol rse cells d = .ok g ∧
      Built T S M cells (PlannerSpec.ends rse d.flatten) tol g es := by
  set V := PlannerSpec.ends rse d.flatten with hV
  obtain ⟨g₁, e₁, a1, a2, a3, a4⟩ := links_phase hp hu hS
    (l := d.flatten.flatMap fun s => [s.startPoint, s.endPoint])
    (fun p hp' => by rw [hV]; exact List.mem_append_left _ hp') Graph2D.empty []
    ⟨st_empty hp.M0, by intro x y h; simp [Ed, costs] at h⟩
  obtain ⟨g₂, e₂, b1, b2, b3, b4⟩ := rings_phase hp hu hS g₁ e₁ a2
  obtain ⟨g₃, e₃, c1, c2, c3, c4⟩ := links_phase hp hu hS (l := rse.toList)
    (fun p hp' => by rw [hV]; exact List.mem_append_right _ hp') g₂ e₂ b2
  have hg₃ := c2.1.good hp
  have hnds : ∀ n ∈ ordN g₃.getNodes, n ∈ nodes e₃ := by
    intro n hn
    have := (hN _).mem_iff.1 hn
    rwa [getNodes_good hg₃] at this
  have hnds' : ∀ n ∈ nodes e₃, n ∈ ordN g₃.getNodes := by
    intro n hn
    rw [(hN _).mem_iff, getNodes_good hg₃]
    exact hn
  obtain ⟨g₄, e₄, d1, d2, d3, d4⟩ := splitRound_step hp hE hnds ht
    (⟨c2.1, rfl, c2.2⟩ : Inv T S M (nodes e₃) (Track cells V) 0 g₃ e₃)
  obtain ⟨g₅, e₅, f1, f2, f3, f4⟩ := splitRound_step hp hE hnds ht d2
  have hpair : ∀ r ∈ cells.flatten, ∀ e ∈ r.zip r.tail, Ed e₃ e.1 e.2 := fun r hr e he => c3 _ _ (b4 r hr e he)
  have hside : ∀ a b, Side cells a b → Ed e₃ a b := by
    rintro a b ⟨r, hr, pre, post, e⟩
    exact hpair r hr (a, b) (by rw [e]; exact zip_tail_mem pre post a b)
  have hlink : ∀ p ∈ V, ∀ q, Cells.closestOnBorder p cells = .ok q → Ed e₃ p q := by
    intro p hp' q hq
    rcases List.mem_append.1 hp' with h | h
    · exact c3 _ _ (b3 _ _ (a4 p h q hq))
    · exact c4 p h q hq
  have hk : ∀ a b, Ed e₃ a b → Reach e₅ a b := fun a b h => f3 _ _ (d3 _ _ (.single h))
  refine ⟨g₅, e₅, ?_, ⟨f2.st, ?_, ?_, ?_, ?_, ?_⟩⟩
  · unfold createShortestGraph
    rw [a1, Outcome.ok_bind, iter_rings hu, b1, Outcome.ok_bind, c1, Outcome.ok_bind]
    simp only []
    rw [d1, Outcome.ok_bind, f1]
  · intro x y hxy
    have := f2.tr x y hxy
    refine this.mono (by linarith)
  · intro p hp' q hq
    have := hlink p hp' q hq
    rw [f2.nodes]
    exact ⟨hk _ _ this, (hg₃.dom _ _ this).1, (hg₃.dom _ _ this).2⟩
  · intro r hr p hp'
    rw [f2.nodes]
    have hlen : 2 ≤ r.length := by
      obtain ⟨c, hc, hrc⟩ := List.mem_flatten.1 hr
      exact (hu.2 c hc).2 r hrc
    obtain ⟨e, he, h | h⟩ := mem_pair hlen hp'
    · rw [h]; exact (hg₃.dom _ _ (hpair r hr e he)).1
    · rw [h]; exact (hg₃.dom _ _ (hpair r hr e he)).2
  · intro a b hab
    exact hk _ _ (hside a b hab)
  · intro a b hab n hn hon
    rw [f2.nodes] at hn
    by_cases ha : n = a
    · subst ha; exact .refl
    · by_cases hb : n = b
      · subst hb; exact hk _ _ (hside a n hab)
      · refine f3 _ _ (d4 a b (hside a b hab) n (hnds' n hn) ha hb ?_)
        rw [segmentDistance_zero hon]
        exact ht

/-! ## Connection -/

section connection

variable {cells : Cells ℝ} {V : List RPoint} {tol : ℝ} {g : Graph2D ℝ} {es : List (PEdit ℝ)}

theorem ring_reach (hp : Pts T S M) (h : Built T S M cells V tol g es) {r : Ring ℝ} (hr : r ∈ cells.flatten) {a b : RPoint}
    (ha : a ∈ r) (hb : b ∈ r) : Reach es a b := by
  have key : ∀ pre post a, r = pre ++ a :: post → ∀ b ∈ post, Reach es a b := by
    intro pre post
    induction post generalizing pre with
    | nil => intro a _ b hb; simp at hb
    | cons c post ih =>
      intro a e b hb
      have hac : Reach es a c := h.side a c ⟨r, hr, pre, post, e⟩
      rcases List.mem_cons.1 hb with rfl | hb
      · exact hac
      · exact hac.trans (ih (pre ++ [a]) c (by rw [e]; simp) b hb)
  have hhead : ∀ x ∈ r, ∃ y l, r = y :: l ∧ Reach es y x := by
    intro x hx
    obtain ⟨y, l, e⟩ := List.exists_cons_of_ne_nil (List.ne_nil_of_mem hx)
    refine ⟨y, l, e, ?_⟩
    rw [e] at hx
    rcases List.mem_cons.1 hx with rfl | hx
    · exact .refl
    · exact key [] l y e x hx
  obtain ⟨y, l, e, h1⟩ := hhead a ha
  obtain ⟨y', l', e', h2⟩ := hhead b hb
  rw [e] at e'
  obtain ⟨rfl, -⟩ := List.cons.inj e'
  exact (reach_symm hp h.st h1).trans h2

theorem line_reach (hp : Pts T S M) (h : Built T S M cells V tol g es) {r : Ring ℝ} (hr : r ∈ cells.flatten) {q : RPoint}
    (hq : q ∈ nodes es) (hon : OnLine r q) : ∀ a ∈ r, Reach es a q := by
  intro a ha
  obtain ⟨x, y, pre, post, e, hs⟩ := onLine_side hon
  exact (ring_reach hp h hr ha (by rw [e]; simp)).trans (h.near x y ⟨r, hr, pre, post, e⟩ q hq hs)

theorem rings_reach (hp : Pts T S M) (h : Built T S M cells V tol g es) (hu : Usable cells) {r s : Ring ℝ}
    (hrs : Relation.ReflTransGen (fun r s => r ∈ cells.flatten ∧ s ∈ cells.flatten ∧ Touch r s) r s)
    (hr : r ∈ cells.flatten) : ∀ a ∈ r, ∀ b ∈ s, Reach es a b := by
  have hne : ∀ r ∈ cells.flatten, ∃ x, x ∈ r := by
    intro r hr
    obtain ⟨c, hc, hrc⟩ := List.mem_flatten.1 hr
    have := (hu.2 c hc).2 r hrc
    cases r with
    | nil => simp at this
    | cons x l => exact ⟨x, by simp⟩
  induction hrs with
  | refl => intro a ha b hb; exact ring_reach hp h hr ha hb
  | @tail s t _ hst ih =>
    obtain ⟨hs, ht, htouch⟩ := hst
    intro a ha b hb
    rcases htouch with ⟨p, hps, hpt⟩ | ⟨p, hpt, hps⟩
    · exact (ih a ha p hps).trans (reach_symm hp h.st (line_reach hp h ht (h.corner s hs p hps) hpt b hb))
    · obtain ⟨x, hx⟩ := hne s hs
      exact ((ih a ha x hx).trans (line_reach hp h hs (h.corner t ht p hpt) hps x hx)).trans
        (ring_reach hp h ht hpt hb)

theorem all_reach (hp : Pts T S M) (h : Built T S M cells V tol g es) (hu : Usable cells) (ht : Together cells) :
    ∀ a ∈ V, ∀ b ∈ V, Reach es a b := by
  have key : ∀ a ∈ V, ∃ r ∈ cells.flatten, ∃ x ∈ r, Reach es a x := by
    intro a ha
    obtain ⟨q, hq, r, hr, hon⟩ := joined_cells a hu
    obtain ⟨h1, h2, h3⟩ := h.link a ha q hq
    obtain ⟨x, y, pre, post, e, hs⟩ := onLine_side hon
    have hx : x ∈ r := by rw [e]; simp
    exact ⟨r, hr, x, hx, h1.trans (reach_symm hp h.st (line_reach hp h hr h3 hon x hx))⟩
  intro a ha b hb
  obtain ⟨r, hr, x, hx, h1⟩ := key a ha
  obtain ⟨s, hs, y, hy, h2⟩ := key b hb
  exact (h1.trans (rings_reach hp h hu (ht r hr s hs) hr x hx y hy)).trans (reach_symm hp h.st h2)

end connection

/-! ## Costs of ways without repetition -/

theorem PPath_suffix {es : List (PEdit ℝ)} {p q : List RPoint} {t : Int} (h : PPath es (p ++ q) t) (hq : q ≠ []) :
    ∃ t', PPath es q t' := by
  induction p generalizing t with
  | nil => exact ⟨t, h⟩
  | cons x p ih =>
    generalize hl : x :: p ++ q = l at h
    cases h with
    | single a =>
      simp only [List.cons_append, List.cons.injEq, List.append_eq_nil_iff] at hl
      exact absurd hl.2.2 hq
    | @cons a b l' c t₁ he hp =>
      simp only [List.cons_append, List.cons.injEq] at hl
      rw [← hl.2] at hp
      exact ih hp

theorem reach_path {es : List (PEdit ℝ)} {a b : RPoint} (h : Reach es a b) :
    ∃ l t, PPath es (a :: l) t ∧ (a :: l).getLast? = some b ∧ (a :: l).Nodup := by
  induction h using Relation.ReflTransGen.head_induction_on with
  | refl => exact ⟨[], 0, .single b, rfl, by simp⟩
  | @head x y hxy _ ih =>
    obtain ⟨l, t, h1, h2, h3⟩ := ih
    by_cases hm : x ∈ y :: l
    · obtain ⟨p, q, e⟩ := List.append_of_mem hm
      rw [e] at h1 h2 h3
      obtain ⟨t', h1'⟩ := PPath_suffix h1 (by simp)
      refine ⟨q, t', h1', ?_, (List.nodup_append.1 h3).2.1⟩
      rw [List.getLast?_append_of_ne_nil _ (by simp)] at h2
      exact h2
    · cases hc : costs es x y with
      | none => exact absurd hc hxy
      | some c =>
        refine ⟨y :: l, c + t, .cons hc h1, ?_, List.nodup_cons.2 ⟨hm, h3⟩⟩
        rw [List.getLast?_cons_cons]
        exact h2

theorem path_walk {es : List (PEdit ℝ)} {p : List RPoint} {t : Int} (h : PPath es p t) :
    ∀ a b, p.head? = some a → p.getLast? = some b → PWalk es a b t := by
  induction h with
  | single x =>
    intro a b h1 h2
    simp at h1 h2
    subst h1 h2
    exact .nil _
  | @cons x y l c t he hp ih =>
    intro a b h1 h2
    simp only [List.head?_cons, Option.some.injEq] at h1
    subst h1
    rw [List.getLast?_cons_cons] at h2
    exact .cons he (ih y b rfl h2)

theorem path_cost (hp : Pts T S M) {g : Graph2D ℝ} {es : List (PEdit ℝ)} (hst : St T S M g es) {p : List RPoint} {t : Int}
    (h : PPath es p t) : t ≤ (p.length - 1 : Int) * M ∧ (2 ≤ p.length → ∀ x ∈ p, x ∈ nodes es) := by
  induction h with
  | single x => simp
  | @cons x y l c t he hp' ih =>
    have hc := costs_range hst.und (show costs es x y = some c from he)
    have hd := (hst.good hp).dom x y (by rw [show costs es x y = some c from he]; simp)
    refine ⟨?_, fun _ z hz => ?_⟩
    · have := ih.1
      simp only [List.length_cons] at this ⊢
      push_cast at this ⊢
      have e : ((l.length : Int) + 1 + 1 - 1) * M = (l.length + 1 - 1) * M + M := by ring
      rw [e]
      linarith
    · rcases List.mem_cons.1 hz with rfl | hz
      · exact hd.1
      · by_cases hl : 2 ≤ (y :: l).length
        · exact ih.2 hl z hz
        · have : l = [] := by
            cases l with
            | nil => rfl
            | cons => simp at hl
          subst this
          simp at hz
          rw [hz]
          exact hd.2

theorem reach_cheap (hp : Pts T S M) {g : Graph2D ℝ} {es : List (PEdit ℝ)} (hst : St T S M g es)
    (hcost : (S.length : Int) * M < 2 ^ 30) {a b : RPoint} (h : Reach es a b) :
    ∃ t, PWalk es a b t ∧ t < 2 ^ 30 := by
  obtain ⟨l, t, h1, h2, h3⟩ := reach_path h
  refine ⟨t, path_walk h1 a b rfl h2, ?_⟩
  obtain ⟨k1, k2⟩ := path_cost hp hst h1
  by_cases hl : 2 ≤ (a :: l).length
  · have hsub : (a :: l).Subperm S := List.subperm_of_subset h3 (fun x hx => hst.sub x (k2 hl x hx))
    have hle := hsub.length_le
    have : ((a :: l).length - 1 : Int) * M ≤ (S.length : Int) * M := by
      apply mul_le_mul_of_nonneg_right _ hp.M0
      have : ((a :: l).length : Int) ≤ S.length := by exact_mod_cast hle
      linarith
    linarith
  · have : l = [] := by
      cases l with
      | nil => rfl
      | cons => simp at hl
    subst this
    simp at k1
    have : (0 : Int) < 2 ^ 30 := by norm_num
    linarith

theorem path_steps {es : List (PEdit ℝ)} {p : List RPoint} {t : Int} (h : PPath es p t)
    {R : RPoint → RPoint → Prop} (hR : ∀ x y, Ed es x y → R x y) : EachStep R p := by
  induction h with
  | single x => trivial
  | @cons x y l c t he hp ih =>
    exact ⟨hR x y (by unfold Ed; rw [show costs es x y = some c from he]; simp), ih⟩

end F2C.HeadL
