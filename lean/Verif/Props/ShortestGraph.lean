import Mathlib.Tactic.IntervalCases
import Verif.Lemmas.ShortestGraph
import Verif.Props.RoutePlanner
import Verif.Props.Geometry
import Verif.Lemmas.Turning

/-!
# C73, C74: the graph of the headlands
-/

namespace F2C.Props

open Graph2DSpec Graph2DL PlannerSpec Planner HeadSpec HeadL Outcome
open F2C.Props.SG (OnSegment OnLine)

theorem pts_of {T : PointTable ℝ} (hT : T.IsLawful) {S : List RPoint} (hne : S ≠ []) (hsep : Separated S)
    (hh : HashOk T S) {D : ℝ} (hD : ∀ a ∈ S, ∀ b ∈ S, pdist a b ≤ D) (hcost : S.length * (1000 * D) < 2 ^ 30) :
    Pts T S ⌊1000 * D⌋ ∧ (S.length : Int) * ⌊1000 * D⌋ < 2 ^ 30 := by
  obtain ⟨p, hp⟩ := List.exists_mem_of_ne_nil _ hne
  have h0 : 0 ≤ D := by have := hD p hp p hp; rwa [pdist_self] at this
  have h1 : (1 : ℝ) ≤ S.length := by
    have : 0 < S.length := List.length_pos_of_ne_nil hne
    exact_mod_cast this
  have hfl := Int.floor_le (1000 * D)
  have hc : (S.length : Int) * ⌊1000 * D⌋ < 2 ^ 30 := by
    have : (S.length : ℝ) * (⌊1000 * D⌋ : ℝ) ≤ S.length * (1000 * D) := by
      apply mul_le_mul_of_nonneg_left hfl
      linarith
    have h2 : ((S.length : Int) * ⌊1000 * D⌋ : ℝ) < ((2 ^ 30 : Int) : ℝ) := by
      push_cast
      linarith
    exact_mod_cast h2
  have hM0 : 0 ≤ ⌊1000 * D⌋ := Int.floor_nonneg.2 (by linarith)
  refine ⟨⟨hT, hsep, hh, ?_, hM0, ?_⟩, hc⟩
  · intro a ha b hb
    exact Int.floor_le_floor (by have := hD a ha b hb; linarith)
  · have h1' : (1 : Int) ≤ S.length := by exact_mod_cast h1
    nlinarith

theorem contains_ne {cells : Cells ℝ} (hu : Usable cells) {V S : List RPoint} (hS : Contains cells V S) : S ≠ [] := by
  obtain ⟨c, hc⟩ := List.exists_mem_of_ne_nil _ hu.1
  obtain ⟨r, hr⟩ := List.exists_mem_of_ne_nil _ (hu.2 c hc).1
  have hl := (hu.2 c hc).2 r hr
  cases r with
  | nil => simp at hl
  | cons x l =>
    exact List.ne_nil_of_mem (hS.2.1 x (List.mem_flatten.2
      ⟨x :: l, List.mem_flatten.2 ⟨c, hc, hr⟩, by simp⟩))

/-- Everything that is known about the edges and ways of the headland graph. -/
theorem headland_graph (T : PointTable ℝ) (hT : T.IsLawful) (ordE : List (Nat × Nat) → List (Nat × Nat))
    (hE : ∀ l, (ordE l).Perm l) (ordN : List RPoint → List RPoint) (hN : ∀ l, (ordN l).Perm l) (tol : ℝ)
    (ht : 0 < tol) (rse : Option RPoint) (cells : Cells ℝ) (d : SwathsByCells ℝ) (hu : Usable cells)
    (S : List RPoint) (hS : Contains cells (ends rse d.flatten) S) (hsep : Separated S) (hh : HashOk T S) (D : ℝ)
    (hD : ∀ a ∈ S, ∀ b ∈ S, pdist a b ≤ D) (hcost : S.length * (1000 * D) < 2 ^ 30) :
    ∃ g es, createShortestGraph T ordE ordN tol rse cells d = .ok g ∧ run T es = .ok g ∧
      Separated (nodes es) ∧ HashOk T (nodes es) ∧ RemovesKnown es ∧ Undirected (2 ^ 30) es ∧
      (∀ p ∈ ends rse d.flatten, p ∈ nodes es) ∧ (∀ p ∈ nodes es, p ∈ S) ∧
      (∀ x y, Ed es x y → Along cells (ends rse d.flatten) (2 * tol) x y ∧ x ∈ S ∧ y ∈ S) ∧
      (Together cells → ∀ a ∈ ends rse d.flatten, ∀ b ∈ ends rse d.flatten, ∃ t, PWalk es a b t ∧ t < 2 ^ 30) := by
  obtain ⟨hp, hc⟩ := pts_of hT (contains_ne hu hS) hsep hh hD hcost
  obtain ⟨g, es, h1, h2⟩ := built hp hu hS hE hN ht
  refine ⟨g, es, h1, h2.st.run, fun p hp' q hq => hsep p (h2.st.sub p hp') q (h2.st.sub q hq),
    fun p hp' => hh p (h2.st.sub p hp'), h2.st.known, ?_, ?_, h2.st.sub, ?_, ?_⟩
  · intro e he
    have := h2.st.und e he
    have hM := hp.M1
    cases e with
    | addDirected => exact this
    | add a b c => exact ⟨this.1, by have := this.2; omega⟩
    | remove => trivial
  · intro p hp'
    obtain ⟨q, hq, -⟩ := joined_cells p hu
    exact (h2.link p hp' q hq).2.1
  · intro x y hxy
    have hm := h2.st.ed_mem hp hxy
    exact ⟨(h2.tr x y hxy).along, h2.st.sub x hm.1, h2.st.sub y hm.2⟩
  · intro htog a ha b hb
    exact reach_cheap hp h2.st hc (all_reach hp h2 hu htog a ha b hb)

/-- A way along the headland from `a` to `b`: it begins at `a`, ends at `b`, visits no point twice, and
every step stays within `δ` of a side of a ring or of the way between one of the points `V` and the
border. -/
def HeadlandWay (cells : Cells ℝ) (V : List RPoint) (δ : ℝ) (a b : RPoint) (p : List RPoint) : Prop :=
  (a = b → p = []) ∧
  (a ≠ b → p.head? = some a ∧ p.getLast? = some b ∧ p.Nodup ∧ EachStep (Along cells V δ) p)

/-- C73 (part): for rings that hang together, the graph made by `createShortestGraph` has a way between
any two swath ends (and the start point) along the borders.  The points have to be different enough
(`Separated`), have a defined hash value, and be few and near enough for no way to reach `INF`.
Missing: points that compare equal without being identical, and rings that do not hang together
(for which it is false, `C74_apart`). -/
theorem C73_headland_ways_partial (T : PointTable ℝ) (hT : T.IsLawful) (ordE : List (Nat × Nat) → List (Nat × Nat))
    (hE : ∀ l, (ordE l).Perm l) (ordN : List RPoint → List RPoint) (hN : ∀ l, (ordN l).Perm l) (tol : ℝ)
    (ht : 0 < tol) (rse : Option RPoint) (cells : Cells ℝ) (d : SwathsByCells ℝ) (hu : Usable cells)
    (htog : Together cells) (S : List RPoint) (hS : Contains cells (ends rse d.flatten) S) (hsep : Separated S)
    (hh : HashOk T S) (D : ℝ) (hD : ∀ a ∈ S, ∀ b ∈ S, pdist a b ≤ D) (hcost : S.length * (1000 * D) < 2 ^ 30) :
    ∃ g, createShortestGraph T ordE ordN tol rse cells d = .ok g ∧ Connects T g (ends rse d.flatten) ∧
      ∀ a ∈ ends rse d.flatten, ∀ b ∈ ends rse d.flatten, ∃ g' p,
        g.shortestPath T a b (2 ^ 30) = .ok (g', p) ∧
        HeadlandWay cells (ends rse d.flatten) (2 * tol) a b p := by
  obtain ⟨g, es, h1, h2, h3, h4, h5, h6, h7, -, h8, h9⟩ :=
    headland_graph T hT ordE hE ordN hN tol ht rse cells d hu S hS hsep hh D hD hcost
  refine ⟨g, h1, C22_headland_connects T hT es g h3 h4 h5 h6 h2 _ h7 (h9 htog), ?_⟩
  intro a ha b hb
  obtain ⟨g', g'', c, p, k1, k2, k3, k4, k5, k6, k7⟩ := C13_between_points T hT es (2 ^ 30) h3 h4 h5 h6
    (by norm_num) (by norm_num) a b (h7 a ha) (h7 b hb)
  rw [h2] at k1
  obtain rfl : g = g' := by simpa using k1
  refine ⟨g'', p, k3, k5, fun hab => ?_⟩
  obtain ⟨m1, m2, m3, m4⟩ := k7 hab (h9 htog a ha b hb)
  exact ⟨m1, m2, m3, path_steps m4 fun x y h => (h8 x y h).1⟩

theorem Legs_imp {R R' : RPoint → RPoint → List RPoint → Prop} (hR : ∀ a b p, R a b p → R' a b p)
    {rse : Option RPoint} {s : Swath ℝ} {l : Swaths ℝ} {cs} (h : Legs R rse s l cs) : Legs R' rse s l cs := by
  induction h with
  | stop h => exact .stop h
  | home h h' => exact .home h (hR _ _ _ h')
  | next h _ ih => exact .next (hR _ _ _ h) ih

theorem Connections_imp {R R' : RPoint → RPoint → List RPoint → Prop} (hR : ∀ a b p, R a b p → R' a b p)
    {rse : Option RPoint} {l : Swaths ℝ} {cs} (h : Connections R rse l cs) : Connections R' rse l cs := by
  match l, cs, h with
  | s :: l, c :: cs, h =>
    refine ⟨?_, Legs_imp hR h.2⟩
    have := h.1
    cases rse with
    | none => exact this
    | some p => exact hR _ _ _ this

/-- C73 (part): `genRoute` on cells whose rings hang together gives a route that drives every swath
once, begins and ends at the point that was set, and whose connections are ways along the borders.
The same parts are missing as in `C73_headland_ways_partial` and C21. -/
theorem C73_route_on_headland_partial (T : PointTable ℝ) (hT : T.IsLawful)
    (ordE : List (Nat × Nat) → List (Nat × Nat)) (hE : ∀ l, (ordE l).Perm l)
    (ordN : List RPoint → List RPoint) (hN : ∀ l, (ordN l).Perm l) (tol : ℝ)
    (ht : 0 < tol) (redirect : Bool) (rse : Option RPoint) (cells : Cells ℝ) (d : SwathsByCells ℝ)
    (hu : Usable cells) (htog : Together cells) (S : List RPoint) (hS : Contains cells (ends rse d.flatten) S)
    (hsep : Separated S) (hh : HashOk T S) (D : ℝ) (hD : ∀ a ∈ S, ∀ b ∈ S, pdist a b ≤ D)
    (hcost : S.length * (1000 * D) < 2 ^ 30) (solve : Graph2D ℝ → Option (List Nat))
    (hsolve : AvoidsMissing solve) (hne : d.flatten ≠ []) (hn : d.flatten.length ≤ 300000)
    (hw : ∀ s ∈ d.flatten, 0 < s.width) (hd : Distinct rse d.flatten) (hh' : HashOk T (tourPoints rse d.flatten)) :
    ∃ (r : Route ℝ) (order : List (Swath ℝ × Bool)),
      genRouteOn T ordE ordN solve tol redirect rse cells d = .ok r ∧
      (order.map Prod.fst).Perm d.flatten ∧ r.groups = order.map (fun x => [driven x]) ∧
      Connections (HeadlandWay cells (ends rse d.flatten) (2 * tol)) rse (order.map driven) r.connections ∧
      ∀ p, rse = some p → r.startPoint = p ∧ r.endPoint = p := by
  obtain ⟨g, es, h1, h2, h3, h4, h5, h6, h7, -, h8, h9⟩ :=
    headland_graph T hT ordE hE ordN hN tol ht rse cells d hu S hS hsep hh D hD hcost
  obtain ⟨r, order, k1, k2, k3, k4, k5⟩ := C22_connections_partial T hT es g h3 h4 h5 h6 h2 redirect rse d solve h7
    (h9 htog) hsolve hne hn hw hd hh'
  refine ⟨r, order, ?_, k2, k3, Connections_imp ?_ k4, k5⟩
  · unfold genRouteOn
    rw [h1, Outcome.ok_bind, k1]
  · rintro a b p ⟨p1, p2⟩
    refine ⟨p1, fun hab => ?_⟩
    obtain ⟨m1, m2, m3, c, m4, -⟩ := p2 hab
    exact ⟨m1, m2, m3, path_steps m4 fun x y h => (h8 x y h).1⟩

/-- C73 needs points that are near: if the first edge of the first ring is longer than 2^63 mm, its cost does not fit into an `int64_t`,
whatever else there is in the cells. -/
theorem C73_far (T : PointTable ℝ) (ordE : List (Nat × Nat) → List (Nat × Nat)) (ordN : List RPoint → List RPoint) (dTol : ℝ)
    (rse : Option RPoint) (a b : RPoint) (l : Ring ℝ) (c : Cell ℝ) (cells : Cells ℝ) (hfar : 2 ^ 63 ≤ 1000 * pdist a b) :
    (createShortestGraph T ordE ordN dTol rse (((a :: b :: l) :: c) :: cells) []).isUb = true := by
  have h1 : Cells.iter (((a :: b :: l) :: c) :: cells) = ((a :: b :: l) :: c) :: cells := if_neg (by simp)
  have h2 : Cell.iter ((a :: b :: l) :: c) = (a :: b :: l) :: c := if_neg (by simp)
  have hs : scaledDist a b = .ub "double to int64_t out of range" := by
    unfold scaledDist
    rw [if_neg]
    rw [not_le, Int.lt_iff_add_one_le, Int.le_floor]
    norm_num at hfar ⊢
    exact hfar
  unfold createShortestGraph
  rw [h1, List.flatMap_cons, h2]
  simp only [show SwathsByCells.flatten ([] : SwathsByCells ℝ) = [] from rfl, List.flatMap_nil, foldOutcome, Outcome.ok_bind, List.cons_append, addRing, List.tail_cons,
    List.zip_cons_cons, addEdgeDist, hs, Outcome.ub_bind, isUb_ub]

example : (createShortestGraph hashFirst id id (1 / 10000) none
    [[[⟨0, 0, 0⟩, ⟨10 ^ 16, 0, 0⟩, ⟨0, 10 ^ 16, 0⟩, ⟨0, 0, 0⟩]]] []).isUb = true := by
  refine C73_far _ _ _ _ _ _ _ _ _ _ ?_
  have : pdist (⟨0, 0, 0⟩ : RPoint) ⟨10 ^ 16, 0, 0⟩ = 10 ^ 16 := by
    unfold pdist
    rw [show ((0 : ℝ) - 10 ^ 16) ^ 2 + (0 - 0) ^ 2 = (10 ^ 16) ^ 2 by norm_num]
    exact Real.sqrt_sq (by norm_num)
  rw [this]
  norm_num

/-- C73 needs rings with points: a cell that has an empty ring beside others gives no graph. -/
theorem C73_empty_ring (T : PointTable ℝ) (ordE : List (Nat × Nat) → List (Nat × Nat))
    (ordN : List RPoint → List RPoint) (dTol : ℝ) (rse : Option RPoint) (cells : Cells ℝ) (d : SwathsByCells ℝ)
    (c : Cell ℝ) (r : Ring ℝ) (hc : c ∈ cells) (h0 : [] ∈ c) (hr : r ∈ c) (hne : r ≠ []) :
    ∀ g, createShortestGraph T ordE ordN dTol rse cells d ≠ .ok g := by
  intro g h
  have hall : c.all List.isEmpty = false := by
    simp only [List.all_eq_false, Bool.not_eq_true]
    exact ⟨r, hr, by cases r <;> simp_all⟩
  have hcells : Cells.iter cells = cells := by
    refine if_neg ?_
    simp only [List.all_eq_true, not_forall]
    exact ⟨c, hc, r, hr, by cases r <;> simp_all⟩
  have hmem : ([] : Ring ℝ) ∈ (Cells.iter cells).flatMap Cell.iter := by
    rw [hcells, List.mem_flatMap]
    exact ⟨c, hc, by rwa [Cell.iter, if_neg (by rw [hall]; simp)]⟩
  obtain ⟨g1, -, h1⟩ := bind_ok h
  obtain ⟨g2, h2, -⟩ := bind_ok h1
  clear h h1
  generalize (Cells.iter cells).flatMap Cell.iter = l at hmem h2
  induction l generalizing g1 with
  | nil => simp at hmem
  | cons x l ih =>
    obtain ⟨g3, h3, h4⟩ := bind_ok (show (addRing T g1 x >>= fun b => foldOutcome (addRing T) b l) = .ok g2 from h2)
    rcases List.mem_cons.1 hmem with rfl | hm
    · simp [addRing] at h3
    · exact ih g3 hm h4

example : ∀ g, createShortestGraph hashFirst id id (1 / 10000) none [[[⟨0, 0, 0⟩, ⟨4, 0, 0⟩, ⟨4, 4, 0⟩, ⟨0, 0, 0⟩], []]] [] ≠ .ok g :=
  C73_empty_ring _ _ _ _ _ _ _ _ _ (List.mem_singleton.2 rfl) (by simp) (List.mem_cons_self) (by simp)

/-! ## Parts that do not hang together -/

/-- `p` is on the left. -/
def OnLeft (l : ℝ) (p : RPoint) : Prop := p.x ≤ l

theorem along_same_side {cells : Cells ℝ} {V : List RPoint} {δ l r : ℝ} (hlr : δ < r - l)
    (hside : ∀ a b, Side cells a b ∨ Access cells V a b → (a.x ≤ l ∧ b.x ≤ l) ∨ (r ≤ a.x ∧ r ≤ b.x))
    {x y : RPoint} (h : Along cells V δ x y) (hx : x.x ≤ l ∨ r ≤ x.x) (hy : y.x ≤ l ∨ r ≤ y.x) (hl : x.x ≤ l) :
    y.x ≤ l := by
  obtain ⟨a, b, hab, hm⟩ := h
  have hδ : 0 ≤ δ := by
    obtain ⟨w, -, hw⟩ := hm x (onSegment_left _ _)
    exact (pdist_nonneg _ _).trans hw
  have hdx : ∀ p q : RPoint, p.x - q.x ≤ pdist p q := by
    intro p q
    have h1 := pdist_sq p q
    have h2 := pdist_nonneg p q
    nlinarith [sq_nonneg (p.y - q.y), sq_nonneg (p.x - q.x)]
  have hseg : ∀ w, OnSegment a b w → ∀ c, (a.x ≤ c → b.x ≤ c → w.x ≤ c) ∧ (c ≤ a.x → c ≤ b.x → c ≤ w.x) := by
    rintro w ⟨t, h0, h1, wx, -⟩ c
    constructor
    · intro h2 h3; rw [wx]; nlinarith
    · intro h2 h3; rw [wx]; nlinarith
  obtain ⟨u, hu, hu'⟩ := hm x (onSegment_left _ _)
  obtain ⟨v, hv, hv'⟩ := hm y (onSegment_right _ _)
  rcases hside a b hab with ⟨h1, h2⟩ | ⟨h1, h2⟩
  · rcases hy with hy | hy
    · exact hy
    · have := (hseg v hv l).1 h1 h2
      have := hdx y v
      linarith
  · have := (hseg u hu r).2 h1 h2
    have := hdx u x
    rw [pdist_comm] at this
    linarith

/-- C74: if every ring, and every swath end with the point of the border where it is joined, is on the left
or on the right of a strip wider than twice the tolerance, the graph has no way between the two sides:
`shortestPath` is empty and the cost is `INF`. -/
theorem C74_apart (T : PointTable ℝ) (hT : T.IsLawful) (ordE : List (Nat × Nat) → List (Nat × Nat))
    (hE : ∀ l, (ordE l).Perm l) (ordN : List RPoint → List RPoint) (hN : ∀ l, (ordN l).Perm l) (tol : ℝ)
    (ht : 0 < tol) (rse : Option RPoint) (cells : Cells ℝ) (d : SwathsByCells ℝ) (hu : Usable cells)
    (S : List RPoint) (hS : Contains cells (ends rse d.flatten) S) (hsep : Separated S)
    (hh : HashOk T S) (D : ℝ) (hD : ∀ a ∈ S, ∀ b ∈ S, pdist a b ≤ D) (hcost : S.length * (1000 * D) < 2 ^ 30)
    (l r : ℝ) (hlr : 2 * tol < r - l) (hSlr : ∀ p ∈ S, p.x ≤ l ∨ r ≤ p.x)
    (hside : ∀ a b, Side cells a b ∨ Access cells (ends rse d.flatten) a b →
      (a.x ≤ l ∧ b.x ≤ l) ∨ (r ≤ a.x ∧ r ≤ b.x)) :
    ∃ g, createShortestGraph T ordE ordN tol rse cells d = .ok g ∧
      ∀ a ∈ ends rse d.flatten, ∀ b ∈ ends rse d.flatten, a.x ≤ l → r ≤ b.x → ∃ g',
        g.shortestPath T a b (2 ^ 30) = .ok (g', []) ∧ g.shortestPathCost T a b (2 ^ 30) = .ok (g', 2 ^ 30) := by
  obtain ⟨g, es, h1, h2, h3, h4, h5, h6, h7, -, h8, -⟩ :=
    headland_graph T hT ordE hE ordN hN tol ht rse cells d hu S hS hsep hh D hD hcost
  refine ⟨g, h1, ?_⟩
  intro a ha b hb hal hbr
  have hno : ∀ t, ¬ PWalk es a b t := by
    intro t hw
    have : ∀ {x y t}, PWalk es x y t → x.x ≤ l → y.x ≤ l := by
      intro x y t hw
      induction hw with
      | nil => exact id
      | @cons x y z c t he _ ih =>
        intro hx
        obtain ⟨k1, k2, k3⟩ := h8 x y (by unfold Ed; rw [show costs es x y = some c from he]; simp)
        exact ih (along_same_side hlr hside k1 (hSlr x k2) (hSlr y k3) hx)
    have := this hw hal
    linarith
  obtain ⟨g', g'', c, p, k1, k2, k3, k4, k5, k6, k7⟩ := C13_between_points T hT es (2 ^ 30) h3 h4 h5 h6
    (by norm_num) (by norm_num) a b (h7 a ha) (h7 b hb)
  rw [h2] at k1
  obtain rfl : g = g' := by simpa using k1
  have e1 : p = [] := k6 fun t hw => absurd hw (hno t)
  have e2 : c = 2 ^ 30 := k4.2.2 fun t hw => absurd hw (hno t)
  subst e1 e2
  exact ⟨g'', k3, k2⟩

/-! ## Examples -/

/-- A point with whole coordinates in the plane. -/
def gridPoint (a b : ℤ) : RPoint := ⟨a, b, 0⟩

/-- Points with whole coordinates are separated. -/
theorem separated_grid {S : List RPoint} (h : ∀ p ∈ S, ∃ a b : ℤ, p = gridPoint a b) : Separated S := by
  have key : ∀ a b : ℤ, |(a : ℝ) - b| < Point.tol → a = b := by
    intro a b h
    have h1 : |((a - b : ℤ) : ℝ)| < 1 := by
      push_cast
      refine h.trans ?_
      unfold Point.tol
      norm_num
    rw [← Int.cast_abs] at h1
    have h2 : |a - b| < 1 := by exact_mod_cast h1
    have := Int.abs_lt_one_iff.1 h2
    omega
  intro p hp q hq he
  obtain ⟨a, b, rfl⟩ := h p hp
  obtain ⟨a', b', rfl⟩ := h q hq
  simp only [Point.eqv, gridPoint, Bool.and_eq_true] at he
  rw [key a a' (of_decide_eq_true he.1.1), key b b' (of_decide_eq_true he.1.2)]

/-- The hash of the code is defined on points with small whole coordinates. -/
theorem hash_grid {S : List RPoint} (h : ∀ p ∈ S, ∃ a b : ℤ, p = gridPoint a b ∧ 0 ≤ a ∧ a ≤ 1000 ∧ 0 ≤ b ∧ b ≤ 1000) :
    HashOk hashFirst S := by
  intro p hp
  obtain ⟨a, b, rfl, h1, h2, h3, h4⟩ := h p hp
  have g1 : (0 : ℝ) ≤ a := by exact_mod_cast h1
  have g2 : (a : ℝ) ≤ 1000 := by exact_mod_cast h2
  have g3 : (0 : ℝ) ≤ b := by exact_mod_cast h3
  have g4 : (b : ℝ) ≤ 1000 := by exact_mod_cast h4
  show (hashPoint (gridPoint a b)).isOk = true
  unfold hashPoint gridPoint
  simp only
  rw [if_pos]
  · rfl
  · constructor
    · nlinarith
    · nlinarith

theorem dist_grid {S : List RPoint} (h : ∀ p ∈ S, ∃ a b : ℤ, p = gridPoint a b ∧ 0 ≤ a ∧ a ≤ 1000 ∧ 0 ≤ b ∧ b ≤ 1000) :
    ∀ p ∈ S, ∀ q ∈ S, pdist p q ≤ 2000 := by
  intro p hp q hq
  obtain ⟨a, b, rfl, h1, h2, h3, h4⟩ := h p hp
  obtain ⟨a', b', rfl, k1, k2, k3, k4⟩ := h q hq
  have g1 : (0 : ℝ) ≤ a := by exact_mod_cast h1
  have g2 : (a : ℝ) ≤ 1000 := by exact_mod_cast h2
  have g3 : (0 : ℝ) ≤ b := by exact_mod_cast h3
  have g4 : (b : ℝ) ≤ 1000 := by exact_mod_cast h4
  have f1 : (0 : ℝ) ≤ a' := by exact_mod_cast k1
  have f2 : (a' : ℝ) ≤ 1000 := by exact_mod_cast k2
  have f3 : (0 : ℝ) ≤ b' := by exact_mod_cast k3
  have f4 : (b' : ℝ) ≤ 1000 := by exact_mod_cast k4
  unfold pdist gridPoint
  apply Real.sqrt_le_iff.2
  refine ⟨by norm_num, ?_⟩
  have e1 : ((a : ℝ) - a') ^ 2 ≤ 1000 ^ 2 := sq_le_sq' (by linarith) (by linarith)
  have e2 : ((b : ℝ) - b') ^ 2 ≤ 1000 ^ 2 := sq_le_sq' (by linarith) (by linarith)
  simp only
  nlinarith

theorem height_ring (p : RPoint) {r : List RPoint} (h : ∀ c ∈ r, c.z = 0) : ∀ q ∈ segmentClosest p r, q.z = 0 := by
  induction r with
  | nil => simp [segmentClosest]
  | cons a l ih =>
    cases l with
    | nil => simp [segmentClosest]
    | cons b l =>
      intro q hq
      simp only [segmentClosest, List.mem_cons] at hq
      rcases hq with rfl | hq
      · rw [(closestInSegment_coords p a b).2.2, h a (by simp), h b (by simp)]
        ring
      · exact ih (fun c hc => h c (List.mem_cons_of_mem _ hc)) q hq

theorem pickClosest_of {p : RPoint} {P : RPoint → Prop} {ps : List RPoint} (h : ∀ q ∈ ps, P q) {q : RPoint}
    (hq : pickClosest p ps = .ok q) : P q := by
  unfold pickClosest at hq
  split at hq
  · rename_i x hx
    injection hq with hq
    subst hq
    exact h _ (List.mem_of_getElem? hx)
  · cases hq

theorem mapOutcome_of {α β : Type} {f : α → Outcome β} {P : β → Prop} {l : List α}
    (h : ∀ a ∈ l, ∀ b, f a = .ok b → P b) {bs : List β} (hbs : mapOutcome f l = .ok bs) : ∀ b ∈ bs, P b := by
  induction l generalizing bs with
  | nil =>
    unfold mapOutcome at hbs
    injection hbs with hbs
    subst hbs
    simp
  | cons a l ih =>
    unfold mapOutcome at hbs
    cases h1 : f a with
    | ok b =>
      cases h2 : mapOutcome f l with
      | ok bs' =>
        rw [h1, Outcome.ok_bind, h2, Outcome.ok_bind] at hbs
        simp only [Outcome.pure_eq] at hbs
        injection hbs with hbs
        subst hbs
        intro x hx
        rcases List.mem_cons.1 hx with rfl | hx
        · exact h a (by simp) _ h1
        · exact ih (fun y hy => h y (List.mem_cons_of_mem _ hy)) h2 x hx
      | throw e => rw [h1, Outcome.ok_bind, h2, Outcome.throw_bind] at hbs; cases hbs
      | ub e => rw [h1, Outcome.ok_bind, h2, Outcome.ub_bind] at hbs; cases hbs
    | throw e => rw [h1, Outcome.throw_bind] at hbs; cases hbs
    | ub e => rw [h1, Outcome.ub_bind] at hbs; cases hbs

theorem height_cells (p : RPoint) {cells : Cells ℝ} (h : ∀ c ∈ corners cells, c.z = 0) (q : RPoint)
    (hq : Cells.closestOnBorder p cells = .ok q) : q.z = 0 := by
  unfold Cells.closestOnBorder at hq
  have hsub : ∀ c ∈ Cells.iter cells, c ∈ cells := by
    unfold Cells.iter
    split <;> simp
  have hsubc : ∀ c : Cell ℝ, ∀ r ∈ Cell.iter c, r ∈ c := by
    intro c
    unfold Cell.iter
    split <;> simp
  cases h1 : mapOutcome (Cell.closestOnBorder p) (Cells.iter cells) with
  | throw e => rw [h1, Outcome.throw_bind] at hq; cases hq
  | ub e => rw [h1, Outcome.ub_bind] at hq; cases hq
  | ok bs =>
    rw [h1, Outcome.ok_bind] at hq
    refine pickClosest_of (P := fun q => q.z = 0) (mapOutcome_of ?_ h1) hq
    intro c hc b hb
    unfold Cell.closestOnBorder at hb
    cases h2 : mapOutcome (closestPointTo p) c.iter with
    | throw e => rw [h2, Outcome.throw_bind] at hb; cases hb
    | ub e => rw [h2, Outcome.ub_bind] at hb; cases hb
    | ok bs' =>
      rw [h2, Outcome.ok_bind] at hb
      refine pickClosest_of (P := fun q => q.z = 0) (mapOutcome_of ?_ h2) hb
      intro r hr x hx
      unfold closestPointTo at hx
      split at hx
      · cases hx
      · refine pickClosest_of (P := fun q => q.z = 0) (height_ring p ?_) hx
        intro y hy
        exact h y (List.mem_flatten.2 ⟨r, List.mem_flatten.2 ⟨c, hsub c hc, hsubc c r hr⟩, hy⟩)

/-- A point of the border is joined to the border where it is. -/
theorem joined_here {cells : Cells ℝ} (hu : Usable cells) (h : ∀ c ∈ corners cells, c.z = 0) {p : RPoint}
    (hz : p.z = 0) (hon : Geo.OnBorders cells p) : Cells.closestOnBorder p cells = .ok p := by
  obtain ⟨q, h1, h2, h3⟩ := C48_cells_partial p cells hu.1 (by
    intro c hc
    refine ⟨(hu.2 c hc).1, fun r hr => ⟨?_, (hu.2 c hc).2 r hr⟩⟩
    intro x hx y hy
    have e : ∀ x ∈ r, x.z = 0 := fun x hx =>
      h x (List.mem_flatten.2 ⟨r, List.mem_flatten.2 ⟨c, hc, hr⟩, hx⟩)
    rw [e x hx, e y hy])
  have h4 := h3 p hon
  rw [pdist_self] at h4
  have h5 := (pdist_eq_zero p q).1 (le_antisymm h4 (pdist_nonneg _ _))
  have h6 := height_cells p h q h1
  have : q = p := by
    obtain ⟨x, y, z⟩ := p
    obtain ⟨x', y', z'⟩ := q
    simp only at h5 h6 hz
    rw [h5.1, h5.2, h6, hz]
  rw [h1, this]

/-- A square. -/
def demoRing (x : ℤ) : Ring ℝ :=
  [gridPoint x 0, gridPoint (x + 4) 0, gridPoint (x + 4) 4, gridPoint x 4, gridPoint x 0]

/-- Two tracks across the square. -/
noncomputable def demoTracks (x : ℤ) : Swaths ℝ :=
  [⟨0, [gridPoint (x + 1) 0, gridPoint (x + 1) 4], 2, true, .mainland⟩,
   ⟨1, [gridPoint (x + 3) 0, gridPoint (x + 3) 4], 2, true, .mainland⟩]

theorem demoRing_on (x : ℤ) (k : ℤ) (h0 : 0 ≤ k) (h4 : k ≤ 4) :
    OnLine (demoRing x) (gridPoint (x + k) 0) ∧ OnLine (demoRing x) (gridPoint (x + k) 4) := by
  have g0 : (0 : ℝ) ≤ k := by exact_mod_cast h0
  have g4 : (k : ℝ) ≤ 4 := by exact_mod_cast h4
  constructor
  · refine Or.inl ⟨k / 4, by linarith, by linarith, ?_, ?_⟩
    · simp only [gridPoint]; push_cast; ring
    · simp only [gridPoint]; push_cast; ring
  · refine Or.inr (Or.inr (Or.inl ⟨1 - k / 4, by linarith, by linarith, ?_, ?_⟩))
    · simp only [gridPoint]; push_cast; ring
    · simp only [gridPoint]; push_cast; ring

theorem demo_usable (xs : List ℤ) (h : xs ≠ []) : Usable (xs.map fun x => [demoRing x]) := by
  refine ⟨by simpa using h, ?_⟩
  intro c hc
  obtain ⟨x, -, rfl⟩ := List.mem_map.1 hc
  simp [demoRing]

theorem demo_corners (xs : List ℤ) : ∀ c ∈ corners (xs.map fun x => [demoRing x]), ∃ x ∈ xs, c ∈ demoRing x := by
  intro c hc
  obtain ⟨r, hr, hc⟩ := List.mem_flatten.1 hc
  obtain ⟨cell, hcell, hr⟩ := List.mem_flatten.1 hr
  obtain ⟨x, hx, rfl⟩ := List.mem_map.1 hcell
  simp only [List.mem_singleton] at hr
  subst hr
  exact ⟨x, hx, hc⟩

theorem demo_contains (xs : List ℤ) (h : xs ≠ []) (V : List RPoint)
    (hV : ∀ p ∈ V, p.z = 0 ∧ ∃ x ∈ xs, OnLine (demoRing x) p) :
    Contains (xs.map fun x => [demoRing x]) V (V ++ corners (xs.map fun x => [demoRing x])) := by
  refine ⟨fun p hp => List.mem_append_left _ hp, fun p hp => List.mem_append_right _ hp, ?_⟩
  intro p hp q hq
  obtain ⟨hz, x, hx, hon⟩ := hV p hp
  rw [joined_here (demo_usable xs h) ?_ hz ⟨[demoRing x], List.mem_map.2 ⟨x, hx, rfl⟩, demoRing x, by simp, hon⟩] at hq
  · injection hq with hq
    subst hq
    exact List.mem_append_left _ hp
  · intro c hc
    obtain ⟨y, -, hy⟩ := demo_corners xs c hc
    simp only [demoRing, List.mem_cons, List.not_mem_nil, or_false] at hy
    rcases hy with rfl | rfl | rfl | rfl | rfl <;> rfl

/-- The start point and the swath ends of the example. -/
theorem demo_ends : ends (some (gridPoint 2 0)) (SwathsByCells.flatten [demoTracks 0]) =
    [gridPoint 1 0, gridPoint 1 4, gridPoint 3 0, gridPoint 3 4, gridPoint 2 0] := rfl

theorem demo_facts :
    Usable [[demoRing 0]] ∧ Together [[demoRing 0]] ∧
    Contains [[demoRing 0]] (ends (some (gridPoint 2 0)) (SwathsByCells.flatten [demoTracks 0]))
      ([gridPoint 1 0, gridPoint 1 4, gridPoint 3 0, gridPoint 3 4, gridPoint 2 0] ++ demoRing 0) ∧
    (∀ p ∈ [gridPoint 1 0, gridPoint 1 4, gridPoint 3 0, gridPoint 3 4, gridPoint 2 0] ++ demoRing 0,
      ∃ a b : ℤ, p = gridPoint a b ∧ 0 ≤ a ∧ a ≤ 1000 ∧ 0 ≤ b ∧ b ≤ 1000) := by
  refine ⟨demo_usable [0] (by simp), ?_, ?_, ?_⟩
  · intro r hr s hs
    simp only [List.flatten_cons, List.flatten_nil, List.append_nil, List.mem_singleton] at hr hs
    subst hr hs
    exact .refl
  · have := demo_contains [0] (by simp) (ends (some (gridPoint 2 0)) (SwathsByCells.flatten [demoTracks 0])) ?_
    · simpa [corners, demo_ends] using this
    · rw [demo_ends]
      intro p hp
      simp only [List.mem_cons, List.not_mem_nil, or_false] at hp
      rcases hp with rfl | rfl | rfl | rfl | rfl
      · exact ⟨rfl, 0, by simp, (demoRing_on 0 1 (by norm_num) (by norm_num)).1⟩
      · exact ⟨rfl, 0, by simp, (demoRing_on 0 1 (by norm_num) (by norm_num)).2⟩
      · exact ⟨rfl, 0, by simp, (demoRing_on 0 3 (by norm_num) (by norm_num)).1⟩
      · exact ⟨rfl, 0, by simp, (demoRing_on 0 3 (by norm_num) (by norm_num)).2⟩
      · exact ⟨rfl, 0, by simp, (demoRing_on 0 2 (by norm_num) (by norm_num)).1⟩
  · intro p hp
    simp only [demoRing, List.cons_append, List.nil_append, List.mem_cons, List.not_mem_nil, or_false] at hp
    rcases hp with rfl | rfl | rfl | rfl | rfl | rfl | rfl | rfl | rfl | rfl <;> exact ⟨_, _, rfl, by norm_num⟩

/-- All hypotheses of C73 hold for two swaths across a square and a start point on its border. -/
example : ∃ (r : Route ℝ) (solve : Graph2D ℝ → Option (List Nat)),
    genRouteOn hashFirst id id solve (1 / 10000) true (some (gridPoint 2 0)) [[demoRing 0]] [demoTracks 0] = .ok r ∧
    r.groups.length = 2 ∧ r.startPoint = gridPoint 2 0 ∧ r.endPoint = gridPoint 2 0 := by
  obtain ⟨solve, hs⟩ := exists_optimiser (K := ℝ)
  obtain ⟨h1, h2, h3, h4⟩ := demo_facts
  have htour : tourPoints (some (gridPoint 2 0)) (SwathsByCells.flatten [demoTracks 0]) =
      [gridPoint 1 0, gridPoint 1 2, gridPoint 1 4, gridPoint 3 0, gridPoint 3 2, gridPoint 3 4, gridPoint 2 0] := by
    show [_, _, _, _, _, _, _] = [_, _, _, _, _, _, _]
    simp only [middle, Swath.startPoint, Swath.endPoint, demoTracks, gridPoint, home, Option.getD]
    norm_num
  have hgrid : ∀ p ∈ tourPoints (some (gridPoint 2 0)) (SwathsByCells.flatten [demoTracks 0]),
      ∃ a b : ℤ, p = gridPoint a b ∧ 0 ≤ a ∧ a ≤ 1000 ∧ 0 ≤ b ∧ b ≤ 1000 := by
    rw [htour]
    intro p hp
    simp only [List.mem_cons, List.not_mem_nil, or_false] at hp
    rcases hp with rfl | rfl | rfl | rfl | rfl | rfl | rfl <;> exact ⟨_, _, rfl, by norm_num⟩
  obtain ⟨r, order, k1, k2, k3, -, k5⟩ := C73_route_on_headland_partial hashFirst hashFirst_lawful id
    (fun l => List.Perm.refl l) id (fun l => List.Perm.refl l) (1 / 10000) (by norm_num) true (some (gridPoint 2 0))
    [[demoRing 0]] [demoTracks 0] h1 h2 _ h3
    (separated_grid fun p hp => by obtain ⟨a, b, e, -⟩ := h4 p hp; exact ⟨a, b, e⟩) (hash_grid h4) 2000
    (dist_grid h4) (by simp [demoRing]; norm_num) solve hs (by simp [SwathsByCells.flatten, demoTracks])
    (by simp [SwathsByCells.flatten, demoTracks])
    (by
      intro s hs
      have : s ∈ demoTracks 0 := hs
      simp only [demoTracks, List.mem_cons, List.not_mem_nil, or_false] at this
      rcases this with rfl | rfl <;> norm_num)
    (by
      unfold Distinct
      have hsep := separated_grid fun p hp => by obtain ⟨a, b, e, -⟩ := hgrid p hp; exact ⟨a, b, e⟩
      refine List.Pairwise.imp_of_mem (R := fun p q => p ≠ q) ?_ ?_
      · intro p q hp hq hne
        exact (eqv_false hsep hp hq).2 hne
      · rw [htour]
        simp [gridPoint])
    (hash_grid hgrid)
  refine ⟨r, solve, k1, ?_, (k5 _ rfl).1, (k5 _ rfl).2⟩
  have := k2.length_eq
  rw [k3]
  simpa [SwathsByCells.flatten, demoTracks] using this

/-- All hypotheses of C74 hold for two squares that are 6 m apart: from the first to the second there is
no way. -/
theorem C74_two_squares : ∃ g, createShortestGraph hashFirst id id (1 / 10000) none [[demoRing 0], [demoRing 10]]
      [demoTracks 0, demoTracks 10] = .ok g ∧ ∃ g',
      g.shortestPath hashFirst (gridPoint 3 4) (gridPoint 11 0) (2 ^ 30) = .ok (g', []) := by
  have hends : ends none (SwathsByCells.flatten [demoTracks 0, demoTracks 10]) =
      [gridPoint 1 0, gridPoint 1 4, gridPoint 3 0, gridPoint 3 4,
       gridPoint 11 0, gridPoint 11 4, gridPoint 13 0, gridPoint 13 4] := rfl
  have hu : Usable [[demoRing 0], [demoRing 10]] := demo_usable [0, 10] (by simp)
  have hV : ∀ p ∈ ends none (SwathsByCells.flatten [demoTracks 0, demoTracks 10]),
      p.z = 0 ∧ ∃ x ∈ [(0 : ℤ), 10], OnLine (demoRing x) p := by
    rw [hends]
    intro p hp
    simp only [List.mem_cons, List.not_mem_nil, or_false] at hp
    rcases hp with rfl | rfl | rfl | rfl | rfl | rfl | rfl | rfl
    · exact ⟨rfl, 0, by simp, (demoRing_on 0 1 (by norm_num) (by norm_num)).1⟩
    · exact ⟨rfl, 0, by simp, (demoRing_on 0 1 (by norm_num) (by norm_num)).2⟩
    · exact ⟨rfl, 0, by simp, (demoRing_on 0 3 (by norm_num) (by norm_num)).1⟩
    · exact ⟨rfl, 0, by simp, (demoRing_on 0 3 (by norm_num) (by norm_num)).2⟩
    · exact ⟨rfl, 10, by simp, (demoRing_on 10 1 (by norm_num) (by norm_num)).1⟩
    · exact ⟨rfl, 10, by simp, (demoRing_on 10 1 (by norm_num) (by norm_num)).2⟩
    · exact ⟨rfl, 10, by simp, (demoRing_on 10 3 (by norm_num) (by norm_num)).1⟩
    · exact ⟨rfl, 10, by simp, (demoRing_on 10 3 (by norm_num) (by norm_num)).2⟩
  have hcor : corners [[demoRing 0], [demoRing 10]] = demoRing 0 ++ demoRing 10 := by simp [corners]
  have hS := demo_contains [0, 10] (by simp) _ hV
  have hgrid : ∀ p ∈ ends none (SwathsByCells.flatten [demoTracks 0, demoTracks 10]) ++
      corners [[demoRing 0], [demoRing 10]],
      ∃ a b : ℤ, p = gridPoint a b ∧ 0 ≤ a ∧ a ≤ 1000 ∧ 0 ≤ b ∧ b ≤ 1000 := by
    rw [hends, hcor]
    intro p hp
    simp only [demoRing, List.cons_append, List.nil_append, List.mem_cons, List.not_mem_nil, or_false] at hp
    rcases hp with rfl | rfl | rfl | rfl | rfl | rfl | rfl | rfl | rfl | rfl | rfl | rfl | rfl | rfl | rfl | rfl |
      rfl | rfl <;> exact ⟨_, _, rfl, by norm_num⟩
  have hring : ∀ r ∈ List.flatten [[demoRing 0], [demoRing 10]], (∀ p ∈ r, p.x ≤ 4) ∨ ∀ p ∈ r, 10 ≤ p.x := by
    intro r hr
    simp only [List.flatten_cons, List.flatten_nil, List.append_nil, List.cons_append, List.nil_append,
      List.mem_cons, List.not_mem_nil, or_false] at hr
    rcases hr with rfl | rfl
    · left
      intro p hp
      simp only [demoRing, List.mem_cons, List.not_mem_nil, or_false] at hp
      rcases hp with rfl | rfl | rfl | rfl | rfl <;> norm_num [gridPoint]
    · right
      intro p hp
      simp only [demoRing, List.mem_cons, List.not_mem_nil, or_false] at hp
      rcases hp with rfl | rfl | rfl | rfl | rfl <;> norm_num [gridPoint]
  have hVlr : ∀ p ∈ ends none (SwathsByCells.flatten [demoTracks 0, demoTracks 10]), p.x ≤ 4 ∨ 10 ≤ p.x := by
    rw [hends]
    intro p hp
    simp only [List.mem_cons, List.not_mem_nil, or_false] at hp
    rcases hp with rfl | rfl | rfl | rfl | rfl | rfl | rfl | rfl <;> norm_num [gridPoint]
  obtain ⟨g, h1, h2⟩ := C74_apart hashFirst hashFirst_lawful id (fun l => List.Perm.refl l) id
    (fun l => List.Perm.refl l) (1 / 10000) (by norm_num) none [[demoRing 0], [demoRing 10]]
    [demoTracks 0, demoTracks 10] hu _ hS
    (separated_grid fun p hp => by obtain ⟨a, b, e, -⟩ := hgrid p hp; exact ⟨a, b, e⟩) (hash_grid hgrid) 2000
    (dist_grid hgrid) (by
      have : List.length (ends none (SwathsByCells.flatten [demoTracks 0, demoTracks 10]) ++
        corners (List.map (fun x => [demoRing x]) [0, 10])) = 18 := by
        rw [hends]; simp [corners, demoRing]
      rw [this]; norm_num) 4 10 (by norm_num)
    (by
      intro p hp
      rcases List.mem_append.1 hp with hp | hp
      · exact hVlr p hp
      · obtain ⟨r, hr, hp⟩ := List.mem_flatten.1 hp
        rcases hring r hr with h | h
        · exact Or.inl (h p hp)
        · exact Or.inr (h p hp))
    (by
      rintro a b (⟨r, hr, pre, post, e⟩ | ⟨ha, hab⟩)
      · rcases hring r hr with h | h
        · exact Or.inl ⟨h a (by rw [e]; simp), h b (by rw [e]; simp)⟩
        · exact Or.inr ⟨h a (by rw [e]; simp), h b (by rw [e]; simp)⟩
      · obtain ⟨hz, x, hx, hon⟩ := hV a ha
        rw [joined_here hu ?_ hz ⟨[demoRing x], (List.mem_map (f := fun x => [demoRing x])).2 ⟨x, hx, rfl⟩, demoRing x, by simp, hon⟩] at hab
        · injection hab with hab
          subst hab
          rcases hVlr a ha with h | h
          · exact Or.inl ⟨h, h⟩
          · exact Or.inr ⟨h, h⟩
        · intro c hc
          obtain ⟨y, -, hy⟩ := demo_corners [0, 10] c hc
          simp only [demoRing, List.mem_cons, List.not_mem_nil, or_false] at hy
          rcases hy with rfl | rfl | rfl | rfl | rfl <;> rfl)
  refine ⟨g, h1, ?_⟩
  obtain ⟨g', h3, -⟩ := h2 (gridPoint 3 4) (by rw [hends]; simp) (gridPoint 11 0) (by rw [hends]; simp)
    (by norm_num [gridPoint]) (by norm_num [gridPoint])
  exact ⟨g', h3⟩

end F2C.Props
