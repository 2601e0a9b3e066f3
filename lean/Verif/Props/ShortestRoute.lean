import Mathlib.Data.Finset.Max
import Mathlib.Data.List.Permutation
import Verif.Lemmas.HeadlandLength
import Verif.Props.TopLevelHeadland

/-!
# C103, and the lengths of ways in C73
-/

namespace F2C.Props

open Graph2DSpec Graph2DL PlannerSpec PlannerL Planner HeadSpec HeadL Outcome
open F2C.Props.SG (OnSegment OnLine)

/-! ## Ways along the borders -/

theorem each_step_rw {es : List (PEdit ℝ)} {R : RPoint → RPoint → Prop} {q : List RPoint}
    (h : EachStep R q) (hR : ∀ x ∈ q, ∀ y ∈ q, R x y → RW es x y (pdist x y)) :
    ∀ a b, q.head? = some a → q.getLast? = some b → RW es a b (lineLength q) := by
  induction q with
  | nil => simp
  | cons x l ih =>
    intro a b ha hb
    simp only [List.head?_cons, Option.some.injEq] at ha
    subst ha
    cases l with
    | nil =>
      simp only [List.getLast?_singleton, Option.some.injEq] at hb
      subst hb
      exact .refl _
    | cons y l =>
      rw [List.getLast?_cons_cons] at hb
      exact (hR x (by simp) y (by simp) h.1).trans
        (ih h.2 (fun u hu v hv => hR u (List.mem_cons_of_mem _ hu) v (List.mem_cons_of_mem _ hv)) y b rfl hb)

/-- What the headland graph answers, in lengths. -/
theorem headland_lengths (T : PointTable ℝ) (hT : T.IsLawful) (ordE : List (Nat × Nat) → List (Nat × Nat))
    (hE : ∀ l, (ordE l).Perm l) (ordN : List RPoint → List RPoint) (hN : ∀ l, (ordN l).Perm l) (tol : ℝ)
    (ht : 0 < tol) (rse : Option RPoint) (cells : Cells ℝ) (d : SwathsByCells ℝ) (hu : Usable cells)
    (htog : Together cells) (S : List RPoint) (hS : Contains cells (ends rse d.flatten) S)
    (hclear : Clear cells (ends rse d.flatten) tol S) (hsep : Separated S) (hh : HashOk T S) (D : ℝ)
    (hD : ∀ a ∈ S, ∀ b ∈ S, pdist a b ≤ D) (hcost : S.length * (1000 * D) < 2 ^ 30) :
    ∃ g, createShortestGraph T ordE ordN tol rse cells d = .ok g ∧ Connects T g (ends rse d.flatten) ∧
      ∀ a ∈ ends rse d.flatten, ∀ b ∈ ends rse d.flatten, ∃ g' c p,
        g.shortestPathCost T a b (2 ^ 30) = .ok (g', c) ∧ g.shortestPath T a b (2 ^ 30) = .ok (g', p) ∧
        1000 * lineLength p ≤ c + ((p.length - 1 : ℕ) : ℝ) ∧
        ∀ q, BorderWay cells (ends rse d.flatten) a b q → (c : ℝ) ≤ 1000 * lineLength q := by
  obtain ⟨hp, hc⟩ := pts_of hT (contains_ne hu hS) hsep hh hD hcost
  obtain ⟨g, es, h1, h2, h3⟩ := built_len hp hu hS hE hN ht hclear
  have e3 : Separated (nodes es) := fun p hp' q hq => hsep p (h2.st.sub p hp') q (h2.st.sub q hq)
  have e4 : HashOk T (nodes es) := fun p hp' => hh p (h2.st.sub p hp')
  have e6 : Undirected (2 ^ 30) es := by
    intro e he
    have := h2.st.und e he
    have hM := hp.M1
    cases e with
    | addDirected => exact this
    | add a b c => exact ⟨this.1, by have := this.2; omega⟩
    | remove => trivial
  have e7 : ∀ p ∈ ends rse d.flatten, p ∈ nodes es := by
    intro p hp'
    obtain ⟨q, hq, -⟩ := joined_cells p hu
    exact (h2.link p hp' q hq).2.1
  have e9 : ∀ a ∈ ends rse d.flatten, ∀ b ∈ ends rse d.flatten, ∃ t, PWalk es a b t ∧ t < 2 ^ 30 :=
    fun a ha b hb => reach_cheap hp h2.st hc (all_reach hp h2 hu htog a ha b hb)
  have hstop : ∀ p, Stop cells (ends rse d.flatten) p → p ∈ nodes es := by
    rintro p (h | h | ⟨v, hv, h⟩)
    · exact e7 p h
    · obtain ⟨r, hr, hpr⟩ := List.mem_flatten.1 h
      exact h2.corner r hr p hpr
    · exact (h2.link v hv p h).2.2
  refine ⟨g, h1, C22_headland_connects T hT es g e3 e4 h2.st.known e6 h2.st.run _ e7 e9, ?_⟩
  intro a ha b hb
  obtain ⟨g', g'', c, p, k1, k2, k3, k4, k5, k6, k7⟩ := C13_between_points T hT es (2 ^ 30) e3 e4 h2.st.known e6
    (by norm_num) (by norm_num) a b (e7 a ha) (e7 b hb)
  rw [h2.st.run] at k1
  obtain rfl : g = g' := by simpa using k1
  obtain ⟨w1, w2⟩ := k4.2.1 (e9 a ha b hb)
  refine ⟨g'', c, p, k2, k3, ?_, ?_⟩
  · by_cases hab : a = b
    · have := k5 hab
      subst this
      have : ∀ {x y s}, PWalk es x y s → 0 ≤ s := by
        intro x y s hs
        induction hs with
        | nil => exact le_refl _
        | cons he _ ih =>
          have := (costs_range e6 he).1
          omega
      have h0 : (0 : ℝ) ≤ c := by exact_mod_cast this w1
      simpa [lineLength] using h0
    · obtain ⟨m1, -, -, m4⟩ := k7 hab (e9 a ha b hb)
      have := path_len h2.st m4
      have hlen : 1 ≤ p.length := by cases p <;> simp_all
      rw [Nat.cast_sub hlen]
      simpa using this
  · rintro q ⟨q1, q2, q3, q4⟩
    obtain ⟨t, t1, t2⟩ := RW.cost h2.st (each_step_rw q4
      (fun x hx y hy h => h3 x (hstop x (q3 x hx)) y (hstop y (q3 y hy)) h) a b q1 q2)
    have : (c : ℝ) ≤ t := by exact_mod_cast w2 t t1
    linarith

/-- C73 (part): the way between two swath ends that the headland graph answers with is the shortest way
along the borders, up to one millimetre for every step (costs are whole millimetres).  Missing, besides what is
missing in `C73_headland_ways_partial`: borders where a corner or swath end is near a side without being on
it. -/
theorem C73_shortest_partial (T : PointTable ℝ) (hT : T.IsLawful) (ordE : List (Nat × Nat) → List (Nat × Nat))
    (hE : ∀ l, (ordE l).Perm l) (ordN : List RPoint → List RPoint) (hN : ∀ l, (ordN l).Perm l) (tol : ℝ)
    (ht : 0 < tol) (rse : Option RPoint) (cells : Cells ℝ) (d : SwathsByCells ℝ) (hu : Usable cells)
    (htog : Together cells) (S : List RPoint) (hS : Contains cells (ends rse d.flatten) S)
    (hclear : Clear cells (ends rse d.flatten) tol S) (hsep : Separated S) (hh : HashOk T S) (D : ℝ)
    (hD : ∀ a ∈ S, ∀ b ∈ S, pdist a b ≤ D) (hcost : S.length * (1000 * D) < 2 ^ 30) :
    ∃ g, createShortestGraph T ordE ordN tol rse cells d = .ok g ∧
      ∀ a ∈ ends rse d.flatten, ∀ b ∈ ends rse d.flatten, ∃ g' p,
        g.shortestPath T a b (2 ^ 30) = .ok (g', p) ∧
        ∀ q, BorderWay cells (ends rse d.flatten) a b q →
          lineLength p ≤ lineLength q + ((p.length - 1 : ℕ) : ℝ) / 1000 := by
  obtain ⟨g, h1, -, h2⟩ :=
    headland_lengths T hT ordE hE ordN hN tol ht rse cells d hu htog S hS hclear hsep hh D hD hcost
  refine ⟨g, h1, fun a ha b hb => ?_⟩
  obtain ⟨g', c, p, k1, k2, k3, k4⟩ := h2 a ha b hb
  refine ⟨g', p, k2, fun q hq => ?_⟩
  have := k4 q hq
  linarith

/-! ## Routes -/

section
variable {K : Type} [Field K] [LinearOrder K] [IsStrictOrderedRing K]

theorem hops_ends {rse : Option (Point K)} {l : Swaths K} {ord : List (Swath K × Bool)} (hord : ∀ x ∈ ord, x.1 ∈ l) :
    ∀ h ∈ hops rse (ord.map driven), h.1 ∈ ends rse l ∧ h.2 ∈ ends rse l := by
  have hd : ∀ x ∈ ord, (driven x).startPoint ∈ ends rse l ∧ (driven x).endPoint ∈ ends rse l := by
    rintro ⟨t, b⟩ hx
    have hy := hord _ hx
    have m1 : t.startPoint ∈ ends rse l := List.mem_append_left _ (List.mem_flatMap.2 ⟨t, hy, by simp⟩)
    have m2 : t.endPoint ∈ ends rse l := List.mem_append_left _ (List.mem_flatMap.2 ⟨t, hy, by simp⟩)
    cases b
    · exact ⟨m1, m2⟩
    · have e1 : (driven (t, true)).startPoint = t.endPoint := rev_start _
      have e2 : (driven (t, true)).endPoint = t.startPoint := rev_end _
      rw [e1, e2]
      exact ⟨m2, m1⟩
  have hp : ∀ p, rse = some p → p ∈ ends rse l := fun p hp => List.mem_append_right _ (by simp [hp])
  have from' : ∀ (m : List (Swath K × Bool)) (x : Swath K × Bool), (∀ y ∈ x :: m, y ∈ ord) →
      ∀ h ∈ hopsFrom rse (driven x) (m.map driven), h.1 ∈ ends rse l ∧ h.2 ∈ ends rse l := by
    intro m
    induction m with
    | nil =>
      intro x hx h hh
      cases hr : rse with
      | none => simp [hopsFrom, hr] at hh
      | some p =>
        simp only [hopsFrom, hr, List.map_nil, List.mem_singleton] at hh
        subst hh
        rw [← hr]
        exact ⟨(hd x (hx x (by simp))).2, hp p hr⟩
    | cons y m ih =>
      intro x hx h hh
      simp only [hopsFrom, List.map_cons, List.mem_cons] at hh
      rcases hh with rfl | hh
      · exact ⟨(hd x (hx x (by simp))).2, (hd y (hx y (by simp))).1⟩
      · exact ih y (fun z hz => hx z (List.mem_cons_of_mem _ hz)) h hh
  cases ord with
  | nil => simp [hops]
  | cons x m =>
    intro h hh
    simp only [hops, List.map_cons, List.mem_append] at hh
    rcases hh with hh | hh
    · cases hr : rse with
      | none => simp [hr] at hh
      | some p =>
        simp only [hr, List.mem_singleton] at hh
        subst hh
        rw [← hr]
        exact ⟨hp p hr, (hd x (by simp)).1⟩
    · exact from' m x (fun y hy => hy) h hh

/-- C103 (part): with an optimiser whose tours are at most `ε` more expensive than the best one, the sum of
the distances between the swaths of the route, as the headland graph tells them, is at most `ε` larger than
in any other order in which all swaths are driven once, in either direction (forwards only, if swaths must not
be redirected).  Missing: as in C21. -/
theorem C103_best_order_partial (T : PointTable K) (hT : T.IsLawful) (sg : Graph2D K) (redirect : Bool)
    (rse : Option (Point K)) (d : SwathsByCells K) (solve : Graph2D K → Option (List Nat))
    (hsolve : AvoidsMissing solve) (ε : Int) (hbest : NearBest ε solve) (hne : d.flatten ≠ [])
    (hn : d.flatten.length ≤ 300000)
    (hw : ∀ s ∈ d.flatten, 0 < s.width) (hd : Distinct rse d.flatten)
    (hh : HashOk T (tourPoints rse d.flatten)) (hc : Connects T sg (ends rse d.flatten))
    (C : Point K → Point K → Int) (hC : Answers T sg (ends rse d.flatten) C) :
    ∃ (r : Route K) (order : List (Swath K × Bool)), genRoute T solve sg redirect rse d = .ok r ∧
      (order.map Prod.fst).Perm d.flatten ∧ r.groups = order.map (fun x => [driven x]) ∧
      ∀ other : List (Swath K × Bool), (other.map Prod.fst).Perm d.flatten →
        (redirect = false → ∀ y ∈ other, y.2 = false) →
        ((hops rse (order.map driven)).map fun h => C h.1 h.2).sum ≤
          ((hops rse (other.map driven)).map fun h => C h.1 h.2).sum + ε := by
  obtain ⟨x, ord, h1, h2, h3, cov, ids, h4, h5, h6⟩ := plan T hT sg redirect rse d solve hsolve hne hn hw hd hh hc
  have heq : ∀ o : List (Swath K × Bool), (o.map Prod.fst).Perm d.flatten →
      ((hops rse (o.map driven)).map fun h => C h.1 h.2).sum = hopSum (ansC T sg) (hops rse (o.map driven)) := by
    intro o ho
    unfold hopSum
    congr 1
    refine List.map_congr_left fun h hh' => ?_
    obtain ⟨m1, m2⟩ := hops_ends (rse := rse) (l := d.flatten)
      (fun y hy => ho.mem_iff.1 (List.mem_map.2 ⟨y, hy, rfl⟩)) h hh'
    obtain ⟨g, hg⟩ := hC _ m1 _ m2
    unfold ansC spCost
    rw [show inf = 2 ^ 30 from rfl, hg]
    rfl
  refine ⟨_, x :: ord, h1, h2, rfl, ?_⟩
  intro other ho hr
  obtain ⟨ids', t1, t2⟩ := h6 other ho hr
  rw [heq _ h2, heq _ ho, ← h5, ← t2]
  exact hbest cov ids ids' h4 t1

omit [Field K] [LinearOrder K] [IsStrictOrderedRing K] in
/-- There is a perfect optimiser. -/
theorem exists_best_optimiser : ∃ solve : Graph2D K → Option (List Nat), AvoidsMissing solve ∧ NearBest 0 solve := by
  classical
  have hmin : ∀ cov : Graph2D K, ∃ ids, IsTour cov ids ∧ ∀ ids', IsTour cov ids' → tourCost cov ids ≤ tourCost cov ids' := by
    intro cov
    obtain ⟨ids, h1, h2⟩ := Finset.exists_min_image (List.range (cov.numNodes - 1)).permutations.toFinset
      (tourCost cov) ⟨List.range (cov.numNodes - 1), by simp⟩
    refine ⟨ids, ?_, fun ids' h => h2 ids' ?_⟩
    · simpa [IsTour] using h1
    · simpa [IsTour] using h
  choose best hb1 hb2 using hmin
  refine ⟨fun cov => some (best cov), ?_, ?_⟩
  · rintro cov ⟨ids, h1, h2⟩
    exact ⟨_, rfl, hb1 cov, (hb2 cov ids h1).trans_lt h2⟩
  · intro cov ids ids' h1 h2
    obtain rfl : best cov = ids := by simpa using h1
    simpa using hb2 cov ids' h2

end

/-- C103 (part): a route on the borders of the given cells.  The total length of its connections is at most
that of any ways along the borders that join the swaths in any other order and directions, up to a millimetre for
every step and the error `ε` (in millimetres) of the optimiser.  Missing: as in C21 and `C73_shortest_partial`. -/
theorem C103_shortest_route_partial (T : PointTable ℝ) (hT : T.IsLawful)
    (ordE : List (Nat × Nat) → List (Nat × Nat)) (hE : ∀ l, (ordE l).Perm l)
    (ordN : List RPoint → List RPoint) (hN : ∀ l, (ordN l).Perm l) (tol : ℝ)
    (ht : 0 < tol) (redirect : Bool) (rse : Option RPoint) (cells : Cells ℝ) (d : SwathsByCells ℝ)
    (hu : Usable cells) (htog : Together cells) (S : List RPoint) (hS : Contains cells (ends rse d.flatten) S)
    (hclear : Clear cells (ends rse d.flatten) tol S) (hsep : Separated S) (hh : HashOk T S) (D : ℝ)
    (hD : ∀ a ∈ S, ∀ b ∈ S, pdist a b ≤ D)
    (hcost : S.length * (1000 * D) < 2 ^ 30) (solve : Graph2D ℝ → Option (List Nat))
    (hsolve : AvoidsMissing solve) (ε : Int) (hbest : NearBest ε solve) (hne : d.flatten ≠ [])
    (hn : d.flatten.length ≤ 300000)
    (hw : ∀ s ∈ d.flatten, 0 < s.width) (hd : Distinct rse d.flatten) (hh' : HashOk T (tourPoints rse d.flatten)) :
    ∃ (r : Route ℝ) (order : List (Swath ℝ × Bool)),
      genRouteOn T ordE ordN solve tol redirect rse cells d = .ok r ∧
      (order.map Prod.fst).Perm d.flatten ∧ r.groups = order.map (fun x => [driven x]) ∧
      ∀ (other : List (Swath ℝ × Bool)) (ways : List (List RPoint)), (other.map Prod.fst).Perm d.flatten →
        (redirect = false → ∀ y ∈ other, y.2 = false) →
        List.Forall₂ (fun h w => BorderWay cells (ends rse d.flatten) h.1 h.2 w) (hops rse (other.map driven)) ways →
        (r.connections.map lineLength).sum ≤ (ways.map lineLength).sum +
          ((r.connections.map fun c => ((c.length - 1 : ℕ) : ℝ)).sum + ε) / 1000 := by
  obtain ⟨g, h1, hc, h2⟩ :=
    headland_lengths T hT ordE hE ordN hN tol ht rse cells d hu htog S hS hclear hsep hh D hD hcost
  obtain ⟨x, ord, p1, p2, p3, cov, ids, p4, p5, p6⟩ :=
    plan T hT g redirect rse d solve hsolve hne hn hw hd hh' hc
  have hans : ∀ a ∈ ends rse d.flatten, ∀ b ∈ ends rse d.flatten,
      1000 * lineLength (ansQ T g a b) ≤ ansC T g a b + (((ansQ T g a b).length - 1 : ℕ) : ℝ) ∧
      ∀ q, BorderWay cells (ends rse d.flatten) a b q → (ansC T g a b : ℝ) ≤ 1000 * lineLength q := by
    intro a ha b hb
    obtain ⟨g', c, p, k1, k2, k3, k4⟩ := h2 a ha b hb
    have e1 : ansC T g a b = c := by
      unfold ansC spCost
      rw [show inf = 2 ^ 30 from rfl, k1]
      rfl
    have e2 : ansQ T g a b = p := by
      unfold ansQ sp
      rw [show inf = 2 ^ 30 from rfl, k2]
      rfl
    rw [e1, e2]
    exact ⟨k3, k4⟩
  have hmem : ∀ o : List (Swath ℝ × Bool), (o.map Prod.fst).Perm d.flatten →
      ∀ h ∈ hops rse (o.map driven), h.1 ∈ ends rse d.flatten ∧ h.2 ∈ ends rse d.flatten := fun o ho =>
    hops_ends fun y hy => ho.mem_iff.1 (List.mem_map.2 ⟨y, hy, rfl⟩)
  have hgen : genRouteOn T ordE ordN solve tol redirect rse cells d = genRoute T solve g redirect rse d := by
    unfold genRouteOn
    rw [h1, Outcome.ok_bind]
  refine ⟨_, x :: ord, hgen.trans p1, p2, rfl, ?_⟩
  intro other ways ho hr hways
  obtain ⟨ids', t1, t2⟩ := p6 other ho hr
  have hle := hbest cov ids ids' p4 t1
  rw [p5, t2] at hle
  have hle' : ((hopSum (ansC T g) (hops rse ((x :: ord).map driven)) : Int) : ℝ) ≤
      ((hopSum (ansC T g) (hops rse (other.map driven)) : Int) : ℝ) + ε := by exact_mod_cast hle
  simp only
  have s1 := conn_sum lineLength rfl (ansQ T g) rse (driven x) (ord.map driven)
  have s2 := conn_sum (fun c => ((c.length - 1 : ℕ) : ℝ)) (by simp) (ansQ T g) rse (driven x) (ord.map driven)
  simp only [List.map_cons] at s1 s2 hle' ⊢
  rw [s1, s2]
  have q1 : ∀ hs : List (RPoint × RPoint), (∀ h ∈ hs, h.1 ∈ ends rse d.flatten ∧ h.2 ∈ ends rse d.flatten) →
      1000 * (hs.map fun h => lineLength (ansQ T g h.1 h.2)).sum ≤ ((hopSum (ansC T g) hs : Int) : ℝ) +
        (hs.map fun h => (((ansQ T g h.1 h.2).length - 1 : ℕ) : ℝ)).sum := by
    intro hs
    induction hs with
    | nil => simp [hopSum]
    | cons h hs ih =>
      intro hm
      have i1 := ih fun k hk => hm k (List.mem_cons_of_mem _ hk)
      have i2 := (hans _ (hm h (by simp)).1 _ (hm h (by simp)).2).1
      simp only [hopSum, List.map_cons, List.sum_cons] at i1 ⊢
      push_cast at i1 ⊢
      linarith
  have q2 : ∀ hs ws, List.Forall₂ (fun h w => BorderWay cells (ends rse d.flatten) h.1 h.2 w) hs ws →
      (∀ h ∈ hs, h.1 ∈ ends rse d.flatten ∧ h.2 ∈ ends rse d.flatten) →
      ((hopSum (ansC T g) hs : Int) : ℝ) ≤ 1000 * (ws.map lineLength).sum := by
    intro hs ws hf
    induction hf with
    | nil => intro _; simp [hopSum]
    | @cons h w hs ws h1 _ ih =>
      intro hm
      have i1 := ih fun k hk => hm k (List.mem_cons_of_mem _ hk)
      have i2 := (hans _ (hm h (by simp)).1 _ (hm h (by simp)).2).2 w h1
      simp only [hopSum, List.map_cons, List.sum_cons] at i1 ⊢
      push_cast at i1 ⊢
      linarith
  have r1 := q1 _ (hmem _ p2)
  have r2 := q2 _ _ hways (hmem _ ho)
  simp only [List.map_cons] at r1
  linarith

/-- C103 (part): the complete planner may drive every swath in either direction, and needs no way to or from a
start point.  For the headland `ring` and the swaths `gs` that it makes, the distances between consecutive swaths of
the route sum up to at most `ε` more than those of any other order and directions. -/
theorem C103_complete_planner_partial (env : Top.Env) (robot : Robot) (cells mainland ring : Cells ℝ) (opt : Top.Options)
    (hT : env.table.IsLawful) (hsolve : AvoidsMissing env.solve) (ε : Int) (hbest : NearBest ε env.solve)
    (hh : Top.headland env robot cells opt = .ok (mainland, ring)) (gs : SwathsByCells ℝ)
    (hgs : Top.swaths env robot mainland opt = .ok gs) (sg : Graph2D ℝ) (hsg : env.shortest ring gs = .ok sg)
    (hne : gs.flatten ≠ []) (hn : gs.flatten.length ≤ 300000) (hw : ∀ s ∈ gs.flatten, 0 < s.width)
    (hd : Distinct none gs.flatten) (hhash : HashOk env.table (tourPoints none gs.flatten))
    (hc : Connects env.table sg (ends none gs.flatten)) (C : RPoint → RPoint → Int)
    (hC : Answers env.table sg (ends none gs.flatten) C) :
    ∃ (r : Route ℝ) (order : List (Swath ℝ × Bool)), Top.planCovRoute env robot cells opt = .ok r ∧
      (order.map Prod.fst).Perm gs.flatten ∧ r.groups = order.map (fun x => [driven x]) ∧
      ∀ other : List (Swath ℝ × Bool), (other.map Prod.fst).Perm gs.flatten →
        ((hops none (order.map driven)).map fun h => C h.1 h.2).sum ≤
          ((hops none (other.map driven)).map fun h => C h.1 h.2).sum + ε := by
  obtain ⟨r, order, r1, r2, r3, r4⟩ := C103_best_order_partial env.table hT sg true none gs env.solve hsolve ε hbest
    hne hn hw hd hhash hc C hC
  refine ⟨r, order, ?_, r2, r3, fun other ho => r4 other ho (by simp)⟩
  unfold Top.planCovRoute
  simp only [hh, Outcome.ok_bind, hgs, hsg]
  exact r1

/-! ## Examples -/

/-- Two swaths and a gate, with a perfect optimiser: the ways between the swaths are not longer than first driving
up the left swath and then down the right one. -/
example (sg : Graph2D ℚ) (hg : run hashFirst headland = .ok sg) :
    ∃ (solve : Graph2D ℚ → Option (List Nat)) (r : Route ℚ) (order : List (Swath ℚ × Bool)),
      genRoute hashFirst solve sg true (some ⟨0, 0, 0⟩) [[rs₁], [rs₂]] = .ok r ∧
      r.groups = order.map (fun x => [driven x]) ∧
      ((hops (some ⟨0, 0, 0⟩) (order.map driven)).map fun h => wayCost headland h.1 h.2).sum ≤ 1414 + 2000 + 3414 := by
  obtain ⟨solve, hs, hb⟩ := exists_best_optimiser (K := ℚ)
  have hc := headland_connects sg hg (ends (some ⟨0, 0, 0⟩) [rs₁, rs₂]) (by decide +kernel)
  obtain ⟨r, order, h1, -, h3, h4⟩ := C103_best_order_partial hashFirst hashFirst_lawful sg true (some ⟨0, 0, 0⟩)
    [[rs₁], [rs₂]] solve hs 0 hb (by decide) (by decide) (by decide +kernel) (by unfold Distinct; decide +kernel)
    (by unfold HashOk; decide +kernel) hc (wayCost headland) (by
      intro a ha b hb
      obtain ⟨g, c, -, -, k, -⟩ := hc a ha b hb
      refine ⟨g, ?_⟩
      unfold wayCost
      rw [hg, Outcome.ok_bind, k])
  refine ⟨solve, r, order, h1, h3, (h4 [(rs₁, false), (rs₂, true)] ?_ (by simp)).trans ?_⟩
  · exact List.Perm.refl _
  · decide +kernel

/-- Points with whole coordinates that are near a horizontal or vertical segment between such points are on it. -/
theorem grid_near {a b n w : RPoint} {i j k l u v : ℤ} (ha : a = gridPoint i j) (hb : b = gridPoint k l)
    (hn : n = gridPoint u v) (hax : i = k ∨ j = l) (hw : OnSegment a b w) (hd : pdist n w < 1 / 10000) :
    OnSegment a b n := by
  have hdx : |n.x - w.x| < 1 / 10000 := by
    refine lt_of_le_of_lt ?_ hd
    apply Real.abs_le_sqrt
    nlinarith [sq_nonneg (n.y - w.y)]
  have hdy : |n.y - w.y| < 1 / 10000 := by
    refine lt_of_le_of_lt ?_ hd
    apply Real.abs_le_sqrt
    nlinarith [sq_nonneg (n.x - w.x)]
  obtain ⟨t, t0, t1, wx, wy⟩ := hw
  subst ha hb hn
  simp only [gridPoint] at hdx hdy wx wy ⊢
  rw [abs_lt] at hdx hdy
  -- on one axis
  have line : ∀ x y z : ℤ, ∀ c : ℝ, c = x + t * (y - x) → -(1 / 10000) < (z : ℝ) - c → (z : ℝ) - c < 1 / 10000 →
      ∃ s : ℝ, 0 ≤ s ∧ s ≤ 1 ∧ (z : ℝ) = x + s * (y - x) ∧ (x = y → z = x) := by
    intro x y z c hc h1 h2
    rcases lt_trichotomy x y with h | h | h
    · have hxy : (x : ℝ) + 1 ≤ y := by exact_mod_cast h
      have l1 : x ≤ z := by
        by_contra hlt
        have : (z : ℝ) + 1 ≤ x := by exact_mod_cast (not_le.1 hlt)
        nlinarith
      have l2 : z ≤ y := by
        by_contra hlt
        have : (y : ℝ) + 1 ≤ z := by exact_mod_cast (not_le.1 hlt)
        nlinarith
      have m1 : (x : ℝ) ≤ z := by exact_mod_cast l1
      have m2 : (z : ℝ) ≤ y := by exact_mod_cast l2
      have hpos : (0 : ℝ) < y - x := by linarith
      refine ⟨(z - x) / (y - x), div_nonneg (by linarith) hpos.le, by rw [div_le_one hpos]; linarith, ?_, fun e => absurd e (by omega)⟩
      field_simp
      ring
    · subst h
      have : z = x := by
        rw [sub_self, mul_zero, add_zero] at hc
        subst hc
        have e1 : ((z - x : ℤ) : ℝ) < 1 := by push_cast; linarith
        have e2 : (-1 : ℝ) < ((z - x : ℤ) : ℝ) := by push_cast; linarith
        have e1' : z - x < 1 := by exact_mod_cast e1
        have e2' : -1 < z - x := by exact_mod_cast e2
        omega
      exact ⟨0, le_refl _, zero_le_one, by rw [this]; ring, fun _ => this⟩
    · have hxy : (y : ℝ) + 1 ≤ x := by exact_mod_cast h
      have l1 : z ≤ x := by
        by_contra hlt
        have : (x : ℝ) + 1 ≤ z := by exact_mod_cast (not_le.1 hlt)
        nlinarith
      have l2 : y ≤ z := by
        by_contra hlt
        have : (z : ℝ) + 1 ≤ y := by exact_mod_cast (not_le.1 hlt)
        nlinarith
      have m1 : (z : ℝ) ≤ x := by exact_mod_cast l1
      have m2 : (y : ℝ) ≤ z := by exact_mod_cast l2
      have hpos : (0 : ℝ) < x - y := by linarith
      refine ⟨(x - z) / (x - y), div_nonneg (by linarith) hpos.le, by rw [div_le_one hpos]; linarith, ?_, fun e => absurd e (by omega)⟩
      field_simp
      ring
  obtain ⟨s, s0, s1, sx, sx'⟩ := line i k u w.x wx hdx.1 hdx.2
  obtain ⟨r, r0, r1, ry, ry'⟩ := line j l v w.y wy hdy.1 hdy.2
  rcases hax with rfl | rfl
  · exact ⟨r, r0, r1, by rw [sx' rfl]; ring, ry⟩
  · exact ⟨s, s0, s1, sx, by rw [ry' rfl]; ring⟩

/-- Two points on a side of the square, or on the way of a point of the border to itself, are on a horizontal or a
vertical line. -/
theorem demo_axis {V : List RPoint} (hV : ∀ p ∈ V, p.z = 0 ∧ OnLine (demoRing 0) p) {a b : RPoint}
    (h : OneTrack [[demoRing 0]] V a b) : a.x = b.x ∨ a.y = b.y := by
  obtain ⟨u, v, huv, ⟨s, -, -, ax, ay⟩, r, -, -, bx, by'⟩ := h
  have key : u.x = v.x ∨ u.y = v.y := by
    rcases huv with ⟨r, hr, pre, post, e⟩ | ⟨hu, hv⟩
    · have hm := zip_tail_mem pre post u v
      rw [← e] at hm
      simp only [List.flatten_cons, List.flatten_nil, List.append_nil, List.mem_singleton] at hr
      subst hr
      simp only [demoRing, List.tail_cons, List.zip_cons_cons, List.zip_nil_right, List.mem_cons, Prod.mk.injEq,
        List.not_mem_nil, or_false] at hm
      rcases hm with ⟨rfl, rfl⟩ | ⟨rfl, rfl⟩ | ⟨rfl, rfl⟩ | ⟨rfl, rfl⟩ <;> simp [gridPoint]
    · obtain ⟨hz, hon⟩ := hV u hu
      rw [joined_here demo_facts.1 ?_ hz ⟨[demoRing 0], by simp, demoRing 0, by simp, hon⟩] at hv
      · injection hv with hv
        exact Or.inl (by rw [hv])
      · intro c hc
        obtain ⟨y, -, hy⟩ := demo_corners [0] c hc
        simp only [demoRing, List.mem_cons, List.not_mem_nil, or_false] at hy
        rcases hy with rfl | rfl | rfl | rfl | rfl <;> rfl
  rcases key with h | h
  · left; rw [ax, bx, h]; ring
  · right; rw [ay, by', h]; ring

theorem demo_clear {V S : List RPoint} (hV : ∀ p ∈ V, p.z = 0 ∧ OnLine (demoRing 0) p)
    (hS : ∀ p ∈ S, ∃ a b : ℤ, p = gridPoint a b) : Clear [[demoRing 0]] V (1 / 10000) S := by
  intro a ha b hb h n hn w hw hd
  obtain ⟨i, j, rfl⟩ := hS a ha
  obtain ⟨k, l, rfl⟩ := hS b hb
  obtain ⟨u, v, rfl⟩ := hS n hn
  refine grid_near rfl rfl rfl ?_ hw hd
  rcases demo_axis hV h with h | h
  · left; simpa [gridPoint] using h
  · right; simpa [gridPoint] using h

theorem demo_track {V : List RPoint} (i j : ℤ) (hi : 0 ≤ i) (hi' : i ≤ 4) (hj : 0 ≤ j) (hj' : j ≤ 4) :
    OneTrack [[demoRing 0]] V (gridPoint i 0) (gridPoint j 0) ∧
    OneTrack [[demoRing 0]] V (gridPoint i 4) (gridPoint j 4) := by
  have g0 : (0 : ℝ) ≤ i := by exact_mod_cast hi
  have g1 : (i : ℝ) ≤ 4 := by exact_mod_cast hi'
  have g2 : (0 : ℝ) ≤ j := by exact_mod_cast hj
  have g3 : (j : ℝ) ≤ 4 := by exact_mod_cast hj'
  constructor
  · refine ⟨gridPoint 0 0, gridPoint 4 0, Or.inl ⟨demoRing 0, by simp, [], [gridPoint 4 4, gridPoint 0 4, gridPoint 0 0],
      by simp [demoRing]⟩, ⟨i / 4, by linarith, by linarith, ?_, ?_⟩, ⟨j / 4, by linarith, by linarith, ?_, ?_⟩⟩ <;>
      simp only [gridPoint] <;> push_cast <;> ring
  · refine ⟨gridPoint 4 4, gridPoint 0 4, Or.inl ⟨demoRing 0, by simp, [gridPoint 0 0, gridPoint 4 0], [gridPoint 0 0],
      by simp [demoRing]⟩, ⟨1 - i / 4, by linarith, by linarith, ?_, ?_⟩, ⟨1 - j / 4, by linarith, by linarith, ?_, ?_⟩⟩ <;>
      simp only [gridPoint] <;> push_cast <;> ring

/-- All hypotheses of `C103_shortest_route_partial` hold for two swaths across a square and a start point on its border,
with a perfect optimiser: up the left swath and down the right one takes 4 m outside of swaths, and the
planned route takes no longer (up to a millimetre for every step). -/
example : ∃ (r : Route ℝ) (solve : Graph2D ℝ → Option (List Nat)),
    genRouteOn hashFirst id id solve (1 / 10000) true (some (gridPoint 2 0)) [[demoRing 0]] [demoTracks 0] = .ok r ∧
    (r.connections.map lineLength).sum ≤ 4 + (r.connections.map fun c => ((c.length - 1 : ℕ) : ℝ)).sum / 1000 := by
  obtain ⟨solve, hs, hb⟩ := exists_best_optimiser (K := ℝ)
  obtain ⟨h1, h2, h3, h4⟩ := demo_facts
  have htour : tourPoints (some (gridPoint 2 0)) (SwathsByCells.flatten [demoTracks 0]) =
      [gridPoint 1 0, gridPoint 1 2, gridPoint 1 4, gridPoint 3 0, gridPoint 3 2, gridPoint 3 4, gridPoint 2 0] := by
    show [_, _, _, _, _, _, _] = [_, _, _, _, _, _, _]
    simp only [middle, Swath.startPoint, Swath.endPoint, demoTracks, gridPoint, home, Option.getD]
    norm_num
  have hgrid : ∀ p ∈ tourPoints (some (gridPoint 2 0)) (SwathsByCells.flatten [demoTracks 0]),
      ∃ a b : ℤ, p = gridPoint a b ∧ 0 ≤ a ∧ a ≤ 1000 ∧ 0 ≤ b ∧ b ≤ 1000 := by
    rw [htour]
    intro p hp
    simp only [List.mem_cons, List.not_mem_nil, or_false] at hp
    rcases hp with rfl | rfl | rfl | rfl | rfl | rfl | rfl <;> exact ⟨_, _, rfl, by norm_num⟩
  have hV : ∀ p ∈ ends (some (gridPoint 2 0)) (SwathsByCells.flatten [demoTracks 0]),
      p.z = 0 ∧ OnLine (demoRing 0) p := by
    rw [demo_ends]
    intro p hp
    simp only [List.mem_cons, List.not_mem_nil, or_false] at hp
    rcases hp with rfl | rfl | rfl | rfl | rfl
    · exact ⟨rfl, (demoRing_on 0 1 (by norm_num) (by norm_num)).1⟩
    · exact ⟨rfl, (demoRing_on 0 1 (by norm_num) (by norm_num)).2⟩
    · exact ⟨rfl, (demoRing_on 0 3 (by norm_num) (by norm_num)).1⟩
    · exact ⟨rfl, (demoRing_on 0 3 (by norm_num) (by norm_num)).2⟩
    · exact ⟨rfl, (demoRing_on 0 2 (by norm_num) (by norm_num)).1⟩
  obtain ⟨r, order, k1, k2, k3, k4⟩ := C103_shortest_route_partial hashFirst hashFirst_lawful id
    (fun l => List.Perm.refl l) id (fun l => List.Perm.refl l) (1 / 10000) (by norm_num) true (some (gridPoint 2 0))
    [[demoRing 0]] [demoTracks 0] h1 h2 _ h3
    (demo_clear hV fun p hp => by obtain ⟨a, b, e, -⟩ := h4 p hp; exact ⟨a, b, e⟩)
    (separated_grid fun p hp => by obtain ⟨a, b, e, -⟩ := h4 p hp; exact ⟨a, b, e⟩) (hash_grid h4) 2000
    (dist_grid h4) (by simp [demoRing]; norm_num) solve hs 0 hb (by simp [SwathsByCells.flatten, demoTracks])
    (by simp [SwathsByCells.flatten, demoTracks])
    (by
      intro s hs
      have : s ∈ demoTracks 0 := hs
      simp only [demoTracks, List.mem_cons, List.not_mem_nil, or_false] at this
      rcases this with rfl | rfl <;> norm_num)
    (by
      unfold Distinct
      have hsep := separated_grid fun p hp => by obtain ⟨a, b, e, -⟩ := hgrid p hp; exact ⟨a, b, e⟩
      refine List.Pairwise.imp_of_mem (R := fun p q => p ≠ q) ?_ ?_
      · intro p q hp hq hne
        exact (eqv_false hsep hp hq).2 hne
      · rw [htour]
        simp [gridPoint])
    (hash_grid hgrid)
  refine ⟨r, solve, k1, ?_⟩
  set V := ends (some (gridPoint 2 0)) (SwathsByCells.flatten [demoTracks 0]) with hVdef
  have hstop : ∀ p ∈ [gridPoint 1 0, gridPoint 1 4, gridPoint 3 0, gridPoint 3 4, gridPoint 2 0],
      Stop [[demoRing 0]] V p := fun p hp => Or.inl (by rw [hVdef, demo_ends]; exact hp)
  have two : ∀ a b : RPoint, a ∈ [gridPoint 1 0, gridPoint 1 4, gridPoint 3 0, gridPoint 3 4, gridPoint 2 0] →
      b ∈ [gridPoint 1 0, gridPoint 1 4, gridPoint 3 0, gridPoint 3 4, gridPoint 2 0] →
      OneTrack [[demoRing 0]] V a b → BorderWay [[demoRing 0]] V a b [a, b] := by
    intro a b ha hb h
    refine ⟨rfl, rfl, ?_, h, trivial⟩
    intro p hp
    simp only [List.mem_cons, List.not_mem_nil, or_false] at hp
    rcases hp with rfl | rfl
    · exact hstop _ ha
    · exact hstop _ hb
  have hlen : ∀ i j k : ℤ, lineLength [gridPoint i k, gridPoint j k] = |(i : ℝ) - j| := by
    intro i j k
    simp only [lineLength, add_zero, pdist, gridPoint]
    rw [sub_self, zero_pow (by norm_num), add_zero, Real.sqrt_sq_eq_abs]
  have := k4 ((demoTracks 0).zip [false, true])
    [[gridPoint 2 0, gridPoint 1 0], [gridPoint 1 4, gridPoint 3 4], [gridPoint 3 0, gridPoint 2 0]]
    (List.Perm.refl _) (by simp) (by
      refine .cons (two (gridPoint 2 0) (gridPoint 1 0) (by simp) (by simp) ?_)
        (.cons (two (gridPoint 1 4) (gridPoint 3 4) (by simp) (by simp) ?_)
        (.cons (two (gridPoint 3 0) (gridPoint 2 0) (by simp) (by simp) ?_) .nil))
      · exact (demo_track 2 1 (by norm_num) (by norm_num) (by norm_num) (by norm_num)).1
      · exact (demo_track 1 3 (by norm_num) (by norm_num) (by norm_num) (by norm_num)).2
      · exact (demo_track 3 2 (by norm_num) (by norm_num) (by norm_num) (by norm_num)).1)
  simp only [List.map_cons, List.map_nil, List.sum_cons, List.sum_nil, hlen] at this
  norm_num at this
  linarith

end F2C.Props
