import Verif.Lemmas.RoutePlanner

/-!
# Lemmas about the costs of tours
-/

set_option linter.unusedSectionVars false

namespace F2C.PlannerL

open PlannerSpec Graph2DSpec Graph2DL RouteL Planner Outcome

variable {K : Type} [Field K] [LinearOrder K] [IsStrictOrderedRing K]

/-- Sum over neighbours. -/
def seqSum (f : Point K → Point K → Int) : List (Point K) → Int
  | a :: b :: l => f a b + seqSum f (b :: l)
  | _ => 0

theorem seqCost_points {cov : Graph2D K} {N : List (Point K)} {F} (hg : Good cov N F) :
    ∀ ids : List Nat, (∀ i ∈ ids, i < N.length) →
      seqCost cov ids = seqSum (fun a b => (F a b).getD (10 ^ 15)) (ids.map (nodeOf N))
  | [], _ => rfl
  | [a], _ => rfl
  | a :: b :: l, h => by
    have ih := seqCost_points hg (b :: l) (fun i hi => h i (List.mem_cons_of_mem _ hi))
    unfold seqCost Graph.getCostFromEdge
    rw [ih, hg.cost a b _ _ (nodeOf_some (h a (by simp))) (nodeOf_some (h b (by simp)))]
    rfl

/-- Facts about the points of a tour. -/
structure Apart3 (rse : Option (Point K)) (l : Swaths K) : Prop where
  midne : ∀ t ∈ l, ∀ s ∈ l, mid t ≠ s.startPoint ∧ mid t ≠ s.endPoint
  midD : ∀ t ∈ l, mid t ≠ depot rse
  endD : ∀ t ∈ l, t.startPoint ≠ depot rse ∧ t.endPoint ≠ depot rse

theorem apart3 {rse : Option (Point K)} {l : Swaths K} (hd : Distinct rse l) : Apart3 rse l := by
  unfold Distinct at hd
  rw [tourPoints_eq] at hd
  have hnd := apart_nodup hd
  have hda : Apart (l.flatMap tp) := (List.pairwise_append.1 hd).1
  have hDM : depot rse ∉ l.flatMap tp := fun h => List.disjoint_of_nodup_append hnd h (by simp)
  have hMm : ∀ s ∈ l, ∀ p ∈ tp s, p ∈ l.flatMap tp := fun s hs p hp => List.mem_flatMap.2 ⟨s, hs, hp⟩
  refine ⟨?_, ?_, ?_⟩
  · intro t ht s hs
    have := mid_no_match hda ht hs
    constructor
    · intro h; rw [h, eqv_refl] at this; simp at this
    · intro h; rw [h, eqv_refl] at this; simp at this
  · intro t ht h
    exact hDM (h ▸ hMm t ht (mid t) (by simp [tp]))
  · intro t ht
    exact ⟨fun h => hDM (h ▸ hMm t ht t.startPoint (by simp [tp])),
      fun h => hDM (h ▸ hMm t ht t.endPoint (by simp [tp]))⟩

/-- The cost of the way to or from the start point. -/
def homeCost (C : Point K → Point K → Int) (rse : Option (Point K)) (a b : Point K) : Int :=
  match rse with
  | none => 0
  | some _ => C a b

section values

variable {C : Point K → Point K → Int} {redirect : Bool} {rse : Option (Point K)} {l : Swaths K}

theorem edge_mid (hl : Apart3 rse l) {t : Swath K} (ht : t ∈ l) {a b : Point K} {c : Int}
    (h : PEdge ((covCmds redirect rse l).flatMap (toEdits C)) a b c) (hm : a = mid t ∨ b = mid t) : c = 0 := by
  have no : ∀ p, (∃ s ∈ l, p = s.startPoint ∨ p = s.endPoint) → p ≠ mid t := by
    rintro p ⟨s, hs, hp⟩ rfl
    have := hl.midne t ht s hs
    rcases hp with h | h
    · exact this.1 h
    · exact this.2 h
  rcases cov_edge h with ⟨s, hs, -, h, -⟩ | ⟨s, hs, -, h, -⟩ | ⟨ha, hb, -⟩ | ⟨ha, hb, -⟩ | ⟨hb, ha, -⟩
  · exact h
  · exact h
  · rcases hm with rfl | rfl
    · exact absurd rfl (no _ ha)
    · exact absurd rfl (no _ hb)
  · rcases hm with rfl | rfl
    · exact absurd rfl (no _ ha)
    · exact absurd hb (hl.midD t ht)
  · rcases hm with rfl | rfl
    · exact absurd ha (hl.midD t ht)
    · exact absurd rfl (no _ hb)

/-- An end of a swath. -/
def IsEnd (l : Swaths K) (p : Point K) : Prop := ∃ s ∈ l, p = s.startPoint ∨ p = s.endPoint

theorem IsEnd.ne_mid (hl : Apart3 rse l) {p : Point K} (h : IsEnd l p) {t : Swath K} (ht : t ∈ l) : p ≠ mid t := by
  obtain ⟨s, hs, hp⟩ := h
  have := hl.midne t ht s hs
  rintro rfl
  rcases hp with h | h
  · exact this.1 h
  · exact this.2 h

theorem IsEnd.ne_depot (hl : Apart3 rse l) {p : Point K} (h : IsEnd l p) : p ≠ depot rse := by
  obtain ⟨s, hs, rfl | rfl⟩ := h
  · exact (hl.endD s hs).1
  · exact (hl.endD s hs).2

theorem edge_ends (hl : Apart3 rse l) {a b : Point K} (ha : IsEnd l a) (hb : IsEnd l b) {c : Int}
    (h : PEdge ((covCmds redirect rse l).flatMap (toEdits C)) a b c) : c = C a b := by
  rcases cov_edge h with ⟨s, hs, -, -, h⟩ | ⟨s, hs, -, -, h⟩ | ⟨-, -, h⟩ | ⟨-, h, -⟩ | ⟨-, h, -⟩
  · rcases h with ⟨-, h⟩ | ⟨h, -⟩ | ⟨-, h⟩ | ⟨h, -⟩
    · exact absurd h (hb.ne_mid hl hs)
    · exact absurd h (ha.ne_mid hl hs)
    · exact absurd h (hb.ne_mid hl hs)
    · exact absurd h (ha.ne_mid hl hs)
  · rcases h with ⟨-, h⟩ | ⟨h, -⟩
    · exact absurd h (hb.ne_mid hl hs)
    · exact absurd h (ha.ne_mid hl hs)
  · exact h
  · exact absurd h (hb.ne_depot hl)
  · exact absurd h (ha.ne_depot hl)

theorem edge_home (hl : Apart3 rse l) {a b : Point K} {c : Int}
    (h : PEdge ((covCmds redirect rse l).flatMap (toEdits C)) a b c)
    (hab : (a = depot rse ∧ IsEnd l b) ∨ (IsEnd l a ∧ b = depot rse)) : c = homeCost C rse a b := by
  have hmid : ∀ s ∈ l, a ≠ mid s ∧ b ≠ mid s := by
    intro s hs
    rcases hab with ⟨rfl, h'⟩ | ⟨h', rfl⟩
    · exact ⟨(hl.midD s hs).symm, h'.ne_mid hl hs⟩
    · exact ⟨h'.ne_mid hl hs, (hl.midD s hs).symm⟩
  rcases cov_edge h with ⟨s, hs, -, -, h⟩ | ⟨s, hs, -, -, h⟩ | ⟨ha, hb, -⟩ | ⟨-, -, h⟩ | ⟨-, -, h⟩
  · rcases h with ⟨-, h⟩ | ⟨h, -⟩ | ⟨-, h⟩ | ⟨h, -⟩
    · exact absurd h (hmid s hs).2
    · exact absurd h (hmid s hs).1
    · exact absurd h (hmid s hs).2
    · exact absurd h (hmid s hs).1
  · rcases h with ⟨-, h⟩ | ⟨h, -⟩
    · exact absurd h (hmid s hs).2
    · exact absurd h (hmid s hs).1
  · rcases hab with ⟨h, -⟩ | ⟨-, h⟩
    · exact absurd h (IsEnd.ne_depot hl ha)
    · exact absurd h (IsEnd.ne_depot hl hb)
  all_goals
    rcases h with ⟨hr, h⟩ | ⟨hr, h⟩
    · rw [h]; unfold homeCost; rw [hr]
    · rw [h]; unfold homeCost; rw [hr]

/-! ### All edges that a tour may need -/

/-- The swath may be driven in this direction. -/
def Allowed (redirect : Bool) (x : Swath K × Bool) : Prop := redirect = false → x.2 = false

theorem driven_isEnd {x : Swath K × Bool} (hx : x.1 ∈ l) :
    IsEnd l (driven x).startPoint ∧ IsEnd l (driven x).endPoint := by
  obtain ⟨t, b⟩ := x
  cases b
  · exact ⟨⟨t, hx, Or.inl rfl⟩, ⟨t, hx, Or.inr rfl⟩⟩
  · exact ⟨⟨t, hx, Or.inr (rev_start _)⟩, ⟨t, hx, Or.inl (rev_end _)⟩⟩

theorem driven_edges {x : Swath K × Bool} (hx : x.1 ∈ l) (hax : Allowed redirect x) :
    (∃ c, PEdge ((covCmds redirect rse l).flatMap (toEdits C)) (driven x).startPoint (mid x.1) c) ∧
    (∃ c, PEdge ((covCmds redirect rse l).flatMap (toEdits C)) (mid x.1) (driven x).endPoint c) ∧
    (∃ c, PEdge ((covCmds redirect rse l).flatMap (toEdits C)) (depot rse) (driven x).startPoint c) ∧
    (∃ c, PEdge ((covCmds redirect rse l).flatMap (toEdits C)) (driven x).endPoint (depot rse) c) ∧
    ∀ y : Swath K × Bool, y.1 ∈ l → Allowed redirect y →
      ∃ c, PEdge ((covCmds redirect rse l).flatMap (toEdits C)) (driven x).endPoint (driven y).startPoint c := by
  cases redirect with
  | false =>
    obtain ⟨t, b⟩ := x
    obtain rfl : b = false := hax rfl
    obtain ⟨h1, h2, h3, h4, h5⟩ := swath_edges C false rse l hx
    refine ⟨h1, h2, h3, h4, ?_⟩
    rintro ⟨u, b⟩ hy hay
    obtain rfl : b = false := hay rfl
    exact h5 u hy
  | true =>
    have hr := fun x y => no_remove C (covCmds true rse l) x y
    have m1 : ∀ s ∈ l, ∀ c ∈ covSwath true s, c ∈ covCmds true rse l := fun s hs c hc =>
      List.mem_append_left _ (List.mem_append_left _ (List.mem_flatMap.2 ⟨s, hs, hc⟩))
    have m2 : ∀ s ∈ l, ∀ t ∈ l, ∀ c ∈ covPair true s t, c ∈ covCmds true rse l := fun s hs t ht c hc =>
      List.mem_append_left _ (List.mem_append_right _ (List.mem_flatMap.2 ⟨s, hs, List.mem_flatMap.2 ⟨t, ht, hc⟩⟩))
    have m3 : ∀ s ∈ l, ∀ c ∈ covDepot rse s, c ∈ covCmds true rse l := fun s hs c hc =>
      List.mem_append_right _ (List.mem_flatMap.2 ⟨s, hs, hc⟩)
    have put : ∀ c ∈ covCmds true rse l, ∀ e ∈ toEdits C c, ∀ a b k, Adds a b k e →
        ∃ c', PEdge ((covCmds true rse l).flatMap (toEdits C)) a b c' := fun c hc e he a b k h =>
      has_edge hr (List.mem_flatMap.2 ⟨c, hc, he⟩) h
    have q1 : ∀ s ∈ l, ∀ p, p = s.startPoint ∨ p = s.endPoint →
        (∃ c, PEdge ((covCmds true rse l).flatMap (toEdits C)) p (mid s) c) ∧
        (∃ c, PEdge ((covCmds true rse l).flatMap (toEdits C)) (mid s) p c) ∧
        (∃ c, PEdge ((covCmds true rse l).flatMap (toEdits C)) (depot rse) p c) ∧
        (∃ c, PEdge ((covCmds true rse l).flatMap (toEdits C)) p (depot rse) c) := by
      intro s hs p hp
      have i1 : CovCmd.zeroEdge p (mid s) ∈ covCmds true rse l := m1 s hs _ (by
        rcases hp with rfl | rfl <;> simp [covSwath])
      refine ⟨put _ i1 _ List.mem_cons_self _ _ 0 ⟨Or.inl ⟨rfl, rfl⟩, rfl⟩,
        put _ i1 _ List.mem_cons_self _ _ 0 ⟨Or.inr ⟨rfl, rfl⟩, rfl⟩, ?_, ?_⟩
      all_goals
        cases rse with
        | none =>
          have i2 : CovCmd.zeroEdge p (depot none) ∈ covCmds true none l := m3 s hs _ (by
            rcases hp with rfl | rfl <;> simp [covDepot])
          first
            | exact put _ i2 _ List.mem_cons_self _ _ 0 ⟨Or.inr ⟨rfl, rfl⟩, rfl⟩
            | exact put _ i2 _ List.mem_cons_self _ _ 0 ⟨Or.inl ⟨rfl, rfl⟩, rfl⟩
        | some q =>
          have i2 : CovCmd.viaEdge p q ∈ covCmds true (some q) l := m3 s hs _ (by
            rcases hp with rfl | rfl <;> simp [covDepot])
          first
            | exact put _ i2 (.addDirected q p (C q p)) (by simp [toEdits]) _ _ _ ⟨rfl, rfl, rfl⟩
            | exact put _ i2 (.addDirected p q (C p q)) (by simp [toEdits]) _ _ _ ⟨rfl, rfl, rfl⟩
    have q2 : ∀ s ∈ l, ∀ t ∈ l, ∀ p q, p = s.startPoint ∨ p = s.endPoint → q = t.startPoint ∨ q = t.endPoint →
        ∃ c, PEdge ((covCmds true rse l).flatMap (toEdits C)) p q c := by
      intro s hs t ht p q hp hq
      have i : CovCmd.viaEdge p q ∈ covCmds true rse l := m2 s hs t ht _ (by
        rcases hp with rfl | rfl <;> rcases hq with rfl | rfl <;> simp [covPair])
      exact put _ i (.addDirected p q (C p q)) (by simp [toEdits]) _ _ _ ⟨rfl, rfl, rfl⟩
    have hends : ∀ x : Swath K × Bool, ((driven x).startPoint = x.1.startPoint ∨ (driven x).startPoint = x.1.endPoint) ∧
        ((driven x).endPoint = x.1.startPoint ∨ (driven x).endPoint = x.1.endPoint) := by
      rintro ⟨t, b⟩
      cases b
      · exact ⟨Or.inl rfl, Or.inr rfl⟩
      · exact ⟨Or.inr (rev_start _), Or.inl (rev_end _)⟩
    exact ⟨(q1 x.1 hx _ (hends x).1).1, (q1 x.1 hx _ (hends x).2).2.1, (q1 x.1 hx _ (hends x).1).2.2.1,
      (q1 x.1 hx _ (hends x).2).2.2.2, fun y hy _ => q2 x.1 hx y.1 hy _ _ (hends x).2 (hends y).1⟩

/-- Cost of a way between swaths. -/
abbrev hopSum (C : Point K → Point K → Int) (hs : List (Point K × Point K)) : Int := (hs.map fun h => C h.1 h.2).sum

theorem tour_sum (hl : Apart3 rse l) (ord : List (Swath K × Bool)) (hne : ord ≠ []) (hord : ∀ x ∈ ord, x.1 ∈ l)
    (hal : ∀ x ∈ ord, Allowed redirect x) :
    seqSum (fun a b => (costs ((covCmds redirect rse l).flatMap (toEdits C)) a b).getD (10 ^ 15))
      (depot rse :: ord.flatMap dtri ++ [depot rse]) = hopSum C (hops rse (ord.map driven)) := by
  set f := fun a b => (costs ((covCmds redirect rse l).flatMap (toEdits C)) a b).getD (10 ^ 15) with hf
  have val : ∀ {a b c}, PEdge ((covCmds redirect rse l).flatMap (toEdits C)) a b c → f a b = c := by
    intro a b c h
    rw [hf]
    simp only
    rw [show costs ((covCmds redirect rse l).flatMap (toEdits C)) a b = some c from h]
    rfl
  have rest : ∀ (ord : List (Swath K × Bool)) (x : Swath K × Bool), (∀ y ∈ x :: ord, y.1 ∈ l) →
      (∀ y ∈ x :: ord, Allowed redirect y) →
      seqSum f ((driven x).endPoint :: ord.flatMap dtri ++ [depot rse]) =
        hopSum C (hopsFrom rse (driven x) (ord.map driven)) := by
    intro ord
    induction ord with
    | nil =>
      intro x h1 h2
      obtain ⟨-, -, -, ⟨c, h4⟩, -⟩ := driven_edges (C := C) (rse := rse) (h1 x (by simp)) (h2 x (by simp))
      have e1 := val h4
      have e2 := edge_home hl h4 (Or.inr ⟨(driven_isEnd (h1 x (by simp))).2, rfl⟩)
      simp only [List.flatMap_nil, List.cons_append, List.nil_append, seqSum, List.map_nil, hopsFrom]
      rw [e1, e2]
      cases rse with
      | none => simp [homeCost, hopSum, seqSum]
      | some p => simp [homeCost, hopSum, depot, seqSum]
    | cons y ord ih =>
      intro x h1 h2
      have hx := h1 x (by simp)
      have hy := h1 y (by simp)
      obtain ⟨-, -, -, -, h5⟩ := driven_edges (C := C) (rse := rse) hx (h2 x (by simp))
      obtain ⟨⟨c1, k1⟩, ⟨c2, k2⟩, -⟩ := driven_edges (C := C) (rse := rse) hy (h2 y (by simp))
      obtain ⟨c0, k0⟩ := h5 y hy (h2 y (by simp))
      have e0 := (val k0).trans (edge_ends hl (driven_isEnd hx).2 (driven_isEnd hy).1 k0)
      have e1 := (val k1).trans (edge_mid hl hy k1 (Or.inr rfl))
      have e2 := (val k2).trans (edge_mid hl hy k2 (Or.inl rfl))
      have ih' := ih y (fun z hz => h1 z (List.mem_cons_of_mem _ hz)) (fun z hz => h2 z (List.mem_cons_of_mem _ hz))
      simp only [List.flatMap_cons, dtri, List.cons_append, List.nil_append, seqSum, List.map_cons, hopsFrom,
        hopSum, List.sum_cons] at ih' ⊢
      rw [e0, e1, e2]
      simp only [zero_add]
      rw [ih']
  cases ord with
  | nil => exact absurd rfl hne
  | cons y ord =>
    have hy := hord y (by simp)
    obtain ⟨⟨c1, k1⟩, ⟨c2, k2⟩, ⟨c3, k3⟩, -⟩ := driven_edges (C := C) (rse := rse) hy (hal y (by simp))
    have e1 := (val k1).trans (edge_mid hl hy k1 (Or.inr rfl))
    have e2 := (val k2).trans (edge_mid hl hy k2 (Or.inl rfl))
    have e3 := (val k3).trans (edge_home hl k3 (Or.inl ⟨rfl, (driven_isEnd hy).1⟩))
    have ih' := rest ord y hord hal
    simp only [List.flatMap_cons, dtri, List.cons_append, List.nil_append, seqSum, List.map_cons, hops] at ih' ⊢
    rw [e1, e2, e3]
    simp only [zero_add]
    rw [ih']
    cases rse with
    | none => simp [homeCost, hopSum]
    | some p => simp [homeCost, hopSum, depot]

end values

/-- The cost of a tour in a given order. -/
theorem tour_cost {T : PointTable K} {sg cov : Graph2D K} {redirect : Bool}
    {rse : Option (Point K)} {l : Swaths K} (hd : Distinct rse l)
    (hg : Good cov (l.flatMap tp ++ [depot rse]) (costs (covEdits T sg redirect rse l)))
    {ids : List Nat} (hlt : ∀ i ∈ ids, i < (l.flatMap tp).length) {ord : List (Swath K × Bool)} (hne : ord ≠ [])
    (hord : ∀ x ∈ ord, x.1 ∈ l) (hal : ∀ x ∈ ord, Allowed redirect x)
    (hids : ids.map (nodeOf (l.flatMap tp ++ [depot rse])) = ord.flatMap dtri) :
    tourCost cov ids = hopSum (ansC T sg) (hops rse (ord.map driven)) := by
  have hnum : cov.numNodes = (l.flatMap tp).length + 1 := by
    unfold Graph2D.numNodes
    rw [hg.tab, List.length_zipIdx]
    simp
  unfold tourCost
  rw [hnum, Nat.add_sub_cancel, seqCost_points hg]
  · rw [← tour_sum (C := ansC T sg) (redirect := redirect) (apart3 hd) ord hne hord hal]
    congr 1
    simp only [List.map_cons, List.map_append, List.map_nil, List.cons_append]
    rw [nodeOf_last, hids]
  · intro i hi
    simp only [List.cons_append, List.mem_cons, List.mem_append, List.not_mem_nil, or_false] at hi
    rw [List.length_append, List.length_singleton]
    rcases hi with rfl | hi | rfl
    · omega
    · have := hlt i hi
      omega
    · omega

theorem dtri_perm (x : Swath K × Bool) : (dtri x).Perm (tp x.1) := by
  obtain ⟨t, b⟩ := x
  cases b
  · exact List.Perm.refl _
  · have h1 : (driven (t, true)).startPoint = t.endPoint := rev_start _
    have h2 : (driven (t, true)).endPoint = t.startPoint := rev_end _
    unfold dtri tp
    rw [h1, h2]
    exact List.reverse_perm [t.startPoint, mid t, t.endPoint]

theorem flatMap_dtri_perm (ord : List (Swath K × Bool)) :
    (ord.flatMap dtri).Perm ((ord.map Prod.fst).flatMap tp) := by
  induction ord with
  | nil => exact List.Perm.refl _
  | cons x ord ih =>
    rw [List.flatMap_cons, List.map_cons, List.flatMap_cons]
    exact (dtri_perm x).append ih

/-- Every order is a tour. -/
theorem order_tour {T : PointTable K} {sg cov : Graph2D K} {redirect : Bool}
    {rse : Option (Point K)} {l : Swaths K} (hd : Distinct rse l)
    (hg : Good cov (l.flatMap tp ++ [depot rse]) (costs (covEdits T sg redirect rse l)))
    {ord : List (Swath K × Bool)} (hp : (ord.map Prod.fst).Perm l) :
    ∃ ids, IsTour cov ids ∧ ids.map (nodeOf (l.flatMap tp ++ [depot rse])) = ord.flatMap dtri := by
  classical
  set M := l.flatMap tp with hM
  have hnum : cov.numNodes = M.length + 1 := by
    unfold Graph2D.numNodes
    rw [hg.tab, List.length_zipIdx]
    simp
  have hnd : M.Nodup := by
    unfold Distinct at hd
    rw [tourPoints_eq] at hd
    exact (List.nodup_append.1 (apart_nodup hd)).1
  have hperm : (ord.flatMap dtri).Perm M := by
    refine (flatMap_dtri_perm ord).trans ?_
    exact hp.flatMap_right tp
  refine ⟨(ord.flatMap dtri).map fun p => M.idxOf p, ?_, ?_⟩
  · unfold IsTour
    rw [hnum, Nat.add_sub_cancel]
    refine (hperm.map _).trans ?_
    have : M.map (fun p => M.idxOf p) = List.range M.length := by
      apply List.ext_getElem
      · simp
      · intro i h1 h2
        simp only [List.getElem_map, List.getElem_range]
        exact hnd.idxOf_getElem i (by simpa using h1)
    rw [this]
  · rw [List.map_map]
    conv_rhs => rw [← List.map_id (ord.flatMap dtri)]
    apply List.map_congr_left
    intro p hp'
    have hm : p ∈ M := hperm.mem_iff.1 hp'
    have hlt : M.idxOf p < M.length := List.idxOf_lt_length_of_mem hm
    simp only [Function.comp, nodeOf, id]
    rw [List.getElem?_append_left hlt, List.getElem?_eq_getElem hlt, List.getElem_idxOf hlt]
    rfl

/-- What a route is made of, and what its tour and all other tours cost. -/
theorem plan (T : PointTable K) (hT : T.IsLawful) (sg : Graph2D K) (redirect : Bool)
    (rse : Option (Point K)) (d : SwathsByCells K) (solve : Graph2D K → Option (List Nat))
    (hsolve : AvoidsMissing solve) (hne : d.flatten ≠ []) (hn : d.flatten.length ≤ 300000)
    (hw : ∀ s ∈ d.flatten, 0 < s.width) (hd : Distinct rse d.flatten)
    (hh : HashOk T (tourPoints rse d.flatten)) (hc : Connects T sg (ends rse d.flatten)) :
    ∃ x ord, genRoute T solve sg redirect rse d =
      .ok ⟨firstLeg (ansQ T sg) rse (driven x) :: between (ansQ T sg) (driven x) (ord.map driven) ++
        lastLeg (ansQ T sg) rse (((x :: ord).map driven).getLast (by simp)),
        (x :: ord).map fun y => [driven y]⟩ ∧
      ((x :: ord).map Prod.fst).Perm d.flatten ∧ (redirect = false → ∀ y ∈ x :: ord, y.2 = false) ∧
      ∃ cov ids, solve cov = some ids ∧ tourCost cov ids = hopSum (ansC T sg) (hops rse ((x :: ord).map driven)) ∧
        ∀ other : List (Swath K × Bool), (other.map Prod.fst).Perm d.flatten →
          (redirect = false → ∀ y ∈ other, y.2 = false) →
          ∃ ids', IsTour cov ids' ∧ tourCost cov ids' = hopSum (ansC T sg) (hops rse (other.map driven)) := by
  obtain ⟨cov, c1, c2⟩ := cov_good (redirect := redirect) hT hne hd hh hc
  obtain ⟨ids, i1, i2, i3⟩ := hsolve cov (tour_exists hne hc hn c2)
  obtain ⟨ord, o1, o2, o3, o4⟩ := tour_order hd hc c2 i2 i3
  cases ord with
  | nil => exact absurd (List.perm_nil.1 (by simpa using o1.symm)) hne
  | cons x ord =>
    have hnum : cov.numNodes = (d.flatten.flatMap tp).length + 1 := by
      unfold Graph2D.numNodes
      rw [c2.tab, List.length_zipIdx]
      simp
    have hlt : ∀ ids, IsTour cov ids → ∀ i ∈ ids, i < (d.flatten.flatMap tp).length := by
      intro ids ht i hi
      unfold IsTour at ht
      rw [hnum, Nat.add_sub_cancel] at ht
      exact List.mem_range.1 (ht.mem_iff.1 hi)
    refine ⟨x, ord, ?_, o1, o4, cov, ids, i1, ?_, ?_⟩
    rotate_left
    · exact tour_cost hd c2 (hlt ids i2) (by simp) (fun y hy => o1.mem_iff.1 (List.mem_map.2 ⟨y, hy, rfl⟩))
        (fun y hy hr => o4 hr y hy) o2
    · intro other hother hred
      obtain ⟨ids', t1, t2⟩ := order_tour hd c2 hother
      refine ⟨ids', t1, tour_cost hd c2 (hlt ids' t1) ?_
        (fun y hy => hother.mem_iff.1 (List.mem_map.2 ⟨y, hy, rfl⟩)) (fun y hy hr => hred hr y hy) t2⟩
      rintro rfl
      exact hne (List.perm_nil.1 (by simpa using hother.symm))
    unfold genRoute
    rw [c1, Outcome.ok_bind, i1]
    unfold Distinct at hd
    rw [tourPoints_eq] at hd
    have hda := (List.pairwise_append.1 hd).1
    refine transform_route (connects_ans hc).1 rse d ids _ o3 hw hda x ord
      (fun y hy => o1.mem_iff.1 (List.mem_map.2 ⟨y, hy, rfl⟩)) o2
      (fun t ht => ⟨List.mem_append_left _ (List.mem_flatMap.2 ⟨t, ht, by simp⟩),
        List.mem_append_left _ (List.mem_flatMap.2 ⟨t, ht, by simp⟩)⟩) ?_
    intro p hp
    refine ⟨List.mem_append_right _ (by simp [hp]), ?_⟩
    intro t ht
    have hdep : depot rse = p := by rw [hp]; rfl
    have := apart_nodup hd
    rw [hdep] at this
    have hdis := List.disjoint_of_nodup_append this
    constructor
    · intro h
      exact hdis (List.mem_flatMap.2 ⟨t, ht, show p ∈ tp t by rw [h]; simp⟩) (List.mem_singleton_self p)
    · intro h
      exact hdis (List.mem_flatMap.2 ⟨t, ht, show p ∈ tp t by rw [h]; simp⟩) (List.mem_singleton_self p)

/-- Sums over the connections of a route are sums over its ways between swaths. -/
theorem conn_sum {α : Type} [AddCommMonoid α] (f : List (Point K) → α) (hf : f [] = 0)
    (Q : Point K → Point K → List (Point K)) (rse : Option (Point K)) (s : Swath K) (l : Swaths K) :
    ((firstLeg Q rse s :: between Q s l ++ lastLeg Q rse ((s :: l).getLast (by simp))).map f).sum =
      ((hops rse (s :: l)).map fun h => f (Q h.1 h.2)).sum := by
  have rest : ∀ (l : Swaths K) (s : Swath K),
      ((between Q s l ++ lastLeg Q rse ((s :: l).getLast (by simp))).map f).sum =
        ((hopsFrom rse s l).map fun h => f (Q h.1 h.2)).sum := by
    intro l
    induction l with
    | nil =>
      intro s
      cases rse <;> simp [between, lastLeg, hopsFrom]
    | cons t l ih =>
      intro s
      have := ih t
      rw [List.getLast_cons (by simp)]
      simp only [between, List.cons_append, List.map_cons, List.sum_cons, hopsFrom]
      rw [this]
  rw [List.cons_append, List.map_cons, List.sum_cons, rest l s]
  cases rse with
  | none => simp [firstLeg, hops, hf]
  | some p => simp [firstLeg, hops]

end F2C.PlannerL
