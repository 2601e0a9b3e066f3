import Verif.Lemmas.Graph2D

/-!
# Property C17 (and C12, C13 for graphs on points)
-/

namespace F2C.Props

open Graph2DSpec Graph2DL Outcome GraphL

variable {K : Type} [Field K] [LinearOrder K] [IsStrictOrderedRing K]

/-! ## C17 -/

/-- C17 (part): if points that compare equal are identical and the hash function is defined on all
points, the nodes are numbered in order of first appearance, and `nodeToIndex`/`indexToNode` are
inverse to each other on them.  Missing: points that compare equal without being identical, and
points whose hash is undefined; for both the property is false, see below. -/
theorem C17_one_node_per_point_partial (T : PointTable K) (hT : T.IsLawful) (es : List (PEdit K))
    (hsep : Separated (nodes es)) (hh : HashOk T (nodes es)) (hr : RemovesKnown es) :
    ∃ g, run T es = .ok g ∧ g.getNodes = nodes es ∧ g.numNodes = (nodes es).length ∧
      ∀ (i : Nat) (p : Point K), (nodes es)[i]? = some p →
        g.nodeToIndex T p = .ok i ∧ g.indexToNode i = .ok p := by
  obtain ⟨g, h1, h2, -⟩ := run_good hT es hsep hh hr
  refine ⟨g, h1, ?_, ?_, ?_⟩
  · unfold Graph2D.getNodes
    rw [h2.tab]
    simp
  · unfold Graph2D.numNodes
    rw [h2.tab]
    simp
  · intro i p hp
    have hm := List.mem_of_getElem? hp
    obtain ⟨j, hj, hj'⟩ := nodeToIndex_good hT h2 hsep hm (hh p hm)
    have : i = j := index_unique h2.nodup hp hj'
    subst this
    exact ⟨hj, indexToNode_good h2 hp⟩

/-- A hash table that looks at the hash first, as usual libraries do. -/
def hashFirst {K : Type} [Field K] [LinearOrder K] [FloorSemiring K] : PointTable K where
  hash := hashPoint
  find l p := (l.find? fun e => e.1.eqv p && decide (hashPoint e.1 = hashPoint p)).map Prod.snd

theorem hashFirst_lawful {K : Type} [Field K] [LinearOrder K] [FloorSemiring K] :
    (hashFirst : PointTable K).IsLawful where
  sound l p i h := by
    unfold hashFirst at h
    simp only [Option.map_eq_some_iff] at h
    obtain ⟨⟨q, j⟩, h1, rfl⟩ := h
    have h2 := List.find?_some h1
    simp only [Bool.and_eq_true] at h2
    exact ⟨q, List.mem_of_find?_eq_some h1, h2.1⟩
  complete l p q i hm he hh := by
    unfold hashFirst
    simp only [Option.isSome_map]
    rw [List.find?_isSome]
    refine ⟨(q, i), hm, ?_⟩
    have hh' : hashPoint q = hashPoint p := hh
    simp [he, hh']

/-- Calls for the example: a triangle, one side of which is removed. -/
def demoEdits : List (PEdit ℚ) :=
  [.add ⟨0, 0, 0⟩ ⟨4, 0, 0⟩ 4, .add ⟨4, 0, 0⟩ ⟨4, 3, 0⟩ 3, .add ⟨4, 3, 0⟩ ⟨0, 0, 0⟩ 5,
    .remove ⟨0, 0, 0⟩ ⟨4, 3, 0⟩]

example : Separated (nodes demoEdits) ∧ HashOk hashFirst (nodes demoEdits) ∧
    (nodes demoEdits).length = 3 ∧ ((hashFirst : PointTable ℚ).IsStrict) := by
  refine ⟨?_, ?_, ?_, rfl⟩
  · unfold Separated; decide +kernel
  · unfold HashOk; decide +kernel
  · decide +kernel

example : RemovesKnown demoEdits := by
  intro pre a b post h
  unfold demoEdits at h
  match pre, h with
  | [], h => simp at h
  | [x], h => simp at h
  | [x, y], h => simp at h
  | [x, y, z], h =>
    simp at h
    obtain ⟨rfl, rfl, rfl, ⟨rfl, rfl⟩, -⟩ := h
    decide +kernel
  | [x, y, z, w], h => simp at h
  | x :: y :: z :: w :: v :: pre, h => simp at h

private theorem bind_ok' {α β : Type} {x : Outcome α} {f : α → Outcome β} {b : β} (h : (x >>= f) = .ok b) :
    ∃ a, x = .ok a ∧ f a = .ok b := by
  cases x with
  | ok a => exact ⟨a, rfl, h⟩
  | throw e => cases h
  | ub e => cases h

omit [IsStrictOrderedRing K] in
private theorem insertNode_any {T : PointTable K} (hT : T.IsLawful) {N : List (Point K)} {l : List (Nat × Point K)}
    (hl : ∀ i, l.lookup i = N[i]?) {p : Point K} {r : List (Point K × Nat) × Nat}
    (h : Graph2D.insertNode T N.zipIdx p = .ok r) : ∃ N', r.1 = N'.zipIdx ∧ N <+: N' ∧
      (∃ q, N'[r.2]? = some q ∧ (q = p ∨ q.eqv p = true)) ∧
      ∀ i, (Graph2D.insertIndex l r.2 p).lookup i = N'[i]? := by
  unfold Graph2D.insertNode at h
  cases hx : T.hash p with
  | throw e => rw [hx] at h; cases h
  | ub e => rw [hx] at h; cases h
  | ok v =>
    rw [hx, Outcome.ok_bind] at h
    cases hf : T.find N.zipIdx p with
    | some i =>
      rw [hf] at h
      injection h with h
      subst h
      obtain ⟨q, hq, he⟩ := hT.sound _ _ _ hf
      have hq' : N[i]? = some q := by
        obtain ⟨k, hk, hke⟩ := List.mem_iff_getElem.1 hq
        simp only [List.getElem_zipIdx, Prod.mk.injEq] at hke
        rw [List.length_zipIdx] at hk
        rw [List.getElem?_eq_some_iff]
        obtain ⟨rfl, h2⟩ := hke
        have : i = k := by omega
        subst this
        exact ⟨hk, rfl⟩
      refine ⟨N, rfl, List.prefix_refl _, ⟨q, hq', .inr he⟩, fun k => ?_⟩
      rw [lookup_insertIndex, hl]
      split
      · rename_i hk
        simp only at hk
        rw [hk, hq']
        rfl
      · exact hl k
    | none =>
      rw [hf] at h
      injection h with h
      subst h
      refine ⟨N ++ [p], ?_, List.prefix_append _ _, ⟨p, by simp, .inl rfl⟩, fun k => ?_⟩
      · simp [List.zipIdx_append]
      · rw [lookup_insertIndex, hl]
        simp only [List.length_zipIdx]
        split
        · rename_i hk
          subst hk
          simp [hl]
        · rename_i hk
          rcases Nat.lt_or_ge k N.length with h1 | h1
          · rw [List.getElem?_append_left h1]
            exact hl k
          · rw [hl, List.getElem?_eq_none h1, List.getElem?_eq_none]
            simp only [List.length_append, List.length_cons, List.length_nil]
            omega

/-- The two tables of the graph list the points `N`, in this order. -/
private def Numbered (g : Graph2D K) (N : List (Point K)) : Prop :=
  g.nodesToIndex = N.zipIdx ∧ ∀ i, g.indexToNodes.lookup i = N[i]?

omit [IsStrictOrderedRing K] in
private theorem addDirected_any {T : PointTable K} (hT : T.IsLawful) {g g' : Graph2D K} {N : List (Point K)}
    (hN : Numbered g N) {a b : Point K} {c : Int} (h : g.addDirectedEdge T a b c = .ok g') :
    ∃ N', Numbered g' N' ∧ N <+: N' := by
  unfold Graph2D.addDirectedEdge at h
  rw [hN.1] at h
  obtain ⟨⟨l₁, i⟩, h1, h⟩ := bind_ok' h
  obtain ⟨N₁, e1, p1, -, i1⟩ := insertNode_any hT hN.2 h1
  simp only at e1 i1
  subst e1
  obtain ⟨⟨l₂, j⟩, h2, h⟩ := bind_ok' h
  obtain ⟨N₂, e2, p2, -, i2⟩ := insertNode_any hT i1 h2
  simp only at e2 i2
  subst e2
  injection h with h
  subst h
  exact ⟨N₂, ⟨rfl, i2⟩, p1.trans p2⟩

omit [IsStrictOrderedRing K] in
private theorem removeDirected_any {T : PointTable K} {g g' : Graph2D K} {N : List (Point K)}
    (hN : Numbered g N) {a b : Point K} (h : g.removeDirectedEdge T a b = .ok g') : Numbered g' N := by
  unfold Graph2D.removeDirectedEdge at h
  obtain ⟨i, -, h⟩ := bind_ok' h
  obtain ⟨j, -, h⟩ := bind_ok' h
  injection h with h
  subst h
  exact hN

omit [IsStrictOrderedRing K] in
private theorem fold_any {T : PointTable K} (hT : T.IsLawful) : ∀ (es : List (PEdit K)) {g g' : Graph2D K}
    {N : List (Point K)}, Numbered g N → foldOutcome (PEdit.exec T) g es = .ok g' →
    ∃ N', Numbered g' N' ∧ N <+: N' := by
  intro es
  induction es with
  | nil =>
    intro g g' N hN h
    injection h with h
    subst h
    exact ⟨N, hN, List.prefix_refl _⟩
  | cons e es ih =>
    intro g g' N hN h
    unfold foldOutcome at h
    obtain ⟨g₁, h1, h⟩ := bind_ok' h
    obtain ⟨N₁, hN₁, p₁⟩ : ∃ N', Numbered g₁ N' ∧ N <+: N' := by
      cases e with
      | addDirected a b c => exact addDirected_any hT hN h1
      | add a b c =>
        obtain ⟨g₂, h2, h3⟩ := bind_ok' (show (g.addDirectedEdge T a b c >>= fun x => x.addDirectedEdge T b a c) = .ok g₁ from h1)
        obtain ⟨N₂, a1, a2⟩ := addDirected_any hT hN h2
        obtain ⟨N₃, a3, a4⟩ := addDirected_any hT a1 h3
        exact ⟨N₃, a3, a2.trans a4⟩
      | remove a b =>
        obtain ⟨g₂, h2, h3⟩ := bind_ok' (show (g.removeDirectedEdge T a b >>= fun x => x.removeDirectedEdge T b a) = .ok g₁ from h1)
        exact ⟨N, removeDirected_any (removeDirected_any hN h2) h3, List.prefix_refl _⟩
    obtain ⟨N₂, a1, a2⟩ := ih hN₁ h
    exact ⟨N₂, a1, p₁.trans a2⟩

omit [IsStrictOrderedRing K] in
/-- C17: for a number that no node has, `indexToNode` throws `out_of_range`. -/
theorem C17_unknown_number (T : PointTable K) (hT : T.IsLawful) (es : List (PEdit K)) (g : Graph2D K)
    (h : run T es = .ok g) (i : Nat) : g.indexToNode i = .throw .outOfRange ↔ g.numNodes ≤ i := by
  obtain ⟨N, hN, -⟩ := fold_any hT es (g := Graph2D.empty) (N := []) ⟨rfl, fun i => by simp [Graph2D.empty]⟩ h
  unfold Graph2D.indexToNode Graph2D.numNodes
  rw [hN.2 i, hN.1, List.length_zipIdx]
  rcases Nat.lt_or_ge i N.length with hi | hi
  · rw [List.getElem?_eq_getElem hi]
    simp [hi]
  · rw [List.getElem?_eq_none hi]
    simp [hi]

omit [IsStrictOrderedRing K] in
/-- C17, for all points, whatever compares equal: nodes keep their numbers and their points.  After any
calls the points are listed in the order of their numbers; `nodeToIndex` gives the number of a point that
compares equal; and no later call changes the number or the point of a node (a point that compares equal to
one that is there does not replace it). -/
theorem C17_numbers_kept (T : PointTable K) (hT : T.IsLawful) (es es' : List (PEdit K)) (g g' : Graph2D K)
    (h : run T es = .ok g) (h' : run T (es ++ es') = .ok g') :
    (∀ i p, g.indexToNode i = .ok p ↔ g.getNodes[i]? = some p) ∧
    (∀ p i, g.nodeToIndex T p = .ok i → ∃ q, g.indexToNode i = .ok q ∧ q.eqv p = true) ∧
    (∀ i p, g.indexToNode i = .ok p → g'.indexToNode i = .ok p) := by
  obtain ⟨N, hN, -⟩ := fold_any hT es (g := Graph2D.empty) (N := []) ⟨rfl, fun i => by simp [Graph2D.empty]⟩ h
  have hrun : foldOutcome (PEdit.exec T) g es' = .ok g' := by
    have happ : ∀ (l : List (PEdit K)) (x : Graph2D K), foldOutcome (PEdit.exec T) x (l ++ es') =
        (foldOutcome (PEdit.exec T) x l >>= fun y => foldOutcome (PEdit.exec T) y es') := by
      intro l
      induction l with
      | nil => intro x; rfl
      | cons e l ih =>
        intro x
        simp only [List.cons_append, foldOutcome]
        cases PEdit.exec T x e with
        | ok y => simp only [Outcome.ok_bind]; exact ih y
        | throw e => rfl
        | ub e => rfl
    unfold run at h h'
    rw [happ, h] at h'
    exact h'
  obtain ⟨N', hN', hp⟩ := fold_any hT es' hN hrun
  have idx : ∀ {x : Graph2D K} {M : List (Point K)}, Numbered x M → ∀ i p,
      x.indexToNode i = .ok p ↔ M[i]? = some p := by
    intro x M hM i p
    unfold Graph2D.indexToNode
    rw [hM.2 i]
    cases M[i]? <;> simp
  have hnodes : g.getNodes = N := by
    unfold Graph2D.getNodes
    rw [hN.1]
    simp
  refine ⟨fun i p => by rw [idx hN, hnodes], fun p i hi => ?_, fun i p hi => ?_⟩
  · unfold Graph2D.nodeToIndex at hi
    obtain ⟨v, -, hi⟩ := bind_ok' hi
    rw [hN.1] at hi
    cases hf : T.find N.zipIdx p with
    | none => rw [hf] at hi; cases hi
    | some k =>
      rw [hf] at hi
      injection hi with hi
      subst hi
      obtain ⟨q, hq, he⟩ := hT.sound _ _ _ hf
      refine ⟨q, (idx hN _ _).2 ?_, he⟩
      obtain ⟨m, hm, hme⟩ := List.mem_iff_getElem.1 hq
      simp only [List.getElem_zipIdx, Prod.mk.injEq] at hme
      rw [List.length_zipIdx] at hm
      rw [List.getElem?_eq_some_iff]
      obtain ⟨h1, h2⟩ := hme
      have : k = m := by omega
      subst this
      exact ⟨hm, h1⟩
  · rw [idx hN] at hi
    rw [idx hN']
    obtain ⟨r, rfl⟩ := hp
    rw [List.getElem?_append_left (List.getElem?_eq_some_iff.1 hi).1]
    exact hi

/-- Not vacuous: a point that compares equal to a node of the graph is added; the node keeps its point. -/
example : (run hashFirst [.add (⟨1, 0, 0⟩ : Point ℚ) ⟨5, 5, 0⟩ 1]).isOk = true ∧
    (run hashFirst ([.add (⟨1, 0, 0⟩ : Point ℚ) ⟨5, 5, 0⟩ 1] ++ [.add ⟨1 + 1 / 100000000, 0, 0⟩ ⟨7, 7, 0⟩ 1])).map
      (fun g => (g.nodeToIndex hashFirst ⟨1 + 1 / 100000000, 0, 0⟩, g.indexToNode 0)) =
    .ok (.ok 0, .ok ⟨1, 0, 0⟩) := by
  decide +kernel

/-- C17 is false in general: two points that compare equal get two nodes, because their hash values
differ. -/
theorem C17_equal_points_two_nodes :
    ∃ (T : PointTable ℚ) (p q r : Point ℚ) (g : Graph2D ℚ), T.IsLawful ∧ T.IsStrict ∧
      p.eqv q = true ∧ run T [.add p r 1, .add q r 1] = .ok g ∧ g.numNodes = 3 ∧
      g.nodeToIndex T p = .ok 0 ∧ g.nodeToIndex T q = .ok 2 := by
  refine ⟨hashFirst, ⟨1 - 1 / 100000000, 0, 0⟩, ⟨1 + 1 / 100000000, 0, 0⟩, ⟨5, 5, 0⟩, ?_⟩
  have h : (run hashFirst [.add (⟨1 - 1 / 100000000, 0, 0⟩ : Point ℚ) ⟨5, 5, 0⟩ 1,
      .add ⟨1 + 1 / 100000000, 0, 0⟩ ⟨5, 5, 0⟩ 1]).isOk = true := by decide +kernel
  cases hg : run hashFirst [.add (⟨1 - 1 / 100000000, 0, 0⟩ : Point ℚ) ⟨5, 5, 0⟩ 1,
      .add ⟨1 + 1 / 100000000, 0, 0⟩ ⟨5, 5, 0⟩ 1] with
  | ok g =>
    have h1 : (run hashFirst [.add (⟨1 - 1 / 100000000, 0, 0⟩ : Point ℚ) ⟨5, 5, 0⟩ 1,
      .add ⟨1 + 1 / 100000000, 0, 0⟩ ⟨5, 5, 0⟩ 1]).map (fun g => (g.numNodes,
        g.nodeToIndex hashFirst ⟨1 - 1 / 100000000, 0, 0⟩,
        g.nodeToIndex hashFirst ⟨1 + 1 / 100000000, 0, 0⟩)) = .ok (3, .ok 0, .ok 2) := by
      decide +kernel
    rw [hg] at h1
    simp only [Outcome.map, Outcome.ok.injEq, Prod.mk.injEq] at h1
    exact ⟨g, hashFirst_lawful, rfl, by decide +kernel, rfl, h1.1, h1.2.1, h1.2.2⟩
  | throw e => rw [hg] at h; simp [Outcome.isOk] at h
  | ub e => rw [hg] at h; simp [Outcome.isOk] at h

omit [IsStrictOrderedRing K] in
/-- C17: with the hash function of the code, adding a point whose hash value is no `size_t` is
undefined behaviour, whatever the library does. -/
theorem C17_hash_out_of_range_ub [FloorSemiring K] (T : PointTable K) (hT : T.IsStrict) (g : Graph2D K)
    (p q : Point K) (c : Int)
    (hp : p.x + p.y * 10000000000 + p.z * 100000000000000000000 ≤ -1 ∨
      18446744073709551616 ≤ p.x + p.y * 10000000000 + p.z * 100000000000000000000) :
    (g.addEdge T p q c).isUb = true := by
  have : T.hash p = .ub "double to size_t out of range" := by
    rw [hT]
    unfold hashPoint
    simp only []
    rw [if_neg]
    rintro ⟨h1, h2⟩
    rcases hp with hp | hp
    · exact absurd hp (not_le.2 h1)
    · exact absurd hp (not_le.2 h2)
  unfold Graph2D.addEdge Graph2D.addDirectedEdge Graph2D.insertNode
  rw [this]
  rfl

/-- That concerns every point with negative coordinates and every point above 20 cm. -/
example : ((-1 : ℚ) + (-1) * 10000000000 + 0 * 100000000000000000000 ≤ -1) ∧
    18446744073709551616 ≤ (0 : ℚ) + 0 * 10000000000 + (1 / 5) * 100000000000000000000 := by
  norm_num

/-! ## C12 and C13 for graphs on points -/

/-- C12, C13: on a graph made of undirected edges, some of which may have been removed,
`shortestPathCost` between two of its points is the least cost of a walk, and `shortestPath` is a
path along edges between them with this cost that visits no point twice (empty if the points are
identical or not connected). -/
theorem C13_between_points (T : PointTable K) (hT : T.IsLawful) (es : List (PEdit K)) (inf : Int)
    (hsep : Separated (nodes es)) (hh : HashOk T (nodes es)) (hr : RemovesKnown es)
    (hu : Undirected inf es) (hpos : 0 < inf) (hb : inf ≤ 2 ^ 62) (a b : Point K)
    (ha : a ∈ nodes es) (hb' : b ∈ nodes es) :
    ∃ g g' d p, run T es = .ok g ∧ g.shortestPathCost T a b inf = .ok (g', d) ∧
      g.shortestPath T a b inf = .ok (g', p) ∧ PCheapest es inf a b d ∧
      (a = b → p = []) ∧ ((∀ t, PWalk es a b t → inf ≤ t) → p = []) ∧
      (a ≠ b → (∃ t, PWalk es a b t ∧ t < inf) →
        p.head? = some a ∧ p.getLast? = some b ∧ p.Nodup ∧ PPath es p d) := by
  obtain ⟨g, h1, h2, h3⟩ := run_good hT es hsep hh hr
  have hk := h3 (fun e he x y c hc => by
    have := hu e he
    rw [hc] at this
    exact this)
  obtain ⟨hl, w⟩ := good_wf h2 hu hk hpos hb
  obtain ⟨i, hi, hi'⟩ := nodeToIndex_good hT h2 hsep ha (hh a ha)
  obtain ⟨j, hj, hj'⟩ := nodeToIndex_good hT h2 hsep hb' (hh b hb')
  have hil := (List.getElem?_eq_some_iff.1 hi').1
  have hjl := (List.getElem?_eq_some_iff.1 hj').1
  obtain ⟨g', d, p, q1, q2, q3, q4, q5, q6, q7⟩ := query_spec w (by omega : i < _) (by omega : j < _)
  have hgr : g.graph = ⟨g.graph.edges, none⟩ := by
    have := h2.cache
    cases hg : g.graph with
    | mk e c => rw [hg] at this; simp only at this; rw [this]
  have hij : i = j ↔ a = b := by
    constructor
    · rintro rfl; rw [hi'] at hj'; simpa using hj'
    · rintro rfl; exact index_unique h2.nodup hi' hj'
  have hmin : ∀ t, PWalk es a b t → d ≤ t := by
    intro t ht
    obtain ⟨j₂, hj₂, hw⟩ := walkB_points h2 ht i hi'
    have : j = j₂ := index_unique h2.nodup hj' hj₂
    subst this
    exact q4 t (by rw [hl]; exact hw)
  have hwalk : ∀ s, WalkB g.graph.edges g.graph.edges.length i j s → PWalk es a b s := by
    intro s hs
    obtain ⟨b₂, hb₂, hw⟩ := walk_points h2 hs a hi'
    rw [hj'] at hb₂
    simp only [Option.some.injEq] at hb₂
    subst hb₂
    exact hw
  have hcost : g.shortestPathCost T a b inf = .ok ({ g with graph := g' }, d) := by
    unfold Graph2D.shortestPathCost
    rw [hi, Outcome.ok_bind, hj, Outcome.ok_bind, hgr, q1, Outcome.ok_bind]
    rfl
  have hpath : ∀ ps, g.toPoints p = .ok ps →
      g.shortestPath T a b inf = .ok ({ g with graph := g' }, ps) := by
    intro ps hps
    unfold Graph2D.shortestPath
    rw [hi, Outcome.ok_bind, hj, Outcome.ok_bind, hgr, q2, Outcome.ok_bind]
    simp only []
    rw [hps, Outcome.ok_bind]
    rfl
  have hcheap : PCheapest es inf a b d := by
    refine ⟨fun h => (q3 (hij.2 h)).1, ?_, ?_⟩
    · rintro ⟨t, ht, hlt⟩
      refine ⟨?_, hmin⟩
      by_cases he : i = j
      · rw [(q3 he).1, (hij.1 he)]; exact .nil b
      · have := hmin t ht
        obtain ⟨next, hf⟩ := q7 he (by omega)
        exact hwalk d hf.walk
    · intro hno
      by_contra hne
      by_cases he : i = j
      · have := hno 0 (by rw [hij.1 he]; exact .nil b)
        omega
      · obtain ⟨next, hf⟩ := q7 he (by omega)
        have := hno d (hwalk d hf.walk)
        omega
  by_cases he : i = j
  · have hp := (q3 he).2
    subst hp
    exact ⟨g, _, d, [], h1, hcost, hpath [] rfl, hcheap, fun _ => rfl, fun _ => rfl,
      fun h => absurd (hij.1 he) h⟩
  · by_cases hd : d = inf
    · have hp := q6 he hd
      subst hp
      refine ⟨g, _, d, [], h1, hcost, hpath [] rfl, hcheap, fun _ => rfl, fun _ => rfl, ?_⟩
      rintro - ⟨t, ht, hlt⟩
      have := hmin t ht
      omega
    · obtain ⟨next, hf⟩ := q7 he (by omega)
      obtain ⟨ps, r1, r2, r3, r4⟩ := path_points h2 hf hil
      obtain ⟨t1, t2, t3, -⟩ := toPoints_ends h2 r1
      refine ⟨g, _, d, ps, h1, hcost, hpath ps r1, hcheap, fun h => absurd (hij.2 h) he, ?_, ?_⟩
      · intro hno
        have := hno d (hwalk d hf.walk)
        omega
      · intro _ _
        exact ⟨t1 i a hf.head hi', t2 j b hf.last hj', t3 hf.nodup, r4⟩

example : Undirected (2 ^ 30) demoEdits := by
  unfold Undirected demoEdits
  simp

/-- After the removal of the direct edge the way leads around it. -/
example : (run hashFirst demoEdits >>= fun g => g.shortestPath hashFirst ⟨0, 0, 0⟩ ⟨4, 3, 0⟩ (2 ^ 30)).map
    (fun r => r.2.map fun p => (p.x, p.y)) = .ok [(0, 0), (4, 0), (4, 3)] := by decide +kernel

/-! ## C16 for graphs on points -/

private theorem toPoints_map {g : Graph2D K} {N : List (Point K)} {F} (h : Good g N F) (f : Nat → Point K)
    (hf : ∀ i, i < N.length → N[i]? = some (f i)) : ∀ (p : List Nat), (∀ i ∈ p, i < N.length) →
    g.toPoints p = .ok (p.map f) := by
  intro p
  induction p with
  | nil => intro _; rfl
  | cons i p ih =>
    intro hp
    have h1 := indexToNode_good h (hf i (hp i List.mem_cons_self))
    have h2 := ih (fun j hj => hp j (List.mem_cons_of_mem _ hj))
    simp [Graph2D.toPoints, h1, h2]

private theorem toPointss_map {g : Graph2D K} {N : List (Point K)} {F} (h : Good g N F) (f : Nat → Point K)
    (hf : ∀ i, i < N.length → N[i]? = some (f i)) : ∀ (rs : List (List Nat)), (∀ r ∈ rs, ∀ i ∈ r, i < N.length) →
    g.toPointss rs = .ok (rs.map (List.map f)) := by
  intro rs
  induction rs with
  | nil => intro _; rfl
  | cons r rs ih =>
    intro hp
    have h1 := toPoints_map h f hf r (hp r List.mem_cons_self)
    have h2 := ih (fun j hj => hp j (List.mem_cons_of_mem _ hj))
    simp [Graph2D.toPointss, h1, h2]

/-- C16: on a graph made of undirected edges, some of which may have been removed, `allPathsBetween` two of its points lists
exactly the paths along edges that visit no point twice, each once. -/
theorem C16_between_points (T : PointTable K) (hT : T.IsLawful) (es : List (PEdit K)) (inf : Int)
    (hsep : Separated (nodes es)) (hh : HashOk T (nodes es)) (hr : RemovesKnown es)
    (hu : Undirected inf es) (hpos : 0 < inf) (hb : inf ≤ 2 ^ 62) (a b : Point K)
    (ha : a ∈ nodes es) (hb' : b ∈ nodes es) :
    ∃ g ps, run T es = .ok g ∧ g.allPathsBetween T a b = .ok ps ∧ ps.Nodup ∧
      ∀ p, p ∈ ps ↔ p.head? = some a ∧ p.getLast? = some b ∧ p.IsChain (fun x y => ∃ c, PEdge es x y c) ∧ p.Nodup := by
  obtain ⟨g, h1, h2, h3⟩ := run_good hT es hsep hh hr
  have hk := h3 (fun e he x y c hc => by
    have := hu e he
    rw [hc] at this
    exact this)
  obtain ⟨hl, w⟩ := good_wf h2 hu hk hpos hb
  obtain ⟨i, hi, hi'⟩ := nodeToIndex_good hT h2 hsep ha (hh a ha)
  obtain ⟨j, hj, hj'⟩ := nodeToIndex_good hT h2 hsep hb' (hh b hb')
  have hil := (List.getElem?_eq_some_iff.1 hi').1
  have hjl := (List.getElem?_eq_some_iff.1 hj').1
  have hn : g.graph.numNodes = (nodes es).length := hl
  obtain ⟨rs, r1, r2, r3⟩ := allPathsBetween_spec (g := g.graph) h2.keysOk
    (fun x y c hc => by rw [hn]; exact (h2.dstB x y c hc).2) (i := i) (j := j) (.inr (by omega))
  -- numbers to points and back
  obtain ⟨f, hf⟩ : ∃ f : Nat → Point K, ∀ i, i < (nodes es).length → (nodes es)[i]? = some (f i) :=
    ⟨fun i => (nodes es)[i]?.getD Point.zero, fun i hi => by simp [hi]⟩
  have hex : ∀ x, ∃ i : Nat, x ∈ nodes es → (nodes es)[i]? = some x := by
    intro x
    by_cases hx : x ∈ nodes es
    · obtain ⟨i, hi⟩ := List.mem_iff_getElem?.1 hx
      exact ⟨i, fun _ => hi⟩
    · exact ⟨0, fun h => absurd h hx⟩
  choose idx hidx using hex
  have fidx : ∀ x ∈ nodes es, f (idx x) = x ∧ idx x < (nodes es).length := by
    intro x hx
    have hlt := (List.getElem?_eq_some_iff.1 (hidx x hx)).1
    have := hf _ hlt
    rw [hidx x hx] at this
    exact ⟨by simpa using this.symm, hlt⟩
  have finj : ∀ x y, x < (nodes es).length → y < (nodes es).length → f x = f y → x = y := by
    intro x y hx hy e
    have := hf y hy
    rw [← e] at this
    exact index_unique h2.nodup (hf x hx) this
  have hfi : f i = a := by
    have := hf i hil
    rw [hi'] at this
    simpa using this.symm
  have hfj : f j = b := by
    have := hf j hjl
    rw [hj'] at this
    simpa using this.symm
  have hchain : ∀ (q : List Nat) (x : Nat), x < (nodes es).length → (x :: q).IsChain (Adj g.graph.edges) →
      (∀ y ∈ x :: q, y < (nodes es).length) ∧ ((x :: q).map f).IsChain (fun x y => ∃ c, PEdge es x y c) := by
    intro q
    induction q with
    | nil => intro x hx _; exact ⟨by simpa using hx, by simp⟩
    | cons y q ih =>
      intro x hx hc
      rw [List.isChain_cons_cons] at hc
      obtain ⟨⟨c, hcst⟩, hc⟩ := hc
      have hy := (h2.dstB x y c hcst).2
      obtain ⟨k1, k2⟩ := ih y hy hc
      refine ⟨fun z hz => ?_, ?_⟩
      · rcases List.mem_cons.1 hz with rfl | hz
        · exact hx
        · exact k1 z hz
      · simp only [List.map_cons] at k2 ⊢
        rw [List.isChain_cons_cons]
        refine ⟨⟨c, ?_⟩, k2⟩
        have := h2.cost x y _ _ (hf x hx) (hf y hy)
        rw [hcst] at this
        exact this.symm
  have hlt : ∀ r ∈ rs, ∀ x ∈ r, x < (nodes es).length := by
    intro r hr x hx
    obtain ⟨a1, -, a3, -⟩ := (r3 r).1 hr
    cases r with
    | nil => simp at hx
    | cons y r =>
      simp only [List.head?_cons, Option.some.injEq] at a1
      subst a1
      exact (hchain r _ hil a3).1 x hx
  refine ⟨g, rs.map (List.map f), h1, ?_, ?_, ?_⟩
  · unfold Graph2D.allPathsBetween
    rw [hi, Outcome.ok_bind, hj, Outcome.ok_bind, r1, Outcome.ok_bind]
    exact toPointss_map h2 f hf rs hlt
  · refine List.Nodup.map_on ?_ r2
    intro r hr r' hr' e
    have key : ∀ (l l' : List Nat), (∀ x ∈ l, x < (nodes es).length) → (∀ x ∈ l', x < (nodes es).length) →
        l.map f = l'.map f → l = l' := by
      intro l
      induction l with
      | nil => intro l' _ _ e; simpa using e.symm
      | cons x l ih =>
        intro l' hl hl' e
        cases l' with
        | nil => simp at e
        | cons y l' =>
          simp only [List.map_cons, List.cons.injEq] at e
          rw [finj x y (hl x List.mem_cons_self) (hl' y List.mem_cons_self) e.1,
            ih l' (fun z hz => hl z (List.mem_cons_of_mem _ hz)) (fun z hz => hl' z (List.mem_cons_of_mem _ hz)) e.2]
    exact key r r' (hlt r hr) (hlt r' hr') e
  · intro p
    rw [List.mem_map]
    constructor
    · rintro ⟨r, hr, rfl⟩
      obtain ⟨a1, a2, a3, a4⟩ := (r3 r).1 hr
      have hl := hlt r hr
      refine ⟨by rw [List.head?_map, a1, Option.map_some, hfi], by rw [List.getLast?_map, a2, Option.map_some, hfj], ?_,
        List.Nodup.map_on (fun x hx y hy e => finj x y (hl x hx) (hl y hy) e) a4⟩
      cases r with
      | nil => simp
      | cons y r =>
        simp only [List.head?_cons, Option.some.injEq] at a1
        subst a1
        exact (hchain r _ hil a3).2
    · rintro ⟨a1, a2, a3, a4⟩
      have back : ∀ (q : List (Point K)) (x : Point K), x ∈ nodes es → (x :: q).IsChain (fun x y => ∃ c, PEdge es x y c) →
          (∀ y ∈ x :: q, y ∈ nodes es) ∧ ((x :: q).map idx).IsChain (Adj g.graph.edges) := by
        intro q
        induction q with
        | nil => intro x hx _; exact ⟨by simpa using hx, by simp⟩
        | cons y q ih =>
          intro x hx hc
          rw [List.isChain_cons_cons] at hc
          obtain ⟨⟨c, hcst⟩, hc⟩ := hc
          have hcst' : costs es x y = some c := hcst
          have hy := (h2.dom x y (by rw [hcst']; simp)).2
          obtain ⟨k1, k2⟩ := ih y hy hc
          refine ⟨fun z hz => ?_, ?_⟩
          · rcases List.mem_cons.1 hz with rfl | hz
            · exact hx
            · exact k1 z hz
          · simp only [List.map_cons] at k2 ⊢
            rw [List.isChain_cons_cons]
            refine ⟨⟨c, ?_⟩, k2⟩
            rw [h2.cost _ _ x y (hidx x hx) (hidx y hy)]
            exact hcst'
      cases p with
      | nil => simp at a1
      | cons x p =>
        simp only [List.head?_cons, Option.some.injEq] at a1
        subst a1
        obtain ⟨k1, k2⟩ := back p _ ha a3
        refine ⟨(x :: p).map idx, (r3 _).2 ⟨?_, ?_, k2, ?_⟩, ?_⟩
        · rw [List.head?_map, List.head?_cons, Option.map_some]
          exact congrArg some (index_unique h2.nodup (hidx _ ha) hi')
        · rw [List.getLast?_map, a2, Option.map_some]
          exact congrArg some (index_unique h2.nodup (hidx _ hb') hj')
        · refine List.Nodup.map_on (fun y hy z hz e => ?_) a4
          rw [← (fidx y (k1 y hy)).1, ← (fidx z (k1 z hz)).1, e]
        · rw [List.map_map]
          refine (List.map_congr_left fun y hy => ?_).trans (List.map_id _)
          exact (fidx y (k1 y hy)).1

/-- Two ways from one corner of a triangle to another before, one after the removal of a side. -/
example : (run hashFirst demoEdits >>= fun g => g.allPathsBetween hashFirst ⟨0, 0, 0⟩ ⟨4, 3, 0⟩).map
    (fun r => r.map fun l => l.map fun p => (p.x, p.y)) = .ok [[(0, 0), (4, 0), (4, 3)]] ∧
    (run hashFirst (demoEdits.take 3) >>= fun g => g.allPathsBetween hashFirst ⟨0, 0, 0⟩ ⟨4, 3, 0⟩).map
    (fun r => r.map fun l => l.map fun p => (p.x, p.y)) = .ok [[(0, 0), (4, 0), (4, 3)], [(0, 0), (4, 3)]] := by decide +kernel

end F2C.Props
