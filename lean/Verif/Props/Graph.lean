import Verif.Lemmas.GraphBuild

/-!
# Properties C12–C16 and C66: graphs
-/

namespace F2C.Props

open GraphSpec GraphL Outcome

/-! ## C12 -/

/-- C12: on a fresh graph built by any sequence of insertions with costs in `[0, INF)`,
`shortestPathCost(i, j)` is the minimum over all walks, `0` for `i = j`, and `INF` exactly when
there is no walk cheaper than `INF`. -/
theorem C12_costs_optimal (ins : List Ins) (inf : Int) (hc : Contiguous ins)
    (hb : CostsBelow ins inf) (i j : Nat) (hi : i < nodes ins) (hj : j < nodes ins) :
    ∃ g' d, (build ins).shortestPathCost i j inf = .ok (g', d) ∧ IsCheapest ins inf i j d := by
  obtain ⟨t, h1, h2⟩ := ensure_build hc hb hi
  refine ⟨⟨(build ins).edges, some (nodes ins, t)⟩, t.dist i j, ?_, cheapest_of_inv hc (pos_of_lt_nodes hb hi) h2 hi hj⟩
  unfold Graph.shortestPathCost
  rw [h1, Outcome.ok_bind]
  simp only []
  rw [if_pos ⟨hi, hj⟩]

/-- C12: the same for the matrix returned by `getCosts()`. -/
theorem C12_getCosts_optimal (ins : List Ins) (hc : Contiguous ins)
    (hb : CostsBelow ins (10 ^ 15)) (hne : 0 < nodes ins) :
    ∃ g' m, (build ins).getCosts = .ok (g', nodes ins, m) ∧
      ∀ i j, i < nodes ins → j < nodes ins → IsCheapest ins (10 ^ 15) i j (m i j) := by
  obtain ⟨t, h1, h2⟩ := ensure_build hc hb hne
  refine ⟨⟨(build ins).edges, some (nodes ins, t)⟩, t.dist, ?_, fun i j hi hj => cheapest_of_inv hc (by norm_num) h2 hi hj⟩
  unfold Graph.getCosts
  norm_num at h1
  rw [h1]
  rfl

/-- A graph with zero costs, a zero cycle and a replaced edge. -/
def demoIns : List Ins := [(0, 1, 9), (0, 1, 0), (1, 0, 0), (1, 2, 0), (2, 0, 0), (3, 0, 7), (0, 2, 5)]

example : Contiguous demoIns ∧ CostsBelow demoIns (2 ^ 30) ∧ nodes demoIns = 4 := by
  unfold Contiguous CostsBelow demoIns nodes
  decide +kernel

example : Walk demoIns 3 2 7 ∧ ¬ (∃ c, Edge demoIns 3 2 c) := by
  refine ⟨?_, ?_⟩
  · exact .cons (c := 7) (t := 0) (l := 0) (by unfold Edge; decide)
      (.cons (c := 0) (t := 0) (l := 1) (by unfold Edge; decide)
        (.cons (c := 0) (t := 0) (l := 2) (by unfold Edge; decide) (.nil 2)))
  · rintro ⟨c, h⟩
    have := edge_mem h
    simp [demoIns] at this

/-! ## C13 -/

/-- C13: `shortestPath` terminates without undefined behaviour; it is empty for `i = j` and when
there is no walk cheaper than `INF`; otherwise it is a path along edges from `i` to `j` that repeats
no node and whose cost is the reported cost. -/
theorem C13_paths_real (ins : List Ins) (inf : Int) (hc : Contiguous ins)
    (hb : CostsBelow ins inf) (i j : Nat) (hi : i < nodes ins) (hj : j < nodes ins) :
    ∃ g' p g'' d, (build ins).shortestPath i j inf = .ok (g', p) ∧
      (build ins).shortestPathCost i j inf = .ok (g'', d) ∧
      (i = j → p = []) ∧
      ((∀ t, Walk ins i j t → inf ≤ t) → p = []) ∧
      (i ≠ j → (∃ t, Walk ins i j t ∧ t < inf) →
        p.head? = some i ∧ p.getLast? = some j ∧ p.Nodup ∧ PathCost ins p d) := by
  obtain ⟨t, h1, h2⟩ := ensure_build hc hb hi
  have hl := build_length ins
  have hi' : i < (build ins).edges.length := by omega
  have hj' : j < (build ins).edges.length := by omega
  have hw := build_wf hc hb (pos_of_lt_nodes hb hi)
  have hch := cheapest_of_inv hc (pos_of_lt_nodes hb hi) h2 hi hj
  have hcost : (build ins).shortestPathCost i j inf =
      .ok (⟨(build ins).edges, some (nodes ins, t)⟩, t.dist i j) := by
    unfold Graph.shortestPathCost
    rw [h1, Outcome.ok_bind]
    simp only []
    rw [if_pos ⟨hi, hj⟩]
  by_cases hij : i = j
  · refine ⟨⟨(build ins).edges, some (nodes ins, t)⟩, [], _, _, ?_, hcost, fun _ => rfl, fun _ => rfl, fun h => absurd hij h⟩
    unfold Graph.shortestPath
    rw [h1, Outcome.ok_bind, if_pos hij]
  · by_cases hn : t.next i j = -1
    · have hnlt : ¬ t.dist i j < inf := fun hlt => (h2.nextIff i j hi' hj' hij).2 hlt hn
      refine ⟨⟨(build ins).edges, some (nodes ins, t)⟩, [], _, _, ?_, hcost, fun _ => rfl, fun _ => rfl, ?_⟩
      · unfold Graph.shortestPath
        rw [h1, Outcome.ok_bind, if_neg hij]
        simp only []
        rw [if_pos ⟨hi, hj⟩, if_neg (by simpa using hn)]
      · rintro - ⟨s, hs, hlt⟩
        have := (hch.2.1 ⟨s, hs, hlt⟩).2 s hs
        omega
    · obtain ⟨p, hp, hf⟩ := h2.follow hw hi' hj' hij hn
      have hlt := (h2.nextIff i j hi' hj' hij).1 hn
      refine ⟨⟨(build ins).edges, some (nodes ins, t)⟩, p, _, _, ?_, hcost, fun h => absurd h hij, ?_, ?_⟩
      · unfold Graph.shortestPath
        rw [h1, Outcome.ok_bind, if_neg hij]
        simp only []
        rw [hl] at hp
        rw [if_pos ⟨hi, hj⟩, if_pos hn, hp]
        rfl
      · intro hno
        have := hno _ (walk_of_walkB hf.walk)
        omega
      · intro _ _
        exact ⟨hf.head, hf.last, hf.nodup, pathCost_of_fol hf⟩

/-- The loops of `getPaths`: each pair of the list gets its path, nothing else changes. -/
private theorem getPaths_fold {n : Nat} {next : Mat} (P : Nat → Nat → List Nat)
    (hP : ∀ i j, i < n → j < n → i ≠ j → next i j ≠ -1 → follow n next j n i = .ok (P i j)) :
    ∀ (L : List (Nat × Nat)) (ps : Nat → Nat → List Nat), (∀ ij ∈ L, ij.1 < n ∧ ij.2 < n) →
      ∃ ps', foldOutcome (Graph.getPathsStep n next) ps L = .ok ps' ∧ ∀ a b,
        ps' a b = if (a, b) ∈ L ∧ a ≠ b ∧ next a b ≠ -1 then P a b else ps a b := by
  intro L
  induction L with
  | nil => exact fun ps _ => ⟨ps, rfl, fun a b => by simp⟩
  | cons ij L ih =>
    intro ps hL
    obtain ⟨h1, h2⟩ := hL ij List.mem_cons_self
    unfold foldOutcome
    by_cases hc : ij.1 ≠ ij.2 ∧ next ij.1 ij.2 ≠ -1
    · have hs : Graph.getPathsStep n next ps ij =
          .ok (fun a b => if a = ij.1 ∧ b = ij.2 then P ij.1 ij.2 else ps a b) := by
        unfold Graph.getPathsStep
        rw [if_pos hc, hP _ _ h1 h2 hc.1 hc.2]
        rfl
      rw [hs, Outcome.ok_bind]
      obtain ⟨ps', e, h⟩ := ih (fun a b => if a = ij.1 ∧ b = ij.2 then P ij.1 ij.2 else ps a b)
        (fun x hx => hL x (List.mem_cons_of_mem _ hx))
      refine ⟨ps', e, fun a b => ?_⟩
      rw [h]
      by_cases hm : (a, b) ∈ L ∧ a ≠ b ∧ next a b ≠ -1
      · rw [if_pos hm, if_pos ⟨List.mem_cons_of_mem _ hm.1, hm.2⟩]
      · rw [if_neg hm]
        by_cases he : a = ij.1 ∧ b = ij.2
        · obtain ⟨rfl, rfl⟩ := he
          rw [if_pos ⟨rfl, rfl⟩, if_pos ⟨List.mem_cons_self, hc⟩]
        · rw [if_neg he, if_neg]
          rintro ⟨hmem, hr⟩
          rcases List.mem_cons.1 hmem with e' | e'
          · exact he ⟨by rw [← e'], by rw [← e']⟩
          · exact hm ⟨e', hr⟩
    · have hs : Graph.getPathsStep n next ps ij = .ok ps := by
        unfold Graph.getPathsStep
        rw [if_neg hc]
      rw [hs, Outcome.ok_bind]
      obtain ⟨ps', e, h⟩ := ih ps (fun x hx => hL x (List.mem_cons_of_mem _ hx))
      refine ⟨ps', e, fun a b => ?_⟩
      rw [h]
      by_cases hm : (a, b) ∈ L ∧ a ≠ b ∧ next a b ≠ -1
      · rw [if_pos hm, if_pos ⟨List.mem_cons_of_mem _ hm.1, hm.2⟩]
      · rw [if_neg hm, if_neg]
        rintro ⟨hmem, hr⟩
        rcases List.mem_cons.1 hmem with e' | e'
        · rw [← e'] at hc
          exact hc hr
        · exact hm ⟨e', hr⟩

/-- C13: `getPaths` gives for every two nodes a cheapest path along edges that repeats no node: the one of `shortestPath`, and
none from a node to itself or without a walk cheaper than `1e15`. -/
theorem C13_getPaths (ins : List Ins) (hc : Contiguous ins) (hb : CostsBelow ins (10 ^ 15)) (hne : 0 < nodes ins) :
    ∃ g' ps, (build ins).getPaths = .ok (g', nodes ins, ps) ∧ ∀ i j, i < nodes ins → j < nodes ins →
      (∃ g'', (build ins).shortestPath i j (10 ^ 15) = .ok (g'', ps i j)) ∧
      (i = j → ps i j = []) ∧
      ((∀ t, Walk ins i j t → 10 ^ 15 ≤ t) → ps i j = []) ∧
      (i ≠ j → (∃ t, Walk ins i j t ∧ t < 10 ^ 15) →
        (ps i j).head? = some i ∧ (ps i j).getLast? = some j ∧ (ps i j).Nodup ∧
        ∃ d, PathCost ins (ps i j) d ∧ ∀ t, Walk ins i j t → d ≤ t) := by
  obtain ⟨t, h1, h2⟩ := ensure_build hc hb hne
  have hl := build_length ins
  have hw := build_wf hc hb (by norm_num)
  have key : ∀ i j, ∃ p, i < nodes ins → j < nodes ins → i ≠ j → t.next i j ≠ -1 →
      follow (nodes ins) t.next j (nodes ins) i = .ok p := by
    intro i j
    by_cases hk : i < nodes ins ∧ j < nodes ins ∧ i ≠ j ∧ t.next i j ≠ -1
    · obtain ⟨p, hp, -⟩ := h2.follow hw (by omega) (by omega) hk.2.2.1 hk.2.2.2
      rw [hl] at hp
      exact ⟨p, fun _ _ _ _ => hp⟩
    · exact ⟨[], fun a b c d => absurd ⟨a, b, c, d⟩ hk⟩
  choose P hP using key
  obtain ⟨ps, e, hps⟩ := getPaths_fold P hP (allPairs (nodes ins)) (fun _ _ => []) (by
    intro ij hij
    simp only [allPairs, List.mem_flatMap, List.mem_map, List.mem_range] at hij
    obtain ⟨i, hi, j, hj, rfl⟩ := hij
    exact ⟨hi, hj⟩)
  refine ⟨⟨(build ins).edges, some (nodes ins, t)⟩, ps, ?_, fun i j hi hj => ?_⟩
  · unfold Graph.getPaths
    norm_num at h1
    rw [h1, Outcome.ok_bind]
    have : (build ins).numNodes = nodes ins := hl
    simp only [this]
    rw [e]
    rfl
  · have hmem : (i, j) ∈ allPairs (nodes ins) := by
      simp only [allPairs, List.mem_flatMap, List.mem_map, List.mem_range]
      exact ⟨i, hi, j, hj, rfl⟩
    have hsp : ∃ g'', (build ins).shortestPath i j (10 ^ 15) = .ok (g'', ps i j) := by
      refine ⟨⟨(build ins).edges, some (nodes ins, t)⟩, ?_⟩
      unfold Graph.shortestPath
      rw [h1, Outcome.ok_bind, hps]
      by_cases hij : i = j
      · rw [if_pos hij, if_neg (fun h => h.2.1 hij)]
      · rw [if_neg hij]
        simp only []
        rw [if_pos ⟨hi, hj⟩]
        by_cases hn : t.next i j ≠ -1
        · rw [if_pos hn, if_pos ⟨hmem, hij, hn⟩, hP i j hi hj hij hn]
          rfl
        · rw [if_neg hn, if_neg (fun h => hn h.2.2)]
    obtain ⟨g1, p, g2, d, q1, q2, q3, q4, q5⟩ := C13_paths_real ins (10 ^ 15) hc hb i j hi hj
    obtain ⟨g3, q0⟩ := hsp
    obtain ⟨g4, d', q6, q7⟩ := C12_costs_optimal ins (10 ^ 15) hc hb i j hi hj
    obtain rfl : p = ps i j := by
      have := q0.symm.trans q1
      simp only [Outcome.ok.injEq, Prod.mk.injEq] at this
      exact this.2.symm
    obtain rfl : d = d' := by
      have := q2.symm.trans q6
      simp only [Outcome.ok.injEq, Prod.mk.injEq] at this
      exact this.2
    exact ⟨⟨g3, q0⟩, q3, q4, fun hij hex => ⟨(q5 hij hex).1, (q5 hij hex).2.1, (q5 hij hex).2.2.1, d, (q5 hij hex).2.2.2,
      (q7.2.1 hex).2⟩⟩

example : ((build demoIns).getPaths).map (fun r => (r.2.2 3 2, r.2.2 3 1, r.2.2 0 3, r.2.2 1 1)) =
    .ok ([3, 0, 1, 2], [3, 0, 1], [], []) := by
  decide +kernel

/-- The zero-cost cycle `0 → 1 → 2 → 0` of `demoIns` does not trap the reconstruction. -/
example : ((build demoIns).shortestPath 3 2 (2 ^ 30)).map Prod.snd = .ok [3, 0, 1, 2] := by
  decide +kernel

/-- The bound on the costs is needed: with an edge that costs more than `INF`, the reconstruction
loop runs into a missing successor and indexes with `-1`. -/
theorem C13_cost_above_inf_ub :
    (build [(0, 1, 1), (1, 2, 8), (2, 3, 9), (0, 3, 100), (3, 3, 0)]).shortestPathCost 0 3 10
      = .ub "index out of range" := by
  rfl

/-! ## C14 -/

/-- C14: with non-negative costs and `INF ≤ 2^62` no query on a fresh graph ever performs a signed
overflow — whatever the numbering of the nodes and however large the costs are. -/
theorem C14_no_overflow (ins : List Ins) (inf : Int) (h : ∀ x ∈ ins, 0 ≤ x.2.2) (h0 : 0 ≤ inf)
    (hb : inf ≤ 2 ^ 62) (i j : Nat) :
    (build ins).shortestPathCost i j inf ≠ .ub "signed overflow" ∧
    (build ins).shortestPath i j inf ≠ .ub "signed overflow" := by
  norm_num at hb
  have hens : ∀ g', (build ins).ensure inf = g' → g' ≠ .ub "signed overflow" := by
    rintro g' rfl
    unfold Graph.ensure
    rw [build_cache]
    simp only []
    split
    · rcases computeTables_ub (build_nonneg h) h0 hb with ⟨t, ht⟩ | ht | ht <;> rw [ht] <;> simp
    · simp
  constructor
  · unfold Graph.shortestPathCost
    cases he : (build ins).ensure inf with
    | ok g' =>
      rw [Outcome.ok_bind]
      split
      · simp
      · split <;> simp
    | throw x => simp
    | ub s => have := hens _ he; simpa using this
  · unfold Graph.shortestPath
    cases he : (build ins).ensure inf with
    | ok g' =>
      rw [Outcome.ok_bind]
      split
      · simp
      · split
        · simp
        · rename_i n t _
          split
          · split
            · rcases follow_ub n t.next j n i with ⟨p, hp⟩ | hp | hp <;> rw [hp] <;> simp
            · simp
          · simp
    | throw x => simp
    | ub s => have := hens _ he; simpa using this

example : ∀ x ∈ demoIns, 0 ≤ x.2.2 := by decide

/-- C14: for small costs, `INF` can be the largest `int64_t`: all queries between known nodes are
answered. -/
theorem C14_largest_inf (ins : List Ins) (hc : Contiguous ins)
    (h : ∀ x ∈ ins, 0 ≤ x.2.2 ∧ (nodes ins : Int) * x.2.2 < 2 ^ 62) (i j : Nat) (hi : i < nodes ins)
    (hj : j < nodes ins) :
    ((build ins).shortestPathCost i j (2 ^ 63 - 1)).isOk = true ∧
    ((build ins).shortestPath i j (2 ^ 63 - 1)).isOk = true := by
  have hb : CostsBelow ins (2 ^ 63 - 1) := by
    refine ⟨fun x hx => ⟨(h x hx).1, ?_⟩, .inr ⟨by norm_num, fun x hx => (h x hx).2⟩⟩
    have h1 := h x hx
    have h2 : (1 : Int) ≤ nodes ins := by omega
    have h3 : x.2.2 ≤ (nodes ins : Int) * x.2.2 := by nlinarith
    omega
  obtain ⟨g', p, g'', d, h1, h2, -⟩ := C13_paths_real ins _ hc hb i j hi hj
  rw [h1, h2]
  exact ⟨rfl, rfl⟩

example : Contiguous demoIns ∧ ∀ x ∈ demoIns, 0 ≤ x.2.2 ∧ (nodes demoIns : Int) * x.2.2 < 2 ^ 62 := by
  unfold Contiguous demoIns nodes
  decide +kernel

/-- Also with a missing edge, whose cost is `INF`. -/
example : ((build [(0, 1, 5), (1, 0, 5), (2, 2, 0)]).shortestPathCost 0 2 (2 ^ 63 - 1)).map Prod.snd =
    .ok (2 ^ 63 - 1) := by
  decide +kernel

/-- Beyond the bound the overflow does happen. -/
theorem C14_overflow_beyond_bound :
    (build [(0, 1, 2 ^ 62), (1, 2, 2 ^ 62), (2, 2, 0)]).shortestPathCost 0 2 (2 ^ 63 - 1)
      = .ub "signed overflow" := by
  rfl

/-! ## C15 -/

/-- C15, partial: after any interleaving of insertions and queries (no removals, one `INF`), both
queries answer as if computed from scratch for the edges now in the graph.
Missing: removals and changes of `INF`, for which the claim is false (next two theorems). -/
theorem C15_queries_reflect_graph_partial (inf : Int) (ops : List GOp) (hg : Growing inf ops)
    (g : Graph) (hrun : runHistory ops = .ok g) (i j : Nat) :
    g.shortestPathCost i j inf = (fresh g).shortestPathCost i j inf ∧
    g.shortestPath i j inf = (fresh g).shortestPath i j inf := by
  have h : Coherent inf g := coherent_run ops Graph.empty g hg trivial hrun
  unfold Graph.shortestPathCost Graph.shortestPath
  rw [ensure_coherent h]
  exact ⟨rfl, rfl⟩

example : Growing 1000 [.add 0 1 5, .add 1 0 5, .cost 0 1 1000, .add 0 1 3, .path 1 0 1000] ∧
    ((runHistory [.add 0 1 5, .add 1 0 5, .cost 0 1 1000, .add 0 1 3, .path 1 0 1000]).map
      fun g => g.cache.isSome) = .ok true := by
  refine ⟨?_, by decide +kernel⟩
  intro o ho
  simp only [List.mem_cons, List.not_mem_nil, or_false] at ho
  rcases ho with rfl | rfl | rfl | rfl | rfl <;> simp

/-- C15 is false with removals: the removed edge is still reported. -/
theorem C15_stale_after_removal :
    let ops := [GOp.add 0 1 5, .add 1 0 5, .cost 0 1 1000, .remove 0 1]
    ((runHistory ops) >>= fun g => (g.shortestPathCost 0 1 1000).map Prod.snd) = .ok 5 ∧
    ((runHistory ops) >>= fun g => ((fresh g).shortestPathCost 0 1 1000).map Prod.snd)
      = .ok 1000 ∧
    ((runHistory ops) >>= fun g => (g.shortestPath 0 1 1000).map Prod.snd) = .ok [0, 1] ∧
    ((runHistory ops) >>= fun g => ((fresh g).shortestPath 0 1 1000).map Prod.snd) = .ok [] := by
  decide +kernel

/-- C15 is false when queries use different `INF`: the first one decides. -/
theorem C15_stale_inf :
    let ops := [GOp.add 0 0 0, .add 1 0 1, .cost 0 1 1000]
    ((runHistory ops) >>= fun g => (g.shortestPathCost 0 1 7).map Prod.snd) = .ok 1000 ∧
    ((runHistory ops) >>= fun g => ((fresh g).shortestPathCost 0 1 7).map Prod.snd) = .ok 7 := by
  decide +kernel

/-! ## C16 -/

/-- C16: `allPathsBetween` lists exactly the simple paths, each once. -/
theorem C16_all_simple_paths (ins : List Ins) (hc : Contiguous ins) (a b : Nat)
    (ha : a < nodes ins) :
    ∃ ps, (build ins).allPathsBetween a b = .ok ps ∧ ps.Nodup ∧
      ∀ p, p ∈ ps ↔ SimplePath ins a b p := by
  have hn : (build ins).numNodes = nodes ins := build_length ins
  obtain ⟨ps, h1, h2, h3⟩ := allPathsBetween_spec (g := build ins) (build_keysOk ins)
    (fun i j c h => by rw [hn]; exact (hc _ (edge_mem ((build_cost ..).1 h))).2)
    (i := a) (j := b) (.inr (by omega))
  refine ⟨ps, h1, h2, fun p => ?_⟩
  rw [h3 p]
  have : Adj (build ins).edges = fun i j => ∃ c, Edge ins i j c := by
    funext i j
    apply propext
    exact exists_congr fun c => build_cost ins i j c
  rw [this]
  rfl

example : ((build demoIns).allPathsBetween 3 2) = .ok [[3, 0, 1, 2], [3, 0, 2]] := by
  decide +kernel

/-! ## C66 -/

/-- C66 is false: a directed edge into a node without outgoing edges makes every query undefined,
because the number of nodes is taken to be the number of sources. -/
theorem C66_sink_node_ub (i j : Nat) (c : Int) (inf : Int) :
    (build [(0, 1, c)]).shortestPathCost i j inf = .ub "index out of range" ∧
    (build [(0, 1, c)]).shortestPath i j inf = .ub "index out of range" ∧
    (build [(0, 1, c)]).allPathsBetween 0 1 = .ub "index out of range" := by
  refine ⟨rfl, rfl, rfl⟩

/-- C66, partial: graphs built by undirected insertions over the nodes `0..n-1` answer all queries.
Missing: graphs with sinks or gaps in the numbering. -/
theorem C66_undirected_safe_partial (es : List Ins) (inf : Int) (n : Nat)
    (hn : ∀ x ∈ es, x.1 < n ∧ x.2.1 < n)
    (hall : ∀ i, i < n → ∃ x ∈ es, x.1 = i ∨ x.2.1 = i)
    (hb : (∀ x ∈ es, 0 ≤ x.2.2 ∧ x.2.2 < inf) ∧ inf ≤ 2 ^ 62) (i j : Nat) (hi : i < n) (hj : j < n) :
    let g := es.foldl (fun g x => g.addEdge x.1 x.2.1 x.2.2) Graph.empty
    (g.shortestPathCost i j inf).isOk = true ∧ (g.shortestPath i j inf).isOk = true ∧
    (g.allPathsBetween i j).isOk = true := by
  intro g
  let ins : List Ins := es.flatMap fun x => [x, (x.2.1, x.1, x.2.2)]
  have hg : g = build ins := by
    have : ∀ (l : List Ins) (g : Graph), l.foldl (fun g x => g.addEdge x.1 x.2.1 x.2.2) g =
        (l.flatMap fun x => [x, (x.2.1, x.1, x.2.2)]).foldl
          (fun g x => g.addDirectedEdge x.1 x.2.1 x.2.2) g := by
      intro l
      induction l with
      | nil => intro g; rfl
      | cons x l ih => intro g; simp only [List.foldl_cons, List.flatMap_cons, ih]; rfl
    exact this es _
  have hmem : ∀ y ∈ ins, ∃ x ∈ es, y = x ∨ y = (x.2.1, x.1, x.2.2) := by
    intro y hy
    obtain ⟨x, hx, hy⟩ := List.mem_flatMap.1 hy
    exact ⟨x, hx, by simpa using hy⟩
  have hnodes : nodes ins = n := by
    have h1 := List.nodup_dedup (ins.map fun x => x.1)
    have h3 : List.Perm (ins.map fun x => x.1).dedup (List.range n) := by
      refine (List.perm_ext_iff_of_nodup h1 List.nodup_range).2 fun a => ?_
      rw [List.mem_dedup, List.mem_range]
      constructor
      · intro ha
        obtain ⟨y, hy, rfl⟩ := List.mem_map.1 ha
        obtain ⟨x, hx, rfl | rfl⟩ := hmem y hy
        · exact (hn _ hx).1
        · exact (hn _ hx).2
      · intro ha
        obtain ⟨x, hx, h | h⟩ := hall a ha
        · exact List.mem_map.2 ⟨x, List.mem_flatMap.2 ⟨x, hx, by simp⟩, h⟩
        · exact List.mem_map.2 ⟨(x.2.1, x.1, x.2.2), List.mem_flatMap.2 ⟨x, hx, by simp⟩, h⟩
    simpa [nodes] using h3.length_eq
  have hc : Contiguous ins := by
    intro y hy
    rw [hnodes]
    obtain ⟨x, hx, rfl | rfl⟩ := hmem y hy
    · exact hn _ hx
    · exact (hn _ hx).symm
  have hb' : CostsBelow ins inf := by
    refine ⟨fun y hy => ?_, .inl hb.2⟩
    obtain ⟨x, hx, rfl | rfl⟩ := hmem y hy
    · exact hb.1 y hx
    · exact hb.1 x hx
  rw [hg]
  obtain ⟨g', p, g'', d, h1, h2, -⟩ := C13_paths_real ins inf hc hb' i j (by omega) (by omega)
  obtain ⟨ps, h3, -⟩ := C16_all_simple_paths ins hc i j (by omega)
  rw [h1, h2, h3]
  exact ⟨rfl, rfl, rfl⟩

example : (∀ x ∈ [((0, 1, 5) : Ins), (1, 2, 0)], x.1 < 3 ∧ x.2.1 < 3) ∧
    (∀ i, i < 3 → ∃ x ∈ [((0, 1, 5) : Ins), (1, 2, 0)], x.1 = i ∨ x.2.1 = i) ∧
    (∀ x ∈ [((0, 1, 5) : Ins), (1, 2, 0)], 0 ≤ x.2.2 ∧ x.2.2 < 100) ∧ (100 : Int) ≤ 2 ^ 62 := by
  decide

end F2C.Props
