import Verif.Lemmas.GraphOps
import Mathlib.Data.Set.Card
import Mathlib.Data.Finset.Prod
import Mathlib.Data.List.Dedup

/-!
# Property C122: the edges of a graph are those that were added and not removed
-/

namespace F2C.Props

open GraphL

namespace GraphEdgesSpec

/-- The public functions that change the edges of a graph. -/
inductive Edit
  | addDirected (i j : Nat) (c : Int)
  | add (i j : Nat) (c : Int)
  | removeDirected (i j : Nat)
  | remove (i j : Nat)

/-- Effect of a call. -/
def Edit.exec (g : Graph) : Edit → Graph
  | .addDirected i j c => g.addDirectedEdge i j c
  | .add i j c => g.addEdge i j c
  | .removeDirected i j => g.removeDirectedEdge i j
  | .remove i j => g.removeEdge i j

/-- A graph after some calls. -/
def run (es : List Edit) : Graph := es.foldl Edit.exec Graph.empty

/-- What a call says about the edge from `a` to `b`: nothing, that it has a cost, or that it is not there. -/
def Edit.says (a b : Nat) : Edit → Option (Option Int)
  | .addDirected i j c => if a = i ∧ b = j then some (some c) else none
  | .add i j c => if (a = i ∧ b = j) ∨ (a = j ∧ b = i) then some (some c) else none
  | .removeDirected i j => if a = i ∧ b = j then some none else none
  | .remove i j => if (a = i ∧ b = j) ∨ (a = j ∧ b = i) then some none else none

/-- The cost of the edge from `a` to `b`: the last call that says something about it decides. -/
def edge (es : List Edit) (a b : Nat) : Option Int := (es.reverse.findSome? (Edit.says a b)).getD none

/-- The nodes that edges were added from. -/
def Edit.sources : Edit → List Nat
  | .addDirected i _ _ => [i]
  | .add i j _ => [i, j]
  | .removeDirected _ _ => []
  | .remove _ _ => []

end GraphEdgesSpec

open GraphEdgesSpec

private theorem run_inv (es : List Edit) : KeysOk (run es).edges ∧
    (∀ a b, (run es).edges.cost? a b = edge es a b) ∧
    (∀ x, x ∈ (run es).edges.map Prod.fst ↔ x ∈ es.flatMap Edit.sources) := by
  induction es using List.reverseRecOn with
  | nil => exact ⟨keysOk_nil, fun a b => rfl, by simp [run, Graph.empty]⟩
  | append_singleton es e ih =>
    obtain ⟨h1, h2, h3⟩ := ih
    have hrun : run (es ++ [e]) = e.exec (run es) := by simp [run]
    have hedge : ∀ a b, edge (es ++ [e]) a b = (e.says a b).getD (edge es a b) := by
      intro a b
      unfold edge
      rw [List.reverse_append]
      simp only [List.reverse_cons, List.reverse_nil, List.nil_append, List.singleton_append,
        List.findSome?_cons]
      cases e.says a b <;> rfl
    have hins : ∀ (m : EdgeMap) (i j : Nat) (c : Int) (x : Nat),
        x ∈ (m.insert i j c).map Prod.fst ↔ x ∈ m.map Prod.fst ∨ x = i := by
      intro m i j c x
      rw [keys_insert]
      split
      · rename_i hi
        constructor
        · exact Or.inl
        · rintro (h | rfl)
          · exact h
          · exact hi
      · simp
    have hrem : ∀ (m : EdgeMap) (i j : Nat), (m.remove i j).map Prod.fst = m.map Prod.fst := by
      intro m i j
      unfold EdgeMap.remove
      split
      · rfl
      · rename_i ds hds
        split
        · rfl
        · rw [keys_assocSet, if_pos (List.mem_map.2 ⟨_, GraphL.mem_of_lookup hds, rfl⟩)]
    rw [hrun]
    simp only [hedge, List.flatMap_append, List.flatMap_cons, List.flatMap_nil, List.append_nil,
      List.mem_append]
    cases e with
    | addDirected i j c =>
      refine ⟨h1.insert _ _ _, fun a b => ?_, fun x => ?_⟩
      · show (EdgeMap.insert _ i j c).cost? a b = _
        rw [cost_insert, h2]
        by_cases hx : a = i ∧ b = j <;> simp [Edit.says, hx]
      · show x ∈ (EdgeMap.insert _ i j c).map Prod.fst ↔ _
        rw [hins, h3]
        simp [Edit.sources]
    | add i j c =>
      refine ⟨(h1.insert _ _ _).insert _ _ _, fun a b => ?_, fun x => ?_⟩
      · show (EdgeMap.insert (EdgeMap.insert _ i j c) j i c).cost? a b = _
        rw [cost_insert, cost_insert, h2]
        unfold Edit.says
        by_cases hx : a = i ∧ b = j <;> by_cases hy : a = j ∧ b = i <;> simp [hx, hy]
      · show x ∈ (EdgeMap.insert (EdgeMap.insert _ i j c) j i c).map Prod.fst ↔ _
        rw [hins, hins, h3]
        simp [Edit.sources, or_assoc]
    | removeDirected i j =>
      refine ⟨h1.remove _ _, fun a b => ?_, fun x => ?_⟩
      · show (EdgeMap.remove _ i j).cost? a b = _
        rw [cost_remove, h2]
        by_cases hx : a = i ∧ b = j <;> simp [Edit.says, hx]
      · show x ∈ (EdgeMap.remove _ i j).map Prod.fst ↔ _
        rw [hrem, h3]
        simp [Edit.sources]
    | remove i j =>
      refine ⟨(h1.remove _ _).remove _ _, fun a b => ?_, fun x => ?_⟩
      · show (EdgeMap.remove (EdgeMap.remove _ i j) j i).cost? a b = _
        rw [cost_remove, cost_remove, h2]
        unfold Edit.says
        by_cases hx : a = i ∧ b = j <;> by_cases hy : a = j ∧ b = i <;> simp [hx, hy]
      · show x ∈ (EdgeMap.remove (EdgeMap.remove _ i j) j i).map Prod.fst ↔ _
        rw [hrem, hrem, h3]
        simp [Edit.sources]

/-- C122: the cost of an edge is the one given last, or `INF` if there was none or it was removed after
that. -/
theorem C122_cost (es : List Edit) (a b : Nat) (inf : Int) :
    (run es).getCostFromEdge a b inf = (edge es a b).getD inf := by
  unfold Graph.getCostFromEdge
  rw [(run_inv es).2.1]

/-- C122: the nodes listed from a node are those with an edge from there, each once. -/
theorem C122_from (es : List Edit) (a : Nat) :
    (Graph.getEdgesFrom (run es).edges a).Nodup ∧
    ∀ b, b ∈ Graph.getEdgesFrom (run es).edges a ↔ edge es a b ≠ none := by
  obtain ⟨h1, h2, -⟩ := run_inv es
  refine ⟨nodup_getEdgesFrom h1 a, fun b => ?_⟩
  rw [mem_getEdgesFrom, h2]
  cases edge es a b <;> simp

/-- C122: the number of nodes is the number of different nodes that edges were added from; removing edges
removes no node, and a node that edges only lead to is not counted. -/
theorem C122_nodes (es : List Edit) :
    (run es).numNodes = (es.flatMap Edit.sources).dedup.length := by
  obtain ⟨h1, -, h3⟩ := run_inv es
  unfold Graph.numNodes
  rw [← List.length_map (f := Prod.fst)]
  refine (List.Perm.length_eq ((List.perm_ext_iff_of_nodup h1.keys (List.nodup_dedup _)).2 fun x => ?_))
  rw [h3, List.mem_dedup]

/-! ### The number of edges -/

private theorem size_int (s : Nat) : Graph.sizeOfInt (Graph.intOfSize s) % 2 ^ 32 = s % 2 ^ 32 := by
  unfold Graph.sizeOfInt Graph.intOfSize
  split <;> omega

private theorem fold_eq : ∀ (l : EdgeMap) (s : Nat),
    l.foldl (fun sum e => Graph.intOfSize ((Graph.sizeOfInt sum + e.2.length) % 2 ^ 64)) (Graph.intOfSize s) =
      Graph.intOfSize (s + (l.map fun e => e.2.length).sum)
  | [], s => by simp
  | e :: l, s => by
    have h : Graph.intOfSize ((Graph.sizeOfInt (Graph.intOfSize s) + e.2.length) % 2 ^ 64) =
        Graph.intOfSize (s + e.2.length) := by
      have := size_int s
      have h2 : (Graph.sizeOfInt (Graph.intOfSize s) + e.2.length) % 2 ^ 64 % 2 ^ 32 =
          (s + e.2.length) % 2 ^ 32 := by omega
      unfold Graph.intOfSize at *
      rw [h2]
    rw [List.foldl_cons, h, fold_eq l]
    simp [Nat.add_assoc]

private theorem numEdges_eq (g : Graph) :
    g.numEdges = Graph.sizeOfInt (Graph.intOfSize (g.edges.map fun e => e.2.length).sum) := by
  unfold Graph.numEdges
  have := fold_eq g.edges 0
  rw [show Graph.intOfSize 0 = 0 from rfl] at this
  rw [this, Nat.zero_add]

/-- All edges of a map, as pairs of nodes. -/
private def pairs (e : EdgeMap) : List (Nat × Nat) := e.flatMap fun x => x.2.map fun d => (x.1, d.1)

private theorem pairs_length (e : EdgeMap) : (pairs e).length = (e.map fun x => x.2.length).sum := by
  unfold pairs
  rw [List.length_flatMap]
  simp

private theorem pairs_nodup {e : EdgeMap} (h : KeysOk e) : (pairs e).Nodup := by
  unfold pairs
  rw [List.nodup_flatMap]
  refine ⟨fun x hx => ?_, ?_⟩
  · have := h.dkeys x hx
    rw [show (x.2.map fun d => (x.1, d.1)) = (x.2.map Prod.fst).map fun k => (x.1, k) by simp]
    exact this.map fun _ _ he => (Prod.mk.inj he).2
  · have := h.keys
    rw [List.Nodup, List.pairwise_map] at this
    refine this.imp fun {x y} hne => ?_
    intro p hp hq
    obtain ⟨d, -, rfl⟩ := List.mem_map.1 hp
    obtain ⟨d', -, he⟩ := List.mem_map.1 hq
    exact hne (Prod.mk.inj he).1.symm

private theorem mem_pairs {e : EdgeMap} (h : KeysOk e) (p : Nat × Nat) :
    p ∈ pairs e ↔ e.cost? p.1 p.2 ≠ none := by
  have : e.cost? p.1 p.2 ≠ none ↔ ∃ c, e.cost? p.1 p.2 = some c := by
    cases e.cost? p.1 p.2 <;> simp
  rw [this, ← mem_getEdgesFrom]
  unfold pairs Graph.getEdgesFrom
  rw [List.mem_flatMap]
  constructor
  · rintro ⟨x, hx, hp⟩
    obtain ⟨d, hd, rfl⟩ := List.mem_map.1 hp
    rw [GraphL.lookup_of_mem h.keys (show (x.1, x.2) ∈ e from hx)]
    exact List.mem_map.2 ⟨d, hd, rfl⟩
  · cases hl : e.lookup p.1 with
    | none => simp
    | some ds =>
      intro hp
      obtain ⟨d, hd, he⟩ := List.mem_map.1 hp
      exact ⟨(p.1, ds), GraphL.mem_of_lookup hl, List.mem_map.2 ⟨d, hd, by rw [he]⟩⟩

private theorem sum_eq (es : List Edit) :
    ((run es).edges.map fun e => e.2.length).sum = Set.ncard {p : Nat × Nat | edge es p.1 p.2 ≠ none} := by
  obtain ⟨h1, h2, -⟩ := run_inv es
  rw [← pairs_length, ← List.toFinset_card_of_nodup (pairs_nodup h1), ← Set.ncard_coe_finset]
  congr 1
  ext p
  rw [List.coe_toFinset]
  show p ∈ pairs _ ↔ edge es p.1 p.2 ≠ none
  rw [mem_pairs h1, h2]

/-- C122 (part): the number of edges is the number of pairs of nodes with an edge from the first to the
second (an edge in both directions counts twice), if that is less than `2^31`.  Missing: larger graphs,
for which it is false, see below. -/
theorem C122_count_partial (es : List Edit)
    (h : Set.ncard {p : Nat × Nat | edge es p.1 p.2 ≠ none} < 2 ^ 31) :
    (run es).numEdges = Set.ncard {p : Nat × Nat | edge es p.1 p.2 ≠ none} := by
  rw [numEdges_eq, sum_eq]
  generalize Set.ncard {p : Nat × Nat | edge es p.1 p.2 ≠ none} = N at *
  unfold Graph.sizeOfInt Graph.intOfSize
  split <;> omega

/-- The demo: an edge in both directions, a directed one whose cost changes, one that is removed. -/
def edgesDemo : List Edit := [.add 0 1 5, .addDirected 1 2 7, .addDirected 2 0 1, .addDirected 1 2 8,
  .removeDirected 2 0]

example : (run edgesDemo).numEdges = 3 ∧ (run edgesDemo).numNodes = 3 ∧
    Graph.getEdgesFrom (run edgesDemo).edges 1 = [0, 2] ∧ (run edgesDemo).getCostFromEdge 1 2 99 = 8 ∧
    (run edgesDemo).getCostFromEdge 2 0 99 = 99 := by decide +kernel

/-- C122 is false of large graphs: with all edges between 46341 nodes, the number of edges is reported as a
number near `2^64`. -/
theorem C122_count_wraps : ∃ es : List Edit,
    Set.ncard {p : Nat × Nat | edge es p.1 p.2 ≠ none} = 46341 * 46341 ∧
    (run es).numEdges = 2 ^ 64 - 2 ^ 32 + 46341 * 46341 := by
  have key : ∀ n : Nat, ∃ es : List Edit,
      Set.ncard {p : Nat × Nat | edge es p.1 p.2 ≠ none} = n * n := by
    intro n
    refine ⟨(List.range n ×ˢ List.range n).map fun p => .addDirected p.1 p.2 0, ?_⟩
    have hset : {p : Nat × Nat | edge ((List.range n ×ˢ List.range n).map fun p => .addDirected p.1 p.2 0)
        p.1 p.2 ≠ none} = ((Finset.range n ×ˢ Finset.range n : Finset (Nat × Nat)) : Set (Nat × Nat)) := by
      ext p
      simp only [Set.mem_ofPred_eq, Finset.coe_product, Set.mem_prod, Finset.mem_coe, Finset.mem_range]
      unfold edge
      constructor
      · intro h
        cases hf : (((List.range n ×ˢ List.range n).map fun p => Edit.addDirected p.1 p.2 0).reverse.findSome?
            (Edit.says p.1 p.2)) with
        | none => rw [hf] at h; exact absurd rfl h
        | some v =>
          obtain ⟨e, he, hs⟩ := List.exists_of_findSome?_eq_some hf
          rw [List.mem_reverse, List.mem_map] at he
          obtain ⟨q, hq, rfl⟩ := he
          rw [show Edit.says p.1 p.2 (.addDirected q.1 q.2 0) =
            if p.1 = q.1 ∧ p.2 = q.2 then some (some 0) else none from rfl] at hs
          split at hs
          · rename_i hpq
            rw [List.mem_product, List.mem_range, List.mem_range] at hq
            rw [hpq.1, hpq.2]
            exact hq
          · cases hs
      · intro h
        have hm : Edit.addDirected p.1 p.2 0 ∈
            ((List.range n ×ˢ List.range n).map fun p => Edit.addDirected p.1 p.2 0).reverse := by
          rw [List.mem_reverse, List.mem_map]
          exact ⟨p, List.mem_product.2 ⟨List.mem_range.2 h.1, List.mem_range.2 h.2⟩, rfl⟩
        cases hf : (((List.range n ×ˢ List.range n).map fun p => Edit.addDirected p.1 p.2 0).reverse.findSome?
            (Edit.says p.1 p.2)) with
        | none =>
          have := List.findSome?_eq_none_iff.1 hf _ hm
          simp [Edit.says] at this
        | some v =>
          obtain ⟨e, he, hs⟩ := List.exists_of_findSome?_eq_some hf
          rw [List.mem_reverse, List.mem_map] at he
          obtain ⟨q, -, rfl⟩ := he
          rw [show Edit.says p.1 p.2 (.addDirected q.1 q.2 0) =
            if p.1 = q.1 ∧ p.2 = q.2 then some (some 0) else none from rfl] at hs
          split at hs
          · cases hs
            simp
          · cases hs
    rw [hset, Set.ncard_coe_finset, Finset.card_product, Finset.card_range]
  obtain ⟨es, h⟩ := key 46341
  refine ⟨es, h, ?_⟩
  rw [numEdges_eq, sum_eq, h]
  decide +kernel

end F2C.Props
