import Verif.Lemmas.GraphOps
import Verif.Props.GraphSpec
import Mathlib.Data.List.Induction

/-!
# Graphs built by insertions
-/

set_option linter.unusedSimpArgs false
set_option linter.unusedVariables false

namespace F2C.GraphL

open Outcome GraphSpec

theorem build_append (ins : List Ins) (x : Ins) :
    build (ins ++ [x]) = (build ins).addDirectedEdge x.1 x.2.1 x.2.2 := by
  simp [build, List.foldl_append]

theorem build_cache (ins : List Ins) : (build ins).cache = none := by
  induction ins using List.reverseRecOn with
  | nil => rfl
  | append_singleton l x ih => rw [build_append]; rfl

theorem build_keysOk (ins : List Ins) : KeysOk (build ins).edges := by
  induction ins using List.reverseRecOn with
  | nil => exact keysOk_nil
  | append_singleton l x ih => rw [build_append]; exact ih.insert _ _ _

theorem mem_build_keys (ins : List Ins) : ∀ (i : Nat),
    i ∈ (build ins).edges.map Prod.fst ↔ i ∈ ins.map fun x => x.1 := by
  induction ins using List.reverseRecOn with
  | nil => intro i; simp [build, Graph.empty]
  | append_singleton l x ih =>
    intro i
    rw [build_append]
    change i ∈ (((build l).edges.insert _ _ _).map Prod.fst) ↔ _
    rw [keys_insert, List.map_append, List.mem_append, ← ih i]
    split
    · rename_i h
      simp only [List.map_cons, List.map_nil, List.mem_singleton]
      constructor
      · exact Or.inl
      · rintro (h' | rfl) <;> assumption
    · simp only [List.mem_append, List.map_cons, List.map_nil, List.mem_singleton]

theorem build_length (ins : List Ins) : (build ins).edges.length = nodes ins := by
  have h1 := (build_keysOk ins).keys
  have h2 := List.nodup_dedup (ins.map fun x => x.1)
  have h3 : List.Perm ((build ins).edges.map Prod.fst) (ins.map fun x => x.1).dedup :=
    (List.perm_ext_iff_of_nodup h1 h2).2 fun a => by rw [mem_build_keys, List.mem_dedup]
  have := h3.length_eq
  simpa [nodes] using this

theorem build_cost (ins : List Ins) : ∀ i j c,
    (build ins).edges.cost? i j = some c ↔ Edge ins i j c := by
  induction ins using List.reverseRecOn with
  | nil => intro i j c; simp [build, Graph.empty, Edge, EdgeMap.cost?]
  | append_singleton l x ih =>
    intro i j c
    rw [build_append]
    change ((build l).edges.insert _ _ _).cost? i j = some c ↔ _
    obtain ⟨a, b, d⟩ := x
    rw [cost_insert]
    unfold Edge
    rw [List.reverse_append, List.reverse_singleton, List.singleton_append, List.find?_cons]
    by_cases h : i = a ∧ j = b
    · obtain ⟨rfl, rfl⟩ := h
      simp
    · rw [if_neg h, ih]
      have : (a == i && b == j) = false := by
        simp only [Bool.and_eq_false_iff, beq_eq_false_iff_ne]
        by_contra hc
        push Not at hc
        exact h ⟨hc.1.symm, hc.2.symm⟩
      simp only [this]
      rfl

theorem edge_mem {ins : List Ins} {i j c} (h : Edge ins i j c) : (i, j, c) ∈ ins := by
  have := List.mem_of_find?_eq_some h
  simpa using this

theorem build_wf {ins : List Ins} {inf : Int} (hc : Contiguous ins) (hb : CostsBelow ins inf)
    (hpos : 0 < inf) : WF (build ins).edges inf where
  keys := (build_keysOk ins).keys
  dkeys := (build_keysOk ins).dkeys
  src s hs := by
    rw [mem_build_keys] at hs
    obtain ⟨x, hx, rfl⟩ := List.mem_map.1 hs
    rw [build_length]
    exact (hc x hx).1
  dst i j c h := by
    rw [build_length]
    exact (hc _ (edge_mem ((build_cost ins i j c).1 h))).2
  cost i j c h := hb.1 _ (edge_mem ((build_cost ins i j c).1 h))
  pos := hpos
  bound := by
    rcases hb.2 with h | ⟨-, h⟩
    · norm_num at h
      exact .inl h
    · refine .inr fun i j c hcost => ?_
      have := h _ (edge_mem ((build_cost ins i j c).1 hcost))
      rw [build_length]
      norm_num at this
      exact Int.le_of_lt_add_one this

theorem pos_of_lt_nodes {ins : List Ins} {inf : Int} (hb : CostsBelow ins inf) {i}
    (hi : i < nodes ins) : 0 < inf := by
  cases ins with
  | nil => simp [nodes] at hi
  | cons x l => have := hb.1 x (by simp); omega

theorem walk_of_walkB {ins : List Ins} {m i j t} (h : WalkB (build ins).edges m i j t) :
    Walk ins i j t := by
  induction h with
  | nil i => exact .nil i
  | edge h => simpa using Walk.cons ((build_cost ..).1 h) (.nil _)
  | step h _ _ ih => exact .cons ((build_cost ..).1 h) ih

theorem walkB_of_walk {ins : List Ins} (hc : Contiguous ins) {i j t} (h : Walk ins i j t) :
    WalkB (build ins).edges (nodes ins) i j t := by
  induction h with
  | nil i => exact .nil i
  | cons h _ ih => exact .step ((build_cost ..).2 h) (hc _ (edge_mem h)).2 ih

theorem Walk.last_lt {ins : List Ins} (hc : Contiguous ins) {i j t} (h : Walk ins i j t)
    (hi : i < nodes ins) : j < nodes ins := by
  induction h with
  | nil i => exact hi
  | cons h _ ih => exact ih (hc _ (edge_mem h)).2

theorem pathCost_of_fol {ins : List Ins} {m next j i p t}
    (h : Fol (build ins).edges m next j i p t) : PathCost ins p t := by
  induction h with
  | here => exact .single _
  | @step i l c p t _ _ hc _ hf ih =>
    have := hf.head
    cases p with
    | nil => simp at this
    | cons a q =>
      simp only [List.head?_cons, Option.some.injEq] at this
      subst this
      exact .cons ((build_cost ..).1 hc) ih

theorem ensure_build {ins : List Ins} {inf : Int} (hc : Contiguous ins) (hb : CostsBelow ins inf)
    {i} (hi : i < nodes ins) : ∃ t,
      (build ins).ensure inf = .ok ⟨(build ins).edges, some (nodes ins, t)⟩ ∧
      Inv (build ins).edges inf (nodes ins) t := by
  obtain ⟨t, h1, h2⟩ := computeTables_spec (build_wf hc hb (pos_of_lt_nodes hb hi))
  rw [build_length] at h2
  refine ⟨t, ?_, h2⟩
  unfold Graph.ensure
  have hn : (build ins).numNodes = nodes ins := build_length ins
  rw [build_cache]
  simp only []
  rw [if_pos (by omega), h1, hn]
  rfl

end F2C.GraphL

namespace F2C.GraphL

open Outcome GraphSpec

/-! ### No overflow -/

/-- All entries are non-negative. -/
def NonNeg (t : Tables) : Prop := ∀ i j, 0 ≤ t.dist i j

theorem nonneg_set {m : Mat} (h : ∀ i j, 0 ≤ m i j) {i j v} (hv : 0 ≤ v) :
    ∀ a b, 0 ≤ (m.set i j v) a b := by
  intro a b
  unfold Mat.set
  split
  · exact hv
  · exact h a b

theorem initDests_nonneg {n s} : ∀ (ds : List (Nat × Int)) (t : Tables),
    (∀ p ∈ ds, 0 ≤ p.2) → NonNeg t →
    (initDests n s ds t = .ub "index out of range") ∨ ∃ t', initDests n s ds t = .ok t' ∧ NonNeg t'
  | [], t, _, h => .inr ⟨t, rfl, h⟩
  | (d, c) :: ds, t, hc, h => by
    unfold initDests
    split
    · exact initDests_nonneg ds _ (fun p hp => hc p (by simp [hp]))
        (nonneg_set h (hc (d, c) (by simp)))
    · exact .inl rfl

theorem initEdges_nonneg {n} : ∀ (es : EdgeMap) (t : Tables),
    (∀ q ∈ es, ∀ p ∈ q.2, 0 ≤ p.2) → NonNeg t →
    (initEdges n es t = .ub "index out of range") ∨ ∃ t', initEdges n es t = .ok t' ∧ NonNeg t'
  | [], t, _, h => .inr ⟨t, rfl, h⟩
  | (s, ds) :: es, t, hc, h => by
    unfold initEdges
    rcases initDests_nonneg (n := n) (s := s) ds t (hc (s, ds) (by simp)) h with h1 | ⟨t', h1, h2⟩
    · left; rw [h1]; rfl
    · rw [h1, Outcome.ok_bind]
      split
      · exact initEdges_nonneg es _ (fun q hq => hc q (by simp [hq])) (nonneg_set h2 (le_refl 0))
      · exact .inl rfl

theorem relax_nonneg {inf : Int} (hb : inf ≤ 4611686018427387904) (k : Nat) (t : Tables)
    (ij : Nat × Nat) (h : NonNeg t) : ∃ t', relax inf k t ij = .ok t' ∧ NonNeg t' := by
  unfold relax
  split
  · rename_i hc
    have h1 := h ij.1 k
    have h2 := h k ij.2
    have ha : addI64 (t.dist ij.1 k) (t.dist k ij.2) = .ok (t.dist ij.1 k + t.dist k ij.2) := by
      unfold addI64; rw [if_pos]; constructor <;> omega
    rw [ha, Outcome.ok_bind]
    split
    · exact ⟨_, rfl, nonneg_set h (by omega)⟩
    · exact ⟨_, rfl, h⟩
  · exact ⟨_, rfl, h⟩

theorem fold_nonneg {α : Type} {f : Tables → α → Outcome Tables}
    (hf : ∀ t a, NonNeg t → ∃ t', f t a = .ok t' ∧ NonNeg t') :
    ∀ (l : List α) (t : Tables), NonNeg t → ∃ t', foldOutcome f t l = .ok t' ∧ NonNeg t'
  | [], t, h => ⟨t, rfl, h⟩
  | a :: l, t, h => by
    obtain ⟨t1, h1, h2⟩ := hf t a h
    unfold foldOutcome
    rw [h1, Outcome.ok_bind]
    exact fold_nonneg hf l t1 h2

theorem fw_nonneg {inf : Int} (hb : inf ≤ 4611686018427387904) (n : Nat) (t : Tables)
    (h : NonNeg t) : ∃ t', floydWarshall n inf t = .ok t' ∧ NonNeg t' :=
  fold_nonneg (fun t k ht => fold_nonneg (fun t ij h => relax_nonneg hb k t ij h) _ t ht) _ t h

theorem follow_ub (n : Nat) (next : Mat) (j : Nat) : ∀ fuel i,
    (∃ p, follow n next j fuel i = .ok p) ∨ follow n next j fuel i = .ub "endless loop" ∨
    follow n next j fuel i = .ub "index out of range" := by
  intro fuel
  induction fuel with
  | zero => intro i; unfold follow; split <;> simp
  | succ fuel ih =>
    intro i
    unfold follow
    split
    · simp
    · split
      · simp only []
        split
        · simp
        · rcases ih (next i j).toNat with ⟨p, h⟩ | h | h <;> rw [h] <;> simp
      · simp

theorem checkPair_ub (n : Nat) (inf : Int) (t : Tables) (ij : Nat × Nat) :
    (∃ t', checkPair n inf t ij = .ok t') ∨ checkPair n inf t ij = .ub "endless loop" ∨
    checkPair n inf t ij = .ub "index out of range" := by
  unfold checkPair
  split
  · rcases follow_ub n t.next ij.2 n ij.1 with ⟨p, h⟩ | h | h <;> rw [h] <;> simp
  · split <;> simp

theorem checkLoop_ub (n : Nat) (inf : Int) : ∀ (l : List (Nat × Nat)) (t : Tables),
    (∃ t', foldOutcome (checkPair n inf) t l = .ok t') ∨
    foldOutcome (checkPair n inf) t l = .ub "endless loop" ∨
    foldOutcome (checkPair n inf) t l = .ub "index out of range"
  | [], t => .inl ⟨t, rfl⟩
  | a :: l, t => by
    unfold foldOutcome
    rcases checkPair_ub n inf t a with ⟨t', h⟩ | h | h
    · rw [h, Outcome.ok_bind]; exact checkLoop_ub n inf l t'
    · rw [h]; simp
    · rw [h]; simp

theorem computeTables_ub {e : EdgeMap} {inf : Int} (hc : ∀ q ∈ e, ∀ p ∈ q.2, 0 ≤ p.2)
    (h0 : 0 ≤ inf) (hb : inf ≤ 4611686018427387904) :
    (∃ t, computeTables e inf = .ok t) ∨ computeTables e inf = .ub "endless loop" ∨
    computeTables e inf = .ub "index out of range" := by
  unfold computeTables
  simp only []
  rcases initEdges_nonneg (n := e.length) e ⟨fun _ _ => inf, fun _ _ => -1⟩ hc (fun _ _ => h0)
    with h | ⟨t, h, hn⟩
  · rw [h]; simp
  · rw [h, Outcome.ok_bind]
    obtain ⟨t', h', -⟩ := fw_nonneg hb e.length t hn
    rw [h', Outcome.ok_bind]
    exact checkLoop_ub _ _ _ _

theorem build_nonneg {ins : List Ins} (h : ∀ x ∈ ins, 0 ≤ x.2.2) :
    ∀ q ∈ (build ins).edges, ∀ p ∈ q.2, 0 ≤ p.2 := by
  rintro ⟨i, ds⟩ hq ⟨j, c⟩ hp
  have hk := build_keysOk ins
  have h1 := lookup_of_mem hk.keys hq
  have h2 := lookup_of_mem (hk.dkeys _ hq) hp
  have : (build ins).edges.cost? i j = some c := by
    unfold EdgeMap.cost?; rw [h1]; exact h2
  exact h _ (edge_mem ((build_cost ..).1 this))

/-! ### Optimality and coherence of the caches -/

theorem cheapest_of_inv {ins : List Ins} {inf : Int} {t : Tables} (hc : Contiguous ins)
    (hpos : 0 < inf)
    (h : Inv (build ins).edges inf (nodes ins) t) {i j : Nat} (hi : i < nodes ins)
    (hj : j < nodes ins) : IsCheapest ins inf i j (t.dist i j) := by
  have hl := build_length ins
  have hi' : i < (build ins).edges.length := by omega
  have hj' : j < (build ins).edges.length := by omega
  have hmin : ∀ s, Walk ins i j s → t.dist i j ≤ s := fun s hs =>
    h.complete i j s hi' hj' (walkB_of_walk hc hs)
  have hw : t.dist i j < inf → Walk ins i j (t.dist i j) := by
    intro hlt
    by_cases hij : i = j
    · subst hij; rw [h.diag i hi']; exact .nil i
    · obtain ⟨p, hp⟩ := h.fol i j hi' hj' hij hlt
      exact walk_of_walkB hp.walk
  refine ⟨?_, ?_, ?_⟩
  · rintro rfl; exact h.diag i hi'
  · rintro ⟨s, hs, hlt⟩
    exact ⟨hw (by have := hmin s hs; omega), hmin⟩
  · intro hno
    have hle := h.le i j hi' hj'
    by_contra hne
    have := hno _ (hw (by omega))
    omega

/-- The cache, if any, is what would be computed now. -/
def Coherent (inf : Int) (g : Graph) : Prop :=
  match g.cache with
  | none => True
  | some (n, t) => n = g.numNodes ∧ 0 < n ∧ computeTables g.edges inf = .ok t

theorem ensure_coherent {inf : Int} {g : Graph} (h : Coherent inf g) :
    g.ensure inf = (fresh g).ensure inf := by
  unfold Coherent at h
  unfold Graph.ensure fresh
  obtain ⟨e, c⟩ := g
  cases c with
  | none => rfl
  | some nt =>
    obtain ⟨n, t⟩ := nt
    obtain ⟨h0, h1, h2⟩ := h
    change n = e.length at h0
    subst h0
    simp only [] at h2 ⊢
    rw [h2]
    exact (if_pos (c := e.length > 0) h1).symm

theorem coherent_ensure {inf : Int} {g g' : Graph} (h : Coherent inf g)
    (he : g.ensure inf = .ok g') : Coherent inf g' ∧ g'.edges = g.edges := by
  unfold Graph.ensure at he
  split at he
  · injection he with he; subst he; exact ⟨h, rfl⟩
  · split at he
    · rename_i hn
      cases ht : computeTables g.edges inf with
      | ok t =>
        rw [ht] at he
        simp only [Outcome.ok_bind, Outcome.pure_eq] at he
        injection he with he
        subst he
        exact ⟨⟨rfl, hn, ht⟩, rfl⟩
      | throw x => rw [ht] at he; simp at he
      | ub s => rw [ht] at he; simp at he
    · injection he with he; subst he; exact ⟨h, rfl⟩

theorem coherent_exec {inf : Int} {g g' : Graph} (h : Coherent inf g) (o : GOp)
    (ho : Growing inf [o]) (he : o.exec g = .ok g') : Coherent inf g' := by
  have ho := ho o (by simp)
  cases o with
  | add i j c => simp only [GOp.exec] at he; injection he with he; subst he; trivial
  | remove i j => exact absurd ho (by simp)
  | cost i j f =>
    simp only at ho
    subst ho
    simp only [GOp.exec, Graph.shortestPathCost] at he
    cases hs : g.ensure f with
    | ok g1 =>
      have := (coherent_ensure h hs).1
      rw [hs, Outcome.ok_bind] at he
      cases hcch : g1.cache with
      | none => rw [hcch] at he; simp [Outcome.map] at he
      | some nt =>
        obtain ⟨n, t⟩ := nt
        rw [hcch] at he
        simp only [] at he
        split at he
        · simp only [Outcome.map] at he; injection he with he; subst he; exact this
        · simp [Outcome.map] at he
    | throw x => rw [hs] at he; simp [Outcome.map] at he
    | ub s => rw [hs] at he; simp [Outcome.map] at he
  | path i j f =>
    simp only at ho
    subst ho
    simp only [GOp.exec, Graph.shortestPath] at he
    cases hs : g.ensure f with
    | ok g1 =>
      have := (coherent_ensure h hs).1
      rw [hs, Outcome.ok_bind] at he
      split at he
      · simp only [Outcome.map] at he; injection he with he; subst he; exact this
      · cases hcch : g1.cache with
        | none => rw [hcch] at he; simp [Outcome.map] at he
        | some nt =>
          obtain ⟨n, t⟩ := nt
          rw [hcch] at he
          simp only [] at he
          split at he
          · split at he
            · cases hf : follow n t.next j n i with
              | ok p =>
                rw [hf] at he
                simp only [Outcome.ok_bind, Outcome.pure_eq, Outcome.map] at he
                injection he with he; subst he; exact this
              | throw x => rw [hf] at he; simp [Outcome.map] at he
              | ub s => rw [hf] at he; simp [Outcome.map] at he
            · simp only [Outcome.map] at he; injection he with he; subst he; exact this
          · simp [Outcome.map] at he
    | throw x => rw [hs] at he; simp [Outcome.map] at he
    | ub s => rw [hs] at he; simp [Outcome.map] at he

theorem coherent_run {inf : Int} : ∀ (ops : List GOp) (g g' : Graph), Growing inf ops →
    Coherent inf g → foldOutcome GOp.exec g ops = .ok g' → Coherent inf g'
  | [], g, g', _, h, he => by
    unfold foldOutcome at he; injection he with he; subst he; exact h
  | o :: ops, g, g', hg, h, he => by
    unfold foldOutcome at he
    cases h1 : o.exec g with
    | ok g1 =>
      rw [h1, Outcome.ok_bind] at he
      exact coherent_run ops g1 g' (fun x hx => hg x (by simp [hx]))
        (coherent_exec h o (fun x hx => hg x (by simp at hx; simp [hx])) h1) he
    | throw x => rw [h1] at he; simp at he
    | ub s => rw [h1] at he; simp at he

end F2C.GraphL
