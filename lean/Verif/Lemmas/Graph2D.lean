import Verif.Props.Graph2DSpec
import Verif.Lemmas.GraphBuild
import Mathlib.Tactic.Linarith
import Mathlib.Tactic.NormNum
import Mathlib.Tactic.SplitIfs

/-!
# Lemmas about graphs on points
-/

set_option linter.unusedSimpArgs false
set_option linter.unusedVariables false
set_option linter.unusedSectionVars false

namespace F2C.Graph2DL

open Outcome Graph2DSpec GraphL

variable {K : Type} [Field K] [LinearOrder K]

/-- Append if absent. -/
def ext (N : List (Point K)) (p : Point K) : List (Point K) := if p ∈ N then N else N ++ [p]

theorem nodes_concat (es : List (PEdit K)) (e : PEdit K) :
    nodes (es ++ [e]) = e.points.foldl ext (nodes es) := by
  unfold nodes firsts
  rw [List.flatMap_append, List.foldl_append]
  simp only [List.flatMap_cons, List.flatMap_nil, List.append_nil]
  rfl

theorem mem_ext {N : List (Point K)} {p q : Point K} : q ∈ ext N p ↔ q ∈ N ∨ q = p := by
  unfold ext
  split
  · rename_i h
    constructor
    · exact Or.inl
    · rintro (h' | rfl) <;> assumption
  · simp

theorem nodup_ext {N : List (Point K)} (h : N.Nodup) (p : Point K) : (ext N p).Nodup := by
  unfold ext
  split
  · exact h
  · rename_i hp
    rw [List.nodup_append]
    refine ⟨h, by simp, ?_⟩
    intro a ha b hb
    simp only [List.mem_singleton] at hb
    subst hb
    rintro rfl
    exact hp ha

theorem getElem?_ext {N : List (Point K)} {p : Point K} {i : Nat} {q : Point K} (h : N[i]? = some q) :
    (ext N p)[i]? = some q := by
  unfold ext
  split
  · exact h
  · rw [List.getElem?_append_left (List.getElem?_eq_some_iff.1 h).1]; exact h

theorem ext_index (N : List (Point K)) (p : Point K) : ∃ i : Nat, (ext N p)[i]? = some p := by
  have : p ∈ ext N p := mem_ext.2 (Or.inr rfl)
  exact List.mem_iff_getElem?.1 this

theorem length_ext_le (N : List (Point K)) (p : Point K) : N.length ≤ (ext N p).length := by
  unfold ext; split <;> simp

theorem index_unique {N : List (Point K)} (h : N.Nodup) {i j : Nat} {p : Point K}
    (hi : N[i]? = some p) (hj : N[j]? = some p) : i = j := by
  have hl := (List.getElem?_eq_some_iff.1 hi).1
  exact (List.getElem?_inj hl h).1 (hi.trans hj.symm)

section table
variable [IsStrictOrderedRing K]

theorem eqv_refl (p : Point K) : p.eqv p = true := by
  have : (0 : K) < Point.tol := by unfold Point.tol; norm_num
  simp [Point.eqv, this]

theorem find_table {T : PointTable K} (hT : T.IsLawful) {N : List (Point K)} {p : Point K}
    (hsep : Separated (p :: N)) : (p ∉ N → T.find N.zipIdx p = none) ∧
    (p ∈ N → ∃ i : Nat, T.find N.zipIdx p = some i ∧ N[i]? = some p) := by
  have hs : ∀ i, T.find N.zipIdx p = some i → N[i]? = some p := by
    intro i hi
    obtain ⟨q, hq, he⟩ := hT.sound _ _ _ hi
    have hq' := List.mem_zipIdx_iff_getElem?.1 hq
    simp only at hq'
    have hqN : q ∈ N := List.mem_of_getElem? hq'
    have := hsep q (by simp [hqN]) p (by simp) he
    rw [this] at hq'
    exact hq'
  constructor
  · intro hp
    cases hf : T.find N.zipIdx p with
    | none => rfl
    | some i => exact absurd (List.mem_of_getElem? (hs i hf)) hp
  · intro hp
    obtain ⟨j, hj⟩ := List.mem_iff_getElem?.1 hp
    have := hT.complete N.zipIdx p p j (List.mem_zipIdx_iff_getElem?.2 hj) (eqv_refl p) rfl
    obtain ⟨i, hi⟩ := Option.isSome_iff_exists.1 this
    exact ⟨i, hi, hs i hi⟩

theorem insertNode_eq {T : PointTable K} (hT : T.IsLawful) {N : List (Point K)} {p : Point K}
    (hsep : Separated (p :: N)) (hh : (T.hash p).isOk = true) :
    ∃ i : Nat, Graph2D.insertNode T N.zipIdx p = .ok ((ext N p).zipIdx, i) ∧
      (ext N p)[i]? = some p := by
  unfold Graph2D.insertNode
  cases hx : T.hash p with
  | ok v =>
    rw [Outcome.ok_bind]
    obtain ⟨h1, h2⟩ := find_table hT hsep
    by_cases hp : p ∈ N
    · obtain ⟨i, hi, hi'⟩ := h2 hp
      refine ⟨i, ?_, getElem?_ext hi'⟩
      rw [hi]
      simp [ext, hp]
    · refine ⟨N.length, ?_, ?_⟩
      · rw [h1 hp]
        simp [ext, hp, List.zipIdx_append]
      · simp [ext, hp]
  | throw e => rw [hx] at hh; exact absurd hh (by simp [Outcome.isOk])
  | ub e => rw [hx] at hh; exact absurd hh (by simp [Outcome.isOk])

end table

theorem keys_remove (e : EdgeMap) (i j : Nat) :
    (e.remove i j).map Prod.fst = e.map Prod.fst := by
  unfold EdgeMap.remove
  split
  · rfl
  · rename_i ds hds
    split
    · rfl
    · rw [keys_assocSet, if_pos (List.mem_map.2 ⟨_, mem_of_lookup hds, rfl⟩)]

/-- Abstraction: the nodes and the costs of the edges. -/
structure Good (g : Graph2D K) (N : List (Point K)) (F : Point K → Point K → Option Int) : Prop where
  tab : g.nodesToIndex = N.zipIdx
  idx : ∀ i : Nat, g.indexToNodes.lookup i = N[i]?
  nodup : N.Nodup
  cache : g.graph.cache = none
  keysOk : KeysOk g.graph.edges
  cost : ∀ (i j : Nat) a b, N[i]? = some a → N[j]? = some b → g.graph.edges.cost? i j = F a b
  srcB : ∀ i ∈ g.graph.edges.map Prod.fst, i < N.length
  dstB : ∀ i j c, g.graph.edges.cost? i j = some c → i < N.length ∧ j < N.length
  dom : ∀ a b, F a b ≠ none → a ∈ N ∧ b ∈ N

theorem good_empty : Good (Graph2D.empty : Graph2D K) [] (fun _ _ => none) where
  tab := rfl
  idx i := by simp [Graph2D.empty]
  nodup := List.nodup_nil
  cache := rfl
  keysOk := keysOk_nil
  cost i j a b h := by simp at h
  srcB i h := by simp [Graph2D.empty, Graph.empty] at h
  dstB i j c h := by simp [Graph2D.empty, Graph.empty, EdgeMap.cost?] at h
  dom a b h := absurd rfl h

theorem lookup_insertIndex (l : List (Nat × Point K)) (i : Nat) (p : Point K) (k : Nat) :
    (Graph2D.insertIndex l i p).lookup k = if k = i then some ((l.lookup i).getD p) else l.lookup k := by
  unfold Graph2D.insertIndex
  cases h : l.lookup i with
  | none =>
    simp only [Option.isSome_none, if_false, Option.getD_none]
    rw [if_neg (by simp)]
    have happ : ∀ (l : List (Nat × Point K)), (l ++ [(i, p)]).lookup k =
        (l.lookup k).or ([(i, p)].lookup k) := by
      intro l
      induction l with
      | nil => simp
      | cons q l ih =>
        obtain ⟨x, y⟩ := q
        rw [List.cons_append, lookup_cons', lookup_cons', ih]
        split <;> simp
    rw [happ]
    by_cases hk : k = i
    · subst hk
      rw [h]
      simp [lookup_cons']
    · simp [hk, lookup_cons']
  | some q =>
    simp only [Option.isSome_some, if_true, Option.getD_some]
    by_cases hk : k = i
    · subst hk; simp [h]
    · simp [hk]

theorem idx_ext {l : List (Nat × Point K)} {N : List (Point K)} {p : Point K}
    (h : ∀ i : Nat, l.lookup i = N[i]?) {i : Nat} (hi : (ext N p)[i]? = some p) (hn : N.Nodup) :
    ∀ k : Nat, (Graph2D.insertIndex l i p).lookup k = (ext N p)[k]? := by
  intro k
  rw [lookup_insertIndex, h]
  by_cases hp : p ∈ N
  · have he : ext N p = N := by simp [ext, hp]
    rw [he] at hi ⊢
    by_cases hk : k = i
    · subst hk; simp [hi]
    · rw [if_neg hk, h]
  · have he : ext N p = N ++ [p] := by simp [ext, hp]
    rw [he] at hi ⊢
    have : i = N.length := by
      have hlt := (List.getElem?_eq_some_iff.1 hi).1
      rcases Nat.lt_or_ge i N.length with h1 | h1
      · rw [List.getElem?_append_left h1] at hi
        exact absurd (List.mem_of_getElem? hi) hp
      · simp at hlt; omega
    subst this
    by_cases hk : k = N.length
    · subst hk; simp
    · rw [if_neg hk, h]
      rcases Nat.lt_or_ge k N.length with h1 | h1
      · rw [List.getElem?_append_left h1]
      · rw [List.getElem?_eq_none (by omega), List.getElem?_eq_none (by simp; omega)]

section edits
variable [IsStrictOrderedRing K]

/-- Change one value. -/
def upd (F : Point K → Point K → Option Int) (a b : Point K) (v : Option Int) :
    Point K → Point K → Option Int := fun x y => if x = a ∧ y = b then v else F x y

theorem addDirected_good {T : PointTable K} (hT : T.IsLawful) {g : Graph2D K} {N F}
    (h : Good g N F) {a b : Point K} (hsep : Separated (a :: b :: N))
    (ha : (T.hash a).isOk = true) (hb : (T.hash b).isOk = true) (c : Int) :
    ∃ g', g.addDirectedEdge T a b c = .ok g' ∧ Good g' (ext (ext N a) b) (upd F a b (some c)) ∧
      (∀ i : Nat, i ∈ g'.graph.edges.map Prod.fst ↔ i ∈ g.graph.edges.map Prod.fst ∨
        (ext (ext N a) b)[i]? = some a) := by
  have hs1 : Separated (a :: N) := fun p hp q hq => hsep p (by simp at hp ⊢; tauto) q (by simp at hq ⊢; tauto)
  obtain ⟨i, e1, i1⟩ := insertNode_eq hT hs1 ha
  have hs2 : Separated (b :: ext N a) := by
    intro p hp q hq
    simp only [List.mem_cons, mem_ext] at hp hq
    exact hsep p (by simp; tauto) q (by simp; tauto)
  obtain ⟨j, e2, j1⟩ := insertNode_eq hT hs2 hb
  have hn1 := nodup_ext h.nodup a
  have hn2 := nodup_ext hn1 b
  have i2 : (ext (ext N a) b)[i]? = some a := getElem?_ext i1
  refine ⟨⟨g.graph.addDirectedEdge i j c, (ext (ext N a) b).zipIdx,
    Graph2D.insertIndex (Graph2D.insertIndex g.indexToNodes i a) j b⟩, ?_, ?_, ?_⟩
  · unfold Graph2D.addDirectedEdge
    rw [h.tab, e1, Outcome.ok_bind]
    simp only []
    rw [e2, Outcome.ok_bind]
    rfl
  · have hlen : N.length ≤ (ext (ext N a) b).length :=
      (length_ext_le N a).trans (length_ext_le _ b)
    have hil := (List.getElem?_eq_some_iff.1 i2).1
    have hjl := (List.getElem?_eq_some_iff.1 j1).1
    refine ⟨rfl, ?_, hn2, rfl, h.keysOk.insert _ _ _, ?_, ?_, ?_, ?_⟩
    · exact idx_ext (idx_ext h.idx i1 h.nodup) j1 hn1
    · intro k l x y hk hl
      change (g.graph.edges.insert i j c).cost? k l = _
      rw [cost_insert]
      unfold upd
      have hki : k = i ↔ x = a := by
        constructor
        · rintro rfl; rw [i2] at hk; simpa using hk.symm
        · rintro rfl; exact index_unique hn2 hk i2
      have hlj : l = j ↔ y = b := by
        constructor
        · rintro rfl; rw [j1] at hl; simpa using hl.symm
        · rintro rfl; exact index_unique hn2 hl j1
      simp only [hki, hlj]
      split
      · rfl
      · by_cases hx : x ∈ N ∧ y ∈ N
        · obtain ⟨k', hk'⟩ := List.mem_iff_getElem?.1 hx.1
          obtain ⟨l', hl'⟩ := List.mem_iff_getElem?.1 hx.2
          have : k = k' := index_unique hn2 hk (getElem?_ext (getElem?_ext hk'))
          have : l = l' := index_unique hn2 hl (getElem?_ext (getElem?_ext hl'))
          subst k' l'
          exact h.cost k l x y hk' hl'
        · have h1 : F x y = none := by
            by_contra hne; exact hx (h.dom x y hne)
          rw [h1]
          cases hc : g.graph.edges.cost? k l with
          | none => rfl
          | some v =>
            exfalso
            obtain ⟨b1, b2⟩ := h.dstB k l v hc
            obtain ⟨x', hx'⟩ : ∃ x', N[k]? = some x' := ⟨_, List.getElem?_eq_getElem b1⟩
            obtain ⟨y', hy'⟩ : ∃ y', N[l]? = some y' := ⟨_, List.getElem?_eq_getElem b2⟩
            have e3 := getElem?_ext (p := b) (getElem?_ext (p := a) hx')
            have e4 := getElem?_ext (p := b) (getElem?_ext (p := a) hy')
            rw [hk] at e3; rw [hl] at e4
            simp only [Option.some.injEq] at e3 e4
            subst e3 e4
            exact hx ⟨List.mem_of_getElem? hx', List.mem_of_getElem? hy'⟩
    · intro k hk
      change k ∈ (g.graph.edges.insert i j c).map Prod.fst at hk
      rw [keys_insert] at hk
      split at hk
      · have := h.srcB k hk; omega
      · rcases List.mem_append.1 hk with hk | hk
        · have := h.srcB k hk; omega
        · simp at hk; omega
    · intro k l v hv
      change (g.graph.edges.insert i j c).cost? k l = _ at hv
      rw [cost_insert] at hv
      split at hv
      · rename_i hkl
        rw [hkl.1, hkl.2]; exact ⟨hil, hjl⟩
      · have := h.dstB k l v hv; omega
    · intro x y hne
      unfold upd at hne
      split at hne
      · rename_i hxy
        rw [hxy.1, hxy.2]
        exact ⟨by simp [mem_ext], by simp [mem_ext]⟩
      · have := h.dom x y hne
        simp only [mem_ext]; tauto
  · intro k
    change k ∈ (g.graph.edges.insert i j c).map Prod.fst ↔ _
    rw [keys_insert]
    have hki : (ext (ext N a) b)[k]? = some a ↔ k = i :=
      ⟨fun hk => index_unique hn2 hk i2, fun hk => hk ▸ i2⟩
    rw [hki]
    split
    · rename_i hi
      constructor
      · exact Or.inl
      · rintro (h' | rfl) <;> assumption
    · simp

theorem nodeToIndex_good {T : PointTable K} (hT : T.IsLawful) {g : Graph2D K} {N F}
    (h : Good g N F) (hsep : Separated N) {a : Point K} (ha : a ∈ N)
    (hh : (T.hash a).isOk = true) : ∃ i, g.nodeToIndex T a = .ok i ∧ N[i]? = some a := by
  unfold Graph2D.nodeToIndex
  cases hx : T.hash a with
  | ok v =>
    rw [Outcome.ok_bind, h.tab]
    have hs : Separated (a :: N) := by
      intro p hp q hq
      have hp' : p ∈ N := by rcases List.mem_cons.1 hp with rfl | hp <;> assumption
      have hq' : q ∈ N := by rcases List.mem_cons.1 hq with rfl | hq <;> assumption
      exact hsep p hp' q hq'
    obtain ⟨i, hi, hi'⟩ := (find_table hT hs).2 ha
    exact ⟨i, by rw [hi]; rfl, hi'⟩
  | throw e => rw [hx] at hh; exact absurd hh (by simp [Outcome.isOk])
  | ub e => rw [hx] at hh; exact absurd hh (by simp [Outcome.isOk])

theorem indexToNode_good {g : Graph2D K} {N F} (h : Good g N F) {i : Nat} {a : Point K}
    (hi : N[i]? = some a) : g.indexToNode i = .ok a := by
  unfold Graph2D.indexToNode
  rw [h.idx, hi]

theorem removeDirected_good {T : PointTable K} (hT : T.IsLawful) {g : Graph2D K} {N F}
    (h : Good g N F) (hsep : Separated N) {a b : Point K} (ha : a ∈ N) (hb : b ∈ N)
    (hha : (T.hash a).isOk = true) (hhb : (T.hash b).isOk = true) :
    ∃ g', g.removeDirectedEdge T a b = .ok g' ∧ Good g' N (upd F a b none) ∧
      g'.graph.edges.map Prod.fst = g.graph.edges.map Prod.fst := by
  obtain ⟨i, e1, i1⟩ := nodeToIndex_good hT h hsep ha hha
  obtain ⟨j, e2, j1⟩ := nodeToIndex_good hT h hsep hb hhb
  refine ⟨{ g with graph := g.graph.removeDirectedEdge i j }, ?_, ?_, keys_remove _ _ _⟩
  · unfold Graph2D.removeDirectedEdge
    rw [e1, Outcome.ok_bind, e2, Outcome.ok_bind]; rfl
  · refine ⟨h.tab, h.idx, h.nodup, h.cache, h.keysOk.remove _ _, ?_, ?_, ?_, ?_⟩
    · intro k l x y hk hl
      change (g.graph.edges.remove i j).cost? k l = _
      rw [cost_remove]
      unfold upd
      have hki : k = i ↔ x = a := by
        constructor
        · rintro rfl; rw [i1] at hk; simpa using hk.symm
        · rintro rfl; exact index_unique h.nodup hk i1
      have hlj : l = j ↔ y = b := by
        constructor
        · rintro rfl; rw [j1] at hl; simpa using hl.symm
        · rintro rfl; exact index_unique h.nodup hl j1
      simp only [hki, hlj]
      split
      · rfl
      · exact h.cost k l x y hk hl
    · intro k hk
      change k ∈ (g.graph.edges.remove i j).map Prod.fst at hk
      rw [keys_remove] at hk
      exact h.srcB k hk
    · intro k l v hv
      change (g.graph.edges.remove i j).cost? k l = _ at hv
      rw [cost_remove] at hv
      split at hv
      · cases hv
      · exact h.dstB k l v hv
    · intro x y hne
      unfold upd at hne
      split at hne
      · exact absurd rfl hne
      · exact h.dom x y hne

/-- Costs after a sequence of calls. -/
def costs (es : List (PEdit K)) : Point K → Point K → Option Int :=
  fun a b => es.foldl (costAfter a b) none

theorem both_ways (F : Point K → Point K → Option Int) (a b x y : Point K) (v : Option Int) :
    (if (a = x ∧ b = y) ∨ (a = y ∧ b = x) then v else F x y) = upd (upd F a b v) b a v x y := by
  unfold upd
  by_cases h1 : x = b ∧ y = a
  · rw [if_pos h1, if_pos (Or.inr ⟨h1.2.symm, h1.1.symm⟩)]
  · rw [if_neg h1]
    by_cases h2 : x = a ∧ y = b
    · rw [if_pos h2, if_pos (Or.inl ⟨h2.1.symm, h2.2.symm⟩)]
    · rw [if_neg h2, if_neg]
      rintro (h | h)
      · exact h2 ⟨h.1.symm, h.2.symm⟩
      · exact h1 ⟨h.2.symm, h.1.symm⟩

theorem costAfter_add (F : Point K → Point K → Option Int) (a b : Point K) (c : Int) :
    (fun x y => costAfter x y (F x y) (.add a b c)) = upd (upd F a b (some c)) b a (some c) :=
  funext fun x => funext fun y => both_ways F a b x y (some c)

theorem costAfter_remove (F : Point K → Point K → Option Int) (a b : Point K) :
    (fun x y => costAfter x y (F x y) (.remove a b)) = upd (upd F a b none) b a none :=
  funext fun x => funext fun y => both_ways F a b x y none

theorem ext_of_mem {N : List (Point K)} {p : Point K} (h : p ∈ N) : ext N p = N := by
  simp [ext, h]

theorem exec_good {T : PointTable K} (hT : T.IsLawful) {g : Graph2D K} {es : List (PEdit K)}
    {e : PEdit K} (h : Good g (nodes es) (costs es)) (hsep : Separated (nodes (es ++ [e])))
    (hh : HashOk T (nodes (es ++ [e])))
    (hr : ∀ a b, e = .remove a b → a ∈ nodes es ∧ b ∈ nodes es) :
    ∃ g', e.exec T g = .ok g' ∧ Good g' (nodes (es ++ [e])) (costs (es ++ [e])) ∧
      ((∀ a b c, e ≠ .addDirected a b c) →
        (∀ i : Nat, i < (nodes es).length → i ∈ g.graph.edges.map Prod.fst) →
        ∀ i : Nat, i < (nodes (es ++ [e])).length → i ∈ g'.graph.edges.map Prod.fst) := by
  have hcosts : costs (es ++ [e]) = fun a b => costAfter a b (costs es a b) e := by
    funext a b; simp [costs, List.foldl_append]
  rw [nodes_concat] at hsep hh ⊢
  rw [hcosts]
  cases e with
  | addDirected a b c =>
    simp only [PEdit.points, List.foldl_cons, List.foldl_nil] at hsep hh ⊢
    have hs : Separated (a :: b :: nodes es) := by
      intro p hp q hq
      simp only [List.mem_cons] at hp hq
      exact hsep p (by simp only [mem_ext]; tauto) q (by simp only [mem_ext]; tauto)
    obtain ⟨g', h1, h2, -⟩ := addDirected_good hT h hs (hh a (by simp [mem_ext])) (hh b (by simp [mem_ext])) c
    refine ⟨g', h1, ?_, fun hne => absurd rfl (hne a b c)⟩
    convert h2 using 1
    funext x y
    simp only [costAfter, upd, eq_comm]
  | add a b c =>
    simp only [PEdit.points, List.foldl_cons, List.foldl_nil] at hsep hh ⊢
    have hs : Separated (a :: b :: nodes es) := by
      intro p hp q hq
      simp only [List.mem_cons] at hp hq
      exact hsep p (by simp only [mem_ext]; tauto) q (by simp only [mem_ext]; tauto)
    have ha := hh a (by simp [mem_ext])
    have hb := hh b (by simp [mem_ext])
    obtain ⟨g₁, h1, h2, k1⟩ := addDirected_good hT h hs ha hb c
    set N' := ext (ext (nodes es) a) b with hN'
    have haN : a ∈ N' := by simp [hN', mem_ext]
    have hbN : b ∈ N' := by simp [hN', mem_ext]
    have hs' : Separated (b :: a :: N') := by
      intro p hp q hq
      simp only [List.mem_cons] at hp hq
      refine hsep p ?_ q ?_
      · rcases hp with rfl | rfl | hp <;> assumption
      · rcases hq with rfl | rfl | hq <;> assumption
    obtain ⟨g₂, h3, h4, k2⟩ := addDirected_good hT h2 hs' hb ha c
    rw [ext_of_mem hbN, ext_of_mem haN] at h4 k2
    refine ⟨g₂, ?_, ?_, ?_⟩
    · show Graph2D.addEdge T g a b c = _
      unfold Graph2D.addEdge
      rw [h1, Outcome.ok_bind, h3]
    · rw [costAfter_add]; exact h4
    · intro _ hk i hi
      rw [k2, k1]
      by_cases hi' : i < (nodes es).length
      · exact Or.inl (Or.inl (hk i hi'))
      · obtain ⟨p, hp⟩ : ∃ p, N'[i]? = some p := ⟨_, List.getElem?_eq_getElem hi⟩
        have hpm := List.mem_of_getElem? hp
        simp only [hN', mem_ext] at hpm
        rcases hpm with (hpm | rfl) | rfl
        · obtain ⟨j, hj⟩ := List.mem_iff_getElem?.1 hpm
          have : i = j := index_unique h4.nodup hp (getElem?_ext (getElem?_ext hj))
          have := (List.getElem?_eq_some_iff.1 hj).1
          omega
        · exact Or.inl (Or.inr hp)
        · exact Or.inr hp
  | remove a b =>
    simp only [PEdit.points, List.foldl_nil] at hsep hh ⊢
    obtain ⟨ha, hb⟩ := hr a b rfl
    obtain ⟨g₁, h1, h2, k1⟩ := removeDirected_good hT h hsep ha hb (hh a ha) (hh b hb)
    obtain ⟨g₂, h3, h4, k2⟩ := removeDirected_good hT h2 hsep hb ha (hh b hb) (hh a ha)
    refine ⟨g₂, ?_, ?_, ?_⟩
    · show Graph2D.removeEdge T g a b = _
      unfold Graph2D.removeEdge
      rw [h1, Outcome.ok_bind, h3]
    · rw [costAfter_remove]; exact h4
    · intro _ hk i hi
      rw [k2, k1]
      exact hk i hi

theorem run_concat (T : PointTable K) (es : List (PEdit K)) (e : PEdit K) :
    run T (es ++ [e]) = (do let g ← run T es; e.exec T g) := by
  unfold run
  generalize Graph2D.empty = g₀
  induction es generalizing g₀ with
  | nil =>
    show (do let b' ← e.exec T g₀; Outcome.ok b') = e.exec T g₀
    cases e.exec T g₀ <;> rfl
  | cons x l ih =>
    simp only [List.cons_append, foldOutcome]
    cases hx : x.exec T g₀ with
    | ok b' => simp only [Outcome.ok_bind]; exact ih b'
    | throw e => rfl
    | ub w => rfl

theorem nodes_mono (es : List (PEdit K)) (e : PEdit K) : ∀ p ∈ nodes es, p ∈ nodes (es ++ [e]) := by
  intro p hp
  rw [nodes_concat]
  generalize nodes es = N at hp
  induction e.points generalizing N with
  | nil => exact hp
  | cons q l ih => exact ih _ (mem_ext.2 (Or.inl hp))

theorem run_good {T : PointTable K} (hT : T.IsLawful) (es : List (PEdit K))
    (hsep : Separated (nodes es)) (hh : HashOk T (nodes es)) (hr : RemovesKnown es) :
    ∃ g, run T es = .ok g ∧ Good g (nodes es) (costs es) ∧
      ((∀ e ∈ es, ∀ a b c, e ≠ .addDirected a b c) →
        ∀ i : Nat, i < (nodes es).length → i ∈ g.graph.edges.map Prod.fst) := by
  induction es using List.reverseRecOn with
  | nil => exact ⟨_, rfl, good_empty, fun _ i hi => by simp [nodes, firsts] at hi⟩
  | append_singleton es e ih =>
    have hm := nodes_mono es e
    obtain ⟨g, h1, h2, h3⟩ := ih (fun p hp q hq => hsep p (hm p hp) q (hm q hq))
      (fun p hp => hh p (hm p hp))
      (fun pre a b post he => hr pre a b (post ++ [e]) (by rw [he]; simp))
    obtain ⟨g', h4, h5, h6⟩ := exec_good hT h2 hsep hh (fun a b he => hr es a b [] (by rw [he]))
    refine ⟨g', by rw [run_concat, h1, Outcome.ok_bind, h4], h5, fun hd => ?_⟩
    exact h6 (hd e (by simp)) (h3 fun x hx => hd x (by simp [hx]))

end edits

/-! ### Queries -/

/-- Everything a query on a fresh, well formed graph returns, in terms of the stored edges. -/
theorem query_spec {e : EdgeMap} {inf : Int} (w : WF e inf) {i j : Nat} (hi : i < e.length)
    (hj : j < e.length) : ∃ g' d p, Graph.shortestPathCost ⟨e, none⟩ i j inf = .ok (g', d) ∧
      Graph.shortestPath ⟨e, none⟩ i j inf = .ok (g', p) ∧ (i = j → d = 0 ∧ p = []) ∧
      (∀ s, WalkB e e.length i j s → d ≤ s) ∧ d ≤ inf ∧
      (i ≠ j → d = inf → p = []) ∧
      (i ≠ j → d < inf → ∃ next, Fol e e.length next j i p d) := by
  obtain ⟨t, h1, h2⟩ := computeTables_spec w
  have hens : Graph.ensure ⟨e, none⟩ inf = .ok ⟨e, some (e.length, t)⟩ := by
    unfold Graph.ensure
    simp only []
    have hn : (⟨e, none⟩ : Graph).numNodes = e.length := rfl
    rw [if_pos (by omega), h1, hn]; rfl
  have hcost : Graph.shortestPathCost ⟨e, none⟩ i j inf =
      .ok (⟨e, some (e.length, t)⟩, t.dist i j) := by
    unfold Graph.shortestPathCost
    rw [hens, Outcome.ok_bind]
    simp only []
    rw [if_pos ⟨hi, hj⟩]
  by_cases hij : i = j
  · refine ⟨_, _, [], hcost, ?_, fun _ => ⟨by rw [hij]; exact h2.diag j hj, rfl⟩,
      fun s hs => h2.complete i j s hi hj hs, h2.le i j hi hj, fun h => absurd hij h,
      fun h => absurd hij h⟩
    unfold Graph.shortestPath
    rw [hens, Outcome.ok_bind, if_pos hij]
  · by_cases hn : t.next i j = -1
    · have hnlt : ¬ t.dist i j < inf := fun hlt => (h2.nextIff i j hi hj hij).2 hlt hn
      refine ⟨_, _, [], hcost, ?_, fun h => absurd h hij, fun s hs => h2.complete i j s hi hj hs,
        h2.le i j hi hj, fun _ _ => rfl, fun _ hlt => absurd hlt hnlt⟩
      unfold Graph.shortestPath
      rw [hens, Outcome.ok_bind, if_neg hij]
      simp only []
      rw [if_pos ⟨hi, hj⟩, if_neg (by simpa using hn)]
    · obtain ⟨p, hp, hf⟩ := h2.follow w hi hj hij hn
      have hlt := (h2.nextIff i j hi hj hij).1 hn
      refine ⟨_, _, p, hcost, ?_, fun h => absurd h hij, fun s hs => h2.complete i j s hi hj hs,
        h2.le i j hi hj, fun _ he => by omega, fun _ _ => ⟨_, hf⟩⟩
      unfold Graph.shortestPath
      rw [hens, Outcome.ok_bind, if_neg hij]
      simp only []
      rw [if_pos ⟨hi, hj⟩, if_pos hn, hp]
      rfl

section queries
variable [IsStrictOrderedRing K]

theorem costs_range {inf : Int} {es : List (PEdit K)} (hu : Undirected inf es) {a b c}
    (h : costs es a b = some c) : 0 ≤ c ∧ c < inf := by
  unfold costs at h
  induction es using List.reverseRecOn with
  | nil => simp at h
  | append_singleton es e ih =>
    rw [List.foldl_append] at h
    simp only [List.foldl_cons, List.foldl_nil] at h
    have ih := ih (fun x hx => hu x (by simp [hx]))
    have he := hu e (by simp)
    cases e with
    | addDirected x y d => exact absurd he (by simp)
    | add x y d =>
      simp only [costAfter] at h
      split at h
      · injection h with h; subst h; exact he
      · exact ih h
    | remove x y =>
      simp only [costAfter] at h
      split at h
      · cases h
      · exact ih h

theorem good_wf {g : Graph2D K} {es : List (PEdit K)} {inf : Int}
    (h : Good g (nodes es) (costs es)) (hu : Undirected inf es)
    (hk : ∀ i : Nat, i < (nodes es).length → i ∈ g.graph.edges.map Prod.fst) (hpos : 0 < inf)
    (hb : inf ≤ 2 ^ 62) : g.graph.edges.length = (nodes es).length ∧ WF g.graph.edges inf := by
  have hl : g.graph.edges.length = (nodes es).length := by
    have h1 : (g.graph.edges.map Prod.fst).Perm (List.range (nodes es).length) := by
      refine (List.perm_ext_iff_of_nodup h.keysOk.keys List.nodup_range).2 fun i => ?_
      rw [List.mem_range]
      exact ⟨h.srcB i, hk i⟩
    simpa using h1.length_eq
  refine ⟨hl, h.keysOk.keys, fun s hs => by rw [hl]; exact h.srcB s hs,
    fun i j c hc => by rw [hl]; exact (h.dstB i j c hc).2, h.keysOk.dkeys, ?_, hpos, ?_⟩
  · intro i j c hc
    obtain ⟨b1, b2⟩ := h.dstB i j c hc
    obtain ⟨x, hx⟩ : ∃ x, (nodes es)[i]? = some x := ⟨_, List.getElem?_eq_getElem b1⟩
    obtain ⟨y, hy⟩ : ∃ y, (nodes es)[j]? = some y := ⟨_, List.getElem?_eq_getElem b2⟩
    rw [h.cost i j x y hx hy] at hc
    exact costs_range hu hc
  · norm_num at hb; exact .inl hb

theorem walk_points {g : Graph2D K} {es : List (PEdit K)} (h : Good g (nodes es) (costs es)) {m}
    {i j s} (hw : WalkB g.graph.edges m i j s) :
    ∀ a, (nodes es)[i]? = some a → ∃ b, (nodes es)[j]? = some b ∧ PWalk es a b s := by
  induction hw with
  | nil i => intro a ha; exact ⟨a, ha, .nil a⟩
  | @edge i j c hc =>
    intro a ha
    obtain ⟨b1, b2⟩ := h.dstB i j c hc
    refine ⟨_, List.getElem?_eq_getElem b2, ?_⟩
    rw [h.cost i j a _ ha (List.getElem?_eq_getElem b2)] at hc
    have := PWalk.cons (es := es) (a := a) hc (.nil _)
    simpa using this
  | @step i l j c t hc hl hw ih =>
    intro a ha
    obtain ⟨b1, b2⟩ := h.dstB i l c hc
    rw [h.cost i l a _ ha (List.getElem?_eq_getElem b2)] at hc
    obtain ⟨b, hb, hw'⟩ := ih _ (List.getElem?_eq_getElem b2)
    exact ⟨b, hb, .cons hc hw'⟩

theorem walkB_points {g : Graph2D K} {es : List (PEdit K)} (h : Good g (nodes es) (costs es))
    {a b s} (hw : PWalk es a b s) : ∀ i : Nat, (nodes es)[i]? = some a →
    ∃ j : Nat, (nodes es)[j]? = some b ∧ WalkB g.graph.edges (nodes es).length i j s := by
  induction hw with
  | nil a => intro i hi; exact ⟨i, hi, .nil i⟩
  | @cons a b d c t he hw ih =>
    intro i hi
    have hb : b ∈ nodes es := (h.dom a b (by
      have : costs es a b = some c := he
      rw [this]; simp)).2
    obtain ⟨l, hl⟩ := List.mem_iff_getElem?.1 hb
    obtain ⟨j, hj, hw'⟩ := ih l hl
    refine ⟨j, hj, .step ?_ (List.getElem?_eq_some_iff.1 hl).1 hw'⟩
    rw [h.cost i l a b hi hl]
    exact he

theorem path_points {g : Graph2D K} {es : List (PEdit K)} (h : Good g (nodes es) (costs es)) {m}
    {next j i p s} (hf : Fol g.graph.edges m next j i p s) (hi : i < (nodes es).length) :
    ∃ q, g.toPoints p = .ok q ∧ q.length = p.length ∧
      (∀ (k : Nat) (x : Point K), q[k]? = some x → ∃ n : Nat, p[k]? = some n ∧ (nodes es)[n]? = some x) ∧
      PPath es q s := by
  induction hf with
  | here =>
    obtain ⟨x, hx⟩ : ∃ x, (nodes es)[j]? = some x := ⟨_, List.getElem?_eq_getElem hi⟩
    refine ⟨[x], ?_, rfl, ?_, .single x⟩
    · simp [Graph2D.toPoints, indexToNode_good h hx]
    · intro k y hy
      cases k with
      | zero => simp at hy; subst hy; exact ⟨j, by simp, hx⟩
      | succ k => simp at hy
  | @step i l c p t hne hn hc hl hf ih =>
    obtain ⟨b1, b2⟩ := h.dstB i l c hc
    obtain ⟨x, hx⟩ : ∃ x, (nodes es)[i]? = some x := ⟨_, List.getElem?_eq_getElem hi⟩
    obtain ⟨q, h1, h2, h3, h4⟩ := ih b2
    refine ⟨x :: q, ?_, by simp [h2], ?_, ?_⟩
    · simp [Graph2D.toPoints, indexToNode_good h hx, h1]
    · intro k y hy
      cases k with
      | zero => simp at hy; subst hy; exact ⟨i, by simp, hx⟩
      | succ k => simpa using h3 k y (by simpa using hy)
    · have hh := hf.head
      cases q with
      | nil => cases p with
        | nil => simp at hh
        | cons => simp at h2
      | cons y q =>
        refine .cons ?_ h4
        obtain ⟨n, hn1, hn2⟩ := h3 0 y (by simp)
        rw [← List.head?_eq_getElem?, hh] at hn1
        simp only [Option.some.injEq] at hn1
        subst hn1
        rw [h.cost i l x y hx hn2] at hc
        exact hc

theorem toPoints_ends {g : Graph2D K} {N : List (Point K)} {F} (h : Good g N F) {p : List Nat}
    {q : List (Point K)} (hq : g.toPoints p = .ok q) :
    (∀ (i : Nat) a, p.head? = some i → N[i]? = some a → q.head? = some a) ∧
    (∀ (i : Nat) a, p.getLast? = some i → N[i]? = some a → q.getLast? = some a) ∧
    (p.Nodup → q.Nodup) ∧ (∀ x ∈ q, x ∈ N) ∧
    (∀ x ∈ q, ∃ i ∈ p, N[i]? = some x) := by
  induction p generalizing q with
  | nil =>
    unfold Graph2D.toPoints at hq
    injection hq with hq
    subst hq
    simp
  | cons i p ih =>
    unfold Graph2D.toPoints at hq
    cases h1 : g.indexToNode i with
    | ok x =>
      cases h2 : g.toPoints p with
      | ok xs =>
        rw [h1, Outcome.ok_bind, h2, Outcome.ok_bind] at hq
        simp only [Outcome.pure_eq] at hq
        injection hq with hq
        subst hq
        obtain ⟨a1, a2, a3, a4, a5⟩ := ih h2
        have hx : N[i]? = some x := by
          unfold Graph2D.indexToNode at h1
          rw [h.idx] at h1
          cases hN : N[i]? with
          | none => rw [hN] at h1; cases h1
          | some y => rw [hN] at h1; injection h1 with h1; rw [h1]
        refine ⟨?_, ?_, ?_, ?_, ?_⟩
        · intro k a hk ha
          simp at hk
          subst hk
          rw [hx] at ha
          simpa using ha
        · intro k a hk ha
          cases p with
          | nil =>
            simp at hk
            subst hk
            rw [hx] at ha
            have : xs = [] := by
              unfold Graph2D.toPoints at h2; injection h2 with h2; exact h2.symm
            subst this
            simpa using ha
          | cons l p =>
            have hk' : (l :: p).getLast? = some k := by simpa [List.getLast?_cons_cons] using hk
            have := a2 k a hk' ha
            cases xs with
            | nil => simp at this
            | cons y ys => simpa [List.getLast?_cons_cons] using this
        · intro hn
          obtain ⟨n1, n2⟩ := List.nodup_cons.1 hn
          refine List.nodup_cons.2 ⟨fun hmem => ?_, a3 n2⟩
          obtain ⟨k, hk, hk'⟩ := a5 x hmem
          have := index_unique h.nodup hx hk'
          subst this
          exact n1 hk
        · intro y hy
          rcases List.mem_cons.1 hy with rfl | hy
          · exact List.mem_of_getElem? hx
          · exact a4 y hy
        · intro y hy
          rcases List.mem_cons.1 hy with rfl | hy
          · exact ⟨i, by simp, hx⟩
          · obtain ⟨k, hk, hk'⟩ := a5 y hy
            exact ⟨k, by simp [hk], hk'⟩
      | throw e => rw [h1, Outcome.ok_bind, h2] at hq; cases hq
      | ub e => rw [h1, Outcome.ok_bind, h2] at hq; cases hq
    | throw e => rw [h1] at hq; cases hq
    | ub e => rw [h1] at hq; cases hq

end queries
end F2C.Graph2DL
