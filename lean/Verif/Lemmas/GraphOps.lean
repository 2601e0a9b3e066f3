import Verif.Lemmas.Graph
import Mathlib.Data.List.Dedup

/-!
# Lemmas on graphs: insertions, removals, depth-first search
-/

set_option linter.unusedSimpArgs false
set_option linter.unusedVariables false

namespace F2C.GraphL

open Outcome

/-! ### Association lists -/

section assoc
variable {β : Type}

theorem lookup_assocSet (l : List (Nat × β)) (k : Nat) (v : β) (a : Nat) :
    (assocSet l k v).lookup a = if a = k then some v else l.lookup a := by
  induction l with
  | nil => simp [assocSet, lookup_cons']
  | cons p l ih =>
    obtain ⟨x, y⟩ := p
    unfold assocSet
    by_cases hx : x = k
    · rw [if_pos hx, lookup_cons', lookup_cons']
      by_cases ha : a = k
      · simp [ha, hx]
      · simp [ha, hx]
    · rw [if_neg hx, lookup_cons', lookup_cons', ih]
      by_cases ha : a = x
      · simp [ha, hx]
      · simp [ha]

theorem keys_assocSet (l : List (Nat × β)) (k : Nat) (v : β) :
    (assocSet l k v).map Prod.fst =
      if k ∈ l.map Prod.fst then l.map Prod.fst else l.map Prod.fst ++ [k] := by
  induction l with
  | nil => simp [assocSet]
  | cons p l ih =>
    obtain ⟨x, y⟩ := p
    unfold assocSet
    by_cases hx : x = k
    · simp [hx]
    · rw [if_neg hx]
      simp only [List.map_cons, ih, List.mem_cons]
      by_cases hm : k ∈ l.map Prod.fst
      · rw [if_pos hm, if_pos (Or.inr hm)]
      · rw [if_neg hm, if_neg (by rintro (h | h); exacts [hx h.symm, hm h])]
        simp

theorem nodup_assocSet {l : List (Nat × β)} (h : (l.map Prod.fst).Nodup) (k : Nat) (v : β) :
    ((assocSet l k v).map Prod.fst).Nodup := by
  rw [keys_assocSet]
  split
  · exact h
  · rename_i hk
    rw [List.nodup_append]
    refine ⟨h, by simp, ?_⟩
    intro a ha b hb
    simp only [List.mem_singleton] at hb
    subst hb
    rintro rfl
    exact hk ha

theorem mem_assocSet {l : List (Nat × β)} {k : Nat} {v : β} {p} (h : p ∈ assocSet l k v) :
    p ∈ l ∨ p = (k, v) := by
  induction l with
  | nil => simp [assocSet] at h; exact .inr h
  | cons q l ih =>
    obtain ⟨x, y⟩ := q
    unfold assocSet at h
    by_cases hx : x = k
    · rw [if_pos hx] at h
      rcases List.mem_cons.1 h with h | h
      · right; rw [h, hx]
      · left; exact List.mem_cons_of_mem _ h
    · rw [if_neg hx] at h
      rcases List.mem_cons.1 h with h | h
      · left; rw [h]; simp
      · rcases ih h with h | h
        · exact .inl (List.mem_cons_of_mem _ h)
        · exact .inr h

theorem lookup_filter_ne (l : List (Nat × β)) (k a : Nat) :
    (l.filter fun d => d.1 ≠ k).lookup a = if a = k then none else l.lookup a := by
  induction l with
  | nil => simp
  | cons p l ih =>
    obtain ⟨x, y⟩ := p
    rw [lookup_cons']
    by_cases hx : x = k
    · rw [List.filter_cons_of_neg (by simp [hx]), ih]
      by_cases ha : a = k
      · simp [ha]
      · have : ¬ a = x := by omega
        rw [if_neg ha, if_neg ha, if_neg this]
    · rw [List.filter_cons_of_pos (by simp [hx]), lookup_cons', ih]
      by_cases ha : a = x
      · have : ¬ a = k := by omega
        rw [if_pos ha, if_neg this, if_pos ha]
      · simp [ha]

end assoc

/-! ### Edge maps -/

/-- Keys are distinct on both levels. -/
structure KeysOk (e : EdgeMap) : Prop where
  keys : (e.map Prod.fst).Nodup
  dkeys : ∀ p ∈ e, (p.2.map Prod.fst).Nodup

theorem keysOk_nil : KeysOk [] := ⟨by simp, by simp⟩

theorem KeysOk.getD {e : EdgeMap} (h : KeysOk e) (i : Nat) :
    ((((e.lookup i).getD []).map Prod.fst)).Nodup := by
  cases hl : e.lookup i with
  | none => simp
  | some ds => exact h.dkeys (i, ds) (mem_of_lookup hl)

theorem KeysOk.insert {e : EdgeMap} (h : KeysOk e) (i j : Nat) (c : Int) :
    KeysOk (e.insert i j c) where
  keys := nodup_assocSet h.keys _ _
  dkeys p hp := by
    rcases mem_assocSet hp with hp | rfl
    · exact h.dkeys p hp
    · exact nodup_assocSet (h.getD i) _ _

theorem cost_insert (e : EdgeMap) (i j : Nat) (c : Int) (a b : Nat) :
    (e.insert i j c).cost? a b = if a = i ∧ b = j then some c else e.cost? a b := by
  unfold EdgeMap.cost? EdgeMap.insert
  rw [lookup_assocSet]
  by_cases ha : a = i
  · subst ha
    rw [if_pos rfl, Option.bind_some, lookup_assocSet]
    by_cases hb : b = j
    · simp [hb]
    · simp only [hb, if_false, and_false]
      cases e.lookup a <;> simp
  · simp [ha]

theorem keys_insert (e : EdgeMap) (i j : Nat) (c : Int) :
    (e.insert i j c).map Prod.fst =
      if i ∈ e.map Prod.fst then e.map Prod.fst else e.map Prod.fst ++ [i] := keys_assocSet _ _ _

theorem KeysOk.remove {e : EdgeMap} (h : KeysOk e) (i j : Nat) : KeysOk (e.remove i j) := by
  unfold EdgeMap.remove
  split
  · exact h
  · rename_i ds hds
    split
    · exact h
    · refine ⟨nodup_assocSet h.keys _ _, fun p hp => ?_⟩
      rcases mem_assocSet hp with hp | rfl
      · exact h.dkeys p hp
      · have := h.dkeys (i, ds) (mem_of_lookup hds)
        exact List.Nodup.sublist (List.Sublist.map _ List.filter_sublist) this

theorem cost_remove (e : EdgeMap) (i j : Nat) (a b : Nat) :
    (e.remove i j).cost? a b = if a = i ∧ b = j then none else e.cost? a b := by
  unfold EdgeMap.remove
  split
  · rename_i h
    split
    · rename_i hab; rw [hab.1]; unfold EdgeMap.cost?; rw [h]; rfl
    · rfl
  · rename_i ds hds
    split
    · rename_i h2
      split
      · rename_i hab; rw [hab.1, hab.2]; unfold EdgeMap.cost?; rw [hds]; exact h2
      · rfl
    · unfold EdgeMap.cost?
      rw [lookup_assocSet]
      by_cases ha : a = i
      · subst ha
        rw [if_pos rfl, Option.bind_some, lookup_filter_ne, hds]
        by_cases hb : b = j <;> simp [hb]
      · simp [ha]

theorem length_remove (e : EdgeMap) (i j : Nat) : (e.remove i j).length = e.length := by
  unfold EdgeMap.remove
  split
  · rfl
  · rename_i ds hds
    split
    · rfl
    · have h : ((assocSet e i (ds.filter fun d => d.1 ≠ j)).map Prod.fst).length = e.length := by
        rw [keys_assocSet, if_pos (List.mem_map.2 ⟨_, mem_of_lookup hds, rfl⟩)]
        simp
      simpa using h

/-! ### Depth-first search -/

open Graph

/-- Suffixes appended by `dfs`, as a pure function. -/
def dfsSpec (e : EdgeMap) (to' : Nat) : Nat → Nat → List Nat → List (List Nat)
  | 0, _, _ => []
  | fuel + 1, cur, visited =>
    [cur] :: if cur = to' then [] else
      (getEdgesFrom e cur).flatMap fun i =>
        if i ∈ cur :: visited then [] else
          (dfsSpec e to' fuel i (cur :: visited)).map (cur :: ·)

section dfs
variable {e : EdgeMap} {n to' : Nat}

theorem mem_getEdgesFrom {i j : Nat} : j ∈ getEdgesFrom e i ↔ ∃ c, e.cost? i j = some c := by
  unfold getEdgesFrom EdgeMap.cost?
  cases h : e.lookup i with
  | none => simp
  | some ds =>
    simp only [Option.bind_some]
    constructor
    · intro hm
      by_contra hcon
      have : ds.lookup j = none := by
        cases h2 : ds.lookup j with
        | none => rfl
        | some c => exact absurd ⟨c, h2⟩ hcon
      rw [List.lookup_eq_none_iff] at this
      obtain ⟨p, hp, rfl⟩ := List.mem_map.1 hm
      have := this p hp
      simp at this
    · rintro ⟨c, hc⟩
      exact List.mem_map.2 ⟨_, mem_of_lookup hc, rfl⟩

theorem nodup_getEdgesFrom (h : KeysOk e) (i : Nat) : (getEdgesFrom e i).Nodup := by
  unfold getEdgesFrom
  cases hl : e.lookup i with
  | none => simp
  | some ds => exact h.dkeys (i, ds) (mem_of_lookup hl)

theorem dfs_eq (hd : ∀ i j c, e.cost? i j = some c → j < n) :
    ∀ fuel cur visited idx routes r,
      visited.Nodup → (∀ x ∈ visited, x < n) → cur ∉ visited → (cur = to' ∨ cur < n) →
      n + 1 ≤ visited.length + fuel → routes[idx]? = some r →
      dfs e n to' fuel cur visited idx routes =
        .ok (routes ++ (dfsSpec e to' fuel cur visited).map (r ++ ·)) := by
  intro fuel
  induction fuel with
  | zero =>
    intro cur visited idx routes r hnd hb _ _ hf _
    have := length_le_of_nodup_lt hnd hb
    omega
  | succ fuel ih =>
    intro cur visited idx routes r hnd hb hcv hc hf hr
    have loop : ∀ nbrs, (∀ x ∈ nbrs, x < n) → ∀ rts, (cur < n) →
        rts[routes.length]? = some (r ++ [cur]) →
        foldOutcome (fun rts i =>
            if i < n then
              if i ∉ cur :: visited then dfs e n to' fuel i (cur :: visited) routes.length rts
              else .ok rts
            else .ub "index out of range") rts nbrs =
          .ok (rts ++ (nbrs.flatMap fun i => if i ∈ cur :: visited then [] else
            (dfsSpec e to' fuel i (cur :: visited)).map (cur :: ·)).map (r ++ ·)) := by
      intro nbrs
      induction nbrs with
      | nil => intro _ rts _ _; simp [foldOutcome]
      | cons i is ihn =>
        intro hn rts hcn hrts
        unfold foldOutcome
        rw [if_pos (hn i (by simp))]
        by_cases hv : i ∈ cur :: visited
        · rw [if_neg (not_not_intro hv), Outcome.ok_bind, ihn (fun x hx => hn x (by simp [hx])) rts hcn hrts]
          simp only [List.flatMap_cons, if_pos hv, List.nil_append]
        · rw [if_pos hv, ih i (cur :: visited) routes.length rts (r ++ [cur])
            (List.nodup_cons.2 ⟨hcv, hnd⟩)
            (by
              intro x hx
              rcases List.mem_cons.1 hx with rfl | hx
              · exact hcn
              · exact hb x hx) hv (.inr (hn i (by simp))) (by simp; omega) hrts,
            Outcome.ok_bind, ihn (fun x hx => hn x (by simp [hx])) _ hcn]
          · simp only [List.flatMap_cons, if_neg hv, List.map_append, List.map_map,
              List.append_assoc]
            simp [Function.comp_def]
          · rw [List.getElem?_append_left, hrts]
            by_contra hlen
            rw [List.getElem?_eq_none (by omega)] at hrts
            exact absurd hrts (by simp)
    unfold dfs
    rw [hr]
    simp only [List.length_append, List.length_cons, List.length_nil]
    by_cases hct : cur = to'
    · simp [hct, dfsSpec]
    · have hcn := hc.resolve_left hct
      rw [if_pos hct, if_pos hcn]
      have := loop (getEdgesFrom e cur)
        (fun x hx => by obtain ⟨c, hc⟩ := mem_getEdgesFrom.1 hx; exact hd _ _ _ hc)
        (routes ++ [r ++ [cur]]) hcn (by simp)
      simp only [Nat.add_sub_cancel] at this ⊢
      rw [this]
      simp only [dfsSpec, if_neg hct, List.map_cons, List.append_assoc, List.singleton_append]

theorem isChain_cons_head {α : Type} {R : α → α → Prop} (a : α) (l : List α) :
    (a :: l).IsChain R ↔ (∀ y ∈ l.head?, R a y) ∧ l.IsChain R := by
  cases l with
  | nil => simp
  | cons b l => simp [List.isChain_cons_cons]

/-- Edge relation. -/
def Adj (e : EdgeMap) (i j : Nat) : Prop := ∃ c, e.cost? i j = some c

theorem dfsSpec_sound : ∀ fuel cur visited q, q ∈ dfsSpec e to' fuel cur visited → cur ∉ visited →
    q.head? = some cur ∧ q.IsChain (Adj e) ∧ q.Nodup ∧ ∀ x ∈ q, x ∉ visited := by
  intro fuel
  induction fuel with
  | zero => intro cur visited q h; simp [dfsSpec] at h
  | succ fuel ih =>
    intro cur visited q h hcv
    unfold dfsSpec at h
    rcases List.mem_cons.1 h with rfl | h
    · refine ⟨rfl, by simp, by simp, by simpa using hcv⟩
    · split at h
      · simp at h
      · obtain ⟨i, hi, h⟩ := List.mem_flatMap.1 h
        split at h
        · simp at h
        · rename_i hiv
          obtain ⟨q', hq', rfl⟩ := List.mem_map.1 h
          obtain ⟨h1, h2, h3, h4⟩ := ih i (cur :: visited) q' hq' hiv
          refine ⟨rfl, ?_, ?_, ?_⟩
          · rw [isChain_cons_head]
            refine ⟨?_, h2⟩
            intro y hy
            rw [h1] at hy
            simp only [Option.mem_def, Option.some.injEq] at hy
            subst hy
            exact mem_getEdgesFrom.1 hi
          · exact List.nodup_cons.2 ⟨fun hm => h4 cur hm (by simp), h3⟩
          · intro x hx
            rcases List.mem_cons.1 hx with rfl | hx
            · exact hcv
            · exact fun hv => h4 x hx (List.mem_cons_of_mem _ hv)

theorem dfsSpec_complete : ∀ fuel cur visited q, q.head? = some cur → q.getLast? = some to' →
    q.IsChain (Adj e) → q.Nodup → (∀ x ∈ q, x ∉ visited) → q.length ≤ fuel →
    q ∈ dfsSpec e to' fuel cur visited := by
  intro fuel
  induction fuel with
  | zero =>
    intro cur visited q h1 h2 _ _ _ h
    have : q = [] := by simpa using h
    subst this; simp at h1
  | succ fuel ih =>
    intro cur visited q h1 h2 h3 h4 h5 h6
    cases q with
    | nil => simp at h1
    | cons a q =>
      simp only [List.head?_cons, Option.some.injEq] at h1
      subst h1
      cases q with
      | nil => simp [dfsSpec]
      | cons b q =>
        unfold dfsSpec
        refine List.mem_cons_of_mem _ ?_
        rw [List.nodup_cons] at h4
        have hat : a ≠ to' := by
          rintro rfl
          rw [List.getLast?_cons_cons] at h2
          exact h4.1 (List.mem_of_getLast? h2)
        rw [if_neg hat]
        rw [isChain_cons_head] at h3
        refine List.mem_flatMap.2 ⟨b, mem_getEdgesFrom.2 (h3.1 b (by simp)), ?_⟩
        have hb : b ∉ a :: visited := by
          intro hm
          rcases List.mem_cons.1 hm with rfl | hm
          · exact h4.1 (by simp)
          · exact h5 b (by simp) hm
        rw [if_neg hb]
        refine List.mem_map.2 ⟨b :: q, ih b (a :: visited) (b :: q) rfl ?_ h3.2 h4.2 ?_ ?_, rfl⟩
        · rw [List.getLast?_cons_cons] at h2; exact h2
        · intro x hx hm
          rcases List.mem_cons.1 hm with rfl | hm
          · exact h4.1 hx
          · exact h5 x (List.mem_cons_of_mem _ hx) hm
        · simp at h6 ⊢; omega

theorem dfsSpec_nodup (hk : KeysOk e) : ∀ fuel cur visited, cur ∉ visited →
    (dfsSpec e to' fuel cur visited).Nodup := by
  intro fuel
  induction fuel with
  | zero => intro cur visited _; simp [dfsSpec]
  | succ fuel ih =>
    intro cur visited hcv
    unfold dfsSpec
    rw [List.nodup_cons]
    constructor
    · split
      · simp
      · intro hm
        obtain ⟨i, hi, h⟩ := List.mem_flatMap.1 hm
        split at h
        · simp at h
        · rename_i hiv
          obtain ⟨q', hq', heq⟩ := List.mem_map.1 h
          have := (dfsSpec_sound _ _ _ _ hq' hiv).1
          simp only [List.cons.injEq, true_and] at heq
          rw [heq] at this; simp at this
    · split
      · simp
      · rw [List.nodup_flatMap]
        constructor
        · intro i hi
          split
          · simp
          · rename_i hiv
            exact (List.nodup_map_iff (fun a b h => by simpa using h)).2 (ih i _ hiv)
        · refine List.Pairwise.imp ?_ (nodup_getEdgesFrom hk cur)
          intro i j hij q hq1 hq2
          simp only at hq1 hq2
          split at hq1
          · simp at hq1
          · rename_i hi
            split at hq2
            · simp at hq2
            · rename_i hj
              obtain ⟨q1, h1, rfl⟩ := List.mem_map.1 hq1
              obtain ⟨q2, h2, heq⟩ := List.mem_map.1 hq2
              simp only [List.cons.injEq, true_and] at heq
              subst heq
              have e1 := (dfsSpec_sound _ _ _ _ h1 hi).1
              have e2 := (dfsSpec_sound _ _ _ _ h2 hj).1
              rw [e1] at e2
              exact hij (by simpa using e2)

end dfs

theorem allPathsBetween_spec {g : Graph} (hk : KeysOk g.edges)
    (hd : ∀ i j c, g.edges.cost? i j = some c → j < g.numNodes) {i j : Nat}
    (hi : i = j ∨ i < g.numNodes) :
    ∃ ps, g.allPathsBetween i j = .ok ps ∧ ps.Nodup ∧
      ∀ q, q ∈ ps ↔ q.head? = some i ∧ q.getLast? = some j ∧ q.IsChain (Adj g.edges) ∧ q.Nodup := by
  have h := dfs_eq (to' := j) hd (g.numNodes + 1) i [] 0 [[]] [] (by simp) (by simp) (by simp) hi
    (by simp) (by simp)
  refine ⟨_, by unfold Graph.allPathsBetween; rw [h]; rfl, ?_, ?_⟩
  · simp only [List.nil_append, List.map_id', List.singleton_append]
    rw [List.filter_cons_of_neg (by simp)]
    exact (dfsSpec_nodup hk _ _ _ (by simp)).filter _
  · intro q
    simp only [List.nil_append, List.map_id', List.singleton_append]
    rw [List.filter_cons_of_neg (by simp), List.mem_filter]
    constructor
    · rintro ⟨h1, h2⟩
      obtain ⟨a, b, c, d⟩ := dfsSpec_sound _ _ _ _ h1 (by simp)
      exact ⟨a, by simpa using h2, b, c⟩
    · rintro ⟨a, b, c, d⟩
      refine ⟨dfsSpec_complete _ _ _ _ a b c d (by simp) ?_, by simpa using b⟩
      -- length bound
      cases q with
      | nil => simp
      | cons x q =>
        have hmem : ∀ y ∈ q, y < g.numNodes := by
          have : ∀ (l : List Nat) (x : Nat), (x :: l).IsChain (Adj g.edges) →
              ∀ y ∈ l, y < g.numNodes := by
            intro l
            induction l with
            | nil => intro x _ y hy; simp at hy
            | cons z l ih =>
              intro x hch y hy
              rw [isChain_cons_head] at hch
              rcases List.mem_cons.1 hy with rfl | hy
              · obtain ⟨cst, hcst⟩ := hch.1 y (by simp)
                exact hd _ _ _ hcst
              · exact ih z hch.2 y hy
          exact this q x c
        have := length_le_of_nodup_lt (List.nodup_cons.1 d).2 hmem
        simpa using this

end F2C.GraphL
