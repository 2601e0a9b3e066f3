import Verif.Props.RouteSpec
import Mathlib.Data.List.Induction
import Mathlib.Tactic.Linarith
import Mathlib.Tactic.Ring
import Mathlib.Tactic.SplitIfs

/-!
# Lemmas about routes
-/

set_option linter.unusedSimpArgs false
set_option linter.unusedVariables false
set_option linter.unusedSectionVars false

namespace F2C.RouteL

open RouteSpec Outcome

variable {K : Type} [Field K] [LinearOrder K]

/-- Invariant of all routes that can be built. -/
def Inv (r : Route K) : Prop :=
  r.groups.length ≤ r.connections.length ∧ r.connections.length ≤ r.groups.length + 1

theorem modifyBack_concat {α : Type} (f : α → α) (l : List α) (a : α) :
    modifyBack f (l ++ [a]) = .ok (l ++ [f a]) := by
  unfold modifyBack
  rw [List.getLast?_concat]
  simp

/-- Points of a group. -/
abbrev gpts (g : Swaths K) : List (Point K) := g.flatMap fun s => s.path

theorem interleave_nil_nil : interleave ([] : List (List (Point K))) [] = [] := by
  rw [interleave]

theorem interleave_append_conn : ∀ (cs : List (List (Point K))) (gs : List (Swaths K)) (c),
    cs.length = gs.length → interleave (cs ++ [c]) gs = interleave cs gs ++ c
  | [], [], c, _ => by simp [interleave]
  | d :: cs, g :: gs, c, h => by
    have := interleave_append_conn cs gs c (by simpa using h)
    simp [interleave, this]

theorem interleave_append_group : ∀ (cs : List (List (Point K))) (gs : List (Swaths K)) (g),
    cs.length = gs.length + 1 → interleave cs (gs ++ [g]) = interleave cs gs ++ gpts g
  | d :: [], [], g, _ => by simp [interleave]
  | d :: e :: cs, [], g, h => by simp at h
  | d :: cs, g' :: gs, g, h => by
    have := interleave_append_group cs gs g (by simpa using h)
    simp [interleave, this]

theorem interleave_last_conn : ∀ (cs : List (List (Point K))) (gs : List (Swaths K)) (c d),
    cs.length = gs.length →
    interleave (cs ++ [c ++ d]) gs = interleave (cs ++ [c]) gs ++ d := by
  intro cs gs c d h
  rw [interleave_append_conn _ _ _ h, interleave_append_conn _ _ _ h, List.append_assoc]

theorem interleave_last_group : ∀ (cs : List (List (Point K))) (gs : List (Swaths K)) (g h),
    cs.length = gs.length + 1 →
    interleave cs (gs ++ [g ++ h]) = interleave cs (gs ++ [g]) ++ gpts h := by
  intro cs gs g h hl
  rw [interleave_append_group _ _ _ hl, interleave_append_group _ _ _ hl]
  simp

/-- `range` loop with a shifted list. -/
theorem loop_eq : ∀ (gs : List (Swaths K)) (cs : List (List (Point K))),
    gs.length ≤ cs.length + 1 → cs.length ≤ gs.length →
    ((List.range gs.length).flatMap fun i =>
      ((gs[i]?.getD []).flatMap fun s => s.path) ++
      (if cs.length > i then (cs[i]?.getD []) else [])) =
    match gs with
    | [] => []
    | g :: gs' => gpts g ++ interleave cs gs'
  | [], cs, _, _ => by simp
  | [g], [], _, _ => by simp [interleave]
  | [g], [c], _, _ => by simp [interleave]
  | g :: g' :: gs, [], h, _ => by simp at h
  | [g], c :: c' :: cs, _, h => by simp at h
  | g :: g' :: gs, c :: cs, h1, h2 => by
    have ih := loop_eq (g' :: gs) cs (by simpa using h1) (by simpa using h2)
    rw [show (g :: g' :: gs).length = (g' :: gs).length + 1 from rfl, List.range_succ_eq_map,
      List.flatMap_cons, List.flatMap_map]
    have : (fun a : Nat => ((((g :: g' :: gs)[a.succ]?.getD []).flatMap fun s => s.path) ++
        if (c :: cs).length > a.succ then ((c :: cs)[a.succ]?.getD []) else [])) =
        fun i => (((g' :: gs)[i]?.getD []).flatMap fun s => s.path) ++
        (if cs.length > i then (cs[i]?.getD []) else []) := by
      funext i; simp
    rw [this, ih]
    simp [interleave]

theorem asLineString_eq (r : Route K) (h : Inv r) :
    r.asLineString = interleave r.connections r.groups := by
  obtain ⟨cs, gs⟩ := r
  obtain ⟨h1, h2⟩ := h
  simp only at h1 h2
  unfold Route.asLineString Route.isEmpty
  cases cs with
  | nil =>
    cases gs with
    | nil => simp [interleave]
    | cons g gs => simp at h1
  | cons c cs =>
    have := loop_eq gs cs (by simpa using h1) (by simpa using h2)
    simp only [List.length_cons, List.isEmpty_cons, Bool.and_false] at this ⊢
    have e : (fun i : Nat => (((gs[i]?.getD []).flatMap fun s => s.path) ++
        if cs.length + 1 > i + 1 then ((c :: cs)[i + 1]?.getD []) else [])) =
        fun i => ((gs[i]?.getD []).flatMap fun s => s.path) ++
        (if cs.length > i then (cs[i]?.getD []) else []) := by
      funext i; simp
    rw [e, this]
    cases gs with
    | nil =>
      have : cs = [] := by cases cs <;> simp at h2 ⊢
      subst this
      simp [interleave]
    | cons g gs => simp [interleave]

theorem inv_empty : Inv (Route.empty : Route K) := by simp [Inv, Route.empty]

/-- The connection that is open (or opened) and everything before. -/
theorem addConnection_spec (r : Route K) (h : Inv r) :
    ∃ cs c, r.addConnection.connections = cs ++ [c] ∧ r.addConnection.groups = r.groups ∧
      cs.length = r.groups.length ∧
      interleave r.addConnection.connections r.addConnection.groups
        = interleave r.connections r.groups ∧
      (r.connections.length = r.groups.length → cs = r.connections ∧ c = []) ∧
      (r.connections.length = r.groups.length + 1 → cs ++ [c] = r.connections) := by
  obtain ⟨h1, h2⟩ := h
  unfold Route.addConnection
  split
  · next hle =>
    have he : r.connections.length = r.groups.length := by omega
    refine ⟨r.connections, [], rfl, rfl, he, ?_, fun _ => ⟨rfl, rfl⟩, fun h => by omega⟩
    simp only []
    rw [interleave_append_conn _ _ _ he, List.append_nil]
  · next hle =>
    have hne : r.connections ≠ [] := by intro h0; simp [h0] at hle
    refine ⟨r.connections.dropLast, r.connections.getLast hne,
      (List.dropLast_concat_getLast hne).symm, rfl, ?_, rfl, fun h => by omega,
      fun _ => List.dropLast_concat_getLast hne⟩
    rw [List.length_dropLast]; omega

theorem inv_addConnection (r : Route K) (h : Inv r) : Inv r.addConnection := by
  obtain ⟨cs, c, h1, h2, h3, -⟩ := addConnection_spec r h
  unfold Inv
  rw [h1, h2]
  simp [h3]

theorem addConnection_length (r : Route K) (h : Inv r) :
    r.addConnection.connections.length = r.groups.length + 1 := by
  obtain ⟨cs, c, h1, h2, h3, -⟩ := addConnection_spec r h
  rw [h1]; simp [h3]

theorem addConnectionPoint_spec (r : Route K) (h : Inv r) (p : Point K) :
    ∃ r', r.addConnectionPoint p = .ok r' ∧ r'.groups = r.groups ∧
      r'.connections.length = r.groups.length + 1 ∧
      interleave r'.connections r'.groups = interleave r.connections r.groups ++ [p] := by
  obtain ⟨cs, c, h1, h2, h3, h4, -⟩ := addConnection_spec r h
  refine ⟨⟨cs ++ [c ++ [p]], r.groups⟩, ?_, rfl, by simp [h3], ?_⟩
  · unfold Route.addConnectionPoint
    simp only [h1, modifyBack_concat, Outcome.ok_bind, Outcome.pure_eq, h2]
  · simp only []
    rw [← h4, h1, h2, interleave_last_conn _ _ _ _ h3]

theorem fold_points (ps : List (Point K)) : ∀ (r : Route K), Inv r →
    ∃ r', foldOutcome Route.addConnectionPoint r ps = .ok r' ∧ r'.groups = r.groups ∧ Inv r' ∧
      (ps ≠ [] → r'.connections.length = r.groups.length + 1) ∧ (ps = [] → r' = r) ∧
      interleave r'.connections r'.groups = interleave r.connections r.groups ++ ps := by
  induction ps with
  | nil => intro r h; exact ⟨r, rfl, rfl, h, by simp, fun _ => rfl, by simp⟩
  | cons p ps ih =>
    intro r h
    obtain ⟨r₁, e1, g1, l1, i1⟩ := addConnectionPoint_spec r h p
    have hi1 : Inv r₁ := by unfold Inv; rw [g1]; omega
    obtain ⟨r₂, e2, g2, hi2, l2, n2, i2⟩ := ih r₁ hi1
    refine ⟨r₂, ?_, by rw [g2, g1], hi2, ?_, by simp, ?_⟩
    · simp only [foldOutcome, e1, Outcome.ok_bind, e2]
    · intro _
      by_cases hp : ps = []
      · rw [n2 hp, l1]
      · rw [l2 hp, g1]
    · rw [i2, i1]; simp

theorem addConnectionPoints_spec (r : Route K) (h : Inv r) (ps : List (Point K)) :
    ∃ r', r.addConnectionPoints ps = .ok r' ∧ r'.groups = r.groups ∧ Inv r' ∧
      r'.connections.length = r.groups.length + 1 ∧
      interleave r'.connections r'.groups = interleave r.connections r.groups ++ ps := by
  unfold Route.addConnectionPoints
  cases ps with
  | nil =>
    obtain ⟨cs, c, h1, h2, h3, h4, -⟩ := addConnection_spec r h
    refine ⟨r.addConnection, rfl, h2, inv_addConnection r h, addConnection_length r h, ?_⟩
    rw [h4, List.append_nil]
  | cons p ps =>
    obtain ⟨r', e, g, i, l, -, s⟩ := fold_points (p :: ps) r h
    refine ⟨r', ?_, g, i, l (by simp), s⟩
    simpa using e

theorem addSwaths_spec (r : Route K) (h : Inv r) (l : Swaths K) :
    ∃ r', r.addSwaths l = .ok r' ∧ Inv r' ∧ r'.connections.length = r'.groups.length ∧
      interleave r'.connections r'.groups = interleave r.connections r.groups ++ gpts l ∧
      r'.groups.flatten = r.groups.flatten ++ l ∧
      (∀ g ∈ r'.groups, g ∈ r.groups ∨ g = l ∨ ∃ g' ∈ r.groups, g = g' ++ l) ∧ r'.groups ≠ [] := by
  obtain ⟨cs, gs⟩ := r
  obtain ⟨h1, h2⟩ := h
  simp only at h1 h2
  unfold Route.addSwaths
  simp only []
  by_cases hc : cs.length = 0
  · have hc' : cs = [] := List.length_eq_zero_iff.1 hc
    subst hc'
    have hg : gs = [] := by simpa using h1
    subst hg
    refine ⟨⟨[[]], [l]⟩, by simp, by simp [Inv], by simp, by simp [interleave], by simp, by simp, by simp⟩
  · rw [if_neg hc]
    by_cases hl : cs.length > gs.length
    · rw [if_pos hl]
      refine ⟨⟨cs, gs ++ [l]⟩, rfl, ?_, by simp; omega, ?_, by simp, ?_, by simp⟩
      · simp [Inv]; omega
      · exact interleave_append_group cs gs l (by omega)
      · intro g hg
        rw [List.mem_append, List.mem_singleton] at hg
        tauto
    · rw [if_neg hl]
      have hne : gs ≠ [] := by rintro rfl; simp at hl; exact hc (by simp [hl])
      obtain ⟨gs', g, rfl⟩ : ∃ gs' g, gs = gs' ++ [g] :=
        ⟨_, _, (List.dropLast_concat_getLast hne).symm⟩
      rw [modifyBack_concat]
      have hlen : cs.length = gs'.length + 1 := by simp at h1 hl; omega
      refine ⟨⟨cs, gs' ++ [g ++ l]⟩, rfl, by simp [Inv]; omega, by simp; omega, ?_, by simp, ?_, by simp⟩
      · exact interleave_last_group cs gs' g l hlen
      · intro x hx
        rw [List.mem_append, List.mem_singleton] at hx
        rcases hx with hx | rfl
        · exact Or.inl (by simp [hx])
        · exact Or.inr (Or.inr ⟨g, by simp, rfl⟩)

theorem addSwath_eq (r : Route K) (h : Inv r) (s : Swath K) : r.addSwath s = r.addSwaths [s] := by
  obtain ⟨cs, gs⟩ := r
  obtain ⟨h1, h2⟩ := h
  simp only at h1 h2
  unfold Route.addSwath Route.addSwaths
  simp only []
  by_cases hl : (if cs.length = 0 then cs ++ [[]] else cs).length > gs.length
  · rw [if_pos (Or.inl hl), if_pos hl, modifyBack_concat]
    simp
  · rw [if_neg hl]
    have : gs.length ≠ 0 := by
      intro h0
      apply hl
      rw [h0]
      split
      · simp
      · omega
    rw [if_neg (by tauto)]

theorem addConnectedSwaths_spec (r : Route K) (h : Inv r) (ps) (l : Swaths K) :
    ∃ r', r.addConnectedSwaths ps l = .ok r' ∧ Inv r' ∧
      interleave r'.connections r'.groups = interleave r.connections r.groups ++ ps ++ gpts l ∧
      r'.groups.flatten = r.groups.flatten ++ l ∧
      (∀ g ∈ r'.groups, g ∈ r.groups ∨ g = l ∨ ∃ g' ∈ r.groups, g = g' ++ l) ∧ r'.groups ≠ [] := by
  obtain ⟨r₁, e1, g1, i1, l1, s1⟩ := addConnectionPoints_spec r h ps
  obtain ⟨r₂, e2, i2, l2, s2, f2, m2, n2⟩ := addSwaths_spec r₁ i1 l
  rw [g1] at f2 m2
  refine ⟨r₂, ?_, i2, by rw [s2, s1], f2, m2, n2⟩
  unfold Route.addConnectedSwaths
  rw [e1, Outcome.ok_bind, e2]

/-- One call in the invariant. -/
theorem exec_spec (sp : Point K → Point K → List (Point K)) (r : Route K) (h : Inv r) (o : ROp K) :
    ∃ r', o.exec sp r = .ok r' ∧ Inv r' ∧
      interleave r'.connections r'.groups = interleave r.connections r.groups ++
        o.points sp (if r.isEmpty then none else some r.endPoint) ∧
      r'.groups.flatten = r.groups.flatten ++ o.added ∧ r'.isEmpty = false ∧
      (∀ g ∈ r'.groups, g ∈ r.groups ∨ g = o.added ∧ (o.proper → g ≠ []) ∨
        ∃ g' ∈ r.groups, g = g' ++ o.added) := by
  have hemp : ∀ x : Route K, x.groups ≠ [] → x.isEmpty = false := by
    intro x hx
    unfold Route.isEmpty
    cases hg : x.groups with
    | nil => exact absurd hg hx
    | cons => simp
  have hempc : ∀ x : Route K, 0 < x.connections.length → x.isEmpty = false := by
    intro x hx
    unfold Route.isEmpty
    cases hg : x.connections with
    | nil => simp [hg] at hx
    | cons => simp
  cases o with
  | swath s =>
    obtain ⟨r', e, i, l, s', f, m, n⟩ := addSwaths_spec r h [s]
    refine ⟨r', ?_, i, ?_, ?_, hemp _ n, ?_⟩
    · simp only [ROp.exec, addSwath_eq r h, e]
    · simpa [ROp.points] using s'
    · simpa [ROp.added] using f
    · intro g hg
      rcases m g hg with h1 | h1 | h1
      · exact Or.inl h1
      · exact Or.inr (Or.inl ⟨h1, fun _ => by simp [h1]⟩)
      · exact Or.inr (Or.inr h1)
  | swaths l =>
    obtain ⟨r', e, i, l', s', f, m, n⟩ := addSwaths_spec r h l
    refine ⟨r', e, i, s', f, hemp _ n, ?_⟩
    intro g hg
    rcases m g hg with h1 | h1 | h1
    · exact Or.inl h1
    · exact Or.inr (Or.inl ⟨h1, fun hp => by rw [h1]; exact hp.1⟩)
    · exact Or.inr (Or.inr h1)
  | connection =>
    obtain ⟨cs, c, h1, h2, h3, h4, -⟩ := addConnection_spec r h
    refine ⟨r.addConnection, rfl, inv_addConnection r h, by simpa [ROp.points] using h4,
      by simp [h2, ROp.added], hempc _ (by rw [addConnection_length r h]; omega), ?_⟩
    intro g hg
    rw [h2] at hg
    exact Or.inl hg
  | connectionPoint p =>
    obtain ⟨r', e, g, l, s⟩ := addConnectionPoint_spec r h p
    refine ⟨r', e, by unfold Inv; rw [g]; omega, s, by simp [g, ROp.added],
      hempc _ (by omega), ?_⟩
    intro x hx
    rw [g] at hx
    exact Or.inl hx
  | connectionPoints ps =>
    obtain ⟨r', e, g, i, l, s⟩ := addConnectionPoints_spec r h ps
    refine ⟨r', e, i, s, by simp [g, ROp.added], hempc _ (by omega), ?_⟩
    intro x hx
    rw [g] at hx
    exact Or.inl hx
  | connectedSwaths ps l =>
    obtain ⟨r', e, i, s', f, m, n⟩ := addConnectedSwaths_spec r h ps l
    refine ⟨r', e, i, by simp [ROp.points, s'], f, hemp _ n, ?_⟩
    intro g hg
    rcases m g hg with h1 | h1 | h1
    · exact Or.inl h1
    · exact Or.inr (Or.inl ⟨h1, fun hp => by rw [h1]; exact hp.1⟩)
    · exact Or.inr (Or.inr h1)
  | swathVia s =>
    by_cases he : r.isEmpty = true
    · obtain ⟨r', e, i, l, s', f, m, n⟩ := addSwaths_spec r h [s]
      refine ⟨r', ?_, i, ?_, ?_, hemp _ n, ?_⟩
      · simp only [ROp.exec, Route.addSwathVia, he, if_true, Outcome.ok_bind, addSwath_eq r h, e]
      · simpa [ROp.points, he] using s'
      · simpa [ROp.added] using f
      · intro g hg
        rcases m g hg with h1 | h1 | h1
        · exact Or.inl h1
        · exact Or.inr (Or.inl ⟨h1, fun _ => by simp [h1]⟩)
        · exact Or.inr (Or.inr h1)
    · obtain ⟨r', e, i, s', f, m, n⟩ := addConnectedSwaths_spec r h (sp r.endPoint s.startPoint) [s]
      refine ⟨r', ?_, i, ?_, ?_, hemp _ n, ?_⟩
      · unfold Route.addConnectedSwaths at e
        obtain ⟨r₁, e1, g1, i1, l1, s1⟩ := addConnectionPoints_spec r h (sp r.endPoint s.startPoint)
        rw [e1, Outcome.ok_bind] at e
        simp only [ROp.exec, Route.addSwathVia, he, if_false, Outcome.ok_bind, e1,
          addSwath_eq r₁ i1, e]
        simp [e1, addSwath_eq r₁ i1, e]
      · simpa [ROp.points, he] using s'
      · simpa [ROp.added] using f
      · intro g hg
        rcases m g hg with h1 | h1 | h1
        · exact Or.inl h1
        · exact Or.inr (Or.inl ⟨h1, fun _ => by simp [h1]⟩)
        · exact Or.inr (Or.inr h1)

theorem fold_concat {α β : Type} (f : β → α → Outcome β) (b : β) (l : List α) (a : α) :
    foldOutcome f b (l ++ [a]) = (do let b' ← foldOutcome f b l; f b' a) := by
  induction l generalizing b with
  | nil =>
    show (do let b' ← f b a; Outcome.ok b') = f b a
    cases f b a <;> rfl
  | cons x l ih =>
    simp only [List.cons_append, foldOutcome]
    cases hx : f b x with
    | ok b' => simp only [Outcome.ok_bind]; exact ih b'
    | throw e => rfl
    | ub w => rfl

theorem run_concat (sp : Point K → Point K → List (Point K)) (ops : List (ROp K)) (o : ROp K) :
    run sp (ops ++ [o]) = (do let r ← run sp ops; o.exec sp r) := fold_concat _ _ _ _

theorem run_ok (sp : Point K → Point K → List (Point K)) (ops : List (ROp K)) :
    ∃ r, run sp ops = .ok r ∧ Inv r := by
  induction ops using List.reverseRecOn with
  | nil => exact ⟨_, rfl, inv_empty⟩
  | append_singleton ops o ih =>
    obtain ⟨r, h1, h2⟩ := ih
    obtain ⟨r', e, i, -⟩ := exec_spec sp r h2 o
    exact ⟨r', by rw [run_concat, h1, Outcome.ok_bind, e], i⟩

theorem run_isEmpty (sp : Point K → Point K → List (Point K)) (ops : List (ROp K)) (r)
    (h : run sp ops = .ok r) : r.isEmpty = true ↔ ops = [] := by
  induction ops using List.reverseRecOn with
  | nil =>
    have : r = Route.empty := by
      have : (Outcome.ok Route.empty : Outcome (Route K)) = .ok r := h
      injection this with this; exact this.symm
    subst this
    simp [Route.isEmpty, Route.empty]
  | append_singleton ops o ih =>
    obtain ⟨r₀, h1, h2⟩ := run_ok sp ops
    obtain ⟨r', e, i, -, -, hf, -⟩ := exec_spec sp r₀ h2 o
    rw [run_concat, h1, Outcome.ok_bind, e] at h
    injection h with h
    subst h
    simp [hf]

/-- Groups and swaths of routes built from proper parts. -/
theorem run_proper (sp : Point K → Point K → List (Point K)) (ops : List (ROp K)) (r)
    (h : run sp ops = .ok r) (hp : ∀ o ∈ ops, o.proper) :
    ∀ g ∈ r.groups, g ≠ [] ∧ ∀ s ∈ g, s.path ≠ [] := by
  induction ops using List.reverseRecOn generalizing r with
  | nil =>
    have : r = Route.empty := by
      have : (Outcome.ok Route.empty : Outcome (Route K)) = .ok r := h
      injection this with this; exact this.symm
    subst this
    simp [Route.empty]
  | append_singleton ops o ih =>
    obtain ⟨r₀, h1, h2⟩ := run_ok sp ops
    obtain ⟨r', e, i, -, -, -, hm⟩ := exec_spec sp r₀ h2 o
    rw [run_concat, h1, Outcome.ok_bind, e] at h
    injection h with h
    subst h
    have ih' := ih r₀ h1 (fun o ho => hp o (by simp [ho]))
    have hpo : o.proper := hp o (by simp)
    have hadd : ∀ s ∈ o.added, s.path ≠ [] := by
      intro s hs
      cases o with
      | swath s' => simp [ROp.added] at hs; rw [hs]; exact hpo
      | swaths l => exact hpo.2 s hs
      | connection => simp [ROp.added] at hs
      | connectionPoint p => simp [ROp.added] at hs
      | connectionPoints p => simp [ROp.added] at hs
      | connectedSwaths ps l => exact hpo.2 s hs
      | swathVia s' => simp [ROp.added] at hs; rw [hs]; exact hpo
    intro g hg
    rcases hm g hg with h3 | ⟨rfl, h3⟩ | ⟨g', h3, rfl⟩
    · exact ih' g h3
    · exact ⟨h3 hpo, hadd⟩
    · refine ⟨by simp [(ih' g' h3).1], ?_⟩
      intro s hs
      rcases List.mem_append.1 hs with hs | hs
      · exact (ih' g' h3).2 s hs
      · exact hadd s hs

theorem gpts_head {g : Swaths K} (hg : g ≠ []) (hs : ∀ s ∈ g, s.path ≠ []) :
    (gpts g).head? = some (g.head hg).startPoint := by
  cases g with
  | nil => exact absurd rfl hg
  | cons s l =>
    have := hs s (by simp)
    obtain ⟨p, q, hpq⟩ := List.exists_cons_of_ne_nil this
    simp [gpts, Swath.startPoint, hpq]

theorem gpts_last {g : Swaths K} (hg : g ≠ []) (hs : ∀ s ∈ g, s.path ≠ []) :
    (gpts g).getLast? = some (g.getLast hg).endPoint := by
  obtain ⟨l, s, rfl⟩ : ∃ l s, g = l ++ [s] := ⟨_, _, (List.dropLast_concat_getLast hg).symm⟩
  have := hs s (by simp)
  obtain ⟨q, p, hpq⟩ : ∃ q p, s.path = q ++ [p] := ⟨_, _, (List.dropLast_concat_getLast this).symm⟩
  simp [gpts, Swath.endPoint, hpq]

theorem startPoint_eq (r : Route K) (h : Inv r)
    (hp : ∀ g ∈ r.groups, g ≠ [] ∧ ∀ s ∈ g, s.path ≠ []) :
    r.startPoint = (interleave r.connections r.groups).head?.getD Point.zero := by
  obtain ⟨cs, gs⟩ := r
  obtain ⟨h1, h2⟩ := h
  simp only at h1 h2 hp ⊢
  unfold Route.startPoint
  cases cs with
  | nil =>
    have : gs = [] := by simpa using h1
    subst this
    simp [interleave]
  | cons c cs =>
    cases c with
    | cons p c => cases gs <;> simp [interleave]
    | nil =>
      cases gs with
      | nil =>
        have : cs = [] := by cases cs <;> simp at h2 ⊢
        subst this
        simp [interleave]
      | cons g gs =>
        have hg := hp g (by simp)
        have := gpts_head hg.1 hg.2
        simp only [interleave, List.head?_cons, Option.getD_some, List.head?_nil, List.nil_append]
        rw [List.head?_append, this, List.head?_eq_some_head hg.1]
        rfl

theorem endPoint_eq (r : Route K) (h : Inv r)
    (hp : ∀ g ∈ r.groups, g ≠ [] ∧ ∀ s ∈ g, s.path ≠ []) :
    r.endPoint = (interleave r.connections r.groups).getLast?.getD Point.zero := by
  obtain ⟨cs, gs⟩ := r
  obtain ⟨h1, h2⟩ := h
  simp only at h1 h2 hp ⊢
  have key : ∀ cs' : List (List (Point K)), cs'.length = gs.length →
      (⟨cs, gs⟩ : Route K).groupsEnd = (interleave cs' gs).getLast?.getD Point.zero := by
    intro cs' hl
    unfold Route.groupsEnd
    by_cases hg : gs = []
    · subst hg
      have : cs' = [] := by simpa using hl
      subst this
      simp [interleave]
    · obtain ⟨gs', g, rfl⟩ : ∃ l s, gs = l ++ [s] := ⟨_, _, (List.dropLast_concat_getLast hg).symm⟩
      have hg := hp g (by simp)
      have := gpts_last hg.1 hg.2
      rw [interleave_append_group _ _ _ (by simpa using hl)]
      simp only [List.getLast?_concat, Option.getD_some]
      rw [List.getLast?_append, this, List.getLast?_eq_some_getLast hg.1]
      rfl
  unfold Route.endPoint
  simp only []
  by_cases hl : cs.length > gs.length
  · rw [if_pos hl]
    have hne : cs ≠ [] := by rintro rfl; simp at hl
    obtain ⟨cs', c, rfl⟩ : ∃ l s, cs = l ++ [s] := ⟨_, _, (List.dropLast_concat_getLast hne).symm⟩
    have hl' : cs'.length = gs.length := by simp at h2 hl; omega
    rw [interleave_append_conn _ _ _ hl']
    simp only [List.getLast?_concat, Option.getD_some]
    cases hc : c.getLast? with
    | none =>
      have : c = [] := List.getLast?_eq_none_iff.1 hc
      subst this
      simp only [List.append_nil]
      exact key cs' hl'
    | some p => simp [List.getLast?_append, hc]
  · rw [if_neg hl]
    exact key cs (by omega)

theorem cloneGroups_path : ∀ (gs gs' : List (Swaths K)), Route.cloneGroups gs = .ok gs' →
    gs'.map (fun g => g.map fun s => s.path) = gs.map fun g => g.map fun s => s.path := by
  have hsw : ∀ (s s' : Swath K), s.clone = .ok s' → s'.path = s.path := by
    intro s s' h
    unfold Swath.clone Swath.make Swath.setWidth at h
    simp only [] at h
    split at h
    · cases h
    · simp only [Outcome.ok_bind, Outcome.pure_eq] at h
      injection h with h
      rw [← h]
  have hg : ∀ (g g' : Swaths K), Swaths.clone g = .ok g' →
      g'.map (fun s => s.path) = g.map fun s => s.path := by
    intro g
    induction g with
    | nil => intro g' h; unfold Swaths.clone at h; injection h with h; rw [← h]
    | cons s l ih =>
      intro g' h
      unfold Swaths.clone at h
      cases h1 : s.clone with
      | ok s' =>
        cases h2 : Swaths.clone l with
        | ok l' =>
          simp only [h1, h2, Outcome.ok_bind, Outcome.pure_eq] at h
          injection h with h
          rw [← h, List.map_cons, List.map_cons, hsw s s' h1, ih l' h2]
        | throw e => simp [h1, h2] at h
        | ub e => simp [h1, h2] at h
      | throw e => simp [h1] at h
      | ub e => simp [h1] at h
  intro gs
  induction gs with
  | nil => intro g' h; unfold Route.cloneGroups at h; injection h with h; rw [← h]
  | cons g l ih =>
    intro g' h
    unfold Route.cloneGroups at h
    cases h1 : Swaths.clone g with
    | ok s' =>
      cases h2 : Route.cloneGroups l with
      | ok l' =>
        simp only [h1, h2, Outcome.ok_bind, Outcome.pure_eq] at h
        injection h with h
        rw [← h, List.map_cons, List.map_cons, hg g s' h1, ih l' h2]
      | throw e => simp [h1, h2] at h
      | ub e => simp [h1, h2] at h
    | throw e => simp [h1] at h
    | ub e => simp [h1] at h

end F2C.RouteL
