import Verif.Lemmas.Route

/-!
# Lemmas about the cost of routes
-/

set_option linter.unusedSimpArgs false
set_option linter.unusedVariables false

namespace F2C.RouteL

open RouteSpec Outcome

/-- Distance between the last point of one list and the first point of the other one. -/
noncomputable def gap (a b : List RPoint) : ℝ :=
  match a.getLast?, b.head? with
  | some p, some q => pdist p q
  | _, _ => 0

theorem gap_nil_left (b : List RPoint) : gap [] b = 0 := by simp [gap]

theorem gap_nil_right (a : List RPoint) : gap a [] = 0 := by
  unfold gap; cases a.getLast? <;> simp

theorem lineLength_append (a b : List RPoint) :
    lineLength (a ++ b) = lineLength a + gap a b + lineLength b := by
  induction a with
  | nil => simp [gap, lineLength]
  | cons p a ih =>
    cases a with
    | nil =>
      cases b with
      | nil => simp [gap, lineLength]
      | cons q b => simp [gap, lineLength]
    | cons q a =>
      simp only [List.cons_append, lineLength] at ih ⊢
      rw [ih]
      have : gap (p :: q :: a) b = gap (q :: a) b := by simp [gap]
      rw [this]; ring

theorem gap_append_right {a b c : List RPoint} (hb : b ≠ []) : gap a (b ++ c) = gap a b := by
  obtain ⟨q, b', rfl⟩ := List.exists_cons_of_ne_nil hb
  simp [gap]

theorem multi_from (ps : List RPoint) : ∀ d : ℝ, (List.range (ps.length - 1)).foldl
    (fun d i => d + RPCost.points (ps[i]?.getD Point.zero) (ps[i + 1]?.getD Point.zero)) d
      = d + lineLength ps := by
  induction ps with
  | nil => intro d; simp [lineLength]
  | cons a ps ih =>
    intro d
    cases ps with
    | nil => simp [lineLength]
    | cons b l =>
      have e : (a :: b :: l).length - 1 = ((b :: l).length - 1) + 1 := by simp
      rw [e, List.range_succ_eq_map, List.foldl_cons, List.foldl_map]
      have := ih (d + pdist a b)
      simp only [Nat.succ_eq_add_one, List.getElem?_cons_succ, List.getElem?_cons_zero,
        Option.getD_some, RPCost.points] at this ⊢
      rw [this]
      simp only [lineLength]; ring

theorem multi_eq (ps : List RPoint) : RPCost.multi ps = lineLength ps := by
  unfold RPCost.multi
  rw [multi_from]; ring

theorem inAngle_ok {s : Swath ℝ} (h : 2 ≤ s.path.length) : ∃ a, s.inAngle = .ok a := by
  unfold Swath.inAngle
  match hp : s.path, h with
  | a :: b :: l, _ => exact ⟨_, rfl⟩

theorem outAngle_ok {s : Swath ℝ} (h : 2 ≤ s.path.length) : ∃ a, s.outAngle = .ok a := by
  unfold Swath.outAngle
  have h' : 2 ≤ s.path.reverse.length := by simpa using h
  match hp : s.path.reverse, h' with
  | a :: b :: l, _ => exact ⟨_, rfl⟩

theorem path_ne {s : Swath ℝ} (h : 2 ≤ s.path.length) : s.path ≠ [] := by
  intro h0; simp [h0] at h

theorem gap_ends {a b : List RPoint} (s : Swath ℝ) (t : Swath ℝ) (hs : s.path ≠ [])
    (ht : t.path ≠ []) : gap s.path t.path = pdist s.endPoint t.startPoint := by
  unfold gap Swath.endPoint Swath.startPoint
  rw [List.getLast?_eq_some_getLast hs, List.head?_eq_some_head ht]
  rfl

theorem gaps_eq (l : Swaths ℝ) : ∀ (d : ℝ) (prev : Swath ℝ), 2 ≤ prev.path.length →
    (∀ s ∈ l, 2 ≤ s.path.length) →
    RPCost.gaps d prev l = .ok (d + lineLength (gpts (prev :: l)) -
      ((prev :: l).map fun s => lineLength s.path).sum) := by
  induction l with
  | nil => intro d prev _ _; simp [RPCost.gaps, gpts]
  | cons s l ih =>
    intro d prev hp hl
    have hs := hl s (by simp)
    obtain ⟨a, ha⟩ := outAngle_ok hp
    obtain ⟨b, hb⟩ := inAngle_ok hs
    unfold RPCost.gaps
    simp only [ha, hb, Outcome.ok_bind]
    rw [ih _ s hs (fun x hx => hl x (by simp [hx]))]
    congr 1
    have : gpts (prev :: s :: l) = prev.path ++ gpts (s :: l) := by simp [gpts]
    have h2 : gap prev.path (gpts (s :: l)) = pdist prev.endPoint s.startPoint := by
      have : gpts (s :: l) = s.path ++ gpts l := by simp [gpts]
      rw [this, gap_append_right (path_ne hs), gap_ends (a := []) (b := []) prev s (path_ne hp) (path_ne hs)]
    rw [this, lineLength_append, h2]
    simp only [List.map_cons, List.sum_cons, RPCost.points]
    ring

theorem foldl_sum {α : Type} (f : α → ℝ) (l : List α) (d : ℝ) :
    l.foldl (fun d s => d + f s) d = d + (l.map f).sum := by
  induction l generalizing d with
  | nil => simp
  | cons a l ih => simp only [List.foldl_cons, ih, List.map_cons, List.sum_cons]; ring

theorem swaths_eq (l : Swaths ℝ) (hl : ∀ s ∈ l, 2 ≤ s.path.length) :
    RPCost.swaths l = .ok (lineLength (gpts l)) := by
  unfold RPCost.swaths
  cases l with
  | nil => simp [lineLength, gpts]
  | cons s l =>
    simp only []
    rw [gaps_eq l _ s (hl s (by simp)) (fun x hx => hl x (by simp [hx])), foldl_sum]
    have : RPCost.swath = fun s => lineLength s.path := by
      funext s; exact multi_eq _
    rw [this]
    congr 1
    ring

theorem fold_groups (gs : List (Swaths ℝ)) (hg : ∀ g ∈ gs, ∀ s ∈ g, 2 ≤ s.path.length) :
    ∀ d : ℝ, foldOutcome (fun d g => do let a ← RPCost.swaths g; return d + a) d gs
      = .ok (d + (gs.map fun g => lineLength (gpts g)).sum) := by
  induction gs with
  | nil => intro d; simp [foldOutcome]
  | cons g gs ih =>
    intro d
    simp only [foldOutcome, swaths_eq g (hg g (by simp)), Outcome.ok_bind]
    rw [Outcome.pure_eq, Outcome.ok_bind, ih (fun x hx => hg x (by simp [hx]))]
    simp only [List.map_cons, List.sum_cons]
    congr 1; ring

/-- The junctions counted by the last loop. -/
noncomputable def junction : List RPoint → List (List RPoint) → List (Swaths ℝ) → ℝ
  | _, _, [] => 0
  | c, [], g :: _ => gap c (gpts g)
  | c, c' :: cs, g :: gs => gap c (gpts g) + gap (gpts g) c' + junction c' cs gs

theorem multiSwaths_eq {c : List RPoint} {g : Swaths ℝ} (hg : g ≠ [])
    (hs : ∀ s ∈ g, 2 ≤ s.path.length) : RPCost.multiSwaths c g = .ok (gap c (gpts g)) := by
  unfold RPCost.multiSwaths gap
  rw [gpts_head hg (fun s h => path_ne (hs s h))]
  cases g with
  | nil => exact absurd rfl hg
  | cons s l =>
    obtain ⟨a, ha⟩ := inAngle_ok (hs s (by simp))
    cases c.getLast? with
    | none => rfl
    | some p => simp [ha, RPCost.points]

theorem swathsMulti_eq {c : List RPoint} {g : Swaths ℝ} (hg : g ≠ [])
    (hs : ∀ s ∈ g, 2 ≤ s.path.length) : RPCost.swathsMulti g c = .ok (gap (gpts g) c) := by
  unfold RPCost.swathsMulti gap
  rw [gpts_last hg (fun s h => path_ne (hs s h))]
  cases c with
  | nil => rfl
  | cons p c =>
    obtain ⟨a, ha⟩ := outAngle_ok (hs (g.getLast hg) (by simp))
    simp only [List.getLast?_eq_some_getLast hg, List.head?_cons, ha, Outcome.ok_bind,
      Outcome.pure_eq, RPCost.points]

theorem routeStep_succ (c : List RPoint) (cs : List (List RPoint)) (g : Swaths ℝ)
    (gs : List (Swaths ℝ)) (d : ℝ) (i : Nat) :
    RPCost.routeStep ⟨c :: cs, g :: gs⟩ d (i + 1) = RPCost.routeStep ⟨cs, gs⟩ d i := by
  unfold RPCost.routeStep
  simp

theorem foldOutcome_map {α β γ : Type} (f : β → α → Outcome β) (g : γ → α) (l : List γ) (b : β) :
    foldOutcome f b (l.map g) = foldOutcome (fun b c => f b (g c)) b l := by
  induction l generalizing b with
  | nil => rfl
  | cons a l ih =>
    simp only [List.map_cons, foldOutcome]
    cases f b (g a) with
    | ok b' => simp only [Outcome.ok_bind]; exact ih b'
    | throw e => rfl
    | ub w => rfl

theorem fold_route (gs : List (Swaths ℝ)) : ∀ (c : List RPoint) (cs : List (List RPoint)) (d : ℝ),
    (∀ g ∈ gs, g ≠ [] ∧ ∀ s ∈ g, 2 ≤ s.path.length) → gs.length ≤ cs.length + 1 →
    foldOutcome (RPCost.routeStep ⟨c :: cs, gs⟩) d (List.range gs.length)
      = .ok (d + junction c cs gs) := by
  induction gs with
  | nil => intro c cs d _ _; simp [foldOutcome, junction]
  | cons g gs ih =>
    intro c cs d hg hl
    obtain ⟨hg1, hg2⟩ := hg g (by simp)
    rw [List.length_cons, List.range_succ_eq_map]
    simp only [foldOutcome]
    simp only [foldOutcome_map, Nat.succ_eq_add_one, routeStep_succ]
    cases cs with
    | nil =>
      have : gs = [] := by cases gs <;> simp at hl ⊢
      subst this
      simp [foldOutcome, RPCost.routeStep, multiSwaths_eq hg1 hg2, junction]
    | cons c' cs =>
      have h0 : RPCost.routeStep ⟨c :: c' :: cs, g :: gs⟩ d 0
          = .ok (d + gap c (gpts g) + gap (gpts g) c') := by
        simp [RPCost.routeStep, multiSwaths_eq hg1 hg2, swathsMulti_eq hg1 hg2]
      rw [h0, Outcome.ok_bind]
      have := ih c' cs (d + gap c (gpts g) + gap (gpts g) c') (fun x hx => hg x (by simp [hx]))
        (by simpa using hl)
      rw [show (fun (b : ℝ) (c_1 : Nat) => RPCost.routeStep ⟨c' :: cs, gs⟩ b c_1)
        = RPCost.routeStep ⟨c' :: cs, gs⟩ from rfl, this]
      simp only [junction]
      congr 1; ring

/-- Whenever the connection between two groups has no points, the second group starts where the
first one ends. -/
def Joined : List (List RPoint) → List (Swaths ℝ) → Prop
  | c' :: cs, g :: g' :: gs => (c' = [] → gap (gpts g) (gpts g') = 0) ∧ Joined cs (g' :: gs)
  | _, _ => True

theorem gpts_ne {g : Swaths ℝ} (hg : g ≠ [] ∧ ∀ s ∈ g, 2 ≤ s.path.length) : gpts g ≠ [] := by
  intro h
  have := gpts_head hg.1 (fun s h => path_ne (hg.2 s h))
  rw [h] at this
  simp at this

theorem length_eq (gs : List (Swaths ℝ)) : ∀ (c : List RPoint) (cs : List (List RPoint)),
    (∀ g ∈ gs, g ≠ [] ∧ ∀ s ∈ g, 2 ≤ s.path.length) → gs.length ≤ cs.length + 1 →
    cs.length ≤ gs.length → Joined cs gs →
    lineLength (interleave (c :: cs) gs) = (gs.map fun g => lineLength (gpts g)).sum +
      ((c :: cs).map lineLength).sum + junction c cs gs := by
  induction gs with
  | nil =>
    intro c cs _ _ h2 _
    have : cs = [] := by simpa using h2
    subst this
    simp [interleave, junction]
  | cons g gs ih =>
    intro c cs hg h1 h2 hj
    have hgn := gpts_ne (hg g (by simp))
    have e1 : interleave (c :: cs) (g :: gs) = c ++ (gpts g ++ interleave cs gs) := by
      simp [interleave]
    rw [e1, lineLength_append, gap_append_right hgn, lineLength_append]
    cases cs with
    | nil =>
      have : gs = [] := by cases gs <;> simp at h1 ⊢
      subst this
      simp [interleave, junction, gap_nil_right, lineLength]
      ring
    | cons c' cs =>
      have hj' : Joined cs gs := by
        cases gs with
        | nil => cases cs <;> simp [Joined]
        | cons g' gs => exact hj.2
      rw [ih c' cs (fun x hx => hg x (by simp [hx])) (by simpa using h1) (by simpa using h2) hj']
      have hgap : gap (gpts g) (interleave (c' :: cs) gs) = gap (gpts g) c' := by
        by_cases hc : c' = []
        · subst hc
          cases gs with
          | nil =>
            have : cs = [] := by simpa using h2
            subst this
            simp [interleave]
          | cons g' gs =>
            have hg'n := gpts_ne (hg g' (by simp))
            have e2 : interleave ([] :: cs) (g' :: gs) = gpts g' ++ interleave cs gs := by
              simp [interleave]
            rw [e2, gap_append_right hg'n, hj.1 rfl, gap_nil_right]
        · have : ∃ t, interleave (c' :: cs) gs = c' ++ t := by
            cases gs with
            | nil => exact ⟨interleave cs [], by simp [interleave]⟩
            | cons g' gs => exact ⟨gpts g' ++ interleave cs gs, by simp [interleave]⟩
          obtain ⟨t, ht⟩ := this
          rw [ht, gap_append_right hc]
      rw [hgap]
      simp only [List.map_cons, List.sum_cons, junction]
      ring

theorem route_cost (r : Route ℝ) (hi : Inv r)
    (hg : ∀ g ∈ r.groups, g ≠ [] ∧ ∀ s ∈ g, 2 ≤ s.path.length)
    (hj : Joined r.connections.tail r.groups) : RPCost.route r = .ok r.length := by
  unfold Route.length
  rw [asLineString_eq r hi]
  obtain ⟨cs, gs⟩ := r
  obtain ⟨h1, h2⟩ := hi
  simp only at h1 h2 hg hj ⊢
  unfold RPCost.route
  simp only [fold_groups gs (fun g h => (hg g h).2), Outcome.ok_bind]
  cases cs with
  | nil =>
    have : gs = [] := by simpa using h1
    subst this
    simp [interleave, lineLength, foldOutcome]
  | cons c cs =>
    rw [fold_route gs c cs _ hg (by simpa using h1),
      length_eq gs c cs hg (by simpa using h1) (by simpa using h2) hj, foldl_sum]
    have : RPCost.multi = lineLength := by funext c; exact multi_eq c
    rw [this]
    congr 1; ring

end F2C.RouteL
