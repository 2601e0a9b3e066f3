import Verif.Lemmas.TurningCC
import Verif.Lemmas.PathSpline
import Verif.Props.PathSpline
import Verif.Props.PathPlanningSpec

/-! # Lemmas about path planning -/

namespace F2C

open Real Turning PP Props.TurningSpec Props.PathPlanningSpec

set_option linter.unusedSimpArgs false
set_option linter.unusedVariables false

/-! ## turns keep everything but position and heading -/

/-- same length, direction, type and velocity -/
def SameRest (s t : PathState ℝ) : Prop :=
  t.len = s.len ∧ t.dir = s.dir ∧ t.type = s.type ∧ t.velocity = s.velocity

theorem correctStart_rest (p1 : RPoint) (p : Path) :
    List.Forall₂ (fun s t => SameRest s t ∧ t.angle = s.angle) p (correctStart p1 p) := by
  cases p with
  | nil => exact .nil
  | cons s l =>
    unfold correctStart
    refine .cons ?_ ?_
    · split <;> exact ⟨⟨rfl, rfl, rfl, rfl⟩, rfl⟩
    · rw [List.forall₂_same]; intro x _; exact ⟨⟨rfl, rfl, rfl, rfl⟩, rfl⟩

theorem correctEnd_rest (p2 : RPoint) (p : Path) :
    List.Forall₂ (fun s t => SameRest s t ∧ t.angle = s.angle) p (correctEnd p2 p) := by
  have same : ∀ q : Path, List.Forall₂ (fun s t => SameRest s t ∧ t.angle = s.angle) q q := fun q => by
    rw [List.forall₂_same]; intro x _; exact ⟨⟨rfl, rfl, rfl, rfl⟩, rfl⟩
  cases p using List.reverseRecOn with
  | nil => exact .nil
  | append_singleton p s =>
    unfold correctEnd
    rw [List.getLast?_append]
    simp only [List.getLast?_singleton, Option.some_or]
    split
    · rw [List.dropLast_concat]
      exact List.rel_append (same p) (.cons ⟨⟨rfl, rfl, rfl, rfl⟩, rfl⟩ .nil)
    · exact same _

theorem forall₂_comp {α β γ : Type} {R : α → β → Prop} {S : β → γ → Prop} {T : α → γ → Prop}
    (h : ∀ a b c, R a b → S b c → T a c) {l : List α} {m : List β} {n : List γ}
    (h1 : List.Forall₂ R l m) (h2 : List.Forall₂ S m n) : List.Forall₂ T l n := by
  induction h1 generalizing n with
  | nil => cases h2; exact .nil
  | cons hr _ ih => cases h2 with
    | cons hs ht => exact .cons (h _ _ _ hr hs) (ih ht)

theorem finish_rest (n : Normal) (p1 p2 : RPoint) (p : Path) :
    finish n p1 p2 p = [] ∨
      List.Forall₂ (fun s t => SameRest s t ∧ 0 ≤ t.angle ∧ t.angle < 2 * π) p (finish n p1 p2 p) := by
  by_cases h : List.length p ≤ 1
  · left; unfold finish; rw [if_pos h]
  · right
    unfold finish
    rw [if_neg h, place_mirror]
    have h1 : List.Forall₂ (fun s t => SameRest s t ∧ 0 ≤ t.angle ∧ t.angle < 2 * π) p
        (p.map (placed p1 n)) := by
      rw [List.forall₂_map_right_iff, List.forall₂_same]
      intro s _
      refine ⟨placed_rest p1 n s, ?_⟩
      cases hi : n.inverted <;> simp only [placed, hi] <;>
        exact ⟨mod2pi_nonneg _, mod2pi_lt _⟩
    have h2 : List.Forall₂ (fun s t => SameRest s t ∧ t.angle = s.angle) (p.map (placed p1 n))
        (correct p1 p2 (p.map (placed p1 n))) := by
      unfold correct
      rw [if_neg (by simpa using h)]
      exact forall₂_comp (fun a b c ⟨⟨a1, a2, a3, a4⟩, a5⟩ ⟨⟨b1, b2, b3, b4⟩, b5⟩ =>
        ⟨⟨b1.trans a1, b2.trans a2, b3.trans a3, b4.trans a4⟩, b5.trans a5⟩)
        (correctStart_rest p1 _) (correctEnd_rest p2 _)
    exact forall₂_comp (fun a b c ⟨⟨a1, a2, a3, a4⟩, a5⟩ ⟨⟨b1, b2, b3, b4⟩, b5⟩ =>
        ⟨⟨b1.trans a1, b2.trans a2, b3.trans a3, b4.trans a4⟩, b5 ▸ a5⟩) h1 h2

/-- where the answer `createTurn` works on comes from, and the planner afterwards -/
theorem createTurn_answer {solve : Solver} {t t' : Planner} {hist : List Request}
    (ht : Reach solve t hist) {r : Robot} {p1 p2 : RPoint} {a1 a2 : ℝ} {q : Path}
    (h : createTurn solve t r p1 a1 p2 a2 = .ok (q, t')) :
    (∃ hist', Reach solve t' hist') ∧ ∃ (w : Request) (p : Path), w.answer solve = .ok p ∧
      q = finish (normalTurn p1 a1 p2 a2) p1 p2 p := by
  obtain ⟨p, hq, h1 | h1⟩ := createTurn_ok h
  · obtain ⟨w, _, _, hw⟩ := cached_answer ht h1.2
    exact ⟨⟨_, Reach.turn ht h1.1 h⟩, w, p, hw, hq⟩
  · refine ⟨⟨hist, h1.2.1 ▸ ht⟩, ⟨r, t.disc, _, _, _⟩, p, h1.2.2, hq⟩

theorem createTurn_turns {solve : Solver} (hs : TurnsOnly solve) {t t' : Planner} {hist : List Request}
    (ht : Reach solve t hist) {r : Robot} {p1 p2 : RPoint} {a1 a2 : ℝ} {q : Path}
    (h : createTurn solve t r p1 a1 p2 a2 = .ok (q, t')) :
    (∀ s ∈ q, s.type = .turn) ∧ ∃ hist', Reach solve t' hist' := by
  obtain ⟨hh, w, p, hw, rfl⟩ := createTurn_answer ht h
  refine ⟨fun s hsq => ?_, hh⟩
  rcases finish_rest (normalTurn p1 a1 p2 a2) p1 p2 p with h0 | h0
  · rw [h0] at hsq; cases hsq
  · obtain ⟨s', hs', ⟨_, _, h3, _⟩, _⟩ := forall₂_mem_right h0 hsq
    rw [h3]; exact hs w p hw s' hs'

/-! ## discretize keeps types -/

theorem mapOutcome_ok {α β : Type} {f : α → Outcome β} {l : List α} {bs : List β}
    (h : mapOutcome f l = .ok bs) : List.Forall₂ (fun a b => f a = .ok b) l bs := by
  induction l generalizing bs with
  | nil => simp [mapOutcome] at h; subst h; exact .nil
  | cons a l ih =>
    rw [mapOutcome] at h
    obtain ⟨b, hb, h⟩ := bind_ok h
    obtain ⟨bs', hbs, h⟩ := bind_ok h
    injection h with h
    subst h
    exact .cons hb (ih hbs)

theorem knots_types (p : Path) (last : PathState ℝ) (hl : List.getLast? p = some last) :
    ∀ k ∈ Path.knots p last, ∃ s ∈ p, k.type = s.type := by
  intro k hk
  unfold Path.knots at hk
  rcases List.mem_append.1 hk with hk | hk
  · exact ⟨k, (List.mem_filter.1 hk).1, rfl⟩
  · simp only [List.mem_singleton] at hk
    exact ⟨last, List.mem_of_getLast? hl, by rw [hk]⟩

theorem populate_types {p q : Path} {n : Int} (h : p.populate n = .ok q) :
    ∀ s ∈ q, ∃ s' ∈ p, s.type = s'.type := by
  unfold Path.populate at h
  split at h
  · injection h with h; subst h; exact fun s hs => ⟨s, hs, rfl⟩
  · split at h
    · cases h
    · rename_i last hl
      simp only at h
      obtain ⟨ang, _, h⟩ := bind_ok h
      obtain ⟨sx, _, h⟩ := bind_ok h
      obtain ⟨sy, _, h⟩ := bind_ok h
      obtain ⟨sa, _, h⟩ := bind_ok h
      split at h
      · cases h
      · intro s hs
        obtain ⟨i, _, hi⟩ := forall₂_mem_right (mapOutcome_ok h) hs
        unfold Path.sample at hi
        simp only at hi
        obtain ⟨px, _, hi⟩ := bind_ok hi
        obtain ⟨py, _, hi⟩ := bind_ok hi
        obtain ⟨a, _, hi⟩ := bind_ok hi
        obtain ⟨it, _, hi⟩ := bind_ok hi
        cases hk : (Path.knots p last)[it]? with
        | none => rw [hk] at hi; cases hi
        | some k =>
          rw [hk] at hi
          injection hi with hi
          obtain ⟨s', hs', e⟩ := knots_types p last hl k (List.mem_of_getElem? hk)
          exact ⟨s', hs', by rw [← hi]; exact e⟩

theorem reduce_types (d : ℝ) (p : Path) : ∀ s ∈ Path.reduce d p, ∃ s' ∈ p, s.type = s'.type := by
  obtain ⟨groups, hp, hg, _⟩ := reduce_spec d p
  intro s hs
  obtain ⟨g, hg', s', rest, e1, e2, _⟩ := forall₂_mem_right hg hs
  refine ⟨s', ?_, by rw [e2]⟩
  rw [hp]
  exact List.mem_flatten.2 ⟨g, hg', by rw [e1]; exact List.mem_cons_self⟩

theorem discretize_types {p q : Path} {step : ℝ} (h : p.discretize step = .ok q) :
    ∀ s ∈ q, ∃ s' ∈ p, s.type = s'.type := by
  unfold Path.discretize at h
  split at h
  · split at h
    · cases h
    · obtain ⟨n, _, h⟩ := bind_ok h
      obtain ⟨q', hq, h⟩ := bind_ok h
      injection h with h
      subst h
      intro s hs
      obtain ⟨s', hs', e⟩ := reduce_types step q' s hs
      obtain ⟨s'', hs'', e'⟩ := populate_types hq s' hs'
      exact ⟨s'', hs'', e.trans e'⟩
  · injection h with h; subst h; exact fun s hs => ⟨s, hs, rfl⟩

/-! ## swaths -/

theorem swathStates_driven (v : ℝ) (l : List RPoint) :
    List.Forall₂ (Segment v) (l.zip l.tail) (Path.swathStates v l) := by
  induction l with
  | nil => exact .nil
  | cons a l ih =>
    cases l with
    | nil => exact .nil
    | cons b l =>
      simp only [List.tail_cons, List.zip_cons_cons] at ih ⊢
      unfold Path.swathStates
      refine .cons ?_ ih
      have hx : pdist b a * cos (angleFromPoint ⟨b.x - a.x, b.y - a.y, 0⟩) = b.x - a.x :=
        polar_x ⟨b.x - a.x, b.y - a.y, 0⟩
      have hy : pdist b a * sin (angleFromPoint ⟨b.x - a.x, b.y - a.y, 0⟩) = b.y - a.y :=
        polar_y ⟨b.x - a.x, b.y - a.y, 0⟩
      refine ⟨rfl, ?_, pdist_comm _ _, ?_, rfl, rfl, rfl⟩
      · unfold Props.PathSpec.SameXY PathState.atEnd pointFromAngle
        simp only [PathDir.sign]
        constructor
        · linarith
        · linarith
      · simp only
        rw [angleFromPoint_eq]; exact ⟨mod2pi_nonneg _, mod2pi_lt _⟩

theorem appendSwath_ok {path q : Path} {s : Swath ℝ} {v : ℝ} (h : path.appendSwath s v = .ok q) :
    q = path ++ Path.swathStates v s.path := by
  unfold Path.appendSwath at h
  split at h
  · cases h
  · injection h with h; exact h.symm

theorem planSwathsFrom_drives {solve : Solver} (hs : TurnsOnly solve) (r : Robot) (l : Swaths ℝ) :
    ∀ (s : Swath ℝ) (t t' : Planner) (hist : List Request) (path p : Path), Reach solve t hist →
      planSwathsFrom solve r t path s l = .ok (p, t') →
      (∃ q, p = path ++ q ∧ Drives r.cruise (s :: l) q) ∧ ∃ hist', Reach solve t' hist' := by
  induction l with
  | nil =>
    intro s t t' hist path p ht h
    unfold planSwathsFrom at h
    obtain ⟨q, hq, h⟩ := bind_ok h
    injection h with h
    injection h with h1 h2
    subst h1; subst h2
    rw [appendSwath_ok hq]
    exact ⟨⟨_, rfl, .one s _ (swathStates_driven _ _)⟩, hist, ht⟩
  | cons s' l ih =>
    intro s t t' hist path p ht h
    unfold planSwathsFrom at h
    obtain ⟨path', hp, h⟩ := bind_ok h
    obtain ⟨a1, _, h⟩ := bind_ok h
    obtain ⟨a2, _, h⟩ := bind_ok h
    obtain ⟨⟨q, t1⟩, hc, h⟩ := bind_ok h
    obtain ⟨q', hq, h⟩ := bind_ok h
    obtain ⟨hturn, hist', ht'⟩ := createTurn_turns hs ht hc
    obtain ⟨⟨w, hw, hd⟩, hr⟩ := ih s' t1 t' hist' _ p ht' h
    refine ⟨⟨Path.swathStates r.cruise s.path ++ q' ++ w, ?_, ?_⟩, hr⟩
    · rw [hw, appendSwath_ok hp]; simp [List.append_assoc]
    · refine .cons s s' l _ q' w (swathStates_driven _ _) (fun x hx => ?_) hd
      obtain ⟨x', hx', e⟩ := discretize_types hq x hx
      rw [e]; exact hturn x' hx'

theorem planSwaths_drives {solve : Solver} (hs : TurnsOnly solve) (r : Robot) (l : Swaths ℝ)
    {t t' : Planner} {hist : List Request} {p : Path} (ht : Reach solve t hist)
    (h : planSwaths solve r t l = .ok (p, t')) :
    Drives r.cruise l p ∧ ∃ hist', Reach solve t' hist' := by
  cases l with
  | nil =>
    injection h with h
    injection h with h1 h2
    subst h1; subst h2
    exact ⟨.nil, hist, ht⟩
  | cons s l =>
    obtain ⟨⟨q, hq, hd⟩, hr⟩ := planSwathsFrom_drives hs r l s t t' hist [] p ht h
    rw [List.nil_append] at hq
    exact ⟨hq ▸ hd, hr⟩

/-- the states on swaths, of a path that drives the swaths -/
theorem drives_filter {v : ℝ} {l : Swaths ℝ} {p : Path} (h : Drives v l p) :
    ∃ parts : List Path, List.Forall₂ (SwathDriven v) l parts ∧
      p.filter (fun s => s.type = .swath) = parts.flatten := by
  have seg : ∀ (s : Swath ℝ) (ts : Path), SwathDriven v s ts →
      ts.filter (fun s => s.type = .swath) = ts := by
    intro s ts hts
    rw [List.filter_eq_self]
    intro x hx
    obtain ⟨_, _, hseg⟩ := forall₂_mem_right hts hx
    simpa using hseg.type
  induction h with
  | nil => exact ⟨[], .nil, rfl⟩
  | one s ts h => exact ⟨[ts], .cons h .nil, by rw [seg s ts h]; simp⟩
  | cons s s' l ts turn p h ht _ ih =>
    obtain ⟨parts, hp, hf⟩ := ih
    refine ⟨ts :: parts, .cons h hp, ?_⟩
    have e : turn.filter (fun s => s.type = .swath) = [] := by
      rw [List.filter_eq_nil_iff]
      intro x hx
      simp [ht x hx]
    rw [List.filter_append, List.filter_append, seg s ts h, e, hf]
    simp

/-! ## connections -/

theorem turnsAlong_turns {solve : Solver} (hs : TurnsOnly solve) (r : Robot) (l : List Pose) :
    ∀ (t t' : Planner) (hist : List Request) (path p : Path), Reach solve t hist →
      turnsAlong solve r t path l = .ok (p, t') →
      (∃ q, p = path ++ q ∧ ∀ s ∈ q, s.type = .turn) ∧ ∃ hist', Reach solve t' hist' := by
  induction l with
  | nil =>
    intro t t' hist path p ht h
    unfold turnsAlong at h
    injection h with h
    injection h with h1 h2
    subst h1; subst h2
    exact ⟨⟨[], by simp, by simp⟩, hist, ht⟩
  | cons a l ih =>
    intro t t' hist path p ht h
    cases l with
    | nil =>
      unfold turnsAlong at h
      injection h with h
      injection h with h1 h2
      subst h1; subst h2
      exact ⟨⟨[], by simp, by simp⟩, hist, ht⟩
    | cons b l =>
      unfold turnsAlong at h
      obtain ⟨⟨q, t1⟩, hc, h⟩ := bind_ok h
      obtain ⟨hturn, hist', ht'⟩ := createTurn_turns hs ht hc
      obtain ⟨⟨w, hw, hd⟩, hr⟩ := ih t1 t' hist' _ p ht' h
      refine ⟨⟨q ++ w, by rw [hw]; simp, fun s hsq => ?_⟩, hr⟩
      rcases List.mem_append.1 hsq with hsq | hsq
      · exact hturn s hsq
      · exact hd s hsq

theorem planConnection_turns {solve : Solver} (hs : TurnsOnly solve) (safe : Robot → ℝ) (r : Robot)
    {t t' : Planner} {hist : List Request} {s1 s2 : Swaths ℝ} {mp : List RPoint} {p : Path}
    (ht : Reach solve t hist) (h : planConnection solve safe r t s1 mp s2 = .ok (p, t')) :
    (∀ s ∈ p, s.type = .turn) ∧ ∃ hist', Reach solve t' hist' := by
  unfold planConnection at h
  obtain ⟨a, _, h⟩ := bind_ok h
  cases a with
  | none =>
    injection h with h
    injection h with h1 h2
    subst h1; subst h2
    exact ⟨by simp, hist, ht⟩
  | some a =>
    simp only at h
    obtain ⟨b, _, h⟩ := bind_ok h
    cases b with
    | none =>
      injection h with h
      injection h with h1 h2
      subst h1; subst h2
      exact ⟨by simp, hist, ht⟩
    | some b =>
      obtain ⟨⟨q, hq, hd⟩, hr⟩ := turnsAlong_turns hs r _ t t' hist [] p ht h
      rw [List.nil_append] at hq
      exact ⟨hq ▸ hd, hr⟩

theorem planGroups_filter {solve : Solver} (hs : TurnsOnly solve) (safe : Robot → ℝ) (r : Robot)
    (gs : List (Swaths ℝ)) : ∀ (t t' : Planner) (hist : List Request) (path p : Path)
      (prev : Swaths ℝ) (cs : List (List RPoint)), Reach solve t hist →
      planGroups solve safe r t path prev cs gs = .ok (p, t') →
      (∃ q, p = path ++ q ∧ ∃ parts : List Path, List.Forall₂ (SwathDriven r.cruise) gs.flatten parts ∧
        q.filter (fun s => s.type = .swath) = parts.flatten) ∧ ∃ hist', Reach solve t' hist' := by
  induction gs with
  | nil =>
    intro t t' hist path p prev cs ht h
    unfold planGroups at h
    injection h with h
    injection h with h1 h2
    subst h1; subst h2
    exact ⟨⟨[], by simp, [], .nil, rfl⟩, hist, ht⟩
  | cons g gs ih =>
    intro t t' hist path p prev cs ht h
    cases cs with
    | nil => unfold planGroups at h; cases h
    | cons c cs =>
      unfold planGroups at h
      obtain ⟨⟨q, t1⟩, h1, h⟩ := bind_ok h
      obtain ⟨⟨q', t2⟩, h2, h⟩ := bind_ok h
      obtain ⟨hq, hist1, ht1⟩ := planConnection_turns hs safe r ht h1
      obtain ⟨hd, hist2, ht2⟩ := planSwaths_drives hs r g ht1 h2
      obtain ⟨⟨w, hw, parts, hp, hf⟩, hr⟩ := ih t2 t' hist2 _ p g cs ht2 h
      obtain ⟨parts', hp', hf'⟩ := drives_filter hd
      refine ⟨⟨q ++ q' ++ w, by rw [hw]; simp, parts' ++ parts, ?_, ?_⟩, hr⟩
      · rw [List.flatten_cons]; exact List.rel_append hp' hp
      · have e : q.filter (fun s => s.type = .swath) = [] := by
          rw [List.filter_eq_nil_iff]
          intro x hx
          simp [hq x hx]
        rw [List.filter_append, List.filter_append, e, hf, hf']
        simp

/-! ## no undefined behaviour -/

theorem bind_notUb {α β : Type} {x : Outcome α} {f : α → Outcome β} (h : x.isUb = false)
    (h' : ∀ a, x = .ok a → (f a).isUb = false) : (x >>= f).isUb = false := by
  cases x with
  | ok a => exact h' a rfl
  | throw e => rfl
  | ub e => cases h

theorem createTurn_notUb {solve : Solver} (hs : GoodSolver solve) (t : Planner) (r : Robot)
    (h1 : |r.maxCurv| ≤ 2000000) (h2 : |r.diffCurv| ≤ 2000000) (p1 p2 : RPoint) (a1 a2 : ℝ)
    (hd : pdist p1 p2 ≤ 2000000) : (createTurn solve t r p1 a1 p2 a2).isUb = false := by
  obtain ⟨r1, r2, r3, r4⟩ := normal_ranges p1 p2 a1 a2
  have hp := Real.pi_le_four
  unfold createTurn
  simp only
  refine bind_notUb ?_ (fun _ _ => rfl)
  unfold simpleTurn
  have hsolve : (solve r t.disc (normalTurn p1 a1 p2 a2).dist (normalTurn p1 a1 p2 a2).start
      (normalTurn p1 a1 p2 a2).stop).isUb = false :=
    (hs ⟨r, t.disc, _, _, _⟩).1
  cases t.useCache
  · simp only [Bool.false_eq_true, if_false]
    exact bind_notUb hsolve (fun _ _ => rfl)
  · simp only [if_true]
    unfold turnIfNotCached
    obtain ⟨k, hk⟩ := key_defined r (normalTurn p1 a1 p2 a2).dist (normalTurn p1 a1 p2 a2).start
      (normalTurn p1 a1 p2 a2).stop (by
        simp only [List.mem_cons, List.not_mem_nil, or_false, forall_eq_or_imp, forall_eq]
        refine ⟨h1, h2, ?_, ?_, ?_⟩
        · rw [normal_dist, abs_of_nonneg (pdist_nonneg _ _)]; exact hd
        · rw [abs_of_nonneg r1]; linarith
        · rw [abs_of_nonneg r3]; linarith)
    rw [hk, Outcome.ok_bind]
    split
    · rfl
    · exact bind_notUb hsolve (fun _ _ => rfl)

theorem forall₂_lengthOf {p q : Path} (h : List.Forall₂ (fun s t => t.len = s.len) p q) :
    Props.PathSpec.lengthOf q = Props.PathSpec.lengthOf p := by
  induction h with
  | nil => rfl
  | cons h _ ih => rw [lengthOf_cons, lengthOf_cons, h, ih]

theorem toInt_notUb {v : ℝ} (h0 : 0 ≤ v) (h : v ≤ 2000000000) : (Path.toInt v).isUb = false := by
  obtain ⟨k, hk⟩ := toInt_defined (v := v / 1000) (by
    rw [abs_of_nonneg (by positivity)]; linarith)
  rw [mul_div_cancel₀ _ (by norm_num)] at hk
  rw [hk]; rfl

theorem populate_zero_len (p : Path) (n : Int) (h3 : 3 ≤ List.length p) (h0 : ∀ s ∈ p, s.len = 0) :
    (p.populate n).isUb = false := by
  unfold Path.populate
  rw [if_neg (by omega)]
  cases hl : List.getLast? p with
  | none => rw [List.getLast?_eq_none_iff] at hl; subst hl; simp at h3
  | some last =>
    simp only
    have hk : Path.knots p last = [{ last with point := last.atEnd, len := 0 }] := by
      unfold Path.knots
      have : List.filter (fun s => decide (s.len ≠ 0)) p = [] := by
        rw [List.filter_eq_nil_iff]
        intro s hs; simp [h0 s hs]
      rw [this]; rfl
    rw [hk]
    refine bind_notUb rfl fun ang _ => bind_notUb rfl fun sx hsx => ?_
    exact absurd hsx (by simp [Spline.make, Spline.setPoints, Path.arcs])

theorem discretize_notUb (p : Path) (hlen : ∀ s ∈ p, 0 ≤ s.len)
    (hang : ∀ s ∈ p, |s.angle| ≤ 1000000000) (hsize : List.length p ≤ 1000000000)
    (hL : Props.PathSpec.lengthOf p ≤ 20000000) : (p.discretize (1 / 10)).isUb = false := by
  by_cases h3 : 3 ≤ List.length p
  · by_cases hpos : ∃ s ∈ p, 0 < s.len
    · by_cases hd : 10 * Props.PathSpec.lengthOf p < 1 / 10
      · rw [Props.C35_discretize_destroys p (1 / 10) (by norm_num) h3 hlen hpos hang hsize hd]; rfl
      · obtain ⟨q, hq, _⟩ := Props.C35_discretize_partial p (1 / 10) (by norm_num) h3 hlen hang hsize
          (not_lt.1 hd) (by linarith)
        rw [hq]; rfl
    · have h0 : ∀ s ∈ p, s.len = 0 := fun s hs =>
        le_antisymm (not_lt.1 fun h => hpos ⟨s, hs, h⟩) (hlen s hs)
      unfold Path.discretize
      rw [if_pos (by omega), if_neg (by norm_num)]
      refine bind_notUb ?_ fun n _ => bind_notUb (populate_zero_len p n h3 h0) fun _ _ => rfl
      rw [totalLength_eq]
      refine toInt_notUb (mul_nonneg (by norm_num) (lengthOf_nonneg p)) ?_
      norm_num; linarith
  · unfold Path.discretize
    split
    · rw [if_neg (by norm_num)]
      refine bind_notUb ?_ fun n _ => bind_notUb ?_ fun _ _ => rfl
      · rw [totalLength_eq]
        refine toInt_notUb (mul_nonneg (by norm_num) (lengthOf_nonneg p)) ?_
        norm_num; linarith
      · unfold Path.populate; rw [if_pos (by omega)]; rfl
    · rfl

theorem turn_discretize_notUb {solve : Solver} (hs : GoodSolver solve) {t t' : Planner}
    {hist : List Request} (ht : Reach solve t hist) {r : Robot} {p1 p2 : RPoint} {a1 a2 : ℝ} {q : Path}
    (h : createTurn solve t r p1 a1 p2 a2 = .ok (q, t')) : (q.discretize (1 / 10)).isUb = false := by
  obtain ⟨_, w, p, hw, rfl⟩ := createTurn_answer ht h
  obtain ⟨g1, g2, g3⟩ := (hs w).2 p hw
  have hp := Real.pi_le_four
  rcases finish_rest (normalTurn p1 a1 p2 a2) p1 p2 p with h0 | h0
  · rw [h0]
    exact discretize_notUb [] (by simp) (by simp) (by simp) (by simp [Props.PathSpec.lengthOf])
  · refine discretize_notUb _ (fun s hsq => ?_) (fun s hsq => ?_) ?_ ?_
    · obtain ⟨s', hs', ⟨e, _⟩, _⟩ := forall₂_mem_right h0 hsq
      rw [e]; exact g1 s' hs'
    · obtain ⟨s', hs', _, e1, e2⟩ := forall₂_mem_right h0 hsq
      rw [abs_of_nonneg e1]; linarith
    · rw [← h0.length_eq]; exact g2
    · rw [forall₂_lengthOf (h0.imp fun _ _ h => h.1.1)]; exact g3

theorem toInt_ok {v : ℝ} (h0 : 0 ≤ v) (h : v ≤ 2000000000) : ∃ k, Path.toInt v = .ok k := by
  obtain ⟨k, hk⟩ := toInt_defined (v := v / 1000) (by
    rw [abs_of_nonneg (by positivity)]; linarith)
  rw [mul_div_cancel₀ _ (by norm_num)] at hk
  exact ⟨k, hk⟩

theorem discretize_ok (p : Path) (hlen : ∀ s ∈ p, 0 ≤ s.len)
    (hang : ∀ s ∈ p, |s.angle| ≤ 1000000000) (hsize : List.length p ≤ 1000000000)
    (hL : Props.PathSpec.lengthOf p ≤ 20000000) (h3 : 3 ≤ List.length p → ∃ s ∈ p, 0 < s.len) :
    ∃ q, p.discretize (1 / 10) = .ok q := by
  by_cases h : 3 ≤ List.length p
  · by_cases hd : 10 * Props.PathSpec.lengthOf p < 1 / 10
    · exact ⟨_, Props.C35_discretize_destroys p (1 / 10) (by norm_num) h hlen (h3 h) hang hsize hd⟩
    · obtain ⟨q, hq, _⟩ := Props.C35_discretize_partial p (1 / 10) (by norm_num) h hlen hang hsize
        (not_lt.1 hd) (by linarith)
      exact ⟨q, hq⟩
  · unfold Path.discretize
    split
    · rw [if_neg (by norm_num), totalLength_eq]
      obtain ⟨k, hk⟩ := toInt_ok (v := 10 / (1 / 10) * Props.PathSpec.lengthOf p)
        (mul_nonneg (by norm_num) (lengthOf_nonneg p)) (by norm_num; linarith)
      rw [hk, Outcome.ok_bind]
      unfold Path.populate
      rw [if_pos (by omega)]
      exact ⟨_, rfl⟩
    · exact ⟨_, rfl⟩

theorem createTurn_defined {solve : Solver} (ha : Answers solve) (t : Planner) (r : Robot)
    (h1 : |r.maxCurv| ≤ 2000000) (h2 : |r.diffCurv| ≤ 2000000) (p1 p2 : RPoint) (a1 a2 : ℝ)
    (hd : pdist p1 p2 ≤ 2000000) : ∃ q t', createTurn solve t r p1 a1 p2 a2 = .ok (q, t') := by
  obtain ⟨r1, r2, r3, r4⟩ := normal_ranges p1 p2 a1 a2
  have hp := Real.pi_le_four
  unfold createTurn
  simp only
  suffices h : ∃ q t', simpleTurn solve t r (normalTurn p1 a1 p2 a2).dist (normalTurn p1 a1 p2 a2).start
      (normalTurn p1 a1 p2 a2).stop = .ok (q, t') by
    obtain ⟨q, t', h⟩ := h
    rw [h, Outcome.ok_bind]
    exact ⟨_, _, rfl⟩
  unfold simpleTurn
  obtain ⟨p, hsolve, _⟩ := ha ⟨r, t.disc, (normalTurn p1 a1 p2 a2).dist, (normalTurn p1 a1 p2 a2).start,
    (normalTurn p1 a1 p2 a2).stop⟩
  have hsolve : solve r t.disc (normalTurn p1 a1 p2 a2).dist (normalTurn p1 a1 p2 a2).start
    (normalTurn p1 a1 p2 a2).stop = .ok p := hsolve
  cases t.useCache
  · simp only [Bool.false_eq_true, if_false]
    rw [hsolve, Outcome.ok_bind]
    exact ⟨_, _, rfl⟩
  · simp only [if_true]
    unfold turnIfNotCached
    obtain ⟨k, hk⟩ := key_defined r (normalTurn p1 a1 p2 a2).dist (normalTurn p1 a1 p2 a2).start
      (normalTurn p1 a1 p2 a2).stop (by
        simp only [List.mem_cons, List.not_mem_nil, or_false, forall_eq_or_imp, forall_eq]
        refine ⟨h1, h2, ?_, ?_, ?_⟩
        · rw [normal_dist, abs_of_nonneg (pdist_nonneg _ _)]; exact hd
        · rw [abs_of_nonneg r1]; linarith
        · rw [abs_of_nonneg r3]; linarith)
    rw [hk, Outcome.ok_bind]
    split
    · exact ⟨_, _, rfl⟩
    · rw [hsolve, Outcome.ok_bind]
      exact ⟨_, _, rfl⟩

theorem turn_discretize_ok {solve : Solver} (hs : GoodSolver solve) (ha : Answers solve) {t t' : Planner}
    {hist : List Request} (ht : Reach solve t hist) {r : Robot} {p1 p2 : RPoint} {a1 a2 : ℝ} {q : Path}
    (h : createTurn solve t r p1 a1 p2 a2 = .ok (q, t')) : ∃ q', q.discretize (1 / 10) = .ok q' := by
  obtain ⟨_, w, p, hw, rfl⟩ := createTurn_answer ht h
  obtain ⟨g1, g2, g3⟩ := (hs w).2 p hw
  obtain ⟨p', hw', g4⟩ := ha w
  rw [hw] at hw'
  injection hw' with hw'
  subst hw'
  have hp := Real.pi_le_four
  rcases finish_rest (normalTurn p1 a1 p2 a2) p1 p2 p with h0 | h0
  · rw [h0]
    exact discretize_ok [] (by simp) (by simp) (by simp) (by simp [Props.PathSpec.lengthOf]) (by simp)
  · refine discretize_ok _ (fun s hsq => ?_) (fun s hsq => ?_) ?_ ?_ ?_
    · obtain ⟨s', hs', ⟨e, _⟩, _⟩ := forall₂_mem_right h0 hsq
      rw [e]; exact g1 s' hs'
    · obtain ⟨s', hs', _, e1, e2⟩ := forall₂_mem_right h0 hsq
      rw [abs_of_nonneg e1]; linarith
    · rw [← h0.length_eq]; exact g2
    · rw [forall₂_lengthOf (h0.imp fun _ _ h => h.1.1)]; exact g3
    · intro h3
      rw [← h0.length_eq] at h3
      obtain ⟨s, hsp, hpos⟩ := g4 h3
      obtain ⟨s', hs', ⟨e, _⟩, _⟩ := forall₂_mem_right h0.flip hsp
      exact ⟨s', hs', by rw [e]; exact hpos⟩

theorem near_pdist {c p q : RPoint} (hp : Near c p) (hq : Near c q) : pdist p q ≤ 2000000 := by
  have := pdist_triangle p c q
  rw [pdist_comm c q] at this
  unfold Near at hp hq
  linarith

theorem swath_angles_notUb (s : Swath ℝ) : s.inAngle.isUb = false ∧ s.outAngle.isUb = false := by
  unfold Swath.inAngle Swath.outAngle
  constructor <;> split <;> rfl

theorem appendSwath_notUb (p : Path) (s : Swath ℝ) (v : ℝ) : (p.appendSwath s v).isUb = false := by
  unfold Path.appendSwath; split <;> rfl

theorem planSwathsFrom_notUb {solve : Solver} (hs : GoodSolver solve) (r : Robot)
    (h1 : |r.maxCurv| ≤ 2000000) (h2 : |r.diffCurv| ≤ 2000000) (c : RPoint) (l : Swaths ℝ) :
    ∀ (s : Swath ℝ) (t : Planner) (hist : List Request) (path : Path), Reach solve t hist →
      (∀ x ∈ s :: l, SwathNear c x) →
      (planSwathsFrom solve r t path s l).isUb = false ∧
      ∀ p t', planSwathsFrom solve r t path s l = .ok (p, t') → ∃ hist', Reach solve t' hist' := by
  induction l with
  | nil =>
    intro s t hist path ht hn
    unfold planSwathsFrom
    refine ⟨bind_notUb (appendSwath_notUb _ _ _) fun _ _ => rfl, fun p t' h => ?_⟩
    obtain ⟨q, hq, h⟩ := bind_ok h
    injection h with h
    injection h with e1 e2
    subst e2
    exact ⟨hist, ht⟩
  | cons s' l ih =>
    intro s t hist path ht hn
    unfold planSwathsFrom
    constructor
    · refine bind_notUb (appendSwath_notUb _ _ _) fun path' _ =>
        bind_notUb (swath_angles_notUb _).2 fun a1 _ => bind_notUb (swath_angles_notUb _).1 fun a2 _ =>
        bind_notUb ?_ fun x hc => ?_
      · exact createTurn_notUb hs t r h1 h2 _ _ _ _ (near_pdist (hn s (by simp)).2 (hn s' (by simp)).1)
      · obtain ⟨q, t1⟩ := x
        refine bind_notUb (turn_discretize_notUb hs ht hc) fun q' _ => ?_
        obtain ⟨⟨hist', ht'⟩, _⟩ := createTurn_answer ht hc
        exact (ih s' t1 hist' _ ht' fun x hx => hn x (List.mem_cons_of_mem _ hx)).1
    · intro p t' h
      obtain ⟨path', hp, h⟩ := bind_ok h
      obtain ⟨a1, _, h⟩ := bind_ok h
      obtain ⟨a2, _, h⟩ := bind_ok h
      obtain ⟨⟨q, t1⟩, hc, h⟩ := bind_ok h
      obtain ⟨q', hq, h⟩ := bind_ok h
      obtain ⟨⟨hist', ht'⟩, _⟩ := createTurn_answer ht hc
      exact (ih s' t1 hist' _ ht' fun x hx => hn x (List.mem_cons_of_mem _ hx)).2 p t' h

theorem planSwaths_notUb {solve : Solver} (hs : GoodSolver solve) (r : Robot)
    (h1 : |r.maxCurv| ≤ 2000000) (h2 : |r.diffCurv| ≤ 2000000) (c : RPoint) (l : Swaths ℝ)
    (t : Planner) (hist : List Request) (ht : Reach solve t hist) (hn : ∀ x ∈ l, SwathNear c x) :
    (planSwaths solve r t l).isUb = false ∧
      ∀ p t', planSwaths solve r t l = .ok (p, t') → ∃ hist', Reach solve t' hist' := by
  cases l with
  | nil =>
    refine ⟨rfl, fun p t' h => ?_⟩
    injection h with h
    injection h with e1 e2
    subst e2
    exact ⟨hist, ht⟩
  | cons s l => exact planSwathsFrom_notUb hs r h1 h2 c l s t hist [] ht hn

theorem swath_angles_ok (s : Swath ℝ) (h : 2 ≤ s.path.length) :
    (∃ a, s.inAngle = .ok a) ∧ ∃ a, s.outAngle = .ok a := by
  unfold Swath.inAngle Swath.outAngle
  constructor
  · split
    · exact ⟨_, rfl⟩
    · rename_i e; rw [e] at h; simp at h
    · exact ⟨_, rfl⟩
  · split
    · exact ⟨_, rfl⟩
    · rename_i e
      have := congrArg List.length e
      simp at this; omega
    · exact ⟨_, rfl⟩

theorem planSwathsFrom_ok {solve : Solver} (hs : GoodSolver solve) (ha : Answers solve) (r : Robot)
    (h1 : |r.maxCurv| ≤ 2000000) (h2 : |r.diffCurv| ≤ 2000000) (c : RPoint) (l : Swaths ℝ) :
    ∀ (s : Swath ℝ) (t : Planner) (hist : List Request) (path : Path), Reach solve t hist →
      (∀ x ∈ s :: l, SwathNear c x ∧ 2 ≤ x.path.length) →
      ∃ p t', planSwathsFrom solve r t path s l = .ok (p, t') := by
  have app : ∀ (path : Path) (s : Swath ℝ), 2 ≤ s.path.length → ∃ q, path.appendSwath s r.cruise = .ok q := by
    intro path s h
    unfold Path.appendSwath
    split
    · rename_i e; rw [e] at h; simp at h
    · exact ⟨_, rfl⟩
  induction l with
  | nil =>
    intro s t hist path ht hn
    unfold planSwathsFrom
    obtain ⟨q, hq⟩ := app path s (hn s (by simp)).2
    rw [hq, Outcome.ok_bind]
    exact ⟨_, _, rfl⟩
  | cons s' l ih =>
    intro s t hist path ht hn
    unfold planSwathsFrom
    obtain ⟨q, hq⟩ := app path s (hn s (by simp)).2
    obtain ⟨a1, e1⟩ := (swath_angles_ok s (hn s (by simp)).2).2
    obtain ⟨a2, e2⟩ := (swath_angles_ok s' (hn s' (by simp)).2).1
    obtain ⟨w, t1, hc⟩ := createTurn_defined ha t r h1 h2 s.endPoint s'.startPoint a1 a2
      (near_pdist (hn s (by simp)).1.2 (hn s' (by simp)).1.1)
    obtain ⟨w', hw⟩ := turn_discretize_ok hs ha ht hc
    obtain ⟨⟨hist', ht'⟩, _⟩ := createTurn_answer ht hc
    rw [hq, Outcome.ok_bind, e1, Outcome.ok_bind, e2, Outcome.ok_bind, hc, Outcome.ok_bind]
    simp only
    rw [hw, Outcome.ok_bind]
    exact ih s' t1 hist' _ ht' fun x hx => hn x (List.mem_cons_of_mem _ hx)

/-! ### simplified connections -/

theorem corners_mem (mp : List RPoint) : ∀ p ∈ corners mp, p ∈ mp := by
  induction mp with
  | nil => intro p hp; simp [corners] at hp
  | cons a l ih =>
    intro p hp
    match l, hp with
    | [], hp => simp [corners] at hp
    | [_], hp => simp [corners] at hp
    | b :: c :: l, hp =>
      unfold corners at hp
      split at hp
      · rcases List.mem_cons.1 hp with rfl | hp
        · simp
        · exact List.mem_cons_of_mem _ (ih p hp)
      · exact List.mem_cons_of_mem _ (ih p hp)

theorem pullBack_segment {safe : ℝ} (hs : 0 ≤ safe) (a b : RPoint) (hd : pdist b a ≠ 0) :
    OnSegment b a (pullBack safe a b) := by
  have h0 := pdist_nonneg b a
  have hpos : 0 < pdist b a := lt_of_le_of_ne h0 (Ne.symm hd)
  refine ⟨min (5 / 10 * pdist b a) safe / pdist b a, ?_, ?_, ?_, ?_⟩
  · exact div_nonneg (le_min (by linarith) hs) h0
  · rw [div_le_one hpos]
    exact le_trans (min_le_left _ _) (by linarith)
  · simp only [pullBack, Point.add, Point.smul, Point.sub]; ring
  · simp only [pullBack, Point.add, Point.smul, Point.sub]; ring

theorem onSegment_symm {a b p : RPoint} (h : OnSegment a b p) : OnSegment b a p := by
  obtain ⟨s, h0, h1, hx, hy⟩ := h
  exact ⟨1 - s, by linarith, by linarith, by rw [hx]; ring, by rw [hy]; ring⟩

theorem onSegment_near {c a b p : RPoint} (h : OnSegment a b p) (ha : Near c a) (hb : Near c b) :
    Near c p := by
  obtain ⟨s, h0, h1, hx, hy⟩ := h
  unfold Near at *
  rw [pdist_eq_norm] at *
  have e : (⟨p.x - c.x, p.y - c.y⟩ : ℂ) = ((1 - s : ℝ) : ℂ) * ⟨a.x - c.x, a.y - c.y⟩ +
      ((s : ℝ) : ℂ) * ⟨b.x - c.x, b.y - c.y⟩ := by
    apply Complex.ext
    · simp; rw [hx]; ring
    · simp; rw [hy]; ring
  rw [e]
  refine le_trans (norm_add_le _ _) ?_
  rw [norm_mul, norm_mul, Complex.norm_real, Complex.norm_real, Real.norm_of_nonneg h0,
    Real.norm_of_nonneg (by linarith)]
  nlinarith

/-- consecutive elements -/
def Next {α : Type} (l : List α) (a b : α) : Prop := ∃ i : Nat, l[i]? = some a ∧ l[i + 1]? = some b

/-- what one step of the loop adds -/
theorem cornerStep_spec (safe : ℝ) (hs : 0 ≤ safe) (p1 p2 : RPoint) (path : List Pose)
    (a b c : RPoint) : ∃ q, cornerStep safe p1 p2 path a b c = path ++ q ∧
      ∀ w ∈ q, OnSegment a b w.1 ∨ OnSegment b c w.1 := by
  unfold cornerStep
  by_cases h : pdist b a = 0 ∨ pdist b c = 0
  · rw [if_pos h]; exact ⟨[], by simp, by simp⟩
  · rw [if_neg h]
    have ha : pdist b a ≠ 0 := fun hh => h (.inl hh)
    have hc : pdist b c ≠ 0 := fun hh => h (.inr hh)
    have s1 := onSegment_symm (pullBack_segment hs a b ha)
    have s2 := pullBack_segment hs c b hc
    simp only
    split <;> split
    · exact ⟨[(pullBack safe a b, angleFromPoint (b.sub a)), (pullBack safe c b, angleFromPoint (c.sub b))],
        by simp, by
          intro w hw
          simp only [List.mem_cons, List.not_mem_nil, or_false] at hw
          rcases hw with rfl | rfl
          · exact .inl s1
          · exact .inr s2⟩
    · exact ⟨_, rfl, by
          intro w hw
          simp only [List.mem_cons, List.not_mem_nil, or_false] at hw
          rw [hw]; exact .inr s2⟩
    · exact ⟨_, rfl, by
          intro w hw
          simp only [List.mem_cons, List.not_mem_nil, or_false] at hw
          rw [hw]; exact .inl s1⟩
    · exact ⟨[], by simp, by simp⟩

theorem cornerLoop_spec (safe : ℝ) (hs : 0 ≤ safe) (p1 p2 : RPoint) (l : List RPoint) :
    ∀ path : List Pose, ∃ q, cornerLoop safe p1 p2 path l = path ++ q ∧
      ∀ w ∈ q, ∃ a b, Next l a b ∧ OnSegment a b w.1 := by
  induction l with
  | nil => intro path; exact ⟨[], by simp [cornerLoop], by simp⟩
  | cons a l ih =>
    intro path
    match l, ih with
    | [], _ => exact ⟨[], by simp [cornerLoop], by simp⟩
    | [b], _ => exact ⟨[], by simp [cornerLoop], by simp⟩
    | b :: c :: l, ih =>
      unfold cornerLoop
      obtain ⟨q1, e1, h1⟩ := cornerStep_spec safe hs p1 p2 path a b c
      obtain ⟨q2, e2, h2⟩ := ih (cornerStep safe p1 p2 path a b c)
      refine ⟨q1 ++ q2, by rw [e2, e1]; simp, fun w hw => ?_⟩
      rcases List.mem_append.1 hw with hw | hw
      · rcases h1 w hw with h | h
        · exact ⟨a, b, ⟨0, rfl, rfl⟩, h⟩
        · exact ⟨b, c, ⟨1, rfl, rfl⟩, h⟩
      · obtain ⟨x, y, ⟨i, hx, hy⟩, h⟩ := h2 w hw
        exact ⟨x, y, ⟨i + 1, hx, hy⟩, h⟩

theorem simplify_spec (safe : ℝ) (hs : 0 ≤ safe) (p1 : RPoint) (a1 : ℝ) (mp : List RPoint)
    (p2 : RPoint) (a2 : ℝ) : ∃ mid : List Pose,
      simplify safe p1 a1 mp p2 a2 = (p1, a1) :: (mid ++ [(p2, a2)]) ∧
      ∀ w ∈ mid, ∃ a b, Next (corners mp) a b ∧ OnSegment a b w.1 := by
  unfold simplify
  split
  · exact ⟨[], by simp, by simp⟩
  · split
    · exact ⟨[], by simp, by simp⟩
    · obtain ⟨q, e, h⟩ := cornerLoop_spec safe hs p1 p2 (corners mp) [(p1, a1)]
      exact ⟨q, by rw [e]; simp, h⟩

theorem bent_shift (a : RPoint) (l : List RPoint) (k : Nat) : Bent (a :: l) (k + 1) ↔ Bent l k := by
  unfold Bent
  simp only [List.getElem?_cons_succ]

/-- the first corner comes after points without a bend; then the next one -/
theorem corners_chords (mp : List RPoint) :
    (∀ v, (corners mp).head? = some v → ∃ j : Nat, 0 < j ∧ mp[j]? = some v ∧
      ∀ k, k + 1 < j → ¬ Bent mp k) ∧
    (∀ u v, Next (corners mp) u v → ∃ i j : Nat, i < j ∧ mp[i]? = some u ∧ mp[j]? = some v ∧
      ∀ k, i < k + 1 → k + 1 < j → ¬ Bent mp k) := by
  induction mp with
  | nil =>
    refine ⟨fun v hv => by simp [corners] at hv, ?_⟩
    rintro u v ⟨i, hu, _⟩; simp [corners] at hu
  | cons a l ih =>
    match l, ih with
    | [], _ =>
      refine ⟨fun v hv => by simp [corners] at hv, ?_⟩
      rintro u v ⟨i, hu, _⟩; simp [corners] at hu
    | [b], _ =>
      refine ⟨fun v hv => by simp [corners] at hv, ?_⟩
      rintro u v ⟨i, hu, _⟩; simp [corners] at hu
    | b :: c :: l, ih =>
      have lift : ∀ u v, Next (corners (b :: c :: l)) u v → ∃ i j : Nat, i < j ∧
          (a :: b :: c :: l)[i]? = some u ∧ (a :: b :: c :: l)[j]? = some v ∧
          ∀ k, i < k + 1 → k + 1 < j → ¬ Bent (a :: b :: c :: l) k := by
        intro u v h
        obtain ⟨i, j, hij, hu, hv, hk⟩ := ih.2 u v h
        refine ⟨i + 1, j + 1, by omega, hu, hv, fun k h1 h2 => ?_⟩
        obtain ⟨k', rfl⟩ : ∃ k', k = k' + 1 := ⟨k - 1, by omega⟩
        rw [bent_shift]
        exact hk k' (by omega) (by omega)
      unfold corners
      by_cases hb : |angleFromPoint (b.sub a) - angleFromPoint (c.sub b)| > 1 / 10
      · rw [if_pos hb]
        refine ⟨fun v hv => ?_, fun u v h => ?_⟩
        · simp only [List.head?_cons, Option.some.injEq] at hv
          exact ⟨1, by omega, by simpa using hv, fun k hk => by omega⟩
        · obtain ⟨i, hu, hv⟩ := h
          cases i with
          | zero =>
            simp only [List.getElem?_cons_zero, Option.some.injEq, zero_add,
              List.getElem?_cons_succ] at hu hv
            obtain ⟨j, hj, hvj, hk⟩ := ih.1 v (by rw [List.head?_eq_getElem?]; exact hv)
            refine ⟨1, j + 1, by omega, by simpa using hu, hvj, fun k h1 h2 => ?_⟩
            obtain ⟨k', rfl⟩ : ∃ k', k = k' + 1 := ⟨k - 1, by omega⟩
            rw [bent_shift]
            exact hk k' (by omega)
          | succ i =>
            simp only [List.getElem?_cons_succ] at hu hv
            exact lift u v ⟨i, hu, hv⟩
      · rw [if_neg hb]
        refine ⟨fun v hv => ?_, lift⟩
        obtain ⟨j, hj, hvj, hk⟩ := ih.1 v hv
        refine ⟨j + 1, by omega, hvj, fun k h2 => ?_⟩
        cases k with
        | zero =>
          rintro ⟨x, y, z, hx, hy, hz, hbig⟩
          simp only [List.getElem?_cons_zero, Option.some.injEq, zero_add,
            List.getElem?_cons_succ] at hx hy hz
          subst hx; subst hy; subst hz
          exact hb hbig
        | succ k =>
          rw [bent_shift]
          exact hk k (by omega)

theorem simplify_near {c : RPoint} (safe : ℝ) (hs : 0 ≤ safe) (p1 : RPoint) (a1 : ℝ)
    (mp : List RPoint) (p2 : RPoint) (a2 : ℝ) (h1 : Near c p1) (h2 : Near c p2)
    (hm : ∀ p ∈ mp, Near c p) : ∀ w ∈ simplify safe p1 a1 mp p2 a2, Near c w.1 := by
  obtain ⟨mid, e, h⟩ := simplify_spec safe hs p1 a1 mp p2 a2
  rw [e]
  intro w hw
  simp only [List.mem_cons, List.mem_append, List.not_mem_nil, or_false] at hw
  rcases hw with rfl | hw | rfl
  · exact h1
  · obtain ⟨a, b, ⟨i, ha, hb⟩, hseg⟩ := h w hw
    exact onSegment_near hseg (hm a (corners_mem mp a (List.mem_of_getElem? ha)))
      (hm b (corners_mem mp b (List.mem_of_getElem? hb)))
  · exact h2

theorem turnsAlong_notUb {solve : Solver} (hs : GoodSolver solve) (r : Robot)
    (h1 : |r.maxCurv| ≤ 2000000) (h2 : |r.diffCurv| ≤ 2000000) (c : RPoint) (l : List Pose) :
    ∀ (t : Planner) (hist : List Request) (path : Path), Reach solve t hist →
      (∀ w ∈ l, Near c w.1) →
      (turnsAlong solve r t path l).isUb = false ∧
      ∀ p t', turnsAlong solve r t path l = .ok (p, t') → ∃ hist', Reach solve t' hist' := by
  induction l with
  | nil =>
    intro t hist path ht hn
    refine ⟨rfl, fun p t' h => ?_⟩
    unfold turnsAlong at h
    injection h with h
    injection h with e1 e2
    subst e2
    exact ⟨hist, ht⟩
  | cons a l ih =>
    intro t hist path ht hn
    cases l with
    | nil =>
      refine ⟨rfl, fun p t' h => ?_⟩
      unfold turnsAlong at h
      injection h with h
      injection h with e1 e2
      subst e2
      exact ⟨hist, ht⟩
    | cons b l =>
      unfold turnsAlong
      constructor
      · refine bind_notUb (createTurn_notUb hs t r h1 h2 _ _ _ _
          (near_pdist (hn a (by simp)) (hn b (by simp)))) fun x hc => ?_
        obtain ⟨q, t1⟩ := x
        obtain ⟨⟨hist', ht'⟩, _⟩ := createTurn_answer ht hc
        exact (ih t1 hist' _ ht' fun x hx => hn x (List.mem_cons_of_mem _ hx)).1
      · intro p t' h
        obtain ⟨⟨q, t1⟩, hc, h⟩ := bind_ok h
        obtain ⟨⟨hist', ht'⟩, _⟩ := createTurn_answer ht hc
        exact (ih t1 hist' _ ht' fun x hx => hn x (List.mem_cons_of_mem _ hx)).2 p t' h

theorem startPose_spec (c : RPoint) (s1 : Swaths ℝ) (mp : List RPoint) (h1 : ∀ s ∈ s1, SwathNear c s)
    (hm : ∀ p ∈ mp, Near c p) : (startPose s1 mp).isUb = false ∧
      ∀ a, startPose s1 mp = .ok (some a) → Near c a.1 := by
  unfold startPose
  cases hl : s1.getLast? with
  | some s =>
    simp only
    refine ⟨bind_notUb (swath_angles_notUb s).2 fun _ _ => rfl, fun a h => ?_⟩
    obtain ⟨x, _, h⟩ := bind_ok h
    injection h with h
    injection h with h
    rw [← h]
    exact (h1 s (List.mem_of_getLast? hl)).2
  | none =>
    simp only
    cases mp with
    | nil => exact ⟨rfl, fun a h => by cases h⟩
    | cons p l =>
      simp only
      refine ⟨bind_notUb (by unfold multiOutAngle0; split <;> rfl) fun _ _ => rfl, fun a h => ?_⟩
      obtain ⟨x, _, h⟩ := bind_ok h
      injection h with h
      injection h with h
      rw [← h]
      exact hm p List.mem_cons_self

theorem endPose_spec (c : RPoint) (s2 : Swaths ℝ) (mp : List RPoint) (h1 : ∀ s ∈ s2, SwathNear c s)
    (hm : ∀ p ∈ mp, Near c p) : (endPose mp s2).isUb = false ∧
      ∀ a, endPose mp s2 = .ok (some a) → Near c a.1 := by
  unfold endPose
  cases s2 with
  | cons s l =>
    simp only
    refine ⟨bind_notUb (swath_angles_notUb s).1 fun _ _ => rfl, fun a h => ?_⟩
    obtain ⟨x, _, h⟩ := bind_ok h
    injection h with h
    injection h with h
    rw [← h]
    exact (h1 s List.mem_cons_self).1
  | nil =>
    simp only
    cases hl : mp.getLast? with
    | none => exact ⟨rfl, fun a h => by cases h⟩
    | some p =>
      simp only
      refine ⟨bind_notUb (by unfold multiInAngleLast; split <;> rfl) fun _ _ => rfl, fun a h => ?_⟩
      obtain ⟨x, _, h⟩ := bind_ok h
      injection h with h
      injection h with h
      rw [← h]
      exact hm p (List.mem_of_getLast? hl)

theorem planConnection_notUb {solve : Solver} (hs : GoodSolver solve) (safe : Robot → ℝ) (r : Robot)
    (hsafe : 0 ≤ safe r) (h1 : |r.maxCurv| ≤ 2000000) (h2 : |r.diffCurv| ≤ 2000000) (c : RPoint)
    (t : Planner) (hist : List Request) (s1 s2 : Swaths ℝ) (mp : List RPoint) (ht : Reach solve t hist)
    (n1 : ∀ s ∈ s1, SwathNear c s) (n2 : ∀ s ∈ s2, SwathNear c s) (hm : ∀ p ∈ mp, Near c p) :
    (planConnection solve safe r t s1 mp s2).isUb = false ∧
      ∀ p t', planConnection solve safe r t s1 mp s2 = .ok (p, t') → ∃ hist', Reach solve t' hist' := by
  obtain ⟨u1, k1⟩ := startPose_spec c s1 mp n1 hm
  obtain ⟨u2, k2⟩ := endPose_spec c s2 mp n2 hm
  unfold planConnection
  constructor
  · refine bind_notUb u1 fun a ha => ?_
    cases a with
    | none => rfl
    | some a =>
      simp only
      refine bind_notUb u2 fun b hb => ?_
      cases b with
      | none => rfl
      | some b =>
        exact (turnsAlong_notUb hs r h1 h2 c _ t hist [] ht
          (simplify_near _ hsafe _ _ _ _ _ (k1 a ha) (k2 b hb) hm)).1
  · intro p t' h
    obtain ⟨a, ha, h⟩ := bind_ok h
    cases a with
    | none =>
      injection h with h
      injection h with e1 e2
      subst e2
      exact ⟨hist, ht⟩
    | some a =>
      simp only at h
      obtain ⟨b, hb, h⟩ := bind_ok h
      cases b with
      | none =>
        injection h with h
        injection h with e1 e2
        subst e2
        exact ⟨hist, ht⟩
      | some b =>
        exact (turnsAlong_notUb hs r h1 h2 c _ t hist [] ht
          (simplify_near _ hsafe _ _ _ _ _ (k1 a ha) (k2 b hb) hm)).2 p t' h

theorem planGroups_notUb {solve : Solver} (hs : GoodSolver solve) (safe : Robot → ℝ) (r : Robot)
    (hsafe : 0 ≤ safe r) (h1 : |r.maxCurv| ≤ 2000000) (h2 : |r.diffCurv| ≤ 2000000) (c : RPoint)
    (gs : List (Swaths ℝ)) : ∀ (t : Planner) (hist : List Request) (path : Path) (prev : Swaths ℝ)
      (cs : List (List RPoint)), Reach solve t hist → gs.length ≤ cs.length →
      (∀ s ∈ prev, SwathNear c s) → (∀ g ∈ gs, ∀ s ∈ g, SwathNear c s) →
      (∀ mp ∈ cs, ∀ p ∈ mp, Near c p) →
      (planGroups solve safe r t path prev cs gs).isUb = false ∧
      ∀ p t', planGroups solve safe r t path prev cs gs = .ok (p, t') →
        ∃ hist', Reach solve t' hist' := by
  induction gs with
  | nil =>
    intro t hist path prev cs ht _ _ _ _
    unfold planGroups
    refine ⟨rfl, fun p t' h => ?_⟩
    injection h with h
    injection h with e1 e2
    subst e2
    exact ⟨hist, ht⟩
  | cons g gs ih =>
    intro t hist path prev cs ht hlen n1 n2 hm
    cases cs with
    | nil => simp at hlen
    | cons mp cs =>
      obtain ⟨u1, k1⟩ := planConnection_notUb hs safe r hsafe h1 h2 c t hist prev g mp ht n1
        (n2 g List.mem_cons_self) (hm mp List.mem_cons_self)
      unfold planGroups
      constructor
      · refine bind_notUb u1 fun x hx => ?_
        obtain ⟨q, t1⟩ := x
        obtain ⟨hist1, ht1⟩ := k1 q t1 hx
        obtain ⟨u2, k2⟩ := planSwaths_notUb hs r h1 h2 c g t1 hist1 ht1 (n2 g List.mem_cons_self)
        refine bind_notUb u2 fun y hy => ?_
        obtain ⟨q', t2⟩ := y
        obtain ⟨hist2, ht2⟩ := k2 q' t2 hy
        exact (ih t2 hist2 _ g cs ht2 (by simpa using hlen) (n2 g List.mem_cons_self)
          (fun g' hg' => n2 g' (List.mem_cons_of_mem _ hg'))
          (fun m hm' => hm m (List.mem_cons_of_mem _ hm'))).1
      · intro p t' h
        obtain ⟨⟨q, t1⟩, hx, h⟩ := bind_ok h
        obtain ⟨hist1, ht1⟩ := k1 q t1 hx
        obtain ⟨u2, k2⟩ := planSwaths_notUb hs r h1 h2 c g t1 hist1 ht1 (n2 g List.mem_cons_self)
        obtain ⟨⟨q', t2⟩, hy, h⟩ := bind_ok h
        obtain ⟨hist2, ht2⟩ := k2 q' t2 hy
        exact (ih t2 hist2 _ g cs ht2 (by simpa using hlen) (n2 g List.mem_cons_self)
          (fun g' hg' => n2 g' (List.mem_cons_of_mem _ hg'))
          (fun m hm' => hm m (List.mem_cons_of_mem _ hm'))).2 p t' h

end F2C
