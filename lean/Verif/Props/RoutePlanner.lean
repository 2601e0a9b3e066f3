import Verif.Lemmas.TourCost
import Verif.Props.Graph2D

/-!
# Properties C21 and C22
-/

namespace F2C.Props

open PlannerSpec PlannerL Graph2DSpec Graph2DL Planner Outcome

variable {K : Type} [Field K] [LinearOrder K] [IsStrictOrderedRing K]

/-! ## The headland graph -/

/-- The headland graph connects the given points, if there are ways between them that are cheaper
than the value for "unreachable". -/
theorem C22_headland_connects (T : PointTable K) (hT : T.IsLawful) (es : List (PEdit K)) (sg : Graph2D K)
    (hsep : Separated (nodes es)) (hh : HashOk T (nodes es)) (hr : RemovesKnown es)
    (hu : Undirected (2 ^ 30) es) (hsg : run T es = .ok sg) (V : List (Point K))
    (hV : ∀ p ∈ V, p ∈ nodes es) (hw : ∀ a ∈ V, ∀ b ∈ V, ∃ t, PWalk es a b t ∧ t < 2 ^ 30) :
    Connects T sg V := by
  intro a ha b hb
  obtain ⟨g, g', c, p, h1, h2, h3, h4, h5, h6, h7⟩ := C13_between_points T hT es (2 ^ 30) hsep hh hr hu
    (by norm_num) (by norm_num) a b (hV a ha) (hV b hb)
  rw [hsg] at h1
  obtain rfl : sg = g := by simpa using h1
  obtain ⟨t, ht, htl⟩ := hw a ha b hb
  obtain ⟨hwc, hmin⟩ := h4.2.1 ⟨t, ht, htl⟩
  refine ⟨g', c, g', p, h2, ?_, ?_, h3, h5, ?_⟩
  · have : ∀ {x y s}, PWalk es x y s → 0 ≤ s := by
      intro x y s hs
      induction hs with
      | nil => exact le_refl _
      | cons he _ ih =>
        have := (costs_range hu he).1
        omega
    exact this hwc
  · have := hmin t ht
    omega
  · intro hab
    obtain ⟨k1, k2, -, -⟩ := h7 hab ⟨t, ht, htl⟩
    exact ⟨k1, k2⟩

/-! ## C21 -/

/-- C21 (part): if all end points and middles of the swaths and the start point of the route are
pairwise different and the headland graph connects them, then for every optimiser that avoids missing
edges the planned route consists of all swaths, each exactly once, forwards or backwards (forwards
only, if swaths must not be redirected).  Missing: points in common, no swath at all, and unconnected
headlands; for these the property is false, see below. -/
theorem C21_each_swath_once_partial (T : PointTable K) (hT : T.IsLawful) (sg : Graph2D K) (redirect : Bool)
    (rse : Option (Point K)) (d : SwathsByCells K) (solve : Graph2D K → Option (List Nat))
    (hsolve : AvoidsMissing solve) (hne : d.flatten ≠ []) (hn : d.flatten.length ≤ 300000)
    (hw : ∀ s ∈ d.flatten, 0 < s.width) (hd : Distinct rse d.flatten)
    (hh : HashOk T (tourPoints rse d.flatten)) (hc : Connects T sg (ends rse d.flatten)) :
    ∃ (r : Route K) (order : List (Swath K × Bool)), genRoute T solve sg redirect rse d = .ok r ∧
      (order.map Prod.fst).Perm d.flatten ∧ r.groups = order.map (fun x => [driven x]) ∧
      (redirect = false → ∀ x ∈ order, x.2 = false) := by
  obtain ⟨x, ord, h1, h2, h3, -⟩ := plan T hT sg redirect rse d solve hsolve hne hn hw hd hh hc
  exact ⟨_, x :: ord, h1, h2, rfl, h3⟩

/-- There is such an optimiser. -/
theorem exists_optimiser : ∃ solve : Graph2D K → Option (List Nat), AvoidsMissing solve := by
  classical
  refine ⟨fun cov => if h : ∃ ids, IsTour cov ids ∧ tourCost cov ids < 10 ^ 15 then some h.choose else none, ?_⟩
  intro cov h
  exact ⟨h.choose, dif_pos h, h.choose_spec⟩

/-- For the examples: an optimiser that prefers the given tour. -/
theorem optimiser_with (ids : List Nat) : ∃ solve : Graph2D K → Option (List Nat), AvoidsMissing solve ∧
    ∀ cov, IsTour cov ids → tourCost cov ids < 10 ^ 15 → solve cov = some ids := by
  classical
  obtain ⟨s, hs⟩ := exists_optimiser (K := K)
  refine ⟨fun cov => if IsTour cov ids ∧ tourCost cov ids < 10 ^ 15 then some ids else s cov, ?_, ?_⟩
  · intro cov h
    by_cases hc : IsTour cov ids ∧ tourCost cov ids < 10 ^ 15
    · exact ⟨ids, if_pos hc, hc⟩
    · obtain ⟨i, h1, h2⟩ := hs cov h
      exact ⟨i, by simp only []; rw [if_neg hc]; exact h1, h2⟩
  · intro cov h1 h2
    simp only []
    rw [if_pos ⟨h1, h2⟩]

/-- Two parallel swaths. -/
def rs₁ : Swath ℚ := ⟨0, [⟨1, 1, 0⟩, ⟨1, 9, 0⟩], 2, true, .mainland⟩
def rs₂ : Swath ℚ := ⟨1, [⟨3, 1, 0⟩, ⟨3, 9, 0⟩], 2, true, .mainland⟩

/-- A headland around them with a gate at (0, 0). -/
def headland : List (PEdit ℚ) :=
  [.add ⟨0, 0, 0⟩ ⟨1, 1, 0⟩ 1414, .add ⟨1, 1, 0⟩ ⟨3, 1, 0⟩ 2000, .add ⟨3, 1, 0⟩ ⟨5, 5, 0⟩ 4472,
    .add ⟨5, 5, 0⟩ ⟨3, 9, 0⟩ 4472, .add ⟨3, 9, 0⟩ ⟨1, 9, 0⟩ 2000]

/-- The hypotheses of C21 and C22 hold for them. -/
example : Distinct (some ⟨0, 0, 0⟩) [rs₁, rs₂] ∧
    HashOk hashFirst (tourPoints (some ⟨0, 0, 0⟩) [rs₁, rs₂]) ∧
    (∀ p ∈ ends (some ⟨0, 0, 0⟩) [rs₁, rs₂], p ∈ nodes headland) ∧ Undirected (2 ^ 30) headland ∧
    Separated (nodes headland) ∧ HashOk hashFirst (nodes headland) := by
  refine ⟨?_, ?_, ?_, ?_, ?_, ?_⟩
  · unfold Distinct; decide +kernel
  · unfold HashOk; decide +kernel
  · decide +kernel
  · unfold Undirected headland; simp
  · unfold Separated; decide +kernel
  · unfold HashOk; decide +kernel

/-- With swaths that are not to be redirected both are driven forwards, whatever the optimiser
says; here the one with the smaller number first. -/
example : (run hashFirst headland >>= fun sg => genRoute hashFirst (fun _ => some [0, 1, 2, 3, 4, 5]) sg false
    (some ⟨0, 0, 0⟩) [[rs₁], [rs₂]]).map (fun r => (r.groups, r.connections.map List.length)) =
    .ok ([[rs₁], [rs₂]], [2, 4, 5]) := by decide +kernel

/-! ## C22 -/

/-- A cheapest path from `a` to `b` along the edges of the headland graph (empty if `a = b`). -/
def Shortest (es : List (PEdit K)) (a b : Point K) (p : List (Point K)) : Prop :=
  (a = b → p = []) ∧ (a ≠ b → p.head? = some a ∧ p.getLast? = some b ∧ p.Nodup ∧
    ∃ c, PPath es p c ∧ ∀ t, PWalk es a b t → c ≤ t)

/-- C22 (part): under the conditions of C21 the route begins and ends at the point that was set, and
all its connections are shortest paths along the headland graph.  Missing: a start point that is the
end of a swath, see below. -/
theorem C22_connections_partial (T : PointTable K) (hT : T.IsLawful) (es : List (PEdit K)) (sg : Graph2D K)
    (hsep : Separated (nodes es)) (hh : HashOk T (nodes es)) (hr : RemovesKnown es)
    (hu : Undirected (2 ^ 30) es) (hsg : run T es = .ok sg) (redirect : Bool)
    (rse : Option (Point K)) (d : SwathsByCells K) (solve : Graph2D K → Option (List Nat))
    (hV : ∀ p ∈ ends rse d.flatten, p ∈ nodes es)
    (hwalk : ∀ a ∈ ends rse d.flatten, ∀ b ∈ ends rse d.flatten, ∃ t, PWalk es a b t ∧ t < 2 ^ 30)
    (hsolve : AvoidsMissing solve) (hne : d.flatten ≠ []) (hn : d.flatten.length ≤ 300000)
    (hw : ∀ s ∈ d.flatten, 0 < s.width) (hd : Distinct rse d.flatten)
    (hh' : HashOk T (tourPoints rse d.flatten)) :
    ∃ (r : Route K) (order : List (Swath K × Bool)), genRoute T solve sg redirect rse d = .ok r ∧
      (order.map Prod.fst).Perm d.flatten ∧ r.groups = order.map (fun x => [driven x]) ∧
      Connections (Shortest es) rse (order.map driven) r.connections ∧
      ∀ p, rse = some p → r.startPoint = p ∧ r.endPoint = p := by
  have hc := C22_headland_connects T hT es sg hsep hh hr hu hsg _ hV hwalk
  obtain ⟨x, ord, h1, h2, h3, -⟩ := plan T hT sg redirect rse d solve hsolve hne hn hw hd hh' hc
  have hq := (connects_ans hc).1
  have hshort : ∀ a ∈ ends rse d.flatten, ∀ b ∈ ends rse d.flatten, Shortest es a b (ansQ T sg a b) := by
    intro a ha b hb
    obtain ⟨g, g', c, p, k1, k2, k3, k4, k5, k6, k7⟩ := C13_between_points T hT es (2 ^ 30) hsep hh hr hu
      (by norm_num) (by norm_num) a b (hV a ha) (hV b hb)
    rw [hsg] at k1
    obtain rfl : sg = g := by simpa using k1
    have : ansQ T sg a b = p := by
      unfold ansQ sp
      rw [show inf = 2 ^ 30 from rfl, k3]
      rfl
    rw [this]
    refine ⟨k5, fun hab => ?_⟩
    obtain ⟨t, ht, htl⟩ := hwalk a ha b hb
    obtain ⟨m1, m2, m3, m4⟩ := k7 hab ⟨t, ht, htl⟩
    exact ⟨m1, m2, m3, c, m4, (k4.2.1 ⟨t, ht, htl⟩).2⟩
  have hdV : ∀ t ∈ (x :: ord).map driven, t.startPoint ∈ ends rse d.flatten ∧
      t.endPoint ∈ ends rse d.flatten := by
    intro t ht
    obtain ⟨y, hy, rfl⟩ := List.mem_map.1 ht
    have hyd : y.1 ∈ d.flatten := h2.mem_iff.1 (List.mem_map.2 ⟨y, hy, rfl⟩)
    have m1 : y.1.startPoint ∈ ends rse d.flatten :=
      List.mem_append_left _ (List.mem_flatMap.2 ⟨y.1, hyd, by simp⟩)
    have m2 : y.1.endPoint ∈ ends rse d.flatten :=
      List.mem_append_left _ (List.mem_flatMap.2 ⟨y.1, hyd, by simp⟩)
    obtain ⟨t, b⟩ := y
    cases b
    · exact ⟨m1, m2⟩
    · have e1 : (driven (t, true)).startPoint = t.endPoint := rev_start _
      have e2 : (driven (t, true)).endPoint = t.startPoint := rev_end _
      rw [e1, e2]
      exact ⟨m2, m1⟩
  have hpV : ∀ p, rse = some p → p ∈ ends rse d.flatten := fun p hp =>
    List.mem_append_right _ (by simp [hp])
  refine ⟨_, x :: ord, h1, h2, rfl, ?_, ?_⟩
  · simp only [List.map_cons, Connections, List.cons_append]
    refine ⟨?_, ?_⟩
    · cases rse with
      | none => rfl
      | some p => exact hshort p (hpV p rfl) _ (hdV (driven x) (by simp)).1
    · exact legs_between (R := Shortest es) (Q := ansQ T sg) (ord.map driven) (driven x)
        (fun t ht u hu => hshort _ (hdV t ht).2 _ (hdV u hu).1)
        (fun p hp t ht => hshort _ (hdV t ht).2 p (hpV p hp))
  · intro p hp
    subst hp
    unfold Distinct at hd
    rw [tourPoints_eq] at hd
    have hdis := List.disjoint_of_nodup_append (apart_nodup hd)
    have hpne : ∀ t ∈ (x :: ord).map driven, p ≠ t.startPoint ∧ t.endPoint ≠ p := by
      intro t ht
      obtain ⟨y, hy, rfl⟩ := List.mem_map.1 ht
      have hyd : y.1 ∈ d.flatten := h2.mem_iff.1 (List.mem_map.2 ⟨y, hy, rfl⟩)
      obtain ⟨m1, m2⟩ := driven_ends y
      constructor
      · intro h
        exact hdis (List.mem_flatMap.2 ⟨y.1, hyd, m1⟩) (by rw [← h]; simp [depot])
      · intro h
        exact hdis (List.mem_flatMap.2 ⟨y.1, hyd, m2⟩) (by rw [h]; simp [depot])
    have hx : driven x ∈ (x :: ord).map driven := by simp
    constructor
    · unfold Route.startPoint
      simp only [List.cons_append, List.head?_cons, Option.getD_some, firstLeg]
      rw [(hq.ends p (hpV p rfl) _ (hdV _ hx).1 (hpne _ hx).1).1]
    · set last := ((x :: ord).map driven).getLast (by simp) with hlast
      have hl : last ∈ (x :: ord).map driven := List.getLast_mem _
      unfold Route.endPoint
      rw [if_pos (by simp [lastLeg, between_length])]
      simp only [lastLeg, List.getLast?_append, List.getLast?_singleton, Option.some_or, Option.getD_some]
      rw [(hq.ends _ (hdV _ hl).2 p (hpV p rfl) (hpne _ hl).2).2]

/-! ## Cases in which C21 and C22 fail -/

/-- Cost of the way between two points, for the examples. -/
def wayCost (es : List (PEdit ℚ)) (a b : Point ℚ) : Int :=
  match run hashFirst es >>= fun g => g.shortestPathCost hashFirst a b (2 ^ 30) with
  | .ok (_, d) => d
  | _ => 2 ^ 30

theorem walk_of_wayCost (es : List (PEdit ℚ)) (hsep : Separated (nodes es)) (hh : HashOk hashFirst (nodes es))
    (hr : RemovesKnown es) (hu : Undirected (2 ^ 30) es) (a b : Point ℚ) (ha : a ∈ nodes es) (hb : b ∈ nodes es)
    (h : wayCost es a b < 2 ^ 30) : ∃ t, PWalk es a b t ∧ t < 2 ^ 30 := by
  obtain ⟨g, g', d, p, h1, h2, h3, h4, -⟩ := C13_between_points hashFirst hashFirst_lawful es (2 ^ 30) hsep hh hr hu
    (by norm_num) (by norm_num) a b ha hb
  unfold wayCost at h
  rw [h1, Outcome.ok_bind, h2] at h
  by_contra hno
  push Not at hno
  have := h4.2.2 hno
  simp only [this] at h
  omega

theorem headland_facts : Separated (nodes headland) ∧ HashOk hashFirst (nodes headland) ∧
    RemovesKnown headland ∧ Undirected (2 ^ 30) headland := by
  refine ⟨?_, ?_, removesKnown_of_none ?_, ?_⟩
  · unfold Separated; decide +kernel
  · unfold HashOk; decide +kernel
  · intro a b; simp [headland]
  · unfold Undirected headland; simp

theorem headland_walks : ∀ a ∈ nodes headland, ∀ b ∈ nodes headland,
    ∃ t, PWalk headland a b t ∧ t < 2 ^ 30 := by
  intro a ha b hb
  obtain ⟨h1, h2, h3, h4⟩ := headland_facts
  refine walk_of_wayCost headland h1 h2 h3 h4 a b ha hb ?_
  revert a b
  decide +kernel

theorem headland_connects (sg : Graph2D ℚ) (hg : run hashFirst headland = .ok sg) (V : List (Point ℚ))
    (hV : ∀ p ∈ V, p ∈ nodes headland) : Connects hashFirst sg V := by
  obtain ⟨h1, h2, h3, h4⟩ := headland_facts
  exact C22_headland_connects hashFirst hashFirst_lawful headland sg h1 h2 h3 h4 hg V hV
    (fun a ha b hb => headland_walks a (hV a ha) b (hV b hb))

/-- All hypotheses of C22 hold for the example. -/
example (sg : Graph2D ℚ) (hg : run hashFirst headland = .ok sg) :
    ∃ (solve : Graph2D ℚ → Option (List Nat)) (r : Route ℚ),
      genRoute hashFirst solve sg true (some ⟨0, 0, 0⟩) [[rs₁], [rs₂]] = .ok r ∧
      r.startPoint = ⟨0, 0, 0⟩ ∧ r.endPoint = ⟨0, 0, 0⟩ := by
  obtain ⟨solve, hs⟩ := exists_optimiser (K := ℚ)
  obtain ⟨h1, h2, h3, h4⟩ := headland_facts
  have hV : ∀ p ∈ ends (some ⟨0, 0, 0⟩) [rs₁, rs₂], p ∈ nodes headland := by decide +kernel
  obtain ⟨r, o, r1, -, -, -, r5⟩ := C22_connections_partial hashFirst hashFirst_lawful headland sg h1 h2 h3 h4 hg
    true (some ⟨0, 0, 0⟩) [[rs₁], [rs₂]] solve hV (fun a ha b hb => headland_walks a (hV a ha) b (hV b hb)) hs
    (by decide) (by decide) (by decide +kernel) (by unfold Distinct; decide +kernel)
    (by unfold HashOk; decide +kernel)
  exact ⟨solve, r, r1, r5 _ rfl⟩

/-- Result of the planner for a given tour, if that tour is acceptable. -/
def planWith (es : List (PEdit ℚ)) (ids : List Nat) (rse : Option (Point ℚ)) (d : SwathsByCells ℚ) :
    Outcome (Route ℚ) := do
  let sg ← run hashFirst es
  let cov ← createCoverageGraph hashFirst sg true rse d
  if ids.Perm (List.range (cov.numNodes - 1)) ∧ tourCost cov ids < 10 ^ 15 then
    transformSolutionToRoute hashFirst sg cov rse d ids
  else .throw .runtimeError

theorem planWith_spec {es : List (PEdit ℚ)} {ids : List Nat} {rse : Option (Point ℚ)} {d : SwathsByCells ℚ}
    {o : Outcome (Route ℚ)} (h : planWith es ids rse d = o) (ho : o ≠ .throw .runtimeError)
    {sg : Graph2D ℚ} (hg : run hashFirst es = .ok sg) {solve : Graph2D ℚ → Option (List Nat)}
    (hs : ∀ cov, IsTour cov ids → tourCost cov ids < 10 ^ 15 → solve cov = some ids) :
    genRoute hashFirst solve sg true rse d = o := by
  unfold planWith at h
  rw [hg, Outcome.ok_bind] at h
  unfold genRoute
  cases hc : createCoverageGraph hashFirst sg true rse d with
  | ok cov =>
    rw [hc, Outcome.ok_bind] at h
    rw [Outcome.ok_bind]
    split at h
    · rename_i hcond
      rw [hs cov hcond.1 hcond.2]
      exact h
    · exact absurd h.symm ho
  | throw e => rw [hc, Outcome.throw_bind] at h; rw [Outcome.throw_bind]; exact h
  | ub e => rw [hc, Outcome.ub_bind] at h; rw [Outcome.ub_bind]; exact h

theorem headland_ok : ∃ sg, run hashFirst headland = .ok sg := by
  have hsg : (run hashFirst headland).isOk = true := by decide +kernel
  cases hg : run hashFirst headland with
  | throw e => rw [hg] at hsg; simp [Outcome.isOk] at hsg
  | ub e => rw [hg] at hsg; simp [Outcome.isOk] at hsg
  | ok sg => exact ⟨sg, rfl⟩

/-- C21 is false in general: if the start point of the route is the end of a swath, the optimiser is
given the wrong node as depot, and the last swath is not driven. -/
theorem C21_swath_dropped : ∃ (T : PointTable ℚ) (es : List (PEdit ℚ)) (sg : Graph2D ℚ) (p : Point ℚ)
    (d : SwathsByCells ℚ) (solve : Graph2D ℚ → Option (List Nat)) (r : Route ℚ), T.IsLawful ∧ T.IsStrict ∧
    run T es = .ok sg ∧ AvoidsMissing solve ∧ Connects T sg (ends (some p) d.flatten) ∧
    d.flatten.length = 2 ∧ genRoute T solve sg true (some p) d = .ok r ∧ r.groups.flatten.length = 1 := by
  obtain ⟨solve, h1, h2⟩ := optimiser_with (K := ℚ) [4, 3, 0, 1, 2]
  obtain ⟨sg, hg⟩ := headland_ok
  have key : (planWith headland [4, 3, 0, 1, 2] (some ⟨1, 9, 0⟩) [[rs₁], [rs₂]]).map
      (fun r => r.groups) = .ok [[rs₁]] := by decide +kernel
  cases hp : planWith headland [4, 3, 0, 1, 2] (some ⟨1, 9, 0⟩) [[rs₁], [rs₂]] with
  | throw e => rw [hp] at key; simp [Outcome.map] at key
  | ub e => rw [hp] at key; simp [Outcome.map] at key
  | ok r =>
    rw [hp] at key
    simp only [Outcome.map, Outcome.ok.injEq] at key
    exact ⟨hashFirst, headland, sg, ⟨1, 9, 0⟩, [[rs₁], [rs₂]], solve, r, hashFirst_lawful, rfl, hg, h1,
      headland_connects sg hg _ (by decide +kernel), rfl, planWith_spec hp (by simp) hg h2, by rw [key]; rfl⟩

/-- C22 is false in general: if the route is to start where the first swath of the tour starts, the
planner asks for the way from the point (0, 0), which is no node, and throws. -/
theorem C22_start_at_swath_throws : ∃ (T : PointTable ℚ) (es : List (PEdit ℚ)) (sg : Graph2D ℚ) (p : Point ℚ)
    (d : SwathsByCells ℚ) (solve : Graph2D ℚ → Option (List Nat)), T.IsLawful ∧ T.IsStrict ∧
    run T es = .ok sg ∧ AvoidsMissing solve ∧ Connects T sg (ends (some p) d.flatten) ∧
    genRoute T solve sg true (some p) d = .throw .outOfRange := by
  obtain ⟨solve, h1, h2⟩ := optimiser_with (K := ℚ) [0, 1, 2, 3, 4]
  have key : planWith [.add ⟨1, 1, 0⟩ ⟨3, 1, 0⟩ 2000, .add ⟨3, 1, 0⟩ ⟨3, 9, 0⟩ 8000,
      .add ⟨3, 9, 0⟩ ⟨1, 9, 0⟩ 2000] [0, 1, 2, 3, 4] (some ⟨1, 1, 0⟩) [[rs₁], [rs₂]] =
      .throw .outOfRange := by decide +kernel
  set es : List (PEdit ℚ) := [.add ⟨1, 1, 0⟩ ⟨3, 1, 0⟩ 2000, .add ⟨3, 1, 0⟩ ⟨3, 9, 0⟩ 8000,
      .add ⟨3, 9, 0⟩ ⟨1, 9, 0⟩ 2000] with hes
  have hsg : (run hashFirst es).isOk = true := by decide +kernel
  cases hg : run hashFirst es with
  | throw e => rw [hg] at hsg; simp [Outcome.isOk] at hsg
  | ub e => rw [hg] at hsg; simp [Outcome.isOk] at hsg
  | ok sg =>
    have f1 : Separated (nodes es) := by unfold Separated; decide +kernel
    have f2 : HashOk hashFirst (nodes es) := by unfold HashOk; decide +kernel
    have f3 : RemovesKnown es := removesKnown_of_none (by intro a b; simp [hes])
    have f4 : Undirected (2 ^ 30) es := by unfold Undirected; simp [hes]
    have f5 : ∀ a ∈ nodes es, ∀ b ∈ nodes es, wayCost es a b < 2 ^ 30 := by decide +kernel
    have f6 : ∀ p ∈ ends (some (⟨1, 1, 0⟩ : Point ℚ)) [rs₁, rs₂], p ∈ nodes es := by decide +kernel
    exact ⟨hashFirst, es, sg, ⟨1, 1, 0⟩, [[rs₁], [rs₂]], solve, hashFirst_lawful, rfl, hg, h1,
      C22_headland_connects hashFirst hashFirst_lawful es sg f1 f2 f3 f4 hg _ f6
        (fun a ha b hb => walk_of_wayCost es f1 f2 f3 f4 a b (f6 a ha) (f6 b hb) (f5 a (f6 a ha) b (f6 b hb))),
      planWith_spec key (by simp) hg h2⟩

/-- C22: two swaths in parts of the headland that are not connected are simply joined by an empty
connection. -/
theorem C22_unconnected_jump : ∃ (T : PointTable ℚ) (es : List (PEdit ℚ)) (sg : Graph2D ℚ)
    (d : SwathsByCells ℚ) (p : Point ℚ) (solve : Graph2D ℚ → Option (List Nat)) (r : Route ℚ), T.IsLawful ∧
    run T es = .ok sg ∧ AvoidsMissing solve ∧ Distinct (some p) d.flatten ∧
    genRoute T solve sg true (some p) d = .ok r ∧ r.groups = [[rs₁], [rs₂]] ∧
    r.connections[1]? = some [] := by
  obtain ⟨solve, h1, h2⟩ := optimiser_with (K := ℚ) [0, 1, 2, 3, 4, 5]
  have key : (planWith [.add ⟨0, 0, 0⟩ ⟨1, 1, 0⟩ 1414, .add ⟨1, 1, 0⟩ ⟨1, 9, 0⟩ 8000,
      .add ⟨3, 1, 0⟩ ⟨3, 9, 0⟩ 8000] [0, 1, 2, 3, 4, 5] (some ⟨0, 0, 0⟩) [[rs₁], [rs₂]]).map
      (fun r => (r.groups, r.connections[1]?)) = .ok ([[rs₁], [rs₂]], some []) := by decide +kernel
  set es : List (PEdit ℚ) := [.add ⟨0, 0, 0⟩ ⟨1, 1, 0⟩ 1414, .add ⟨1, 1, 0⟩ ⟨1, 9, 0⟩ 8000,
      .add ⟨3, 1, 0⟩ ⟨3, 9, 0⟩ 8000] with hes
  have hsg : (run hashFirst es).isOk = true := by decide +kernel
  cases hg : run hashFirst es with
  | throw e => rw [hg] at hsg; simp [Outcome.isOk] at hsg
  | ub e => rw [hg] at hsg; simp [Outcome.isOk] at hsg
  | ok sg =>
    cases hp : planWith es [0, 1, 2, 3, 4, 5] (some ⟨0, 0, 0⟩) [[rs₁], [rs₂]] with
    | throw e => rw [hp] at key; simp [Outcome.map] at key
    | ub e => rw [hp] at key; simp [Outcome.map] at key
    | ok r =>
      rw [hp] at key
      simp only [Outcome.map, Outcome.ok.injEq, Prod.mk.injEq] at key
      exact ⟨hashFirst, es, sg, [[rs₁], [rs₂]], ⟨0, 0, 0⟩, solve, r, hashFirst_lawful, hg, h1,
        by unfold Distinct; decide +kernel, planWith_spec hp (by simp) hg h2, key.1, key.2⟩

omit [IsStrictOrderedRing K] in
/-- C21: planning a route without swaths is undefined behaviour, whatever the optimiser returns. -/
theorem C21_no_swaths_ub (T : PointTable K) (sg : Graph2D K) (redirect : Bool) (rse : Option (Point K))
    (d : SwathsByCells K) (hd : d.flatten = []) (solve : Graph2D K → Option (List Nat))
    (hs : ∀ cov ids, solve cov = some ids → IsTour cov ids) :
    (genRoute T solve sg redirect rse d).isUb = true := by
  have hc : createCoverageGraph T sg redirect rse d = .ok Graph2D.empty := by
    unfold createCoverageGraph
    rw [hd]
    rfl
  unfold genRoute
  rw [hc, Outcome.ok_bind]
  cases h : solve Graph2D.empty with
  | none => rfl
  | some ids =>
    have := hs _ _ h
    have : ids = [] := List.perm_nil.1 (by simpa [IsTour, Graph2D.numNodes, Graph2D.empty] using this)
    subst this
    rfl

omit [IsStrictOrderedRing K] in
theorem fold_ok {α β : Type} (f : β → α → Outcome β) : ∀ (l : List α) (b : β),
    (foldOutcome f b l).isOk = true → ∀ a ∈ l, ∃ b', (f b' a).isOk = true
  | [], b, _, a, ha => by simp at ha
  | x :: l, b, h, a, ha => by
    rw [foldOutcome] at h
    cases hx : f b x with
    | ok b₁ =>
      rcases List.mem_cons.1 ha with rfl | ha
      · exact ⟨b, by rw [hx]; rfl⟩
      · rw [hx, Outcome.ok_bind] at h
        exact fold_ok f l b₁ h a ha
    | throw e => rw [hx] at h; simp [Outcome.isOk] at h
    | ub e => rw [hx] at h; simp [Outcome.isOk] at h

/-- C21: if no start point is set, the planner never returns properly with the hash function of the
code: the auxiliary depot (-1e8, -1e8) has no defined hash value. -/
theorem C21_default_depot_never_ok [FloorSemiring K] (T : PointTable K) (hT : T.IsStrict) (sg : Graph2D K)
    (redirect : Bool) (d : SwathsByCells K) (hd : d.flatten ≠ []) (solve : Graph2D K → Option (List Nat)) :
    (genRoute T solve sg redirect none d).isOk = false := by
  have hc : (createCoverageGraph T sg redirect none d).isOk = false := by
    by_contra hne
    have hok : (createCoverageGraph T sg redirect none d).isOk = true := by simpa using hne
    obtain ⟨s, l, hl⟩ := List.exists_cons_of_ne_nil hd
    unfold createCoverageGraph at hok
    obtain ⟨g, hg⟩ := fold_ok _ _ _ hok (.zeroEdge s.startPoint (depot none)) (by
      unfold covCmds
      rw [hl]
      simp [covDepot])
    have hh : T.hash (depot none) = .ub "double to size_t out of range" := by
      rw [hT]
      unfold hashPoint depot
      simp only [Option.getD_none]
      rw [if_neg]
      intro h
      have := h.1
      norm_num at this
    have : (CovCmd.exec T sg g (.zeroEdge s.startPoint (depot none))).isOk = false := by
      show (Graph2D.addEdge T g s.startPoint (depot none) 0).isOk = false
      unfold Graph2D.addEdge Graph2D.addDirectedEdge
      cases h1 : Graph2D.insertNode T g.nodesToIndex s.startPoint with
      | ok x =>
        obtain ⟨l₁, i⟩ := x
        have h2 : Graph2D.insertNode T l₁ (depot none) = .ub "double to size_t out of range" := by
          unfold Graph2D.insertNode
          rw [hh]
          rfl
        simp only [Outcome.ok_bind, h2, Outcome.ub_bind]
        rfl
      | throw e => rfl
      | ub e => rfl
    rw [this] at hg
    simp at hg
  unfold genRoute
  cases h : createCoverageGraph T sg redirect none d with
  | ok c => rw [h] at hc; simp [Outcome.isOk] at hc
  | throw e => rfl
  | ub e => rfl

example : (run hashFirst headland >>= fun sg => genRoute hashFirst (fun _ => some [0, 1, 2, 3, 4, 5]) sg true
    none [[rs₁], [rs₂]]).isUb = true := by decide +kernel

end F2C.Props
