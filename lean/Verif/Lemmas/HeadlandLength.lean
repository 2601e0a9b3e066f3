import Verif.Lemmas.ShortestGraph

/-! # Lemmas about the lengths of ways in the headland graph -/

namespace F2C.HeadL

open Outcome Graph2DSpec Graph2DL GraphL HeadSpec Planner Props.SG Props.Geo

/-! ## Geometry -/

theorem onSegment_length {a b n : RPoint} (h : OnSegment a b n) : pdist a n + pdist n b = pdist a b := by
  obtain ⟨t, h0, h1, hx, hy⟩ := h
  have e1 : pdist a n = t * pdist a b := by
    rw [pdist_eq_norm, pdist_eq_norm]
    have : (⟨a.x - n.x, a.y - n.y⟩ : ℂ) = (t : ℂ) * ⟨a.x - b.x, a.y - b.y⟩ := by
      apply Complex.ext
      · simp [hx]; ring
      · simp [hy]; ring
    rw [this, norm_mul, Complex.norm_real, Real.norm_of_nonneg h0]
  have e2 : pdist n b = (1 - t) * pdist a b := by
    rw [pdist_eq_norm, pdist_eq_norm]
    have : (⟨n.x - b.x, n.y - b.y⟩ : ℂ) = ((1 - t : ℝ) : ℂ) * ⟨a.x - b.x, a.y - b.y⟩ := by
      apply Complex.ext
      · simp [hx]; ring
      · simp [hy]; ring
    rw [this, norm_mul, Complex.norm_real, Real.norm_of_nonneg (by linarith)]
  rw [e1, e2]
  ring

/-- Of two points on a segment one is between the beginning and the other one. -/
theorem onSegment_total {a b x y : RPoint} (hx : OnSegment a b x) (hy : OnSegment a b y) :
    OnSegment a y x ∨ OnSegment a x y := by
  have key : ∀ {x y : RPoint} {s r : ℝ}, 0 ≤ s → s ≤ r → x.x = a.x + s * (b.x - a.x) →
      x.y = a.y + s * (b.y - a.y) → y.x = a.x + r * (b.x - a.x) → y.y = a.y + r * (b.y - a.y) →
      OnSegment a y x := by
    intro x y s r h0 hsr x1 x2 y1 y2
    rcases eq_or_lt_of_le (h0.trans hsr) with hr | hr
    · have : s = 0 := by linarith
      exact ⟨0, le_refl _, zero_le_one, by rw [x1, this]; ring, by rw [x2, this]; ring⟩
    · refine ⟨s / r, by positivity, by rw [div_le_one hr]; exact hsr, ?_, ?_⟩
      · rw [x1, y1]; field_simp; ring
      · rw [x2, y2]; field_simp; ring
  obtain ⟨s, s0, s1, x1, x2⟩ := hx
  obtain ⟨r, r0, r1, y1, y2⟩ := hy
  rcases le_total s r with h | h
  · exact Or.inl (key s0 h x1 x2 y1 y2)
  · exact Or.inr (key r0 h y1 y2 x1 x2)

theorem near_of_segmentDistance {n a b : RPoint} {d : ℝ} (h : segmentDistance n a b < d) :
    ∃ w, OnSegment a b w ∧ pdist n w < d :=
  ⟨closestInSegment { n with z := 0 } { a with z := 0 } { b with z := 0 },
    closest_on_segment { n with z := 0 } { a with z := 0 } { b with z := 0 }, h⟩

/-! ## Ways with their lengths -/

/-- A way along edges and its length. -/
inductive RW (es : List (PEdit ℝ)) : RPoint → RPoint → ℝ → Prop
  | refl (a) : RW es a a 0
  | step {a b c L} : Ed es a b → RW es b c L → RW es a c (pdist a b + L)

theorem RW.trans {es a b c L M} (h : RW es a b L) (h' : RW es b c M) : RW es a c (L + M) := by
  induction h with
  | refl => simpa using h'
  | step he _ ih => rw [add_assoc]; exact .step he (ih h')

theorem RW.single {es a b} (h : Ed es a b) : RW es a b (pdist a b) := by
  have := RW.step h (RW.refl b)
  simpa using this

theorem RW.symm {es a b L} (hs : ∀ x y, Ed es x y → Ed es y x) (h : RW es a b L) : RW es b a L := by
  induction h with
  | refl => exact .refl _
  | @step a b c L he _ ih =>
    rw [add_comm, pdist_comm a b]
    exact ih.trans (.single (hs _ _ he))

theorem RW.mono {es es' a b L} (hs : ∀ x y, Ed es x y → RW es' x y (pdist x y)) (h : RW es a b L) :
    RW es' a b L := by
  induction h with
  | refl => exact .refl _
  | step he _ ih => exact (hs _ _ he).trans ih

/-- All ways stay, with their lengths. -/
def KeepsLen (a b : List (PEdit ℝ)) : Prop := ∀ x y L, RW a x y L → RW b x y L

theorem split_len {es : List (PEdit ℝ)} {a b n : RPoint} {c d : Int} (ha : n ≠ a) (hb : n ≠ b)
    (hon : OnSegment a b n) :
    let es' := es ++ [.add a n c] ++ [.add n b d] ++ [.remove a b]
    KeepsLen es es' ∧ Ed es' a n ∧ Ed es' n b ∧
      ∀ x y, Ed es x y → Ed es' x y ∨ (x = a ∧ y = b) ∨ (x = b ∧ y = a) := by
  intro es'
  have key : ∀ x y, Ed es' x y ↔ (((Ed es x y ∨ (x = a ∧ y = n) ∨ (x = n ∧ y = a)) ∨
      (x = n ∧ y = b) ∨ (x = b ∧ y = n)) ∧ ¬ ((x = a ∧ y = b) ∨ (x = b ∧ y = a))) := by
    intro x y
    rw [ed_remove, ed_add, ed_add]
  have an : Ed es' a n := (key _ _).2 ⟨Or.inl (Or.inr (Or.inl ⟨rfl, rfl⟩)), by
    rintro (⟨-, h⟩ | ⟨-, h⟩)
    · exact hb h
    · exact ha h⟩
  have na : Ed es' n a := (key _ _).2 ⟨Or.inl (Or.inr (Or.inr ⟨rfl, rfl⟩)), by
    rintro (⟨h, -⟩ | ⟨h, -⟩)
    · exact ha h
    · exact hb h⟩
  have nb : Ed es' n b := (key _ _).2 ⟨Or.inr (Or.inl ⟨rfl, rfl⟩), by
    rintro (⟨h, -⟩ | ⟨h, -⟩)
    · exact ha h
    · exact hb h⟩
  have bn : Ed es' b n := (key _ _).2 ⟨Or.inr (Or.inr ⟨rfl, rfl⟩), by
    rintro (⟨-, h⟩ | ⟨-, h⟩)
    · exact hb h
    · exact ha h⟩
  refine ⟨fun x y L h => h.mono ?_, an, nb, ?_⟩
  · intro x y hxy
    by_cases h : (x = a ∧ y = b) ∨ (x = b ∧ y = a)
    · rcases h with ⟨rfl, rfl⟩ | ⟨rfl, rfl⟩
      · rw [← onSegment_length hon]
        exact (RW.single an).trans (.single nb)
      · rw [← onSegment_length (onSegment_symm hon)]
        exact (RW.single bn).trans (.single na)
    · exact .single ((key x y).2 ⟨Or.inl (Or.inl hxy), h⟩)
  · intro x y hxy
    by_cases h : (x = a ∧ y = b) ∨ (x = b ∧ y = a)
    · exact Or.inr h
    · exact Or.inl ((key x y).2 ⟨Or.inl (Or.inl hxy), h⟩)

variable {T : PointTable ℝ} {S : List RPoint} {M : Int}

/-- Both points are on one track. -/
def OnOne (R : RPoint → RPoint → Prop) (x y : RPoint) : Prop :=
  ∃ a b, R a b ∧ OnSegment a b x ∧ OnSegment a b y

/-- Nodes that are near a piece of a track are on it. -/
def ClearOf (R : RPoint → RPoint → Prop) (d : ℝ) (N : List RPoint) : Prop :=
  ∀ a ∈ N, ∀ b ∈ N, OnOne R a b → ∀ n ∈ N, ∀ w, OnSegment a b w → pdist n w < d → OnSegment a b n

/-- The invariant of the rounds. -/
structure InvL (T : PointTable ℝ) (S : List RPoint) (M : Int) (N : List RPoint)
    (Rel : RPoint → RPoint → Prop) (g : Graph2D ℝ) (es : List (PEdit ℝ)) : Prop where
  st : St T S M g es
  nodes : nodes es = N
  one : ∀ x y, Ed es x y → OnOne Rel x y

/-- What one step does: ways stay, and edges stay unless they are among `E`. -/
def Moves (E : RPoint → RPoint → Prop) (es es' : List (PEdit ℝ)) : Prop :=
  KeepsLen es es' ∧ ∀ x y, Ed es x y → Ed es' x y ∨ E x y

theorem moves_refl (E : RPoint → RPoint → Prop) (es : List (PEdit ℝ)) : Moves E es es :=
  ⟨fun _ _ _ h => h, fun _ _ h => Or.inl h⟩

theorem moves_trans (E : RPoint → RPoint → Prop) (a b c : List (PEdit ℝ)) (h1 : Moves E a b)
    (h2 : Moves E b c) : Moves E a c :=
  ⟨fun x y L h => h2.1 _ _ _ (h1.1 _ _ _ h), fun x y h => (h1.2 x y h).elim (h2.2 x y) Or.inr⟩

/-- What is known once the edge `a`–`b` was split at `n`. -/
def SplitAt (E : RPoint → RPoint → Prop) (a b n : RPoint) (es : List (PEdit ℝ)) : Prop :=
  n ≠ a → n ≠ b → OnSegment a b n →
    RW es a n (pdist a n) ∧ RW es n b (pdist n b) ∧ (Ed es a n ∨ E a n)

theorem SplitAt.mono {E : RPoint → RPoint → Prop} {a b n es es'} (h : Moves E es es') (hq : SplitAt E a b n es) :
    SplitAt E a b n es' := by
  intro h1 h2 h3
  obtain ⟨k1, k2, k3⟩ := hq h1 h2 h3
  exact ⟨h.1 _ _ _ k1, h.1 _ _ _ k2, k3.elim (h.2 _ _) Or.inr⟩

theorem splitAt_len (hp : Pts T S M) {N : List RPoint} {Rel d} (hclear : ClearOf Rel d N) {E : RPoint → RPoint → Prop}
    {a b n : RPoint} (ha : a ∈ N) (hb : b ∈ N) (hn : n ∈ N) (hd : 0 < d) (hab : OnOne Rel a b) (hE : E a b)
    (hE' : E b a) {g es} (h : InvL T S M N Rel g es) :
    ∃ g' es', splitAt T d a b g n = .ok g' ∧ InvL T S M N Rel g' es' ∧ Moves E es es' ∧ SplitAt E a b n es' := by
  have hNS : ∀ p ∈ N, p ∈ S := fun p hp' => h.st.sub p (by rw [h.nodes]; exact hp')
  unfold splitAt
  have q1 := eqv_false hp.sep (hNS n hn) (hNS a ha)
  have q2 := eqv_false hp.sep (hNS n hn) (hNS b hb)
  split
  · rename_i hc
    rw [q1, q2] at hc
    obtain ⟨c1, c2, c3⟩ := hc
    obtain ⟨w, hw, hwd⟩ := near_of_segmentDistance c3
    have hon := hclear a ha b hb hab n hn w hw hwd
    obtain ⟨g₁, x₁, h1, s1⟩ := h.st.addEdge hp (hNS a ha) (hNS n hn)
    obtain ⟨g₂, x₂, h2, s2⟩ := s1.addEdge hp (hNS n hn) (hNS b hb)
    have n1 : nodes (es ++ [.add a n x₁]) = N := by
      rw [nodes_add_eq _ _ (by rw [h.nodes]; exact ha) (by rw [h.nodes]; exact hn), h.nodes]
    have n2 : nodes (es ++ [.add a n x₁] ++ [.add n b x₂]) = N := by
      rw [nodes_add_eq _ _ (by rw [n1]; exact hn) (by rw [n1]; exact hb), n1]
    obtain ⟨g₃, h3, s3⟩ := s2.removeEdge hp (a := a) (b := b) (by rw [n2]; exact ha) (by rw [n2]; exact hb)
    obtain ⟨l1, l2, l3, l4⟩ := split_len (es := es) (c := x₁) (d := x₂) c1 c2 hon
    obtain ⟨-, -, k3⟩ := split_keeps (es := es) (c := x₁) (d := x₂) c1 c2
    obtain ⟨u, v, huv, ua, ub⟩ := hab
    have un : OnSegment u v n := by
      obtain ⟨t, t0, t1, tx, ty⟩ := hon
      exact onSegment_mix ua ub t0 t1 tx ty
    refine ⟨g₃, _, ?_, ⟨s3, by rw [nodes_remove, n2], ?_⟩, ⟨l1, ?_⟩, fun _ _ _ => ⟨.single l2, .single l3, Or.inl l2⟩⟩
    · rw [h1, Outcome.ok_bind, h2, Outcome.ok_bind, h3]
    · intro x y hxy
      rcases k3 x y hxy with hxy | ⟨rfl, rfl⟩ | ⟨rfl, rfl⟩ | ⟨rfl, rfl⟩ | ⟨rfl, rfl⟩
      · exact h.one x y hxy
      · exact ⟨u, v, huv, ua, un⟩
      · exact ⟨u, v, huv, un, ua⟩
      · exact ⟨u, v, huv, un, ub⟩
      · exact ⟨u, v, huv, ub, un⟩
    · intro x y hxy
      rcases l4 x y hxy with h | ⟨rfl, rfl⟩ | ⟨rfl, rfl⟩
      · exact Or.inl h
      · exact Or.inr hE
      · exact Or.inr hE'
  · rename_i hc
    rw [q1, q2] at hc
    refine ⟨g, es, rfl, h, moves_refl _ _, fun h1 h2 h3 => absurd ⟨h1, h2, ?_⟩ hc⟩
    rw [segmentDistance_zero h3]
    exact hd

theorem splitRound_len (hp : Pts T S M) {N nds : List RPoint} {Rel d} (hclear : ClearOf Rel d N)
    {ord : List (Nat × Nat) → List (Nat × Nat)} (hord : ∀ l, (ord l).Perm l) (hnds : ∀ n ∈ nds, n ∈ N)
    (hd : 0 < d) {g es} (h : InvL T S M N Rel g es) :
    ∃ g' es', splitRound T ord d nds g = .ok g' ∧ InvL T S M N Rel g' es' ∧ KeepsLen es es' ∧
      ∀ a b, Ed es a b → ∀ n ∈ nds, SplitAt (Ed es) a b n es' := by
  have hg := h.st.good hp
  rw [h.nodes] at hg
  unfold splitRound
  have hpts : ∀ x ∈ ord (allEdges g.graph.edges), ∃ a b, N[x.1]? = some a ∧ N[x.2]? = some b ∧ Ed es a b := by
    rintro ⟨i, j⟩ hx
    have hm := (mem_allEdges hg.keysOk).1 ((hord _).mem_iff.1 hx)
    cases hc : g.graph.edges.cost? i j with
    | none => exact absurd hc hm
    | some c =>
      obtain ⟨b1, b2⟩ := hg.dstB i j c hc
      refine ⟨_, _, List.getElem?_eq_getElem b1, List.getElem?_eq_getElem b2, ?_⟩
      have := hg.cost i j _ _ (List.getElem?_eq_getElem b1) (List.getElem?_eq_getElem b2)
      unfold Ed
      rw [← this, hc]
      simp
  obtain ⟨g', es', k1, k2, k3, k4⟩ := fold_phase (splitEdge T d nds) (InvL T S M N Rel) (Moves (Ed es))
    (fun x es' => ∀ a b, N[x.1]? = some a → N[x.2]? = some b → ∀ n ∈ nds, SplitAt (Ed es) a b n es')
    (moves_refl _) (moves_trans _)
    (fun x u v huv hq a b ha hb n hn => (hq a b ha hb n hn).mono huv) (ord (allEdges g.graph.edges))
    (by
      rintro ⟨i, j⟩ hx g' es' hI
      obtain ⟨a, b, ha, hb, hab⟩ := hpts _ hx
      have hg' := hI.st.good hp
      rw [hI.nodes] at hg'
      have hfold := fold_phase (splitAt T d a b) (InvL T S M N Rel) (Moves (Ed es))
        (fun n es' => SplitAt (Ed es) a b n es') (moves_refl _) (moves_trans _)
        (fun x u v huv hq => hq.mono huv) nds
        (fun n hn g es' hI => splitAt_len hp hclear (List.mem_of_getElem? ha) (List.mem_of_getElem? hb) (hnds n hn) hd
          (h.one a b hab) hab (ed_symm hp h.st hab) hI) g' es' hI
      obtain ⟨g₂, es₂, m1, m2, m3, m4⟩ := hfold
      refine ⟨g₂, es₂, ?_, m2, m3, ?_⟩
      · unfold splitEdge
        rw [indexToNode_good hg' ha, Outcome.ok_bind, indexToNode_good hg' hb, Outcome.ok_bind]
        exact m1
      · intro a' b' ha' hb'
        rw [ha] at ha'
        rw [hb] at hb'
        simp only [Option.some.injEq] at ha' hb'
        subst ha' hb'
        exact m4) g es h
  refine ⟨g', es', k1, k2, k3.1, ?_⟩
  intro a b hab
  have hdom := hg.dom a b hab
  obtain ⟨i, hi⟩ := List.mem_iff_getElem?.1 hdom.1
  obtain ⟨j, hj⟩ := List.mem_iff_getElem?.1 hdom.2
  refine k4 (i, j) ((hord _).mem_iff.2 ((mem_allEdges hg.keysOk).2 ?_)) a b hi hj
  rw [hg.cost i j a b hi hj]
  exact hab

/-- After two rounds, any two nodes on a track that was an edge are as near in the graph as in the plane. -/
theorem rounds_len (hp : Pts T S M) {N nds : List RPoint} {Rel d} (hclear : ClearOf Rel d N)
    {ord : List (Nat × Nat) → List (Nat × Nat)} (hord : ∀ l, (ord l).Perm l) (hnds : ∀ n, n ∈ nds ↔ n ∈ N)
    (hd : 0 < d) {g es} (h : InvL T S M N Rel g es) (hrel : ∀ a b, Rel a b → Ed es a b) :
    ∃ g₁ g₂ es₂, splitRound T ord d nds g = .ok g₁ ∧ splitRound T ord d nds g₁ = .ok g₂ ∧
      InvL T S M N Rel g₂ es₂ ∧ ∀ x ∈ N, ∀ y ∈ N, OnOne Rel x y → RW es₂ x y (pdist x y) := by
  obtain ⟨g₁, e₁, a1, a2, a3, a4⟩ := splitRound_len hp hclear hord (fun n hn => (hnds n).1 hn) hd h
  obtain ⟨g₂, e₂, b1, b2, b3, b4⟩ := splitRound_len hp hclear hord (fun n hn => (hnds n).1 hn) hd a2
  refine ⟨g₁, g₂, e₂, a1, b1, b2, ?_⟩
  have main : ∀ a b, Rel a b → ∀ x ∈ N, ∀ y ∈ N, OnSegment a b x → OnSegment a b y → OnSegment a y x →
      RW e₂ x y (pdist x y) := by
    intro a b hab x hx y hy hax hay hyx
    have he := hrel a b hab
    by_cases hxy : x = y
    · subst hxy
      rw [pdist_self]
      exact .refl _
    by_cases hya : y = a
    · subst hya
      by_cases hxb : x = b
      · subst hxb
        rw [pdist_comm]
        exact (b3 _ _ _ (a3 _ _ _ (RW.single he))).symm (fun u v => ed_symm hp b2.st)
      · have := (a4 y b he x ((hnds x).2 hx) hxy hxb hax).1
        rw [pdist_comm]
        exact (b3 _ _ _ this).symm (fun u v => ed_symm hp b2.st)
    by_cases hxa : x = a
    · subst hxa
      by_cases hyb : y = b
      · subst hyb
        exact b3 _ _ _ (a3 _ _ _ (.single he))
      · exact b3 _ _ _ (a4 x b he y ((hnds y).2 hy) hya hyb hay).1
    by_cases hyb : y = b
    · subst hyb
      exact b3 _ _ _ (a4 a y he x ((hnds x).2 hx) hxa hxy hax).2.1
    · rcases (a4 a b he y ((hnds y).2 hy) hya hyb hay).2.2 with h | h
      · exact (b4 a y h x ((hnds x).2 hx) hxa hxy hyx).2.1
      · exact b3 _ _ _ (a4 a y h x ((hnds x).2 hx) hxa hxy hyx).2.1
  rintro x hx y hy ⟨a, b, hab, hax, hay⟩
  rcases onSegment_total hax hay with h | h
  · exact main a b hab x hx y hy hax hay h
  · rw [pdist_comm]
    exact (main a b hab y hy x hx hay hax h).symm (fun u v => ed_symm hp b2.st)

/-! ## Costs and lengths -/

theorem St.cost_len {g es} (h : St T S M g es) {x y : RPoint} {c : Int} (hc : costs es x y = some c) :
    c = ⌊1000 * pdist x y⌋ := by
  have hl := h.len
  have hu := h.und
  clear h
  induction es using List.reverseRecOn generalizing c with
  | nil => simp [costs] at hc
  | append_singleton es e ih =>
    have ih' := fun {c} (hc : costs es x y = some c) => ih hc (fun a b c h => hl a b c (by simp [h]))
      (fun e he => hu e (by simp [he]))
    rw [costs_concat] at hc
    cases e with
    | addDirected u v d => exact absurd (hu (.addDirected u v d) (by simp)) (by simp)
    | add u v d =>
      simp only [costAfter] at hc
      split at hc
      · rename_i h
        simp only [Option.some.injEq] at hc
        subst hc
        have := hl u v d (by simp)
        rcases h with ⟨rfl, rfl⟩ | ⟨rfl, rfl⟩
        · exact this
        · rw [pdist_comm]; exact this
      · exact ih' hc
    | remove u v =>
      simp only [costAfter] at hc
      split at hc
      · simp at hc
      · exact ih' hc

/-- A way costs at most its length in millimetres. -/
theorem RW.cost {g es} (h : St T S M g es) {a b L} (hw : RW es a b L) : ∃ t, PWalk es a b t ∧ (t : ℝ) ≤ 1000 * L := by
  induction hw with
  | refl => exact ⟨0, .nil _, by simp⟩
  | @step a b c L he _ ih =>
    obtain ⟨t, h1, h2⟩ := ih
    cases hc : costs es a b with
    | none => exact absurd hc he
    | some k =>
      refine ⟨k + t, .cons hc h1, ?_⟩
      have hk := h.cost_len hc
      have := Int.floor_le (1000 * pdist a b)
      push_cast
      rw [hk]
      linarith

/-- A path is at most as long as it costs, plus one millimetre for every step. -/
theorem path_len {g es} (h : St T S M g es) {p : List RPoint} {t : Int} (hp : PPath es p t) :
    1000 * lineLength p ≤ t + ((p.length : ℝ) - 1) := by
  induction hp with
  | single a => simp [lineLength]
  | @cons a b l c t he _ ih =>
    have hk := h.cost_len (show costs es a b = some c from he)
    have := Int.lt_floor_add_one (1000 * pdist a b)
    rw [← hk] at this
    simp only [lineLength, List.length_cons] at ih ⊢
    push_cast at ih ⊢
    linarith

theorem RW.reach {es a b L} (h : RW es a b L) : Reach es a b := by
  induction h with
  | refl => exact .refl
  | step he _ ih => exact .head he ih

theorem onSegment_of_zero {a b u x : RPoint} (hu : OnSegment a b u) (h : pdist x u ≤ 0) : OnSegment a b x := by
  have h0 : pdist x u = 0 := le_antisymm h (pdist_nonneg _ _)
  rw [pdist_eq_zero] at h0
  obtain ⟨t, t0, t1, tx, ty⟩ := hu
  exact ⟨t, t0, t1, by rw [h0.1, tx], by rw [h0.2, ty]⟩

theorem Tr.onOne {R : RPoint → RPoint → Prop} {x y} (h : Tr R 0 x y) : OnOne R x y := by
  obtain ⟨a, b, h1, ⟨u, hu, hu'⟩, v, hv, hv'⟩ := h
  exact ⟨a, b, h1, onSegment_of_zero hu hu', onSegment_of_zero hv hv'⟩

theorem OnOne.tr {R : RPoint → RPoint → Prop} {x y} {δ : ℝ} (h : OnOne R x y) (hδ : 0 ≤ δ) : Tr R δ x y := by
  obtain ⟨a, b, h1, hx, hy⟩ := h
  exact ⟨a, b, h1, ⟨x, hx, by rw [pdist_self]; exact hδ⟩, y, hy, by rw [pdist_self]; exact hδ⟩

/-- The finished graph, if nodes near the border are on it. -/
theorem built_len (hp : Pts T S M) {cells : Cells ℝ} (hu : Usable cells) {rse : Option RPoint} {d : SwathsByCells ℝ}
    (hS : Contains cells (PlannerSpec.ends rse d.flatten) S) {ordE : List (Nat × Nat) → List (Nat × Nat)}
    (hE : ∀ l, (ordE l).Perm l) {ordN : List RPoint → List RPoint} (hN : ∀ l, (ordN l).Perm l) {tol : ℝ}
    (ht : 0 < tol) (hclear : ClearOf (Track cells (PlannerSpec.ends rse d.flatten)) tol S) :
    ∃ g es, createShortestGraph T ordE ordN tol rse cells d = .ok g ∧
      Built T S M cells (PlannerSpec.ends rse d.flatten) tol g es ∧
      ∀ x ∈ nodes es, ∀ y ∈ nodes es, OnOne (Track cells (PlannerSpec.ends rse d.flatten)) x y →
        RW es x y (pdist x y) := by
  set V := PlannerSpec.ends rse d.flatten with hV
  obtain ⟨g₁, e₁, a1, a2, a3, a4⟩ := links_phase hp hu hS
    (l := d.flatten.flatMap fun s => [s.startPoint, s.endPoint])
    (fun p hp' => by rw [hV]; exact List.mem_append_left _ hp') Graph2D.empty []
    ⟨st_empty hp.M0, by intro x y h; simp [Ed, costs] at h⟩
  obtain ⟨g₂, e₂, b1, b2, b3, b4⟩ := rings_phase hp hu hS g₁ e₁ a2
  obtain ⟨g₃, e₃, c1, c2, c3, c4⟩ := links_phase hp hu hS (l := rse.toList)
    (fun p hp' => by rw [hV]; exact List.mem_append_right _ hp') g₂ e₂ b2
  have hg₃ := c2.1.good hp
  have hnds : ∀ n, n ∈ ordN g₃.getNodes ↔ n ∈ nodes e₃ := by
    intro n
    rw [(hN _).mem_iff, getNodes_good hg₃]
  have hpair : ∀ r ∈ cells.flatten, ∀ e ∈ r.zip r.tail, Ed e₃ e.1 e.2 := fun r hr e he => c3 _ _ (b4 r hr e he)
  have hside : ∀ a b, Side cells a b → Ed e₃ a b := by
    rintro a b ⟨r, hr, pre, post, e⟩
    exact hpair r hr (a, b) (by rw [e]; exact zip_tail_mem pre post a b)
  have hlink : ∀ p ∈ V, ∀ q, Cells.closestOnBorder p cells = .ok q → Ed e₃ p q := by
    intro p hp' q hq
    rcases List.mem_append.1 hp' with h | h
    · exact c3 _ _ (b3 _ _ (a4 p h q hq))
    · exact c4 p h q hq
  have htrack : ∀ a b, Track cells V a b → Ed e₃ a b := by
    rintro a b (h | h)
    · exact hside a b h
    · exact hlink a h.1 b h.2
  obtain ⟨g₄, g₅, e₅, d1, f1, f2, f3⟩ := rounds_len hp
    (fun a ha b hb h n hn w => hclear a (c2.1.sub a ha) b (c2.1.sub b hb) h n (c2.1.sub n hn) w) hE hnds ht
    (⟨c2.1, rfl, fun x y h => (c2.2 x y h).onOne⟩ : InvL T S M (nodes e₃) (Track cells V) g₃ e₃) htrack
  have htr : ∀ a b, Track cells V a b → RW e₅ a b (pdist a b) := fun a b h =>
    f3 a (hg₃.dom _ _ (htrack a b h)).1 b (hg₃.dom _ _ (htrack a b h)).2
      ⟨a, b, h, onSegment_left _ _, onSegment_right _ _⟩
  refine ⟨g₅, e₅, ?_, ⟨f2.st, ?_, ?_, ?_, ?_, ?_⟩, ?_⟩
  · unfold createShortestGraph
    rw [a1, Outcome.ok_bind, iter_rings hu, b1, Outcome.ok_bind, c1, Outcome.ok_bind]
    simp only []
    rw [d1, Outcome.ok_bind, f1]
  · intro x y hxy
    exact (f2.one x y hxy).tr (by linarith)
  · intro p hp' q hq
    have := hlink p hp' q hq
    rw [f2.nodes]
    exact ⟨(htr p q (Or.inr ⟨hp', hq⟩)).reach, (hg₃.dom _ _ this).1, (hg₃.dom _ _ this).2⟩
  · intro r hr p hp'
    rw [f2.nodes]
    have hlen : 2 ≤ r.length := by
      obtain ⟨c, hc, hrc⟩ := List.mem_flatten.1 hr
      exact (hu.2 c hc).2 r hrc
    obtain ⟨e, he, h | h⟩ := mem_pair hlen hp'
    · rw [h]; exact (hg₃.dom _ _ (hpair r hr e he)).1
    · rw [h]; exact (hg₃.dom _ _ (hpair r hr e he)).2
  · intro a b hab
    exact (htr a b (Or.inl hab)).reach
  · intro a b hab n hn hon
    rw [f2.nodes] at hn
    exact (f3 a (hg₃.dom _ _ (hside a b hab)).1 n hn ⟨a, b, Or.inl hab, onSegment_left _ _, hon⟩).reach
  · rw [f2.nodes]
    exact f3

end F2C.HeadL
