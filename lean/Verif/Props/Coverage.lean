import Verif.Props.TopLevel
import Verif.Props.PathPlanning
import Verif.Props.SwathClip

/-!
# Property C123: the swaths cover the cell but for a rim
-/

namespace F2C.Props

open SG F2C.SG DecompSpec SwathClipSpec

namespace CoverageSpec

/-- The position `u` to the left of `c`, seen along the angle. -/
noncomputable def beside (angle : ℝ) (c : ℝ × ℝ) (u : ℝ) : ℝ × ℝ :=
  (c.1 - u * Real.sin angle, c.2 + u * Real.cos angle)

/-- Across the direction, everything within `r` of the position is in the region. -/
def Clear (region : Set (ℝ × ℝ)) (angle r : ℝ) (c : ℝ × ℝ) : Prop := ∀ u, |u| ≤ r → beside angle c u ∈ region

/-- The position is in the strip of the given width, with flat ends, along the line. -/
def InStrip (angle width : ℝ) (line : List RPoint) (c : ℝ × ℝ) : Prop :=
  ∃ q u, OnLine line q ∧ |u| ≤ width / 2 ∧ beside angle (DecompSpec.xy q) u = c

/-- What is assumed of `Cell::getLinesInside`: everything on the tracks that is in the region is on a line that
is returned. -/
def Keeps (region : Set (ℝ × ℝ)) (ts lines : List (List RPoint)) : Prop :=
  ∀ t ∈ ts, ∀ q, OnLine t q → DecompSpec.xy q ∈ region →
    ∃ l ∈ lines, ∃ q', OnLine l q' ∧ DecompSpec.xy q' = DecompSpec.xy q

end CoverageSpec

open CoverageSpec

private theorem strip_of_track (region : Set (ℝ × ℝ)) (angle w : ℝ) (poly : Cell ℝ) (hw : 0 < w)
    (hA : HasArea poly.flatten) (overlap : Bool)
    (hreg : ∀ c ∈ region, InHull poly.flatten ⟨c.1, c.2, 0⟩) (c : ℝ × ℝ) (hc : Clear region angle (w / 2) c) :
    ∃ ts, tracks overlap angle w poly = .ok ts ∧ ∃ t ∈ ts, ∃ q u, OnLine t q ∧ DecompSpec.xy q ∈ region ∧
      |u| ≤ w / 2 ∧ beside angle (DecompSpec.xy q) u = c := by
  have hc0 : c ∈ region := by
    have := hc 0 (by rw [abs_zero]; positivity)
    simpa [beside] using this
  obtain ⟨a₀, ha₀, -⟩ := id hA
  have hne : poly.flatten ≠ [] := List.ne_nil_of_mem ha₀
  have hext := hasArea_extent poly angle hA
  set p : RPoint := ⟨c.1, c.2, 0⟩ with hpdef
  have hp := hreg c hc0
  refine ⟨_, tracks_eq overlap angle w poly hw hne, ?_⟩
  obtain ⟨h1, h2⟩ := hull_across poly angle p hp
  obtain ⟨i, hi, hd⟩ := near_offset (extent poly angle) w (across angle p - lowAcross poly angle)
    hw (by linarith) (by linarith) hext overlap
  obtain ⟨q, hq, he⟩ := track_opposite poly angle w i p hp hext
  have ha := track_across poly angle w i q hq
  set u := across angle p - across angle q with hu
  have hul : |u| ≤ w / 2 := by
    rw [hu, ha]
    have e : across angle p - (lowAcross poly angle + ((i : ℝ) + 1 / 2) * w)
        = across angle p - lowAcross poly angle - ((i : ℝ) + 1 / 2) * w := by ring
    rw [e]; exact hd
  have hsc := Real.sin_sq_add_cos_sq angle
  have hx : q.x = c.1 + u * Real.sin angle := by
    have e1 : q.x * Real.cos angle + q.y * Real.sin angle = c.1 * Real.cos angle + c.2 * Real.sin angle := he
    have e2 : u = (-(c.1 * Real.sin angle) + c.2 * Real.cos angle) -
      (-(q.x * Real.sin angle) + q.y * Real.cos angle) := hu
    have : (q.x - c.1) * (Real.sin angle ^ 2 + Real.cos angle ^ 2) = u * Real.sin angle := by
      rw [e2]
      linear_combination Real.cos angle * e1
    rw [hsc] at this
    linarith
  have hy : q.y = c.2 - u * Real.cos angle := by
    have e1 : q.x * Real.cos angle + q.y * Real.sin angle = c.1 * Real.cos angle + c.2 * Real.sin angle := he
    have e2 : u = (-(c.1 * Real.sin angle) + c.2 * Real.cos angle) -
      (-(q.x * Real.sin angle) + q.y * Real.cos angle) := hu
    have : (q.y - c.2) * (Real.sin angle ^ 2 + Real.cos angle ^ 2) = -(u * Real.cos angle) := by
      rw [e2]
      linear_combination Real.sin angle * e1
    rw [hsc] at this
    linarith
  refine ⟨_, List.mem_map_of_mem (List.mem_range.2 hi), q, u, hq, ?_, hul, ?_⟩
  · have := hc (-u) (by rwa [abs_neg])
    have e : beside angle c (-u) = DecompSpec.xy q := by
      unfold beside DecompSpec.xy
      rw [hx, hy]
      ext <;> simp <;> ring
    rwa [e] at this
  · unfold beside DecompSpec.xy
    rw [hx, hy]
    ext <;> simp

/-- **C123**: whatever the cell (it may have holes and dents), angle, width and option: every position whose
cross section, half a width to either side, is in the cell, lies in the strip of a swath.  So at most a rim of
half a width along the border is left. -/
theorem C123_inner_covered (region : Set (ℝ × ℝ)) (clip : Cell ℝ → List (List RPoint) → List (List RPoint))
    (overlap : Bool) (angle w : ℝ) (poly : Cell ℝ) (hw : 0 < w) (hA : HasArea poly.flatten)
    (hreg : ∀ c ∈ region, InHull poly.flatten ⟨c.1, c.2, 0⟩)
    (hclip : ∀ ts, tracks overlap angle w poly = .ok ts → Keeps region ts (clip poly ts)) :
    ∃ ss, generateSwaths clip overlap angle w poly = .ok ss ∧
      ∀ c, Clear region angle (w / 2) c → ∃ s ∈ ss, InStrip angle s.width s.path c := by
  obtain ⟨a₀, ha₀, -⟩ := id hA
  have hne : poly.flatten ≠ [] := List.ne_nil_of_mem ha₀
  obtain ⟨ts, ss, e1, e2, e3, -, e4⟩ := C25_generated_numbers clip overlap angle w poly hw hne
  refine ⟨ss, e2, fun c hc => ?_⟩
  obtain ⟨ts', e5, t, ht, q, u, hq, hin, hu, hb⟩ :=
    strip_of_track region angle w poly hw hA overlap hreg c hc
  rw [e1] at e5
  injection e5 with e5
  subst e5
  obtain ⟨l, hl, q', hq', he⟩ := hclip ts e1 t ht q hq hin
  have hl0 : l ≠ [] := by
    rintro rfl
    exact hq'
  have hm : l ∈ ss.map Swath.path := by
    rw [e3 ⟨l, hl, hl0⟩]
    exact hl
  obtain ⟨s, hs, rfl⟩ := List.mem_map.1 hm
  have hsw : s.width = w := by
    obtain ⟨i, hi, rfl⟩ := List.mem_iff_getElem.1 hs
    exact (e4 i hi).2.1
  exact ⟨s, hs, q', u, hq', by rwa [hsw], by rw [he, hb]⟩

/-- **C123**, distance from the border: with the angle chosen by any objective, every position whose
neighbourhood of half a width is in the cell lies in the strip of a swath, at the angle that was chosen. -/
theorem C123_best_angle (region : Set (ℝ × ℝ)) (obj : Objective)
    (clip : Cell ℝ → List (List RPoint) → List (List RPoint))
    (overlap : Bool) (step w : ℝ) (poly : Cell ℝ) (hw : 0 < w) (hA : HasArea poly.flatten)
    (hreg : ∀ c ∈ region, InHull poly.flatten ⟨c.1, c.2, 0⟩)
    (hclip : ∀ angle ts, tracks overlap angle w poly = .ok ts → Keeps region ts (clip poly ts)) (ss : Swaths ℝ)
    (h : generateBestSwaths obj clip overlap step w poly = .ok ss) :
    ∃ angle, generateSwaths clip overlap angle w poly = .ok ss ∧
      ∀ c : ℝ × ℝ, (∀ d : ℝ × ℝ, (d.1 - c.1) ^ 2 + (d.2 - c.2) ^ 2 ≤ (w / 2) ^ 2 → d ∈ region) →
        ∃ s ∈ ss, InStrip angle s.width s.path c := by
  cases hb : computeBestAngle (fun a => computeCostOfAngle obj (generateSwaths clip overlap) a w poly) step with
  | ok angle =>
    rw [C26_best_swaths obj clip overlap step w angle poly hb] at h
    obtain ⟨ss', e, hcov⟩ := C123_inner_covered region clip overlap angle w poly hw hA hreg (hclip angle)
    rw [h] at e
    injection e with e
    subst e
    refine ⟨angle, h, fun c hc => hcov c fun u hu => hc _ ?_⟩
    have hsc := Real.sin_sq_add_cos_sq angle
    have : (beside angle c u).1 - c.1 = -(u * Real.sin angle) ∧ (beside angle c u).2 - c.2 = u * Real.cos angle := by
      constructor <;> simp [beside]
    rw [this.1, this.2]
    have e : (-(u * Real.sin angle)) ^ 2 + (u * Real.cos angle) ^ 2 = u ^ 2 := by
      linear_combination u ^ 2 * hsc
    rw [e, ← sq_abs u]
    exact pow_le_pow_left₀ (abs_nonneg u) hu 2
  | throw e => unfold generateBestSwaths at h; rw [hb] at h; cases h
  | ub e => unfold generateBestSwaths at h; rw [hb] at h; cases h

/-- **C123**, partial: with the intersection as the code calls it, whenever the tracks meet the cell in lines
only.  Missing: tracks that also touch it in isolated points (`C123_touching`). -/
theorem C123_cut_partial (region : Set (ℝ × ℝ)) (inter : Cell ℝ → List (List RPoint) → Decomp.Inter)
    (overlap : Bool) (angle w : ℝ) (poly : Cell ℝ) (hw : 0 < w) (hA : HasArea poly.flatten)
    (hreg : ∀ c ∈ region, InHull poly.flatten ⟨c.1, c.2, 0⟩)
    (hcut : ∀ ts, tracks overlap angle w poly = .ok ts →
      LinesCut region ts (inter poly ts) ∧ LinesOnly (inter poly ts)) :
    ∃ ss, generateSwaths (fun c t => (inter c t).append) overlap angle w poly = .ok ss ∧
      ∀ c, Clear region angle (w / 2) c → ∃ s ∈ ss, InStrip angle s.width s.path c := by
  obtain ⟨a₀, ha₀, -⟩ := id hA
  have hne : poly.flatten ≠ [] := List.ne_nil_of_mem ha₀
  obtain ⟨ts, ss, e1, e2, h⟩ := C81_parts_partial region inter overlap angle w poly hw hne hcut
  obtain ⟨ts', ss', e3, e4, e5, e6, e7⟩ :=
    C25_generated_numbers (fun c t => (inter c t).append) overlap angle w poly hw hne
  rw [e1] at e3
  rw [e2] at e4
  cases e3
  cases e4
  refine ⟨ss, e2, fun c hc => ?_⟩
  obtain ⟨ts', f1, t, ht, q, u, hq, hin, hu, hb⟩ := strip_of_track region angle w poly hw hA overlap hreg c hc
  rw [e1] at f1
  cases f1
  obtain ⟨s, hs, q', hq', he⟩ := (h (DecompSpec.xy q)).2 ⟨hin, t, ht, q, hq, rfl⟩
  have hsw : s.width = w := by
    obtain ⟨i, hi, rfl⟩ := List.mem_iff_getElem.1 hs
    exact (e7 i hi).2.1
  exact ⟨s, hs, q', u, hq', by rwa [hsw], by rw [he, hb]⟩

/-- **C123** is false if a track also touches the cell in a point: the cross section of (1/2, 1) is in the cell,
but there is no swath at all, whatever correct intersection is used. -/
theorem C123_touching (overlap : Bool) (inter : Cell ℝ → List (List RPoint) → Decomp.Inter)
    (hcut : ∀ ts, tracks overlap 0 1 spiked = .ok ts → LinesCut spikedRegion ts (inter spiked ts)) :
    Clear spikedRegion 0 (1 / 2) (1 / 2, 1) ∧
    ¬ ∃ ss, generateSwaths (fun c t => (inter c t).append) overlap 0 1 spiked = .ok ss ∧
      ∃ s ∈ ss, InStrip 0 s.width s.path (1 / 2, 1) := by
  constructor
  · intro u hu
    rw [abs_le] at hu
    refine .inl ⟨?_, ?_, ?_, ?_⟩ <;> simp [beside] <;> linarith
  · rintro ⟨ss, e, s, hs, -⟩
    rw [(C81_swaths_lost overlap inter hcut).2] at e
    cases e
    cases hs

/-! ### The complete planner -/

private theorem onLine_append (l : List RPoint) (a b q : RPoint) :
    OnLine (l ++ [a, b]) q ↔ OnLine (l ++ [a]) q ∨ OnSegment a b q := by
  induction l with
  | nil => simp [OnLine]
  | cons x l ih =>
    cases l with
    | nil => simp [OnLine]
    | cons y l =>
      simp only [List.cons_append, OnLine] at ih ⊢
      rw [ih, or_assoc]

private theorem onSegment_swap {a b q : RPoint} (h : OnSegment a b q) : OnSegment b a q := by
  obtain ⟨t, h0, h1, hx, hy⟩ := h
  exact ⟨1 - t, by linarith, by linarith, by rw [hx]; ring, by rw [hy]; ring⟩

private theorem onLine_reverse : ∀ (l : List RPoint) (q : RPoint), OnLine l q → OnLine l.reverse q
  | [], _, h => h
  | [_], _, h => h
  | a :: b :: l, q, h => by
    rw [show (a :: b :: l).reverse = l.reverse ++ [b, a] by simp, onLine_append]
    rcases h with h | h
    · exact Or.inr (onSegment_swap h)
    · have := onLine_reverse (b :: l) q h
      rw [List.reverse_cons] at this
      exact Or.inl this

private theorem C123_planner_width (env : Top.Env) (robot : Robot) (cells mainland ring : Cells ℝ) (opt : Top.Options)
    (gs : SwathsByCells ℝ) (sg : Graph2D ℝ) (region : Cell ℝ → Set (ℝ × ℝ))
    (hT : env.table.IsLawful) (hsolve : PlannerSpec.AvoidsMissing env.solve) (h1 : opt.sgAlg = 1)
    (hh : Top.headland env robot cells opt = .ok (mainland, ring)) (hw : 0 < robot.covWidth)
    (hA : ∀ c ∈ mainland, HasArea c.flatten)
    (hreg : ∀ c ∈ mainland, ∀ p ∈ region c, InHull c.flatten ⟨p.1, p.2, 0⟩)
    (hclip : ∀ c ∈ mainland, ∀ ts, tracks false opt.sgAngle robot.covWidth c = .ok ts →
      Keeps (region c) ts (env.clip c ts))
    (hgs : Top.swaths env robot mainland opt = .ok gs) (hsg : env.shortest ring gs = .ok sg)
    (hgne : gs.flatten ≠ []) (hlen : gs.flatten.length ≤ 300000) (hd : PlannerSpec.Distinct none gs.flatten)
    (hhash : Graph2DSpec.HashOk env.table (PlannerSpec.tourPoints none gs.flatten))
    (hc : PlannerSpec.Connects env.table sg (PlannerSpec.ends none gs.flatten)) :
    ∃ r : Route ℝ, Top.planCovRoute env robot cells opt = .ok r ∧
      ∀ c ∈ mainland, ∀ p, Clear (region c) opt.sgAngle (robot.covWidth / 2) p →
        ∃ g ∈ r.groups, ∃ s ∈ g, s.width = robot.covWidth ∧ InStrip opt.sgAngle s.width s.path p := by
  have hne : ∀ c ∈ mainland, c.flatten ≠ [] := by
    intro c hc
    obtain ⟨a₀, ha₀, -⟩ := hA c hc
    exact List.ne_nil_of_mem ha₀
  obtain ⟨ts, gs', e1, e2, e3, e3', e4⟩ :=
    C71_complete_planner_partial env robot cells mainland ring opt hT hsolve h1 hh hw hne
  rw [hgs] at e3'
  injection e3' with e3'
  subst e3'
  obtain ⟨r, order, b1, b2, b3⟩ := e4 sg hsg hgne hlen hd hhash hc
  refine ⟨r, b1, fun c hcm p hp => ?_⟩
  obtain ⟨ts', f1, t, ht, q, u, hq, hin, hu, hb⟩ :=
    strip_of_track (region c) opt.sgAngle robot.covWidth c hw (hA c hcm) false (hreg c hcm) p hp
  rw [e1 c hcm] at f1
  injection f1 with f1
  subst f1
  obtain ⟨l, hl, q', hq', he⟩ := hclip c hcm _ (e1 c hcm) t ht q hq hin
  have hl0 : l ≠ [] := by
    rintro rfl
    exact hq'
  have hm : l ∈ gs.flatten.map Swath.path := by
    rw [e2, List.mem_flatMap]
    refine ⟨c, hcm, ?_⟩
    rw [if_neg fun hall => hl0 (hall l hl)]
    exact hl
  obtain ⟨s, hs, rfl⟩ := List.mem_map.1 hm
  obtain ⟨x, hx, rfl⟩ := List.mem_map.1 (b2.mem_iff.2 hs)
  have hdw : (PlannerSpec.driven x).width = x.1.width := by
    unfold PlannerSpec.driven
    split <;> rfl
  refine ⟨[PlannerSpec.driven x], by rw [b3]; exact List.mem_map.2 ⟨x, hx, rfl⟩, _, List.mem_singleton.2 rfl,
    ?_, q', u, ?_, ?_, by rw [he, hb]⟩
  · exact hdw.trans (e3 _ hs)
  · unfold PlannerSpec.driven
    split
    · exact onLine_reverse _ _ hq'
    · exact hq'
  · rw [hdw, e3 _ hs]
    exact hu

/-- **C123**, complete planner: under the conditions of C71 the route drives, for every position of the mainland
whose cross section is in its cell, a swath whose strip contains the position. -/
theorem C123_planner (env : Top.Env) (robot : Robot) (cells mainland ring : Cells ℝ) (opt : Top.Options)
    (gs : SwathsByCells ℝ) (sg : Graph2D ℝ) (region : Cell ℝ → Set (ℝ × ℝ))
    (hT : env.table.IsLawful) (hsolve : PlannerSpec.AvoidsMissing env.solve) (h1 : opt.sgAlg = 1)
    (hh : Top.headland env robot cells opt = .ok (mainland, ring)) (hw : 0 < robot.covWidth)
    (hA : ∀ c ∈ mainland, HasArea c.flatten)
    (hreg : ∀ c ∈ mainland, ∀ p ∈ region c, InHull c.flatten ⟨p.1, p.2, 0⟩)
    (hclip : ∀ c ∈ mainland, ∀ ts, tracks false opt.sgAngle robot.covWidth c = .ok ts →
      Keeps (region c) ts (env.clip c ts))
    (hgs : Top.swaths env robot mainland opt = .ok gs) (hsg : env.shortest ring gs = .ok sg)
    (hgne : gs.flatten ≠ []) (hlen : gs.flatten.length ≤ 300000) (hd : PlannerSpec.Distinct none gs.flatten)
    (hhash : Graph2DSpec.HashOk env.table (PlannerSpec.tourPoints none gs.flatten))
    (hc : PlannerSpec.Connects env.table sg (PlannerSpec.ends none gs.flatten)) :
    ∃ r : Route ℝ, Top.planCovRoute env robot cells opt = .ok r ∧
      ∀ c ∈ mainland, ∀ p, Clear (region c) opt.sgAngle (robot.covWidth / 2) p →
        ∃ g ∈ r.groups, ∃ s ∈ g, InStrip opt.sgAngle s.width s.path p := by
  obtain ⟨r, e, h⟩ := C123_planner_width env robot cells mainland ring opt gs sg region hT hsolve h1 hh hw hA hreg
    hclip hgs hsg hgne hlen hd hhash hc
  refine ⟨r, e, fun c hcm p hp => ?_⟩
  obtain ⟨g, hg, s, hs, -, hin⟩ := h c hcm p hp
  exact ⟨g, hg, s, hs, hin⟩

private theorem onLine_zip : ∀ (l : List RPoint) (q : RPoint), OnLine l q →
    ∃ ab ∈ l.zip l.tail, OnSegment ab.1 ab.2 q
  | [], _, h => h.elim
  | [_], _, h => h.elim
  | a :: b :: l, q, h => by
    rcases h with h | h
    · exact ⟨(a, b), by simp, h⟩
    · obtain ⟨ab, hm, hs⟩ := onLine_zip (b :: l) q h
      exact ⟨ab, List.mem_cons_of_mem _ hm, hs⟩

private theorem forall₂_left {α β : Type} {R : α → β → Prop} {l : List α} {m : List β} (h : List.Forall₂ R l m)
    {a : α} (ha : a ∈ l) : ∃ b ∈ m, R a b := by
  induction h with
  | nil => cases ha
  | cons h1 _ ih =>
    rcases List.mem_cons.1 ha with rfl | ha
    · exact ⟨_, List.mem_cons_self, h1⟩
    · obtain ⟨b, hb, hr⟩ := ih ha
      exact ⟨b, List.mem_cons_of_mem _ hb, hr⟩

/-- **C123**, the planned path: if a path is planned, then for every position of the mainland whose cross section
is in its cell the path has a straight section of working, driven at cruise speed, that passes the position at no
more than half a width to the side. -/
theorem C123_path (env : Top.Env) (robot : Robot) (cells mainland ring : Cells ℝ) (opt : Top.Options)
    (gs : SwathsByCells ℝ) (sg : Graph2D ℝ) (region : Cell ℝ → Set (ℝ × ℝ))
    (hT : env.table.IsLawful) (hsolve : PlannerSpec.AvoidsMissing env.solve) (h1 : opt.sgAlg = 1)
    (hh : Top.headland env robot cells opt = .ok (mainland, ring)) (hw : 0 < robot.covWidth)
    (hA : ∀ c ∈ mainland, HasArea c.flatten)
    (hreg : ∀ c ∈ mainland, ∀ p ∈ region c, InHull c.flatten ⟨p.1, p.2, 0⟩)
    (hclip : ∀ c ∈ mainland, ∀ ts, tracks false opt.sgAngle robot.covWidth c = .ok ts →
      Keeps (region c) ts (env.clip c ts))
    (hgs : Top.swaths env robot mainland opt = .ok gs) (hsg : env.shortest ring gs = .ok sg)
    (hgne : gs.flatten ≠ []) (hlen : gs.flatten.length ≤ 300000) (hd : PlannerSpec.Distinct none gs.flatten)
    (hhash : Graph2DSpec.HashOk env.table (PlannerSpec.tourPoints none gs.flatten))
    (hc : PlannerSpec.Connects env.table sg (PlannerSpec.ends none gs.flatten))
    (hturn : ∀ k, PathPlanningSpec.TurnsOnly (env.curves k)) (path : Path)
    (hp : Top.planCovPath env robot cells opt = .ok path) :
    ∀ c ∈ mainland, ∀ p, Clear (region c) opt.sgAngle (robot.covWidth / 2) p →
      ∃ st ∈ path, st.type = .swath ∧ st.dir = .forward ∧ st.velocity = robot.cruise ∧
        ∃ q u, OnSegment st.point st.atEnd q ∧ |u| ≤ robot.covWidth / 2 ∧
          beside opt.sgAngle (DecompSpec.xy q) u = p := by
  intro c hcm p hclear
  obtain ⟨r, e, h⟩ := C123_planner_width env robot cells mainland ring opt gs sg region hT hsolve h1 hh hw hA hreg
    hclip hgs hsg hgne hlen hd hhash hc
  obtain ⟨g, hg, s, hs, hsw, q, u, hq, hu, hb⟩ := h c hcm p hclear
  unfold Top.planCovPath at hp
  rw [e, Outcome.ok_bind] at hp
  cases ht : Top.getTurning opt.ppAlg with
  | none => rw [ht] at hp; cases hp
  | some k =>
    rw [ht] at hp
    simp only at hp
    cases hpl : PP.planRoute (env.curves k) env.safe robot Turning.Planner.default r with
    | throw x => rw [hpl] at hp; cases hp
    | ub x => rw [hpl] at hp; cases hp
    | ok x =>
      rw [hpl, Outcome.ok_bind] at hp
      obtain ⟨p', t'⟩ := x
      replace hp : Outcome.ok p' = Outcome.ok path := hp
      injection hp with hp
      subst hp
      obtain ⟨parts, k1, k2⟩ := C38_route (env.curves k) (hturn k) env.safe _ t' [] .new robot r p' hpl
      obtain ⟨ts, hts, hdr⟩ := forall₂_left k1 (List.mem_flatten.2 ⟨g, hg, hs⟩)
      obtain ⟨ab, hab, hseg⟩ := onLine_zip _ _ hq
      obtain ⟨st, hst, hS⟩ := forall₂_left hdr hab
      have hm : st ∈ p' := by
        have : st ∈ p'.filter (fun s => s.type = .swath) := by
          rw [k2]
          exact List.mem_flatten.2 ⟨ts, hts, hst⟩
        exact (List.mem_filter.1 this).1
      rw [hsw] at hu
      refine ⟨st, hm, hS.type, hS.dir, hS.velocity, q, u, ?_, hu, hb⟩
      obtain ⟨t, h0, h1, hx, hy⟩ := hseg
      refine ⟨t, h0, h1, ?_, ?_⟩
      · rw [hS.start, hS.stop.1]; exact hx
      · rw [hS.start, hS.stop.2]; exact hy

/-! ### Half a width is needed -/

/-- **C123**: the rim can be nearly as wide as half a width.  In a rectangle that is 3/2 - ε wide, with width 1,
the position at 1 + ε has everything within 1/2 - 2 ε in the cell, but is in no strip, with or without the
overlap option and whatever correct intersection is used. -/
theorem C123_rim (ε : ℝ) (h0 : 0 < ε) (h1 : ε < 1 / 4) (overlap : Bool)
    (clip : Cell ℝ → List (List RPoint) → List (List RPoint))
    (hclip : ClipInside clip (rect (3 / 2 - ε))) :
    (∀ d : ℝ × ℝ, (d.1 - 5) ^ 2 + (d.2 - (1 + ε)) ^ 2 ≤ (1 / 2 - 2 * ε) ^ 2 →
      InHull (rect (3 / 2 - ε)).flatten ⟨d.1, d.2, 0⟩) ∧
    ∃ ss, generateSwaths clip overlap 0 1 (rect (3 / 2 - ε)) = .ok ss ∧
      ∀ s ∈ ss, ¬ InStrip 0 s.width s.path (5, 1 + ε) := by
  constructor
  · intro d hd
    have hx : |d.1 - 5| ≤ 1 / 2 - 2 * ε := abs_le_of_sq_le_sq (by nlinarith [sq_nonneg (d.2 - (1 + ε))]) (by linarith)
    have hy : |d.2 - (1 + ε)| ≤ 1 / 2 - 2 * ε := abs_le_of_sq_le_sq (by nlinarith [sq_nonneg (d.1 - 5)]) (by linarith)
    rw [abs_le] at hx hy
    exact rect_hull _ _ _ (by linarith) (by linarith) (by linarith) (by linarith)
  have hpos : 0 < 3 / 2 - ε := by linarith
  have hne : (rect (3 / 2 - ε)).flatten ≠ [] := by simp [rect]
  have hx := isExtent_unique _ _ _ (rect_extent (3 / 2 - ε) hpos.le)
  have hlow : lowAcross (rect (3 / 2 - ε)) 0 = 0 := by
    obtain ⟨p, hp, q, hq, e1, e2⟩ := extent_attained (rect (3 / 2 - ε)) 0 hne
    rw [hx] at e1
    simp [rect] at hp hq
    rcases hp with rfl | rfl | rfl | rfl | rfl <;> rcases hq with rfl | rfl | rfl | rfl | rfl <;>
      simp [across] at e1 e2 <;> first | exact e2.symm | (exfalso; linarith)
  obtain ⟨ts, ss, f1, f2, f3, f4, f5⟩ := C25_generated_numbers clip overlap 0 1 _ one_pos hne
  refine ⟨ss, f2, fun s hs => ?_⟩
  rintro ⟨q, u, hq, hu, hb⟩
  have hsw : s.width = 1 := by
    obtain ⟨i, hi, rfl⟩ := List.mem_iff_getElem.1 hs
    exact (f5 i hi).2.1
  rw [hsw] at hu
  have hs' := mem_lines_of_append f3 f4 hs
  obtain ⟨hin, t, ht, hqt⟩ := hclip _ _ hs' q hq
  rw [tracks_eq overlap 0 1 _ one_pos hne] at f1
  injection f1 with f1
  rw [← f1] at ht
  obtain ⟨i, -, rfl⟩ := List.mem_map.1 ht
  have h3 := track_across _ 0 1 i q hqt
  have h4 := (hull_across _ 0 q hin).2
  rw [hlow, hx] at h4
  rw [hlow] at h3
  have hi : i < 1 := by
    have : (i : ℝ) < 1 := by linarith
    exact_mod_cast this
  have hi' : (i : ℝ) = 0 := by exact_mod_cast (by omega : i = 0)
  have hqy : q.y = 1 / 2 := by
    have : across 0 q = q.y := by simp [across]
    rw [this, hi'] at h3
    linarith
  have hy : q.y + u = 1 + ε := by
    have := congrArg Prod.snd hb
    simpa [beside, DecompSpec.xy] using this
  rw [abs_le] at hu
  linarith

/-! ### Examples -/

/-- In a rectangle 23/10 wide, with width 1, the position (5, 17/10) is covered. -/
example : ∃ ss, generateSwaths (fun _ ts => ts) false 0 1 (rect (23 / 10)) = .ok ss ∧
    ∃ s ∈ ss, InStrip 0 s.width s.path (5, 17 / 10) := by
  obtain ⟨ss, e, h⟩ := C123_inner_covered {c | 0 ≤ c.1 ∧ c.1 ≤ 10 ∧ 0 ≤ c.2 ∧ c.2 ≤ 23 / 10} (fun _ ts => ts) false 0 1
    (rect (23 / 10)) one_pos (rect_hasArea _ (by norm_num))
    (fun c hc => rect_hull _ _ _ hc.1 hc.2.1 hc.2.2.1 hc.2.2.2) (fun _ _ t ht q hq _ => ⟨t, ht, q, hq, rfl⟩)
  refine ⟨ss, e, h _ fun u hu => ?_⟩
  rw [abs_le] at hu
  refine ⟨?_, ?_, ?_, ?_⟩ <;> simp [beside] <;> linarith

/-- The same with the angle that the brute force chooses, whichever it is. -/
example : ∃ angle ss, generateBestSwaths ⟨false, true, fun a _ _ => .ok (a * (3 - a)), fun _ _ => .ok 0⟩
      (fun _ l => l) false 1 1 (rect 3) = .ok ss ∧ ∃ s ∈ ss, InStrip angle s.width s.path (5, 2) := by
  have hpi := Real.pi_gt_three
  have hpi' := Real.pi_lt_d2
  obtain ⟨k, h1, _⟩ := C26_brute_force_optimal
    ⟨false, true, fun a _ _ => .ok (a * (3 - a)), fun _ _ => .ok 0⟩
    (generateSwaths (fun _ l => l) false) 1 (rect 3) 1 one_pos (by linarith)
    (by norm_num; linarith) (fun a => a * (3 - a)) (fun j _ => rfl)
  obtain ⟨_, ss, _, e, _⟩ := C25_generated_numbers (fun _ l => l) false (k * 1) 1 (rect 3) one_pos (by simp [rect])
  have hb := (C26_best_swaths _ _ _ _ _ _ _ h1).trans e
  obtain ⟨angle, -, h⟩ := C123_best_angle {c | 0 ≤ c.1 ∧ c.1 ≤ 10 ∧ 0 ≤ c.2 ∧ c.2 ≤ 3} _ (fun _ l => l) false 1 1
    (rect 3) one_pos (rect_hasArea _ (by norm_num)) (fun c hc => rect_hull _ _ _ hc.1 hc.2.1 hc.2.2.1 hc.2.2.2)
    (fun _ _ _ t ht q hq _ => ⟨t, ht, q, hq, rfl⟩) ss hb
  refine ⟨angle, ss, hb, h _ fun d hd => ?_⟩
  have hx : |d.1 - 5| ≤ 1 := abs_le_of_sq_le_sq (by nlinarith [sq_nonneg (d.2 - 2)]) (by norm_num)
  have hy : |d.2 - 2| ≤ 1 := abs_le_of_sq_le_sq (by nlinarith [sq_nonneg (d.1 - 5)]) (by norm_num)
  rw [abs_le] at hx hy
  exact ⟨by linarith, by linarith, by linarith, by linarith⟩

/-- The block of C81 with its true intersection: (1/2, 6/5) is covered. -/
example : ∃ ss, generateSwaths (fun _ _ => blockLines.append) false 0 1 block = .ok ss ∧
    ∃ s ∈ ss, InStrip 0 s.width s.path (1 / 2, 6 / 5) := by
  obtain ⟨ss, e, h⟩ := C123_cut_partial blockRegion (fun _ _ => blockLines) false 0 1 block one_pos
    ⟨pt 0 0, by simp [block], pt 1 0, by simp [block], pt 1 2, by simp [block], by simp [Point.det, Point.sub, pt]⟩
    (by
      rintro c ⟨h0, h1, h2, h3⟩ a b d hq
      have q1 := hq (pt 0 0) (by simp [block])
      have q2 := hq (pt 1 0) (by simp [block])
      have q3 := hq (pt 1 2) (by simp [block])
      have q4 := hq (pt 0 2) (by simp [block])
      simp only [pt] at q1 q2 q3 q4 ⊢
      rcases le_or_gt 0 a with ha | ha <;> rcases le_or_gt 0 b with hb | hb <;> nlinarith)
    block_cut
  refine ⟨ss, e, h _ fun u hu => ?_⟩
  rw [abs_le] at hu
  refine ⟨?_, ?_, ?_, ?_⟩ <;> simp [beside] <;> linarith

/-- The complete planner on a field 2 by 2 with one track: the position (1, 0) is worked. -/
example : ∃ (env : Top.Env) (robot : Robot) (cells : Cells ℝ) (opt : Top.Options) (r : Route ℝ),
    Top.planCovRoute env robot cells opt = .ok r ∧ (∃ g ∈ r.groups, ∃ s ∈ g, InStrip 0 s.width s.path (1, 0)) ∧
    ∃ path, Top.planCovPath env robot cells opt = .ok path ∧ ∃ st ∈ path, st.type = .swath ∧
      ∃ q u, OnSegment st.point st.atEnd q ∧ |u| ≤ 1 ∧ beside 0 (DecompSpec.xy q) u = (1, 0) := by
  obtain ⟨solve, hsolve⟩ := exists_optimiser (K := ℝ)
  set robot : Robot := { Robot.default with width := 2, covWidth := 2 } with hrobot
  set cell : Cell ℝ := [[pt 0 (-1), pt 2 (-1), pt 2 1, pt 0 1, pt 0 (-1)]] with hcell
  set opt : Top.Options := { Top.Options.default with hgAlg := 0, sgAlg := 1, sgAngle := 0 } with hopt
  have hh : Top.headland (lineEnv solve) robot [cell] opt = .ok ([cell], [cell]) := C60_none _ _ _ _ rfl
  have hA : HasArea cell.flatten := ⟨pt 0 (-1), by simp [hcell], pt 2 (-1), by simp [hcell], pt 2 1,
    by simp [hcell], by norm_num [Point.det, Point.sub, pt]⟩
  have hne : cell.flatten ≠ [] := by simp [hcell]
  obtain ⟨ts, gs, h1, h2, h3, hsw, -⟩ := C71_complete_planner_partial (lineEnv solve) robot [cell] [cell] [cell] opt
    (lineEnv_lawful solve) hsolve rfl hh (show (0 : ℝ) < 2 by norm_num) (by simpa using hne)
  have hp : gs.flatten.map Swath.path = [[⟨0, 0, 0⟩, ⟨2, 0, 0⟩]] := by
    rw [h2]
    simp [lineEnv]
  obtain ⟨s, hs⟩ : ∃ s, gs.flatten = [s] := by
    rw [← List.length_eq_one_iff, ← List.length_map (f := Swath.path), hp]
    rfl
  have hpath : s.path = [⟨0, 0, 0⟩, ⟨2, 0, 0⟩] := by simpa [hs] using hp
  have hst : s.startPoint = ⟨0, 0, 0⟩ := by simp [Swath.startPoint, hpath]
  have hen : s.endPoint = ⟨2, 0, 0⟩ := by simp [Swath.endPoint, hpath]
  obtain ⟨sg, hsg, hc, hdist, r', x, hr', hgr, hcn⟩ := lineEnv_connects solve [cell] gs s hs hst hen hsolve
    (by rw [h3 s (by simp [hs])]; exact (show (0 : ℝ) < 2 by norm_num))
  set region : Set (ℝ × ℝ) := {c | 0 ≤ c.1 ∧ c.1 ≤ 2 ∧ -1 ≤ c.2 ∧ c.2 ≤ 1} with hregion
  have hreg : ∀ c ∈ [cell], ∀ p ∈ region, InHull c.flatten ⟨p.1, p.2, 0⟩ := by
    intro c hcm p hp a b d hq
    rw [List.mem_singleton.1 hcm] at hq
    obtain ⟨k0, k1, k2, k3⟩ := hp
    have q1 := hq (pt 0 (-1)) (by simp [hcell])
    have q2 := hq (pt 2 (-1)) (by simp [hcell])
    have q3 := hq (pt 2 1) (by simp [hcell])
    have q4 := hq (pt 0 1) (by simp [hcell])
    simp only [pt] at q1 q2 q3 q4 ⊢
    rcases le_or_gt 0 a with ha | ha <;> rcases le_or_gt 0 b with hb | hb <;> nlinarith
  have hkeep : ∀ c ∈ [cell], ∀ ts, tracks false opt.sgAngle robot.covWidth c = .ok ts →
      Keeps region ts ((lineEnv solve).clip c ts) := by
    intro c hcm ts' ht t htm q hq hin
    rw [List.mem_singleton.1 hcm] at ht
    have hw2 : (0 : ℝ) < 2 := by norm_num
    rw [show robot.covWidth = 2 from rfl, show opt.sgAngle = 0 from rfl, tracks_eq false 0 2 cell hw2 hne] at ht
    cases ht
    obtain ⟨i, -, rfl⟩ := List.mem_map.1 htm
    have hq2 := track_across cell 0 2 i q hq
    have hlow : lowAcross cell 0 = -1 := by
      norm_num [lowAcross, hcell, pt, Cell.rotate, rotateFrom, Point.zero, Cell.minX,
        Cell.minY, Cell.maxX, Cell.maxY, Cell.points, listMin, listMax]
    have hqa : across 0 q = q.y := by simp [across]
    rw [hlow, hqa] at hq2
    obtain ⟨k0, k1, k2, k3⟩ := hin
    simp only [DecompSpec.xy] at k0 k1 k2 k3
    have hi : i < 1 := by
      have : (i : ℝ) < 1 := by linarith
      exact_mod_cast this
    have hi' : (i : ℝ) = 0 := by exact_mod_cast (by omega : i = 0)
    rw [hi'] at hq2
    have hqy : q.y = 0 := by linarith
    exact ⟨_, List.mem_singleton_self _, ⟨q.x, 0, 0⟩,
      .inl ⟨q.x / 2, by linarith, by linarith, by simp, by simp⟩, by simp [DecompSpec.xy, hqy]⟩
  obtain ⟨r, e, h⟩ := C123_planner (lineEnv solve) robot [cell] [cell] [cell] opt gs sg
    (fun _ => region) (lineEnv_lawful solve) hsolve rfl hh
    (show (0 : ℝ) < 2 by norm_num) (by simpa using hA) hreg hkeep hsw hsg (by simp [hs]) (by simp [hs]) hdist
    (fun p _ => rfl) hc
  have hclear : Clear region opt.sgAngle (robot.covWidth / 2) (1, 0) := by
    intro u hu
    have hu' : |u| ≤ 1 := by
      have : (2 : ℝ) / 2 = 1 := by norm_num
      exact this ▸ hu
    rw [abs_le] at hu'
    refine ⟨?_, ?_, ?_, ?_⟩ <;> simp [beside, hopt] <;> linarith
  have hrr : r = r' := by
    unfold Top.planCovRoute at e
    rw [hh, Outcome.ok_bind] at e
    simp only [hsw, Outcome.ok_bind, hsg] at e
    have := hr'.symm.trans e
    injection this with this
    exact this.symm
  obtain ⟨l, hl⟩ : ∃ l, (PlannerSpec.driven (s, x)).path = l ∧ l ≠ [] := by
    refine ⟨_, rfl, ?_⟩
    cases x <;> simp [PlannerSpec.driven, Swath.reverse, hpath]
  obtain ⟨path, hpath'⟩ : ∃ path, Top.planCovPath (lineEnv solve) robot [cell] opt = .ok path := by
    have hap : ∃ path, Path.appendSwath [] (PlannerSpec.driven (s, x)) robot.cruise = .ok path := by
      unfold Path.appendSwath
      rw [hl.1]
      cases l with
      | nil => exact absurd rfl hl.2
      | cons a l => exact ⟨_, rfl⟩
    obtain ⟨path, hap⟩ := hap
    refine ⟨path, (C60_curves _ _ _ _ 0 _ rfl rfl _).2 ⟨r, ⟨[], 1 / 100, true⟩, e, ?_⟩⟩
    unfold PP.planRoute
    rw [hrr, hgr, hcn]
    simp [PP.planGroups, PP.planConnection, PP.startPose, PP.planSwaths, PP.planSwathsFrom, hap]
  obtain ⟨st, k1, k2, -, -, q, u, k3, k4, k5⟩ := C123_path (lineEnv solve) robot [cell] [cell] [cell] opt gs sg
    (fun _ => region) (lineEnv_lawful solve) hsolve rfl hh
    (show (0 : ℝ) < 2 by norm_num) (by simpa using hA) hreg hkeep hsw hsg (by simp [hs]) (by simp [hs]) hdist
    (fun p _ => rfl) hc (fun k q p hq st hst => by
      have : p = [] := by
        have : Outcome.ok [] = Outcome.ok p := hq
        injection this with this
        exact this.symm
      rw [this] at hst
      cases hst) path hpath' cell (List.mem_singleton_self _) _ hclear
  refine ⟨_, _, _, _, r, e, h cell (List.mem_singleton_self _) _ hclear, path, hpath', st, k1, k2, q, u, k3, ?_, k5⟩
  have : (2 : ℝ) / 2 = 1 := by norm_num
  exact this ▸ k4

end F2C.Props
