import Verif.Lemmas.FieldObj
import Verif.Model.Strip
import Verif.Props.Transform

/-!
# C104: a field and what lies in it go back to the previous coordinate system together
-/

namespace F2C.Props

open Text FieldSpec

variable {K : Type} [Field K] [LinearOrder K]

/-- The place of a point of a field, given relative to its reference point, in another system. -/
def placeIn (t : Point K → Point K) (ref p : Point K) : Point K :=
  t ⟨p.x + ref.x, p.y + ref.y, p.z + ref.z⟩

private theorem back {proj : Proj K} {f g : FieldObj K} (h : Transform.toPrevCRS proj f = .ok g) :
    Transform.field proj f f.prevCrs = .ok g := by
  unfold Transform.toPrevCRS at h
  split at h
  · cases h
  · exact h

/-- C104, for swaths and routes: a field goes back to its previous coordinate system, and with it every point
of its cells, of its swaths and of its routes; all go to the same places. -/
theorem C104_together_partial (proj : Proj K) (f g : FieldObj K) (hw : WellFormed f.cells)
    (h : Transform.toPrevCRS proj f = .ok g) :
    ∃ t, coordTransf proj f.crs f.prevCrs = .ok t ∧
      g.crs = f.prevCrs ∧
      g.absCells = onPoints (placeIn t f.ref) f.cells ∧
      (∀ s : Swath K, 0 < s.width → ∃ s', Transform.prevSwath proj s f = .ok s' ∧
        s'.path = s.path.map (placeIn t f.ref) ∧ s'.width = s.width ∧ s'.id = s.id) ∧
      (∀ l : Swaths K, (∀ s ∈ l, 0 < s.width) → ∃ l', Transform.prevSwaths proj l f = .ok l' ∧
        l'.map (fun s => (s.id, s.width, s.path)) =
          l.map fun s => (s.id, s.width, s.path.map (placeIn t f.ref))) ∧
      (∀ r : Route K, (∀ l ∈ r.groups, ∀ s ∈ l, 0 < s.width) → ∃ r', Transform.prevRoute proj r f = .ok r' ∧
        r'.connections = r.connections.map (fun c => c.map (placeIn t f.ref)) ∧
        r'.groups.map (fun l => l.map fun s => (s.id, s.width, s.path)) =
          r.groups.map fun l => l.map fun s => (s.id, s.width, s.path.map (placeIn t f.ref))) := by
  obtain ⟨t, ht, -, hcrs, -, habs, -, -⟩ := Transform.field_ok (back h)
  have hone : ∀ s : Swath K, 0 < s.width → Transform.swath proj s f f.prevCrs =
      .ok ⟨s.id, s.path.map (placeIn t f.ref), s.width, true, .mainland⟩ := fun s hs => by
    rw [Transform.swath, ht, Outcome.ok_bind, Swath.make, Swath.setWidth, if_neg (not_le.2 hs)]
    rfl
  refine ⟨t, ht, hcrs, ?_, fun s hs => ⟨_, hone s hs, rfl, rfl, rfl⟩, fun l hl => ?_, fun r hr => ?_⟩
  · rw [habs, FieldObj.absCells, mapCells_eq hw.normal, onPoints_onPoints]
    rfl
  · refine ⟨_, mapOutcome_map fun s hs => hone s (hl s hs), ?_⟩
    rw [List.map_map]
    rfl
  · obtain ⟨r', h1, h2, h3⟩ := C83_route_value proj f f.prevCrs t ht r hr
    refine ⟨r', h1, h2, ?_⟩
    rw [h3]
    simp only [List.map_map, Function.comp_def]
    rfl

/-- C104, for paths: the points of a path, and its end, go to the same places as the points of the field. -/
theorem C104_path_partial (proj : Proj ℝ) (f g : FieldObj ℝ) (hw : WellFormed f.cells)
    (h : Transform.toPrevCRS proj f = .ok g) (p : Path) (hp : p ≠ []) :
    ∃ t q e, coordTransf proj f.crs f.prevCrs = .ok t ∧ Transform.prevPath proj p f = .ok q ∧
      g.absCells = onPoints (placeIn t f.ref) f.cells ∧
      (∀ s, List.getLast? p = some s → e = if 0 < s.len then [s.atEnd] else []) ∧
      List.map (fun s => s.point) q = (List.map (fun s => s.point) p ++ e).map (placeIn t f.ref) := by
  obtain ⟨t, ht, -, habs, -⟩ := C104_together_partial proj f g hw h
  obtain ⟨q, hq, hne⟩ : ∃ q, Transform.path proj p f f.prevCrs = .ok q ∧ q ≠ [] := by
    unfold Transform.path
    have : ¬ List.length p < 1 := by
      cases p with
      | nil => exact absurd rfl hp
      | cons a l => simp
    rw [if_neg this, ht]
    refine ⟨_, rfl, fun e => hp ?_⟩
    have h1 : ∀ l : Path, Transform.relink l = [] → l = [] := by
      intro l hl
      match l with
      | [] => rfl
      | [_] => cases hl
      | _ :: _ :: _ => cases hl
    have h2 : Transform.withEnd p = [] := List.map_eq_nil_iff.1 (h1 _ e)
    unfold Transform.withEnd at h2
    split at h2
    · exact h2
    · split at h2
      · simp at h2
      · exact h2
  obtain ⟨t', e, ht', he, hpts⟩ := C56_points proj f f.prevCrs p q hne hq
  rw [ht] at ht'
  cases ht'
  exact ⟨t, q, e, ht, hq, habs, he, hpts⟩

/-- What becomes of a strip: its points are projected without the reference point of the field. -/
theorem C104_strip_value (proj : Proj K) (f : FieldObj K) (t : Point K → Point K)
    (ht : coordTransf proj f.crs f.prevCrs = .ok t) (s : Strip K) :
    Transform.prevStrip proj s f = .ok ⟨s.cell.map fun r => r.map t, s.name⟩ := by
  rw [Transform.prevStrip, Transform.strip, Transform.cell, ht]
  rfl

/-- C104: the transformation of cells that is given the reference point puts them where the field is. -/
theorem C104_cell_with_ref (proj : Proj K) (f : FieldObj K) (t : Point K → Point K)
    (ht : coordTransf proj f.crs f.prevCrs = .ok t) (c : Cell K) (hc : WellFormed [c]) :
    Transform.cellWithRef proj c f.ref f.crs f.prevCrs = .ok (c.map fun r => r.map (placeIn t f.ref)) := by
  rw [Transform.cellWithRef, Transform.cell, ht, mapCell_eq (hc.normal.2 c (List.mem_singleton_self c))]
  simp only [Outcome.ok_bind, Outcome.pure_eq, List.map_map, Function.comp_def]
  rfl

omit [Field K] [LinearOrder K] in
/-- C104: a clone of a strip has its cell and its name. -/
theorem C104_clone (s : Strip K) : s.clone.cell = s.cell ∧ s.clone.name = s.name := ⟨rfl, rfl⟩

/-- C104, for strips in fields with their reference point at the origin: strips go to the same places as the
field. -/
theorem C104_strips_partial (proj : Proj K) (f g : FieldObj K) (hw : WellFormed f.cells)
    (h : Transform.toPrevCRS proj f = .ok g) (h0 : f.ref = ⟨0, 0, 0⟩) (l : List (Strip K)) :
    ∃ t, coordTransf proj f.crs f.prevCrs = .ok t ∧ g.absCells = onPoints (placeIn t f.ref) f.cells ∧
      Transform.prevStrips proj l f =
        .ok (l.map fun s => ⟨s.cell.map fun r => r.map (placeIn t f.ref), s.name⟩) := by
  obtain ⟨t, ht, -, habs, -⟩ := C104_together_partial proj f g hw h
  refine ⟨t, ht, habs, ?_⟩
  have : placeIn t f.ref = t := by
    funext p
    rw [h0]
    simp [placeIn]
  rw [this]
  exact mapOutcome_map fun s _ => C104_strip_value proj f t ht s

/-- C104 is false for strips: if the reference point is anywhere else and the projection keeps points
apart, every strip with a point goes astray. -/
theorem C104_strips_go_astray (proj : Proj K) (f g : FieldObj K)
    (h : Transform.toPrevCRS proj f = .ok g) (h0 : f.ref ≠ ⟨0, 0, 0⟩) (s : Strip K)
    (hs : ∃ r ∈ s.cell, ∃ p, p ∈ r) :
    ∃ t s', coordTransf proj f.crs f.prevCrs = .ok t ∧ Transform.prevStrip proj s f = .ok s' ∧
      s'.name = s.name ∧ s'.cell = s.cell.map (fun r => r.map t) ∧
      (Function.Injective t → s'.cell ≠ s.cell.map fun r => r.map (placeIn t f.ref)) := by
  obtain ⟨t, ht, -⟩ := Transform.field_ok (back h)
  refine ⟨t, _, ht, C104_strip_value proj f t ht s, rfl, rfl, fun hi e => h0 ?_⟩
  obtain ⟨r, hr, p, hp⟩ := hs
  have h1 := List.map_inj_left.1 e r hr
  have h2 := hi (List.map_inj_left.1 h1 p hp)
  have hx := congrArg Point.x h2
  have hy := congrArg Point.y h2
  have hz := congrArg Point.z h2
  simp only [left_eq_add] at hx hy hz
  cases hf : f.ref
  rw [hf] at hx hy hz
  simp only at hx hy hz
  rw [hx, hy, hz]

/-- C104: a field without previous coordinate system throws, and so do swaths, routes and strips. -/
theorem C104_no_previous (proj : Proj K) (f : FieldObj K) (h0 : f.prevCrs = [])
    (hcrs : ∃ a, Crs.sptRef f.crs false = .ok a) (s : Swath K) (r : Route K)
    (hr : ∀ l ∈ r.groups, ∀ s ∈ l, 0 < s.width) (st : Strip K) :
    Transform.toPrevCRS proj f = .throw .invalidArgument ∧
    Transform.prevSwath proj s f = .throw .invalidArgument ∧
    Transform.prevRoute proj r f = .throw .invalidArgument ∧
    Transform.prevStrip proj st f = .throw .invalidArgument := by
  obtain ⟨a, ha⟩ := hcrs
  have hb : coordTransf proj f.crs f.prevCrs = .throw .invalidArgument := by
    rw [coordTransf, ha, Outcome.ok_bind, h0]
    rfl
  refine ⟨?_, ?_, ?_, ?_⟩
  · rw [Transform.toPrevCRS, if_pos h0]
  · rw [Transform.prevSwath, Transform.swath, hb]
    rfl
  · rw [Transform.prevRoute, Transform.route, Route.clone, cloneGroups_ok r.groups hr, hb]
    rfl
  · rw [Transform.prevStrip, Transform.strip, Transform.cell, hb]
    rfl

/-- A field of one square with its reference point at (5, 50), which was in ETRS89 before, and a projection
that shifts everything by (1, 1). -/
private def sq : FieldObj ℚ :=
  ⟨"f".toList, Transform.wgs84, Transform.etrs89, ⟨5, 50, 0⟩,
    [[[⟨0, 0, 0⟩, ⟨1, 0, 0⟩, ⟨1, 1, 0⟩, ⟨0, 0, 0⟩]]]⟩

private def shift1 : Proj ℚ := fun _ _ => some fun p => ⟨p.x + 1, p.y + 1, p.z⟩

private theorem sq_wf : WellFormed sq.cells := by
  intro c hc
  simp only [sq, List.mem_singleton] at hc
  subst hc
  refine ⟨by simp, fun r hr => ?_⟩
  simp only [List.mem_singleton] at hr
  subst hr
  exact ⟨by simp, rfl⟩

private def sqBack : FieldObj ℚ :=
  ⟨"f".toList, Transform.etrs89, Transform.wgs84, ⟨6, 51, 0⟩,
    [[[⟨0, 0, 0⟩, ⟨1, 0, 0⟩, ⟨1, 1, 0⟩, ⟨0, 0, 0⟩]]]⟩

private theorem sq_back : Transform.toPrevCRS shift1 sq = .ok sqBack := by decide +kernel

private theorem sq_shift {t} (ht : coordTransf shift1 sq.crs sq.prevCrs = .ok t) :
    t = fun p => ⟨p.x + 1, p.y + 1, p.z⟩ := by
  obtain ⟨a, b, -, -, h⟩ := coordTransf_ok ht
  cases h
  rfl

/-- The swath along the first side of the square is along it afterwards. -/
example : ∃ s', Transform.prevSwath shift1 ⟨3, [⟨0, 0, 0⟩, ⟨1, 0, 0⟩], 2, true, .mainland⟩ sq = .ok s' ∧
    s'.path = [⟨6, 51, 0⟩, ⟨7, 51, 0⟩] ∧
    sqBack.absCells = [[[⟨6, 51, 0⟩, ⟨7, 51, 0⟩, ⟨7, 52, 0⟩, ⟨6, 51, 0⟩]]] := by
  obtain ⟨t, ht, -, h1, h2, -⟩ := C104_together_partial shift1 sq sqBack sq_wf sq_back
  obtain ⟨s', hs, hp, -⟩ := h2 ⟨3, [⟨0, 0, 0⟩, ⟨1, 0, 0⟩], 2, true, .mainland⟩ (by norm_num)
  rw [sq_shift ht] at h1 hp
  refine ⟨s', hs, hp.trans ?_, h1.trans ?_⟩ <;> norm_num [placeIn, sq, onPoints]

/-- C104: the strip that is the square of the field is not the square of the field afterwards. -/
theorem C104_strip_witness : ∃ (proj : Proj ℚ) (f g : FieldObj ℚ) (s s' : Strip ℚ),
    Transform.toPrevCRS proj f = .ok g ∧ Transform.prevStrip proj s f = .ok s' ∧
    f.cells = [s.cell] ∧ g.absCells = [[[⟨6, 51, 0⟩, ⟨7, 51, 0⟩, ⟨7, 52, 0⟩, ⟨6, 51, 0⟩]]] ∧
    s'.cell = [[⟨1, 1, 0⟩, ⟨2, 1, 0⟩, ⟨2, 2, 0⟩, ⟨1, 1, 0⟩]] :=
  ⟨shift1, sq, sqBack, ⟨[[⟨0, 0, 0⟩, ⟨1, 0, 0⟩, ⟨1, 1, 0⟩, ⟨0, 0, 0⟩]], []⟩,
    ⟨[[⟨1, 1, 0⟩, ⟨2, 1, 0⟩, ⟨2, 2, 0⟩, ⟨1, 1, 0⟩]], []⟩,
    sq_back, by decide +kernel, rfl, by decide +kernel, rfl⟩

/-- The hypotheses of `C104_strips_go_astray` and `C104_no_previous` are met. -/
example : ∃ t s', coordTransf shift1 sq.crs sq.prevCrs = .ok t ∧
    Transform.prevStrip shift1 ⟨[[⟨0, 0, 0⟩, ⟨1, 0, 0⟩, ⟨1, 1, 0⟩, ⟨0, 0, 0⟩]], []⟩ sq = .ok s' ∧
    s'.cell ≠ [[⟨0, 0, 0⟩, ⟨1, 0, 0⟩, ⟨1, 1, 0⟩, ⟨0, 0, 0⟩]].map fun r => r.map (placeIn t sq.ref) := by
  obtain ⟨t, s', ht, hs, -, -, h⟩ := C104_strips_go_astray shift1 sq sqBack sq_back (by decide +kernel)
    ⟨[[⟨0, 0, 0⟩, ⟨1, 0, 0⟩, ⟨1, 1, 0⟩, ⟨0, 0, 0⟩]], []⟩ ⟨_, List.mem_singleton_self _, _, List.mem_cons_self⟩
  refine ⟨t, s', ht, hs, h fun a b e => ?_⟩
  rw [sq_shift ht] at e
  cases a
  cases b
  simpa using e

example : Transform.prevSwath shift1 ⟨3, [⟨0, 0, 0⟩, ⟨1, 0, 0⟩], 2, true, .mainland⟩
    { sq with prevCrs := [] } = .throw .invalidArgument :=
  (C104_no_previous shift1 { sq with prevCrs := [] } rfl ⟨.epsg 4326, by decide +kernel⟩ _ ⟨[], []⟩ (by simp)
    ⟨[], []⟩).2.1

/-- The same field and strip, with the reference point at the origin. -/
example : Transform.prevStrips shift1 [⟨[[⟨0, 0, 0⟩, ⟨1, 0, 0⟩, ⟨1, 1, 0⟩, ⟨0, 0, 0⟩]], "a".toList⟩]
    { sq with ref := ⟨0, 0, 0⟩ } =
    .ok [⟨[[⟨1, 1, 0⟩, ⟨2, 1, 0⟩, ⟨2, 2, 0⟩, ⟨1, 1, 0⟩]], "a".toList⟩] := by
  obtain ⟨t, ht, -, h⟩ := C104_strips_partial shift1 { sq with ref := ⟨0, 0, 0⟩ } _ sq_wf
    (show Transform.toPrevCRS shift1 { sq with ref := ⟨0, 0, 0⟩ } =
      .ok ⟨"f".toList, Transform.etrs89, Transform.wgs84, ⟨1, 1, 0⟩,
      [[[⟨0, 0, 0⟩, ⟨1, 0, 0⟩, ⟨1, 1, 0⟩, ⟨0, 0, 0⟩]]]⟩ by decide +kernel) rfl
    [⟨[[⟨0, 0, 0⟩, ⟨1, 0, 0⟩, ⟨1, 1, 0⟩, ⟨0, 0, 0⟩]], "a".toList⟩]
  rw [h, sq_shift ht]
  norm_num [placeIn]

/-- A path in a real field goes to the places of the field: the start, and the end one unit further. -/
example : ∃ (q : Path), Transform.prevPath (fun _ _ => some fun p => ⟨2 * p.x, p.y, p.z⟩)
    [⟨⟨0, 0, 0⟩, 0, 1, .forward, .swath, 1⟩]
    ⟨[], Transform.wgs84, Transform.etrs89, ⟨5, 50, 0⟩, []⟩ = .ok q ∧
    List.map (fun s => s.point) q = [⟨10, 50, 0⟩, ⟨12, 50, 0⟩] := by
  have ht : coordTransf (fun _ _ => some fun p => ⟨2 * p.x, p.y, p.z⟩ : Proj ℝ) Transform.wgs84
      Transform.etrs89 = .ok fun p => ⟨2 * p.x, p.y, p.z⟩ := by
    have h1 : Crs.sptRef Transform.wgs84 false = .ok (.epsg 4326) := by decide +kernel
    have h2 : Crs.sptRef Transform.etrs89 false = .ok (.epsg 4258) := by decide +kernel
    simp only [coordTransf, h1, h2, Outcome.ok_bind]
  obtain ⟨g, hg⟩ := Transform.field_succeeds (proj := (fun _ _ => some fun p => ⟨2 * p.x, p.y, p.z⟩ : Proj ℝ))
    (f := ⟨[], Transform.wgs84, Transform.etrs89, ⟨5, 50, 0⟩, []⟩) ht (.inl rfl)
  have hg' : Transform.toPrevCRS (fun _ _ => some fun p => ⟨2 * p.x, p.y, p.z⟩ : Proj ℝ)
      ⟨[], Transform.wgs84, Transform.etrs89, ⟨5, 50, 0⟩, []⟩ = .ok g := by
    rw [Transform.toPrevCRS, if_neg (by decide +kernel)]
    exact hg
  obtain ⟨t, q, e, ht', hq, -, he, hp⟩ := C104_path_partial _ _ g (by simp [WellFormed]) hg'
    [⟨⟨0, 0, 0⟩, 0, 1, .forward, .swath, 1⟩] (by simp)
  refine ⟨q, hq, ?_⟩
  simp only [ht, Outcome.ok.injEq] at ht'
  have he' := he _ rfl
  rw [if_pos (by norm_num)] at he'
  rw [hp, he', ← ht']
  norm_num [placeIn, PathState.atEnd, pointFromAngle, PathDir.sign]

end F2C.Props
