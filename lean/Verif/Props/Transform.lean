import Mathlib.Tactic.NormNum
import Verif.Lemmas.FieldObj
import Verif.Lemmas.Geom
import Verif.Lemmas.Turning
import Verif.Props.PathSpec

/-!
# C56, C69, C70: transforming paths, swaths and fields

* C56: a transformed path is consistent with its points
* C69: transforming swaths keeps everything but the coordinates
* C70: a transformation that fails leaves the field as it was
-/

namespace F2C.Props

open Text FieldSpec PathSpec

/-! ### C56 -/

/-- The last loop keeps everything but length and angle. -/
private theorem relink_same : ∀ p : Path, List.Forall₂
    (fun s r => r.point = s.point ∧ r.dir = s.dir ∧ r.type = s.type ∧ r.velocity = s.velocity) p
    (Transform.relink p)
  | [] => .nil
  | [s] => .cons ⟨rfl, rfl, rfl, rfl⟩ .nil
  | s :: t :: l => .cons ⟨rfl, rfl, rfl, rfl⟩ (relink_same (t :: l))

private theorem relink_length (p : Path) : List.length (Transform.relink p) = List.length p :=
  (relink_same p).length_eq.symm

/-- In the result each forward state ends where the next one starts. -/
private theorem relink_joined : ∀ (p : Path), (∀ s ∈ p, s.dir = .forward) →
    ∀ (i : Nat) (s t : PathState ℝ), (Transform.relink p)[i]? = some s →
      (Transform.relink p)[i + 1]? = some t → SameXY s.atEnd t.point
  | [], _, i, s, t, hs, ht => by simp [Transform.relink] at hs
  | [_], _, i, s, t, hs, ht => by simp [Transform.relink] at ht
  | a :: b :: l, hf, i, s, t, hs, ht => by
    cases i with
    | succ i =>
      refine relink_joined (b :: l) (fun s hs => hf s (List.mem_cons_of_mem _ hs)) i s t ?_ ?_
      · simpa [Transform.relink] using hs
      · simpa [Transform.relink] using ht
    | zero =>
      have e1 : s = { a with
          len := pdist a.point b.point, angle := angleFromPoint (b.point.sub a.point) } := by
        simpa [Transform.relink] using hs.symm
      have e2 : t.point = b.point := by
        have h := relink_same (b :: l)
        cases hr : Transform.relink (b :: l) with
        | nil =>
          rw [hr] at h
          cases h
        | cons c m =>
          rw [hr] at h
          cases h with
          | cons h1 _ =>
            have : t = c := by simpa [Transform.relink, hr] using ht.symm
            rw [this]
            exact h1.1
      have hd := hf a List.mem_cons_self
      subst e1
      simp only [SameXY, PathState.atEnd, pointFromAngle, hd, PathDir.sign, mul_one, e2]
      have h1 := pdist_polar_x b.point a.point
      have h2 := pdist_polar_y b.point a.point
      rw [pdist_comm] at h1 h2
      constructor
      · rw [h1]
        ring
      · rw [h2]
        ring

/-- C56, for paths that are driven forward only: the transformed path has all the states (and one more if
the last state has a length: the end of the path), their points are the transformed ones, and
each state ends where the next one starts. -/
theorem C56_path_consistent_partial (proj : Proj ℝ) (f : FieldObj ℝ) (dst : Str) (p q : Path)
    (hdir : ∀ s ∈ p, s.dir = .forward) (h : Transform.path proj p f dst = .ok q) :
    (∀ (i : Nat) (s t : PathState ℝ), q[i]? = some s → q[i + 1]? = some t → SameXY s.atEnd t.point) ∧
    (p ≠ [] → ∃ t, coordTransf proj f.crs dst = .ok t ∧
      ∃ e, (e = [] ∨ ∃ s, List.getLast? p = some s ∧ 0 < s.len ∧ e = [s.atEnd]) ∧
      (e = [] → ∀ s, List.getLast? p = some s → s.len ≤ 0) ∧
      List.map (fun s => s.point) q = (List.map (fun s => s.point) p ++ e).map fun x => t (x.add f.ref)) ∧
    List.Forall₂ (fun s r => r.dir = s.dir ∧ r.type = s.type ∧ r.velocity = s.velocity) p
      (List.take (List.length p) q) := by
  cases p with
  | nil =>
    cases h
    exact ⟨fun i s t hs => by simp at hs, fun h => absurd rfl h, .nil⟩
  | cons a l =>
    unfold Transform.path at h
    rw [if_neg (by simp)] at h
    cases ht : coordTransf proj f.crs dst with
    | throw e =>
      rw [ht] at h
      cases h
    | ub m =>
      rw [ht] at h
      cases h
    | ok t =>
      rw [ht, Outcome.ok_bind] at h
      cases h
      obtain ⟨s, hs⟩ : ∃ s, List.getLast? (a :: l) = some s := ⟨_, List.getLast?_cons⟩
      -- the path with its end
      obtain ⟨e, he, hlen, hend⟩ : ∃ e : Path, Transform.withEnd (a :: l) = (a :: l) ++ e ∧
          (e = [] → s.len ≤ 0) ∧ (e = [] ∨ 0 < s.len ∧ e = [{ s with point := s.atEnd, len := 0 }]) := by
        unfold Transform.withEnd
        simp only [hs]
        by_cases hl : s.len > 0
        · rw [if_pos hl]
          exact ⟨_, rfl, by simp, .inr ⟨hl, rfl⟩⟩
        · rw [if_neg hl]
          exact ⟨[], by simp, fun _ => not_lt.1 hl, .inl rfl⟩
      rw [he]
      refine ⟨?_, fun _ => ⟨t, rfl, List.map (fun s => s.point) e, ?_, ?_, ?_⟩, ?_⟩
      · apply relink_joined
        intro r hr
        obtain ⟨r', hr', rfl⟩ := List.mem_map.1 hr
        rcases List.mem_append.1 hr' with h1 | h1
        · exact hdir r' h1
        · rcases hend with rfl | ⟨-, rfl⟩
          · simp at h1
          · rw [List.mem_singleton.1 h1]
            exact hdir s (List.mem_of_getLast? hs)
      · rcases hend with rfl | ⟨h1, rfl⟩
        · exact .inl rfl
        · exact .inr ⟨s, hs, h1, rfl⟩
      · intro h1 s' hs'
        rw [hs] at hs'
        cases hs'
        exact hlen (List.map_eq_nil_iff.1 h1)
      · have h1 := relink_same (((a :: l) ++ e).map fun s => { s with point := t (s.point.add f.ref) })
        have h2 : List.map (fun s => s.point) (Transform.relink
            (((a :: l) ++ e).map fun s => { s with point := t (s.point.add f.ref) })) =
            List.map (fun s => s.point)
              (((a :: l) ++ e).map fun s => { s with point := t (s.point.add f.ref) }) := by
          generalize List.map (fun s : PathState ℝ => { s with point := t (s.point.add f.ref) })
            ((a :: l) ++ e) = x at h1
          generalize Transform.relink x = y at h1 ⊢
          induction h1 with
          | nil => rfl
          | cons h _ ih => rw [List.map_cons, List.map_cons, ih, h.1]
        rw [h2, List.map_map, ← List.map_append, List.map_map]
        rfl
      · have h1 := relink_same (((a :: l) ++ e).map fun s => { s with point := t (s.point.add f.ref) })
        have h2 := List.forall₂_take (List.length (a :: l)) h1
        rw [List.map_append, show List.length (a :: l) =
          List.length (List.map (fun s => { s with point := t (s.point.add f.ref) }) (a :: l)) by simp,
          List.take_left, List.length_map] at h2
        have h3 := List.forall₂_map_left_iff.1 h2
        rw [List.map_append]
        exact h3.imp fun s r h => ⟨h.2.1, h.2.2.1, h.2.2.2⟩

/-- C56, for all paths: the points of the transformed path are the transformed points of the path, followed by
the end of the last section if it has a length. -/
theorem C56_points (proj : Proj ℝ) (f : FieldObj ℝ) (dst : Str) (p q : Path) (hne : q ≠ [])
    (h : Transform.path proj p f dst = .ok q) :
    ∃ t e, coordTransf proj f.crs dst = .ok t ∧
      (∀ s, List.getLast? p = some s → e = if 0 < s.len then [s.atEnd] else []) ∧
      List.map (fun s => s.point) q = (List.map (fun s => s.point) p ++ e).map fun x =>
        t ⟨x.x + f.ref.x, x.y + f.ref.y, x.z + f.ref.z⟩ := by
  cases p with
  | nil =>
    cases h
    exact absurd rfl hne
  | cons a l =>
    unfold Transform.path at h
    rw [if_neg (by simp)] at h
    obtain ⟨t, ht, h⟩ := bind_ok h
    cases h
    obtain ⟨s, hs⟩ : ∃ s, List.getLast? (a :: l) = some s := ⟨_, List.getLast?_cons⟩
    refine ⟨t, if 0 < s.len then [s.atEnd] else [], ht, fun s' hs' => ?_, ?_⟩
    · rw [hs] at hs'
      cases hs'
      rfl
    · have h1 := relink_same ((Transform.withEnd (a :: l)).map fun s => { s with point := t (s.point.add f.ref) })
      have h2 : ∀ x y : Path, List.Forall₂ (fun s r => r.point = s.point ∧ r.dir = s.dir ∧ r.type = s.type ∧
          r.velocity = s.velocity) x y → List.map (fun s => s.point) y = List.map (fun s => s.point) x := by
        intro x y hxy
        induction hxy with
        | nil => rfl
        | cons h _ ih => rw [List.map_cons, List.map_cons, ih, h.1]
      rw [h2 _ _ h1, List.map_map]
      unfold Transform.withEnd
      simp only [hs]
      by_cases hl : s.len > 0
      · rw [if_pos hl, if_pos hl, List.map_append, List.map_append, List.map_map]
        rfl
      · rw [if_neg hl, if_neg hl, List.append_nil, List.map_map]
        rfl

/-- Every transformation is the identity. -/
private def keep {K : Type} : Proj K := fun _ _ => some id

private theorem keep_ok {K : Type} [Field K] [LinearOrder K] :
    coordTransf (keep : Proj K) Transform.wgs84 Transform.wgs84 = .ok id := by
  have h : Crs.sptRef Transform.wgs84 false = .ok (.epsg 4326) := by decide +kernel
  simp only [coordTransf, h, Outcome.ok_bind, keep]

/-- A field in GPS coordinates with its reference point at the origin. -/
private def origin {K : Type} [Field K] [LinearOrder K] : FieldObj K :=
  ⟨[], Transform.wgs84, [], ⟨0, 0, 0⟩, []⟩

example : ∃ q, Transform.path keep [⟨⟨0, 0, 0⟩, 0, 1, .forward, .swath, 1⟩,
      ⟨⟨1, 0, 0⟩, 0, 1, .forward, .turn, 2⟩] { (origin : FieldObj ℝ) with ref := ⟨5, 5, 0⟩ }
      Transform.wgs84 = .ok q ∧ q.map (fun s => s.point) = [⟨5, 5, 0⟩, ⟨6, 5, 0⟩, ⟨7, 5, 0⟩] := by
  obtain ⟨q, hq⟩ : ∃ q, Transform.path keep [⟨⟨0, 0, 0⟩, 0, 1, .forward, .swath, 1⟩,
      ⟨⟨1, 0, 0⟩, 0, 1, .forward, .turn, 2⟩] { (origin : FieldObj ℝ) with ref := ⟨5, 5, 0⟩ }
      Transform.wgs84 = .ok q := by
    rw [Transform.path, if_neg (by simp), show ({ (origin : FieldObj ℝ) with ref := ⟨5, 5, 0⟩ } :
      FieldObj ℝ).crs = Transform.wgs84 from rfl, keep_ok]
    exact ⟨_, rfl⟩
  refine ⟨q, hq, ?_⟩
  obtain ⟨-, h2, -⟩ := C56_path_consistent_partial _ _ _ _ _ (by simp) hq
  obtain ⟨t, ht, e, he, he0, hpts⟩ := h2 (by simp)
  rw [show ({ (origin : FieldObj ℝ) with ref := ⟨5, 5, 0⟩ } : FieldObj ℝ).crs = Transform.wgs84 from rfl,
    keep_ok] at ht
  cases ht
  have : e = [⟨2, 0, 0⟩] := by
    rcases he with rfl | ⟨s, hs, -, rfl⟩
    · have := he0 rfl _ rfl
      norm_num at this
    · simp only [List.getLast?_cons_cons, List.getLast?_singleton, Option.some.injEq] at hs
      subst hs
      norm_num [PathState.atEnd, pointFromAngle, PathDir.sign]
  rw [hpts, this]
  norm_num [Point.add]

/-- The same path has points, so that `C56_points` applies to it. -/
example : ∃ q t e, Transform.path keep [⟨⟨0, 0, 0⟩, 0, 1, .forward, .swath, 1⟩,
      ⟨⟨1, 0, 0⟩, 0, 1, .forward, .turn, 2⟩] { (origin : FieldObj ℝ) with ref := ⟨5, 5, 0⟩ }
      Transform.wgs84 = .ok q ∧ coordTransf keep Transform.wgs84 Transform.wgs84 = .ok t ∧
      q.map (fun s => s.point) = ([⟨0, 0, 0⟩, ⟨1, 0, 0⟩] ++ e).map fun x : RPoint => t ⟨x.x + 5, x.y + 5, x.z + 0⟩ := by
  obtain ⟨q, hq, hne⟩ : ∃ q, Transform.path keep [⟨⟨0, 0, 0⟩, 0, 1, .forward, .swath, 1⟩,
      ⟨⟨1, 0, 0⟩, 0, 1, .forward, .turn, 2⟩] { (origin : FieldObj ℝ) with ref := ⟨5, 5, 0⟩ }
      Transform.wgs84 = .ok q ∧ q ≠ [] := by
    rw [Transform.path, if_neg (by simp), show ({ (origin : FieldObj ℝ) with ref := ⟨5, 5, 0⟩ } :
      FieldObj ℝ).crs = Transform.wgs84 from rfl, keep_ok]
    exact ⟨_, rfl, fun h => absurd (congrArg List.length h) (by norm_num [Transform.relink, Transform.withEnd])⟩
  obtain ⟨t, e, ht, -, hp⟩ := C56_points _ _ _ _ _ hne hq
  exact ⟨q, t, e, hq, ht, hp⟩

/-- C56 is false for states that are driven backward: their heading becomes the direction of travel, so that
the state leads away from where the next one starts. -/
theorem C56_backward_wrong : ∃ (p q : Path) (s t : PathState ℝ),
    Transform.path keep p origin Transform.wgs84 = .ok q ∧
    (∀ (a b : PathState ℝ), p[0]? = some a → p[1]? = some b → SameXY a.atEnd b.point) ∧
    q[0]? = some s ∧ q[1]? = some t ∧ ¬ SameXY s.atEnd t.point := by
  have hpi : angleFromPoint ⟨-1, 0, 0⟩ = Real.pi := by
    rw [angleFromPoint_eq]
    have : Complex.arg ⟨-1, 0⟩ = Real.pi := by
      rw [Complex.arg_eq_pi_iff]
      simp
    rw [this]
    exact mod2pi_of_range Real.pi_pos.le (by linarith [Real.pi_pos])
  have e : (Point.sub (Point.add ⟨0, 0, 0⟩ (origin : FieldObj ℝ).ref)
      (Point.add ⟨1, 0, 0⟩ (origin : FieldObj ℝ).ref)) = ⟨-1, 0, 0⟩ := by
    norm_num [Point.sub, Point.add, origin]
  refine ⟨[⟨⟨1, 0, 0⟩, 0, 1, .backward, .turn, 1⟩, ⟨⟨0, 0, 0⟩, 0, 0, .forward, .turn, 1⟩],
    [⟨Point.add ⟨1, 0, 0⟩ (origin : FieldObj ℝ).ref, Real.pi,
      pdist (Point.add ⟨1, 0, 0⟩ (origin : FieldObj ℝ).ref) (Point.add ⟨0, 0, 0⟩ (origin : FieldObj ℝ).ref),
      .backward, .turn, 1⟩,
      ⟨Point.add ⟨0, 0, 0⟩ (origin : FieldObj ℝ).ref, 0, 0, .forward, .turn, 1⟩], _, _, ?_, ?_, rfl, rfl, ?_⟩
  · rw [Transform.path, if_neg (by simp), show (origin : FieldObj ℝ).crs = Transform.wgs84 from rfl, keep_ok,
      Outcome.ok_bind]
    simp only [Transform.withEnd, List.getLast?_cons_cons, List.getLast?_singleton, gt_iff_lt, lt_irrefl,
      if_false, List.map_cons, List.map_nil, Transform.relink, id_eq, e, hpi]
    rfl
  · intro a b ha hb
    simp only [List.getElem?_cons_zero, List.getElem?_cons_succ, Option.some.injEq] at ha hb
    subst ha hb
    norm_num [SameXY, PathState.atEnd, pointFromAngle, PathDir.sign]
  · simp only [SameXY, PathState.atEnd, pointFromAngle, PathDir.sign, Real.cos_pi, pdist,
      Point.add, origin]
    norm_num

/-- `transformPath(path, from, to)` does not look at lengths or headings: if the transformation scales, the
states do not join any more. -/
theorem C56_transformPath_wrong : ∃ (proj : Proj ℝ) (p q : Path) (s t : PathState ℝ),
    Transform.plainPath proj p Transform.wgs84 Transform.wgs84 = .ok q ∧
    (∀ (a b : PathState ℝ), p[0]? = some a → p[1]? = some b → SameXY a.atEnd b.point) ∧
    q[0]? = some s ∧ q[1]? = some t ∧ ¬ SameXY s.atEnd t.point := by
  refine ⟨fun _ _ => some fun p => p.smul 2,
    [⟨⟨0, 0, 0⟩, 0, 1, .forward, .swath, 1⟩, ⟨⟨1, 0, 0⟩, 0, 0, .forward, .swath, 1⟩],
    [⟨Point.smul ⟨0, 0, 0⟩ 2, 0, 1, .forward, .swath, 1⟩, ⟨Point.smul ⟨1, 0, 0⟩ 2, 0, 0, .forward, .swath, 1⟩],
    _, _, ?_, ?_, rfl, rfl, ?_⟩
  · have h : Crs.sptRef Transform.wgs84 false = .ok (.epsg 4326) := by decide +kernel
    simp only [Transform.plainPath, coordTransf, h, Outcome.ok_bind, List.map_cons, List.map_nil]
    rfl
  · intro a b ha hb
    simp only [List.getElem?_cons_zero, List.getElem?_cons_succ, Option.some.injEq] at ha hb
    subst ha hb
    norm_num [SameXY, PathState.atEnd, pointFromAngle, PathDir.sign]
  · norm_num [SameXY, PathState.atEnd, pointFromAngle, PathDir.sign, Point.smul]

/-! ### C69 -/

variable {K : Type} [Field K] [LinearOrder K]

private theorem swath_ok {proj : Proj K} {f : FieldObj K} {dst : Str} {t : Point K → Point K}
    (ht : coordTransf proj f.crs dst = .ok t) {s : Swath K} (hw : 0 < s.width) :
    Transform.swath proj s f dst =
      .ok ⟨s.id, s.path.map fun p => t (p.add f.ref), s.width, true, .mainland⟩ := by
  rw [Transform.swath, ht, Outcome.ok_bind, Swath.make, Swath.setWidth, if_neg (not_le.2 hw)]
  rfl

/-- C69, for mainland swaths that were never reversed: transforming swaths of positive width changes the
coordinates and nothing else, and keeps their order. -/
theorem C69_swaths_partial (proj : Proj K) (f : FieldObj K) (dst : Str) (t : Point K → Point K)
    (ht : coordTransf proj f.crs dst = .ok t) (l : Swaths K)
    (h : ∀ s ∈ l, 0 < s.width ∧ s.type = .mainland ∧ s.creationDir = true) :
    ∃ l', Transform.swaths proj l f dst = .ok l' ∧ l' = l.map fun s =>
      { s with path := s.path.map fun p => t ⟨p.x + f.ref.x, p.y + f.ref.y, p.z + f.ref.z⟩ } := by
  obtain ⟨l', h1, h2⟩ := mapOutcome_spec (f := fun s => Transform.swath proj s f dst) (l := l)
    (P := fun s s' => (0 < s.width ∧ s.type = .mainland ∧ s.creationDir = true) →
      s' = { s with path := s.path.map fun p => t ⟨p.x + f.ref.x, p.y + f.ref.y, p.z + f.ref.z⟩ })
    (fun s hs => ⟨_, swath_ok ht (h s hs).1, fun h => by
      obtain ⟨-, h1, h2⟩ := h
      rw [← h1, ← h2]
      rfl⟩)
  refine ⟨l', h1, ?_⟩
  clear h1
  induction h2 with
  | nil => rfl
  | cons h1 _ ih =>
    rw [List.map_cons, h1 (h _ List.mem_cons_self),
      ih fun s hs => h s (List.mem_cons_of_mem _ hs)]

example : ∃ l', Transform.swaths keep [⟨3, [⟨0, 0, 0⟩, ⟨1, 0, 0⟩], 2, true, .mainland⟩]
    { (origin : FieldObj ℚ) with ref := ⟨5, 5, 0⟩ } Transform.wgs84 = .ok l' ∧
    l' = [⟨3, [⟨5, 5, 0⟩, ⟨6, 5, 0⟩], 2, true, .mainland⟩] := by
  obtain ⟨l', h1, h2⟩ := C69_swaths_partial keep { (origin : FieldObj ℚ) with ref := ⟨5, 5, 0⟩ }
    Transform.wgs84 id keep_ok [⟨3, [⟨0, 0, 0⟩, ⟨1, 0, 0⟩], 2, true, .mainland⟩] (by simp)
  exact ⟨l', h1, h2.trans (by norm_num)⟩

/-- C69 is false: the result is always a mainland swath in its creation direction. -/
theorem C69_type_and_direction_lost (proj : Proj K) (f : FieldObj K) (dst : Str) (s s' : Swath K)
    (h : Transform.swath proj s f dst = .ok s') :
    s'.type = .mainland ∧ s'.creationDir = true ∧ s'.id = s.id ∧ s'.width = s.width ∧
      s'.path.length = s.path.length := by
  unfold Transform.swath at h
  cases ht : coordTransf proj f.crs dst with
  | throw e =>
    rw [ht] at h
    cases h
  | ub m =>
    rw [ht] at h
    cases h
  | ok t =>
    rw [ht, Outcome.ok_bind, Swath.make, Swath.setWidth] at h
    split at h
    · cases h
    · cases h
      exact ⟨rfl, rfl, rfl, rfl, by simp⟩

/-- C69 for `transformSwaths(swaths, from, to)`, in the same way: coordinates change, the order stays. -/
theorem C69_plain_partial (proj : Proj K) (src dst : Str) (t : Point K → Point K)
    (ht : coordTransf proj src dst = .ok t) (l : Swaths K)
    (h : ∀ s ∈ l, 0 < s.width ∧ s.type = .mainland ∧ s.creationDir = true) :
    Transform.plainSwaths proj l src dst = .ok (l.map fun s => { s with path := s.path.map t }) := by
  refine mapOutcome_map fun s hs => ?_
  obtain ⟨h1, h2, h3⟩ := h s hs
  rw [Transform.plainSwath, ht, Outcome.ok_bind, Swath.make, Swath.setWidth, if_neg (not_le.2 h1), h2, h3]
  rfl

example : Transform.plainSwaths keep [⟨3, [⟨0, 0, 0⟩, ⟨1, 0, 0⟩], 2, true, .mainland⟩] Transform.wgs84
    Transform.wgs84 = .ok [(⟨3, [⟨0, 0, 0⟩, ⟨1, 0, 0⟩], 2, true, .mainland⟩ : Swath ℚ)] :=
  C69_plain_partial keep _ _ id keep_ok _ (by simp)

/-- C69: transforming swaths to another system and back restores all points, ids and widths, for any consistent
family of transformations; types and directions of creation are the defaults afterwards. -/
theorem C69_there_and_back (proj : Proj K) (hc : Consistent proj) (src dst : Str) (l m n : Swaths K)
    (h1 : Transform.plainSwaths proj l src dst = .ok m) (h2 : Transform.plainSwaths proj m dst src = .ok n) :
    n = l.map fun s => { s with type := .mainland, creationDir := true } := by
  have one : ∀ {s s' : Swath K} {a b : Str}, Transform.plainSwath proj s a b = .ok s' →
      ∃ t, coordTransf proj a b = .ok t ∧ s' = ⟨s.id, s.path.map t, s.width, true, .mainland⟩ := by
    intro s s' a b h
    unfold Transform.plainSwath at h
    cases ht : coordTransf proj a b with
    | throw e => rw [ht] at h; cases h
    | ub e => rw [ht] at h; cases h
    | ok t =>
      rw [ht, Outcome.ok_bind, Swath.make, Swath.setWidth] at h
      split at h
      · cases h
      · cases h
        exact ⟨t, rfl, rfl⟩
  have all : ∀ (l m : Swaths K) (a b : Str), Transform.plainSwaths proj l a b = .ok m →
      List.Forall₂ (fun s s' => Transform.plainSwath proj s a b = .ok s') l m := by
    intro l
    induction l with
    | nil => intro m a b h; cases h; exact .nil
    | cons s l ih =>
      intro m a b h
      unfold Transform.plainSwaths at h
      rw [mapOutcome] at h
      cases hs : Transform.plainSwath proj s a b with
      | throw e => rw [hs] at h; cases h
      | ub e => rw [hs] at h; cases h
      | ok s' =>
        cases hl : mapOutcome (fun s => Transform.plainSwath proj s a b) l with
        | throw e => rw [hs, hl] at h; cases h
        | ub e => rw [hs, hl] at h; cases h
        | ok l' =>
          rw [hs, hl] at h
          cases h
          exact .cons hs (ih l' a b hl)
  have f1 := all l m src dst h1
  have f2 := all m n dst src h2
  clear h1 h2
  induction f1 generalizing n with
  | nil => cases f2; rfl
  | cons a1 _ ih =>
    cases f2 with
    | cons a2 f2 =>
      rw [List.map_cons, ih _ f2]
      congr 1
      obtain ⟨t, ht, rfl⟩ := one a1
      obtain ⟨u, hu, rfl⟩ := one a2
      obtain ⟨x, y, hx, hy, hp⟩ := coordTransf_ok ht
      obtain ⟨y', x', hy', hx', hp'⟩ := coordTransf_ok hu
      rw [hx] at hx'
      rw [hy] at hy'
      cases hx'
      cases hy'
      obtain ⟨v, hv, hcomp⟩ := hc.comp x y x t u hp hp'
      simp only [List.map_map]
      congr 1
      conv_rhs => rw [← List.map_id (Swath.path _)]
      refine List.map_congr_left fun p _ => ?_
      rw [Function.comp, ← hcomp, hc.stay x v hv]
      rfl

example : ∃ m n : Swaths ℚ,
    Transform.plainSwaths keep [⟨3, [⟨0, 0, 0⟩, ⟨1, 0, 0⟩], 2, false, .headland⟩] Transform.wgs84
      Transform.wgs84 = .ok m ∧
    Transform.plainSwaths keep m Transform.wgs84 Transform.wgs84 = .ok n ∧
    n = [⟨3, [⟨0, 0, 0⟩, ⟨1, 0, 0⟩], 2, true, .mainland⟩] := by
  have h1 : Transform.plainSwaths (K := ℚ) keep [⟨3, [⟨0, 0, 0⟩, ⟨1, 0, 0⟩], 2, false, .headland⟩] Transform.wgs84
      Transform.wgs84 = .ok [⟨3, [⟨0, 0, 0⟩, ⟨1, 0, 0⟩], 2, true, .mainland⟩] := by decide +kernel
  have h2 : Transform.plainSwaths (K := ℚ) keep [⟨3, [⟨0, 0, 0⟩, ⟨1, 0, 0⟩], 2, true, .mainland⟩] Transform.wgs84
      Transform.wgs84 = .ok [⟨3, [⟨0, 0, 0⟩, ⟨1, 0, 0⟩], 2, true, .mainland⟩] := by decide +kernel
  exact ⟨_, _, h1, h2, C69_there_and_back keep
    ⟨fun a f h p => by cases h; rfl, fun a b c f g h1 h2 => by cases h1; cases h2; exact ⟨_, rfl, fun _ => rfl⟩⟩
    _ _ _ _ _ h1 h2⟩

/-- C69: a headland swath that was reversed comes back as a mainland swath in creation direction. -/
theorem C69_headland_witness : ∃ (s s' : Swath ℚ), Transform.swath keep s origin Transform.wgs84 = .ok s' ∧
    s.type = .headland ∧ s'.type = .mainland ∧ s.creationDir = false ∧ s'.creationDir = true ∧
    s'.path = s.path :=
  ⟨⟨1, [⟨0, 0, 0⟩, ⟨1, 0, 0⟩], 2, false, .headland⟩, ⟨1, [⟨0, 0, 0⟩, ⟨1, 0, 0⟩], 2, true, .mainland⟩,
    by decide +kernel, rfl, rfl, rfl, rfl, rfl⟩

/-! ### C83 -/

/-- C83, what a transformed route is: every point of every swath and of every connection is moved, groups,
connections, ids, widths and orders are kept, types and creation directions become the defaults. -/
theorem C83_route_value (proj : Proj K) (f : FieldObj K) (dst : Str) (t : Point K → Point K)
    (ht : coordTransf proj f.crs dst = .ok t) (r : Route K) (h : ∀ g ∈ r.groups, ∀ s ∈ g, 0 < s.width) :
    ∃ r', Transform.route proj r f dst = .ok r' ∧
      r'.connections = r.connections.map (fun c => c.map fun p =>
        t ⟨p.x + f.ref.x, p.y + f.ref.y, p.z + f.ref.z⟩) ∧
      r'.groups = r.groups.map fun g => g.map fun s => ⟨s.id, s.path.map fun p =>
        t ⟨p.x + f.ref.x, p.y + f.ref.y, p.z + f.ref.z⟩, s.width, true, .mainland⟩ := by
  have hg : mapOutcome (fun g => Transform.swaths proj g f dst)
      (r.groups.map fun g => g.map fun s => { s with type := .mainland }) =
      .ok ((r.groups.map fun g => g.map fun s => { s with type := .mainland }).map fun g =>
        g.map fun s => ⟨s.id, s.path.map fun p => t (p.add f.ref), s.width, true, .mainland⟩) := by
    refine mapOutcome_map fun g hg => mapOutcome_map fun s hs => swath_ok ht ?_
    obtain ⟨g0, hg0, rfl⟩ := List.mem_map.1 hg
    obtain ⟨s0, hs0, rfl⟩ := List.mem_map.1 hs
    exact h g0 hg0 s0 hs0
  have hc : mapOutcome (fun mp => Transform.multiPoint proj mp f dst) r.connections =
      .ok (r.connections.map fun c => c.map fun p => t (p.add f.ref)) :=
    mapOutcome_map fun c _ => by rw [Transform.multiPoint, ht, Outcome.ok_bind]; rfl
  refine ⟨⟨_, _⟩, ?_, rfl, rfl⟩
  simp only [Transform.route, Route.clone, cloneGroups_ok r.groups h, Outcome.ok_bind, Outcome.pure_eq, ht, hg, hc]
  simp only [List.map_map, Function.comp_def]
  rfl

/-- C83, partial: for mainland swaths that were never reversed only the coordinates change.  Missing: other
types and directions, which are lost (`C83_route_value`). -/
theorem C83_route_partial (proj : Proj K) (f : FieldObj K) (dst : Str) (t : Point K → Point K)
    (ht : coordTransf proj f.crs dst = .ok t) (r : Route K)
    (h : ∀ g ∈ r.groups, ∀ s ∈ g, 0 < s.width ∧ s.type = .mainland ∧ s.creationDir = true) :
    ∃ r', Transform.route proj r f dst = .ok r' ∧
      r'.connections = r.connections.map (fun c => c.map fun p =>
        t ⟨p.x + f.ref.x, p.y + f.ref.y, p.z + f.ref.z⟩) ∧
      r'.groups = r.groups.map fun g => g.map fun s => { s with
        path := s.path.map fun p => t ⟨p.x + f.ref.x, p.y + f.ref.y, p.z + f.ref.z⟩ } := by
  obtain ⟨r', h1, h2, h3⟩ := C83_route_value proj f dst t ht r fun g hg s hs => (h g hg s hs).1
  refine ⟨r', h1, h2, h3.trans (List.map_congr_left fun g hg => List.map_congr_left fun s hs => ?_)⟩
  obtain ⟨-, e1, e2⟩ := h g hg s hs
  rw [← e1, ← e2]

/-- A route with one swath and one connection, in a field with reference point (5, 5). -/
example : Transform.route keep ⟨[[⟨1, 0, 0⟩, ⟨1, 1, 0⟩]], [[⟨3, [⟨0, 0, 0⟩, ⟨1, 0, 0⟩], 2, true, .mainland⟩]]⟩
    { (origin : FieldObj ℚ) with ref := ⟨5, 5, 0⟩ } Transform.wgs84 =
    .ok ⟨[[⟨6, 5, 0⟩, ⟨6, 6, 0⟩]], [[⟨3, [⟨5, 5, 0⟩, ⟨6, 5, 0⟩], 2, true, .mainland⟩]]⟩ := by
  obtain ⟨⟨c, g⟩, h1, h2, h3⟩ := C83_route_partial keep { (origin : FieldObj ℚ) with ref := ⟨5, 5, 0⟩ }
    Transform.wgs84 id keep_ok ⟨[[⟨1, 0, 0⟩, ⟨1, 1, 0⟩]], [[⟨3, [⟨0, 0, 0⟩, ⟨1, 0, 0⟩], 2, true, .mainland⟩]]⟩
    (by simp)
  simp only at h2 h3
  rw [h1, h2, h3]
  norm_num

/-- C83 is false: the swath of a route that was reversed comes back in its creation direction. -/
theorem C83_direction_lost : ∃ (r r' : Route ℚ) (s s' : Swath ℚ),
    Transform.route keep r origin Transform.wgs84 = .ok r' ∧ r.groups = [[s]] ∧ r'.groups = [[s']] ∧
    s.creationDir = false ∧ s'.creationDir = true ∧ s'.path = s.path :=
  ⟨⟨[], [[⟨1, [⟨0, 0, 0⟩, ⟨1, 0, 0⟩], 2, false, .mainland⟩]]⟩,
    ⟨[], [[⟨1, [⟨0, 0, 0⟩, ⟨1, 0, 0⟩], 2, true, .mainland⟩]]⟩,
    ⟨1, [⟨0, 0, 0⟩, ⟨1, 0, 0⟩], 2, false, .mainland⟩, ⟨1, [⟨0, 0, 0⟩, ⟨1, 0, 0⟩], 2, true, .mainland⟩,
    by decide +kernel, rfl, rfl, rfl, rfl, rfl⟩

/-! ### C70 -/

/-- C70: `inPlace` is `transform` with the state that is left behind. -/
theorem C70_in_place_refines (proj : Proj K) (f : FieldObj K) (dst : Str) :
    Transform.field proj f dst = (Transform.inPlace proj f dst).bind fun r =>
      match r.2 with
      | none => .ok r.1
      | some e => .throw e := by
  unfold Transform.field Transform.inPlace
  cases ht : coordTransf proj f.crs dst with
  | throw e => split <;> rfl
  | ub m => split <;> rfl
  | ok t =>
    split
    · rfl
    · simp only [Outcome.ok_bind]
      cases hf : Cells.firstPoint (f.absCells.map fun c => c.map fun r => r.map t) <;> rfl

/-- C70, for empty fields: if the transformation throws the field is as before. -/
theorem C70_failure_partial (proj : Proj K) (f g : FieldObj K) (dst : Str) (e : Exn) (h0 : f.cells = [])
    (h : Transform.inPlace proj f dst = .ok (g, some e)) : g = f := by
  unfold Transform.inPlace at h
  rw [if_pos (by rw [h0]; rfl)] at h
  cases ht : coordTransf proj f.crs dst with
  | throw e' =>
    rw [ht] at h
    cases h
    rfl
  | ub m =>
    rw [ht] at h
    cases h
  | ok t =>
    rw [ht] at h
    cases h

/-- C70 is false for every other field whose reference point is not the origin: if one of the two
coordinate systems is not understood, the field is left in another place. -/
theorem C70_failure_moves_field (proj : Proj K) (f : FieldObj K) (dst : Str) (e : Exn) (p : Point K)
    (hp : First f.cells p) (href : f.ref ≠ ⟨0, 0, 0⟩) (ht : coordTransf proj f.crs dst = .throw e) :
    ∃ g, Transform.inPlace proj f dst = .ok (g, some e) ∧ g.ref = f.ref ∧ g.absCells ≠ f.absCells := by
  refine ⟨{ f with cells := f.absCells }, ?_, rfl, ?_⟩
  · unfold Transform.inPlace
    rw [if_neg (by simp [hp.not_isEmpty]), ht]
  · intro h
    have h1 := FieldObj.first_absCells hp
    have h2 : First (FieldObj.absCells { f with cells := f.absCells }) ((p.add f.ref).add f.ref) :=
      FieldObj.first_absCells (f := { f with cells := f.absCells }) h1
    rw [h] at h2
    have h3 := h1.unique h2
    apply href
    have hx := congrArg Point.x h3
    have hy := congrArg Point.y h3
    have hz := congrArg Point.z h3
    simp only [Point.add] at hx hy hz
    ext
    · simpa using hx
    · simpa using hy
    · simpa using hz

example : ∃ g : FieldObj ℚ, Transform.inPlace keep
    ⟨['a'], Transform.wgs84, [], ⟨5, 52, 0⟩, [[[⟨0, 0, 0⟩, ⟨1, 0, 0⟩, ⟨1, 1, 0⟩, ⟨0, 0, 0⟩]]]⟩
    "WGS84".toList = .ok (g, some .invalidArgument) ∧
    g.absCells = [[[⟨10, 104, 0⟩, ⟨11, 104, 0⟩, ⟨11, 105, 0⟩, ⟨10, 104, 0⟩]]] :=
  ⟨⟨['a'], Transform.wgs84, [], ⟨5, 52, 0⟩, [[[⟨5, 52, 0⟩, ⟨6, 52, 0⟩, ⟨6, 53, 0⟩, ⟨5, 52, 0⟩]]]⟩,
    by decide +kernel, by decide +kernel⟩

end F2C.Props
