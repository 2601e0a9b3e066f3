import Mathlib.Data.Rat.Floor
import Verif.Lemmas.Json
import Verif.Props.FieldObj

/-!
# C75 – C77: import of GeoJSON files

* C75: fields, cells and strips are imported exactly
* C76: swaths are imported exactly
* C77: malformed documents are reported
-/

namespace F2C.Props

open Text FieldSpec JsonSpec

variable {K : Type} [Field K] [LinearOrder K]

private theorem closed_map {c : Cell K} (h : ∀ r ∈ c, Closed r) : c.map closeRing = c := by
  conv_rhs => rw [← List.map_id c]
  exact List.map_congr_left fun r hr => closeRing_eq (h r hr).2

/-! ### C75 -/

/-- C75, fields: polygons whose rings are closed and not empty and whose positions have two or three
numbers.  One field per feature is appended, in the order of the document, with the name as id and
the coordinates as absolute position.  Missing: other positions (`C75_four_numbers`) and multi polygons
(`C75_multi_polygon`). -/
theorem C75_fields_partial (old : List (FieldObj K)) (doc : Json K) (fs : List (Json K))
    (xs : List (Str × Cell K)) (hd : Features doc fs)
    (hf : List.Forall₂ (fun j x => PolygonFeature j x.2 ∧ Named j "Name" x.1) fs xs)
    (hw : ∀ x ∈ xs, WellFormed [x.2]) :
    ∃ new, doc.importJson old = (old ++ new, .ok 0) ∧
      List.Forall₂ (fun f x => f.id = x.1 ∧ f.absCells = [x.2]) new xs := by
  rw [Json.importJson, Json.sub_has hd]
  show ∃ new, Json.importFields old fs = _ ∧ _
  clear hd
  induction hf generalizing old with
  | nil => exact ⟨[], by simp [Json.importFields], .nil⟩
  | @cons j x fs xs h1 _ ih =>
    obtain ⟨hp, p, hq, hn⟩ := h1
    obtain ⟨f, hm, hid, habs, -⟩ :=
      C51_absolute_position_partial [x.2] (hw x (by simp)) x.1
    have hc := closed_map ((hw x (by simp)) x.2 (by simp)).2
    have hj : j.field = .ok f := by
      rw [Json.field, Json.cell_feature hp, Outcome.ok_bind, Json.sub_has hq, Outcome.ok_bind,
        Json.sub_has hn, Outcome.ok_bind, hc]
      exact hm
    obtain ⟨new, e, h2⟩ := ih (old ++ [f]) (fun y hy => hw y (by simp [hy]))
    refine ⟨f :: new, ?_, .cons ⟨hid, habs⟩ h2⟩
    rw [Json.importFields, hj]
    simp only [e, List.append_assoc, List.singleton_append]

/-- C75, a single cell: the first feature is read. -/
theorem C75_cell_partial (doc j : Json K) (fs : List (Json K)) (c : Cell K)
    (hd : Features doc (j :: fs)) (hp : PolygonFeature j c) (hc : ∀ r ∈ c, Closed r) :
    doc.importCell = .ok c := by
  rw [Json.importCell, Json.sub_has hd]
  simp only [Outcome.ok_bind, Json.subElem, List.getElem?_cons_zero, Option.getD_some,
    Json.cell_feature hp, closed_map hc]

/-- C75, strips: name and cell of each feature, in order. -/
theorem C75_strips_partial (doc : Json K) (fs : List (Json K)) (xs : List (Json.StripObj K))
    (hd : Features doc fs)
    (hf : List.Forall₂ (fun j x => PolygonFeature j x.cell ∧ Named j "crop_id" x.name ∧
      ∀ r ∈ x.cell, Closed r) fs xs) : doc.importStrips = .ok xs := by
  rw [Json.importStrips, Json.sub_has hd, Outcome.ok_bind]
  refine mapOutcome_forall ?_ hf
  rintro j x ⟨hp, ⟨p, hq, hn⟩, hc⟩
  rw [Json.strip, Json.sub_has hq, Outcome.ok_bind, Json.sub_has hn, Outcome.ok_bind]
  simp only [Json.toStr, Outcome.ok_bind, Json.cell_feature hp, closed_map hc]
  rfl

/-! Documents for the examples. -/

/-- A position. -/
def jpos (x y : Int) : Json ℚ := .arr [.int x, .int y]

/-- A feature with the given coordinates and properties. -/
def jfeature (coords : Json ℚ) (props : List (Str × Json ℚ)) : Json ℚ :=
  .obj [("geometry".toList, .obj [("coordinates".toList, coords)]), ("properties".toList, .obj props)]

/-- A document with the given features. -/
def jdoc (fs : List (Json ℚ)) : Json ℚ := .obj [("features".toList, .arr fs)]

/-- A triangle as ring. -/
def jring : Json ℚ := .arr [jpos 5 5, jpos 6 5, jpos 6 6, jpos 5 5]

/-- The same as list of points. -/
def jtri : List (Point ℚ) := [⟨5, 5, 0⟩, ⟨6, 5, 0⟩, ⟨6, 6, 0⟩, ⟨5, 5, 0⟩]

theorem jpos_is (x y : Int) : IsPosition (jpos x y) ⟨x, y, 0⟩ :=
  .inl ⟨_, _, rfl, .inl ⟨x, rfl, rfl⟩, .inl ⟨y, rfl, rfl⟩, rfl⟩

theorem jring_is : IsLine jring jtri :=
  ⟨_, rfl, .cons (jpos_is 5 5) (.cons (jpos_is 6 5) (.cons (jpos_is 6 6) (.cons (jpos_is 5 5) .nil)))⟩

theorem jtri_closed : Closed jtri := ⟨by simp [jtri], by simp [jtri]⟩

theorem jfeature_is (ps : List (Str × Json ℚ)) : PolygonFeature (jfeature (.arr [jring]) ps) [jtri] :=
  ⟨_, _, ⟨_, rfl, rfl⟩, ⟨_, rfl, rfl⟩, _, rfl, .cons jring_is .nil⟩

example : ∃ new, (jdoc [jfeature (.arr [jring]) [("Name".toList, .str ['a'])]]).importJson [] =
    ([] ++ new, .ok 0) ∧
      List.Forall₂ (fun f x => f.id = x.1 ∧ f.absCells = [x.2]) new [(['a'], [jtri])] := by
  refine C75_fields_partial [] _ _ [(['a'], [jtri])] ⟨_, rfl, rfl⟩
    (.cons ⟨jfeature_is _, _, ⟨_, rfl, rfl⟩, _, rfl, rfl⟩ .nil) ?_
  rintro x hx
  rw [List.mem_singleton.1 hx]
  rintro c hc
  rw [List.mem_singleton.1 hc]
  refine ⟨by simp, fun r hr => ?_⟩
  rw [List.mem_singleton.1 hr]
  exact jtri_closed

example : (jdoc [jfeature (.arr [jring]) []]).importCell = .ok [jtri] :=
  C75_cell_partial _ _ [] _ ⟨_, rfl, rfl⟩ (jfeature_is _) fun r hr => by
    rw [List.mem_singleton.1 hr]; exact jtri_closed

example : (jdoc [jfeature (.arr [jring]) [("crop_id".toList, .str ['b'])]]).importStrips =
    .ok [⟨['b'], [jtri]⟩] :=
  C75_strips_partial _ _ _ ⟨_, rfl, rfl⟩ (.cons ⟨jfeature_is _, ⟨_, ⟨_, rfl, rfl⟩, _, rfl, rfl⟩,
    fun r hr => by rw [List.mem_singleton.1 hr]; exact jtri_closed⟩ .nil)

/-- C75 is false for positions with a fourth number (RFC 7946 allows more than three): the point becomes
the origin. -/
theorem C75_four_numbers (a b c d : Json K) : (Json.arr [a, b, c, d]).point = .ok ⟨0, 0, 0⟩ := rfl

/-- C75 is false for multi polygons: each ring of four or more positions is taken for one point, the
origin. -/
theorem C75_multi_polygon :
    (jdoc [jfeature (.arr [.arr [jring], .arr [jring]]) []]).importCell =
      .ok [[⟨0, 0, 0⟩], [⟨0, 0, 0⟩]] := by decide +kernel

/-! ### C76 -/

/-- C76, for positions with two or three numbers, positive widths and numbers that are ints: one swath per
feature, in order, with the line, width and number of the feature. -/
theorem C76_swaths_partial [FloorRing K] (doc : Json K) (fs : List (Json K)) (xs : Swaths K)
    (hd : Features doc fs)
    (hf : List.Forall₂ (fun j (s : Swath K) => SwathFeature j s.path s.width s.id ∧ 0 < s.width ∧
      -2 ^ 31 ≤ s.id ∧ s.id < 2 ^ 31 ∧ s.creationDir = true ∧ s.type = .mainland) fs xs) :
    doc.importSwaths = .ok xs := by
  rw [Json.importSwaths, Json.sub_has hd, Outcome.ok_bind]
  refine mapOutcome_forall ?_ hf
  rintro j ⟨i, ps, w, d, t⟩ ⟨⟨g, k, p, a, h1, h2, h3, h4, h5, h6, h7⟩, hw, hi1, hi2, hdir, ht⟩
  simp only at h3 h6 h7 hw hi1 hi2 hdir ht
  subst hdir ht
  rw [Json.swath, Json.sub_has h1, Outcome.ok_bind, Json.sub_has h2, Outcome.ok_bind,
    Json.points_line h3, Outcome.ok_bind, Json.sub_has h4, Outcome.ok_bind, Json.sub_has h5,
    Outcome.ok_bind, Json.toDouble_number h6, Outcome.ok_bind, Json.sub_has h7, Outcome.ok_bind]
  have hb : i.bmod (2 ^ 32) = i := by
    rw [Int.bmod_eq_of_le_mul_two] <;> norm_num <;> omega
  simp only [Json.toInt, hb, Outcome.ok_bind, Swath.make, Swath.setWidth, if_neg (not_le.2 hw),
    Swath.default]

/-- Properties of a swath. -/
def jprops : List (Str × Json ℚ) := [("width".toList, .int 3), ("path_id".toList, .int 7)]

example : (jdoc [jfeature (.arr [jpos 1 2, jpos 3 4]) jprops]).importSwaths =
    .ok [⟨7, [⟨1, 2, 0⟩, ⟨3, 4, 0⟩], 3, true, .mainland⟩] :=
  C76_swaths_partial _ _ _ ⟨_, rfl, rfl⟩ (.cons ⟨⟨_, _, _, _, ⟨_, rfl, rfl⟩, ⟨_, rfl, rfl⟩,
    ⟨_, rfl, .cons (jpos_is 1 2) (.cons (jpos_is 3 4) .nil)⟩, ⟨_, rfl, rfl⟩, ⟨_, rfl, rfl⟩,
    .inl ⟨3, rfl, by norm_num⟩, _, rfl, rfl⟩, by norm_num, by norm_num, by norm_num, rfl, rfl⟩ .nil)

/-- C76 is false for numbers beyond 32 bits: they wrap around, 2^32 + 7 becomes 7. -/
theorem C76_large_id :
    (jdoc [jfeature (.arr [jpos 1 2, jpos 3 4])
      [("width".toList, .int 3), ("path_id".toList, .int 4294967303)]]).importSwaths =
      .ok [⟨7, [⟨1, 2, 0⟩, ⟨3, 4, 0⟩], 3, true, .mainland⟩] := by decide +kernel

/-- C76: numbers with a fraction lose it, also the negative ones. -/
theorem C76_fraction_partial [IsStrictOrderedRing K] [FloorRing K] (doc : Json K) (fs : List (Json K)) (xs : Swaths K)
    (hd : Features doc fs)
    (hf : List.Forall₂ (fun j (s : Swath K) => (∃ x, FractionFeature j s.path s.width x ∧ CutOff s.id x) ∧
      0 < s.width ∧ -2 ^ 31 ≤ s.id ∧ s.id < 2 ^ 31 ∧ s.creationDir = true ∧ s.type = .mainland) fs xs) :
    doc.importSwaths = .ok xs := by
  rw [Json.importSwaths, Json.sub_has hd, Outcome.ok_bind]
  refine mapOutcome_forall ?_ hf
  rintro j ⟨i, ps, w, d, t⟩ ⟨⟨x, ⟨g, k, p, a, h1, h2, h3, h4, h5, h6, h7⟩, hp, hn⟩, hw, hi1, hi2, hdir, ht⟩
  simp only at h3 h6 h7 hp hn hw hi1 hi2 hdir ht
  subst hdir ht
  rw [Json.swath, Json.sub_has h1, Outcome.ok_bind, Json.sub_has h2, Outcome.ok_bind,
    Json.points_line h3, Outcome.ok_bind, Json.sub_has h4, Outcome.ok_bind, Json.sub_has h5,
    Outcome.ok_bind, Json.toDouble_number h6, Outcome.ok_bind, Json.sub_has h7, Outcome.ok_bind]
  have hb : (if 0 ≤ x then ⌊x⌋ else ⌈x⌉) = i := by
    split
    · next h => exact Int.floor_eq_iff.2 (hp h).2
    · next h => exact Int.ceil_eq_iff.2 ⟨(hn (not_le.1 h)).2.2, (hn (not_le.1 h)).2.1⟩
  simp only [Json.toInt, hb, if_pos (And.intro hi1 hi2), Outcome.ok_bind, Swath.make, Swath.setWidth,
    if_neg (not_le.2 hw), Swath.default]

example : (jdoc [jfeature (.arr [jpos 1 2, jpos 3 4])
      [("width".toList, .int 3), ("path_id".toList, .real (-3 / 2))]]).importSwaths =
    .ok [⟨-1, [⟨1, 2, 0⟩, ⟨3, 4, 0⟩], 3, true, .mainland⟩] :=
  C76_fraction_partial _ _ _ ⟨_, rfl, rfl⟩ (.cons ⟨⟨-3 / 2, ⟨_, _, _, _, ⟨_, rfl, rfl⟩, ⟨_, rfl, rfl⟩,
    ⟨_, rfl, .cons (jpos_is 1 2) (.cons (jpos_is 3 4) .nil)⟩, ⟨_, rfl, rfl⟩, ⟨_, rfl, rfl⟩,
    .inl ⟨3, rfl, by norm_num⟩, _, rfl, rfl⟩, by norm_num [CutOff]⟩, by norm_num, by norm_num, by norm_num,
    rfl, rfl⟩ .nil)

/-! ### C77 -/

/-- C77: features given as object are accepted and read like an array of the values. -/
theorem C77_object_features [FloorRing K] (old : List (FieldObj K)) (doc doc' : Json K)
    (l : List (Str × Json K)) (h : Has doc "features" (.obj l)) (h' : Features doc' (l.map Prod.snd)) :
    doc.importJson old = doc'.importJson old ∧ doc.importSwaths = doc'.importSwaths := by
  rw [Json.importJson, Json.importJson, Json.importSwaths, Json.importSwaths, Json.sub_has h, Json.sub_has h']
  exact ⟨rfl, rfl⟩

example : (Json.obj [("features".toList, .obj [("first".toList,
      jfeature (.arr [jpos 1 2, jpos 3 4]) jprops)])] : Json ℚ).importSwaths =
    .ok [⟨7, [⟨1, 2, 0⟩, ⟨3, 4, 0⟩], 3, true, .mainland⟩] :=
  (C77_object_features [] _ (jdoc [jfeature (.arr [jpos 1 2, jpos 3 4]) jprops]) _ ⟨_, rfl, rfl⟩
    ⟨_, rfl, rfl⟩).2.trans (by decide +kernel)

/-- C77: documents without features (or that are null) are accepted as empty. -/
theorem C77_no_features (old : List (FieldObj K)) (l : List (Str × Json K))
    (h : l.lookup "features".toList = none) : (Json.obj l).importJson old = (old, .ok 0) := by
  simp only [Json.importJson, Json.sub, h, Option.getD_none, Json.iter, Json.importFields]

example : (Json.obj [] : Json ℚ).importJson [] = ([], .ok 0) := C77_no_features [] [] rfl

/-- C77: when a feature fails, the fields of the features before it stay in the list. -/
theorem C77_keeps_earlier (old : List (FieldObj K)) (doc : Json K) (fs : List (Json K))
    (hd : Features doc fs) :
    ∃ n new, n ≤ fs.length ∧ (doc.importJson old).1 = old ++ new ∧
      List.Forall₂ (fun j f => j.field = .ok f) (fs.take n) new ∧
      ((doc.importJson old).2.isOk = true ↔ n = fs.length) := by
  rw [Json.importJson, Json.sub_has hd]
  show ∃ n new, _ ∧ (Json.importFields old fs).1 = _ ∧ _ ∧ ((Json.importFields old fs).2.isOk = true ↔ _)
  clear hd
  induction fs generalizing old with
  | nil => exact ⟨0, [], by simp, by simp [Json.importFields], .nil, by simp [Json.importFields]⟩
  | cons j fs ih =>
    rw [Json.importFields]
    cases hj : j.field with
    | ok f =>
      obtain ⟨n, new, h1, h2, h3, h4⟩ := ih (old ++ [f])
      exact ⟨n + 1, f :: new, by simpa using h1, by simpa using h2, .cons hj h3, by simpa using h4⟩
    | throw e => exact ⟨0, [], by simp, by simp, .nil, by simp [Outcome.isOk]⟩
    | ub w => exact ⟨0, [], by simp, by simp, .nil, by simp [Outcome.isOk]⟩

/-- A document with a good feature and one whose name is a number. -/
def jtwo : List (Json ℚ) := [jfeature (.arr [jring]) [("Name".toList, .str ['a'])],
  jfeature (.arr [jring]) [("Name".toList, .int 1)]]

example : ((jdoc jtwo).importJson []).2 = .throw .runtimeError ∧
    ((jdoc jtwo).importJson []).1.map (·.absCells) = [[[jtri]]] ∧
    ∃ n new, n ≤ jtwo.length ∧ ((jdoc jtwo).importJson []).1 = [] ++ new ∧
      List.Forall₂ (fun j f => j.field = .ok f) (jtwo.take n) new ∧
      (((jdoc jtwo).importJson []).2.isOk = true ↔ n = jtwo.length) :=
  ⟨by decide +kernel, by decide +kernel, C77_keeps_earlier [] _ _ ⟨_, rfl, rfl⟩⟩

/-- C77 is false: a feature without geometry is undefined behaviour when fields are imported (the access
is through a constant reference) ... -/
theorem C77_missing_geometry_ub (old : List (FieldObj K)) (l : List (Str × Json K)) (fs : List (Json K))
    (doc : Json K) (hd : Features doc (.obj l :: fs)) (h : l.lookup "geometry".toList = none) :
    (doc.importJson old).2.isUb = true ∧ doc.importCell.isUb = true := by
  constructor
  · rw [Json.importJson, Json.sub_has hd]
    simp only [Json.iter, Json.importFields, Json.field, Json.cell, Json.at', h, Outcome.ub_bind,
      Outcome.isUb_ub]
  · rw [Json.importCell, Json.sub_has hd]
    simp only [Outcome.ok_bind, Json.subElem, List.getElem?_cons_zero, Option.getD_some, Json.cell,
      Json.at', h, Outcome.ub_bind, Outcome.isUb_ub]

example : ((jdoc [.obj []]).importJson []).2.isUb = true :=
  (C77_missing_geometry_ub [] [] [] _ ⟨_, rfl, rfl⟩ rfl).1

/-- ... and accepted as swath without points when swaths are imported. -/
theorem C77_missing_geometry_accepted :
    (jdoc [.obj [("properties".toList, .obj jprops)]]).importSwaths =
      .ok [⟨7, [], 3, true, .mainland⟩] := by decide +kernel

end F2C.Props
