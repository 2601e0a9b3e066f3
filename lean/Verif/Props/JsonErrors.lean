import Verif.Lemmas.JsonErrors
import Verif.Props.Json

/-!
# C77: documents that are read, that throw and that are undefined behaviour

For each of the four imports: when it succeeds and when it is undefined behaviour, in terms of the document.
In all other cases it throws.
-/

namespace F2C.Props

open Text JsonSpec

variable {K : Type} [Field K] [LinearOrder K]

/-- C77: fields are imported exactly if every feature has a polygon of positions and a name, and no polygon has
points in other rings than the first only. -/
theorem C77_fields_ok (old : List (FieldObj K)) (doc : Json K) :
    (doc.importJson old).2.isOk = true ↔ ∃ fs, Listed doc fs ∧ ∀ j ∈ fs, ReadableField j := by
  simp only [← Json.sub_listed, ← Json.field_isOk, Json.importJson, ← mapOutcome_isOk]
  cases h : doc.sub "features".toList with
  | ok v => simp [(Json.importFields_eq old _).1]
  | throw e => simp [Outcome.isOk]
  | ub w => simp [Outcome.isOk]

example : ((jdoc (jtwo.take 1)).importJson []).2.isOk = true :=
  (C77_fields_ok [] _).2 ⟨_, .inl ⟨_, ⟨_, rfl, rfl⟩, rfl⟩, fun j hj => (Json.field_isOk j).1 (by
    obtain rfl : j = _ := List.mem_singleton.1 hj
    decide +kernel)⟩

/-- A polygon whose first ring has no points while the second one has is not read: the import throws. -/
example : ((jdoc [jfeature (.arr [.arr [], jring]) [("Name".toList, .str ['a'])]]).importJson []).2 =
    .throw .outOfRange := by decide +kernel

/-- C77: importing fields is undefined behaviour exactly if the first feature that cannot be read lacks geometry or
coordinates. -/
theorem C77_fields_ub (old : List (FieldObj K)) (doc : Json K) :
    (doc.importJson old).2.isUb = true ↔ ∃ fs, Listed doc fs ∧ FirstBad ReadableField NoCoordinates fs := by
  simp only [← Json.sub_listed, ← Json.mapOutcome_firstBad Json.field ReadableField NoCoordinates Json.field_isOk
    Json.field_isUb, Json.importJson]
  cases h : doc.sub "features".toList with
  | ok v => simp [(Json.importFields_eq old _).2]
  | throw e => simp
  | ub w => have := Json.sub_isUb doc "features".toList; rw [h] at this; cases this

example : ((jdoc (jtwo.take 1 ++ [.obj []])).importJson []).2.isUb = true :=
  (C77_fields_ub [] _).2 ⟨_, .inl ⟨_, ⟨_, rfl, rfl⟩, rfl⟩, jtwo.take 1, .obj [], [], rfl,
    fun j hj => (Json.field_isOk j).1 (by
      obtain rfl : j = _ := List.mem_singleton.1 hj
      decide +kernel), .inl ⟨_, rfl, rfl⟩⟩

/-- C77: a cell is imported exactly if the first feature of the array of features has a polygon of positions. -/
theorem C77_cell_ok (doc : Json K) :
    doc.importCell.isOk = true ↔ ∃ j fs, Features doc (j :: fs) ∧ ReadableCell j := by
  simp only [← Json.cell_isOk, Json.importCell, Outcome.bind_isOk, Features]
  constructor
  · rintro ⟨v, h1, j, h2, h3⟩
    cases v with
    | arr l =>
      cases l with
      | nil =>
        cases h2
        cases h3
      | cons x l =>
        cases h2
        rcases (Json.sub_ok _ _ _).1 h1 with h | ⟨h, -⟩
        · exact ⟨x, l, h, h3⟩
        · cases h
    | null =>
      cases h2
      cases h3
    | _ => cases h2
  · rintro ⟨j, l, h1, h2⟩
    exact ⟨_, Json.sub_has h1, j, rfl, h2⟩

example : (jdoc [jfeature (.arr [jring]) [], .null]).importCell.isOk = true :=
  (C77_cell_ok _).2 ⟨_, _, ⟨_, rfl, rfl⟩, (Json.cell_isOk _).1 (by decide +kernel)⟩

/-- C77: importing a cell is undefined behaviour exactly if the first feature lacks geometry or coordinates. -/
theorem C77_cell_ub (doc : Json K) :
    doc.importCell.isUb = true ↔ ∃ j fs, Features doc (j :: fs) ∧ NoCoordinates j := by
  simp only [← Json.cell_isUb, Json.importCell, Outcome.bind_isUb, Features, Json.sub_isUb, Json.subElem_isUb,
    Bool.false_eq_true, false_or]
  constructor
  · rintro ⟨v, h1, j, h2, h3⟩
    cases v with
    | arr l =>
      cases l with
      | nil =>
        cases h2
        cases h3
      | cons x l =>
        cases h2
        rcases (Json.sub_ok _ _ _).1 h1 with h | ⟨h, -⟩
        · exact ⟨x, l, h, h3⟩
        · cases h
    | null =>
      cases h2
      cases h3
    | _ => cases h2
  · rintro ⟨j, l, h1, h2⟩
    exact ⟨_, Json.sub_has h1, j, rfl, h2⟩

example : (jdoc [.obj [("geometry".toList, .obj [])]]).importCell.isUb = true :=
  (C77_cell_ub _).2 ⟨_, _, ⟨_, rfl, rfl⟩, .inr ⟨_, ⟨_, rfl, rfl⟩, _, rfl, rfl⟩⟩

/-- C77: strips are imported exactly if every feature has a polygon of positions and a crop. -/
theorem C77_strips_ok (doc : Json K) :
    doc.importStrips.isOk = true ↔
      ∃ fs, Listed doc fs ∧ ∀ j ∈ fs, ReadableCell j ∧ ∃ s, Named j "crop_id" s := by
  simp only [← Json.sub_listed, ← Json.strip_isOk, Json.importStrips, ← mapOutcome_isOk, Outcome.bind_isOk]
  constructor
  · rintro ⟨v, h1, h2⟩
    exact ⟨_, ⟨v, h1, rfl⟩, h2⟩
  · rintro ⟨_, ⟨v, h1, rfl⟩, h2⟩
    exact ⟨v, h1, h2⟩

example : (jdoc [jfeature (.arr [jring]) [("crop_id".toList, .str ['b'])]]).importStrips.isOk = true :=
  (C77_strips_ok _).2 ⟨_, .inl ⟨_, ⟨_, rfl, rfl⟩, rfl⟩, fun j hj => (Json.strip_isOk j).1 (by
    obtain rfl : j = _ := List.mem_singleton.1 hj
    decide +kernel)⟩

/-- C77: importing strips is undefined behaviour exactly if the first feature that cannot be read has a crop but lacks
geometry or coordinates. -/
theorem C77_strips_ub (doc : Json K) :
    doc.importStrips.isUb = true ↔ ∃ fs, Listed doc fs ∧
      FirstBad (fun j => ReadableCell j ∧ ∃ s, Named j "crop_id" s)
        (fun j => NoCoordinates j ∧ ∃ s, Named j "crop_id" s) fs := by
  simp only [← Json.sub_listed, ← Json.mapOutcome_firstBad Json.strip _ _ Json.strip_isOk Json.strip_isUb,
    Json.importStrips, Outcome.bind_isUb, Json.sub_isUb, Bool.false_eq_true, false_or]
  constructor
  · rintro ⟨v, h1, h2⟩
    exact ⟨_, ⟨v, h1, rfl⟩, h2⟩
  · rintro ⟨_, ⟨v, h1, rfl⟩, h2⟩
    exact ⟨v, h1, h2⟩

example : (jdoc [.obj [("properties".toList, .obj [("crop_id".toList, .str ['b'])])]]).importStrips.isUb = true :=
  (C77_strips_ub _).2 ⟨_, .inl ⟨_, ⟨_, rfl, rfl⟩, rfl⟩, [], _, [], rfl, by simp, .inl ⟨_, rfl, rfl⟩,
    ['b'], _, ⟨_, rfl, rfl⟩, _, rfl, rfl⟩

/-- C77: swaths are imported exactly if every feature has a positive width, a number that is an `int`, and no
coordinates or a line of positions. -/
theorem C77_swaths_ok [IsStrictOrderedRing K] [FloorRing K] (doc : Json K) :
    doc.importSwaths.isOk = true ↔ ∃ fs, Listed doc fs ∧ ∀ j ∈ fs, ReadableSwath j := by
  simp only [← Json.sub_listed, ← Json.swath_isOk, Json.importSwaths, ← mapOutcome_isOk, Outcome.bind_isOk]
  constructor
  · rintro ⟨v, h1, h2⟩
    exact ⟨_, ⟨v, h1, rfl⟩, h2⟩
  · rintro ⟨_, ⟨v, h1, rfl⟩, h2⟩
    exact ⟨v, h1, h2⟩

example : (jdoc [jfeature (.arr [jpos 1 2, jpos 3 4]) jprops]).importSwaths.isOk = true :=
  (C77_swaths_ok _).2 ⟨_, .inl ⟨_, ⟨_, rfl, rfl⟩, rfl⟩, fun j hj => (Json.swath_isOk j).1 (by
    obtain rfl : j = _ := List.mem_singleton.1 hj
    decide +kernel)⟩

/-- C77: importing swaths is undefined behaviour exactly if the first feature that cannot be read has a number with a
fraction that is no `int`. -/
theorem C77_swaths_ub [IsStrictOrderedRing K] [FloorRing K] (doc : Json K) :
    doc.importSwaths.isUb = true ↔ ∃ fs, Listed doc fs ∧ FirstBad ReadableSwath HugeId fs := by
  simp only [← Json.sub_listed, ← Json.mapOutcome_firstBad Json.swath _ _ Json.swath_isOk Json.swath_isUb,
    Json.importSwaths, Outcome.bind_isUb, Json.sub_isUb, Bool.false_eq_true, false_or]
  constructor
  · rintro ⟨v, h1, h2⟩
    exact ⟨_, ⟨v, h1, rfl⟩, h2⟩
  · rintro ⟨_, ⟨v, h1, rfl⟩, h2⟩
    exact ⟨v, h1, h2⟩

/-- A swath whose number is 1e10. -/
def jhuge : Json ℚ := jfeature (.arr [jpos 1 2, jpos 3 4])
  [("width".toList, .int 3), ("path_id".toList, .real (10 ^ 10))]

example : (jdoc [jhuge]).importSwaths.isUb = true :=
  (C77_swaths_ub _).2 ⟨_, .inl ⟨_, ⟨_, rfl, rfl⟩, rfl⟩, [], jhuge, [], rfl, by simp,
    (Json.swath_isUb _).1 (by decide +kernel)⟩

end F2C.Props
