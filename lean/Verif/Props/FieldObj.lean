import Mathlib.Algebra.Order.Floor.Ring
import Mathlib.Data.Rat.Floor
import Verif.Lemmas.FieldObj

/-!
# C51 – C55: fields and coordinate systems

* C51: a field keeps absolute coordinates
* C52: cloning a field
* C53: EPSG codes round trip
* C54: UTM zone and hemisphere
* C55: transforming to UTM and back
-/

namespace F2C.Props

open Text FieldSpec

variable {K : Type} [Field K] [LinearOrder K]

/-- A square with its first corner at (`x`, `y`). -/
private def square (x y : ℚ) : List (Point ℚ) :=
  [⟨x, y, 0⟩, ⟨x + 1, y, 0⟩, ⟨x + 1, y + 1, 0⟩, ⟨x, y + 1, 0⟩, ⟨x, y, 0⟩]

private theorem square_wellFormed (x y : ℚ) : WellFormed [[square x y]] := by
  intro c hc
  rw [List.mem_singleton.1 hc]
  refine ⟨by simp, fun r hr => ?_⟩
  rw [List.mem_singleton.1 hr]
  exact ⟨by simp [square], by simp [square]⟩

/-! ### C51 -/

/-- C51, for cells all of whose rings are closed and not empty: the constructor succeeds, the first point
of the first border becomes the reference point, all points are stored relative to it, and the absolute
position is what was given. -/
theorem C51_absolute_position_partial (cs : Cells K) (h : WellFormed cs) (id : Str) :
    ∃ f, FieldObj.make cs id = .ok f ∧ f.id = id ∧ f.absCells = cs ∧
      ∀ p, First cs p → f.ref = p ∧ First f.cells ⟨0, 0, 0⟩ ∧
        f.cells = onPoints (fun q => ⟨q.x - p.x, q.y - p.y, q.z - p.z⟩) cs := by
  by_cases hne : cs = []
  · subst hne
    refine ⟨_, FieldObj.make_empty rfl id, rfl, rfl, ?_⟩
    rintro p ⟨_, _, _, h⟩
    simp at h
  · obtain ⟨p, hp⟩ := h.first hne
    refine ⟨_, FieldObj.make_first hp id, rfl, FieldObj.absCells_of_shift h.normal rfl rfl, ?_⟩
    intro q hq
    obtain rfl := hp.unique hq
    refine ⟨rfl, ?_, mapCells_eq h.normal _⟩
    have := hp.mapCells fun q => q.sub p
    rwa [Point.sub_self'] at this

example : ∃ f, FieldObj.make [[square 500000 5800000]] ['a'] = .ok f ∧ f.ref = ⟨500000, 5800000, 0⟩ ∧
    f.absCells = [[square 500000 5800000]] ∧ f.cells = [[square 0 0]] := by
  obtain ⟨f, h1, -, h2, h3⟩ :=
    C51_absolute_position_partial [[square 500000 5800000]] (square_wellFormed _ _) ['a']
  obtain ⟨h4, -, h5⟩ := h3 ⟨500000, 5800000, 0⟩ ⟨_, _, _, rfl⟩
  exact ⟨f, h1, h4, h2, h5.trans (by simp only [onPoints, square, List.map_cons, List.map_nil]; norm_num)⟩

/-- C51 is false for open rings: they come back closed, with one more point. -/
theorem C51_open_rings_are_closed : ∃ f : FieldObj ℚ,
    FieldObj.make [[[⟨1, 1, 0⟩, ⟨2, 1, 0⟩, ⟨2, 2, 0⟩]]] [] = .ok f ∧
      f.absCells = [[[⟨1, 1, 0⟩, ⟨2, 1, 0⟩, ⟨2, 2, 0⟩, ⟨1, 1, 0⟩]]] :=
  ⟨⟨[], [], [], ⟨1, 1, 0⟩, [[[⟨0, 0, 0⟩, ⟨1, 0, 0⟩, ⟨1, 1, 0⟩, ⟨0, 0, 0⟩]]]⟩,
    by decide +kernel, by decide +kernel⟩

/-- C51 is false if the first cell has no border although another one has: the constructor dereferences a
null pointer. -/
theorem C51_first_cell_without_border (x y : ℚ) (id : Str) :
    (FieldObj.make [[], [square x y]] id).isUb = true := by
  rw [FieldObj.make, if_neg (by simp [Cells.isEmpty, cellsOps, square])]
  rfl

/-- If the first border is an empty ring the constructor throws. -/
theorem C51_first_border_empty (x y : ℚ) (id : Str) :
    FieldObj.make [[[]], [square x y]] id = .throw .outOfRange := by
  rw [FieldObj.make, if_neg (by simp [Cells.isEmpty, cellsOps, square])]
  rfl

/-! ### C52 -/

/-- C52, what a clone keeps, for every field (whatever setters were used) for which `clone` succeeds:
the id, the coordinate system and the absolute position.  It has no previous coordinate system, and its
reference point is the first point of the absolute position, or the origin if there is none. -/
theorem C52_clone_partial (f g : FieldObj K) (h : f.clone = .ok g) :
    g.id = f.id ∧ g.crs = f.crs ∧ g.absCells = f.absCells ∧ g.prevCrs = [] ∧
      (∀ p, First f.cells p → g.ref = ⟨p.x + f.ref.x, p.y + f.ref.y, p.z + f.ref.z⟩) ∧
      (f.cells = [] → g.ref = ⟨0, 0, 0⟩) := by
  obtain ⟨h1, h2, h3, h4, h5, h6⟩ := FieldObj.clone_ok h
  refine ⟨h1, h2, h4, h3, fun p hp => ?_, fun e => h5 (by rw [e]; rfl)⟩
  exact (h6 hp.not_isEmpty).unique (FieldObj.first_absCells hp)

/-- C52: cloning succeeds for cells with closed, non-empty rings. -/
theorem C52_clone_succeeds (f : FieldObj K) (h : WellFormed f.cells) : ∃ g, f.clone = .ok g := by
  unfold FieldObj.clone
  by_cases hne : f.cells = []
  · have : Cells.isEmpty f.absCells = true := by
      rw [FieldObj.isEmpty_absCells, hne]
      rfl
    rw [FieldObj.make_empty this]
    exact ⟨_, rfl⟩
  · obtain ⟨p, hp⟩ := h.first hne
    rw [FieldObj.make_first (FieldObj.first_absCells hp)]
    exact ⟨_, rfl⟩

/-- C52: a field that comes out of the constructor (from well-formed cells that are not empty), with any
coordinate system set afterwards, is the same as its clone. -/
theorem C52_clone_of_constructed (cs : Cells K) (h : WellFormed cs) (hne : cs ≠ []) (id crs : Str)
    (f : FieldObj K) (hf : FieldObj.make cs id = .ok f) :
    (f.step (.setCRS crs)).clone = .ok (f.step (.setCRS crs)) := by
  obtain ⟨p, hp⟩ := h.first hne
  rw [FieldObj.make_first hp] at hf
  cases hf
  have ha : FieldObj.absCells (⟨id, crs, [], p, mapCells (fun q => q.sub p) cs⟩ : FieldObj K) = cs :=
    FieldObj.absCells_of_shift h.normal rfl rfl
  show FieldObj.clone ⟨id, crs, [], p, mapCells (fun q => q.sub p) cs⟩ = _
  unfold FieldObj.clone
  rw [ha, FieldObj.make_first hp]
  rfl

example : ∃ f, FieldObj.make [[square 5 52]] ['a'] = .ok f ∧
    (f.step (.setCRS Transform.wgs84)).clone = .ok (f.step (.setCRS Transform.wgs84)) := by
  obtain ⟨f, hf, -⟩ := C51_absolute_position_partial [[square 5 52]] (square_wellFormed _ _) ['a']
  exact ⟨f, hf, C52_clone_of_constructed _ (square_wellFormed _ _) (by simp) _ _ f hf⟩

/-- C52 is false: the previous coordinate system is lost, so that transforming the clone back throws. -/
theorem C52_clone_loses_prevCRS : ∃ f g : FieldObj ℚ, f.clone = .ok g ∧ f.prevCrs ≠ [] ∧ g.prevCrs = [] ∧
    ∀ proj, Transform.toPrevCRS proj g = .throw .invalidArgument :=
  ⟨⟨['a'], Transform.etrs89, Transform.wgs84, ⟨5, 52, 0⟩, [[square 0 0]]⟩,
    ⟨['a'], Transform.etrs89, [], ⟨5, 52, 0⟩, [[square 0 0]]⟩, by decide +kernel, by decide, rfl,
    fun _ => rfl⟩

/-- C52 is false: a reference point set by hand is replaced by the first point. -/
theorem C52_clone_changes_ref : ∃ f g : FieldObj ℚ, f.clone = .ok g ∧ g.ref ≠ f.ref ∧ g.cells ≠ f.cells ∧
    g.absCells = f.absCells :=
  ⟨⟨['a'], [], [], ⟨5, 52, 0⟩, [[square 1 1]]⟩, ⟨['a'], [], [], ⟨6, 53, 0⟩, [[square 0 0]]⟩,
    by decide +kernel, by decide +kernel, by decide +kernel, by decide +kernel⟩

/-- C52 is false: an empty field loses its reference point. -/
theorem C52_clone_empty_loses_ref : ∃ f g : FieldObj ℚ, f.clone = .ok g ∧ f.ref = ⟨5, 52, 0⟩ ∧
    g.ref = ⟨0, 0, 0⟩ :=
  ⟨⟨['a'], [], [], ⟨5, 52, 0⟩, []⟩, ⟨['a'], [], [], ⟨0, 0, 0⟩, []⟩, by decide +kernel, rfl, rfl⟩

/-! ### C53 -/

/-- C53: the code that was set is read back, for every `int`. -/
theorem C53_epsg_round_trip (f : FieldObj K) (n : Int) (h1 : -2147483648 ≤ n) (h2 : n ≤ 2147483647) :
    Crs.isEPSG (f.step (.setEPSG n)).crs = true ∧ Crs.epsg (f.step (.setEPSG n)).crs = .ok n := by
  have hc : Crs.isEPSG (Crs.ofEPSG n) = true := contains_iff.2 ⟨[], intStr n, rfl⟩
  refine ⟨hc, ?_⟩
  show Crs.epsg (Crs.ofEPSG n) = _
  rw [Crs.epsg, if_pos hc, substrFrom, if_neg (by simp [Crs.ofEPSG])]
  rw [Outcome.ok_bind, show (Crs.ofEPSG n).drop 5 = intStr n from rfl]
  exact stoi_intStr h1 h2

example : Crs.ofEPSG 4326 = "EPSG:4326".toList ∧ Crs.epsg "EPSG:4326".toList = .ok 4326 := by
  decide +kernel

/-- C53: -1 for every string in which `EPSG:` does not occur. -/
theorem C53_epsg_other_partial (s : Str) (h : ¬ ∃ a b, s = a ++ "EPSG:".toList ++ b) :
    Crs.epsg s = .ok (-1) := by
  rw [Crs.epsg, if_neg]
  rwa [Crs.isEPSG, contains_iff]

example : Crs.epsg "UTM:31N datum:WGS84".toList = .ok (-1) := by decide +kernel

omit [Field K] [LinearOrder K] in
/-- C53: white space between `EPSG:` and the number and everything after the number are ignored. -/
theorem C53_epsg_spaces (ws rest : Str) (n : Nat)
    (hws : ∀ c ∈ ws, c = ' ' ∨ c = '\t' ∨ c = '\n' ∨ c = '\x0b' ∨ c = '\x0c' ∨ c = '\r')
    (hrest : ∀ c, rest.head? = some c → c.isDigit = false) (hn : n ≤ 2147483647) :
    Crs.epsg ("EPSG:".toList ++ ws ++ natStr n ++ rest) = .ok n := by
  obtain ⟨a1, a2, a3⟩ := natStr_spec n
  obtain ⟨c, r, e⟩ := List.exists_cons_of_ne_nil a1
  have hc : c.isDigit = true := a2 c (by simp [e])
  have hspace : ∀ c ∈ ws, isSpace c = true := by
    intro c hc
    rcases hws c hc with h | h | h | h | h | h <;> rw [h] <;> decide
  have e2 : (ws ++ (natStr n ++ rest)).dropWhile isSpace = natStr n ++ rest := by
    clear hws
    induction ws with
    | nil =>
      rw [e]
      simp [digit_not_space hc]
    | cons w ws ih =>
      rw [List.cons_append, List.dropWhile_cons_of_pos (hspace w (by simp))]
      exact ih fun c hc => hspace c (List.mem_cons_of_mem _ hc)
  have hE : Crs.isEPSG ("EPSG:".toList ++ ws ++ natStr n ++ rest) = true :=
    contains_iff.2 ⟨[], ws ++ natStr n ++ rest, by simp⟩
  rw [Crs.epsg, if_pos hE, substrFrom, if_neg (by simp), Outcome.ok_bind,
    show ("EPSG:".toList ++ ws ++ natStr n ++ rest).drop 5 = ws ++ (natStr n ++ rest) by simp]
  refine stoi_eq (neg := false) (r := natStr n ++ rest) (ds := natStr n) ?_
    (takeWhile_digits a2 rest hrest).1 a1 (by simp [a3]) (by omega) (by exact_mod_cast hn)
  rw [e2, e]
  exact sign_digit _ hc

example : Crs.epsg ("EPSG:".toList ++ ['\t', ' '] ++ natStr 4326 ++ "+5773".toList) = .ok (4326 : Nat) :=
  C53_epsg_spaces _ _ _ (by simp) (by simp) (by norm_num)

/-- C53 is false for other strings: something like a URN is taken for an EPSG system, and the fixed
offset makes the conversion throw. -/
theorem C53_epsg_throws : Crs.epsg "urn:ogc:def:crs:EPSG::4326".toList = .throw .invalidArgument ∧
    Crs.epsg "EPSG:".toList = .throw .invalidArgument ∧
    Crs.epsg "EPSG:99999999999".toList = .throw .outOfRange := by
  decide +kernel

/-- ... or gives a wrong number. -/
theorem C53_epsg_wrong : Crs.epsg "http/1/EPSG:4326".toList = .ok 1 := by decide +kernel

/-- C53: reading the code is never undefined. -/
theorem C53_epsg_defined (s : Str) : (Crs.epsg s).isUb = false := by
  rw [Crs.epsg]
  split
  · unfold substrFrom
    split
    · rfl
    · rw [Outcome.ok_bind]
      exact stoi_notUb _
  · rfl

/-! ### C54 -/

section
variable [IsStrictOrderedRing K] [FloorRing K]

/-- The zone number for a longitude. -/
private theorem zone_spec {x : K} (h1 : -180 ≤ x) :
    ∃ z : Nat, Transform.zone x = .ok z ∧ 1 ≤ z ∧ 6 * ((z : K) - 1) ≤ x + 180 ∧ x + 180 < 6 * z := by
  have h0 : 0 ≤ ⌊(x + 180) / 6⌋ := Int.floor_nonneg.2 (by
    apply div_nonneg <;> linarith)
  have h3 := Int.floor_le ((x + 180) / 6)
  have h4 := Int.lt_floor_add_one ((x + 180) / 6)
  obtain ⟨n, hn⟩ := Int.eq_ofNat_of_zero_le h0
  refine ⟨n + 1, ?_, by omega, ?_, ?_⟩
  · simp only [Transform.zone, hn]
    rw [if_neg (by omega)]
    congr 1
  · rw [hn, Int.cast_natCast] at h3
    have := (le_div_iff₀ (by norm_num : (0 : K) < 6)).1 h3
    push_cast
    linarith
  · rw [hn, Int.cast_natCast] at h4
    have := (div_lt_iff₀ (by norm_num : (0 : K) < 6)).1 h4
    push_cast
    linarith

/-- What `transformToUTM` calls the new system. -/
private theorem toUTM_name {proj : Proj K} {f h : FieldObj K} {opt : Bool}
    (hcrs : f.crs = Transform.wgs84 ∨ f.crs = Transform.etrs89)
    (hu : Transform.toUTM proj f opt = .ok h) {z : Nat} (hz : Transform.zone f.ref.x = .ok z) :
    h.crs = Transform.utmName z (f.ref.y > 0) (f.crs = Transform.etrs89) := by
  have hne : f.crs ≠ [] := by
    rcases hcrs with h | h <;> rw [h] <;> decide
  unfold Transform.toUTM at hu
  rw [if_neg (by rcases hcrs with h | h <;> simp [h]), if_neg hne, Outcome.ok_bind] at hu
  simp only [if_neg hne, hz, Outcome.ok_bind] at hu
  cases hf : Transform.field proj f (Transform.utmName z (f.ref.y > 0) (f.crs = Transform.etrs89)) with
  | throw e =>
    rw [hf] at hu
    cases hu
  | ub m =>
    rw [hf] at hu
    cases hu
  | ok g =>
    rw [hf] at hu
    cases hu
    obtain ⟨-, -, -, h3, -⟩ := Transform.field_ok hf
    exact h3

private theorem natStr_two {z : Nat} (h1 : 10 ≤ z) (h2 : z ≤ 60) : (natStr z).length = 2 := by
  interval_cases z <;> rfl

private theorem natStr_one {z : Nat} (h2 : z < 10) : (natStr z).length = 1 := by
  interval_cases z <;> rfl

/-- C54, for longitudes from -126° on: zone and hemisphere of the UTM system that `transformToUTM` gives to
a field in GPS coordinates are the ones of the reference point of the field. -/
theorem C54_utm_zone_partial (proj : Proj K) (f h : FieldObj K) (opt : Bool)
    (hcrs : f.crs = Transform.wgs84 ∨ f.crs = Transform.etrs89)
    (h1 : -126 ≤ f.ref.x) (h2 : f.ref.x < 180) (hu : Transform.toUTM proj f opt = .ok h) :
    ∃ (z : Nat) (s : Str), 1 ≤ z ∧ z ≤ 60 ∧
      6 * ((z : K) - 1) ≤ f.ref.x + 180 ∧ f.ref.x + 180 < 6 * z ∧
      Crs.utmZone h.crs = .ok s ∧ stoi s = .ok z ∧
      Crs.utmHemisphere h.crs = .ok (if f.ref.y > 0 then "+north".toList else "+south".toList) := by
  obtain ⟨z, hz, z1, z2, z3⟩ := zone_spec (show -180 ≤ f.ref.x by linarith)
  have hz60 : z ≤ 60 := by
    by_contra hc
    have : (61 : K) ≤ z := by exact_mod_cast (by omega : 61 ≤ z)
    linarith
  have hz10 : 10 ≤ z := by
    by_contra hc
    have : (z : K) ≤ 9 := by exact_mod_cast (by omega : z ≤ 9)
    linarith
  have hl := natStr_two hz10 hz60
  have e := toUTM_name hcrs hu hz
  refine ⟨z, natStr z, z1, hz60, z2, z3, ?_, ?_, ?_⟩
  · rw [e, Crs.utmZone, utmSystem_utmName, substr, if_neg (by simp)]
    congr 1
    rw [List.drop_zero, List.take_append_of_le_length (by omega), List.take_of_length_le (by omega)]
  · have := stoi_intStr (n := (z : Int)) (by omega) (by omega)
    exact this
  · rw [e, Crs.utmHemisphere, utmSystem_utmName, substr, if_neg (by simp [hl])]
    have hd : (natStr z ++ [if decide (f.ref.y > 0) = true then 'N' else 'S']).drop 2 =
        [if decide (f.ref.y > 0) = true then 'N' else 'S'] := by
      rw [← hl, List.drop_left]
    rw [hd, Outcome.ok_bind]
    by_cases hy : f.ref.y > 0
    · simp only [hy, decide_true, if_true]
      rfl
    · simp only [hy, decide_false, if_false]
      rfl

/-- C54 is false for all longitudes west of -126°: the zone has one digit, so that the two characters taken
for the zone include the hemisphere, and no hemisphere is found. -/
theorem C54_one_digit_zones (proj : Proj K) (f h : FieldObj K) (opt : Bool)
    (hcrs : f.crs = Transform.wgs84 ∨ f.crs = Transform.etrs89)
    (h1 : -180 ≤ f.ref.x) (h2 : f.ref.x < -126) (hu : Transform.toUTM proj f opt = .ok h) :
    Crs.utmHemisphere h.crs = .ok [] ∧
      ∃ d : Char, Crs.utmZone h.crs = .ok [d, if f.ref.y > 0 then 'N' else 'S'] := by
  obtain ⟨z, hz, z1, z2, z3⟩ := zone_spec h1
  have hz9 : z < 10 := by
    by_contra hc
    have : (10 : K) ≤ z := by exact_mod_cast (by omega : 10 ≤ z)
    linarith
  have hl := natStr_one hz9
  have e := toUTM_name hcrs hu hz
  obtain ⟨d, hd⟩ := List.length_eq_one_iff.1 hl
  constructor
  · rw [e, Crs.utmHemisphere, utmSystem_utmName, hd, substr, if_neg (by simp)]
    rfl
  · refine ⟨d, ?_⟩
    rw [e, Crs.utmZone, utmSystem_utmName, hd, substr, if_neg (by simp)]
    by_cases hy : f.ref.y > 0
    · simp only [hy, decide_true, if_true]
      rfl
    · simp only [hy, decide_false, if_false]
      rfl

end

/-- A projection that changes nothing. -/
def keepAll : Proj ℚ := fun _ _ => some id

theorem keepAll_consistent : Consistent keepAll :=
  ⟨fun _ _ h _ => by cases h; rfl, fun _ _ _ _ _ h1 h2 => ⟨id, rfl, fun _ => by cases h1; cases h2; rfl⟩⟩

example : ∃ h, Transform.toUTM keepAll ⟨[], Transform.wgs84, [], ⟨5, 52, 0⟩, [[square 0 0]]⟩ true = .ok h ∧
    h.crs = "UTM:31N datum:WGS84".toList ∧ Crs.utmZone h.crs = .ok "31".toList ∧
    Crs.utmHemisphere h.crs = .ok "+north".toList :=
  ⟨⟨[], "UTM:31N datum:WGS84".toList, Transform.wgs84, ⟨5, 52, 0⟩, [[square 0 0]]⟩,
    by decide +kernel, rfl, by decide +kernel, by decide +kernel⟩

/-- Honolulu: UTM zone 4, north. -/
example : ∃ h, Transform.toUTM keepAll ⟨[], Transform.wgs84, [], ⟨-158, 21, 0⟩, [[square 0 0]]⟩ true = .ok h ∧
    h.crs = "UTM:4N datum:WGS84".toList ∧ Crs.utmZone h.crs = .ok "4N".toList ∧
    Crs.utmHemisphere h.crs = .ok [] :=
  ⟨⟨[], "UTM:4N datum:WGS84".toList, Transform.wgs84, ⟨-158, 21, 0⟩, [[square 0 0]]⟩,
    by decide +kernel, rfl, by decide +kernel, by decide +kernel⟩

/-- Asking for the hemisphere of a system without zone throws. -/
theorem C54_hemisphere_throws : Crs.utmHemisphere "EPSG:4326".toList = .throw .outOfRange ∧
    Crs.utmHemisphere [] = .throw .outOfRange := by decide +kernel

/-! ### C55 -/

/-- C55: `transform` records the previous system and the new one. -/
theorem C55_records_previous (proj : Proj K) (f g : FieldObj K) (dst : Str)
    (h : Transform.field proj f dst = .ok g) : g.crs = dst ∧ g.prevCrs = f.crs :=
  (field_moved h).2

variable [FloorRing K]

/-- C55, for fields that have a coordinate system and are stored relative to their first point (as the
constructor does), or are empty: coming back from UTM, everything is restored.  `proj` is any consistent
family of transformations. -/
theorem C55_utm_and_back_partial (proj : Proj K) (hc : Consistent proj) (f g h : FieldObj K) (opt : Bool)
    (hcrs : f.crs ≠ []) (h0 : f.cells = [] ∨ First f.cells ⟨0, 0, 0⟩)
    (hg : Transform.toUTM proj f opt = .ok g) (hh : Transform.toPrevCRS proj g = .ok h) :
    h.id = f.id ∧ h.crs = f.crs ∧ h.ref = f.ref ∧ h.absCells = f.absCells ∧
      (WellFormed f.cells → h.cells = f.cells) := by
  obtain ⟨m1, hp⟩ := toUTM_moved hc hcrs hg
  unfold Transform.toPrevCRS at hh
  rw [hp, if_neg hcrs] at hh
  obtain ⟨m2, e2, -⟩ := field_moved hh
  have m := m1.trans hc m2
  obtain ⟨a, b, t, ha, hb, hpr, e3, e4⟩ := m.ex
  rw [e2, ha] at hb
  cases hb
  have hid := hc.stay a t hpr
  have habs : h.absCells = f.absCells := by rw [e3, onPoints_id hid]
  by_cases he : Cells.isEmpty f.cells = true
  · refine ⟨m.id, e2, ?_, habs, fun _ => m.empty he⟩
    rw [e4 he, hid]
  · have he' : Cells.isEmpty f.cells = false := by simpa using he
    have hf : First f.cells ⟨0, 0, 0⟩ := h0.resolve_left fun e => he (by rw [e]; rfl)
    have h1 := FieldObj.first_absCells hf
    rw [Point.zero_add'] at h1
    have h2 := m.first he'
    rw [habs] at h2
    have hr := h2.unique h1
    refine ⟨m.id, e2, hr, habs, fun hw => ?_⟩
    rw [m.cells he', habs, hr, FieldObj.absCells, mapCells_eq hw.normal, onPoints_onPoints]
    exact onPoints_id (fun p => Point.add_sub_cancel'' p f.ref) _

/-- C55 is false for a field without coordinate system: it comes back with one that the library guessed. -/
theorem C55_guessed_system : ∃ f g h : FieldObj ℚ, Consistent keepAll ∧ f.crs = [] ∧
    Transform.toUTM keepAll f true = .ok g ∧ Transform.toPrevCRS keepAll g = .ok h ∧
    h.crs = Transform.etrs89 :=
  ⟨⟨[], [], [], ⟨5, 52, 0⟩, [[square 0 0]]⟩,
    ⟨[], "UTM:31N datum:ETRS89".toList, Transform.etrs89, ⟨5, 52, 0⟩, [[square 0 0]]⟩,
    ⟨[], Transform.etrs89, "UTM:31N datum:ETRS89".toList, ⟨5, 52, 0⟩, [[square 0 0]]⟩,
    keepAll_consistent, rfl, by decide +kernel, by decide +kernel, rfl⟩

/-- C55 is false for a field whose reference point is not its first point: the reference point is not
restored (the absolute position is). -/
theorem C55_other_ref : ∃ f g h : FieldObj ℚ, Consistent keepAll ∧ f.crs = Transform.wgs84 ∧
    Transform.toUTM keepAll f true = .ok g ∧ Transform.toPrevCRS keepAll g = .ok h ∧
    f.ref = ⟨5, 52, 0⟩ ∧ h.ref = ⟨6, 53, 0⟩ ∧ h.absCells = f.absCells :=
  ⟨⟨[], Transform.wgs84, [], ⟨5, 52, 0⟩, [[square 1 1]]⟩,
    ⟨[], "UTM:31N datum:WGS84".toList, Transform.wgs84, ⟨6, 53, 0⟩, [[square 0 0]]⟩,
    ⟨[], Transform.wgs84, "UTM:31N datum:WGS84".toList, ⟨6, 53, 0⟩, [[square 0 0]]⟩,
    keepAll_consistent, rfl, by decide +kernel, by decide +kernel, rfl, rfl, by decide +kernel⟩

/-- A projection that moves points to the east by an offset that depends on the system. -/
private def offset : SptRef → ℚ
  | .utm _ _ _ => 500000
  | .epsg 4326 => 0
  | .epsg _ => 1
  | .unset => 2

/-- See `offset`. -/
private def shiftProj : Proj ℚ := fun a b => some fun p => ⟨p.x + (offset b - offset a), p.y, p.z⟩

private theorem shiftProj_consistent : Consistent shiftProj := by
  constructor
  · intro a f h p
    cases h
    simp
  · intro a b c f g h1 h2
    cases h1
    cases h2
    refine ⟨_, rfl, fun p => ?_⟩
    ext <;> simp only []
    ring

example : ∃ g h : FieldObj ℚ,
    Transform.toUTM shiftProj ⟨['a'], "EPSG:28992".toList, [], ⟨5, 52, 0⟩, [[square 0 0]]⟩ true = .ok g ∧
    g.ref.x = 500004 ∧ g.crs = "UTM:31N datum:ETRS89".toList ∧
    Transform.toPrevCRS shiftProj g = .ok h ∧
    h.id = ['a'] ∧ h.crs = "EPSG:28992".toList ∧ h.ref = ⟨5, 52, 0⟩ ∧ h.cells = [[square 0 0]] := by
  have hg : Transform.toUTM shiftProj ⟨['a'], "EPSG:28992".toList, [], ⟨5, 52, 0⟩, [[square 0 0]]⟩ true =
      .ok ⟨['a'], "UTM:31N datum:ETRS89".toList, "EPSG:28992".toList, ⟨500004, 52, 0⟩, [[square 0 0]]⟩ := by
    decide +kernel
  have hh : Transform.toPrevCRS shiftProj
      ⟨['a'], "UTM:31N datum:ETRS89".toList, "EPSG:28992".toList, ⟨500004, 52, 0⟩, [[square 0 0]]⟩ =
      .ok ⟨['a'], "EPSG:28992".toList, "UTM:31N datum:ETRS89".toList, ⟨5, 52, 0⟩, [[square 0 0]]⟩ := by
    decide +kernel
  obtain ⟨h1, h2, h3, -, h4⟩ := C55_utm_and_back_partial shiftProj shiftProj_consistent _ _ _ true
    (by decide) (.inr ⟨_, _, _, rfl⟩) hg hh
  exact ⟨_, _, hg, rfl, rfl, hh, h1, h2, h3, h4 (square_wellFormed _ _)⟩

/-- C55: moving a field to UTM does not change its reference point in GPS coordinates, if the field is stored
relative to its first point or is empty.  For a field in GPS coordinates that is its own reference point. -/
theorem C55_ref_in_gps_partial (proj : Proj K) (hc : Consistent proj) (f g : FieldObj K) (opt : Bool) (r : Point K)
    (hcrs : f.crs ≠ []) (h0 : f.cells = [] ∨ First f.cells ⟨0, 0, 0⟩)
    (hg : Transform.toUTM proj f opt = .ok g) (hr : Transform.refPointInGPS proj g = .ok r) :
    Transform.refPointInGPS proj f = .ok r ∧ (f.crs = Transform.wgs84 → r = f.ref) := by
  obtain ⟨m, -⟩ := toUTM_moved hc hcrs hg
  obtain ⟨a, b, t, ha, hb, hp, e1, e2⟩ := m.ex
  unfold Transform.refPointInGPS at hr
  cases hu : coordTransf proj g.crs Transform.wgs84 with
  | throw e => rw [hu] at hr; cases hr
  | ub e => rw [hu] at hr; cases hr
  | ok u =>
    rw [hu] at hr
    cases hr
    obtain ⟨b', w, hb', hw, hp'⟩ := coordTransf_ok hu
    rw [hb] at hb'
    cases hb'
    obtain ⟨v, hv, hcomp⟩ := hc.comp a b w t u hp hp'
    have href : g.ref = t f.ref := by
      by_cases he : Cells.isEmpty f.cells = true
      · exact e2 he
      · have he' : Cells.isEmpty f.cells = false := by simpa using he
        have hf : First f.cells ⟨0, 0, 0⟩ := h0.resolve_left fun e => he (by rw [e]; rfl)
        have h1 := FieldObj.first_absCells hf
        rw [Point.zero_add'] at h1
        have h2 := m.first he'
        rw [e1] at h2
        exact h2.unique (h1.onPoints t)
    have hval : v f.ref = u g.ref := by rw [hcomp, href]
    refine ⟨?_, ?_⟩
    · rw [Transform.refPointInGPS, coordTransf, ha, Outcome.ok_bind, hw, Outcome.ok_bind, hv, ← hval]
      rfl
    · intro hwgs
      rw [hwgs, hw] at ha
      cases ha
      rw [← hval, hc.stay _ v hv]

example : ∃ g : FieldObj ℚ,
    Transform.toUTM shiftProj ⟨['a'], Transform.wgs84, [], ⟨5, 52, 0⟩, [[square 0 0]]⟩ true = .ok g ∧
    g.ref.x = 500005 ∧ Transform.refPointInGPS shiftProj g = .ok ⟨5, 52, 0⟩ ∧
    Transform.refPointInGPS shiftProj ⟨['a'], Transform.wgs84, [], ⟨5, 52, 0⟩, [[square 0 0]]⟩ =
      .ok ⟨5, 52, 0⟩ := by
  have hg : Transform.toUTM shiftProj ⟨['a'], Transform.wgs84, [], ⟨5, 52, 0⟩, [[square 0 0]]⟩ true =
      .ok ⟨['a'], "UTM:31N datum:WGS84".toList, Transform.wgs84, ⟨500005, 52, 0⟩, [[square 0 0]]⟩ := by
    decide +kernel
  have hr : Transform.refPointInGPS shiftProj
      ⟨['a'], "UTM:31N datum:WGS84".toList, Transform.wgs84, ⟨500005, 52, 0⟩, [[square 0 0]]⟩ =
      .ok ⟨5, 52, 0⟩ := by decide +kernel
  exact ⟨_, hg, rfl, hr, (C55_ref_in_gps_partial shiftProj shiftProj_consistent _ _ true _ (by decide)
    (.inr ⟨_, _, _, rfl⟩) hg hr).1⟩

/-- C55: if the reference point is not the first point, moving the field to UTM changes its reference point in
GPS coordinates. -/
theorem C55_ref_in_gps_changed : ∃ f g : FieldObj ℚ, Consistent keepAll ∧ f.crs = Transform.wgs84 ∧
    Transform.toUTM keepAll f true = .ok g ∧ Transform.refPointInGPS keepAll f = .ok ⟨5, 52, 0⟩ ∧
    Transform.refPointInGPS keepAll g = .ok ⟨6, 53, 0⟩ :=
  ⟨⟨[], Transform.wgs84, [], ⟨5, 52, 0⟩, [[square 1 1]]⟩,
    ⟨[], "UTM:31N datum:WGS84".toList, Transform.wgs84, ⟨6, 53, 0⟩, [[square 0 0]]⟩,
    keepAll_consistent, rfl, by decide +kernel, by decide +kernel, by decide +kernel⟩

private theorem coordTransf_succeeds {proj : Proj K} (htot : ∀ a b, (proj a b).isSome) {src dst : Str}
    (h1 : ∃ a, Crs.sptRef src false = .ok a) (h2 : ∃ b, Crs.sptRef dst false = .ok b) :
    ∃ t, coordTransf proj src dst = .ok t := by
  obtain ⟨a, ha⟩ := h1
  obtain ⟨b, hb⟩ := h2
  obtain ⟨t, ht⟩ := Option.isSome_iff_exists.1 (htot a b)
  refine ⟨t, ?_⟩
  rw [coordTransf, ha, Outcome.ok_bind, hb, Outcome.ok_bind, ht]

omit [FloorRing K] in
private theorem First.cells_of_abs {f : FieldObj K} {p : Point K} (h : First f.absCells p) :
    ∃ q, First f.cells q := by
  obtain ⟨q, hq, -⟩ := First.of_mapCells h
  exact ⟨q, hq⟩

variable [IsStrictOrderedRing K]

/-- C55: both transformations succeed for every field with a known coordinate system and cells with closed
rings, if there is a transformation between any two systems and the longitudes of its reference point and
first point are at least -180. -/
theorem C55_succeeds (proj : Proj K) (hc : Consistent proj) (htot : ∀ a b, (proj a b).isSome)
    (f : FieldObj K) (opt : Bool) (hcrs : ∃ a, Crs.sptRef f.crs false = .ok a)
    (hlon : ∀ dst, dst = Transform.wgs84 ∨ dst = Transform.etrs89 → ∀ t,
      coordTransf proj f.crs dst = .ok t → ∀ p, p = f.ref ∨ First f.absCells p → -180 ≤ (t p).x)
    (hw : WellFormed f.cells) :
    ∃ g h, Transform.toUTM proj f opt = .ok g ∧ Transform.toPrevCRS proj g = .ok h := by
  have hne : f.crs ≠ [] := by
    intro e
    obtain ⟨a, ha⟩ := hcrs
    rw [e] at ha
    cases ha
  have hwgs : Crs.sptRef Transform.wgs84 false = .ok (.epsg 4326) := by decide +kernel
  have hetrs : Crs.sptRef Transform.etrs89 false = .ok (.epsg 4258) := by decide +kernel
  -- every field on the way can be transformed
  have hready : ∀ e : FieldObj K, Moved proj f e ∨ e = f →
      Cells.isEmpty e.cells = true ∨ ∃ p, First e.cells p := by
    intro e he
    rcases he with he | rfl
    · by_cases h : Cells.isEmpty f.cells = true
      · exact .inl (he.isEmpty.trans h)
      · exact .inr (First.cells_of_abs (he.first (by simpa using h)))
    · by_cases h : e.cells = []
      · exact .inl (by rw [h]; rfl)
      · exact .inr (hw.first h)
  have hlon2 : ∀ e : FieldObj K, Moved proj f e → e.crs = Transform.wgs84 ∨ e.crs = Transform.etrs89 →
      -180 ≤ e.ref.x := by
    intro e he hd
    obtain ⟨a, b, t, ha, hb, hp, h1, h2⟩ := he.ex
    have ht : coordTransf proj f.crs e.crs = .ok t := by
      rw [coordTransf, ha, Outcome.ok_bind, hb, Outcome.ok_bind, hp]
    by_cases hem : Cells.isEmpty f.cells = true
    · rw [h2 hem]
      exact hlon _ hd t ht _ (.inl rfl)
    · have h3 := he.first (by simpa using hem)
      rw [h1] at h3
      obtain ⟨p, hp, e3⟩ := First.of_onPoints h3
      rw [← e3]
      exact hlon _ hd t ht p (.inr hp)
  -- the second half of `transformToUTM`
  have key : ∀ e : FieldObj K, Moved proj f e ∨ e = f → (∃ a, Crs.sptRef e.crs false = .ok a) →
      -180 ≤ e.ref.x → ∃ g, (do
        let z ← Transform.zone e.ref.x
        let h ← Transform.field proj e
          (Transform.utmName z (decide (e.ref.y > 0)) (decide (e.crs = Transform.etrs89)))
        pure { h with prevCrs := f.crs } : Outcome (FieldObj K)) = .ok g := by
    intro e he hcr hx
    obtain ⟨z, hz, -⟩ := zone_spec hx
    rw [hz, Outcome.ok_bind]
    obtain ⟨t, ht⟩ := coordTransf_succeeds htot hcr
      (sptRef_utmName z (decide (e.ref.y > 0)) (decide (e.crs = Transform.etrs89)))
    obtain ⟨k, hk⟩ := Transform.field_succeeds ht (hready e he)
    rw [hk]
    exact ⟨_, rfl⟩
  have hu : ∃ g, Transform.toUTM proj f opt = .ok g := by
    unfold Transform.toUTM
    by_cases h1 : f.crs ≠ [] ∧ f.crs ≠ Transform.etrs89 ∧ f.crs ≠ Transform.wgs84
    · rw [if_pos h1, Transform.toGps]
      obtain ⟨t, ht⟩ := coordTransf_succeeds htot hcrs ⟨_, hwgs⟩
      obtain ⟨k, hk⟩ := Transform.field_succeeds ht (hready f (.inr rfl))
      have hmk := (field_moved hk).1
      rw [hk, Outcome.ok_bind]
      split
      · obtain ⟨t, ht⟩ := coordTransf_succeeds htot (src := k.crs) (dst := Transform.etrs89)
          ⟨_, by rw [(field_moved hk).2.1]; exact hwgs⟩ ⟨_, hetrs⟩
        obtain ⟨l, hl⟩ := Transform.field_succeeds ht (hready k (.inl hmk))
        rw [hl, Outcome.ok_bind]
        simp only [if_neg hne]
        have hml := hmk.trans hc (field_moved hl).1
        exact key l (.inl hml) ⟨_, by rw [(field_moved hl).2.1]; exact hetrs⟩
          (hlon2 l hml (.inr (field_moved hl).2.1))
      · rw [Outcome.ok_bind]
        simp only [if_neg hne]
        exact key k (.inl hmk) ⟨_, by rw [(field_moved hk).2.1]; exact hwgs⟩
          (hlon2 k hmk (.inl (field_moved hk).2.1))
    · rw [if_neg h1, if_neg hne, Outcome.ok_bind]
      simp only [if_neg hne]
      refine key f (.inr rfl) hcrs ?_
      have hd : f.crs = Transform.wgs84 ∨ f.crs = Transform.etrs89 := by
        by_contra hcon
        rw [not_or] at hcon
        exact h1 ⟨hne, hcon.2, hcon.1⟩
      obtain ⟨t, ht⟩ := coordTransf_succeeds htot hcrs hcrs
      obtain ⟨a, b, ha, hb, hp⟩ := coordTransf_ok ht
      rw [ha] at hb
      cases hb
      have := hlon _ hd t ht _ (.inl rfl)
      rwa [hc.stay a t hp] at this
  obtain ⟨g, hg⟩ := hu
  obtain ⟨m, hp⟩ := toUTM_moved hc hne hg
  obtain ⟨a, c, t, ha, hcc, -⟩ := m.ex
  obtain ⟨t, ht⟩ := coordTransf_succeeds htot ⟨c, hcc⟩ hcrs
  rw [← hp] at ht
  obtain ⟨h, hh⟩ := Transform.field_succeeds ht (hready g (.inl m))
  refine ⟨g, h, hg, ?_⟩
  rw [Transform.toPrevCRS, hp, if_neg hne, ← hp]
  exact hh

example : ∃ g h, Transform.toUTM shiftProj ⟨['a'], "EPSG:28992".toList, [], ⟨5, 52, 0⟩, [[square 0 0]]⟩ true =
    .ok g ∧ Transform.toPrevCRS shiftProj g = .ok h := by
  refine C55_succeeds shiftProj shiftProj_consistent (fun _ _ => rfl) _ true
    ⟨.epsg 28992, by decide +kernel⟩ ?_ (square_wellFormed _ _)
  intro dst hd t ht p hp
  have hp' : p = ⟨5, 52, 0⟩ := by
    rcases hp with rfl | hp
    · rfl
    · exact hp.unique (First.firstPoint.2 (by decide +kernel))
  subst hp'
  obtain ⟨a, b, ha, hb, he⟩ := coordTransf_ok ht
  cases he
  have ha' : (.ok a : Outcome SptRef) = .ok (.epsg 28992) := ha.symm.trans (by decide +kernel)
  cases ha'
  rcases hd with rfl | rfl
  · have hb' : (.ok b : Outcome SptRef) = .ok (.epsg 4326) := hb.symm.trans (by decide +kernel)
    cases hb'
    norm_num [offset]
  · have hb' : (.ok b : Outcome SptRef) = .ok (.epsg 4258) := hb.symm.trans (by decide +kernel)
    cases hb'
    norm_num [offset]

end F2C.Props
