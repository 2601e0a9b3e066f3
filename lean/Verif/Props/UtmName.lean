import Verif.Lemmas.UtmName

/-! # C116: UTM systems that the user names

Names are those of GPS software: a zone number and a letter, such as `31N`; a datum is one word, such as `WGS84`. -/

namespace F2C.Props

open Text

variable {K : Type}

/-- Digits of a zone. -/
def IsZone (ds : Str) : Prop := ds ≠ [] ∧ ∀ c ∈ ds, c.isDigit = true

/-- A word of letters and digits other than one that contains "datum". -/
def IsDatum (D : Str) : Prop := D ≠ [] ∧ (∀ c ∈ D, c.isAlphanum = true) ∧ contains "datum".toList D = false

/-- The description that the setters write. -/
private theorem of_name {ds D : Str} {c : Char} (hz : IsZone ds) (hc : c.isAlpha = true) (hD : IsDatum D) :
    Crs.ofUTMDatum (ds ++ [c]) D = "UTM:".toList ++ (ds ++ [c]) ++ " datum:".toList ++ D := by
  have e1 : search "UTM".toList utmGroup (ds ++ [c]) = none := by
    show search ('U' :: ['T', 'M']) utmGroup (ds ++ [c]) = none
    rw [search_skip _ (not_mem_digits hz.2 (by decide))]
    by_cases hU : 'U' = c
    · subst hU; rfl
    · simp [search, hU]
  have e2 := search_none datumGroup hD.2.2
  unfold Crs.ofUTMDatum Crs.utmSystem Crs.utmDatum
  rw [e1, e2]
  rfl

private theorem system_of {ds r : Str} {c : Char} (hz : IsZone ds) (hc : c.isAlpha = true) (nf : Str) :
    Crs.utmSystem ("UTM:".toList ++ (ds ++ [c]) ++ r) nf = ds ++ [c] := by
  obtain ⟨f1, f2, -, -⟩ := isAlpha_facts hc
  have hg := utmGroup_spec hz.1 hz.2 f1 f2 r
  have := search_hit (h := 'U') (p := ['T', 'M']) hg
  unfold Crs.utmSystem
  have e : "UTM:".toList ++ (ds ++ [c]) ++ r = ('U' :: ['T', 'M']) ++ (':' :: (ds ++ c :: r)) := by simp
  rw [e, show "UTM".toList = 'U' :: ['T', 'M'] from rfl, this]
  rfl

private theorem datum_of {ds D : Str} {c : Char} (hz : IsZone ds) (hD : IsDatum D) (nf : Str) :
    Crs.utmDatum ("UTM:".toList ++ (ds ++ [c]) ++ " datum:".toList ++ D) nf = D := by
  have hg := datumGroup_spec hD.1 hD.2.1
  have hit := search_hit (h := 'd') (p := ['a', 't', 'u', 'm']) hg
  unfold Crs.utmDatum
  have e : "UTM:".toList ++ (ds ++ [c]) ++ " datum:".toList ++ D =
      ("UTM:".toList ++ ds) ++ (c :: ' ' :: (('d' :: ['a', 't', 'u', 'm']) ++ (':' :: D))) := by simp
  rw [e, show "datum".toList = 'd' :: ['a', 't', 'u', 'm'] from rfl, search_skip]
  · rw [search, if_neg (by simp), show (' ' :: (('d' :: ['a', 't', 'u', 'm']) ++ (':' :: D))) =
      [' '] ++ (('d' :: ['a', 't', 'u', 'm']) ++ (':' :: D)) from rfl, search_skip _ (by decide), hit]
    rfl
  · rw [List.mem_append, not_or]
    exact ⟨by decide, not_mem_digits hz.2 (by decide)⟩

private theorem not_epsg {ds D : Str} {c : Char} (hz : IsZone ds) (hD : IsDatum D) :
    Crs.isEPSG ("UTM:".toList ++ (ds ++ [c]) ++ " datum:".toList ++ D) = false := by
  unfold Crs.isEPSG
  have e : "UTM:".toList ++ (ds ++ [c]) ++ " datum:".toList ++ D =
      ("UTM:".toList ++ ds) ++ (c :: (" datum:".toList ++ D)) := by simp
  rw [e, show "EPSG:".toList = 'E' :: ['P', 'S', 'G', ':'] from rfl, contains_skip, contains]
  · have h1 : ('E' :: ['P', 'S', 'G', ':']).isPrefixOf (c :: (" datum:".toList ++ D)) = false := by
      simp [List.isPrefixOf]
    rw [h1, Bool.false_or, contains_skip (by decide)]
    refine contains_eq_false ':' (by decide) fun hm => ?_
    have := hD.2.1 _ hm
    revert this
    decide
  · rw [List.mem_append, not_or]
    exact ⟨by decide, not_mem_digits hz.2 (by decide)⟩

/-- **C116**, reading: a field whose system is set to a zone with a letter and a datum is in a UTM system, not in an EPSG
one, and zone with letter and datum are read back as they were given. -/
theorem C116_set (f : FieldObj K) (ds D nf : Str) (c : Char) (hz : IsZone ds) (hc : c.isAlpha = true) (hD : IsDatum D) :
    Crs.isUTM (f.step (.setUTMDatum (ds ++ [c]) D)).crs = true ∧
    Crs.isEPSG (f.step (.setUTMDatum (ds ++ [c]) D)).crs = false ∧
    Crs.epsg (f.step (.setUTMDatum (ds ++ [c]) D)).crs = .ok (-1) ∧
    Crs.utmSystem (f.step (.setUTMDatum (ds ++ [c]) D)).crs nf = ds ++ [c] ∧
    Crs.utmDatum (f.step (.setUTMDatum (ds ++ [c]) D)).crs nf = D := by
  show Crs.isUTM (Crs.ofUTMDatum (ds ++ [c]) D) = true ∧ Crs.isEPSG (Crs.ofUTMDatum (ds ++ [c]) D) = false ∧
    Crs.epsg (Crs.ofUTMDatum (ds ++ [c]) D) = .ok (-1) ∧ Crs.utmSystem (Crs.ofUTMDatum (ds ++ [c]) D) nf = ds ++ [c] ∧
    Crs.utmDatum (Crs.ofUTMDatum (ds ++ [c]) D) nf = D
  rw [of_name hz hc hD]
  have he := not_epsg (c := c) hz hD
  refine ⟨?_, he, ?_, ?_, datum_of hz hD nf⟩
  · exact contains_iff.2 ⟨[], (ds ++ [c]) ++ " datum:".toList ++ D, by simp⟩
  · unfold Crs.epsg
    rw [he]
    rfl
  · have := system_of (r := " datum:".toList ++ D) hz hc nf
    rwa [← List.append_assoc] at this

/-- **C116**, default: without a datum it is ETRS89. -/
theorem C116_default (f : FieldObj K) (ds : Str) (c : Char) (hz : IsZone ds) (hc : c.isAlpha = true) :
    f.step (.setUTM (ds ++ [c])) = f.step (.setUTMDatum (ds ++ [c]) "etrs89".toList) := by
  have h : contains "datum".toList (ds ++ [c]) = false := by
    rw [show "datum".toList = 'd' :: ['a', 't', 'u', 'm'] from rfl, contains_skip (not_mem_digits hz.2 (by decide))]
    simp [contains, List.isPrefixOf]
  have e : Crs.utmDatum (ds ++ [c]) "etrs89".toList = "etrs89".toList := by
    unfold Crs.utmDatum
    rw [search_none _ h]
    rfl
  show ({ f with crs := Crs.ofUTM (ds ++ [c]) } : FieldObj K) = { f with crs := Crs.ofUTMDatum (ds ++ [c]) "etrs89".toList }
  unfold Crs.ofUTM Crs.ofUTMDatum
  rw [e]
  rfl

/-- **C116**, again: setting the system to its own description changes nothing. -/
theorem C116_again (f : FieldObj K) (ds D : Str) (c : Char) (hz : IsZone ds) (hc : c.isAlpha = true) (hD : IsDatum D) :
    (f.step (.setUTMDatum (ds ++ [c]) D)).step (.setUTM (f.step (.setUTMDatum (ds ++ [c]) D)).crs) =
      f.step (.setUTMDatum (ds ++ [c]) D) := by
  obtain ⟨-, -, -, h1, -⟩ := C116_set f ds D (f.step (.setUTMDatum (ds ++ [c]) D)).crs c hz hc hD
  obtain ⟨-, -, -, -, h2⟩ := C116_set f ds D "etrs89".toList c hz hc hD
  have e : Crs.ofUTM (f.step (.setUTMDatum (ds ++ [c]) D)).crs = (f.step (.setUTMDatum (ds ++ [c]) D)).crs := by
    conv_lhs => unfold Crs.ofUTM
    rw [h1, h2]
    exact (of_name hz hc hD).symm
  show ({ (f.step (.setUTMDatum (ds ++ [c]) D)) with crs := Crs.ofUTM (f.step (.setUTMDatum (ds ++ [c]) D)).crs } :
    FieldObj K) = _
  rw [e]

/-- **C116**, projection: for zones of two digits with the letter N or S (in either case) the projection library gets that
zone, that hemisphere and that datum; ETRS89 in any case is given as an ellipsoid. -/
theorem C116_projection (f : FieldObj K) (ds D : Str) (c : Char) (hz : IsZone ds) (h2 : ds.length = 2)
    (hc : c ∈ ['N', 'n', 'S', 's']) (hD : IsDatum D) (silent : Bool) :
    Crs.sptRef (f.step (.setUTMDatum (ds ++ [c]) D)).crs silent =
      .ok (.utm ds (if c = 'N' ∨ c = 'n' then "+north".toList else "+south".toList)
        (if D.map Char.toLower = "etrs89".toList then none else some D)) := by
  have hca : c.isAlpha = true := by
    simp only [List.mem_cons, List.not_mem_nil, or_false] at hc
    rcases hc with rfl | rfl | rfl | rfl <;> rfl
  obtain ⟨a1, a2, -, a4, -⟩ := C116_set f ds D [] c hz hca hD
  obtain ⟨-, -, -, -, a5⟩ := C116_set f ds D "etrs89".toList c hz hca hD
  have hne : (f.step (.setUTMDatum (ds ++ [c]) D)).crs ≠ [] := by
    intro h; rw [h] at a1; revert a1; decide
  generalize (f.step (.setUTMDatum (ds ++ [c]) D)).crs = s at *
  have hzone : Crs.utmZone s = .ok ds := by
    rw [Crs.utmZone, a4, substr, if_neg (by simp), List.drop_zero, List.take_append_of_le_length (by omega),
      List.take_of_length_le (by omega)]
  have hhemi : Crs.utmHemisphere s = .ok (if c = 'N' ∨ c = 'n' then "+north".toList else "+south".toList) := by
    rw [Crs.utmHemisphere, a4, substr, if_neg (by simp [h2])]
    have hd : (ds ++ [c]).drop 2 = [c] := by rw [← h2, List.drop_left]
    rw [hd, Outcome.ok_bind]
    simp only [List.mem_cons, List.not_mem_nil, or_false] at hc
    rcases hc with rfl | rfl | rfl | rfl <;> rfl
  unfold Crs.sptRef
  rw [if_neg (fun h => hne h.1), if_neg (by simp [a2]), if_pos a1, hzone, hhemi, a5]
  simp only [Outcome.ok_bind, Outcome.pure_eq, Crs.isEtrs89, decide_eq_true_eq]

/-- **C116** is false of zones without a letter: the hemisphere is empty, whatever the digits; the projection library, which
gets no hemisphere, takes the northern one.  The same holds if the description ends with the digits. -/
theorem C116_no_letter (f : FieldObj K) (ds nf : Str) (hz : IsZone ds) (h2 : 2 ≤ ds.length) (silent : Bool) :
    Crs.utmSystem (f.step (.setUTM ds)).crs nf = ds ∧
    Crs.sptRef (f.step (.setUTM ds)).crs silent = .ok (.utm (ds.take 2) [] none) ∧
    Crs.sptRef (f.step (.setCRS ("UTM:".toList ++ ds))).crs silent = .ok (.utm (ds.take 2) [] none) := by
  have key : ∀ r : Str, (∀ c ∈ r.head?, c.isDigit = false ∧ isWord c = false) → ∀ nf,
      Crs.utmSystem ("UTM:".toList ++ ds ++ r) nf = ds := by
    intro r hr nf
    have hg := utmGroup_end hz.2 r hr (by omega)
    rw [if_pos h2] at hg
    have := search_hit (h := 'U') (p := ['T', 'M']) hg
    unfold Crs.utmSystem
    have e : "UTM:".toList ++ ds ++ r = ('U' :: ['T', 'M']) ++ (':' :: (ds ++ r)) := by simp
    rw [e, show "UTM".toList = 'U' :: ['T', 'M'] from rfl, this]
    rfl
  have hemi : ∀ s, (∀ nf, Crs.utmSystem s nf = ds) → Crs.utmZone s = .ok (ds.take 2) ∧ Crs.utmHemisphere s = .ok [] := by
    intro s hs
    constructor
    · rw [Crs.utmZone, hs, substr, if_neg (by simp), List.drop_zero]
    · rw [Crs.utmHemisphere, hs, substr, if_neg (by omega), Outcome.ok_bind]
      have nope : ∀ x : Char, x.isDigit = false → (ds.drop 2).take 1 ≠ [x] := by
        intro x hx h
        have : x ∈ ds := List.mem_of_mem_drop (List.mem_of_mem_take (by rw [h]; simp))
        exact not_mem_digits hz.2 hx this
      rw [if_neg (not_or.2 ⟨nope _ (by decide), nope _ (by decide)⟩),
        if_neg (not_or.2 ⟨nope _ (by decide), nope _ (by decide)⟩)]
      rfl
  have ref : ∀ s r, s = "UTM:".toList ++ ds ++ r → (∀ nf, Crs.utmSystem s nf = ds) → Crs.isEPSG s = false →
      Crs.isEtrs89 (Crs.utmDatum s "etrs89".toList) = true → ∀ silent, Crs.sptRef s silent = .ok (.utm (ds.take 2) [] none) := by
    intro s r hsr hs he hd silent
    have hu : Crs.isUTM s = true := contains_iff.2 ⟨[], ds ++ r, by rw [hsr]; simp⟩
    unfold Crs.sptRef
    rw [if_neg (fun h => by rw [h.1] at hu; revert hu; decide), if_neg (by simp [he]), if_pos hu, (hemi s hs).1, (hemi s hs).2]
    simp only [Outcome.ok_bind, Outcome.pure_eq, hd, if_true]
  have hdig : ∀ x : Char, x.isDigit = false → x ∉ ds := fun x hx => not_mem_digits hz.2 hx
  -- the description that the setter writes
  have hcrs : (f.step (.setUTM ds)).crs = "UTM:".toList ++ ds ++ " datum:etrs89".toList := by
    show Crs.ofUTM ds = _
    have e1 : search "UTM".toList utmGroup ds = none :=
      search_none _ (contains_eq_false 'U' (by decide) (hdig _ (by decide)))
    have e2 : search "datum".toList datumGroup ds = none :=
      search_none _ (contains_eq_false 'd' (by decide) (hdig _ (by decide)))
    unfold Crs.ofUTM Crs.utmSystem Crs.utmDatum
    rw [e1, e2]
    simp
  have k1 := key " datum:etrs89".toList (by
    intro c hc
    have : c = ' ' := by simpa using hc.symm
    subst this
    decide)
  have k2 := key [] (by simp)
  rw [List.append_nil] at k2
  have d1 : Crs.utmDatum ("UTM:".toList ++ ds ++ " datum:etrs89".toList) "etrs89".toList = "etrs89".toList := by
    have hg := datumGroup_spec (D := "etrs89".toList) (by decide) (by decide)
    have hit := search_hit (h := 'd') (p := ['a', 't', 'u', 'm']) hg
    unfold Crs.utmDatum
    have e : "UTM:".toList ++ ds ++ " datum:etrs89".toList =
        ("UTM:".toList ++ ds ++ [' ']) ++ (('d' :: ['a', 't', 'u', 'm']) ++ (':' :: "etrs89".toList)) := by simp
    rw [e, show "datum".toList = 'd' :: ['a', 't', 'u', 'm'] from rfl, search_skip, hit]
    · rfl
    · simp only [List.mem_append, not_or]
      exact ⟨⟨by decide, hdig _ (by decide)⟩, by decide⟩
  have d2 : Crs.utmDatum ("UTM:".toList ++ ds) "etrs89".toList = "etrs89".toList := by
    unfold Crs.utmDatum
    rw [search_none _ (contains_eq_false 'd' (by decide) (by
      simp only [List.mem_append, not_or]
      exact ⟨by decide, hdig _ (by decide)⟩))]
    rfl
  refine ⟨?_, ?_, ?_⟩
  · rw [hcrs]; exact k1 nf
  · rw [hcrs]
    refine ref _ _ rfl k1 (contains_eq_false 'P' (by decide) ?_) (by rw [d1]; decide) silent
    simp only [List.mem_append, not_or]
    exact ⟨⟨by decide, hdig _ (by decide)⟩, by decide⟩
  · show Crs.sptRef ("UTM:".toList ++ ds) silent = _
    refine ref _ [] (by simp) k2 (contains_eq_false 'P' (by decide) ?_) (by rw [d2]; decide) silent
    simp only [List.mem_append, not_or]
    exact ⟨by decide, hdig _ (by decide)⟩

/-- **C116** is false of zones of one digit: with a letter, digit and letter are taken for the zone and the hemisphere is
empty; without a letter, the zone is not found and an exception about a position in a string is thrown. -/
theorem C116_one_digit (f : FieldObj K) :
    (∀ d ∈ "123456789".toList, ∀ c ∈ "NSns".toList,
      Crs.sptRef (f.step (.setUTM [d, c])).crs false = .ok (.utm [d, c] [] none)) ∧
    (∀ d ∈ "123456789".toList, Crs.sptRef (f.step (.setUTM [d])).crs false = .throw .outOfRange) := by
  show (∀ d ∈ "123456789".toList, ∀ c ∈ "NSns".toList, Crs.sptRef (Crs.ofUTM [d, c]) false = .ok (.utm [d, c] [] none)) ∧
    (∀ d ∈ "123456789".toList, Crs.sptRef (Crs.ofUTM [d]) false = .throw .outOfRange)
  decide +kernel

/-- **C116**, text before: the letters UTM without a zone, followed by punctuation and a description, are passed over. -/
theorem C116_skip (f : FieldObj K) (j ds r nf : Str) (c : Char) (hj : ∀ x ∈ j, x.isAlphanum = false) (hz : IsZone ds)
    (hc : c.isAlpha = true) :
    Crs.utmSystem (f.step (.setCRS ("UTM".toList ++ j ++ ("UTM:".toList ++ (ds ++ [c]) ++ r)))).crs nf = ds ++ [c] := by
  show Crs.utmSystem ("UTM".toList ++ j ++ ("UTM:".toList ++ (ds ++ [c]) ++ r)) nf = ds ++ [c]
  have hsys := system_of (r := r) hz hc nf
  have hg : utmGroup (j ++ ("UTM:".toList ++ (ds ++ [c]) ++ r)) = none := by
    have e : (j ++ ("UTM:".toList ++ (ds ++ [c]) ++ r)).dropWhile (fun c => !c.isAlphanum) =
        "UTM:".toList ++ (ds ++ [c]) ++ r := by
      clear hsys
      induction j with
      | nil => rfl
      | cons x j ih =>
        rw [List.cons_append, List.dropWhile_cons_of_pos (by simp [hj x (by simp)])]
        exact ih fun y hy => hj y (List.mem_cons_of_mem _ hy)
    unfold utmGroup
    rw [e]
    rfl
  have hU : 'U' ∉ j := fun hm => by
    have := hj _ hm
    revert this
    decide
  unfold Crs.utmSystem at hsys ⊢
  have e1 : search "UTM".toList utmGroup ("UTM".toList ++ j ++ ("UTM:".toList ++ (ds ++ [c]) ++ r)) =
      search "UTM".toList utmGroup ("UTM:".toList ++ (ds ++ [c]) ++ r) := by
    rw [show "UTM".toList ++ j ++ ("UTM:".toList ++ (ds ++ [c]) ++ r) =
      'U' :: (['T', 'M'] ++ j ++ ("UTM:".toList ++ (ds ++ [c]) ++ r)) by simp,
      show "UTM".toList = 'U' :: ['T', 'M'] from rfl, search, if_pos (by simp)]
    rw [show ('U' :: (['T', 'M'] ++ j ++ ("UTM:".toList ++ (ds ++ [c]) ++ r))).drop ('U' :: ['T', 'M']).length =
      j ++ ("UTM:".toList ++ (ds ++ [c]) ++ r) by simp, hg]
    refine search_skip utmGroup ?_ _
    simp only [List.mem_append, not_or]
    exact ⟨by decide, hU⟩
  rw [e1]
  exact hsys

/-- **C116**, no datum: where no word follows, the datum is not found. -/
theorem C116_no_datum (f : FieldObj K) (ds nf : Str) (c : Char) (hz : IsZone ds) :
    Crs.utmDatum (f.step (.setCRS ("UTM:".toList ++ (ds ++ [c]) ++ " datum:".toList))).crs nf = nf := by
  show Crs.utmDatum ("UTM:".toList ++ (ds ++ [c]) ++ " datum:".toList) nf = nf
  unfold Crs.utmDatum
  have e : "UTM:".toList ++ (ds ++ [c]) ++ " datum:".toList = ("UTM:".toList ++ ds) ++ (c :: ' ' :: "datum:".toList) := by
    simp
  rw [e, show "datum".toList = 'd' :: ['a', 't', 'u', 'm'] from rfl, search_skip]
  · rw [search, if_neg (by simp)]
    rfl
  · rw [List.mem_append, not_or]
    exact ⟨by decide, not_mem_digits hz.2 (by decide)⟩

/-- A field without cells. -/
private def noField : FieldObj ℚ := ⟨[], [], [], ⟨0, 0, 0⟩, []⟩

/-- C116 on zones of the Netherlands and of Brazil. -/
example : Crs.sptRef (noField.step (.setUTMDatum "31N".toList "WGS84".toList)).crs false =
      .ok (.utm "31".toList "+north".toList (some "WGS84".toList)) ∧
    Crs.sptRef (noField.step (.setUTM "23s".toList)).crs false =
      .ok (.utm "23".toList "+south".toList none) ∧
    Crs.sptRef (noField.step (.setUTM "23".toList)).crs false = .ok (.utm "23".toList [] none) := by
  have hz : IsZone "31".toList := ⟨by decide, by decide⟩
  have hz' : IsZone "23".toList := ⟨by decide, by decide⟩
  have hD : IsDatum "WGS84".toList := ⟨by decide, by decide, by decide⟩
  have hE : IsDatum "etrs89".toList := ⟨by decide, by decide, by decide⟩
  refine ⟨C116_projection _ "31".toList _ 'N' hz rfl (by decide) hD false, ?_,
    (C116_no_letter _ "23".toList [] hz' (by decide) false).2.1⟩
  have := C116_default noField "23".toList 's' hz' (by decide)
  exact (congrArg (fun g : FieldObj ℚ => Crs.sptRef g.crs false) this).trans
    (C116_projection _ "23".toList _ 's' hz' rfl (by decide) hE false)

/-- C116 on a description with a heading, and on one whose datum is missing. -/
example : Crs.utmSystem (noField.step (.setCRS "UTM - UTM:31N datum:WGS84".toList)).crs [] = "31N".toList ∧
    Crs.utmDatum (noField.step (.setCRS "UTM:31N datum:".toList)).crs "etrs89".toList = "etrs89".toList :=
  ⟨C116_skip noField " - ".toList "31".toList " datum:WGS84".toList [] 'N' (by decide) ⟨by decide, by decide⟩ (by decide),
    C116_no_datum noField "31".toList _ 'N' ⟨by decide, by decide⟩⟩

end F2C.Props
