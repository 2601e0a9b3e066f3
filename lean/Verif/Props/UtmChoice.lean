import Mathlib.Algebra.Order.Floor.Ring
import Mathlib.Data.Rat.Floor
import Verif.Lemmas.FieldObj

/-! # C119: the UTM system that `transformToUTM` chooses -/

namespace F2C.Props

open Text FieldSpec

variable {K : Type} [Field K] [LinearOrder K]

/-- The part of the world where ETRS89 is used: longitudes from -16.1 to 32.88, latitudes from 40.18 to 84.73. -/
def Europe (p : Point K) : Prop :=
  -161 / 10 < p.x ∧ p.x < 3288 / 100 ∧ 4018 / 100 < p.y ∧ p.y < 8473 / 100

/-- `s` names the zone (of six degrees, the first one from -180 on) and the hemisphere of the place `p`, and the datum. -/
def Names (s : Str) (p : Point K) (etrs : Prop) : Prop :=
  ∃ z : Nat, 6 * ((z : K) - 1) ≤ p.x + 180 ∧ p.x + 180 < 6 * z ∧
    ∃ hemi datum : Str, s = "UTM:".toList ++ natStr z ++ hemi ++ " datum:".toList ++ datum ∧
      (0 < p.y → hemi = "N".toList) ∧ (p.y ≤ 0 → hemi = "S".toList) ∧
      (etrs → datum = "ETRS89".toList) ∧ (¬ etrs → datum = "WGS84".toList)

omit [LinearOrder K] in
private theorem bind_ok {α β : Type} {a : Outcome α} {g : α → Outcome β} {b : β} (h : (a >>= g) = .ok b) :
    ∃ x, a = .ok x ∧ g x = .ok b := by
  cases a with
  | ok x => exact ⟨x, rfl, h⟩
  | throw e => cases h
  | ub m => cases h

instance (p : Point K) : Decidable (Europe p) := by unfold Europe; infer_instance

private theorem europe_iff (p : Point K) : Transform.inEurope p = true ↔ Europe p := by
  simp only [Transform.inEurope, Europe, decide_eq_true_eq]
  tauto

variable [IsStrictOrderedRing K] [FloorRing K]

/-- Second half of `transformToUTM`. -/
private theorem named {proj : Proj K} {e g : FieldObj K} {prev : Str}
    (h : (do
        let z ← Transform.zone e.ref.x
        let h ← Transform.field proj e (Transform.utmName z (decide (e.ref.y > 0)) (decide (e.crs = Transform.etrs89)))
        pure { h with prevCrs := prev } : Outcome (FieldObj K)) = .ok g) :
    Names g.crs e.ref (e.crs = Transform.etrs89) ∧ g.prevCrs = prev := by
  obtain ⟨z, hz, h⟩ := bind_ok h
  obtain ⟨k, hk, h⟩ := bind_ok h
  cases h
  refine ⟨?_, rfl⟩
  have hcrs := (field_moved hk).2.1
  unfold Transform.zone at hz
  simp only at hz
  split at hz
  · cases hz
  · rename_i hneg
    have hz' : (⌊(e.ref.x + 180) / 6⌋ + 1).toNat = z := by injection hz
    have hzi : ((z : ℤ) : K) = (⌊(e.ref.x + 180) / 6⌋ : K) + 1 := by
      have : (z : ℤ) = ⌊(e.ref.x + 180) / 6⌋ + 1 := by omega
      rw [this]; push_cast; ring
    rw [Int.cast_natCast] at hzi
    have h3 := (le_div_iff₀ (by norm_num : (0 : K) < 6)).1 (Int.floor_le ((e.ref.x + 180) / 6))
    have h4 := (div_lt_iff₀ (by norm_num : (0 : K) < 6)).1 (Int.lt_floor_add_one ((e.ref.x + 180) / 6))
    refine ⟨z, by rw [hzi]; linarith, by rw [hzi]; linarith, _, _, hcrs, ?_, ?_, ?_, ?_⟩
    · intro hy; simp [hy]
    · intro hy; simp [not_lt.2 hy]
    · intro he; simp [he]
    · intro he; simp [he]

/-- **C119**, other systems: a field in any other system is transformed to WGS84 first; ETRS89 is chosen if that is allowed
and the field is in Europe, and zone and hemisphere are those of its reference point. -/
theorem C119_other (proj : Proj K) (f g : FieldObj K) (opt : Bool)
    (hcrs : f.crs ≠ [] ∧ f.crs ≠ "EPSG:4258".toList ∧ f.crs ≠ "EPSG:4326".toList) (h : Transform.toUTM proj f opt = .ok g) :
    ∃ k, Transform.field proj f "EPSG:4326".toList = .ok k ∧ g.prevCrs = f.crs ∧
      ((opt = true ∧ Europe k.ref) →
        ∃ l, Transform.field proj k "EPSG:4258".toList = .ok l ∧ Names g.crs l.ref True) ∧
      (¬ (opt = true ∧ Europe k.ref) → Names g.crs k.ref False) := by
  unfold Transform.toUTM at h
  rw [if_pos (show f.crs ≠ [] ∧ f.crs ≠ Transform.etrs89 ∧ f.crs ≠ Transform.wgs84 from hcrs), Transform.toGps] at h
  simp only [if_neg hcrs.1] at h
  obtain ⟨e, he, h⟩ := bind_ok h
  obtain ⟨k, hk, he⟩ := bind_ok he
  obtain ⟨hn, hp⟩ := named h
  refine ⟨k, hk, hp, ?_, ?_⟩
  · intro ho
    rw [if_pos ⟨ho.1, (europe_iff _).2 ho.2⟩] at he
    refine ⟨e, he, ?_⟩
    have := (field_moved he).2.1
    simpa [this] using hn
  · intro ho
    rw [if_neg (fun hc => ho ⟨hc.1, (europe_iff _).1 hc.2⟩)] at he
    cases he
    have hk' := (field_moved hk).2.1
    have hne : ¬ e.crs = Transform.etrs89 := by rw [hk']; decide
    simpa [hne] using hn

/-- **C119** is false of fields in GPS coordinates as far as the option goes: the datum is that of the coordinates, whether
ETRS89 is allowed or not, and in Europe or not. -/
theorem C119_gps (proj : Proj K) (f g : FieldObj K) (opt : Bool)
    (hcrs : f.crs = "EPSG:4258".toList ∨ f.crs = "EPSG:4326".toList) (h : Transform.toUTM proj f opt = .ok g) :
    Names g.crs f.ref (f.crs = "EPSG:4258".toList) ∧ g.prevCrs = f.crs := by
  have hne : f.crs ≠ [] := by rcases hcrs with e | e <;> rw [e] <;> decide
  unfold Transform.toUTM at h
  rw [if_neg (by rintro ⟨-, a, b⟩; exact hcrs.elim a b), if_neg hne, Outcome.ok_bind] at h
  simp only [if_neg hne] at h
  exact named h

/-- **C119**, no system: for a field without a system whose reference point is not the origin, coordinates are taken for
degrees if they can be; ETRS89 is chosen as for other systems. -/
theorem C119_none (proj : Proj K) (f : FieldObj K) (opt : Bool) (hcrs : f.crs = [])
    (href : Point.eqv f.ref ⟨0, 0, 0⟩ = false) :
    (∀ g, Transform.toUTM proj f opt = .ok g →
      (opt = true ∧ Europe f.ref → Names g.crs f.ref True ∧ g.prevCrs = "EPSG:4258".toList) ∧
      (¬ (opt = true ∧ Europe f.ref) → Names g.crs f.ref False ∧ g.prevCrs = "EPSG:4326".toList)) ∧
    (¬ (-180 < f.ref.x ∧ f.ref.x < 180 ∧ -90 < f.ref.y ∧ f.ref.y < 90) →
      Transform.toUTM proj f opt = .throw .invalidArgument) := by
  have hg : Transform.guessGps f opt = if opt = true ∧ Europe f.ref then .ok { f with crs := Transform.etrs89 }
      else if -180 < f.ref.x ∧ f.ref.x < 180 ∧ -90 < f.ref.y ∧ f.ref.y < 90 then .ok { f with crs := Transform.wgs84 }
      else .throw .invalidArgument := by
    unfold Transform.guessGps
    simp only [href, Bool.false_eq_true, if_false, Outcome.ok_bind, europe_iff]
    congr 1
    refine if_congr ?_ rfl rfl
    tauto
  have hu : Transform.toUTM proj f opt = (do
      let g ← Transform.guessGps f opt
      let z ← Transform.zone g.ref.x
      let h ← Transform.field proj g (Transform.utmName z (decide (g.ref.y > 0)) (decide (g.crs = Transform.etrs89)))
      pure { h with prevCrs := g.crs } : Outcome (FieldObj K)) := by
    unfold Transform.toUTM
    simp [hcrs]
  rw [hu, hg]
  refine ⟨?_, ?_⟩
  · intro g h
    by_cases ho : opt = true ∧ Europe f.ref
    · rw [if_pos ho, Outcome.ok_bind] at h
      refine ⟨fun _ => ?_, fun hc => absurd ho hc⟩
      have := named h
      exact ⟨by simpa using this.1, this.2⟩
    · rw [if_neg ho] at h
      refine ⟨fun hc => absurd hc ho, fun _ => ?_⟩
      split at h
      · rw [Outcome.ok_bind] at h
        have := named h
        have hd : ¬ Transform.wgs84 = Transform.etrs89 := by decide
        exact ⟨by simpa [hd] using this.1, this.2⟩
      · cases h
  · intro hr
    have hE : ¬ (opt = true ∧ Europe f.ref) := by
      rintro ⟨-, h1, h2, h3, h4⟩
      refine hr ⟨?_, ?_, ?_, ?_⟩
      · have : (-180 : K) < -161 / 10 := by norm_num
        linarith
      · have : (3288 / 100 : K) < 180 := by norm_num
        linarith
      · have : (-90 : K) < 4018 / 100 := by norm_num
        linarith
      · have : (8473 / 100 : K) < 90 := by norm_num
        linarith
    rw [if_neg hE, if_neg hr]
    rfl

/-- **C119** is false of the date line: a field in GPS coordinates at longitude 180 is put into zone 61, which does not
exist; far west of it (below -186) the zone number is a negative number converted to an unsigned one. -/
theorem C119_date_line (proj : Proj K) (f : FieldObj K) (opt : Bool)
    (hcrs : f.crs = "EPSG:4258".toList ∨ f.crs = "EPSG:4326".toList) :
    (f.ref.x = 180 → ∀ g, Transform.toUTM proj f opt = .ok g → "UTM:61".toList <+: g.crs) ∧
    (f.ref.x < -186 → (Transform.toUTM proj f opt).isUb = true) := by
  constructor
  · intro hx g h
    obtain ⟨⟨z, h1, h2, hemi, datum, e, -⟩, -⟩ := C119_gps proj f g opt hcrs h
    rw [hx] at h1 h2
    have hz : z = 61 := by
      have a : (z : K) ≤ 61 := by linarith
      have b : (60 : K) < z := by linarith
      have a' : z ≤ 61 := by exact_mod_cast a
      have b' : 60 < z := by exact_mod_cast b
      omega
    subst hz
    rw [e]
    exact ⟨hemi ++ " datum:".toList ++ datum, by simp [show natStr 61 = ['6', '1'] from rfl]⟩
  · intro hx
    have hne : f.crs ≠ [] := by rcases hcrs with e | e <;> rw [e] <;> decide
    unfold Transform.toUTM
    rw [if_neg (by rintro ⟨-, a, b⟩; exact hcrs.elim a b), if_neg hne, Outcome.ok_bind]
    have hf : ⌊(f.ref.x + 180) / 6⌋ + 1 < 0 := by
      have : ⌊(f.ref.x + 180) / 6⌋ < -1 := by
        rw [Int.floor_lt, div_lt_iff₀ (by norm_num)]
        push_cast
        linarith
      omega
    simp only [Transform.zone, if_pos hf, Outcome.ub_bind]
    rfl

/-- A projection that leaves everything where it is. -/
private def still : Proj ℚ := fun _ _ => some id

/-- A field without cells at a place. -/
private def placed (crs : Str) (x y : ℚ) : FieldObj ℚ := ⟨[], crs, [], ⟨x, y, 0⟩, []⟩

/-- C119 on fields in the Netherlands: in the Dutch system, ETRS89 is chosen if allowed; in EPSG:4326 it is not chosen
though allowed, in EPSG:4258 it is though not allowed; without a system it is guessed. -/
example : (∃ g, Transform.toUTM still (placed "EPSG:28992".toList 5 52) true = .ok g ∧
      g.crs = "UTM:31N datum:ETRS89".toList ∧ g.prevCrs = "EPSG:28992".toList) ∧
    (∃ g, Transform.toUTM still (placed "EPSG:28992".toList 5 52) false = .ok g ∧ Names g.crs (⟨5, 52, 0⟩ : Point ℚ) False) ∧
    (∃ g, Transform.toUTM still (placed "EPSG:4326".toList 5 52) true = .ok g ∧ Names g.crs (⟨5, 52, 0⟩ : Point ℚ) False) ∧
    (∃ g, Transform.toUTM still (placed "EPSG:4258".toList 5 52) false = .ok g ∧ Names g.crs (⟨5, 52, 0⟩ : Point ℚ) True) ∧
    (∃ g, Transform.toUTM still (placed [] 5 52) true = .ok g ∧ Names g.crs (⟨5, 52, 0⟩ : Point ℚ) True) ∧
    (∃ g, Transform.toUTM still (placed "EPSG:4326".toList 180 52) true = .ok g ∧ "UTM:61".toList <+: g.crs) ∧
    Transform.toUTM still (placed [] 500000 52) true = .throw .invalidArgument := by
  have a : Transform.toUTM still (placed "EPSG:28992".toList 5 52) true = .ok
      ⟨[], "UTM:31N datum:ETRS89".toList, "EPSG:28992".toList, ⟨5, 52, 0⟩, []⟩ := by decide +kernel
  have b : Transform.toUTM still (placed "EPSG:28992".toList 5 52) false = .ok
      ⟨[], "UTM:31N datum:WGS84".toList, "EPSG:28992".toList, ⟨5, 52, 0⟩, []⟩ := by decide +kernel
  have c : Transform.toUTM still (placed "EPSG:4326".toList 5 52) true = .ok
      ⟨[], "UTM:31N datum:WGS84".toList, "EPSG:4326".toList, ⟨5, 52, 0⟩, []⟩ := by decide +kernel
  have d : Transform.toUTM still (placed "EPSG:4258".toList 5 52) false = .ok
      ⟨[], "UTM:31N datum:ETRS89".toList, "EPSG:4258".toList, ⟨5, 52, 0⟩, []⟩ := by decide +kernel
  have e : Transform.toUTM still (placed [] 5 52) true = .ok
      ⟨[], "UTM:31N datum:ETRS89".toList, "EPSG:4258".toList, ⟨5, 52, 0⟩, []⟩ := by decide +kernel
  have l : Transform.toUTM still (placed "EPSG:4326".toList 180 52) true = .ok
      ⟨[], "UTM:61N datum:WGS84".toList, "EPSG:4326".toList, ⟨180, 52, 0⟩, []⟩ := by decide +kernel
  refine ⟨⟨_, a, rfl, rfl⟩, ⟨_, b, ?_⟩, ⟨_, c, ?_⟩, ⟨_, d, ?_⟩, ⟨_, e, ?_⟩, ⟨_, l, ?_⟩, ?_⟩
  · obtain ⟨k, hk, -, -, h⟩ := C119_other still _ _ false ⟨by decide, by decide, by decide⟩ b
    have hk' : Transform.field still (placed "EPSG:28992".toList 5 52) "EPSG:4326".toList = .ok
      ⟨[], "EPSG:4326".toList, "EPSG:28992".toList, ⟨5, 52, 0⟩, []⟩ := by decide +kernel
    rw [hk'] at hk
    cases hk
    exact h (by simp)
  · have := (C119_gps still _ _ true (.inr rfl) c).1
    simpa [placed] using this
  · have := (C119_gps still _ _ false (.inl rfl) d).1
    simpa [placed] using this
  · exact (((C119_none still _ true rfl (by decide +kernel)).1 _ e).1 ⟨rfl, by norm_num [Europe, placed]⟩).1
  · exact (C119_date_line still _ true (.inr rfl)).1 rfl _ l
  · exact (C119_none still _ true rfl (by decide +kernel)).2 (by norm_num [placed])

end F2C.Props
