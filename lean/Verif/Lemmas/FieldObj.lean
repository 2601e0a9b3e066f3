import Mathlib.Tactic.Ring
import Mathlib.Tactic.Linarith
import Mathlib.Algebra.Order.Floor.Ring
import Verif.Lemmas.Text
import Verif.Lemmas.Border
import Verif.Props.FieldSpec

/-! # Lemmas about fields and coordinate systems -/

set_option linter.unusedSimpArgs false
set_option linter.unusedVariables false
set_option linter.unusedSectionVars false

namespace F2C

open Text Props.FieldSpec

variable {K : Type} [Field K] [LinearOrder K]

theorem Point.sub_add_cancel' (p r : Point K) : (p.sub r).add r = p := by
  ext <;> simp [Point.sub, Point.add]

theorem Point.add_sub_cancel'' (p r : Point K) : (p.add r).sub r = p := by
  ext <;> simp [Point.sub, Point.add]

theorem Point.zero_add' (r : Point K) : Point.add ⟨0, 0, 0⟩ r = r := by
  ext <;> simp [Point.add]

theorem Point.sub_self' (r : Point K) : r.sub r = ⟨0, 0, 0⟩ := by
  ext <;> simp [Point.sub]

/-! ### Normal cells -/

/-- Rings are closed and there are no cells that consist of empty rings only. -/
def NormalCell (c : Cell K) : Prop := (cellsOps.empty c = true → c = []) ∧ ∀ r ∈ c, r.head? = r.getLast?

/-- The form of all cells that come out of a shift. -/
def Normal (cs : Cells K) : Prop := (Cells.isEmpty cs = true → cs = []) ∧ ∀ c ∈ cs, NormalCell c

theorem closeRing_eq {r : Ring K} (h : r.head? = r.getLast?) : closeRing r = r := by
  rw [closeRing, if_pos h]

theorem closeRing_closed (r : Ring K) : (closeRing r).head? = (closeRing r).getLast? := by
  unfold closeRing
  by_cases h : r.head? = r.getLast?
  · rw [if_pos h]
    exact h
  · rw [if_neg h]
    cases r with
    | nil => rfl
    | cons a r =>
      rw [show (a :: r).take 1 = [a] from rfl, List.getLast?_append]
      rfl

theorem closeRing_isEmpty (r : Ring K) : (closeRing r).isEmpty = r.isEmpty := by
  unfold closeRing
  by_cases h : r.head? = r.getLast?
  · rw [if_pos h]
  · rw [if_neg h]
    cases r <;> simp

theorem head_map_closed {r : Ring K} (g : Point K → Point K) (h : r.head? = r.getLast?) :
    (r.map g).head? = (r.map g).getLast? := by
  rw [List.head?_map, List.getLast?_map, h]

theorem empty_onPoints (g : Point K → Point K) (c : Cell K) :
    cellsOps.empty (c.map fun r => r.map g) = cellsOps.empty c := by
  simp only [cellsOps, List.all_map]
  congr 1
  funext r
  simp

theorem isEmpty_onPoints (g : Point K → Point K) (cs : Cells K) :
    Cells.isEmpty (onPoints g cs) = Cells.isEmpty cs := by
  simp only [Cells.isEmpty, onPoints, List.all_map]
  congr 1
  funext c
  exact empty_onPoints g c

theorem mapCell_eq {c : Cell K} (h : NormalCell c) (g : Point K → Point K) :
    mapCell g c = c.map fun r => r.map g := by
  unfold mapCell
  by_cases he : cellsOps.empty c = true
  · rw [if_pos he, h.1 he]
    rfl
  · rw [if_neg he]
    exact List.map_congr_left fun r hr => closeRing_eq (head_map_closed g (h.2 r hr))

theorem mapCells_eq {cs : Cells K} (h : Normal cs) (g : Point K → Point K) :
    mapCells g cs = onPoints g cs := by
  unfold mapCells
  by_cases he : Cells.isEmpty cs = true
  · rw [if_pos he, h.1 he]
    rfl
  · rw [if_neg he]
    exact List.map_congr_left fun c hc => mapCell_eq (h.2 c hc) g

theorem empty_mapCell (g : Point K → Point K) (c : Cell K) :
    cellsOps.empty (mapCell g c) = cellsOps.empty c := by
  unfold mapCell
  by_cases he : cellsOps.empty c = true
  · rw [if_pos he, he]
    rfl
  · rw [if_neg he]
    simp only [cellsOps, List.all_map]
    congr 1
    funext r
    simp [closeRing_isEmpty]

theorem isEmpty_mapCells (g : Point K → Point K) (cs : Cells K) :
    Cells.isEmpty (mapCells g cs) = Cells.isEmpty cs := by
  unfold mapCells
  by_cases he : Cells.isEmpty cs = true
  · rw [if_pos he, he]
    rfl
  · rw [if_neg he]
    simp only [Cells.isEmpty, List.all_map]
    congr 1
    funext c
    simp [empty_mapCell]

theorem mapCell_normal (g : Point K → Point K) (c : Cell K) : NormalCell (mapCell g c) := by
  constructor
  · intro h
    rw [empty_mapCell] at h
    rw [mapCell, if_pos h]
  · intro r hr
    unfold mapCell at hr
    by_cases he : cellsOps.empty c = true
    · rw [if_pos he] at hr
      simp at hr
    · rw [if_neg he] at hr
      obtain ⟨r', _, rfl⟩ := List.mem_map.1 hr
      exact closeRing_closed _

theorem mapCells_normal (g : Point K → Point K) (cs : Cells K) : Normal (mapCells g cs) := by
  constructor
  · intro h
    rw [isEmpty_mapCells] at h
    rw [mapCells, if_pos h]
  · intro c hc
    unfold mapCells at hc
    by_cases he : Cells.isEmpty cs = true
    · rw [if_pos he] at hc
      simp at hc
    · rw [if_neg he] at hc
      obtain ⟨c', _, rfl⟩ := List.mem_map.1 hc
      exact mapCell_normal g c'

theorem onPoints_normal {cs : Cells K} (h : Normal cs) (g : Point K → Point K) :
    Normal (onPoints g cs) := by
  rw [← mapCells_eq h]
  exact mapCells_normal g cs

theorem Props.FieldSpec.WellFormed.normal {cs : Cells K} (h : WellFormed cs) : Normal cs := by
  constructor
  · intro he
    cases cs with
    | nil => rfl
    | cons c cs =>
      simp only [Cells.isEmpty, List.all_cons, Bool.and_eq_true, cellsOps] at he
      obtain ⟨h1, h2⟩ := h c List.mem_cons_self
      cases c with
      | nil => exact absurd rfl h1
      | cons r c =>
        simp only [List.all_cons, Bool.and_eq_true, List.isEmpty_iff] at he
        exact absurd he.1.1 (h2 r List.mem_cons_self).1
  · intro c hc
    obtain ⟨h1, h2⟩ := h c hc
    refine ⟨fun he => ?_, fun r hr => (h2 r hr).2⟩
    cases c with
    | nil => rfl
    | cons r c =>
      simp only [cellsOps, List.all_cons, Bool.and_eq_true, List.isEmpty_iff] at he
      exact absurd he.1 (h2 r List.mem_cons_self).1

theorem onPoints_onPoints (g h : Point K → Point K) (cs : Cells K) :
    onPoints h (onPoints g cs) = onPoints (fun p => h (g p)) cs := by
  simp [onPoints, List.map_map, Function.comp_def]

theorem onPoints_id {g : Point K → Point K} (h : ∀ p, g p = p) (cs : Cells K) : onPoints g cs = cs := by
  have : g = id := funext h
  simp [onPoints, this]

theorem mapCells_mapCells (g h : Point K → Point K) (cs : Cells K) :
    mapCells h (mapCells g cs) = onPoints h (mapCells g cs) :=
  mapCells_eq (mapCells_normal g cs) h

theorem Props.FieldSpec.First.firstPoint {cs : Cells K} {p : Point K} : First cs p ↔ cs.firstPoint = .ok p := by
  constructor
  · rintro ⟨r, rings, cells, rfl⟩
    rfl
  · intro h
    match cs, h with
    | [], h => cases h
    | [] :: _, h => cases h
    | ([] :: _) :: _, h => cases h
    | ((q :: r) :: rings) :: cells, h =>
      cases h
      exact ⟨r, rings, cells, rfl⟩

theorem Props.FieldSpec.First.onPoints {cs : Cells K} {p : Point K} (h : First cs p) (g : Point K → Point K) :
    First (onPoints g cs) (g p) := by
  obtain ⟨r, rings, cells, rfl⟩ := h
  exact ⟨r.map g, rings.map fun r => r.map g, cells.map fun c => c.map fun r => r.map g, rfl⟩

theorem Props.FieldSpec.First.of_onPoints {cs : Cells K} {q : Point K} {g : Point K → Point K}
    (h : First (Props.FieldSpec.onPoints g cs) q) : ∃ p, First cs p ∧ g p = q := by
  obtain ⟨r, rings, cells, h⟩ := h
  match cs, h with
  | ((p :: r') :: rings') :: cells', h =>
    simp only [Props.FieldSpec.onPoints, List.map_cons, List.cons.injEq] at h
    exact ⟨p, ⟨r', rings', cells', rfl⟩, h.1.1.1⟩

theorem Props.FieldSpec.First.unique {cs : Cells K} {p q : Point K} (h : First cs p) (h2 : First cs q) : p = q := by
  have := (First.firstPoint.1 h).symm.trans (First.firstPoint.1 h2)
  cases this
  rfl

theorem Props.FieldSpec.First.not_isEmpty {cs : Cells K} {p : Point K} (h : First cs p) : Cells.isEmpty cs = false := by
  obtain ⟨r, rings, cells, rfl⟩ := h
  simp [Cells.isEmpty, cellsOps]

theorem Props.FieldSpec.WellFormed.first {cs : Cells K} (h : WellFormed cs) (hne : cs ≠ []) : ∃ p, First cs p := by
  match cs, hne with
  | c :: cs, _ =>
    obtain ⟨h1, h2⟩ := h c List.mem_cons_self
    match c, h1 with
    | r :: c, _ =>
      have h3 := (h2 r List.mem_cons_self).1
      match r, h3 with
      | p :: r, _ => exact ⟨p, r, c, cs, rfl⟩

/-- A shift keeps the first point of any cells that have one. -/
theorem Props.FieldSpec.First.mapCells {cs : Cells K} {p : Point K} (h : First cs p) (g : Point K → Point K) :
    First (mapCells g cs) (g p) := by
  have he := h.not_isEmpty
  obtain ⟨r, rings, cells, rfl⟩ := h
  rw [F2C.mapCells, if_neg (by simp [he]), List.map_cons, mapCell, if_neg (by simp [cellsOps]),
    List.map_cons, List.map_cons]
  unfold closeRing
  by_cases hc : (g p :: r.map g).head? = (g p :: r.map g).getLast?
  · rw [if_pos hc]
    exact ⟨_, _, _, rfl⟩
  · rw [if_neg hc]
    exact ⟨_, _, _, rfl⟩

theorem Props.FieldSpec.First.of_mapCells {cs : Cells K} {q : Point K} {g : Point K → Point K}
    (h : First (F2C.mapCells g cs) q) : ∃ p, First cs p ∧ g p = q := by
  match cs, h with
  | [], ⟨_, _, _, h⟩ => simp [F2C.mapCells, Cells.isEmpty] at h
  | [] :: cells, h =>
    exfalso
    obtain ⟨r, rings, cs, h⟩ := h
    unfold F2C.mapCells at h
    split at h
    · simp at h
    · simp [mapCell, cellsOps] at h
  | ([] :: rings') :: cells, h =>
    exfalso
    obtain ⟨r, rings, cs, h⟩ := h
    unfold F2C.mapCells at h
    split at h
    · simp at h
    · rw [List.map_cons] at h
      unfold mapCell at h
      split at h
      · simp at h
      · simp [closeRing] at h
  | ((p :: r) :: rings) :: cells, h =>
    have h2 : First (((p :: r) :: rings) :: cells) p := ⟨r, rings, cells, rfl⟩
    exact ⟨p, h2, (h2.mapCells g).unique h⟩

/-! ### Fields -/

namespace FieldObj

theorem absCells_normal (f : FieldObj K) : Normal f.absCells := mapCells_normal _ _

theorem isEmpty_absCells (f : FieldObj K) : Cells.isEmpty f.absCells = Cells.isEmpty f.cells :=
  isEmpty_mapCells _ _

theorem make_first {cs : Cells K} {p : Point K} (h : First cs p) (id : Str) :
    make cs id = .ok ⟨id, [], [], p, mapCells (fun q => q.sub p) cs⟩ := by
  rw [make, if_neg (by simp [h.not_isEmpty]), First.firstPoint.1 h]
  rfl

theorem make_empty {cs : Cells K} (h : Cells.isEmpty cs = true) (id : Str) :
    make cs id = .ok ⟨id, [], [], ⟨0, 0, 0⟩, []⟩ := by
  rw [make, if_pos h, mapCells, if_pos h]
  rfl

theorem make_ok {cs : Cells K} {id : Str} {f : FieldObj K} (h : make cs id = .ok f) :
    f.id = id ∧ f.crs = [] ∧ f.prevCrs = [] ∧ f.cells = mapCells (fun q => q.sub f.ref) cs ∧
      (Cells.isEmpty cs = true → f.ref = ⟨0, 0, 0⟩) ∧ (Cells.isEmpty cs = false → First cs f.ref) := by
  by_cases he : Cells.isEmpty cs = true
  · rw [make, if_pos he] at h
    cases h
    exact ⟨rfl, rfl, rfl, rfl, fun _ => rfl, fun h => by simp [he] at h⟩
  · rw [make, if_neg he] at h
    cases hf : cs.firstPoint with
    | ok p =>
      rw [hf] at h
      cases h
      exact ⟨rfl, rfl, rfl, rfl, fun h => absurd h he, fun _ => First.firstPoint.2 hf⟩
    | throw e =>
      rw [hf] at h
      cases h
    | ub m =>
      rw [hf] at h
      cases h

theorem absCells_of_shift {r : Point K} {cs : Cells K} {f : FieldObj K} (hn : Normal cs) (hr : f.ref = r)
    (hc : f.cells = mapCells (fun q => q.sub r) cs) : f.absCells = cs := by
  rw [absCells, hc, hr, mapCells_mapCells, mapCells_eq hn, onPoints_onPoints]
  exact onPoints_id (fun p => Point.sub_add_cancel' p r) cs

theorem clone_ok {f g : FieldObj K} (h : f.clone = .ok g) :
    g.id = f.id ∧ g.crs = f.crs ∧ g.prevCrs = [] ∧ g.absCells = f.absCells ∧
      (Cells.isEmpty f.cells = true → g.ref = ⟨0, 0, 0⟩) ∧
      (Cells.isEmpty f.cells = false → First f.absCells g.ref) := by
  rw [clone] at h
  cases hm : make f.absCells f.id with
  | ok n =>
    rw [hm] at h
    cases h
    obtain ⟨h1, h2, h3, h4, h5, h6⟩ := make_ok hm
    rw [isEmpty_absCells] at h5 h6
    exact ⟨h1, rfl, h3, absCells_of_shift f.absCells_normal rfl h4, h5, h6⟩
  | throw e =>
    rw [hm] at h
    cases h
  | ub m =>
    rw [hm] at h
    cases h

/-- First point of the absolute position. -/
theorem first_absCells {f : FieldObj K} {p : Point K} (h : First f.cells p) :
    First f.absCells (p.add f.ref) := h.mapCells _

end FieldObj

/-! ### Transformations -/

theorem coordTransf_ok {proj : Proj K} {src dst : Str} {t : Point K → Point K}
    (h : coordTransf proj src dst = .ok t) :
    ∃ a b, Crs.sptRef src false = .ok a ∧ Crs.sptRef dst false = .ok b ∧ proj a b = some t := by
  unfold coordTransf at h
  cases ha : Crs.sptRef src false with
  | throw e =>
    rw [ha] at h
    cases h
  | ub m =>
    rw [ha] at h
    cases h
  | ok a =>
    rw [ha, Outcome.ok_bind] at h
    cases hb : Crs.sptRef dst false with
    | throw e =>
      rw [hb] at h
      cases h
    | ub m =>
      rw [hb] at h
      cases h
    | ok b =>
      rw [hb, Outcome.ok_bind] at h
      cases hp : proj a b with
      | none =>
        rw [hp] at h
        cases h
      | some f =>
        rw [hp] at h
        cases h
        exact ⟨a, b, rfl, rfl, hp⟩

theorem Transform.field_ok {proj : Proj K} {f g : FieldObj K} {dst : Str}
    (h : Transform.field proj f dst = .ok g) :
    ∃ t, coordTransf proj f.crs dst = .ok t ∧ g.id = f.id ∧ g.crs = dst ∧ g.prevCrs = f.crs ∧
      g.absCells = onPoints t f.absCells ∧
      (Cells.isEmpty f.cells = true → g.cells = f.cells ∧ g.ref = t f.ref) ∧
      (Cells.isEmpty f.cells = false → Cells.isEmpty g.cells = false ∧
        First (onPoints t f.absCells) g.ref ∧
        g.cells = onPoints (fun q => q.sub g.ref) (onPoints t f.absCells)) := by
  unfold Transform.field at h
  cases ht : coordTransf proj f.crs dst with
  | throw e =>
    rw [ht] at h
    cases h
  | ub m =>
    rw [ht] at h
    cases h
  | ok t =>
    rw [ht, Outcome.ok_bind] at h
    by_cases he : Cells.isEmpty f.cells = true
    · rw [if_pos he] at h
      cases h
      refine ⟨t, rfl, rfl, rfl, rfl, ?_, fun _ => ⟨rfl, rfl⟩, fun h => by simp [he] at h⟩
      simp only [FieldObj.absCells, mapCells, if_pos he]
      rfl
    · rw [if_neg he] at h
      have hn : Normal (onPoints t f.absCells) := onPoints_normal f.absCells_normal t
      change (do
        let r ← Cells.firstPoint (onPoints t f.absCells)
        return { f with ref := r, cells := mapCells (fun p => p.sub r) (onPoints t f.absCells), prevCrs := f.crs, crs := dst }) = _ at h
      cases hf : Cells.firstPoint (onPoints t f.absCells) with
      | throw e =>
        rw [hf] at h
        cases h
      | ub m =>
        rw [hf] at h
        cases h
      | ok r =>
        rw [hf] at h
        cases h
        refine ⟨t, rfl, rfl, rfl, rfl, FieldObj.absCells_of_shift hn rfl rfl,
          fun h => absurd h he, fun _ => ⟨?_, First.firstPoint.2 hf, mapCells_eq hn _⟩⟩
        show Cells.isEmpty (mapCells _ _) = _
        rw [isEmpty_mapCells, isEmpty_onPoints, FieldObj.isEmpty_absCells]
        simpa using he

/-- The transformation succeeds if there is one for the two systems and the field has a first point or
is empty. -/
theorem Transform.field_succeeds {proj : Proj K} {f : FieldObj K} {dst : Str} {t : Point K → Point K}
    (h : coordTransf proj f.crs dst = .ok t)
    (hf : Cells.isEmpty f.cells = true ∨ ∃ p, First f.cells p) :
    ∃ g, Transform.field proj f dst = .ok g := by
  unfold Transform.field
  rw [h, Outcome.ok_bind]
  by_cases he : Cells.isEmpty f.cells = true
  · rw [if_pos he]
    exact ⟨_, rfl⟩
  · rw [if_neg he]
    obtain ⟨p, hp⟩ := hf.resolve_left he
    have h2 := First.firstPoint.1 ((FieldObj.first_absCells hp).onPoints t)
    unfold onPoints at h2
    simp only [h2, Outcome.ok_bind]
    exact ⟨_, rfl⟩

/-! ### Names of coordinate systems -/

theorem utmName_shape (z : Nat) (north etrs : Bool) :
    ∃ c r, (c = if north then 'N' else 'S') ∧
      Transform.utmName z north etrs = 'U' :: 'T' :: 'M' :: ':' :: (natStr z ++ c :: r) := by
  refine ⟨if north then 'N' else 'S', " datum:".toList ++
    (if etrs then "ETRS89".toList else "WGS84".toList), rfl, ?_⟩
  cases north <;> simp [Transform.utmName]

theorem utmSystem_utmName (z : Nat) (north etrs : Bool) (d : Str) :
    Crs.utmSystem (Transform.utmName z north etrs) d = natStr z ++ [if north then 'N' else 'S'] := by
  obtain ⟨c, r, hc, e⟩ := utmName_shape z north etrs
  obtain ⟨h1, h2, -⟩ := natStr_spec z
  have hd : c.isDigit = false := by subst hc; cases north <;> decide
  have hw : isWord c = true := by subst hc; cases north <;> decide
  have hg := utmGroup_spec h1 h2 hd hw r
  rw [Crs.utmSystem, e, show "UTM".toList = ['U', 'T', 'M'] from rfl, search,
    if_pos (by simp [List.isPrefixOf_cons_cons])]
  simp only [List.length_cons, List.length_nil, List.drop_succ_cons, List.drop_zero, hg,
    Option.getD_some]
  rw [hc]

theorem isEPSG_utmName (z : Nat) (north etrs : Bool) :
    Crs.isEPSG (Transform.utmName z north etrs) = false := by
  refine contains_eq_false 'P' (by decide) ?_
  obtain ⟨-, h2, -⟩ := natStr_spec z
  have h3 : 'P' ∉ natStr z := fun h => absurd (h2 _ h) (by decide)
  simp only [Transform.utmName, List.mem_append, not_or]
  refine ⟨⟨⟨⟨by decide, h3⟩, ?_⟩, by decide⟩, ?_⟩
  · cases north <;> decide
  · cases etrs <;> decide

theorem isUTM_utmName (z : Nat) (north etrs : Bool) :
    Crs.isUTM (Transform.utmName z north etrs) = true := by
  obtain ⟨c, r, hc, e⟩ := utmName_shape z north etrs
  exact contains_iff.2 ⟨[], natStr z ++ c :: r, by rw [e]; rfl⟩

theorem sptRef_utmName (z : Nat) (north etrs : Bool) :
    ∃ r, Crs.sptRef (Transform.utmName z north etrs) false = .ok r := by
  have hne : Transform.utmName z north etrs ≠ [] := by
    obtain ⟨c, r, hc, e⟩ := utmName_shape z north etrs
    rw [e]
    simp
  obtain ⟨h1, -, -⟩ := natStr_spec z
  have hl : 2 ≤ (natStr z ++ [if north then 'N' else 'S']).length := by
    have := List.length_pos_iff.2 h1
    simp only [List.length_append, List.length_singleton]
    omega
  unfold Crs.sptRef
  rw [if_neg (fun h => hne h.1), if_neg (by simp [isEPSG_utmName]), if_pos (isUTM_utmName z north etrs)]
  simp only [Crs.utmZone, Crs.utmHemisphere, utmSystem_utmName, substr, if_neg (Nat.not_lt.2 (Nat.zero_le _)),
    gt_iff_lt, if_neg (Nat.not_lt.2 hl), Outcome.ok_bind]
  generalize List.take 1 (List.drop 2 _) = h
  by_cases c1 : h = ['n'] ∨ h = ['N']
  · rw [if_pos c1]
    exact ⟨_, rfl⟩
  · rw [if_neg c1]
    by_cases c2 : h = ['s'] ∨ h = ['S']
    · rw [if_pos c2]
      exact ⟨_, rfl⟩
    · rw [if_neg c2]
      exact ⟨_, rfl⟩

theorem cloneSwaths_ok (l : Swaths K) (h : ∀ s ∈ l, 0 < s.width) :
    Swaths.clone l = .ok (l.map fun s => { s with type := .mainland }) := by
  induction l with
  | nil => rfl
  | cons s l ih =>
    have hs : s.clone = .ok { s with type := .mainland } := by
      rw [Swath.clone, Swath.make, Swath.setWidth, if_neg (not_le.2 (h s List.mem_cons_self))]
      rfl
    rw [Swaths.clone, hs, Outcome.ok_bind, ih fun x hx => h x (List.mem_cons_of_mem _ hx)]
    rfl

theorem cloneGroups_ok (gs : List (Swaths K)) (h : ∀ g ∈ gs, ∀ s ∈ g, 0 < s.width) :
    Route.cloneGroups gs = .ok (gs.map fun g => g.map fun s => { s with type := .mainland }) := by
  induction gs with
  | nil => rfl
  | cons g gs ih =>
    rw [Route.cloneGroups, cloneSwaths_ok g (h g List.mem_cons_self), Outcome.ok_bind,
      ih fun x hx => h x (List.mem_cons_of_mem _ hx)]
    rfl

theorem mapOutcome_map {α β : Type} {f : α → Outcome β} {g : α → β} {l : List α}
    (h : ∀ a ∈ l, f a = .ok (g a)) : mapOutcome f l = .ok (l.map g) := by
  induction l with
  | nil => rfl
  | cons a l ih =>
    simp [mapOutcome, h a List.mem_cons_self, ih fun x hx => h x (List.mem_cons_of_mem _ hx)]

/-! ### Fields in other coordinate systems -/

/-- `g` is `f` in another coordinate system. -/
structure Moved (proj : Proj K) (f g : FieldObj K) : Prop where
  ex : ∃ a c t, Crs.sptRef f.crs false = .ok a ∧ Crs.sptRef g.crs false = .ok c ∧ proj a c = some t ∧
    g.absCells = onPoints t f.absCells ∧ (Cells.isEmpty f.cells = true → g.ref = t f.ref)
  id : g.id = f.id
  isEmpty : Cells.isEmpty g.cells = Cells.isEmpty f.cells
  empty : Cells.isEmpty f.cells = true → g.cells = f.cells
  first : Cells.isEmpty f.cells = false → First g.absCells g.ref
  cells : Cells.isEmpty f.cells = false → g.cells = onPoints (fun q => q.sub g.ref) g.absCells

theorem Moved.trans {proj : Proj K} (hc : Consistent proj) {f g h : FieldObj K}
    (h1 : Moved proj f g) (h2 : Moved proj g h) : Moved proj f h := by
  obtain ⟨a, b, t, ha, hb, hp, e1, e2⟩ := h1.ex
  obtain ⟨b', c, u, hb', hcc, hp', e3, e4⟩ := h2.ex
  rw [hb] at hb'
  cases hb'
  obtain ⟨v, hv, hcomp⟩ := hc.comp a b c t u hp hp'
  have hf : v = fun p => u (t p) := funext hcomp
  refine ⟨⟨a, c, v, ha, hcc, hv, ?_, ?_⟩, h2.id.trans h1.id, h2.isEmpty.trans h1.isEmpty, ?_, ?_, ?_⟩
  · rw [e3, e1, onPoints_onPoints, hf]
  · intro he
    rw [e4 (h1.isEmpty.trans he), e2 he, hf]
  · intro he
    rw [h2.empty (h1.isEmpty.trans he), h1.empty he]
  · exact fun he => h2.first (h1.isEmpty.trans he)
  · exact fun he => h2.cells (h1.isEmpty.trans he)

theorem field_moved {proj : Proj K} {f g : FieldObj K} {dst : Str}
    (h : Transform.field proj f dst = .ok g) : Moved proj f g ∧ g.crs = dst ∧ g.prevCrs = f.crs := by
  obtain ⟨t, ht, h1, h2, h3, h4, h5, h6⟩ := Transform.field_ok h
  obtain ⟨a, b, ha, hb, hp⟩ := coordTransf_ok ht
  refine ⟨⟨⟨a, b, t, ha, by rw [h2]; exact hb, hp, h4, fun he => (h5 he).2⟩, h1, ?_, fun he => (h5 he).1, ?_, ?_⟩,
    h2, h3⟩
  · by_cases he : Cells.isEmpty f.cells = true
    · rw [(h5 he).1]
    · rw [(h6 (by simpa using he)).1]
      simpa using he
  · intro he
    rw [h4]
    exact (h6 he).2.1
  · intro he
    rw [h4]
    exact (h6 he).2.2

theorem Moved.setPrev {proj : Proj K} {f g : FieldObj K} (s : Str) (h : Moved proj f g) :
    Moved proj f { g with prevCrs := s } :=
  ⟨h.ex, h.id, h.isEmpty, h.empty, h.first, h.cells⟩

theorem toUTM_moved [FloorRing K] {proj : Proj K} (hc : Consistent proj) {f g : FieldObj K} {opt : Bool}
    (hne : f.crs ≠ []) (h : Transform.toUTM proj f opt = .ok g) : Moved proj f g ∧ g.prevCrs = f.crs := by
  have key : ∀ e, Moved proj f e ∨ e = f → (do
      let z ← Transform.zone e.ref.x
      let h ← Transform.field proj e
        (Transform.utmName z (decide (e.ref.y > 0)) (decide (e.crs = Transform.etrs89)))
      pure { h with prevCrs := f.crs } : Outcome (FieldObj K)) = .ok g →
      Moved proj f g ∧ g.prevCrs = f.crs := by
    intro e he h
    cases hz : Transform.zone e.ref.x with
    | throw e =>
      rw [hz] at h
      cases h
    | ub m =>
      rw [hz] at h
      cases h
    | ok z =>
      rw [hz, Outcome.ok_bind] at h
      cases hf : Transform.field proj e
          (Transform.utmName z (decide (e.ref.y > 0)) (decide (e.crs = Transform.etrs89))) with
      | throw e =>
        rw [hf] at h
        cases h
      | ub m =>
        rw [hf] at h
        cases h
      | ok k =>
        rw [hf] at h
        cases h
        have hk := (field_moved hf).1
        refine ⟨Moved.setPrev _ ?_, rfl⟩
        rcases he with he | rfl
        · exact he.trans hc hk
        · exact hk
  unfold Transform.toUTM at h
  by_cases h1 : f.crs ≠ [] ∧ f.crs ≠ Transform.etrs89 ∧ f.crs ≠ Transform.wgs84
  · rw [if_pos h1] at h
    cases hg : Transform.toGps proj f opt with
    | throw e =>
      rw [hg] at h
      cases h
    | ub m =>
      rw [hg] at h
      cases h
    | ok e =>
      rw [hg, Outcome.ok_bind] at h
      simp only [if_neg hne] at h
      refine key e (.inl ?_) h
      unfold Transform.toGps at hg
      cases hf : Transform.field proj f Transform.wgs84 with
      | throw e =>
        rw [hf] at hg
        cases hg
      | ub m =>
        rw [hf] at hg
        cases hg
      | ok k =>
        rw [hf, Outcome.ok_bind] at hg
        have hk := (field_moved hf).1
        split at hg
        · exact hk.trans hc (field_moved hg).1
        · cases hg
          exact hk
  · rw [if_neg h1, if_neg hne, Outcome.ok_bind] at h
    simp only [if_neg hne] at h
    exact key f (.inr rfl) h

theorem toUTM_name [FloorRing K] {proj : Proj K} {f g : FieldObj K} {opt : Bool}
    (h : Transform.toUTM proj f opt = .ok g) : ∃ z north etrs, g.crs = Transform.utmName z north etrs := by
  have key : ∀ (c : Str) (x : Outcome (FieldObj K)), (x >>= fun e => do
      let z ← Transform.zone e.ref.x
      let h ← Transform.field proj e
        (Transform.utmName z (decide (e.ref.y > 0)) (decide (e.crs = Transform.etrs89)))
      pure { h with prevCrs := if c = [] then e.crs else c } : Outcome (FieldObj K)) = .ok g →
      ∃ z north etrs, g.crs = Transform.utmName z north etrs := by
    intro c x h
    cases x with
    | throw e => cases h
    | ub m => cases h
    | ok e =>
      rw [Outcome.ok_bind] at h
      cases hz : Transform.zone e.ref.x with
      | throw e => rw [hz] at h; cases h
      | ub m => rw [hz] at h; cases h
      | ok z =>
        rw [hz, Outcome.ok_bind] at h
        cases hf : Transform.field proj e
            (Transform.utmName z (decide (e.ref.y > 0)) (decide (e.crs = Transform.etrs89))) with
        | throw e => rw [hf] at h; cases h
        | ub m => rw [hf] at h; cases h
        | ok k =>
          rw [hf] at h
          cases h
          exact ⟨_, _, _, (field_moved hf).2.1⟩
  unfold Transform.toUTM at h
  by_cases h1 : f.crs ≠ [] ∧ f.crs ≠ Transform.etrs89 ∧ f.crs ≠ Transform.wgs84
  · rw [if_pos h1] at h
    exact key f.crs _ h
  · rw [if_neg h1] at h
    by_cases h2 : f.crs = []
    · rw [if_pos h2] at h
      exact key f.crs _ h
    · rw [if_neg h2] at h
      exact key f.crs _ h

theorem cloneSwaths_width : ∀ (l l' : Swaths K), Swaths.clone l = .ok l' → ∀ s ∈ l, 0 < s.width
  | [], _, _ => by simp
  | s :: l, l', h => by
    rw [Swaths.clone] at h
    have hs : ¬ s.width ≤ 0 := by
      intro hw
      rw [Swath.clone, Swath.make, Swath.setWidth, if_pos hw] at h
      cases h
    cases hc : s.clone with
    | throw e => rw [hc] at h; cases h
    | ub m => rw [hc] at h; cases h
    | ok c =>
      rw [hc, Outcome.ok_bind] at h
      cases hl : Swaths.clone l with
      | throw e => rw [hl] at h; cases h
      | ub m => rw [hl] at h; cases h
      | ok l2 =>
        intro x hx
        rcases List.mem_cons.1 hx with rfl | hx
        · exact not_le.1 hs
        · exact cloneSwaths_width l l2 hl x hx

theorem cloneGroups_width : ∀ (gs gs' : List (Swaths K)), Route.cloneGroups gs = .ok gs' →
    ∀ g ∈ gs, ∀ s ∈ g, 0 < s.width
  | [], _, _ => by simp
  | g :: gs, gs', h => by
    rw [Route.cloneGroups] at h
    cases hc : Swaths.clone g with
    | throw e => rw [hc] at h; cases h
    | ub m => rw [hc] at h; cases h
    | ok c =>
      rw [hc, Outcome.ok_bind] at h
      cases hl : Route.cloneGroups gs with
      | throw e => rw [hl] at h; cases h
      | ub m => rw [hl] at h; cases h
      | ok l2 =>
        intro x hx
        rcases List.mem_cons.1 hx with rfl | hx
        · exact cloneSwaths_width _ _ hc
        · exact cloneGroups_width gs l2 hl x hx

end F2C
