import Verif.Model.DoubleField
import Verif.Lemmas.DoubleExact
import Verif.Lemmas.DoubleSteps
import Verif.Lemmas.FieldObj

/-! # C131: fields keep their absolute position in double precision -/

namespace F2C.Props

open Dbl FieldSpec

variable {fl : ℝ → ℝ}

namespace DoubleFieldSpec

/-- The coordinates are of type `double`. -/
def Doubles (p : Point ℝ) : Prop := IsDouble p.x ∧ IsDouble p.y ∧ IsDouble p.z

/-- A coordinate that is near to that of the reference point: within a factor of two, or both multiples of a power of two and
not more than 2^53 of it apart. -/
def Near (r x : ℝ) : Prop :=
  (0 ≤ r ∧ r / 2 ≤ x ∧ x ≤ 2 * r) ∨ (r ≤ 0 ∧ 2 * r ≤ x ∧ x ≤ r / 2) ∨
  ∃ k m n : ℤ, -1074 ≤ k ∧ x = m * (2 : ℝ) ^ k ∧ r = n * (2 : ℝ) ^ k ∧ |x - r| ≤ 2 ^ 53 * (2 : ℝ) ^ k

/-- `a` is `x` up to the rounding of a difference and a sum. -/
def Restored (r x a : ℝ) : Prop := |a - x| ≤ (|x| + 2 * |x - r|) / 2 ^ 53

end DoubleFieldSpec

open DoubleFieldSpec

private theorem make_first (fl : ℝ → ℝ) {cs : Cells ℝ} {p : Point ℝ} (h : First cs p) (id : Text.Str) :
    makeField fl cs id = .ok ⟨id, [], [], p, mapCells (fun q => subPoint fl q p) cs⟩ := by
  rw [makeField, if_neg (by simp [h.not_isEmpty]), First.firstPoint.1 h]
  rfl

private theorem abs_make {cs : Cells ℝ} (hw : WellFormed cs) (crs id : Text.Str) (r : Point ℝ) :
    Dbl.absCells fl ⟨id, crs, [], r, mapCells (fun q => subPoint fl q r) cs⟩ =
      onPoints (fun q => addPoint fl (subPoint fl q r) r) cs := by
  unfold Dbl.absCells
  rw [mapCells_mapCells, mapCells_eq hw.normal, onPoints_onPoints]

private theorem onPoints_congr {g g' : Point ℝ → Point ℝ} {cs : Cells ℝ} (h : ∀ c ∈ cs, ∀ r ∈ c, ∀ p ∈ r, g p = g' p) :
    onPoints g cs = onPoints g' cs := by
  unfold onPoints
  refine List.map_congr_left fun c hc => List.map_congr_left fun r hr => List.map_congr_left fun p hp => h c hc r hr p hp

private theorem first_mem {cs : Cells ℝ} {p : Point ℝ} (h : First cs p) : ∃ c ∈ cs, ∃ r ∈ c, p ∈ r := by
  obtain ⟨r, rings, cells, rfl⟩ := h
  exact ⟨_, List.mem_cons_self, _, List.mem_cons_self, List.mem_cons_self⟩

private theorem near_exact {r x : ℝ} (hr : IsDouble r) (hx : IsDouble x) (h : Near r x) : IsDouble (x - r) := by
  rcases h with ⟨h0, h1, h2⟩ | ⟨h0, h1, h2⟩ | ⟨k, m, n, hk, hm, hn, hb⟩
  · exact sub_exact hx hr h0 h1 h2
  · have := (sub_exact hx.neg hr.neg (by linarith) (by linarith) (by linarith)).neg
    rwa [show -(-x - -r) = x - r by ring] at this
  · exact isDouble_of_multiple (m - n) k hk (by rw [hm, hn]; push_cast; ring) hb

/-- **C131**, near points: the absolute position of a field is exactly the one given to the constructor. -/
theorem C131_restored_partial (h : IsRounding fl) (cs : Cells ℝ) (hw : WellFormed cs) (id : Text.Str) (r : Point ℝ) (hr : First cs r)
    (hd : ∀ c ∈ cs, ∀ l ∈ c, ∀ p ∈ l, Doubles p)
    (hn : ∀ c ∈ cs, ∀ l ∈ c, ∀ p ∈ l, Near r.x p.x ∧ Near r.y p.y ∧ Near r.z p.z) :
    ∃ f, makeField fl cs id = .ok f ∧ f.ref = r ∧ Dbl.absCells fl f = cs ∧
      f.cells = onPoints (fun p => ⟨p.x - r.x, p.y - r.y, p.z - r.z⟩) cs := by
  obtain ⟨c0, hc0, l0, hl0, hp0⟩ := first_mem hr
  obtain ⟨rx, ry, rz⟩ := hd c0 hc0 l0 hl0 r hp0
  have sub : ∀ c ∈ cs, ∀ l ∈ c, ∀ p ∈ l, subPoint fl p r = ⟨p.x - r.x, p.y - r.y, p.z - r.z⟩ := by
    intro c hc l hl p hp
    obtain ⟨dx, dy, dz⟩ := hd c hc l hl p hp
    obtain ⟨nx, ny, nz⟩ := hn c hc l hl p hp
    rw [subPoint, h.self (near_exact rx dx nx), h.self (near_exact ry dy ny), h.self (near_exact rz dz nz)]
  refine ⟨_, make_first fl hr id, rfl, ?_, ?_⟩
  · rw [abs_make hw]
    refine (onPoints_congr (g' := fun p => p) fun c hc l hl p hp => ?_).trans (onPoints_id (fun _ => rfl) cs)
    obtain ⟨dx, dy, dz⟩ := hd c hc l hl p hp
    simp only [sub c hc l hl p hp, addPoint, sub_add_cancel]
    rw [h.self dx, h.self dy, h.self dz]
  · show mapCells _ cs = _
    rw [mapCells_eq hw.normal]
    exact onPoints_congr sub

private theorem restored (h : IsRounding fl) {r x : ℝ} (hr : IsDouble r) (hx : IsDouble x) :
    Restored r x (fl (fl (x - r) + r)) := by
  have e1 := h.diff_error hx hr
  have e2 := h.sum_error (h.double (x - r)) hr
  unfold Restored
  generalize fl (x - r) = d at *
  generalize fl (d + r) = a at *
  have e3 : |d + r| ≤ |x| + |x - r| / 2 ^ 53 := by
    have : d + r = x - (x - r - d) := by ring
    rw [this]
    exact (abs_sub _ _).trans (by linarith)
  have e4 : a - x = -(d + r - a) - (x - r - d) := by ring
  rw [e4]
  refine (abs_sub _ _).trans ?_
  rw [abs_neg]
  have e5 := div_le_div_of_nonneg_right e3 (by norm_num : (0 : ℝ) ≤ 2 ^ 53)
  have := abs_nonneg (x - r)
  have : |x - r| / 2 ^ 53 / 2 ^ 53 ≤ |x - r| / 2 ^ 53 := by
    apply div_le_self (by positivity)
    norm_num
  rw [add_div] at e5 ⊢
  rw [mul_div_assoc]
  linarith

/-- **C131**, all points: the absolute position is the one given, up to the rounding of a difference and a sum; the reference
point is the first point, exactly. -/
theorem C131_error (h : IsRounding fl) (cs : Cells ℝ) (hw : WellFormed cs) (id : Text.Str) (r : Point ℝ) (hr : First cs r)
    (hd : ∀ c ∈ cs, ∀ l ∈ c, ∀ p ∈ l, Doubles p) :
    ∃ f g, makeField fl cs id = .ok f ∧ f.ref = r ∧ First f.cells ⟨0, 0, 0⟩ ∧ Dbl.absCells fl f = onPoints g cs ∧ g r = r ∧
      ∀ c ∈ cs, ∀ l ∈ c, ∀ p ∈ l, Restored r.x p.x (g p).x ∧ Restored r.y p.y (g p).y ∧ Restored r.z p.z (g p).z := by
  obtain ⟨c0, hc0, l0, hl0, hp0⟩ := first_mem hr
  obtain ⟨rx, ry, rz⟩ := hd c0 hc0 l0 hl0 r hp0
  refine ⟨_, _, make_first fl hr id, rfl, ?_, abs_make hw _ _ _, ?_, ?_⟩
  · have := hr.mapCells (fun q => subPoint fl q r)
    simpa [subPoint, h.self isDouble_zero] using this
  · simp [subPoint, addPoint, h.self isDouble_zero, h.self rx, h.self ry, h.self rz]
  · intro c hc l hl p hp
    obtain ⟨dx, dy, dz⟩ := hd c hc l hl p hp
    exact ⟨restored h rx dx, restored h ry dy, restored h rz dz⟩

private theorem again (h : IsRounding fl) {r x : ℝ} (hr : IsDouble r) (hx : IsDouble x) (hc : r = 0 ∨ |x - r| ≤ |r|) :
    fl (fl (fl (fl (x - r) + r) - r) + r) = fl (fl (x - r) + r) := by
  rcases hc with rfl | hc
  · simp [h.self hx]
  · have hf := h.double (x - r)
    have hle : |fl (x - r)| ≤ |r| := by
      rw [abs_le] at hc ⊢
      have ha := isDouble_abs hr
      exact ⟨h.ge ha.neg hc.1, h.le ha hc.2⟩
    have hs := h.sum_sub hf hr hle
    rw [h.self hs, sub_add_cancel, h.self (h.double _)]

/-- **C131**, clones: if no coordinate is further from that of the reference point than this is from 0, a clone has exactly the
same absolute position and reference point, however often it is cloned. -/
theorem C131_clone_partial (h : IsRounding fl) (cs : Cells ℝ) (hw : WellFormed cs) (id crs : Text.Str) (r : Point ℝ) (hr : First cs r)
    (hd : ∀ c ∈ cs, ∀ l ∈ c, ∀ p ∈ l, Doubles p)
    (hn : ∀ c ∈ cs, ∀ l ∈ c, ∀ p ∈ l, (r.x = 0 ∨ |p.x - r.x| ≤ |r.x|) ∧ (r.y = 0 ∨ |p.y - r.y| ≤ |r.y|) ∧
      (r.z = 0 ∨ |p.z - r.z| ≤ |r.z|)) :
    ∃ f g, makeField fl cs id = .ok f ∧ cloneField fl { f with crs := crs } = .ok g ∧ g.id = id ∧ g.crs = crs ∧ g.ref = r ∧
      Dbl.absCells fl g = Dbl.absCells fl f ∧ cloneField fl g = .ok g := by
  obtain ⟨c0, hc0, l0, hl0, hp0⟩ := first_mem hr
  obtain ⟨rx, ry, rz⟩ := hd c0 hc0 l0 hl0 r hp0
  -- absolute positions once and twice moved
  have wf : ∀ (g : Point ℝ → Point ℝ) {cs : Cells ℝ}, WellFormed cs → WellFormed (onPoints g cs) := by
    intro g cs hw c hc
    obtain ⟨c', hc', rfl⟩ := List.mem_map.1 hc
    obtain ⟨h1, h2⟩ := hw c' hc'
    refine ⟨by simpa using h1, fun l hl => ?_⟩
    obtain ⟨l', hl', rfl⟩ := List.mem_map.1 hl
    exact ⟨by simpa using (h2 l' hl').1, head_map_closed g (h2 l' hl').2⟩
  let g1 : Point ℝ → Point ℝ := fun q => addPoint fl (subPoint fl q r) r
  have g1r : g1 r = r := by
    simp [g1, subPoint, addPoint, h.self isDouble_zero, h.self rx, h.self ry, h.self rz]
  have fr : First (onPoints g1 cs) r := by
    have := hr.onPoints g1
    rwa [g1r] at this
  have idem : onPoints g1 (onPoints g1 cs) = onPoints g1 cs := by
    rw [onPoints_onPoints]
    refine onPoints_congr fun c hc l hl p hp => ?_
    obtain ⟨dx, dy, dz⟩ := hd c hc l hl p hp
    obtain ⟨nx, ny, nz⟩ := hn c hc l hl p hp
    ext
    · exact again h rx dx nx
    · exact again h ry dy ny
    · exact again h rz dz nz
  have clone : ∀ (cs' : Cells ℝ), WellFormed cs' → onPoints g1 cs' = onPoints g1 cs →
      cloneField fl ⟨id, crs, [], r, mapCells (fun q => subPoint fl q r) cs'⟩ =
        .ok ⟨id, crs, [], r, mapCells (fun q => subPoint fl q r) (onPoints g1 cs)⟩ := by
    intro cs' hw' e
    unfold cloneField
    rw [abs_make hw', show onPoints (fun q => addPoint fl (subPoint fl q r) r) cs' = onPoints g1 cs from e,
      make_first fl fr]
    rfl
  refine ⟨_, _, make_first fl hr id, clone cs hw rfl, rfl, rfl, rfl, ?_, clone _ (wf g1 hw) idem⟩
  rw [abs_make (wf g1 hw), abs_make hw]
  exact idem

/-- **C131** is false of points that are much nearer to the origin than to the reference point: their distance to the origin is
lost. -/
theorem C131_lost (h : IsRounding fl) : ∃ (cs : Cells ℝ) (f : FieldObj ℝ), WellFormed cs ∧ (∀ c ∈ cs, ∀ l ∈ c, ∀ p ∈ l, Doubles p) ∧
    makeField fl cs [] = .ok f ∧ Dbl.absCells fl f ≠ cs := by
  have d3 : IsDouble (-3) := ⟨-3, 0, by norm_num, by norm_num, by norm_num⟩
  have d1 : IsDouble 1 := ⟨1, 0, by norm_num, by norm_num, by norm_num⟩
  have d0 := isDouble_zero
  have dt : IsDouble ((2 : ℝ) ^ (-60 : ℤ)) := ⟨1, -60, by norm_num, by norm_num, by norm_num⟩
  let cs : Cells ℝ := [[[⟨-3, 0, 0⟩, ⟨(2 : ℝ) ^ (-60 : ℤ), 0, 0⟩, ⟨0, 1, 0⟩, ⟨-3, 0, 0⟩]]]
  have hw : WellFormed cs := by
    intro c hc
    rw [List.mem_singleton.1 hc]
    refine ⟨by simp, fun r hr => ?_⟩
    rw [List.mem_singleton.1 hr]
    exact ⟨by simp, by simp⟩
  have hf : First cs ⟨-3, 0, 0⟩ := ⟨_, [], [], rfl⟩
  refine ⟨cs, _, hw, ?_, make_first fl hf [], ?_⟩
  · intro c hc l hl p hp
    rw [List.mem_singleton.1 hc] at hl
    rw [List.mem_singleton.1 hl] at hp
    simp only [List.mem_cons, List.not_mem_nil, or_false] at hp
    rcases hp with rfl | rfl | rfl | rfl
    · exact ⟨d3, d0, d0⟩
    · exact ⟨dt, d0, d0⟩
    · exact ⟨d0, d1, d0⟩
    · exact ⟨d3, d0, d0⟩
  · rw [abs_make hw]
    have e : fl ((2 : ℝ) ^ (-60 : ℤ) - -3) = 3 := by
      have := h.eq_of_close ((2 : ℝ) ^ (-60 : ℤ) - -3) (3 * 2 ^ 51) (-51) (by norm_num) (by norm_num) (by norm_num) (by
        norm_num [abs_of_pos])
      rw [this]
      norm_num
    intro hc
    have := congrArg (fun cs : Cells ℝ => (((cs.head?.bind List.head?).bind fun l => l[1]?).map fun p => p.x)) hc
    simp only [cs, onPoints, List.map_cons, List.head?_cons, Option.bind_some, List.getElem?_cons_succ, List.getElem?_cons_zero,
      Option.map_some, addPoint, subPoint, e, Option.some.injEq] at this
    norm_num [h.self d0] at this

/-! ## Examples -/

/-- A field of 100 m by 50 m in UTM coordinates. -/
private noncomputable def utm : Cells ℝ :=
  [[[⟨686000, 5760000, 0⟩, ⟨686100, 5760000, 0⟩, ⟨686100, 5760050, 0⟩, ⟨686000, 5760000, 0⟩]]]

private theorem utm_ok : WellFormed utm ∧ First utm ⟨686000, 5760000, 0⟩ ∧ (∀ c ∈ utm, ∀ l ∈ c, ∀ p ∈ l, Doubles p) ∧
    ∀ c ∈ utm, ∀ l ∈ c, ∀ p ∈ l, Near 686000 p.x ∧ Near 5760000 p.y ∧ Near 0 p.z := by
  have D : ∀ k : Nat, k ≤ 2 ^ 53 → IsDouble k := isDouble_nat
  refine ⟨?_, ⟨_, [], [], rfl⟩, ?_, ?_⟩
  · intro c hc
    rw [List.mem_singleton.1 hc]
    refine ⟨by simp, fun r hr => ?_⟩
    rw [List.mem_singleton.1 hr]
    exact ⟨by simp, by simp⟩
  all_goals
    intro c hc l hl p hp
    rw [List.mem_singleton.1 hc] at hl
    rw [List.mem_singleton.1 hl] at hp
    simp only [List.mem_cons, List.not_mem_nil, or_false] at hp
  · have a1 := D 686000 (by norm_num)
    have a2 := D 686100 (by norm_num)
    have b1 := D 5760000 (by norm_num)
    have b2 := D 5760050 (by norm_num)
    have z := isDouble_zero
    norm_num at a1 a2 b1 b2
    rcases hp with rfl | rfl | rfl | rfl
    · exact ⟨a1, b1, z⟩
    · exact ⟨a2, b1, z⟩
    · exact ⟨a2, b2, z⟩
    · exact ⟨a1, b1, z⟩
  · rcases hp with rfl | rfl | rfl | rfl <;>
      exact ⟨.inl (by norm_num), .inl (by norm_num), .inl (by norm_num)⟩

example (h : IsRounding fl) : ∃ f, makeField fl utm [] = .ok f ∧ Dbl.absCells fl f = utm := by
  obtain ⟨h1, h2, h3, h4⟩ := utm_ok
  obtain ⟨f, e1, -, e2, -⟩ := C131_restored_partial h utm h1 [] _ h2 h3 h4
  exact ⟨f, e1, e2⟩

example (h : IsRounding fl) : ∃ f g, makeField fl utm [] = .ok f ∧ cloneField fl f = .ok g ∧
    Dbl.absCells fl g = Dbl.absCells fl f := by
  obtain ⟨h1, h2, h3, -⟩ := utm_ok
  obtain ⟨f, g, e1, e2, -, -, -, e3, -⟩ := C131_clone_partial h utm h1 [] [] _ h2 h3 (by
    intro c hc l hl p hp
    rw [List.mem_singleton.1 hc] at hl
    rw [List.mem_singleton.1 hl] at hp
    simp only [List.mem_cons, List.not_mem_nil, or_false] at hp
    rcases hp with rfl | rfl | rfl | rfl <;>
      exact ⟨.inr (by norm_num [abs_of_pos]), .inr (by norm_num [abs_of_pos]), .inl rfl⟩)
  refine ⟨f, g, e1, ?_, e3⟩
  have : f.crs = [] := by
    rw [make_first fl h2] at e1
    cases e1
    rfl
  rw [← e2, ← this]

/-- Coordinates below 10^7 come back up to 10^-8. -/
example (r x a : ℝ) (hr : |r| ≤ 10 ^ 7) (hx : |x| ≤ 10 ^ 7) (h : Restored r x a) : |a - x| ≤ 1 / 10 ^ 8 := by
  unfold Restored at h
  have := abs_sub x r
  refine h.trans ?_
  rw [div_le_iff₀ (by norm_num)]
  norm_num
  linarith

end F2C.Props
