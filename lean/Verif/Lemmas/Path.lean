import Mathlib.Tactic.Linarith
import Mathlib.Tactic.FieldSimp
import Mathlib.Tactic.Ring
import Mathlib.Tactic.Push
import Verif.Lemmas.Geom
import Verif.Lemmas.Angle
import Verif.Props.PathSpec

/-! # Lemmas about paths -/

namespace F2C

open Props.PathSpec Real

set_option linter.unusedSimpArgs false
set_option linter.unusedVariables false

theorem foldl_add_eq {α : Type} (f : α → ℝ) (l : List α) (a : ℝ) :
    l.foldl (fun d s => d + f s) a = a + (l.map f).sum := by
  induction l generalizing a with
  | nil => simp
  | cons b l ih => simp only [List.foldl_cons, ih, List.map_cons, List.sum_cons]; ring

theorem totalLength_eq (p : Path) : p.totalLength = lengthOf p := by
  unfold Path.totalLength lengthOf
  rw [foldl_add_eq]; simp

theorem taskTime_eq (p : Path) : p.taskTime = timeOf p := by
  unfold Path.taskTime timeOf
  have : (fun (d : ℝ) (s : PathState ℝ) => s.len / s.velocity + d) =
      fun d s => d + s.len / s.velocity := by funext d s; ring
  rw [this, foldl_add_eq]; simp

@[simp] theorem lengthOf_nil : lengthOf [] = 0 := rfl
theorem lengthOf_cons (s : PathState ℝ) (p : Path) : lengthOf (s :: p) = |s.len| + lengthOf p := by
  simp [lengthOf]
theorem lengthOf_append (p q : Path) : lengthOf (p ++ q) = lengthOf p + lengthOf q := by
  simp [lengthOf]
theorem timeOf_cons (s : PathState ℝ) (p : Path) :
    timeOf (s :: p) = s.len / s.velocity + timeOf p := by
  simp [timeOf]
theorem timeOf_append (p q : Path) : timeOf (p ++ q) = timeOf p + timeOf q := by
  simp [timeOf]
theorem lengthOf_nonneg (p : Path) : 0 ≤ lengthOf p := by
  induction p with
  | nil => simp
  | cons s p ih => rw [lengthOf_cons]; positivity

theorem sign_ne (d : PathDir) : (d.sign : ℝ) = 1 ∨ (d.sign : ℝ) = -1 := by
  cases d <;> simp [PathDir.sign]

/-! ## discretizeSwath -/

/-- number of pieces of a section -/
noncomputable def nPieces (step : ℝ) (s : PathState ℝ) : Nat := max 1 (cround |s.len / step|).toNat

theorem cround_nonneg {x : ℝ} (h : 0 ≤ x) : 0 ≤ cround x := by
  unfold cround
  rw [if_pos h]
  exact Int.floor_nonneg.2 (by linarith)

theorem nPieces_cast (step : ℝ) (s : PathState ℝ) :
    max 1 ((cround |s.len / step| : ℤ) : ℝ) = (nPieces step s : ℝ) := by
  have h := cround_nonneg (abs_nonneg (s.len / step))
  obtain ⟨k, hk⟩ := Int.eq_ofNat_of_zero_le h
  unfold nPieces
  rw [hk]
  push_cast
  simp

theorem nPieces_pos (step : ℝ) (s : PathState ℝ) : 1 ≤ nPieces step s := le_max_left _ _

theorem splitState_eq (step : ℝ) (s : PathState ℝ) :
    Path.splitState step s = (List.range (nPieces step s)).map fun (j : Nat) =>
      { s with
        point := s.point.add ((s.atEnd.sub s.point).smul ((j : ℝ) / (nPieces step s : ℝ)))
        len := s.len / (nPieces step s : ℝ) } := by
  unfold Path.splitState
  simp only [nPieces_cast]
  rw [Nat.ceil_natCast]

theorem atEnd_xy (s : PathState ℝ) : s.atEnd.x = s.point.x + s.len * s.dir.sign * cos s.angle ∧
    s.atEnd.y = s.point.y + s.len * s.dir.sign * sin s.angle ∧ s.atEnd.z = 0 := ⟨rfl, rfl, rfl⟩

theorem cround_ge (x : ℝ) : x - 1 / 2 ≤ cround x := by
  have := abs_le.1 (cround_near x)
  linarith [this.2]

theorem piece_short (step : ℝ) (hs : step ≠ 0) (s : PathState ℝ) :
    |s.len / (nPieces step s : ℝ)| < 3 / 2 * |step| := by
  have hn : (0 : ℝ) < nPieces step s := by exact_mod_cast nPieces_pos step s
  have hst : 0 < |step| := abs_pos.2 hs
  set x := |s.len / step| with hx
  have hlen : |s.len| = x * |step| := by rw [hx, abs_div]; field_simp
  rw [abs_div, abs_of_pos hn, hlen, div_lt_iff₀ hn]
  have hN : max 1 ((cround x : ℤ) : ℝ) = nPieces step s := nPieces_cast step s
  have h1 : x - 1 / 2 ≤ cround x := cround_ge x
  have hx0 : 0 ≤ x := abs_nonneg _
  have key : x < 3 / 2 * (nPieces step s : ℝ) := by
    rw [← hN]
    by_cases h : x < 3 / 2
    · have := le_max_left (1 : ℝ) (cround x : ℤ)
      linarith
    · push Not at h
      have h2 : (2 : ℝ) ≤ cround x := by
        have : (2 : ℤ) ≤ cround x := by
          unfold cround
          rw [if_pos hx0]
          exact Int.le_floor.2 (by push_cast; linarith)
        exact_mod_cast this
      have := le_max_right (1 : ℝ) (cround x : ℤ)
      linarith
  nlinarith

theorem splitState_cut (step : ℝ) (hs : step ≠ 0) (s : PathState ℝ) :
    CutInto step s (Path.splitState step s) := by
  have hn1 := nPieces_pos step s
  have hn : (0 : ℝ) < nPieces step s := by exact_mod_cast hn1
  have hlen : (Path.splitState step s).length = nPieces step s := by rw [splitState_eq]; simp
  have hget : ∀ (j : Nat) (r : PathState ℝ), (Path.splitState step s)[j]? = some r →
      j < nPieces step s ∧ r = { s with
        point := s.point.add ((s.atEnd.sub s.point).smul ((j : ℝ) / (nPieces step s : ℝ)))
        len := s.len / (nPieces step s : ℝ) } := by
    intro j r hj
    rw [splitState_eq, List.getElem?_map] at hj
    rcases Nat.lt_or_ge j (nPieces step s) with h | h
    · rw [List.getElem?_range h] at hj
      exact ⟨h, (Option.some.inj hj).symm⟩
    · rw [List.getElem?_eq_none (by simpa using h)] at hj
      simp at hj
  have hmem : ∀ r ∈ Path.splitState step s, ∃ j : Nat, (Path.splitState step s)[j]? = some r := by
    intro r hr
    exact List.mem_iff_getElem?.1 hr
  obtain ⟨ex, ey, ez⟩ := atEnd_xy s
  refine ⟨?_, ?_, ?_, ?_, ?_, ?_, ?_, ?_⟩
  · intro h; rw [h] at hlen; simp at hlen; omega
  · intro r hr
    obtain ⟨j, hj⟩ := hmem r hr
    obtain ⟨_, rfl⟩ := hget j r hj
    simp
  · intro r hr
    obtain ⟨j, hj⟩ := hmem r hr
    obtain ⟨_, rfl⟩ := hget j r hj
    rw [hlen]
    simp only
    field_simp
  · intro r hr
    obtain ⟨j, hj⟩ := hmem r hr
    obtain ⟨_, rfl⟩ := hget j r hj
    exact piece_short step hs s
  · intro j r hj
    obtain ⟨_, rfl⟩ := hget j r hj
    rw [hlen]
    constructor
    · simp only [Point.add, Point.smul, Point.sub]; ring
    · simp only [Point.add, Point.smul, Point.sub]; ring
  · obtain ⟨k, hk⟩ : ∃ k, nPieces step s = k + 1 := ⟨nPieces step s - 1, by omega⟩
    have e := splitState_eq step s
    rw [hk] at e
    rw [e, List.range_succ_eq_map]
    simp [Point.add, Point.smul, Point.sub]
  · intro j r t hr ht
    obtain ⟨hj, rfl⟩ := hget j r hr
    obtain ⟨hj', rfl⟩ := hget (j + 1) t ht
    constructor
    · simp only [PathState.atEnd, pointFromAngle, Point.add, Point.smul, Point.sub]
      push_cast
      field_simp
      ring
    · simp only [PathState.atEnd, pointFromAngle, Point.add, Point.smul, Point.sub]
      push_cast
      field_simp
      ring
  · obtain ⟨k, hk⟩ : ∃ k, nPieces step s = k + 1 := ⟨nPieces step s - 1, by omega⟩
    have e := splitState_eq step s
    rw [hk] at e
    rw [e, List.range_succ]
    simp only [List.map_append, List.map_cons, List.map_nil, List.getLast?_append,
      List.getLast?_singleton, Option.some_or, Option.map_some]
    congr 1
    have hk0 : ((k : ℝ) + 1) ≠ 0 := by positivity
    have hh : s.atEnd = ⟨s.point.x + s.len * s.dir.sign * cos s.angle,
      s.point.y + s.len * s.dir.sign * sin s.angle, 0⟩ := rfl
    rw [hh]
    simp only [PathState.atEnd, pointFromAngle, Point.add, Point.smul, Point.sub]
    push_cast
    congr 1
    · field_simp; ring
    · field_simp; ring

theorem sum_const {l : List ℝ} {a : ℝ} (h : ∀ x ∈ l, x = a) : l.sum = l.length * a := by
  induction l with
  | nil => simp
  | cons b l ih =>
    rw [List.sum_cons, h b (by simp), ih (fun x hx => h x (List.mem_cons_of_mem _ hx))]
    push_cast [List.length_cons]; ring

theorem cut_length {step : ℝ} {s : PathState ℝ} {g : Path} (h : CutInto step s g) :
    lengthOf g = |s.len| ∧ timeOf g = s.len / s.velocity := by
  have hn : (0 : ℝ) < g.length := by
    have := List.length_pos_of_ne_nil h.nonempty
    exact_mod_cast this
  have hl : ∀ r ∈ g, r.len = s.len / g.length := by
    intro r hr
    rw [← h.equal r hr]; field_simp
  constructor
  · unfold lengthOf
    rw [sum_const (a := |s.len| / g.length)]
    · simp; field_simp
    · intro x hx
      obtain ⟨r, hr, rfl⟩ := List.mem_map.1 hx
      rw [hl r hr, abs_div, abs_of_pos hn]
  · unfold timeOf
    rw [sum_const (a := s.len / g.length / s.velocity)]
    · simp; field_simp
    · intro x hx
      obtain ⟨r, hr, rfl⟩ := List.mem_map.1 hx
      rw [hl r hr, (h.same r hr).2.2.2]

/-! ## reduce -/

theorem absorb_spec (d : ℝ) (s : PathState ℝ) (len : ℝ) (l : Path) :
    ∃ g, l = g ++ (Path.absorb d s len l).2 ∧
      (Path.absorb d s len l).1 = len + (g.map (·.len)).sum ∧
      (∀ r ∈ g, r.type = s.type ∧ r.dir = s.dir ∧ pdist s.point r.point < d) ∧
      ∀ t, (Path.absorb d s len l).2.head? = some t →
        ¬ (t.type = s.type ∧ t.dir = s.dir ∧ pdist s.point t.point < d) := by
  induction l generalizing len with
  | nil => exact ⟨[], by simp [Path.absorb]⟩
  | cons r l ih =>
    unfold Path.absorb
    split
    · rename_i h
      obtain ⟨g, h1, h2, h3, h4⟩ := ih (len + r.len)
      refine ⟨r :: g, by simp [← h1], by rw [h2]; simp; ring, ?_, h4⟩
      intro x hx
      rcases List.mem_cons.1 hx with rfl | hx
      · exact ⟨h.1.symm, h.2.1.symm, h.2.2⟩
      · exact h3 x hx
    · rename_i h
      refine ⟨[], by simp, by simp, by simp, ?_⟩
      intro t ht
      simp only [List.head?_cons, Option.some.injEq] at ht
      subst ht
      rintro ⟨h1, h2, h3⟩
      exact h ⟨h1.symm, h2.symm, h3⟩

theorem reduce_spec (d : ℝ) (p : Path) :
    ∃ groups : List Path, p = groups.flatten ∧ List.Forall₂ (StandsFor d) groups (Path.reduce d p) ∧
      (Path.reduce d p).IsChain fun a b =>
        ¬ (b.type = a.type ∧ b.dir = a.dir ∧ pdist a.point b.point < d) := by
  induction hn : List.length p using Nat.strong_induction_on generalizing p with
  | _ n ih =>
    cases p with
    | nil => exact ⟨[], by simp [Path.reduce]⟩
    | cons s l =>
      obtain ⟨g, h1, h2, h3, h4⟩ := absorb_spec d s s.len l
      have hlt : List.length (Path.absorb d s s.len l).2 < n := by
        have := Path.absorb_length d s s.len l
        simp at hn; omega
      obtain ⟨gs, i1, i2, i3⟩ := ih _ hlt (Path.absorb d s s.len l).2 rfl
      refine ⟨(s :: g) :: gs, ?_, ?_, ?_⟩
      · rw [List.flatten_cons, ← i1, List.cons_append, ← h1]
      · rw [Path.reduce]
        refine .cons ⟨s, g, rfl, ?_, h3⟩ i2
        rw [h2]; simp
      · rw [Path.reduce]
        rw [List.isChain_cons]
        refine ⟨?_, i3⟩
        intro t ht
        simp only
        cases gs with
        | nil =>
          rw [List.forall₂_nil_left_iff] at i2
          rw [i2] at ht
          simp at ht
        | cons g' gs' =>
          rcases hr : Path.reduce d (Path.absorb d s s.len l).2 with _ | ⟨t', ts⟩
          · rw [hr] at ht; simp at ht
          · rw [hr] at ht i2
            simp only [List.head?_cons, Option.mem_def, Option.some.injEq] at ht
            subst ht
            obtain ⟨⟨s', rest, e1, e2, e3⟩, _⟩ := List.forall₂_cons.1 i2
            have := h4 s' (by rw [i1, e1]; simp)
            rw [e2]
            exact this

/-! ## at -/

theorem atLoop_spec (p : Path) (len : ℝ) (h0 : 0 ≤ len) (hl : len ≤ lengthOf p) (hne : p ≠ []) :
    ∃ pre s post, p = pre ++ s :: post ∧ lengthOf pre ≤ len ∧ len ≤ lengthOf pre + |s.len| ∧
      (pre = [] ∨ lengthOf pre < len) ∧
      Path.atLoop len p = { s with point := ⟨(driven s (len - lengthOf pre)).1,
        (driven s (len - lengthOf pre)).2, 0⟩ } := by
  induction p generalizing len with
  | nil => exact absurd rfl hne
  | cons s l ih =>
    unfold Path.atLoop
    by_cases h : |s.len| < len
    · rw [if_pos h]
      rw [lengthOf_cons] at hl
      have hl' : l ≠ [] := by rintro rfl; simp at hl; linarith
      obtain ⟨pre, t, post, e1, e2, e3, e4, e5⟩ := ih (len - |s.len|) (by linarith) (by linarith) hl'
      refine ⟨s :: pre, t, post, by rw [e1]; simp, ?_, ?_, ?_, ?_⟩
      · rw [lengthOf_cons]; linarith
      · rw [lengthOf_cons]; linarith
      · right
        rcases e4 with rfl | e4
        · rw [lengthOf_cons]; simpa using h
        · rw [lengthOf_cons]; linarith
      · rw [e5, lengthOf_cons, show len - |s.len| - lengthOf pre = len - (|s.len| + lengthOf pre) by ring]
    · rw [if_neg h]
      push Not at h
      refine ⟨[], s, l, rfl, by simpa using h0, by simpa using h, Or.inl rfl, ?_⟩
      simp [driven]

end F2C
