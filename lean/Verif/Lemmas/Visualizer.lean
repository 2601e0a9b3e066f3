import Mathlib.Tactic.FieldSimp
import Mathlib.Tactic.Linarith
import Verif.Props.VisualizerSpec
import Verif.Props.SwathTypes
import Verif.Lemmas.Turning

/-! # Lemmas about the visualizer -/

namespace F2C.Vis

open Props.VisualizerSpec

theorem sections_late (p : Path) : ∀ (cur : Path) (t : SectionType) (d : PathDir), (∀ s ∈ cur, kind s = (t, d)) →
    ∃ parts, parts.flatten = cur ++ p ∧ Late (t, d) parts ∧
      sections (cur.flatMap ends) t d p = parts.map fun a => a.flatMap ends := by
  induction p with
  | nil =>
    intro cur t d hc
    exact ⟨[cur], by simp, .one _ _ hc, by simp [sections]⟩
  | cons s p ih =>
    intro cur t d hc
    have e : cur.flatMap ends ++ [planar s.point, planar s.atEnd] = (cur ++ [s]).flatMap ends := by
      rw [List.flatMap_append]; simp [ends, planar]
    by_cases hk : s.type ≠ t ∨ s.dir ≠ d
    · obtain ⟨parts, h1, h2, h3⟩ := ih [] s.type s.dir (by simp)
      refine ⟨(cur ++ [s]) :: parts, by simp [h1], .cons _ _ _ _ hc ?_ h2, ?_⟩
      · intro h
        have := Prod.mk.injEq _ _ _ _ ▸ h
        rcases hk with hk | hk
        · exact hk this.1
        · exact hk this.2
      · rw [sections, if_pos hk, e, List.map_cons]
        rw [List.flatMap_nil] at h3
        rw [h3]
    · have hk' : kind s = (t, d) := by
        rw [not_or, not_not, not_not] at hk
        simp [kind, hk.1, hk.2]
      obtain ⟨parts, h1, h2, h3⟩ := ih (cur ++ [s]) t d (by
        intro x hx
        rcases List.mem_append.1 hx with hx | hx
        · exact hc x hx
        · rw [List.mem_singleton.1 hx, hk'])
      refine ⟨parts, by simp [h1], h2, ?_⟩
      rw [sections, if_neg hk, e, h3]

theorem sections_length (p : Path) : ∀ (cur : List (ℝ × ℝ)) (s : PathState ℝ),
    (sections cur s.type s.dir p).length = changes (s :: p) + 1 := by
  induction p with
  | nil => intro cur s; simp [sections, changes]
  | cons x p ih =>
    intro cur s
    rw [sections, changes]
    by_cases hk : x.type ≠ s.type ∨ x.dir ≠ s.dir
    · rw [if_pos hk, List.length_cons, ih, if_neg]
      · omega
      · intro h
        have := Prod.mk.injEq _ _ _ _ ▸ h
        rcases hk with hk | hk
        · exact hk this.1.symm
        · exact hk this.2.symm
    · rw [if_neg hk]
      rw [not_or, not_not, not_not] at hk
      rw [← hk.1, ← hk.2, ih, if_pos (by simp [kind, hk.1, hk.2])]
      omega

theorem linesLoop_ok {K : Type} (xs : List (List (K × K))) : ∀ cs : List (Colour K), xs.length ≤ cs.length →
    linesLoop xs cs = .ok ((xs.zip cs).map fun x => .line x.1 x.2) := by
  induction xs with
  | nil => intro cs _; simp [linesLoop]
  | cons x xs ih =>
    intro cs h
    cases cs with
    | nil => simp at h
    | cons c cs =>
      rw [linesLoop, ih cs (by simpa using h)]
      rfl

theorem linesLoop_ub {K : Type} (xs : List (List (K × K))) : ∀ cs : List (Colour K), cs.length < xs.length →
    (linesLoop xs cs).isUb = true := by
  induction xs with
  | nil => intro cs h; simp at h
  | cons x xs ih =>
    intro cs h
    cases cs with
    | nil => rfl
    | cons c cs =>
      have := ih cs (by simpa using h)
      rw [linesLoop]
      revert this
      cases linesLoop xs cs <;> simp

variable {K : Type} [Field K] [LinearOrder K]

theorem linspace_length (lo hi : K) (n : Nat) : (linspace lo hi n).length = n := by
  unfold linspace
  split
  · subst_vars; rfl
  · simp

theorem colorLinspace_length (lo hi : Rgb) (n : Nat) : (colorLinspace (K := K) lo hi n).length = n := by
  simp [colorLinspace]

theorem coloursFor_length (given : List (Colour K)) (n : Nat) (h : given = [] ∨ n ≤ given.length) :
    n ≤ (coloursFor given n).length := by
  unfold coloursFor
  split
  · rw [colorLinspace_length]
  · rcases h with h | h
    · subst h; simp at *
    · exact h

theorem colorLinspace_gradient [IsStrictOrderedRing K] (lo hi : Rgb) (n : Nat) (hn : 2 ≤ n) :
    Gradient lo hi n (colorLinspace (K := K) lo hi n) := by
  have h1 : ((n : K) - 1) ≠ 0 := by
    have : (2 : K) ≤ n := by exact_mod_cast hn
    intro h
    linarith
  refine ⟨colorLinspace_length lo hi n, ((hi.r : K) - lo.r) / ((n : K) - 1), ((hi.g : K) - lo.g) / ((n : K) - 1),
    ((hi.b : K) - lo.b) / ((n : K) - 1), by field_simp; ring, by field_simp; ring, by field_simp; ring, ?_⟩
  intro i hi
  simp [colorLinspace, row, linspace, List.getElem?_map, List.getElem?_range hi, show n ≠ 1 by omega]

theorem swath_drawn (s : Swath K) (c : Colour K) : SwathDrawn s c (swath s c) := by
  constructor
  · intro h
    unfold swath
    have : s.path.reverse.length < 2 := by simpa using h
    split
    · rename_i h'; rw [h'] at this; simp at this
    · rfl
  · intro front a b h
    unfold swath
    rw [h]
    simp [line, planar]

theorem swathsLoop_drawn (l : Swaths K) : ∀ cs : List (Colour K), l.length ≤ cs.length →
    ∃ ds, swathsLoop l cs = .ok ds ∧ AllDrawn l cs ds := by
  induction l with
  | nil => intro cs _; exact ⟨[], rfl, .nil _⟩
  | cons s l ih =>
    intro cs h
    cases cs with
    | nil => simp at h
    | cons c cs =>
      obtain ⟨ds, h1, h2⟩ := ih cs (by simpa using h)
      exact ⟨_, by rw [swathsLoop, h1]; rfl, .cons _ _ _ _ _ _ (swath_drawn s c) h2⟩

theorem swathsLoop_ub (l : Swaths K) : ∀ cs : List (Colour K), cs.length < l.length →
    (swathsLoop l cs).isUb = true := by
  induction l with
  | nil => intro cs h; simp at h
  | cons x xs ih =>
    intro cs h
    cases cs with
    | nil => rfl
    | cons c cs =>
      have := ih cs (by simpa using h)
      rw [swathsLoop]
      revert this
      cases swathsLoop xs cs <;> simp

theorem flatten_eq (d : SwathsByCells K) : SwathsByCells.flatten d = List.flatten d := by
  have : ∀ (d : List (Swaths K)) (acc : Swaths K), d.foldl (fun acc s => acc ++ s) acc = acc ++ List.flatten d := by
    intro d
    induction d with
    | nil => intro acc; simp
    | cons s d ih => intro acc; rw [List.foldl_cons, ih]; simp
  simpa [SwathsByCells.flatten] using this d []

theorem sizeTotal_eq (d : SwathsByCells K) : SwathsByCells.sizeTotal d = (List.flatten d).length := by
  have : ∀ (d : List (Swaths K)) (n : Nat), d.foldl (fun a b => a + b.length) n = n + (List.flatten d).length := by
    intro d
    induction d with
    | nil => intro n; simp
    | cons s d ih => intro n; rw [List.foldl_cons, ih]; simp; omega
  simpa [SwathsByCells.sizeTotal] using this d 0

theorem cellsLoop_eq (d : SwathsByCells K) (cs : List (Colour K)) : ∀ n i, i + n = (List.flatten d).length →
    ((List.flatten d).length ≤ cs.length ∨ (cs.length < (List.flatten d).length ∧ i ≤ cs.length)) →
    cellsLoop d cs n i = swathsLoop ((List.flatten d).drop i) (cs.drop i) ∨
      ((cellsLoop d cs n i).isUb = true ∧ (swathsLoop ((List.flatten d).drop i) (cs.drop i)).isUb = true) := by
  intro n
  induction n with
  | zero =>
    intro i h _
    left
    rw [List.drop_eq_nil_of_le (by omega)]
    simp [cellsLoop, swathsLoop]
  | succ n ih =>
    intro i h hc
    have hi : i < (List.flatten d).length := by omega
    have hg := (Props.C11_getSwath_is_flatten d i).1
    rw [flatten_eq] at hg
    have hg := hg hi
    rw [List.drop_eq_getElem_cons hi]
    by_cases hci : i < cs.length
    · rw [List.drop_eq_getElem_cons hci]
      rw [cellsLoop, hg, Outcome.ok_bind, List.getElem?_eq_getElem hci, swathsLoop]
      rcases ih (i + 1) (by omega) (by omega) with h' | ⟨h1, h2⟩
      · left
        simp only [h']
      · right
        revert h1 h2
        simp only
        cases cellsLoop d cs n (i + 1) <;> cases swathsLoop ((List.flatten d).drop (i + 1)) (cs.drop (i + 1)) <;>
          simp
    · right
      rw [cellsLoop, hg, Outcome.ok_bind, List.getElem?_eq_none (not_lt.1 hci),
        List.drop_eq_nil_of_le (not_lt.1 hci)]
      exact ⟨rfl, rfl⟩

theorem swathsByCells_eq (d : SwathsByCells K) (given : List (Colour K))
    (h : given = [] ∨ (List.flatten d).length ≤ given.length) :
    swathsByCells d given = swaths (List.flatten d) given := by
  have hl := coloursFor_length given _ h
  unfold swathsByCells swaths
  rw [sizeTotal_eq]
  rcases cellsLoop_eq d (coloursFor given (List.flatten d).length) _ 0 (Nat.zero_add _) (.inl hl) with h' | ⟨_, h'⟩
  · simpa using h'
  · exfalso
    obtain ⟨ds, e, _⟩ := swathsLoop_drawn (List.flatten d) _ hl
    rw [List.drop_zero, List.drop_zero, e] at h'
    simp at h'

theorem swathsByCells_ub (d : SwathsByCells K) (given : List (Colour K)) (h0 : given ≠ [])
    (h : given.length < (List.flatten d).length) : (swathsByCells d given).isUb = true := by
  have e : coloursFor given (List.flatten d).length = given := by
    unfold coloursFor
    rw [if_neg (by simpa using h0)]
  unfold swathsByCells
  rw [sizeTotal_eq, e]
  have hu := swathsLoop_ub (List.flatten d) given h
  rcases cellsLoop_eq d given _ 0 (Nat.zero_add _) (.inr ⟨h, Nat.zero_le _⟩) with h' | ⟨h', _⟩
  · rw [h']; simpa using hu
  · exact h'

theorem linesSize_take (ls : List (List (Point K))) :
    ls.take (linesOps.size ls) = if ∃ l ∈ ls, l ≠ [] then ls else [] := by
  unfold ContainerOps.size
  by_cases h : ∃ l ∈ ls, l ≠ []
  · rw [if_pos h, if_neg, List.take_length]
    obtain ⟨l, hl, h⟩ := h
    intro ha
    rw [List.all_eq_true] at ha
    exact h (List.isEmpty_iff.1 (ha l hl))
  · rw [if_neg h, if_pos, List.take_zero]
    rw [List.all_eq_true]
    intro l hl
    by_contra hn
    exact h ⟨l, hl, fun e => hn (by subst e; rfl)⟩

theorem cellSize_take (c : Cell K) : c.take (cellOps.size c) = if ∃ r ∈ c, r ≠ [] then c else [] :=
  linesSize_take c

theorem cellSize_pos (c : Cell K) : cellOps.size c < 1 ↔ ¬ ∃ r ∈ c, r ≠ [] := by
  unfold ContainerOps.size
  constructor
  · rintro h ⟨r, hr, hne⟩
    rw [if_neg] at h
    · have := List.length_pos_of_mem hr; omega
    · intro ha
      rw [List.all_eq_true] at ha
      exact hne (List.isEmpty_iff.1 (ha r hr))
  · intro h
    rw [if_pos]
    · omega
    · rw [List.all_eq_true]
      intro l hl
      by_contra hn
      exact h ⟨l, hl, fun e => hn (by subst e; rfl)⟩

open Classical in
theorem cells_take_flatMap {α : Type} (cs : Cells K) (f : Cell K → List α)
    (hf : ∀ c, ¬ HasPoints c → f c = []) :
    (cs.take (cellsOps.size cs)).flatMap f = (cs.filter fun c => decide (HasPoints c)).flatMap f := by
  have e : ∀ cs : Cells K, (cs.filter fun c => decide (HasPoints c)).flatMap f = cs.flatMap f := by
    intro cs
    induction cs with
    | nil => rfl
    | cons c cs ih =>
      rw [List.filter_cons]
      split
      · rw [List.flatMap_cons, List.flatMap_cons, ih]
      · rename_i h
        rw [List.flatMap_cons, ih, hf c (by simpa using h), List.nil_append]
  rw [e]
  unfold ContainerOps.size
  split
  · rename_i h
    rw [List.take_zero, List.flatMap_nil, eq_comm, List.flatMap_eq_nil_iff]
    intro c hc
    apply hf
    rintro ⟨r, hr, hne⟩
    rw [List.all_eq_true] at h
    have := h c hc
    simp only [cellsOps, List.all_eq_true] at this
    exact hne (List.isEmpty_iff.1 (this r hr))
  · rw [List.take_length]

end F2C.Vis
