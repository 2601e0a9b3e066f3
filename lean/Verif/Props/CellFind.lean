import Mathlib.Tactic.NormNum
import Verif.Lemmas.CellFind
import Verif.Props.Decomp
import Verif.Props.Share

/-! # C96, C97: the cell where a point is, and lines until its border -/

namespace F2C.Props

open F2C.Share F2C.CellFind F2C.Decomp F2C.Props.DecompSpec

set_option linter.unusedSimpArgs false

variable {K : Type} [Field K] [LinearOrder K]

/-! ## C96 -/

/-- **C96**, which cell: the first one that contains the point, border included; none only if no cell
contains it.  `contains c` is the truth about the point and cell `c`; a cell without points contains none. -/
theorem C96_first (touches within : Cell K → Bool) (contains : Cell K → Prop)
    (h : ∀ c, (touches c = true ∨ within c = true) ↔ contains c)
    (he : ∀ c : Cell K, (∀ r ∈ c, r = []) → ¬ contains c) (cells : Cells K) :
    (∀ i, getCellWherePoint touches within cells = .child i ↔
      (∃ c, cells[i]? = some c ∧ contains c) ∧ ∀ j < i, ∀ c, cells[j]? = some c → ¬ contains c) ∧
    (getCellWherePoint touches within cells = .none ↔ ∀ c ∈ cells, ¬ contains c) := by
  have hh : ∀ c, (touches c || within c) = true ↔ contains c := by
    intro c; rw [← h c]; simp
  have hf : ∀ c, (touches c || within c) = false ↔ ¬ contains c := by
    intro c; rw [← hh c]; simp
  have hs := search_spec (fun c => touches c || within c) cells (cellsOps.size cells) 0
    (by have := size_le cells; omega)
  change match getCellWherePoint touches within cells with
    | .child j => _
    | .none => _ at hs
  simp only [Nat.zero_add, Nat.zero_le, true_implies, true_and, hh, hf] at hs
  have hall : getCellWherePoint touches within cells = .none → ∀ c ∈ cells, ¬ contains c := by
    intro e
    rw [e] at hs
    intro c hc
    by_cases hz : ∀ c ∈ cells, ∀ r ∈ c, r = []
    · exact he c (hz c hc)
    · obtain ⟨j, hj⟩ := List.getElem?_of_mem hc
      refine hs j ?_ c hj
      push Not at hz
      obtain ⟨c', h1, r, h2, h3⟩ := hz
      rw [cellsOps.size_of_nonempty ⟨c', h1, ?_⟩]
      · rcases Nat.lt_or_ge j cells.length with h | h
        · exact h
        · rw [List.getElem?_eq_none h] at hj; cases hj
      · simp only [cellsOps, List.all_eq_false]
        exact ⟨r, h2, by simpa using h3⟩
  refine ⟨fun i => ⟨fun e => ?_, fun ⟨⟨c, h1, h2⟩, h3⟩ => ?_⟩, hall, fun hn => ?_⟩
  · rw [e] at hs
    exact hs.2
  · cases e : getCellWherePoint touches within cells with
    | none => exact absurd h2 (hall e c (List.mem_of_getElem? h1))
    | child j =>
      rw [e] at hs
      obtain ⟨-, ⟨c', g1, g2⟩, g3⟩ := hs
      rcases Nat.lt_trichotomy i j with h | h | h
      · exact absurd h2 (g3 i h c h1)
      · rw [h]
      · exact absurd g2 (h3 j h c' g1)
  · cases e : getCellWherePoint touches within cells with
    | none => rfl
    | child j =>
      rw [e] at hs
      obtain ⟨-, ⟨c', g1, g2⟩, -⟩ := hs
      exact absurd g2 (hn c' (List.mem_of_getElem? g1))

/-- Among three cells, the second and the third contain the point. -/
example : getCellWherePoint (fun c : Cell ℚ => c.length == 2 && c.any (! ·.isEmpty))
    (fun c => c.length == 3 && c.any (! ·.isEmpty))
    [[[(⟨0, 0, 0⟩ : Point ℚ)]], [[⟨0, 0, 0⟩], [], []], [[⟨0, 0, 0⟩], []]] = .child 1 := by
  refine ((C96_first (K := ℚ) (fun c => c.length == 2 && c.any (! ·.isEmpty))
    (fun c => c.length == 3 && c.any (! ·.isEmpty))
    (fun c => (c.length = 2 ∨ c.length = 3) ∧ ∃ r ∈ c, r ≠ [])
    (by intro c; simp [or_and_right]) (by rintro c h ⟨-, r, h1, h2⟩; exact h2 (h r h1)) _).1 1).2
    ⟨⟨_, rfl, Or.inr rfl, [⟨0, 0, 0⟩], by simp, by simp⟩, ?_⟩
  intro j hj c hc
  obtain rfl : j = 0 := by omega
  cases hc
  simp

/-- **C96**, how long the cell found lasts: after any further statements it is child `i` of the container as
it is then, for every variable in scope that still refers to the same object; if there is none, reading
the cell is undefined behaviour. -/
theorem C96_lifetime (wkt : Cells K → Cells K) (touches within : Cell K → Bool) (m m' : Mem (Cell K))
    (hm : Valid m) (x : Nat) (r : Ref) (hr : find touches within m x = some r) (ops : List (Op (Cell K)))
    (hrun : run cellsOps wkt m ops = .ok m') (vars : List Nat) :
    (∀ y ∈ vars, m'.env y = m.env x →
      ∃ c, (m'.value y)[r.child]? = some c ∧ read m' vars r = .ok c) ∧
    ((∀ y ∈ vars, m'.env y ≠ m.env x) → (read m' vars r).isUb = true) := by
  have hobj : r.obj = m.env x ∧ r.child < (m.value x).length := by
    unfold find at hr
    split at hr
    · rename_i i hi
      cases hr
      refine ⟨rfl, ?_⟩
      have hs := search_spec (fun c => touches c || within c) (m.value x) (cellsOps.size (m.value x)) 0
        (by have := size_le (m.value x); omega)
      rw [show search (fun c => touches c || within c) (m.value x) (cellsOps.size (m.value x)) 0 = .child i
        from hi] at hs
      have := size_le (m.value x)
      have := hs.2.1
      dsimp only
      omega
    · cases hr
  have hg := run_grows cellsOps wkt hrun
  refine ⟨fun y hy hye => ?_, fun hn => ?_⟩
  · have hlen : r.child < (m'.value y).length := by
      have := hg.2 (m.env x) (hm x)
      unfold Mem.value at hobj ⊢
      rw [hye]
      omega
    have hv : (m'.heap[r.obj]?).bind (·[r.child]?) = some ((m'.value y)[r.child]) := by
      have h2 : m'.heap[r.obj]? = some (m'.value y) := by
        have hl : m.env x < m'.heap.length := lt_of_lt_of_le (hm x) hg.1
        unfold Mem.value
        rw [hobj.1, hye, List.getElem?_eq_getElem hl]
        rfl
      rw [h2, Option.bind_some, List.getElem?_eq_getElem hlen]
    refine ⟨_, List.getElem?_eq_getElem hlen, ?_⟩
    unfold CellFind.read
    rw [if_pos, hv]
    rw [List.any_eq_true]
    exact ⟨y, hy, by simp [hye, hobj.1]⟩
  · unfold CellFind.read
    rw [if_neg]
    · rfl
    · rw [List.any_eq_true]
      rintro ⟨y, hy, h⟩
      exact hn y hy (by simpa [hobj.1] using h)

/-- Two cells; the second contains the point; a third is added later. -/
example : ∃ m', run cellsOps id (⟨[[[[(⟨0, 0, 0⟩ : Point ℚ)]], [[⟨1, 1, 0⟩], []]]], fun _ => 0⟩ : Mem (Cell ℚ))
    [.add 0 [[⟨7, 7, 0⟩]]] = .ok m' ∧ read m' [0] ⟨0, 1⟩ = .ok [[⟨1, 1, 0⟩], []] := by
  refine ⟨_, rfl, ?_⟩
  obtain ⟨c, h1, h2⟩ := (C96_lifetime id (fun c => c.length == 2) (fun _ => false)
    (⟨[[[[(⟨0, 0, 0⟩ : Point ℚ)]], [[⟨1, 1, 0⟩], []]]], fun _ => 0⟩ : Mem (Cell ℚ)) _
    (fun x => by simp) 0 ⟨0, 1⟩ (by rfl) [.add 0 [[⟨7, 7, 0⟩]]] rfl [0]).1 0 (by simp) rfl
  rw [h2]
  have e : (some [[(⟨1, 1, 0⟩ : Point ℚ)], []] : Option (Cell ℚ)) = some c := h1
  rw [Option.some.inj e]

/-- **C96** is false: the cell found is not a value.  After `c = cells.getCellWherePoint(p)`,
`cells.setGeometry(i, d)` leaves `c` dangling, for every container that is the only one with its object and
every index below its size. -/
theorem C96_dangling (wkt : Cells K → Cells K) (touches within : Cell K → Bool) (m : Mem (Cell K))
    (hm : Valid m) (x : Nat) (r : Ref) (hr : find touches within m x = some r) (i : Nat) (d : Cell K)
    (hi : i < cellsOps.size (m.value x)) (vars : List Nat) (hv : ∀ y ∈ vars, y ≠ x → ¬ Same m y x) :
    ∃ m', run cellsOps wkt m [.set x i d] = .ok m' ∧ (read m' vars r).isUb = true ∧
      ∀ f, (change m' vars r f).isUb = true := by
  obtain ⟨v, m', hv', h1, h2, h3, -⟩ := (C95_effect cellsOps wkt m hm x).2.2.2.2 i d
  have hrun : run cellsOps wkt m [.set x i d] = .ok m' := by rw [run, h1]; rfl
  have hobj : r.obj = m.env x := by
    unfold find at hr
    split at hr
    · cases hr; rfl
    · cases hr
  suffices away : ∀ y ∈ vars, m'.env y ≠ m.env x by
    refine ⟨m', hrun, (C96_lifetime wkt touches within m m' hm x r hr _ hrun vars).2 away, fun f => ?_⟩
    unfold change
    rw [if_neg]
    · rfl
    · rw [List.any_eq_true]
      rintro ⟨y, hy, e⟩
      exact away y hy (by rw [← hobj]; simpa using e)
  intro y hy
  rw [step, hv', Outcome.ok_bind, if_pos hi] at h1
  cases h1
  have := hm x
  by_cases e : y = x
  · subst e
    simp only [Mem.fresh, put, if_pos]
    omega
  · simp only [Mem.fresh, put, if_neg e]
    exact hv y hy e

example : ∃ m', run cellsOps id (⟨[[[[(⟨0, 0, 0⟩ : Point ℚ)]], [[⟨1, 1, 0⟩], []]]], fun _ => 0⟩ : Mem (Cell ℚ))
    [.set 0 0 [[⟨7, 7, 0⟩]]] = .ok m' ∧ (read m' [0] ⟨0, 1⟩).isUb = true ∧
      ∀ f, (change m' [0] ⟨0, 1⟩ f).isUb = true :=
  C96_dangling id (fun c => c.length == 2) (fun _ => false) _ (fun x => by simp) 0 ⟨0, 1⟩ rfl 0 _
    (by decide +kernel) [0] (by simp)

/-- **C96**, the other way round: changing the cell found changes child `i` of the container, and of all its
copies; nothing else. -/
theorem C96_writes_through (touches within : Cell K → Bool) (m : Mem (Cell K)) (hm : Valid m) (x : Nat)
    (r : Ref) (hr : find touches within m x = some r) (vars : List Nat) (hx : x ∈ vars)
    (f : Cell K → Cell K) :
    ∃ m', change m vars r f = .ok m' ∧
      (∀ y, Same m y x → m'.value y = (m.value x).modify r.child f) ∧
      ∀ y, ¬ Same m y x → m'.value y = m.value y := by
  have hobj : r.obj = m.env x := by
    unfold find at hr
    split at hr
    · cases hr; rfl
    · cases hr
  refine ⟨{ m with heap := m.heap.modify r.obj (·.modify r.child f) }, ?_, fun y hy => ?_, fun y hy => ?_⟩
  · unfold change
    rw [if_pos]
    rw [List.any_eq_true]
    exact ⟨x, hx, by simp [hobj]⟩
  · unfold Same at hy
    simp only [Mem.value, hy, hobj]
    rw [List.getElem?_modify_eq, List.getElem?_eq_getElem (hm x)]
    rfl
  · unfold Same at hy
    simp only [Mem.value, hobj]
    rw [List.getElem?_modify]
    simp [Ne.symm hy]

example : ∃ m', change (⟨[[[[(⟨1, 1, 0⟩ : Point ℚ)], []]]], fun _ => 0⟩ : Mem (Cell ℚ)) [0] ⟨0, 0⟩
    (fun c => scaleLines c 2) = .ok m' ∧ m'.value 0 = [[[⟨2, 2, 0⟩], []]] := by
  obtain ⟨m', h1, h2, -⟩ := C96_writes_through (fun c => c.length == 2) (fun _ => false)
    (⟨[[[[(⟨1, 1, 0⟩ : Point ℚ)], []]]], fun _ => 0⟩ : Mem (Cell ℚ)) (fun x => by simp) 0 ⟨0, 0⟩ rfl [0]
    (by simp) (fun c => scaleLines c 2)
  exact ⟨m', h1, (h2 0 rfl).trans (by decide +kernel)⟩

/-! ## C97 -/

/-- **C97**, partial: if the point is in one cell only, the line is the one until the border of that cell: it starts
at the point, goes in the direction of the ray and stays in the cell.  Missing: points on the border
between cells (`C97_false`), and what is missing from C78. -/
theorem C97_partial (touches within : Cell ℝ → Bool) (cut : Cell ℝ → Inter)
    (region : Cell ℝ → Set (ℝ × ℝ)) (p : RPoint) (θ len ε : ℝ)
    (h : ∀ c, (touches c = true ∨ within c = true) ↔ xy p ∈ region c)
    (he : ∀ c : Cell ℝ, (∀ r ∈ c, r = []) → region c = ∅) (cells : Cells ℝ) (i : Nat) (c : Cell ℝ)
    (hc : cells[i]? = some c) (hone : ∀ j d, j ≠ i → cells[j]? = some d → xy p ∉ region d)
    (hcut : RayCut (region c) p θ len (cut c)) (hlines : LinesOnly (cut c)) (hε : 1 / 100000 < ε)
    (hlen : ε ≤ len) (hin : ∀ t, 0 ≤ t → t ≤ ε → ray p θ t ∈ region c) :
    ∃ e t, createLineUntilBorder touches within cut cells p = [p, e] ∧ 1 / 100000 < t ∧
      xy e = ray p θ t ∧ ∀ s, 0 ≤ s → s ≤ t → ray p θ s ∈ region c := by
  obtain ⟨e, t, h1, h2, -, h3, h4⟩ := C78_inside_partial (region c) p θ len ε (cut c) hlines hcut hε hlen hin
  refine ⟨e, t, ?_, h2, h3, h4⟩
  have hp : xy p ∈ region c := by
    have := hin 0 le_rfl (by linarith)
    simpa [ray, xy] using this
  have hf := ((C96_first touches within (fun c => xy p ∈ region c) h
    (fun c hc => by rw [he c hc]; simp) cells).1 i).2
    ⟨⟨c, hc, hp⟩, fun j hj d hd => hone j d (by omega) hd⟩
  unfold createLineUntilBorder
  rw [hf]
  simpa [Found.rings, hc] using h1

/-- A square with corners (x, 0) and (x + 1, 1). -/
def unitCell (x : ℝ) : Cell ℝ := [[pt x 0, pt (x + 1) 0, pt (x + 1) 1, pt x 1, pt x 0]]

/-- Its positions; cells of other shapes do not occur below. -/
def unitRegion (c : Cell ℝ) : Set (ℝ × ℝ) :=
  {q | ∃ x, c = unitCell x ∧ x ≤ q.1 ∧ q.1 ≤ x + 1 ∧ 0 ≤ q.2 ∧ q.2 ≤ 1}

theorem unitCell_inj {a b : ℝ} (h : unitCell a = unitCell b) : a = b := by
  simp only [unitCell, pt, List.cons.injEq, Point.mk.injEq] at h
  exact h.1.1.1

theorem mem_unitRegion (x : ℝ) (q : ℝ × ℝ) :
    q ∈ unitRegion (unitCell x) ↔ x ≤ q.1 ∧ q.1 ≤ x + 1 ∧ 0 ≤ q.2 ∧ q.2 ≤ 1 := by
  constructor
  · rintro ⟨y, h, h1⟩
    rw [unitCell_inj h]
    exact h1
  · exact fun h => ⟨x, rfl, h⟩

theorem unitCut (x : ℝ) : RayCut (unitRegion (unitCell x)) (pt x (1 / 2)) 0 2
    (.line [pt x (1 / 2), pt (x + 1) (1 / 2)]) := by
  refine ⟨?_, ?_, ?_, by simp [isolated], by simp⟩
  · simp only [pieces, List.mem_singleton, forall_eq, List.mem_cons, List.not_mem_nil, or_false]
    rintro q (rfl | rfl)
    · exact ⟨0, by norm_num, by norm_num, by simp [xy, ray, pt]⟩
    · exact ⟨1, by norm_num, by norm_num, by simp [xy, ray, pt]⟩
  · simp only [pieces, List.mem_singleton, forall_eq]
    intro q hq
    obtain ⟨h1, h2, h3⟩ := (onLine_x (by linarith) q).1 hq
    rw [mem_unitRegion]
    exact ⟨h1, h2, by simp [xy, h3], by simp only [xy, h3]; norm_num⟩
  · intro t h0 h1 hr
    rw [mem_unitRegion] at hr
    refine .inl ⟨_, List.mem_singleton_self _, pt (x + t) (1 / 2), (onLine_x (by linarith) _).2
      ⟨by simpa [pt] using h0, ?_, rfl⟩, by simp [xy, ray, pt]⟩
    have := hr.2.1
    simpa [ray, pt] using this

/-- The hypotheses of `C97_partial` are met by two squares with a gap between them. -/
example : ∃ (touches within : Cell ℝ → Bool) (cut : Cell ℝ → Inter) (e : RPoint) (t : ℝ),
    createLineUntilBorder touches within cut [unitCell 5, unitCell 0] (pt 0 (1 / 2)) =
      [pt 0 (1 / 2), e] ∧ 1 / 100000 < t ∧ xy e = ray (pt 0 (1 / 2)) 0 t ∧
      ∀ s, 0 ≤ s → s ≤ t → ray (pt 0 (1 / 2)) 0 s ∈ unitRegion (unitCell 0) := by
  classical
  have hne : ∀ x : ℝ, ∃ r ∈ unitCell x, r ≠ [] := fun x => ⟨_, List.mem_singleton_self _, by simp⟩
  refine ⟨fun c => decide (xy (pt 0 (1 / 2)) ∈ unitRegion c), fun _ => false,
    fun _ => .line [pt 0 (1 / 2), pt (0 + 1) (1 / 2)], C97_partial _ _ _ unitRegion (pt 0 (1 / 2)) 0 2 1
    (by intro c; simp) ?_ _ 1 (unitCell 0) rfl ?_ (unitCut 0) (.inl ⟨_, rfl⟩) (by norm_num) (by norm_num) ?_⟩
  · intro c hc
    ext q
    simp only [Set.mem_empty_iff_false, iff_false]
    rintro ⟨x, rfl, -⟩
    obtain ⟨r, h1, h2⟩ := hne x
    exact h2 (hc r h1)
  · intro j d hj hd
    have : j = 0 := by
      rcases j with _ | _ | j
      · rfl
      · exact absurd rfl hj
      · simp at hd
    subst this
    cases hd
    rw [mem_unitRegion]
    simp [xy, pt]
  · intro t h0 h1
    rw [mem_unitRegion]
    simp [ray, pt]
    exact ⟨h0, h1, by norm_num⟩

/-- **C97** is false: two squares share a side; from the middle of that side a ray to the right stays in the
second square for a metre, but only the first square is searched, and no line is returned.  If the squares
are listed the other way round, the line is found. -/
theorem C97_false : ∃ (touches within : Cell ℝ → Bool) (cut : Cell ℝ → Inter),
    (∀ c, (touches c = true ∨ within c = true) ↔ xy (pt 1 (1 / 2)) ∈ unitRegion c) ∧
    (∀ c ∈ [unitCell 0, unitCell 1], RayCut (unitRegion c) (pt 1 (1 / 2)) 0 2 (cut c)) ∧
    (∀ t, 0 ≤ t → t ≤ 1 → ray (pt 1 (1 / 2)) 0 t ∈ unitRegion (unitCell 1)) ∧
    createLineUntilBorder touches within cut [unitCell 0, unitCell 1] (pt 1 (1 / 2)) = [] ∧
    ∃ e, createLineUntilBorder touches within cut [unitCell 1, unitCell 0] (pt 1 (1 / 2)) =
      [pt 1 (1 / 2), e] := by
  classical
  have h01 : unitCell 1 ≠ unitCell 0 := fun h => one_ne_zero (unitCell_inj h)
  have hne : ∀ x : ℝ, ∃ r ∈ unitCell x, r ≠ [] := fun x => ⟨_, List.mem_singleton_self _, by simp⟩
  have he : ∀ c : Cell ℝ, (∀ r ∈ c, r = []) → ¬ xy (pt 1 (1 / 2)) ∈ unitRegion c := by
    rintro c hc ⟨x, rfl, -⟩
    obtain ⟨r, h1, h2⟩ := hne x
    exact h2 (hc r h1)
  have hin : ∀ x : ℝ, x = 0 ∨ x = 1 → xy (pt 1 (1 / 2)) ∈ unitRegion (unitCell x) := by
    rintro x (rfl | rfl) <;> rw [mem_unitRegion] <;> simp [xy, pt] <;> norm_num
  set touches : Cell ℝ → Bool := fun c => decide (xy (pt 1 (1 / 2)) ∈ unitRegion c) with ht
  set cut : Cell ℝ → Inter := fun c => if c = unitCell 0 then .points [pt 1 (1 / 2)] else
    .line [pt 1 (1 / 2), pt (1 + 1) (1 / 2)] with hcut
  have hit : ∀ c, (touches c = true ∨ false = true) ↔ xy (pt 1 (1 / 2)) ∈ unitRegion c := by
    intro c; simp [ht]
  have find : ∀ a b, (a = 0 ∨ a = 1) →
      getCellWherePoint touches (fun _ => false) [unitCell a, unitCell b] = .child 0 := fun a b ha =>
    ((C96_first touches (fun _ => false) _ hit he _).1 0).2
      ⟨⟨_, rfl, hin a ha⟩, fun j hj => absurd hj (Nat.not_lt_zero j)⟩
  have right : ∀ t, 0 ≤ t → t ≤ 1 → ray (pt 1 (1 / 2)) 0 t ∈ unitRegion (unitCell 1) := by
    intro t h0 h1
    rw [mem_unitRegion]
    simp [ray, pt]
    exact ⟨h0, by linarith, by norm_num⟩
  refine ⟨touches, fun _ => false, cut, hit, ?_, right, ?_, ?_⟩
  · simp only [List.mem_cons, List.not_mem_nil, or_false, forall_eq_or_imp, forall_eq]
    constructor
    · simp only [hcut, if_pos]
      refine ⟨by simp [pieces], by simp [pieces], ?_, ?_, by simp⟩
      · intro t h0 h1 hr
        refine .inr ⟨_, List.mem_singleton_self _, ?_⟩
        rw [mem_unitRegion] at hr
        have h2 := hr.2.1
        simp [ray, pt] at h2
        have : t = 0 := by linarith
        subst this
        simp [xy, ray, pt]
      · simp only [isolated, List.mem_singleton, forall_eq, pieces, List.not_mem_nil, false_implies,
          implies_true, and_true]
        exact hin 0 (.inl rfl)
    · simp only [hcut, if_neg h01]
      exact unitCut 1
  · unfold createLineUntilBorder
    rw [find 0 1 (.inl rfl)]
    simp [Found.rings, hcut, lineUntilBorder, Inter.append]
  · obtain ⟨e, t, h1, -⟩ := C78_inside_partial (unitRegion (unitCell 1)) (pt 1 (1 / 2)) 0 2 1
      (cut (unitCell 1)) (by simp only [hcut, if_neg h01]; exact .inl ⟨_, rfl⟩)
      (by simp only [hcut, if_neg h01]; exact unitCut 1) (by norm_num) (by norm_num) right
    refine ⟨e, ?_⟩
    unfold createLineUntilBorder
    rw [find 1 0 (.inr rfl)]
    simpa [Found.rings] using h1

end F2C.Props
