import Mathlib.Tactic.Linarith
import Mathlib.Tactic.Ring
import Mathlib.Tactic.Push
import Verif.Props.DecompSpec

/-! # Lemmas on decompositions -/

namespace F2C.Decomp

open F2C.Props.SG F2C.Props.DecompSpec

/-- The search keeps the nearest admissible point. -/
theorem nearer_fold (p : RPoint) (l : List RPoint) (best : Option RPoint)
    (hb : ∀ b, best = some b → 1 / 100000 < pdist b p) :
    match l.foldl (nearer p) best with
    | none => best = none ∧ ∀ q ∈ l, pdist q p ≤ 1 / 100000
    | some r => (r ∈ l ∨ best = some r) ∧ 1 / 100000 < pdist r p ∧
        (∀ b, best = some b → pdist r p ≤ pdist b p) ∧
        ∀ q ∈ l, 1 / 100000 < pdist q p → pdist r p ≤ pdist q p := by
  induction l generalizing best with
  | nil =>
    cases best with
    | none => simp
    | some b => simpa using hb b rfl
  | cons a l ih =>
    simp only [List.foldl_cons]
    by_cases h : 1 / 100000 < pdist a p ∧ ∀ b, best = some b → pdist a p < pdist b p
    · have hn : nearer p best a = some a := by simp only [nearer, if_pos h]
      rw [hn]
      have := ih (some a) (by intro b hb'; cases hb'; exact h.1)
      cases hr : l.foldl (nearer p) (some a) with
      | none => rw [hr] at this; simp at this
      | some r =>
        rw [hr] at this
        obtain ⟨h1, h2, h3, h4⟩ := this
        have ha := h3 a rfl
        refine ⟨?_, h2, fun b hb' => ha.trans (h.2 b hb').le, ?_⟩
        · rcases h1 with h1 | h1
          · exact .inl (List.mem_cons_of_mem _ h1)
          · cases h1; exact .inl List.mem_cons_self
        · intro q hq hd
          rcases List.mem_cons.1 hq with rfl | hq
          · exact ha
          · exact h4 q hq hd
    · have hn : nearer p best a = best := by simp only [nearer, if_neg h]
      rw [hn]
      have := ih best hb
      cases hr : l.foldl (nearer p) best with
      | none =>
        rw [hr] at this
        obtain ⟨h1, h2⟩ := this
        refine ⟨h1, fun q hq => ?_⟩
        rcases List.mem_cons.1 hq with rfl | hq
        · by_contra hc
          exact h ⟨lt_of_not_ge hc, by simp [h1]⟩
        · exact h2 q hq
      | some r =>
        rw [hr] at this
        obtain ⟨h1, h2, h3, h4⟩ := this
        refine ⟨h1.imp (List.mem_cons_of_mem _) id, h2, h3, fun q hq hd => ?_⟩
        rcases List.mem_cons.1 hq with rfl | hq
        · by_contra hc
          refine h ⟨hd, fun b hb' => ?_⟩
          have := h3 b hb'
          linarith [lt_of_not_ge hc]
        · exact h4 q hq hd

/-- Points further than 1e-5 from each other are not equal. -/
theorem not_eqv_of_far {p q : RPoint} (h : 1 / 100000 < pdist q p) : Point.eqv q p = false := by
  by_contra hc
  simp only [Bool.not_eq_false, Point.eqv, Bool.and_eq_true, Point.tol] at hc
  obtain ⟨⟨hx, hy⟩, -⟩ := hc
  replace hx := of_decide_eq_true hx
  replace hy := of_decide_eq_true hy
  have h1 : (q.x - p.x) ^ 2 ≤ (1 / 10000000) ^ 2 := sq_le_sq' (by linarith [(abs_lt.1 hx).1]) (abs_lt.1 hx).2.le
  have h2 : (q.y - p.y) ^ 2 ≤ (1 / 10000000) ^ 2 := sq_le_sq' (by linarith [(abs_lt.1 hy).1]) (abs_lt.1 hy).2.le
  have : pdist q p ≤ 1 / 100000 := Real.sqrt_le_iff.2 ⟨by norm_num, by nlinarith⟩
  linarith

/-- Distance along a ray. -/
theorem pdist_ray {p q : RPoint} {θ t : ℝ} (ht : 0 ≤ t) (h : xy q = ray p θ t) : pdist q p = t := by
  have hx : q.x = p.x + t * Real.cos θ := congrArg Prod.fst h
  have hy : q.y = p.y + t * Real.sin θ := congrArg Prod.snd h
  have : (q.x - p.x) ^ 2 + (q.y - p.y) ^ 2 = t ^ 2 := by
    rw [hx, hy]; linear_combination t ^ 2 * Real.sin_sq_add_cos_sq θ
  rw [pdist, this, Real.sqrt_sq ht]

/-- A point on a line is between two neighbouring points of it. -/
theorem OnLine.segment {l : List RPoint} {q : RPoint} (h : OnLine l q) :
    ∃ a ∈ l, ∃ b ∈ l, OnSegment a b q ∧ ∀ c, OnSegment a b c → OnLine l c := by
  induction l with
  | nil => exact h.elim
  | cons a l ih =>
    cases l with
    | nil => exact h.elim
    | cons b l =>
      rcases h with h | h
      · exact ⟨a, by simp, b, by simp, h, fun c hc => .inl hc⟩
      · obtain ⟨u, hu, v, hv, hs, hc⟩ := ih h
        exact ⟨u, List.mem_cons_of_mem _ hu, v, List.mem_cons_of_mem _ hv, hs, fun c h => .inr (hc c h)⟩

theorem append_of_linesOnly {i : Inter} (h : LinesOnly i) {q : RPoint} :
    q ∈ i.append.flatten ↔ ∃ l ∈ pieces i, q ∈ l := by
  rcases h with ⟨l, rfl⟩ | ⟨ls, rfl⟩
  · cases l <;> simp [Inter.append, pieces]
  · simp [Inter.append, pieces]

theorem edges_iff {ring : List RPoint} {u v : RPoint} :
    (u, v) ∈ edges ring ↔ ∃ l r, ring = l ++ u :: v :: r := by
  induction ring with
  | nil => simp [edges]
  | cons a l ih =>
    cases l with
    | nil =>
      simp only [edges, List.not_mem_nil, false_iff]
      rintro ⟨l, r, h⟩
      have := congrArg List.length h
      simp only [List.length_cons, List.length_nil, List.length_append] at this
      omega
    | cons b l =>
      simp only [edges, List.mem_cons, Prod.mk.injEq, ih]
      constructor
      · rintro (⟨rfl, rfl⟩ | ⟨s, r, h⟩)
        · exact ⟨[], l, rfl⟩
        · exact ⟨a :: s, r, by rw [h]; rfl⟩
      · rintro ⟨s, r, h⟩
        cases s with
        | nil => simp only [List.nil_append, List.cons.injEq] at h; exact .inl ⟨h.1.symm, h.2.1.symm⟩
        | cons c s => simp only [List.cons_append, List.cons.injEq] at h; exact .inr ⟨s, r, h.2⟩

theorem isEdge_pair {ring : List RPoint} {a b : RPoint} :
    isEdge ring [a, b] = true ↔ RingEdge ring a b := by
  simp only [isEdge, List.head?_cons, List.getLast?_cons_cons, List.getLast?_singleton, List.any_eq_true,
    Bool.or_eq_true, Bool.and_eq_true, Prod.exists, edges_iff, RingEdge]
  constructor
  · rintro ⟨u, v, ⟨l, r, h⟩, h'⟩; exact ⟨l, r, u, v, h, h'⟩
  · rintro ⟨l, r, u, v, h, h'⟩; exact ⟨u, v, ⟨l, r, h⟩, h'⟩

@[simp] theorem isEdge_nil {ring : List RPoint} : isEdge ring [] = false := rfl

/-- The loop along the ring ends. -/
theorem follow_ok {θ hi : ℝ} {cast : RPoint → List RPoint} (h : Advances θ hi cast) (ring : List RPoint)
    (n : ℕ) (q : RPoint) (hn : (hi - along θ q) * 100000 < n) (h0 : 0 < n) :
    ∃ l, follow cast ring n (cast q) = .ok l ∧ isEdge ring l = false ∧ (l = [] ∨ ∃ s, cast s = l) := by
  induction n generalizing q with
  | zero => exact absurd h0 (lt_irrefl _)
  | succ n ih =>
    rcases h q with e | ⟨r, e, h1, h2⟩
    · exact ⟨[], by simp [follow, e], rfl, .inl rfl⟩
    · by_cases hE : isEdge ring (cast q) = true
      · have hr : (hi - along θ r) * 100000 < n := by push_cast at hn; nlinarith
        have hn0 : 0 < n := by
          rcases Nat.eq_zero_or_pos n with rfl | h
          · simp only [Nat.cast_zero] at hr; nlinarith
          · exact h
        obtain ⟨l, hl, h3⟩ := ih r hr hn0
        refine ⟨l, ?_, h3⟩
        simp only [follow, hE, if_true]
        simpa [e] using hl
      · exact ⟨cast q, by simp [follow, hE], by simpa using hE, .inr ⟨q, rfl⟩⟩

end F2C.Decomp
