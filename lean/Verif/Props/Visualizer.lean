import Verif.Lemmas.Visualizer

/-!
# What the visualizer draws

C86: a path is drawn with one line per section.  C87: swaths and routes are drawn in order, in the given colours or in
a gradient.  C88: cells are drawn ring by ring, filled ones with their holes.
-/

namespace F2C.Props

open Vis VisualizerSpec

/-! ## C86 -/

/-- C86 is false: a line is cut one state too late.  The path of a swath and two turns is drawn as two lines; the
first one has the swath and the first turn. -/
theorem C86_false : ∃ (p : Path) (ds : List (Draw ℝ)), path p [] = .ok ds ∧
    ¬ ∃ (parts : List Path) (cs : List (Colour ℝ)), parts.flatten = p ∧ Uniform parts ∧
      cs.length = parts.length ∧ ds = pieces parts cs := by
  let a : PathState ℝ := ⟨⟨0, 0, 0⟩, 0, 1, .forward, .swath, 1⟩
  let b : PathState ℝ := ⟨⟨1, 0, 0⟩, 0, 1, .forward, .turn, 1⟩
  let c : PathState ℝ := ⟨⟨2, 0, 0⟩, 0, 1, .forward, .turn, 1⟩
  refine ⟨[a, b, c], [.line ([a, b].flatMap ends) _, .line ([c].flatMap ends) _], rfl, ?_⟩
  rintro ⟨parts, cs, h1, h2, h3, h4⟩
  have hl : ∀ (x y : Path), x.flatMap ends = y.flatMap ends → x.length = y.length := by
    intro x y h
    have e : ∀ z : Path, (z.flatMap ends).length = 2 * List.length z := by
      intro z
      induction z with
      | nil => rfl
      | cons s z ih => rw [List.flatMap_cons, List.length_append, ih]; simp [ends]; omega
    have := congrArg List.length h
    rw [e, e] at this
    omega
  cases h2 with
  | one k x _ hk =>
    have e : x = [a, b, c] := by simpa using h1
    subst e
    have e1 := hk a (by simp)
    have e2 := hk b (by simp)
    exact absurd (e1.trans e2.symm) (by simp [kind, a, b])
  | cons k x y l _ hk _ _ =>
    cases cs with
    | nil => simp at h3
    | cons c1 cs =>
      simp only [pieces, List.zip_cons_cons, List.map_cons, List.cons.injEq, Draw.line.injEq] at h4
      have hx := hl _ _ h4.1.1
      have e : x = [a, b] := by
        have := congrArg (List.take 2) h1
        simp only [List.flatten_cons] at this
        rw [List.take_append_of_le_length (by simp at hx; omega), List.take_of_length_le (by simp at hx; omega)] at this
        simpa using this
      subst e
      have e1 := hk a (by simp)
      have e2 := hk b (by simp)
      exact absurd (e1.trans e2.symm) (by simp [kind, a, b])

/-- C86 is false: a path of one state is not drawn. -/
theorem C86_single (s : PathState ℝ) (given : List (Colour ℝ)) : path [s] given = .ok [] := rfl

/-- C86, partial: every path of two states or more is drawn completely and in order, with one line more than
its kind changes; each line is of one kind except for its last state, which is the first one of the next kind.
The colours are those given, or a gradient. -/
theorem C86_partial (a b : PathState ℝ) (l : Path) (given : List (Colour ℝ))
    (hg : given = [] ∨ changes (a :: b :: l) + 1 ≤ given.length) :
    ∃ (parts : List Path) (cs : List (Colour ℝ)) (ds : List (Draw ℝ)), path (a :: b :: l) given = .ok ds ∧
      ds = pieces parts cs ∧ parts.flatten = a :: b :: l ∧ Late (kind a) parts ∧
      parts.length = changes (a :: b :: l) + 1 ∧ parts.length ≤ cs.length ∧ (given ≠ [] → cs = given) ∧
      (given = [] → 1 ≤ changes (a :: b :: l) → Gradient ⟨0, 255, 0⟩ ⟨21, 15, 11⟩ parts.length cs) := by
  obtain ⟨parts, h1, h2, h3⟩ := sections_late (a :: b :: l) [] a.type a.dir (by simp)
  rw [List.flatMap_nil] at h3
  have hlen : (sections [] a.type a.dir (a :: b :: l)).length = changes (a :: b :: l) + 1 := by
    rw [sections, if_neg (by simp), sections_length]
  have hparts : parts.length = changes (a :: b :: l) + 1 := by rw [← hlen, h3, List.length_map]
  refine ⟨parts, coloursFor given parts.length, _, ?_, rfl, by simpa using h1, h2, hparts,
    coloursFor_length given _ (hparts ▸ hg), ?_, ?_⟩
  · simp only [path]
    rw [linesLoop_ok _ _ (coloursFor_length given _ (hlen ▸ hg)), hlen, ← hparts, h3, List.zip_map_left, List.map_map]
    rfl
  · intro h
    unfold coloursFor
    rw [if_neg (by simpa using h)]
  · intro h hc
    subst h
    exact colorLinspace_gradient _ _ _ (by omega)

/-- The path of a swath and two turns: two lines, the second one with one state. -/
example : changes [(⟨⟨0, 0, 0⟩, 0, 1, .forward, .swath, 1⟩ : PathState ℝ), ⟨⟨1, 0, 0⟩, 0, 1, .forward, .turn, 1⟩,
    ⟨⟨2, 0, 0⟩, 0, 1, .forward, .turn, 1⟩] = 1 := by simp [changes, kind]

/-- C86: fewer colours than lines are read out of bounds. -/
theorem C86_few_colours_ub (a b : PathState ℝ) (l : Path) (given : List (Colour ℝ)) (h0 : given ≠ [])
    (h : given.length < changes (a :: b :: l) + 1) : (path (a :: b :: l) given).isUb = true := by
  have hlen : (sections [] a.type a.dir (a :: b :: l)).length = changes (a :: b :: l) + 1 := by
    rw [sections, if_neg (by simp), sections_length]
  simp only [path]
  apply linesLoop_ub
  unfold coloursFor
  rw [if_neg (by simpa using h0), hlen]
  exact h

example : (path [⟨⟨0, 0, 0⟩, 0, 1, .forward, .swath, 1⟩, ⟨⟨1, 0, 0⟩, 0, 1, .forward, .turn, 1⟩]
    [[some 1, some 0, some 0]]).isUb = true :=
  C86_few_colours_ub _ _ [] _ (by simp) (by simp [changes, kind])

/-! ## C87 -/

section

variable {K : Type} [Field K] [LinearOrder K] [IsStrictOrderedRing K]

/-- C87: two default colours or more are equal steps from green to almost black, both included. -/
theorem C87_gradient (lo hi : Rgb) (n : Nat) (hn : 2 ≤ n) : Gradient lo hi n (colorLinspace (K := K) lo hi n) :=
  colorLinspace_gradient lo hi n hn

example : (colorLinspace green dark 3 : List (Colour ℚ)) =
    [[some 0, some 1, some 0], [some (7 / 170), some (9 / 17), some (11 / 510)],
      [some (7 / 85), some (1 / 17), some (11 / 255)]] := by decide +kernel

omit [IsStrictOrderedRing K] in
/-- C87 is false: a single swath has a colour that is not a number. -/
theorem C87_single_nan (s : Swath K) (a b : Point K) (h : s.path = [a, b]) :
    swaths [s] [] = .ok [.line [(a.x, a.y), (b.x, b.y)] [none, none, none],
      .arrow (a.x, a.y) (b.x, b.y) [none, none, none]] := by
  simp [swaths, coloursFor, colorLinspace, row, linspace, swathsLoop, swath, h, line, planar]

/-- C87, partial: the swaths are drawn once each, in order, in the given colours or in a gradient. -/
theorem C87_swaths_partial (l : Swaths K) (given : List (Colour K)) (hg : given = [] ∨ l.length ≤ given.length) :
    ∃ cs ds, swaths l given = .ok ds ∧ AllDrawn l cs ds ∧ (given ≠ [] → cs = given) ∧
      (given = [] → 2 ≤ l.length → Gradient ⟨0, 255, 0⟩ ⟨21, 15, 11⟩ l.length cs) := by
  obtain ⟨ds, h1, h2⟩ := swathsLoop_drawn l _ (coloursFor_length given _ hg)
  refine ⟨_, ds, h1, h2, ?_, ?_⟩
  · intro h
    unfold coloursFor
    rw [if_neg (by simpa using h)]
  · intro h hn
    subst h
    exact colorLinspace_gradient _ _ _ hn

example : swaths [(⟨0, [⟨0, 0, 0⟩, ⟨4, 0, 0⟩], 3, true, .mainland⟩ : Swath ℚ),
      ⟨1, [⟨4, 3, 0⟩, ⟨2, 3, 0⟩, ⟨0, 3, 0⟩], 3, false, .mainland⟩] [[some 1, some 0, some 0], []] =
    .ok [.line [(0, 0), (4, 0)] [some 1, some 0, some 0], .arrow (0, 0) (4, 0) [some 1, some 0, some 0],
      .line [(4, 3), (2, 3), (0, 3)] [], .arrow (2, 3) (0, 3) []] := rfl

omit [IsStrictOrderedRing K] in
/-- C87: swaths by cells are drawn like all their swaths in a row. -/
theorem C87_by_cells (d : SwathsByCells K) (given : List (Colour K))
    (hg : given = [] ∨ (List.flatten d).length ≤ given.length) :
    swathsByCells d given = swaths (List.flatten d) given := swathsByCells_eq d given hg

example : swathsByCells [[], [(⟨0, [⟨0, 0, 0⟩, ⟨4, 0, 0⟩], 3, true, .mainland⟩ : Swath ℚ)]] [[some 1, some 0, some 0]] =
    .ok [.line [(0, 0), (4, 0)] [some 1, some 0, some 0], .arrow (0, 0) (4, 0) [some 1, some 0, some 0]] := rfl

omit [IsStrictOrderedRing K] in
/-- C87: fewer colours than swaths are read out of bounds. -/
theorem C87_few_colours_ub (d : SwathsByCells K) (given : List (Colour K)) (h0 : given ≠ [])
    (h : given.length < (List.flatten d).length) :
    (swathsByCells d given).isUb = true ∧ (swaths (List.flatten d) given).isUb = true := by
  refine ⟨swathsByCells_ub d given h0 h, ?_⟩
  unfold swaths coloursFor
  rw [if_neg (by simpa using h0)]
  exact swathsLoop_ub _ _ h

example : (swathsByCells [[(⟨0, [⟨0, 0, 0⟩, ⟨4, 0, 0⟩], 3, true, .mainland⟩ : Swath ℚ)],
    [⟨1, [⟨4, 3, 0⟩, ⟨0, 3, 0⟩], 3, false, .mainland⟩]] [[some 1, some 0, some 0]]).isUb = true := rfl

/-- C87: a route is drawn as the line through all its points, under its swaths. -/
theorem C87_route_partial (r : Route K) (given : List (Colour K))
    (hg : given = [] ∨ r.groups.flatten.length ≤ given.length) :
    ∃ cs ds, route r given =
        .ok (Draw.line (r.asLineString.map fun p => (p.x, p.y)) [] :: ds) ∧ AllDrawn r.groups.flatten cs ds ∧
      (given ≠ [] → cs = given) ∧
      (given = [] → 2 ≤ r.groups.flatten.length → Gradient ⟨0, 255, 0⟩ ⟨21, 15, 11⟩ r.groups.flatten.length cs) := by
  obtain ⟨cs, ds, h1, h2⟩ := C87_swaths_partial r.groups.flatten given hg
  refine ⟨cs, ds, ?_, h2⟩
  rw [route, swathsByCells_eq _ _ hg, h1]
  rfl

example : (route (⟨[[⟨0, 0, 0⟩]], [[⟨0, [⟨0, 0, 0⟩, ⟨4, 0, 0⟩], 3, true, .mainland⟩]]⟩ : Route ℚ)
    [[some 1, some 0, some 0]]) = .ok [.line [(0, 0), (0, 0), (4, 0)] [],
      .line [(0, 0), (4, 0)] [some 1, some 0, some 0], .arrow (0, 0) (4, 0) [some 1, some 0, some 0]] := rfl

private theorem palette_six (i : Nat) : palette[2 * i % palette.length]? = some (sixGradients i).1 ∧
    palette[(2 * i + 1) % palette.length]? = some (sixGradients i).2 := by
  have h1 : 2 * i % palette.length = 2 * (i % 6) := by simp [palette]; omega
  have h2 : (2 * i + 1) % palette.length = 2 * (i % 6) + 1 := by simp [palette]; omega
  have h6 : i % 6 < 6 := Nat.mod_lt _ (by norm_num)
  rw [h1, h2]
  unfold sixGradients
  generalize i % 6 = k at h6
  rcases k with _ | _ | _ | _ | _ | _ | k
  all_goals first | exact ⟨rfl, rfl⟩ | omega

/-- C87 for several sets of swaths: each set is drawn in its own gradient, whatever colours are given. -/
theorem C87_sets_partial (l : List (SwathsByCells K)) (given : List (Colour K)) :
    ∃ ds, vectorOfCells l given = .ok ds ∧ SetsDrawn 0 l ds := by
  have key : ∀ (l : List (SwathsByCells K)) (i : Nat), ∃ ds, vectorLoop l i = .ok ds ∧ SetsDrawn i l ds := by
    intro l
    induction l with
    | nil => intro i; exact ⟨[], rfl, .nil i⟩
    | cons d l ih =>
      intro i
      obtain ⟨y, hy, hd⟩ := ih (i + 1)
      obtain ⟨h1, h2⟩ := palette_six i
      have hlen : (List.flatten d).length ≤
          (colorLinspace (K := K) (sixGradients i).1 (sixGradients i).2 (List.flatten d).length).length := by
        rw [colorLinspace_length]
      have e : ∃ cs x, swathsByCells d (colorLinspace (sixGradients i).1 (sixGradients i).2 d.sizeTotal) = .ok x ∧
          AllDrawn (List.flatten d) cs x ∧ (2 ≤ (List.flatten d).length →
            Gradient (sixGradients i).1 (sixGradients i).2 (List.flatten d).length cs) := by
        rw [sizeTotal_eq, swathsByCells_eq _ _ (.inr hlen)]
        obtain ⟨cs, x, e1, e2, e3, -⟩ := C87_swaths_partial (List.flatten d) _ (.inr hlen)
        refine ⟨cs, x, e1, e2, fun hn => ?_⟩
        rw [e3]
        · exact colorLinspace_gradient _ _ _ hn
        · intro h0
          have := congrArg List.length h0
          rw [colorLinspace_length] at this
          simp at this
          simp [this] at hn
      obtain ⟨cs, x, e1, e2, e3⟩ := e
      refine ⟨x ++ y, ?_, .cons i d l cs x y e3 e2 hd⟩
      rw [vectorLoop, h1, h2]
      simp only [Outcome.ok_bind, e1, hy, Outcome.pure_eq]
  exact key l 0

example : ∃ ds : List (Draw ℚ), vectorOfCells
    [[[⟨0, [⟨0, 0, 0⟩, ⟨4, 0, 0⟩], 3, true, .mainland⟩, ⟨1, [⟨4, 3, 0⟩, ⟨0, 3, 0⟩], 3, false, .mainland⟩]], []] [] =
      .ok ds ∧ ds.length = 4 := ⟨_, rfl, rfl⟩

omit [IsStrictOrderedRing K] in
/-- C87 is false of several sets or routes: the given colours are not used. -/
theorem C87_sets_ignore_colours (l : List (SwathsByCells K)) (rs : List (Route K)) (g g' : List (Colour K)) :
    vectorOfCells l g = vectorOfCells l g' ∧ routes rs g = routes rs g' := ⟨rfl, rfl⟩

/-- Two swaths, all in red, are drawn from green to black. -/
example : ∃ ds : List (Draw ℚ), vectorOfCells
    [[[⟨0, [⟨0, 0, 0⟩, ⟨4, 0, 0⟩], 3, true, .mainland⟩, ⟨1, [⟨4, 3, 0⟩, ⟨0, 3, 0⟩], 3, false, .mainland⟩]]]
      [[some 1, some 0, some 0], [some 1, some 0, some 0]] = .ok ds ∧
    ds[1]? = some (.arrow (0, 0) (4, 0) [some 0, some 1, some 0]) := ⟨_, rfl, by decide +kernel⟩

/-- C87: several routes are drawn as their lines, followed by their swaths. -/
theorem C87_routes_partial (rs : List (Route K)) (given : List (Colour K)) :
    ∃ ds, routes rs given =
        .ok ((rs.map fun r => Draw.line (r.asLineString.map fun p => (p.x, p.y)) []) ++ ds) ∧
      SetsDrawn 0 (rs.map (·.groups)) ds := by
  obtain ⟨ds, h1, h2⟩ := C87_sets_partial (rs.map (·.groups)) given
  refine ⟨ds, ?_, h2⟩
  rw [routes, h1, Outcome.ok_bind, Outcome.pure_eq]
  congr 2
  clear h1 h2
  induction rs with
  | nil => rfl
  | cons r rs ih => rw [List.flatMap_cons, List.map_cons, ih]; rfl

example : ∃ ds : List (Draw ℚ), routes [⟨[[⟨0, 0, 0⟩]], [[⟨0, [⟨0, 0, 0⟩, ⟨4, 0, 0⟩], 3, true, .mainland⟩]]⟩] [] =
    .ok (.line [(0, 0), (0, 0), (4, 0)] [] :: ds) ∧ ds.length = 2 := ⟨_, rfl, rfl⟩

/-! ## C88 -/

omit [IsStrictOrderedRing K] in
open Classical in
/-- C88: cells are drawn ring by ring; only cells without points are left out. -/
theorem C88_cells (cs : Cells K) (c : Colour K) :
    cells cs c = (cs.filter fun x => decide (HasPoints x)).flatMap fun x =>
      x.map fun r => .line (r.map fun p => (p.x, p.y)) (if 3 ≤ c.length then c else []) := by
  have e : ∀ x : Cell K, HasPoints x → cell x c =
      x.map fun r => .line (r.map fun p => (p.x, p.y)) (if 3 ≤ c.length then c else []) := by
    intro x hx
    unfold cell
    rw [HasPoints] at hx
    rw [cellSize_take, if_pos hx, List.map_eq_flatMap]
    rfl
  unfold cells
  rw [cells_take_flatMap cs _ (fun x hx => by
    unfold cell
    rw [HasPoints] at hx
    rw [cellSize_take, if_neg hx]
    rfl)]
  apply List.flatMap_congr
  intro x hx
  rw [List.mem_filter] at hx
  exact e x (by simpa using hx.2)

example : cells ([[[⟨0, 0, 0⟩, ⟨1, 0, 0⟩, ⟨0, 1, 0⟩, ⟨0, 0, 0⟩]], []] : Cells ℚ) [some 1, some 0, some 0] =
    [.line [(0, 0), (1, 0), (0, 1), (0, 0)] [some 1, some 0, some 0]] := rfl

omit [IsStrictOrderedRing K] in
open Classical in
/-- C88: filled cells: the border in one colour, then the holes in the other; white if none is given. -/
theorem C88_filled (cs : Cells K) (poly holes : Colour K) :
    filledCells cs poly holes = ((cs.filter fun x => decide (HasPoints x)).flatMap fun x =>
      (x.take 1).map (fun r => Draw.polygon (r.map fun p => (p.x, p.y)) poly) ++
        (x.drop 1).map (fun r => Draw.polygon (r.map fun p => (p.x, p.y)) holes)) ∧
    filledCellsWhite cs poly = filledCells cs poly [some 1, some 1, some 1] := by
  refine ⟨?_, rfl⟩
  unfold filledCells
  rw [cells_take_flatMap cs _ (fun x hx => by
    unfold filledCell
    rw [if_pos ((cellSize_pos x).2 hx)])]
  apply List.flatMap_congr
  intro x hx
  rw [List.mem_filter] at hx
  have hp : HasPoints x := by simpa using hx.2
  unfold filledCell
  rw [if_neg (fun h => (cellSize_pos x).1 h hp)]
  cases x with
  | nil => rfl
  | cons r hs =>
    simp only [filledRing, List.take_succ_cons, List.take_zero, List.map_cons, List.map_nil, List.drop_succ_cons,
      List.drop_zero]
    rw [List.map_eq_flatMap (l := hs)]
    rfl

example : filledCellsWhite ([[[⟨0, 0, 0⟩, ⟨4, 0, 0⟩, ⟨0, 4, 0⟩, ⟨0, 0, 0⟩],
      [⟨1, 1, 0⟩, ⟨2, 1, 0⟩, ⟨1, 2, 0⟩, ⟨1, 1, 0⟩]]] : Cells ℚ) [some 0, some 1, some 0] =
    [.polygon [(0, 0), (4, 0), (0, 4), (0, 0)] [some 0, some 1, some 0],
      .polygon [(1, 1), (2, 1), (1, 2), (1, 1)] [some 1, some 1, some 1]] := rfl

omit [IsStrictOrderedRing K] in
/-- C88 is false of fields: nothing is filled. -/
theorem C88_field_not_filled (cs : Cells K) (c : Colour K) :
    ∀ d ∈ filledField cs c, ∃ pts colour, d = .line pts colour := by
  intro d hd
  unfold filledField at hd
  rw [C88_cells] at hd
  obtain ⟨x, _, hd⟩ := List.mem_flatMap.1 hd
  obtain ⟨r, _, rfl⟩ := List.mem_map.1 hd
  exact ⟨_, _, rfl⟩

omit [IsStrictOrderedRing K] in
/-- C88: the border of one cell; a cell without rings is a null pointer. -/
theorem C88_border (r : Ring K) (hs : Cell K) (c : Colour K) :
    filledBorder (r :: hs) c = .ok [.polygon (r.map fun p => (p.x, p.y)) c] ∧
      (filledBorder ([] : Cell K) c).isUb = true := ⟨rfl, rfl⟩

omit [IsStrictOrderedRing K] in
open Classical in
/-- C88: several lines are drawn one by one, unless none of them has a point. -/
theorem C88_lines (ls : List (List (Point K))) (c : Colour K) :
    multiLine ls c = if ∃ l ∈ ls, l ≠ [] then
      ls.map fun l => .line (l.map fun p => (p.x, p.y)) (if 3 ≤ c.length then c else []) else [] := by
  unfold multiLine
  rw [linesSize_take]
  split
  · rw [List.map_eq_flatMap]; rfl
  · rfl

example : multiLine ([[⟨0, 0, 0⟩, ⟨4, 0, 0⟩], []] : List (List (Point ℚ))) [] =
    [.line [(0, 0), (4, 0)] [], .line [] []] := rfl

omit [IsStrictOrderedRing K] in
/-- C88: points are drawn one by one, in the given colour if it has three components; more than three are
written out of bounds. -/
theorem C88_points (l : List (Point K)) (c : Colour K) :
    (c.length ≤ 3 → multiPoint l c =
      .ok (l.map fun p => .marker (p.x, p.y) (if c.length = 3 then c else []))) ∧
    (3 < c.length → l ≠ [] → (multiPoint l c).isUb = true) := by
  constructor
  · intro h
    induction l with
    | nil => rfl
    | cons p l ih =>
      have e : point p c = .ok [.marker (p.x, p.y) (if c.length = 3 then c else [])] := by
        unfold point planar
        by_cases h3 : c.length = 3
        · rw [if_pos (by omega), if_neg (by omega), if_pos h3]
        · rw [if_neg (by omega), if_neg h3]
      rw [multiPoint, e, ih]
      rfl
  · intro h hl
    cases l with
    | nil => exact absurd rfl hl
    | cons p l =>
      rw [multiPoint, point, if_pos (by omega), if_pos h]
      rfl

example : multiPoint [(⟨1, 2, 3⟩ : Point ℚ)] [some 1, some 0, some 0] = .ok [.marker (1, 2) [some 1, some 0, some 0]] :=
  rfl

end

end F2C.Props
