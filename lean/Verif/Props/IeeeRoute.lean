import Verif.Lemmas.IeeeRoute
import Verif.Props.Route

/-!
# C148: the cost of a route in double precision

The distance along points, swaths and routes that `RPObjective` adds up (rp_objective.cpp:11-135), for coordinates of type double, is
close to the one for real numbers.
-/

namespace F2C.Props

open Ieee Ieee.Flt Dbl RouteSpec RouteL

variable {fl : ℝ → ℝ}

/-- **C148 (points).**  The cost of a list of points in double precision is a finite double close to the length of the line through them. -/
theorem C148_points (h : IsRounding fl) (ps : List RPoint) (hs : ∀ p ∈ ps, |p.x| ≤ 2 ^ 400 ∧ |p.y| ≤ 2 ^ 400) (hn : ps.length ≤ 2 ^ 27) :
    ∃ x, Ieee.RPCost.multi fl (ps.map ofPoint) = fin x ∧ IsDouble x ∧ |x - lineLength ps| ≤ lineLength ps * (ps.length / 2 ^ 45) + ps.length / 2 ^ 320 :=
  err_size (c := 2) (multi_near h ps hs (by omega)) le_rfl (by omega) hn

/-- **C148 (swaths).**  The cost of swaths that have at least two points is close to the length of the line through all their points. -/
theorem C148_swaths (h : IsRounding fl) (l : Swaths ℝ) (hs : ∀ s ∈ l, ∀ p ∈ s.path, |p.x| ≤ 2 ^ 400 ∧ |p.y| ≤ 2 ^ 400)
    (h2 : ∀ s ∈ l, 2 ≤ s.path.length) (n : Nat) (hn : (l.map fun s => s.path.length + 1).sum = n) (hb : n ≤ 2 ^ 27) :
    ∃ x, Ieee.RPCost.swaths fl (l.map ofSwath) = .ok (fin x) ∧ IsDouble x ∧
      |x - lineLength (l.flatMap fun s => s.path)| ≤ lineLength (l.flatMap fun s => s.path) * (n / 2 ^ 45) + n / 2 ^ 320 := by
  have k := steps_le l
  rw [hn] at k
  have s := swaths_near h l hs (by omega)
  rw [swaths_eq l h2] at s
  cases e : Ieee.RPCost.swaths fl (l.map ofSwath) with
  | ok v =>
    rw [e] at s
    obtain ⟨x, e, r⟩ := err_size (c := 3) s k (by omega) hb
    exact ⟨x, by rw [e], r⟩
  | throw _ => rw [e] at s; exact s.elim
  | ub _ => rw [e] at s; exact s.elim

/-- **C148 (between).**  The ways from swaths to the points that follow and from points to the swaths that follow: without points they
cost nothing; without swaths the way to swaths is undefined behaviour, and the way to points too if there is a point; a swath with a
single point throws, and else the cost is a finite double close to the distance from the last swath to the first point, or from the last point to the
first swath. -/
theorem C148_between (h : IsRounding fl) (l : Swaths ℝ) (ps : List RPoint) (hl : ∀ s ∈ l, ∀ p ∈ s.path, |p.x| ≤ 2 ^ 400 ∧ |p.y| ≤ 2 ^ 400)
    (hp : ∀ p ∈ ps, |p.x| ≤ 2 ^ 400 ∧ |p.y| ≤ 2 ^ 400) :
    Ieee.RPCost.swathsMulti fl (l.map ofSwath) [] = .ok (fin 0) ∧
    (l ≠ [] → Ieee.RPCost.multiSwaths fl [] (l.map ofSwath) = .ok (fin 0)) ∧
    (ps ≠ [] → (Ieee.RPCost.swathsMulti fl [] (ps.map ofPoint)).isUb) ∧
    (Ieee.RPCost.multiSwaths fl (ps.map ofPoint) []).isUb ∧
    (∀ p s, ps.head? = some p → l.getLast? = some s →
      (s.path.length = 1 → Ieee.RPCost.swathsMulti fl (l.map ofSwath) (ps.map ofPoint) = .throw .outOfRange) ∧
      (s.path.length ≠ 1 → ∃ x, Ieee.RPCost.swathsMulti fl (l.map ofSwath) (ps.map ofPoint) = .ok (fin x) ∧ IsDouble x ∧
        |x - pdist s.endPoint p| ≤ pdist s.endPoint p * (1 / 2 ^ 45) + 1 / 2 ^ 320)) ∧
    (∀ p s, ps.getLast? = some p → l.head? = some s →
      (s.path.length = 1 → Ieee.RPCost.multiSwaths fl (ps.map ofPoint) (l.map ofSwath) = .throw .outOfRange) ∧
      (s.path.length ≠ 1 → ∃ x, Ieee.RPCost.multiSwaths fl (ps.map ofPoint) (l.map ofSwath) = .ok (fin x) ∧ IsDouble x ∧
        |x - pdist p s.startPoint| ≤ pdist p s.startPoint * (1 / 2 ^ 45) + 1 / 2 ^ 320)) := by
  have ang : ∀ s : Swath ℝ, (s.path.length = 1 → Ieee.RPCost.angle (ofSwath s) = .throw .outOfRange) ∧
      (s.path.length ≠ 1 → Ieee.RPCost.angle (ofSwath s) = .ok ()) := by
    intro s
    unfold Ieee.RPCost.angle ofSwath
    match s.path with
    | [] => exact ⟨by simp, fun _ => rfl⟩
    | [_] => exact ⟨fun _ => rfl, by simp⟩
    | _ :: _ :: _ => exact ⟨by simp, fun _ => rfl⟩
  refine ⟨rfl, ?_, ?_, rfl, ?_, ?_⟩
  · intro n
    cases l with
    | nil => exact (n rfl).elim
    | cons s l => rfl
  · intro n
    cases ps with
    | nil => exact (n rfl).elim
    | cons p ps => rfl
  · intro p s e1 e2
    cases ps with
    | nil => simp at e1
    | cons p' ps =>
      simp only [List.head?_cons, Option.some.injEq] at e1
      subst e1
      unfold Ieee.RPCost.swathsMulti
      simp only [List.map_cons, List.getLast?_map, e2, Option.map_some]
      refine ⟨fun n => by rw [(ang s).1 n]; rfl, fun n => ?_⟩
      rw [(ang s).2 n, end_eq]
      obtain ⟨x, e, d, b⟩ := err_size (c := 1) (n := 1) (small_distance h (small_end (hl s (List.mem_of_mem_getLast? e2))) (hp p' (by simp)))
        le_rfl (by omega) (by norm_num)
      exact ⟨x, by simp only [Outcome.ok_bind]; rw [e]; rfl, d, by simpa only [Nat.cast_one] using b⟩
  · intro p s e1 e2
    cases l with
    | nil => simp at e2
    | cons s' l =>
      simp only [List.head?_cons, Option.some.injEq] at e2
      subst e2
      unfold Ieee.RPCost.multiSwaths
      simp only [List.map_cons, List.getLast?_map, e1, Option.map_some]
      refine ⟨fun n => by rw [(ang s').1 n]; rfl, fun n => ?_⟩
      rw [(ang s').2 n, start_eq]
      obtain ⟨x, e, d, b⟩ := err_size (c := 1) (n := 1) (small_distance h (hp p (List.mem_of_mem_getLast? e1)) (small_start (hl s' (by simp))))
        le_rfl (by omega) (by norm_num)
      exact ⟨x, by simp only [Outcome.ok_bind]; rw [e]; rfl, d, by simpa only [Nat.cast_one] using b⟩

/-- **C148 (any route).**  In double precision the cost of a route throws, or has undefined behaviour, in the cases in which it has for
real numbers, and else it is a finite double close to the cost for real numbers. -/
theorem C148_route (h : IsRounding fl) (r : Route ℝ) (hc : ∀ c ∈ r.connections, ∀ p ∈ c, |p.x| ≤ 2 ^ 400 ∧ |p.y| ≤ 2 ^ 400)
    (hg : ∀ g ∈ r.groups, ∀ s ∈ g, ∀ p ∈ s.path, |p.x| ≤ 2 ^ 400 ∧ |p.y| ≤ 2 ^ 400) (hn : size r ≤ 2 ^ 27) :
    (∀ e, F2C.RPCost.route r = .throw e ↔ Ieee.RPCost.route fl (ofRoute r) = .throw e) ∧
    (∀ w, F2C.RPCost.route r = .ub w ↔ Ieee.RPCost.route fl (ofRoute r) = .ub w) ∧
    ∀ a, F2C.RPCost.route r = .ok a →
      ∃ x, Ieee.RPCost.route fl (ofRoute r) = .ok (fin x) ∧ IsDouble x ∧ |x - a| ≤ a * (size r / 2 ^ 45) + size r / 2 ^ 320 := by
  have k := steps_size r
  have s := route_near h r ⟨hc, hg⟩ (by omega)
  revert s
  generalize F2C.RPCost.route r = o
  generalize Ieee.RPCost.route fl (ofRoute r) = o'
  intro s
  match o, o', s with
  | .ok a, .ok v, s =>
    refine ⟨by simp, by simp, ?_⟩
    intro a' e
    injection e with e
    subst e
    obtain ⟨x, e, r⟩ := err_size (c := 5) s k le_rfl hn
    exact ⟨x, by rw [e], r⟩
  | .throw e, .throw e', s =>
    have : e = e' := s
    subst this
    simp
  | .ub w, .ub w', s =>
    have : w = w' := s
    subst this
    simp

/-- **C148 (length).**  For a route built by calls in any order, in which every group has a swath, every swath has two points, and groups
with no points between them touch, the cost in double precision is close to the length of the route. -/
theorem C148_length (h : IsRounding fl) (sp : RPoint → RPoint → List RPoint) (ops : List (ROp ℝ)) (r : Route ℝ) (hr : run sp ops = .ok r)
    (hc : ∀ c ∈ r.connections, ∀ p ∈ c, |p.x| ≤ 2 ^ 400 ∧ |p.y| ≤ 2 ^ 400)
    (hg : ∀ g ∈ r.groups, ∀ s ∈ g, ∀ p ∈ s.path, |p.x| ≤ 2 ^ 400 ∧ |p.y| ≤ 2 ^ 400) (hn : size r ≤ 2 ^ 27)
    (h2 : ∀ g ∈ r.groups, g ≠ [] ∧ ∀ s ∈ g, 2 ≤ s.path.length)
    (hj : ∀ i g g', r.groups[i]? = some g → r.groups[i + 1]? = some g' → r.connections[i + 1]? = some [] →
      ∀ s ∈ g.getLast?, ∀ t ∈ g'.head?, pdist s.endPoint t.startPoint = 0) :
    ∃ x, Ieee.RPCost.route fl (ofRoute r) = .ok (fin x) ∧ IsDouble x ∧ |x - r.length| ≤ r.length * (size r / 2 ^ 45) + size r / 2 ^ 320 :=
  (C148_route h r hc hg hn).2.2 _ (C20_cost_is_length_partial sp ops r hr h2 hj)

/-- **C148 (not a number).**  A coordinate x or y that is not a number, among two points or more, makes the cost of the points not a
number; and of every route whose cost is computed without exception, if the points are those of a swath or of a connection. -/
theorem C148_nan (fl : ℝ → ℝ) :
    (∀ ps : List (Point Flt), 2 ≤ ps.length → (∃ p ∈ ps, p.x = nan ∨ p.y = nan) → Ieee.RPCost.multi fl ps = nan) ∧
    ∀ (r : Route Flt) (v : Flt), Ieee.RPCost.route fl r = .ok v →
      (∃ ps, (ps ∈ r.connections ∨ ∃ g ∈ r.groups, ∃ s ∈ g, s.path = ps) ∧ 2 ≤ ps.length ∧ ∃ p ∈ ps, p.x = nan ∨ p.y = nan) → v = nan := by
  refine ⟨fun ps h1 h2 => multiFrom_hasNan ps _ ⟨h1, h2⟩, ?_⟩
  rintro r v e ⟨ps, hm | ⟨g, hg, s, hs, rfl⟩, h1, h2⟩
  · exact route_nan r v (Or.inl ⟨ps, hm, h1, h2⟩) e
  · exact route_nan r v (Or.inr ⟨g, hg, s, hs, h1, h2⟩) e

/-- A route with a single connection whose second point has no y. -/
example : Ieee.RPCost.route toNearest ⟨[[⟨fin 0, fin 0, fin 0⟩, ⟨fin 1, nan, fin 0⟩]], []⟩ = .ok nan := by
  obtain ⟨v, hv⟩ : ∃ v, Ieee.RPCost.route toNearest ⟨[[⟨fin 0, fin 0, fin 0⟩, ⟨fin 1, nan, fin 0⟩]], []⟩ = .ok v := ⟨_, rfl⟩
  rw [hv, (C148_nan toNearest).2 _ v hv ⟨_, Or.inl (List.mem_singleton.2 rfl), by simp, ⟨fin 1, nan, fin 0⟩, by simp, Or.inr rfl⟩]

/-- Eleven metres along three points. -/
example : ∃ x, Ieee.RPCost.multi toNearest ([⟨0, 0, 0⟩, ⟨3, 4, 0⟩, ⟨3, 10, 0⟩].map ofPoint) = fin x ∧ |x - 11| ≤ 1 / 2 ^ 39 := by
  have l : lineLength [(⟨0, 0, 0⟩ : RPoint), ⟨3, 4, 0⟩, ⟨3, 10, 0⟩] = 11 := by
    have e1 : pdist (⟨0, 0, 0⟩ : RPoint) ⟨3, 4, 0⟩ = 5 := by
      simp only [pdist]
      rw [show ((0 : ℝ) - 3) ^ 2 + (0 - 4) ^ 2 = 5 ^ 2 by norm_num, Real.sqrt_sq (by norm_num)]
    have e2 : pdist (⟨3, 4, 0⟩ : RPoint) ⟨3, 10, 0⟩ = 6 := by
      simp only [pdist]
      rw [show ((3 : ℝ) - 3) ^ 2 + (4 - 10) ^ 2 = 6 ^ 2 by norm_num, Real.sqrt_sq (by norm_num)]
    simp only [lineLength, e1, e2]
    norm_num
  obtain ⟨x, e, -, b⟩ := C148_points toNearest_isRounding [⟨0, 0, 0⟩, ⟨3, 4, 0⟩, ⟨3, 10, 0⟩] (by
    intro p m
    have t : (16 : ℝ) ≤ 2 ^ 400 := by
      calc (16 : ℝ) = 2 ^ 4 := by norm_num
        _ ≤ 2 ^ 400 := pow_le_pow_right₀ (by norm_num) (by norm_num)
    simp only [List.mem_cons, List.not_mem_nil, or_false] at m
    rcases m with rfl | rfl | rfl <;> constructor <;> refine le_trans ?_ t <;> norm_num) (by norm_num)
  refine ⟨x, e, ?_⟩
  rw [l] at b
  refine b.trans ?_
  have : (1 : ℝ) / 2 ^ 320 ≤ 1 / 2 ^ 60 := one_div_le_one_div_of_le (by norm_num) (pow_le_pow_right₀ (by norm_num) (by norm_num))
  simp only [List.length_cons, List.length_nil]
  rw [div_eq_mul_one_div _ ((2 : ℝ) ^ 320)]
  generalize (1 : ℝ) / 2 ^ 320 = z at *
  norm_num at *
  linarith

/-- The route with two groups that touch and points before and after, as for C20. -/
example : ∃ r x, run (fun _ _ => []) [.connectionPoint ⟨-1, 0, 0⟩, .swath (sx 0 2), .connection,
      .swath (sx 2 5), .connectionPoint ⟨9, 0, 0⟩] = .ok r ∧ Ieee.RPCost.route toNearest (ofRoute r) = .ok (fin x) ∧
      |x - r.length| ≤ r.length * (size r / 2 ^ 45) + size r / 2 ^ 320 := by
  obtain ⟨r, h1, -⟩ := C18_alternates (fun _ _ => []) [ROp.connectionPoint (⟨-1, 0, 0⟩ : RPoint),
    .swath (sx 0 2), .connection, .swath (sx 2 5), .connectionPoint ⟨9, 0, 0⟩]
  have h2 : r = ⟨[[⟨-1, 0, 0⟩], [], [⟨9, 0, 0⟩]], [[sx 0 2], [sx 2 5]]⟩ := by
    have := h1.symm
    simpa [run, foldOutcome, ROp.exec, Route.addConnectionPoint, Route.addConnection, Route.addSwath,
      Route.empty, modifyBack] using this
  have t : (16 : ℝ) ≤ 2 ^ 400 := by
    calc (16 : ℝ) = 2 ^ 4 := by norm_num
      _ ≤ 2 ^ 400 := pow_le_pow_right₀ (by norm_num) (by norm_num)
  have t0 : (0 : ℝ) ≤ 2 ^ 400 := le_trans (by norm_num) t
  have key := C148_length toNearest_isRounding _ _ r h1 ?_ ?_ ?_ ?_ ?_
  · obtain ⟨x, e, -, b⟩ := key
    exact ⟨r, x, h1, e, b⟩
  · rw [h2]
    intro c hc p hp
    simp only [List.mem_cons, List.not_mem_nil, or_false] at hc
    rcases hc with rfl | rfl | rfl
    · rw [List.mem_singleton.1 hp]
      constructor <;> refine le_trans ?_ t <;> norm_num
    · simp at hp
    · rw [List.mem_singleton.1 hp]
      constructor <;> refine le_trans ?_ t <;> norm_num
  · rw [h2]
    intro g hg s hs p hp
    simp only [List.mem_cons, List.not_mem_nil, or_false] at hg
    rcases hg with rfl | rfl <;> rw [List.mem_singleton.1 hs] at hp <;>
      simp only [sx, List.mem_cons, List.not_mem_nil, or_false] at hp <;>
      rcases hp with rfl | rfl <;> constructor <;> refine le_trans ?_ t <;> norm_num
  · rw [h2]; simp [size, sx]
  · rw [h2]; simp [sx]
  · intro i g g' hi hi' _ s hs t ht
    rw [h2] at hi hi'
    match i with
    | 0 =>
      simp at hi hi'
      subst hi hi'
      simp at hs ht
      subst hs ht
      simp [pdist, sx, Swath.endPoint, Swath.startPoint]
    | 1 => simp at hi'
    | n + 2 => simp at hi

/-- From a point three metres before a swath. -/
example : ∃ x, Ieee.RPCost.multiSwaths toNearest ([(⟨0, 0, 0⟩ : RPoint)].map ofPoint) ([sx 3 5].map ofSwath) = .ok (fin x) ∧
    |x - 3| ≤ 3 * (1 / 2 ^ 45) + 1 / 2 ^ 320 := by
  have t : (16 : ℝ) ≤ 2 ^ 400 := by
    calc (16 : ℝ) = 2 ^ 4 := by norm_num
      _ ≤ 2 ^ 400 := pow_le_pow_right₀ (by norm_num) (by norm_num)
  have e1 : pdist (⟨0, 0, 0⟩ : RPoint) (sx 3 5).startPoint = 3 := by
    simp only [pdist, sx, Swath.startPoint, List.head?_cons, Option.getD_some]
    rw [show ((0 : ℝ) - 3) ^ 2 + (0 - 0) ^ 2 = 3 ^ 2 by norm_num, Real.sqrt_sq (by norm_num)]
  obtain ⟨x, e, -, b⟩ := ((C148_between toNearest_isRounding [sx 3 5] [⟨0, 0, 0⟩] (by
      intro s hs p hp
      rw [List.mem_singleton.1 hs] at hp
      simp only [sx, List.mem_cons, List.not_mem_nil, or_false] at hp
      rcases hp with rfl | rfl <;> constructor <;> refine le_trans ?_ t <;> norm_num) (by
      intro p hp
      rw [List.mem_singleton.1 hp]
      constructor <;> refine le_trans ?_ t <;> norm_num)).2.2.2.2.2 ⟨0, 0, 0⟩ (sx 3 5) rfl rfl).2 (by simp [sx])
  rw [e1] at b
  exact ⟨x, e, b⟩

end F2C.Props
