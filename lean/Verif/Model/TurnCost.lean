import Verif.Model.PathPlanning

/-!
# Cost of a route with all turns computed

`include/fields2cover/objectives/rp_obj/complete_turn_path_obj.h`, with the default objective for paths,
`src/fields2cover/objectives/pp_obj/pp_objective.cpp`.  The class overrides the overload of `computeCost` for two
points with angles; the others are those of `RPObjective` (`rp_objective.cpp`).  The turn planner is a member,
its cache is passed along.
-/

namespace F2C.TurnCost

open Turning

/-- `PPObjective::computeCost` (pp_objective.cpp:11-13), also of `PathLength` (path_length.h:16-19). -/
noncomputable def path (p : Path) : ℝ := p.totalLength

/-- `CompleteTurnPathObj::computeCost(p1, ang1, p2, ang2)` (complete_turn_path_obj.h:78-84). -/
noncomputable def turn (solve : Solver) (r : Robot) (t : Planner) (p1 : RPoint) (a1 : ℝ) (p2 : RPoint) (a2 : ℝ) :
    Outcome (ℝ × Planner) := do
  let (q, t') ← createTurn solve t r p1 a1 p2 a2
  return (path q, t')

/-- Second loop of `RPObjective::computeCost(const F2CSwaths&)` (rp_objective.cpp:113-116), from `prev` on; the
call for two points with angles is virtual (rp_objective.h:40-41). -/
noncomputable def gaps (solve : Solver) (r : Robot) : Planner → ℝ → Swath ℝ → Swaths ℝ → Outcome (ℝ × Planner)
  | t, d, _, [] => .ok (d, t)
  | t, d, prev, s :: l => do
    let a1 ← prev.outAngle
    let a2 ← s.inAngle
    let (c, t') ← turn solve r t prev.endPoint a1 s.startPoint a2
    gaps solve r t' (d + c) s l

/-- `RPObjective::computeCost(const F2CSwaths&)` (rp_objective.cpp:108-118). -/
noncomputable def swaths (solve : Solver) (r : Robot) (t : Planner) (l : Swaths ℝ) : Outcome (ℝ × Planner) :=
  let d := l.foldl (fun d s => d + RPCost.swath s) 0
  match l with
  | [] => .ok (d, t)
  | s :: l => gaps solve r t d s l

/-- `RPObjective::computeCost(s1, s2)` (rp_objective.cpp:36-39). -/
noncomputable def between (solve : Solver) (r : Robot) (t : Planner) (s1 s2 : Swath ℝ) : Outcome (ℝ × Planner) := do
  let a1 ← s1.outAngle
  let a2 ← s2.inAngle
  turn solve r t s1.endPoint a1 s2.startPoint a2

/-- `RPObjective::computeCost(const F2CRoute&)` (rp_objective.cpp:120-135).  The steps between swaths and
connections (rp_objective.cpp:74-98) call the overloads with one angle, which are not overridden and ignore
it. -/
noncomputable def route (solve : Solver) (r : Robot) (t : Planner) (rt : Route ℝ) : Outcome (ℝ × Planner) := do
  let (d₁, t₁) ← foldOutcome (fun (x : ℝ × Planner) g => do
    let (a, t') ← swaths solve r x.2 g
    return (x.1 + a, t')) (0, t) rt.groups
  let d₂ := rt.connections.foldl (fun d c => d + RPCost.multi c) d₁
  let d ← foldOutcome (RPCost.routeStep rt) d₂ (List.range rt.groups.length)
  return (d, t₁)

end F2C.TurnCost
