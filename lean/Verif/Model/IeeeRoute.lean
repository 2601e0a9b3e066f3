import Verif.Model.IeeeGraph
import Verif.Model.Route

/-!
# The cost of a route, for all values of type `double`

`RPObjective` with the direct distance (`src/fields2cover/objectives/rp_obj/rp_objective.cpp:11-135`,
`rp_obj/direct_dist_path_obj.cpp:11-14`) for coordinates that are numbers, infinite or not numbers; over the real numbers it is in
`Model/Route.lean`.  Simplification: of the angles, which these costs ignore, only the exception of swaths with one point is kept.
-/

namespace F2C.Ieee.RPCost

open Flt

/-- The loop of `computeCost(const F2CMultiPoint&)` (rp_objective.cpp:68-70) and of the overloads for vectors of points and swaths
(rp_objective.cpp:57-59, 102-104), from the sum `d` on. -/
noncomputable def multiFrom (fl : ℝ → ℝ) : Flt → List (Point Flt) → Flt
  | d, a :: b :: l => multiFrom fl (add fl d (distance fl a b)) (b :: l)
  | d, _ => d

/-- `computeCost(const F2CMultiPoint&)` (rp_objective.cpp:63-72) and `computeCost(const std::vector<F2CPoint>&)`
(rp_objective.cpp:55-61). -/
noncomputable def multi (fl : ℝ → ℝ) (ps : List (Point Flt)) : Flt := multiFrom fl (fin 0) ps

/-- The exception of `Swath::getInAngle` and `getOutAngle` (Swath.cpp:77-90), thrown for a single point. -/
def angle (s : Swath Flt) : Outcome Unit :=
  match s.path with
  | [_] => .throw .outOfRange
  | _ => .ok ()

/-- `Swath::startPoint` (Swath.cpp:92-97). -/
def startPoint (s : Swath Flt) : Point Flt := s.path.head?.getD ⟨fin 0, fin 0, fin 0⟩

/-- `Swath::endPoint` (Swath.cpp:99-104). -/
def endPoint (s : Swath Flt) : Point Flt := s.path.getLast?.getD ⟨fin 0, fin 0, fin 0⟩

/-- Second loop of `computeCost(const F2CSwaths&)` (rp_objective.cpp:113-116), from `prev` on. -/
noncomputable def gaps (fl : ℝ → ℝ) : Flt → Swath Flt → Swaths Flt → Outcome Flt
  | d, _, [] => .ok d
  | d, prev, s :: l => do
    let _ ← angle prev
    let _ ← angle s
    gaps fl (add fl d (distance fl (endPoint prev) (startPoint s))) s l

/-- `computeCost(const F2CSwaths&)` (rp_objective.cpp:108-118). -/
noncomputable def swaths (fl : ℝ → ℝ) (l : Swaths Flt) : Outcome Flt :=
  let d := l.foldl (fun d s => add fl d (multi fl s.path)) (fin 0)
  match l with
  | [] => .ok d
  | s :: r => gaps fl d s r

/-- `computeCost(const F2CSwaths&, const F2CMultiPoint&)` (rp_objective.cpp:74-86). -/
noncomputable def swathsMulti (fl : ℝ → ℝ) (l : Swaths Flt) (ps : List (Point Flt)) : Outcome Flt :=
  match ps with
  | [] => .ok (fin 0)
  | p :: _ => match l.getLast? with
    | none => .ub "back of an empty vector"
    | some s => do
      let _ ← angle s
      return distance fl (endPoint s) p

/-- `computeCost(const F2CMultiPoint&, const F2CSwaths&)` (rp_objective.cpp:88-98). -/
noncomputable def multiSwaths (fl : ℝ → ℝ) (ps : List (Point Flt)) (l : Swaths Flt) : Outcome Flt :=
  match l with
  | [] => .ub "index out of range"
  | s :: _ => match ps.getLast? with
    | none => .ok (fin 0)
    | some p => do
      let _ ← angle s
      return distance fl p (startPoint s)

/-- One iteration of the last loop of `computeCost(const F2CRoute&)` (rp_objective.cpp:128-133). -/
noncomputable def routeStep (fl : ℝ → ℝ) (r : Route Flt) (d : Flt) (i : Nat) : Outcome Flt :=
  match r.connections[i]?, r.groups[i]? with
  | some c, some g => do
    let a ← multiSwaths fl c g
    if i + 1 < r.connections.length then
      match r.connections[i + 1]? with
      | some c' => do
        let b ← swathsMulti fl g c'
        return add fl (add fl d a) b
      | none => .ub "index out of range"
    else return add fl d a
  | _, _ => .ub "index out of range"

/-- `computeCost(const F2CRoute&)` (rp_objective.cpp:120-135). -/
noncomputable def route (fl : ℝ → ℝ) (r : Route Flt) : Outcome Flt := do
  let d₁ ← foldOutcome (fun d g => do let a ← swaths fl g; return add fl d a) (fin 0) r.groups
  let d₂ := r.connections.foldl (fun d c => add fl d (multi fl c)) d₁
  foldOutcome (routeStep fl r) d₂ (List.range r.groups.length)

end F2C.Ieee.RPCost
