import Verif.Model.RoutePlanner
import Verif.Props.Graph2DSpec

/-!
# What the properties of the route planner talk about
-/

namespace F2C.PlannerSpec

variable {K : Type} [Field K] [LinearOrder K]

/-- Point in the middle between the ends of a swath. -/
def middle (s : Swath K) : Point K :=
  ⟨(s.startPoint.x + s.endPoint.x) / 2, (s.startPoint.y + s.endPoint.y) / 2,
    (s.startPoint.z + s.endPoint.z) / 2⟩

/-- Where the tour begins and ends: the point that was set, or an arbitrary far away point. -/
def home (rse : Option (Point K)) : Point K := rse.getD ⟨-100000000, -100000000, 0⟩

/-- The points of the tour. -/
def tourPoints (rse : Option (Point K)) (l : Swaths K) : List (Point K) :=
  (l.flatMap fun s => [s.startPoint, middle s, s.endPoint]) ++ [home rse]

/-- No two points of the tour compare equal. -/
def Distinct (rse : Option (Point K)) (l : Swaths K) : Prop :=
  (tourPoints rse l).Pairwise fun p q => p.eqv q = false

/-- The points where the machine enters and leaves the headland. -/
def ends (rse : Option (Point K)) (l : Swaths K) : List (Point K) :=
  (l.flatMap fun s => [s.startPoint, s.endPoint]) ++ rse.toList

/-- The headland graph answers all queries between the given points, and connects them. -/
def Connects (T : PointTable K) (sg : Graph2D K) (V : List (Point K)) : Prop :=
  ∀ a ∈ V, ∀ b ∈ V, ∃ g c g' p, sg.shortestPathCost T a b (2 ^ 30) = .ok (g, c) ∧ 0 ≤ c ∧ c ≤ 2 ^ 30 ∧
    sg.shortestPath T a b (2 ^ 30) = .ok (g', p) ∧ (a = b → p = []) ∧
    (a ≠ b → p.head? = some a ∧ p.getLast? = some b)

/-- What the optimiser promises to return: all nodes except the last one, in some order. -/
def IsTour (cov : Graph2D K) (ids : List Nat) : Prop := ids.Perm (List.range (cov.numNodes - 1))

/-- Cost of a sequence of nodes, as the optimiser counts: a missing edge costs `10^15`. -/
def seqCost (cov : Graph2D K) : List Nat → Int
  | a :: b :: l => cov.graph.getCostFromEdge a b (10 ^ 15) + seqCost cov (b :: l)
  | _ => 0

/-- Cost of a tour from the last node through all others and back. -/
def tourCost (cov : Graph2D K) (ids : List Nat) : Int :=
  seqCost cov ((cov.numNodes - 1) :: ids ++ [cov.numNodes - 1])

/-- An optimiser that avoids missing edges if it can: if there is a tour cheaper than a single missing
edge, it returns such a tour. -/
def AvoidsMissing (solve : Graph2D K → Option (List Nat)) : Prop :=
  ∀ cov, (∃ ids, IsTour cov ids ∧ tourCost cov ids < 10 ^ 15) →
    ∃ ids, solve cov = some ids ∧ IsTour cov ids ∧ tourCost cov ids < 10 ^ 15

/-- An optimiser whose tours are at most `ε` more expensive than any other tour (0: a perfect one). -/
def NearBest (ε : Int) (solve : Graph2D K → Option (List Nat)) : Prop :=
  ∀ cov ids ids', solve cov = some ids → IsTour cov ids' → tourCost cov ids ≤ tourCost cov ids' + ε

/-- `C` are the distances that the headland graph answers with. -/
def Answers (T : PointTable K) (sg : Graph2D K) (V : List (Point K)) (C : Point K → Point K → Int) : Prop :=
  ∀ a ∈ V, ∀ b ∈ V, ∃ g, sg.shortestPathCost T a b (2 ^ 30) = .ok (g, C a b)

/-- A swath as it appears in a route (the type is lost in the copy), driven backwards if the flag is
set. -/
def driven (x : Swath K × Bool) : Swath K :=
  if x.2 then Swath.reverse { x.1 with type := .mainland } else { x.1 with type := .mainland }

/-- The connections after the swath `s`, when the swaths `l` and then the end of the route follow. -/
inductive Legs (R : Point K → Point K → List (Point K) → Prop) (rse : Option (Point K)) :
    Swath K → Swaths K → List (List (Point K)) → Prop
  | stop {s} : rse = none → Legs R rse s [] []
  | home {s p c} : rse = some p → R s.endPoint p c → Legs R rse s [] [c]
  | next {s t l c cs} : R s.endPoint t.startPoint c → Legs R rse t l cs → Legs R rse s (t :: l) (c :: cs)

/-- The connections of a route through the swaths: in between, and before and after if a start and
end point is set. -/
def Connections (R : Point K → Point K → List (Point K) → Prop) (rse : Option (Point K)) :
    Swaths K → List (List (Point K)) → Prop
  | s :: l, c :: cs => (match rse with
      | none => c = []
      | some p => R p s.startPoint c) ∧ Legs R rse s l cs
  | _, _ => False

/-- The ways between swaths (and to the end of the route) after the swath `s`. -/
def hopsFrom (rse : Option (Point K)) : Swath K → Swaths K → List (Point K × Point K)
  | s, [] => match rse with
    | none => []
    | some p => [(s.endPoint, p)]
  | s, t :: l => (s.endPoint, t.startPoint) :: hopsFrom rse t l

/-- The ways between swaths in a route through `l`: pairs of beginning and end. -/
def hops (rse : Option (Point K)) : Swaths K → List (Point K × Point K)
  | [] => []
  | s :: l => (match rse with
    | none => []
    | some p => [(p, s.startPoint)]) ++ hopsFrom rse s l

end F2C.PlannerSpec
