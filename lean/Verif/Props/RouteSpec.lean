import Verif.Model.Route

/-!
# What the route properties talk about
-/

namespace F2C.RouteSpec

variable {K : Type} [Field K] [LinearOrder K]

/-- The public functions that build a route. -/
inductive ROp (K : Type)
  | swath (s : Swath K)
  | swaths (l : Swaths K)
  | connection
  | connectionPoint (p : Point K)
  | connectionPoints (ps : List (Point K))
  | connectedSwaths (ps : List (Point K)) (l : Swaths K)
  | swathVia (s : Swath K)

/-- Effect of one call; `sp` are the shortest paths of the graph that is passed along. -/
def ROp.exec (sp : Point K → Point K → List (Point K)) (r : Route K) : ROp K → Outcome (Route K)
  | .swath s => r.addSwath s
  | .swaths l => r.addSwaths l
  | .connection => .ok r.addConnection
  | .connectionPoint p => r.addConnectionPoint p
  | .connectionPoints ps => r.addConnectionPoints ps
  | .connectedSwaths ps l => r.addConnectedSwaths ps l
  | .swathVia s => r.addSwathVia (fun a b => .ok (sp a b)) s

/-- Run a sequence of calls on an empty route. -/
def run (sp : Point K → Point K → List (Point K)) (ops : List (ROp K)) : Outcome (Route K) :=
  foldOutcome (ROp.exec sp) Route.empty ops

/-- The points a call adds, if the last point of the route is `e` (`none`: nothing was added yet). -/
def ROp.points (sp : Point K → Point K → List (Point K)) (e : Option (Point K)) :
    ROp K → List (Point K)
  | .swath s => s.path
  | .swaths l => l.flatMap fun s => s.path
  | .connection => []
  | .connectionPoint p => [p]
  | .connectionPoints ps => ps
  | .connectedSwaths ps l => ps ++ l.flatMap fun s => s.path
  | .swathVia s => (match e with
      | none => []
      | some p => sp p s.startPoint) ++ s.path

/-- The swaths a call adds. -/
def ROp.added : ROp K → Swaths K
  | .swath s => [s]
  | .swaths l => l
  | .connection => []
  | .connectionPoint _ => []
  | .connectionPoints _ => []
  | .connectedSwaths _ l => l
  | .swathVia s => [s]

/-- No empty collection of swaths and no swath without points is added. -/
def ROp.proper : ROp K → Prop
  | .swath s => s.path ≠ []
  | .swaths l => l ≠ [] ∧ ∀ s ∈ l, s.path ≠ []
  | .connection => True
  | .connectionPoint _ => True
  | .connectionPoints _ => True
  | .connectedSwaths _ l => l ≠ [] ∧ ∀ s ∈ l, s.path ≠ []
  | .swathVia s => s.path ≠ []

/-- Connections and groups in turn, beginning with a connection. -/
def interleave : List (List (Point K)) → List (Swaths K) → List (Point K)
  | [], [] => []
  | [], g :: gs => (g.flatMap fun s => s.path) ++ interleave [] gs
  | c :: cs, [] => c ++ interleave cs []
  | c :: cs, g :: gs => c ++ (g.flatMap fun s => s.path) ++ interleave cs gs

end F2C.RouteSpec
