import Verif.Model.Turning

/-!
# The turn planners

`src/fields2cover/path_planning/dubins_curves.cpp`, `dubins_curves_cc.cpp`, `reeds_shepp_curves.cpp` and
`reeds_shepp_curves_hc.cpp`.
-/

namespace F2C.Turning

/-- The state spaces of the external library steering_functions: `get_path` (and `get_controls`) for the limits given
to the constructor, the discretization and the two states.  The Dubins spaces are constructed with
`forwards = true`. -/
structure Library where
  dubins : ℝ → ℝ → SteerState → SteerState → List SteerState
  reedsShepp : ℝ → ℝ → SteerState → SteerState → List SteerState
  hc00ReedsShepp : ℝ → ℝ → ℝ → SteerState → SteerState → List SteerState
  cc00Dubins : ℝ → ℝ → ℝ → SteerState → SteerState → List SteerState
  cc00Controls : ℝ → ℝ → ℝ → SteerState → SteerState → List Control
  ccDubins : ℝ → ℝ → ℝ → SteerState → SteerState → List SteerState
  ccControls : ℝ → ℝ → ℝ → SteerState → SteerState → List Control

/-- The planner classes. -/
inductive Kind
  | dubins | dubinsCC | reedsShepp | reedsSheppHC
  deriving DecidableEq

/-- Start state of a simple turn (dubins_curves.cpp:17-21 and the same lines in the other files). -/
def startState (a : ℝ) : SteerState := ⟨0, 0, a, 0, 0⟩

/-- End state of a simple turn (dubins_curves.cpp:23-27 and the same lines in the other files). -/
def endState (d b : ℝ) : SteerState := ⟨d, 0, b, 0, 0⟩

/-- `createSimpleTurn` of the four planners (dubins_curves.cpp:13-34, dubins_curves_cc.cpp:14-44,
reeds_shepp_curves.cpp:13-34, reeds_shepp_curves_hc.cpp:13-36).  The loop of the second one ends within 22 rounds
(C42), which is the fuel it gets. -/
noncomputable def simple (lib : Library) : Kind → Solver
  | .dubins, r, disc, d, a, b =>
    steerToPath r.turnVel (lib.dubins r.maxCurv disc (startState a) (endState d b))
  | .dubinsCC, r, disc, d, a, b =>
    ccTurn ⟨fun k s => lib.cc00Controls k s disc (startState a) (endState d b),
      fun k s => lib.cc00Dubins k s disc (startState a) (endState d b)⟩ r true 22
  | .reedsShepp, r, disc, d, a, b =>
    steerToPath r.turnVel (lib.reedsShepp r.maxCurv disc (startState a) (endState d b))
  | .reedsSheppHC, r, disc, d, a, b =>
    steerToPath r.turnVel (lib.hc00ReedsShepp r.maxCurv r.diffCurv disc (startState a) (endState d b))

/-- `DubinsCurvesCC::createConstrainedTurn` (dubins_curves_cc.cpp:46-77). -/
noncomputable def constrained (lib : Library) (r : Robot) (disc : ℝ) (p1 : RPoint) (a1 k1 : ℝ) (p2 : RPoint)
    (a2 k2 : ℝ) (fix : Bool) : Outcome Path :=
  let s : SteerState := ⟨p1.x, p1.y, a1, k1, 0⟩
  let e : SteerState := ⟨p2.x, p2.y, a2, k2, 0⟩
  ccTurn ⟨fun k σ => lib.ccControls k σ disc s e, fun k σ => lib.ccDubins k σ disc s e⟩ r fix 22

end F2C.Turning
