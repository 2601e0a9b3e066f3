import Mathlib.Data.Rat.Floor
import Verif.Model.Graph
import Verif.Model.Point

/-!
# Graphs on points

`src/fields2cover/types/Graph2D.cpp`, `include/fields2cover/types/Graph2D.h`, and the hash of a
point in `include/fields2cover/types/Point.h`.
-/

namespace F2C

/-- `std::hash<Point>` (Point.h:184-188): `size_t(x + y * 1e10 + z * 1e20)`.  The conversion
truncates towards zero and is undefined if the truncated value is no `size_t`. -/
def hashPoint {K : Type} [Field K] [LinearOrder K] [FloorSemiring K] (p : Point K) : Outcome Nat :=
  let v := p.x + p.y * 10000000000 + p.z * 100000000000000000000
  if -1 < v ∧ v < 18446744073709551616 then .ok ⌊v⌋₊ else .ub "double to size_t out of range"

/-- The part of `std::unordered_map<Point, size_t>` that depends on the library: the hash function and
the lookup in a table of (key, value) pairs.  The hash is not consistent with the tolerance based
`operator==`, so which of several equal keys is found depends on the library; theorems assume
`IsLawful`.  The hash function of the code is `hashPoint`; it is a parameter here because its
conversion is undefined behaviour for many ordinary points, so that the rest could not be studied
otherwise (`IsStrict` says that it is the one of the code). -/
structure PointTable (K : Type) where
  hash : Point K → Outcome Nat
  find : List (Point K × Nat) → Point K → Option Nat

/-- What every library does: an entry that is found is equal to the key, and an equal entry with
the same hash value is never missed. -/
structure PointTable.IsLawful {K : Type} [Field K] [LinearOrder K] (T : PointTable K) : Prop where
  sound : ∀ l p i, T.find l p = some i → ∃ q, (q, i) ∈ l ∧ q.eqv p = true
  complete : ∀ l p q i, (q, i) ∈ l → q.eqv p = true → T.hash q = T.hash p →
    (T.find l p).isSome = true

/-- The hash function is the one of the code. -/
def PointTable.IsStrict {K : Type} [Field K] [LinearOrder K] [FloorSemiring K] (T : PointTable K) :
    Prop := T.hash = hashPoint

/-- `Graph2D` (Graph2D.h:18-61): the base graph and the two maps. -/
structure Graph2D (K : Type) where
  graph : Graph
  nodesToIndex : List (Point K × Nat)
  indexToNodes : List (Nat × Point K)

namespace Graph2D

variable {K : Type}

/-- Default constructed. -/
def empty : Graph2D K := ⟨Graph.empty, [], []⟩

/-- `nodes_to_index_.insert(make_pair(p, nodes_to_index_.size())).first->second`
(Graph2D.cpp:14-17): the table and the index of `p`. -/
def insertNode (T : PointTable K) (l : List (Point K × Nat)) (p : Point K) :
    Outcome (List (Point K × Nat) × Nat) := do
  let _ ← T.hash p
  match T.find l p with
  | some i => return (l, i)
  | none => return (l ++ [(p, l.length)], l.length)

/-- `index_to_nodes_.insert({i, p})`: only if the key is absent. -/
def insertIndex (l : List (Nat × Point K)) (i : Nat) (p : Point K) : List (Nat × Point K) :=
  if (l.lookup i).isSome then l else l ++ [(i, p)]

/-- `Graph2D::addDirectedEdge(from, to, cost)` (Graph2D.cpp:12-21). -/
def addDirectedEdge (T : PointTable K) (g : Graph2D K) (a b : Point K) (cost : Int) :
    Outcome (Graph2D K) := do
  let (l₁, i) ← insertNode T g.nodesToIndex a
  let (l₂, j) ← insertNode T l₁ b
  return ⟨g.graph.addDirectedEdge i j cost, l₂,
    insertIndex (insertIndex g.indexToNodes i a) j b⟩

/-- `Graph2D::addEdge(i, j, cost)` (Graph2D.cpp:23-26). -/
def addEdge (T : PointTable K) (g : Graph2D K) (a b : Point K) (cost : Int) :
    Outcome (Graph2D K) := do
  let g₁ ← g.addDirectedEdge T a b cost
  g₁.addDirectedEdge T b a cost

/-- `Graph2D::nodeToIndex` (Graph2D.cpp:69-71): `at` throws. -/
def nodeToIndex (T : PointTable K) (g : Graph2D K) (p : Point K) : Outcome Nat := do
  let _ ← T.hash p
  match T.find g.nodesToIndex p with
  | some i => return i
  | none => .throw .outOfRange

/-- `Graph2D::indexToNode` (Graph2D.cpp:73-75): `at` throws. -/
def indexToNode (g : Graph2D K) (i : Nat) : Outcome (Point K) :=
  match g.indexToNodes.lookup i with
  | some p => .ok p
  | none => .throw .outOfRange

/-- `Graph2D::numNodes` (Graph2D.cpp:57-59), hiding the function of the base class. -/
def numNodes (g : Graph2D K) : Nat := g.nodesToIndex.length

/-- `Graph2D::getNodes` (Graph2D.cpp:61-67); the order is that of the hash table. -/
def getNodes (g : Graph2D K) : List (Point K) := g.nodesToIndex.map Prod.fst

/-- `Graph2D::removeDirectedEdge` (Graph2D.cpp:48-51). -/
def removeDirectedEdge (T : PointTable K) (g : Graph2D K) (a b : Point K) :
    Outcome (Graph2D K) := do
  let i ← g.nodeToIndex T a
  let j ← g.nodeToIndex T b
  return { g with graph := g.graph.removeDirectedEdge i j }

/-- `Graph2D::removeEdge` (Graph2D.cpp:53-55). -/
def removeEdge (T : PointTable K) (g : Graph2D K) (a b : Point K) : Outcome (Graph2D K) := do
  let g₁ ← g.removeDirectedEdge T a b
  g₁.removeDirectedEdge T b a

/-- The loop mapping indices to points (Graph2D.cpp:94-97). -/
def toPoints (g : Graph2D K) : List Nat → Outcome (List (Point K))
  | [] => .ok []
  | i :: l => do
    let p ← g.indexToNode i
    let ps ← toPoints g l
    return p :: ps

/-- `Graph2D::shortestPath` (Graph2D.cpp:91-99), with the changed object. -/
def shortestPath (T : PointTable K) (g : Graph2D K) (a b : Point K) (inf : Int) :
    Outcome (Graph2D K × List (Point K)) := do
  let i ← g.nodeToIndex T a
  let j ← g.nodeToIndex T b
  let (gr, p) ← g.graph.shortestPath i j inf
  let ps ← g.toPoints p
  return ({ g with graph := gr }, ps)

/-- `Graph2D::shortestPathCost` (Graph2D.cpp:101-104), with the changed object. -/
def shortestPathCost (T : PointTable K) (g : Graph2D K) (a b : Point K) (inf : Int) :
    Outcome (Graph2D K × Int) := do
  let i ← g.nodeToIndex T a
  let j ← g.nodeToIndex T b
  let (gr, c) ← g.graph.shortestPathCost i j inf
  return ({ g with graph := gr }, c)

/-- The two loops of `Graph2D::allPathsBetween` (Graph2D.cpp:81-87). -/
def toPointss (g : Graph2D K) : List (List Nat) → Outcome (List (List (Point K)))
  | [] => .ok []
  | r :: rs => do
    let p ← g.toPoints r
    let ps ← toPointss g rs
    return p :: ps

/-- `Graph2D::allPathsBetween` (Graph2D.cpp:77-89). -/
def allPathsBetween (T : PointTable K) (g : Graph2D K) (a b : Point K) :
    Outcome (List (List (Point K))) := do
  let i ← g.nodeToIndex T a
  let j ← g.nodeToIndex T b
  let rs ← g.graph.allPathsBetween i j
  g.toPointss rs

end Graph2D
end F2C
