import Verif.Model.Outcome

/-!
# Graphs

`src/fields2cover/types/Graph.cpp`, `include/fields2cover/types/Graph.h`.

`std::unordered_map` is an association list in unspecified order.  `int64_t` is `Int` with an
explicit overflow check where the code adds; `std::vector<std::vector<..>>` of size `N x N` is a
function on indices together with its size (accesses outside are checked where they can occur).
-/

namespace F2C

/-- `map_to_map_to_int` (Graph.h:20-21): `edges_[from][to] = cost`. -/
abbrev EdgeMap := List (Nat × List (Nat × Int))

/-- A square matrix stored in a vector of vectors; the size is kept separately. -/
abbrev Mat := Nat → Nat → Int

namespace Mat

/-- `m[i][j] = v`. -/
def set (m : Mat) (i j : Nat) (v : Int) : Mat := fun a b => if a = i ∧ b = j then v else m a b

end Mat

/-- Insert or overwrite in an association list (`std::unordered_map::operator[] =`). -/
def assocSet {β : Type} (l : List (Nat × β)) (k : Nat) (v : β) : List (Nat × β) :=
  match l with
  | [] => [(k, v)]
  | (a, b) :: r => if a = k then (a, v) :: r else (a, b) :: assocSet r k v

namespace EdgeMap

/-- `edges_[from][to] = cost` (Graph.cpp:14). -/
def insert (e : EdgeMap) (from' to' : Nat) (cost : Int) : EdgeMap :=
  assocSet e from' (assocSet ((e.lookup from').getD []) to' cost)

/-- `edges_.at(from).erase(to)` guarded by the two `count`s (Graph.cpp:28-34). -/
def remove (e : EdgeMap) (from' to' : Nat) : EdgeMap :=
  match e.lookup from' with
  | none => e
  | some ds => match ds.lookup to' with
    | none => e
    | some _ => assocSet e from' (ds.filter fun d => d.1 ≠ to')

/-- Cost of the edge, if it exists: `edges_.at(from).at(to)`. -/
def cost? (e : EdgeMap) (i j : Nat) : Option Int := (e.lookup i).bind fun ds => ds.lookup j

end EdgeMap

/-- The pair of matrices `distance_`, `next_`. -/
structure Tables where
  dist : Mat
  next : Mat

/-- `int64_t` range check of a sum; signed overflow is undefined behaviour. -/
def addI64 (a b : Int) : Outcome Int :=
  if -9223372036854775808 ≤ a + b ∧ a + b ≤ 9223372036854775807 then .ok (a + b)
  else .ub "signed overflow"

/-- Inner loop over the destinations of one source (Graph.cpp:118-121), for matrices of size `n`;
indices outside of the matrices are undefined behaviour. -/
def initDests (n src : Nat) : List (Nat × Int) → Tables → Outcome Tables
  | [], t => .ok t
  | (d, c) :: ds, t =>
    if src < n ∧ d < n then
      initDests n src ds ⟨t.dist.set src d c, t.next.set src d d⟩
    else .ub "index out of range"

/-- Loop over all sources (Graph.cpp:117-123). -/
def initEdges (n : Nat) : EdgeMap → Tables → Outcome Tables
  | [], t => .ok t
  | (s, ds) :: es, t => do
    let t' ← initDests n s ds t
    if s < n then initEdges n es ⟨t'.dist.set s s 0, t'.next⟩
    else .ub "index out of range"

/-- Body of the triple loop (Graph.cpp:130-135).  `&&` evaluates the sum only if both operands
are below `INF`. -/
def relax (inf : Int) (k : Nat) (t : Tables) (ij : Nat × Nat) : Outcome Tables :=
  if t.dist ij.1 k < inf ∧ t.dist k ij.2 < inf then do
    let s ← addI64 (t.dist ij.1 k) (t.dist k ij.2)
    if t.dist ij.1 ij.2 > s then
      .ok ⟨t.dist.set ij.1 ij.2 s, t.next.set ij.1 ij.2 (t.next ij.1 k)⟩
    else .ok t
  else .ok t

/-- All pairs `(i, j)` in the order of the two inner loops (Graph.cpp:128-129). -/
def allPairs (n : Nat) : List (Nat × Nat) :=
  (List.range n).flatMap fun i => (List.range n).map fun j => (i, j)

/-- `List.foldlM` for outcomes, written out. -/
def foldOutcome {α β : Type} (f : β → α → Outcome β) : β → List α → Outcome β
  | b, [] => .ok b
  | b, a :: l => do
    let b' ← f b a
    foldOutcome f b' l

/-- The triple loop (Graph.cpp:127-138). -/
def floydWarshall (n : Nat) (inf : Int) (t : Tables) : Outcome Tables :=
  foldOutcome (fun t k => foldOutcome (relax inf k) t (allPairs n)) t (List.range n)

/-- `while (current != to) { current = next[current][to]; path.push_back(current); }`
(Graph.cpp:145-147, 174-177, 198-201).  A successor `-1` is converted to a huge index: undefined
behaviour.  The loop is deterministic in `current < n`, so `n` steps without reaching `to` mean an
endless loop, which is reported as undefined behaviour as well. -/
def follow (n : Nat) (next : Mat) (to' : Nat) : Nat → Nat → Outcome (List Nat)
  | 0, cur => if cur = to' then .ok [cur] else .ub "endless loop"
  | fuel + 1, cur =>
    if cur = to' then .ok [cur]
    else if cur < n ∧ to' < n then
      let nx := next cur to'
      if nx < 0 then .ub "index out of range" else do
        let rest ← follow n next to' fuel nx.toNat
        return cur :: rest
    else .ub "index out of range"

/-- One step of the loop that checks reconstruction (Graph.cpp:143-150). -/
def checkPair (n : Nat) (inf : Int) (t : Tables) (ij : Nat × Nat) : Outcome Tables :=
  if ij.1 ≠ ij.2 ∧ t.next ij.1 ij.2 ≠ -1 then do
    let _ ← follow n t.next ij.2 n ij.1
    return t
  else if ij.1 ≠ ij.2 ∧ t.next ij.1 ij.2 = -1 then .ok ⟨t.dist.set ij.1 ij.2 inf, t.next⟩
  else .ok t

/-- `Graph::shortestPathsAndCosts` and `Graph::initializeMatrices` (Graph.cpp:102-153);
`numNodes()` is the number of keys (Graph.cpp:39-41). -/
def computeTables (e : EdgeMap) (inf : Int) : Outcome Tables := do
  let n := e.length
  let t₀ ← initEdges n e ⟨fun _ _ => inf, fun _ _ => -1⟩
  let t₁ ← floydWarshall n inf t₀
  foldOutcome (checkPair n inf) t₁ (allPairs n)

/-- `Graph` (Graph.h:71-75).  `distance_` and `next_` are always assigned and cleared together, with
the size they had when they were computed; `none` is "never computed or cleared".
Simplification: `shortest_paths_` (the memo of `getPaths`) is recomputed from `next_` on demand; it
is a function of `next_` and is cleared together with it. -/
structure Graph where
  edges : EdgeMap
  cache : Option (Nat × Tables)

namespace Graph

/-- Default constructed graph. -/
def empty : Graph := ⟨[], none⟩

/-- `Graph::numNodes` (Graph.cpp:39-41). -/
def numNodes (g : Graph) : Nat := g.edges.length

/-- Conversion of an `int` to `size_t`: modulo `2^64`. -/
def sizeOfInt (x : Int) : Nat := (x % 2 ^ 64).toNat

/-- Conversion of a `size_t` to `int`: modulo `2^32`, to the range of `int`.  Simplification: up to C++17
a value out of range is converted as the implementation defines; this is what the usual compilers do. -/
def intOfSize (n : Nat) : Int :=
  if n % 2 ^ 32 < 2 ^ 31 then ((n % 2 ^ 32 : Nat) : Int) else ((n % 2 ^ 32 : Nat) : Int) - 2 ^ 32

/-- `Graph::numEdges` (Graph.cpp:43-46): the initial value `0` makes the sum an `int`; each term is added
as `size_t` and converted back. -/
def numEdges (g : Graph) : Nat :=
  sizeOfInt (g.edges.foldl (fun sum e => intOfSize ((sizeOfInt sum + e.2.length) % 2 ^ 64)) 0)

/-- `Graph::addDirectedEdge` (Graph.cpp:13-21): the caches are cleared if they are not empty. -/
def addDirectedEdge (g : Graph) (i j : Nat) (c : Int) : Graph :=
  ⟨g.edges.insert i j c, none⟩

/-- `Graph::addEdge` (Graph.cpp:23-25). -/
def addEdge (g : Graph) (i j : Nat) (c : Int) : Graph :=
  (g.addDirectedEdge i j c).addDirectedEdge j i c

/-- `Graph::removeDirectedEdge` (Graph.cpp:28-34): the caches stay. -/
def removeDirectedEdge (g : Graph) (i j : Nat) : Graph := { g with edges := g.edges.remove i j }

/-- `Graph::removeEdge` (Graph.cpp:35-37). -/
def removeEdge (g : Graph) (i j : Nat) : Graph :=
  (g.removeDirectedEdge i j).removeDirectedEdge j i

/-- `Graph::getCostFromEdge` (Graph.cpp:63-68). -/
def getCostFromEdge (g : Graph) (i j : Nat) (inf : Int) : Int := (g.edges.cost? i j).getD inf

/-- `Graph::getEdgesFrom` (Graph.cpp:52-61). -/
def getEdgesFrom (e : EdgeMap) (i : Nat) : List Nat :=
  match e.lookup i with
  | none => []
  | some ds => ds.map Prod.fst

/-- `if (numNodes() > 0 && distance_.empty()) shortestPathsAndCosts(INF)` (Graph.cpp:187-189 and
209-211): returns the object with its caches filled. -/
def ensure (g : Graph) (inf : Int) : Outcome Graph :=
  match g.cache with
  | some _ => .ok g
  | none => if g.numNodes > 0 then do
      let t ← computeTables g.edges inf
      return { g with cache := some (g.numNodes, t) }
    else .ok g

/-- `Graph::shortestPathCost` (Graph.cpp:208-213), returning the object (with filled caches) too. -/
def shortestPathCost (g : Graph) (i j : Nat) (inf : Int) : Outcome (Graph × Int) := do
  let g' ← g.ensure inf
  match g'.cache with
  | none => .ub "index out of range"
  | some (n, t) => if i < n ∧ j < n then .ok (g', t.dist i j) else .ub "index out of range"

/-- `Graph::shortestPath` (Graph.cpp:186-206). -/
def shortestPath (g : Graph) (i j : Nat) (inf : Int) : Outcome (Graph × List Nat) := do
  let g' ← g.ensure inf
  if i = j then .ok (g', [])
  else match g'.cache with
    | none => .ub "index out of range"
    | some (n, t) =>
      if i < n ∧ j < n then
        if t.next i j ≠ -1 then do
          let p ← follow n t.next j n i
          return (g', p)
        else .ok (g', [])
      else .ub "index out of range"

/-- `Graph::getCosts` (Graph.cpp:155-160): the matrix `distance_` with its size; `INF` has the
default value `1e15` (Graph.h:52). -/
def getCosts (g : Graph) : Outcome (Graph × Nat × Mat) := do
  let g' ← g.ensure 1000000000000000
  match g'.cache with
  | none => .ok (g', 0, fun _ _ => 0)
  | some (n, t) => .ok (g', n, t.dist)

/-- One iteration of the loops of `Graph::getPaths` (Graph.cpp:169-181). -/
def getPathsStep (n : Nat) (next : Mat) (ps : Nat → Nat → List Nat) (ij : Nat × Nat) :
    Outcome (Nat → Nat → List Nat) :=
  if ij.1 ≠ ij.2 ∧ next ij.1 ij.2 ≠ -1 then do
    let p ← follow n next ij.2 n ij.1
    return fun a b => if a = ij.1 ∧ b = ij.2 then p else ps a b
  else .ok ps

/-- `Graph::getPaths` (Graph.cpp:162-184); the memo `shortest_paths_` is not modelled. -/
def getPaths (g : Graph) : Outcome (Graph × Nat × (Nat → Nat → List Nat)) := do
  let g' ← g.ensure 1000000000000000
  match g'.cache with
  | none => .ok (g', 0, fun _ _ => [])
  | some (n, t) => do
    let ps ← foldOutcome (getPathsStep n t.next) (fun _ _ => []) (allPairs g.numNodes)
    return (g', n, ps)

/-! ### All paths -/

/-- `Graph::DFS` (Graph.cpp:83-100).  `routes` and `visited` are passed by reference, hence the
returned list of routes; `visited` is restored by the code, so it is only passed down.  The loop
over the outgoing edges (Graph.cpp:93-97) is a fold.  `fuel` bounds the recursion depth (exceeding
it is a stack overflow). -/
def dfs (e : EdgeMap) (n to' : Nat) (fuel : Nat) (cur : Nat) (visited : List Nat) (idx : Nat)
    (routes : List (List Nat)) : Outcome (List (List Nat)) :=
  match fuel with
  | 0 => .ub "stack overflow"
  | fuel + 1 =>
    match routes[idx]? with
    | none => .ub "index out of range"
    | some r =>
      let routes₁ := routes ++ [r ++ [cur]]
      let iRoute := routes₁.length - 1
      if cur ≠ to' then
        if cur < n then
          foldOutcome (fun rts i =>
            if i < n then
              if i ∉ cur :: visited then dfs e n to' fuel i (cur :: visited) iRoute rts
              else .ok rts
            else .ub "index out of range") routes₁ (getEdgesFrom e cur)
        else .ub "index out of range"
      else .ok routes₁

/-- `Graph::allPathsBetween` (Graph.cpp:70-81).  The recursion depth is at most the number of
nodes plus one. -/
def allPathsBetween (g : Graph) (i j : Nat) : Outcome (List (List Nat)) := do
  let routes ← dfs g.edges g.numNodes j (g.numNodes + 1) i [] 0 [[]]
  return routes.filter fun x => x.getLast? = some j

end Graph
end F2C
