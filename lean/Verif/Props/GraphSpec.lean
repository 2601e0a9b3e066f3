import Verif.Model.Graph
import Mathlib.Data.List.Dedup

/-!
# What the graph properties talk about

Graphs are described by the sequence of insertions that built them, without reference to how the
implementation stores or searches them.
-/

namespace F2C.GraphSpec

/-- An insertion: from, to, cost. -/
abbrev Ins := Nat × Nat × Int

/-- The graph after the insertions. -/
def build (ins : List Ins) : Graph :=
  ins.foldl (fun g x => g.addDirectedEdge x.1 x.2.1 x.2.2) Graph.empty

/-- The edge `i → j` has the cost given last. -/
def Edge (ins : List Ins) (i j : Nat) (c : Int) : Prop :=
  (ins.reverse.find? fun x => x.1 == i && x.2.1 == j) = some (i, j, c)

/-- Number of nodes with outgoing edges. -/
def nodes (ins : List Ins) : Nat := (ins.map fun x => x.1).dedup.length

/-- Walks along edges with their total cost. -/
inductive Walk (ins : List Ins) : Nat → Nat → Int → Prop
  | nil (i) : Walk ins i i 0
  | cons {i l j c t} : Edge ins i l c → Walk ins l j t → Walk ins i j (c + t)

/-- A sequence of nodes along edges, with the sum of the edge costs. -/
inductive PathCost (ins : List Ins) : List Nat → Int → Prop
  | single (i) : PathCost ins [i] 0
  | cons {i l p c t} : Edge ins i l c → PathCost ins (l :: p) t → PathCost ins (i :: l :: p) (c + t)

/-- The nodes are `0..n-1`, each of them with an outgoing edge. -/
def Contiguous (ins : List Ins) : Prop := ∀ x ∈ ins, x.1 < nodes ins ∧ x.2.1 < nodes ins

/-- Costs in `[0, inf)`; and `inf ≤ 2^62`, or `inf` is any `int64_t` but the costs are so small that no
path of different nodes reaches `2^62`. -/
def CostsBelow (ins : List Ins) (inf : Int) : Prop :=
  (∀ x ∈ ins, 0 ≤ x.2.2 ∧ x.2.2 < inf) ∧
    (inf ≤ 2 ^ 62 ∨ (inf < 2 ^ 63 ∧ ∀ x ∈ ins, (nodes ins : Int) * x.2.2 < 2 ^ 62))

/-- The number `d` answers "cheapest way from `i` to `j`, or `inf`". -/
def IsCheapest (ins : List Ins) (inf : Int) (i j : Nat) (d : Int) : Prop :=
  (i = j → d = 0) ∧
  ((∃ t, Walk ins i j t ∧ t < inf) → Walk ins i j d ∧ ∀ t, Walk ins i j t → d ≤ t) ∧
  ((∀ t, Walk ins i j t → inf ≤ t) → d = inf)

/-- Operations on a graph object. -/
inductive GOp
  | add (i j : Nat) (c : Int)
  | remove (i j : Nat)
  | cost (i j : Nat) (inf : Int)
  | path (i j : Nat) (inf : Int)

/-- Effect of one operation on the object. -/
def GOp.exec (g : Graph) : GOp → Outcome Graph
  | .add i j c => .ok (g.addDirectedEdge i j c)
  | .remove i j => .ok (g.removeDirectedEdge i j)
  | .cost i j inf => (g.shortestPathCost i j inf).map Prod.fst
  | .path i j inf => (g.shortestPath i j inf).map Prod.fst

/-- Run a history. -/
def runHistory (ops : List GOp) : Outcome Graph := foldOutcome GOp.exec Graph.empty ops

/-- The same object with the edges it has now, but nothing computed before. -/
def fresh (g : Graph) : Graph := ⟨g.edges, none⟩

/-- Histories without removals in which every query uses the same `INF`. -/
def Growing (inf : Int) (ops : List GOp) : Prop := ∀ o ∈ ops, match o with
  | .add _ _ _ => True
  | .remove _ _ => False
  | .cost _ _ f => f = inf
  | .path _ _ f => f = inf

/-- A path from `a` to `b` along edges that repeats no node. -/
def SimplePath (ins : List Ins) (a b : Nat) (p : List Nat) : Prop :=
  p.head? = some a ∧ p.getLast? = some b ∧ p.IsChain (fun i j => ∃ c, Edge ins i j c) ∧ p.Nodup

end F2C.GraphSpec
