import Verif.Model.Graph2D
import Verif.Props.GraphSpec

/-!
# What the properties of graphs on points talk about
-/

namespace F2C.Graph2DSpec

variable {K : Type} [Field K] [LinearOrder K]

/-- The functions that change a graph on points. -/
inductive PEdit (K : Type)
  | addDirected (a b : Point K) (c : Int)
  | add (a b : Point K) (c : Int)
  | remove (a b : Point K)

/-- Effect of one call. -/
def PEdit.exec (T : PointTable K) (g : Graph2D K) : PEdit K → Outcome (Graph2D K)
  | .addDirected a b c => g.addDirectedEdge T a b c
  | .add a b c => g.addEdge T a b c
  | .remove a b => g.removeEdge T a b

/-- The graph after the calls. -/
def run (T : PointTable K) (es : List (PEdit K)) : Outcome (Graph2D K) :=
  foldOutcome (PEdit.exec T) Graph2D.empty es

/-- The points that a call adds. -/
def PEdit.points : PEdit K → List (Point K)
  | .addDirected a b _ => [a, b]
  | .add a b _ => [a, b]
  | .remove _ _ => []

/-- Every point at its first appearance. -/
def firsts (l : List (Point K)) : List (Point K) :=
  l.foldl (fun acc p => if p ∈ acc then acc else acc ++ [p]) []

/-- The nodes the graph should have, in this order. -/
def nodes (es : List (PEdit K)) : List (Point K) := firsts (es.flatMap PEdit.points)

/-- Points that compare equal are identical. -/
def Separated (l : List (Point K)) : Prop := ∀ p ∈ l, ∀ q ∈ l, p.eqv q = true → p = q

/-- The hash function is defined on the points. -/
def HashOk (T : PointTable K) (l : List (Point K)) : Prop := ∀ p ∈ l, (T.hash p).isOk = true

/-- Only edges between points that were added before are removed. -/
def RemovesKnown (es : List (PEdit K)) : Prop :=
  ∀ pre a b post, es = pre ++ .remove a b :: post → a ∈ nodes pre ∧ b ∈ nodes pre

/-- Cost of the edge `a → b` after the calls: the last call about it decides. -/
def costAfter (a b : Point K) : Option Int → PEdit K → Option Int
  | o, .addDirected x y c => if x = a ∧ y = b then some c else o
  | o, .add x y c => if (x = a ∧ y = b) ∨ (x = b ∧ y = a) then some c else o
  | o, .remove x y => if (x = a ∧ y = b) ∨ (x = b ∧ y = a) then none else o

/-- There is an edge `a → b` with cost `c`. -/
def PEdge (es : List (PEdit K)) (a b : Point K) (c : Int) : Prop :=
  es.foldl (costAfter a b) none = some c

/-- Walks along edges with their total cost. -/
inductive PWalk (es : List (PEdit K)) : Point K → Point K → Int → Prop
  | nil (a) : PWalk es a a 0
  | cons {a b d c t} : PEdge es a b c → PWalk es b d t → PWalk es a d (c + t)

/-- A sequence of points along edges, with the sum of the edge costs. -/
inductive PPath (es : List (PEdit K)) : List (Point K) → Int → Prop
  | single (a) : PPath es [a] 0
  | cons {a b p c t} : PEdge es a b c → PPath es (b :: p) t → PPath es (a :: b :: p) (c + t)

/-- The number `d` answers "cheapest way from `a` to `b`, or `inf`". -/
def PCheapest (es : List (PEdit K)) (inf : Int) (a b : Point K) (d : Int) : Prop :=
  (a = b → d = 0) ∧
  ((∃ t, PWalk es a b t ∧ t < inf) → PWalk es a b d ∧ ∀ t, PWalk es a b t → d ≤ t) ∧
  ((∀ t, PWalk es a b t → inf ≤ t) → d = inf)

/-- Only undirected edges are added, with costs in `[0, inf)`. -/
def Undirected (inf : Int) (es : List (PEdit K)) : Prop := ∀ e ∈ es, match e with
  | .addDirected _ _ _ => False
  | .add _ _ c => 0 ≤ c ∧ c < inf
  | .remove _ _ => True

end F2C.Graph2DSpec
