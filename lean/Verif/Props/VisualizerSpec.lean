import Verif.Model.Visualizer

/-! # What the visualizer should draw: specifications for C86, C87 and C88 -/

namespace F2C.Props.VisualizerSpec

open Vis

/-- What a section of a path is: type and direction. -/
def kind (s : PathState ℝ) : SectionType × PathDir := (s.type, s.dir)

/-- Start and end of a state in the plane. -/
noncomputable def ends (s : PathState ℝ) : List (ℝ × ℝ) := [(s.point.x, s.point.y), (s.atEnd.x, s.atEnd.y)]

/-- How often the kind changes along the path. -/
def changes : Path → Nat
  | a :: b :: l => (if kind a = kind b then 0 else 1) + changes (b :: l)
  | _ => 0

/-- The path cut into pieces of one kind each, the pieces next to each other being of different kind. -/
inductive Uniform : List Path → Prop
  | one (k : SectionType × PathDir) (a : Path) : a ≠ [] → (∀ s ∈ a, kind s = k) → Uniform [a]
  | cons (k : SectionType × PathDir) (a b : Path) (l : List Path) : a ≠ [] → (∀ s ∈ a, kind s = k) →
      (∀ s ∈ b, kind s ≠ k) → Uniform (b :: l) → Uniform (a :: b :: l)

/-- The path cut one state too late: every piece but the last one ends with the first state of the next kind. -/
inductive Late : SectionType × PathDir → List Path → Prop
  | one (k : SectionType × PathDir) (a : Path) : (∀ s ∈ a, kind s = k) → Late k [a]
  | cons (k : SectionType × PathDir) (a : Path) (s : PathState ℝ) (l : List Path) : (∀ s ∈ a, kind s = k) →
      kind s ≠ k → Late (kind s) l → Late k ((a ++ [s]) :: l)

/-- Each piece is drawn as one line, in its colour. -/
noncomputable def pieces (parts : List Path) (cs : List (Colour ℝ)) : List (Draw ℝ) :=
  (parts.zip cs).map fun x => .line (x.1.flatMap ends) x.2

variable {K : Type} [Field K]

/-- `n` colours in equal steps from `lo` to `hi`, both included. -/
def Gradient (lo hi : Rgb) (n : Nat) (cs : List (Colour K)) : Prop :=
  cs.length = n ∧ ∃ dr dg db : K,
    (lo.r : K) + ((n : K) - 1) * dr = hi.r ∧ (lo.g : K) + ((n : K) - 1) * dg = hi.g ∧
    (lo.b : K) + ((n : K) - 1) * db = hi.b ∧
    ∀ i < n, cs[i]? = some [some ((lo.r + i * dr) / 255), some ((lo.g + i * dg) / 255), some ((lo.b + i * db) / 255)]

/-- A swath of two points or more is drawn as a line through its points and an arrow along its last segment. -/
def SwathDrawn (s : Swath K) (c : Colour K) (ds : List (Draw K)) : Prop :=
  (s.path.length < 2 → ds = []) ∧
  ∀ front a b, s.path = front ++ [a, b] →
    ds = [.line (s.path.map fun p => (p.x, p.y)) (if 3 ≤ c.length then c else []),
      .arrow (a.x, a.y) (b.x, b.y) c]

/-- Each swath of the list is drawn once, in order, each in its colour. -/
inductive AllDrawn : Swaths K → List (Colour K) → List (Draw K) → Prop
  | nil (cs : List (Colour K)) : AllDrawn [] cs []
  | cons (s : Swath K) (c : Colour K) (l : Swaths K) (cs : List (Colour K)) (d ds : List (Draw K)) :
      SwathDrawn s c d → AllDrawn l cs ds → AllDrawn (s :: l) (c :: cs) (d ++ ds)

/-- Ends of the gradient for the `i`-th of several sets of swaths, repeating after six. -/
def sixGradients (i : Nat) : Rgb × Rgb :=
  match i % 6 with
  | 0 => (⟨0, 255, 0⟩, ⟨15, 21, 11⟩)
  | 1 => (⟨255, 0, 0⟩, ⟨21, 15, 11⟩)
  | 2 => (⟨0, 0, 255⟩, ⟨11, 15, 21⟩)
  | 3 => (⟨255, 0, 255⟩, ⟨21, 15, 21⟩)
  | 4 => (⟨0, 255, 255⟩, ⟨0, 21, 21⟩)
  | _ => (⟨255, 255, 0⟩, ⟨21, 21, 0⟩)

/-- Several sets of swaths are drawn one after the other, each in its gradient, from the `i`-th on. -/
inductive SetsDrawn : Nat → List (SwathsByCells K) → List (Draw K) → Prop
  | nil (i : Nat) : SetsDrawn i [] []
  | cons (i : Nat) (d : SwathsByCells K) (l : List (SwathsByCells K)) (cs : List (Colour K)) (x y : List (Draw K)) :
      (2 ≤ (List.flatten d).length →
        Gradient (sixGradients i).1 (sixGradients i).2 (List.flatten d).length cs) →
      AllDrawn (List.flatten d) cs x → SetsDrawn (i + 1) l y → SetsDrawn i (d :: l) (x ++ y)

/-- A cell with at least one point. -/
def HasPoints (c : Cell K) : Prop := ∃ r ∈ c, r ≠ []

end F2C.Props.VisualizerSpec
