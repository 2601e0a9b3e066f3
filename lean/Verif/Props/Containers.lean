import Mathlib.Tactic.NormNum
import Verif.Model.Heap
import Verif.Lemmas.Container

/-! # C61, C62, C63: containers, moving and copying -/

namespace F2C.Props

set_option linter.unusedSimpArgs false
set_option linter.unusedSectionVars false

/-! ## C61 -/

/-- The effect of setting child `i` of `m` to `g`, giving `m'`, in terms of `size` and
`getGeometry`: child `i` is `g`, the other children are unchanged, and if `i` is beyond the end,
the children in between are `pad`; there are no children beyond the end. -/
structure ReplacesChild {α : Type} (o : ContainerOps α) (pad : α) (m : List α) (i : Nat) (g : α)
    (m' : List α) : Prop where
  size : o.size m' = max (o.size m) (i + 1)
  child : o.get m' i = .ok g
  others : ∀ j, j < o.size m → j ≠ i → o.get m' j = o.get m j
  padded : ∀ j, o.size m ≤ j → j < i → o.get m' j = .ok pad
  beyond : ∀ j, o.size m' ≤ j → o.get m' j = .throw .outOfRange

/-- C61, reading: for every container of the three kinds, each index below `size` gives the child that was
stored there, and every other index throws; never undefined behaviour. -/
theorem C61_access {α : Type} (o : ContainerOps α) (m : List α) (i : Nat) :
    (i < o.size m → ∃ a, m[i]? = some a ∧ o.get m i = .ok a) ∧
    (o.size m ≤ i → o.get m i = .throw .outOfRange) := by
  constructor
  · intro h
    have hl : i < m.length := by
      unfold ContainerOps.size at h
      split at h <;> omega
    refine ⟨m[i], List.getElem?_eq_getElem hl, ?_⟩
    unfold ContainerOps.get
    rw [if_neg (by omega), List.getElem?_eq_getElem hl]
  · intro h
    unfold ContainerOps.get
    rw [if_pos h]

example : linesOps.get [[(⟨0, 0, 0⟩ : Point ℚ)], []] 2 = .throw .outOfRange :=
  (C61_access linesOps [[(⟨0, 0, 0⟩ : Point ℚ)], []] 2).2 (by decide +kernel)

private theorem replaces {α : Type} (o : ContainerOps α) {m : List α}
    (hm : m = [] ∨ ∃ a ∈ m, o.empty a = false) (hn : ∀ a ∈ m, o.norm a = a)
    (hp : o.norm o.pad = o.pad) (i : Nat) (g : α)
    (hg : o.empty (o.norm g) = false ∨
      ∃ j a, j ≠ i ∧ m[j]? = some a ∧ o.empty a = false) :
    ∃ m', o.set m i g = .ok m' ∧ ReplacesChild o o.pad m i (o.norm g) m' := by
  have hs : o.size m = m.length := by
    rcases hm with rfl | h
    · simp [ContainerOps.size]
    · exact o.size_of_nonempty h
  refine ⟨_, o.set_eq hm hn hp i g, ?_⟩
  have hi : (if i < m.length then m.set i (o.norm g)
      else m ++ List.replicate (i - m.length) o.pad ++ [o.norm g])[i]? = some (o.norm g) := by
    split
    · rename_i h; simp [h]
    · rename_i h
      have hl : (m ++ List.replicate (i - m.length) o.pad).length = i := by simp; omega
      rw [List.getElem?_append_right hl.le, hl]
      simp
  have ho : ∀ j, j < m.length → j ≠ i → (if i < m.length then m.set i (o.norm g)
      else m ++ List.replicate (i - m.length) o.pad ++ [o.norm g])[j]? = m[j]? := by
    intro j hj hne
    split
    · rw [List.getElem?_set_ne (Ne.symm hne)]
    · rw [List.append_assoc, List.getElem?_append_left hj]
  have hpd : ∀ j, m.length ≤ j → j < i → (if i < m.length then m.set i (o.norm g)
      else m ++ List.replicate (i - m.length) o.pad ++ [o.norm g])[j]? = some o.pad := by
    intro j h1 h2
    rw [if_neg (by omega), List.getElem?_append_left (by simp; omega),
      List.getElem?_append_right h1, List.getElem?_replicate, if_pos (by omega)]
  have hl : (if i < m.length then m.set i (o.norm g)
      else m ++ List.replicate (i - m.length) o.pad ++ [o.norm g]).length =
      max m.length (i + 1) := by
    split
    · simp; omega
    · simp; omega
  generalize (if i < m.length then m.set i (o.norm g)
      else m ++ List.replicate (i - m.length) o.pad ++ [o.norm g]) = m' at *
  have hne : ∃ a ∈ m', o.empty a = false := by
    rcases hg with h | ⟨j, a, h1, h2, h3⟩
    · exact ⟨_, List.mem_of_getElem? hi, h⟩
    · have hj : j < m.length := by
        rcases Nat.lt_or_ge j m.length with h | h
        · exact h
        · rw [List.getElem?_eq_none h] at h2; simp at h2
      exact ⟨a, List.mem_of_getElem? ((ho j hj h1).trans h2), h3⟩
  refine ⟨?_, ?_, ?_, ?_, fun j h => (C61_access o m' j).2 h⟩
  · rw [o.size_of_nonempty hne, hl, hs]
  · exact o.get_of_nonempty hne hi
  · intro j hj hji
    rw [hs] at hj
    have h2 : ∃ a ∈ m, o.empty a = false := by
      rcases hm with rfl | h2
      · simp at hj
      · exact h2
    rw [o.get_of_nonempty h2 (List.getElem?_eq_getElem hj)]
    exact o.get_of_nonempty hne ((ho j hj hji).trans (List.getElem?_eq_getElem hj))
  · intro j h1 h2
    rw [hs] at h1
    exact o.get_of_nonempty hne (hpd j h1 h2)

section
variable {K : Type} [Field K] [LinearOrder K]

/-- C61, multi line strings: setting child `i` replaces it, or pads with empty lines.  Partial: the
container is empty or has a line with points, and so has the result.  (A container whose children
are all empty has size 0, see `C61_all_empty`.) -/
theorem C61_lines_partial (m : List (List (Point K))) (hm : m = [] ∨ ∃ a ∈ m, a ≠ [])
    (i : Nat) (g : List (Point K))
    (hg : g ≠ [] ∨ ∃ j a, j ≠ i ∧ m[j]? = some a ∧ a ≠ []) :
    ∃ m', linesOps.set m i g = .ok m' ∧ ReplacesChild linesOps [] m i g m' := by
  refine replaces linesOps ?_ (fun a _ => rfl) rfl i g ?_
  · simpa [linesOps] using hm
  · simpa [linesOps] using hg

/-- C61, cells: the same; a cell counts as empty if none of its rings has points. -/
theorem C61_cells_partial (m : Cells K) (hm : m = [] ∨ ∃ c ∈ m, ∃ r ∈ c, r ≠ []) (i : Nat)
    (g : Cell K)
    (hg : (∃ r ∈ g, r ≠ []) ∨ ∃ (j : Nat) (a : Cell K), j ≠ i ∧ m[j]? = some a ∧ ∃ r ∈ a, r ≠ []) :
    ∃ m', cellsOps.set m i g = .ok m' ∧ ReplacesChild cellsOps [] m i g m' := by
  refine replaces cellsOps ?_ (fun a _ => rfl) rfl i g ?_
  · simpa [cellsOps] using hm
  · simpa [cellsOps] using hg

/-- C61, cell: the same for the rings of a cell (all of them closed), if the new ring is closed. -/
theorem C61_cell_partial (m : Cell K) (hc : ∀ r ∈ m, r.head? = r.getLast?)
    (hm : m = [] ∨ ∃ r ∈ m, r ≠ []) (i : Nat) (g : Ring K) (hgc : g.head? = g.getLast?)
    (hg : g ≠ [] ∨ ∃ (j : Nat) (a : Ring K), j ≠ i ∧ m[j]? = some a ∧ a ≠ []) :
    ∃ m', cellOps.set m i g = .ok m' ∧ ReplacesChild cellOps [] m i g m' := by
  have := replaces cellOps (m := m) (by simpa [cellOps] using hm)
    (fun a ha => closeRing_of_closed (hc a ha)) rfl i g ?_
  · simpa [cellOps, closeRing_of_closed hgc] using this
  · simpa [cellOps, closeRing_isEmpty] using hg

/-- C61, cell: a ring that is not closed is closed first. -/
theorem C61_cell_open_ring (m : Cell K) (hc : ∀ r ∈ m, r.head? = r.getLast?)
    (hm : m = [] ∨ ∃ r ∈ m, r ≠ []) (i : Nat) (p q : Point K) (g : Ring K)
    (hgo : (p :: g ++ [q]).head? ≠ (p :: g ++ [q]).getLast?) :
    ∃ m', cellOps.set m i (p :: g ++ [q]) = .ok m' ∧
      cellOps.get m' i = .ok (p :: g ++ [q, p]) := by
  obtain ⟨m', h1, h2⟩ := replaces cellOps (m := m) (by simpa [cellOps] using hm)
    (fun a ha => closeRing_of_closed (hc a ha)) rfl i (p :: g ++ [q])
    (by left; simp [cellOps, closeRing_isEmpty])
  refine ⟨m', h1, ?_⟩
  rw [h2.child]
  show Outcome.ok (closeRing _) = _
  unfold closeRing
  rw [if_neg hgo]
  simp

end

/-- a point of the plane for examples -/
def qp (x y : ℚ) : Point ℚ := ⟨x, y, 0⟩

example : linesOps.set [[qp 0 0, qp 1 0], [qp 2 0, qp 3 0]] 3 [qp 5 5] =
    .ok [[qp 0 0, qp 1 0], [qp 2 0, qp 3 0], [], [qp 5 5]] := by decide +kernel

example : cellOps.set [[qp 0 0, qp 1 0, qp 0 1, qp 0 0]] 0 [qp 0 0, qp 2 0, qp 0 2] =
    .ok [[qp 0 0, qp 2 0, qp 0 2, qp 0 0]] := by decide +kernel

/-- C61 fails: after padding with empty lines, the first child of a multi line string cannot be
set any more; an empty child set beyond the end cannot be read back; and the same for cells. -/
theorem C61_all_empty :
    (∃ m m', linesOps.set ([] : List (List (Point ℚ))) 1 [] = .ok m ∧
      linesOps.set m 0 [qp 1 1] = .ok m' ∧ linesOps.get m' 0 = .ok []) ∧
    (∃ m, linesOps.set ([] : List (List (Point ℚ))) 1 [] = .ok m ∧
      linesOps.get m 1 = .throw .outOfRange) ∧
    (∃ m m', cellsOps.set ([] : Cells ℚ) 1 [] = .ok m ∧
      cellsOps.set m 0 [[qp 0 0, qp 1 0, qp 0 1, qp 0 0]] = .ok m' ∧
      cellsOps.get m' 0 = .ok []) := by
  refine ⟨⟨[[], []], [[], [], [qp 1 1]], ?_⟩, ⟨[[], []], ?_⟩,
    ⟨[[], []], [[], [], [[qp 0 0, qp 1 0, qp 0 1, qp 0 0]]], ?_⟩⟩ <;> decide +kernel

/-! ## C62 -/

section
variable {K : Type} [Field K] [LinearOrder K] [IsStrictOrderedRing K]

/-- All coordinates are below the tolerance 1e-7 of `Point::operator==`. -/
def Tiny (v : Point K) : Prop :=
  |v.x| < 1 / 10000000 ∧ |v.y| < 1 / 10000000 ∧ |v.z| < 1 / 10000000

/-- C62: moving a swath translates every point and changes nothing else.  Partial: by a vector that
is not tiny. -/
theorem C62_move_partial (s : Swath K) (v : Point K) (hv : ¬ Tiny v) :
    s.moveTo v = { s with path := s.path.map fun p => ⟨p.x + v.x, p.y + v.y, p.z + v.z⟩ } := by
  unfold Swath.moveTo forEachPoint
  congr 1
  refine List.map_congr_left fun p _ => ?_
  rw [if_neg]
  · rfl
  · rw [eqv_add]; exact hv

/-- C62 fails for tiny vectors: nothing moves at all. -/
theorem C62_move_tiny (s : Swath K) (v : Point K) (hv : Tiny v) : s.moveTo v = s := by
  unfold Swath.moveTo forEachPoint
  have : (s.path.map fun p => if Point.eqv p (p.add v) then p else p.add v) = s.path := by
    conv_rhs => rw [← List.map_id s.path]
    refine List.map_congr_left fun p _ => ?_
    rw [if_pos ((eqv_add p v).2 hv)]; rfl
  rw [this]

/-- C62: composing moves is moving by the sum.  Partial: neither the moves nor the sum are tiny. -/
theorem C62_compose_partial (s : Swath K) (v w : Point K) (hv : ¬ Tiny v) (hw : ¬ Tiny w)
    (hs : ¬ Tiny (v.add w)) : (s.moveTo v).moveTo w = s.moveTo (v.add w) := by
  rw [C62_move_partial _ v hv, C62_move_partial _ w hw, C62_move_partial _ _ hs]
  simp [Point.add, Function.comp_def, add_assoc]

/-- `q` is `p` times the factor, exactly if a coordinate changes by 1e-7 or more, and in any case up
to 1e-7 per coordinate. -/
def Scaled (b : K) (p q : Point K) : Prop :=
  (¬ Tiny ((p.smul b).sub p) → q = ⟨p.x * b, p.y * b, p.z * b⟩) ∧
  |q.x - p.x * b| < 1 / 10000000 ∧ |q.y - p.y * b| < 1 / 10000000 ∧
  |q.z - p.z * b| < 1 / 10000000

/-- C62, scaling of lines, rings and multi points: every point is scaled up to the tolerance; no
point is added, dropped or reordered. -/
theorem C62_scale_partial (line : List (Point K)) (b : K) :
    List.Forall₂ (Scaled b) line (scaleLine line b) := by
  unfold scaleLine forEachPoint
  rw [List.forall₂_map_right_iff, List.forall₂_same]
  intro p _
  by_cases h : Point.eqv p (p.smul b) = true
  · rw [if_pos h]
    rw [eqv_iff] at h
    refine ⟨fun h2 => absurd ?_ h2, h⟩
    unfold Tiny
    simp only [Point.sub]
    rw [abs_sub_comm, abs_sub_comm (p.smul b).y, abs_sub_comm (p.smul b).z]
    exact h
  · rw [if_neg h]
    refine ⟨fun _ => rfl, ?_⟩
    simp [Point.smul]

/-- C62, scaling of cells (and, inside them, of cell and multi line strings): every point of every
ring is scaled up to the tolerance, and the structure is kept. -/
theorem C62_scale_cells_partial (cs : Cells K) (b : K) :
    List.Forall₂ (List.Forall₂ (List.Forall₂ (Scaled b))) cs (scaleCells cs b) := by
  unfold scaleCells
  rw [List.forall₂_map_right_iff, List.forall₂_same]
  intro c _
  unfold scaleLines
  rw [List.forall₂_map_right_iff, List.forall₂_same]
  exact fun r _ => C62_scale_partial r b

end

example : ¬ Tiny (qp 3 4) ∧ ¬ Tiny (qp (-1) 0) ∧ ¬ Tiny ((qp 3 4).add (qp (-1) 0)) := by
  unfold Tiny; decide +kernel

/-- C62 fails: two moves by 6e-8 leave the swath where it is, one move by the sum does not. -/
theorem C62_compose_fails : ∃ (s : Swath ℚ) (v : Point ℚ),
    (s.moveTo v).moveTo v ≠ s.moveTo (v.add v) :=
  ⟨⟨0, [qp 0 0, qp 1 0], 1, true, .mainland⟩, qp (6 / 100000000) 0, by decide +kernel⟩

/-- C62 fails for scaling: a line of length 5e-8 cannot be doubled, and a line can change its
shape: doubling moves its far end only. -/
theorem C62_scale_fails :
    scaleLine [qp 0 0, qp (5 / 100000000) 0] 2 = [qp 0 0, qp (5 / 100000000) 0] ∧
    scaleLine [qp (5 / 100000000) 0, qp 1 0] 2 = [qp (5 / 100000000) 0, qp 2 0] := by
  decide +kernel

/-! ## C63 -/

section
variable {K : Type} [Field K] [LinearOrder K]

open SwathRef

private theorem step_frame (h : Store K) (r s : SwathRef K) (hne : s.loc ≠ r.loc) (op : Op K) :
    view (step (h, r) op).1 s = view h s ∧ (step (h, r) op).2.loc = r.loc := by
  cases op <;> simp [step, reverse, moveTo, view, Ne.symm hne]

/-- C63 for clones: whatever is done to a clone, the swath it was cloned from keeps its value, and
the clone starts with the value of `Swath::clone` (C09). -/
theorem C63_clone_partial (h h' : Store K) (r c : SwathRef K) (hr : r.loc < h.length)
    (hc : clone h r = .ok (h', c)) (ops : List (Op K)) :
    view (run (h', c) ops).1 r = view h r ∧
    (view h r).clone = .ok (view h' c) := by
  unfold clone at hc
  by_cases hw : 0 ≥ r.width
  · rw [if_pos hw] at hc; simp at hc
  · rw [if_neg hw] at hc
    obtain ⟨rfl, rfl⟩ := Prod.mk.inj (Outcome.ok.inj hc)
    constructor
    · have key : ∀ (ops : List (Op K)) (g : Store K) (d : SwathRef K), r.loc ≠ d.loc →
          view (run (g, d) ops).1 r = view g r := by
        intro ops
        induction ops with
        | nil => intros; rfl
        | cons op ops ih =>
          intro g d hne
          obtain ⟨h1, h2⟩ := step_frame g d r hne op
          show view (run (step (g, d) op) ops).1 r = _
          rw [ih (step (g, d) op).1 (step (g, d) op).2 (by rw [h2]; exact hne), h1]
      rw [key]
      · simp [view, List.getElem?_append_left hr]
      · simp only; omega
    · unfold Swath.clone Swath.make Swath.setWidth
      have : ¬ (0 ≥ (view h r).width) := hw
      rw [if_neg this]
      simp [view, Swath.default]

/-- C63: what is set in a copy by value (id, creation direction, type) does not show in the
original. -/
theorem C63_fields (h : Store K) (r : SwathRef K) (i : Int) (b : Bool) (t : SwathType) :
    view (run (h, r.copy) [.setId i, .setCreationDir b, .setType t]).1 r = view h r := rfl

/-- C63 fails for copies: reversing or moving a copy reverses or moves the path of the swath it
was copied from, whose creation direction stays. -/
theorem C63_copies_share (h : Store K) (r : SwathRef K) (hr : r.loc < h.length) (v : Point K) :
    view (run (h, r.copy) [.reverse]).1 r =
      { view h r with path := (view h r).path.reverse } ∧
    view (run (h, r.copy) [.moveTo v]).1 r = (view h r).moveTo v := by
  simp [run, step, copy, view, reverse, moveTo, Swath.moveTo, hr]

end

example : ∃ (h : Store ℚ) (r : SwathRef ℚ), r.loc < h.length ∧ (SwathRef.clone h r).isOk ∧
    (SwathRef.view (SwathRef.run (h, r.copy) [.reverse]).1 r) ≠ SwathRef.view h r :=
  ⟨[[qp 0 0, qp 1 0]], ⟨0, 0, 1, true, .mainland⟩, by simp, by decide +kernel, by decide +kernel⟩

end F2C.Props
