import Verif.Lemmas.Path
import Verif.Lemmas.SwathGenerator
import Verif.Model.PathBox
import Verif.Props.PathSpec

/-! # Lemmas about bounding boxes of paths -/

namespace F2C

open Props.PathSpec

theorem maxElementFrom_neg (l : List ℝ) : ∀ (best : ℝ) (bi i : Nat),
    Path.maxElementFrom best bi i l = minElementFrom (-best) bi i (l.map fun x => -x) := by
  induction l with
  | nil => intro best bi i; rfl
  | cons c cs ih =>
    intro best bi i
    simp only [Path.maxElementFrom, List.map_cons, minElementFrom, neg_lt_neg_iff, ih]

theorem maxElement_neg (l : List ℝ) : Path.maxElement l = minElement (l.map fun x => -x) := by
  cases l with
  | nil => rfl
  | cons c cs => exact maxElementFrom_neg cs c 0 1

theorem dimMin_spec (v : RPoint → ℝ) (p : Path) (hp : p ≠ []) :
    ∃ m, p.dimMin v = .ok m ∧ (∃ s ∈ p, v s.point = m) ∧ ∀ s ∈ p, m ≤ v s.point := by
  obtain ⟨hk, h1, -⟩ := minElement_spec (l := p.map fun s => v s.point) (by simpa using hp)
  unfold Path.dimMin
  generalize minElement (p.map fun s => v s.point) = k at *
  rw [List.length_map] at hk
  rw [List.getElem?_eq_getElem hk]
  refine ⟨_, rfl, ⟨_, List.getElem_mem hk, rfl⟩, ?_⟩
  intro s hs
  obtain ⟨j, hj, rfl⟩ := List.getElem_of_mem hs
  have := h1 j (by simpa using hj)
  simpa using this

theorem dimMax_spec (v : RPoint → ℝ) (p : Path) (hp : p ≠ []) :
    ∃ m, p.dimMax v = .ok m ∧ (∃ s ∈ p, v s.point = m) ∧ ∀ s ∈ p, v s.point ≤ m := by
  obtain ⟨m, h, ⟨s, hs, e⟩, h'⟩ := dimMin_spec (fun q => -v q) p hp
  refine ⟨-m, ?_, ⟨s, hs, by rw [← e, neg_neg]⟩, fun s hs => by have := h' s hs; linarith⟩
  unfold Path.dimMin at h
  unfold Path.dimMax
  rw [maxElement_neg, List.map_map]
  show (match p[minElement (p.map fun s => -v s.point)]? with | some s => Outcome.ok (v s.point) | none => _) = _
  cases hx : p[minElement (p.map fun s => -v s.point)]? with
  | none => rw [hx] at h; cases h
  | some s' => rw [hx] at h; cases h; simp

theorem addAll_eq (q : Path) : ∀ p : Path, p.addAll q = p ++ q := by
  induction q with
  | nil => intro p; simp [Path.addAll]
  | cons s q ih => intro p; rw [Path.addAll, ih, List.append_assoc]; rfl

end F2C
