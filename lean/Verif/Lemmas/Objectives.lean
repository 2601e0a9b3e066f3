import Mathlib.Tactic.IntervalCases
import Mathlib.Tactic.Abel
import Mathlib.Algebra.BigOperators.Intervals
import Mathlib.Algebra.BigOperators.Group.Finset.Sigma
import Verif.Lemmas.Geom
import Verif.Lemmas.SwathGenerator
import Verif.Props.ObjectivesSpec

/-! # Lemmas about objectives -/

namespace F2C.Obj

open Props.SG Props.Obj

theorem foldl_add_eq {α : Type} (f : α → ℝ) (l : List α) (a : ℝ) :
    l.foldl (fun t i => t + f i) a = a + (l.map f).sum := by
  induction l generalizing a with
  | nil => simp
  | cons b l ih => simp [ih]; ring

theorem turnTerm_eq (ang : ℝ) (p q : RPoint) : turnTerm ang p q = |across ang p - across ang q| := by
  unfold turnTerm
  rw [← abs_of_nonneg (pdist_nonneg p q), ← abs_mul, Real.sin_sub]
  have hx := pdist_polar_x p q
  have hy := pdist_polar_y p q
  rw [← abs_neg]
  congr 1
  unfold across
  linear_combination (-Real.sin ang) * hx + Real.cos ang * hy

theorem projectedLength_range (ang : ℝ) (a : RPoint) (l : List RPoint) :
    projectedLength ang (a :: l) = ((List.range l.length).map fun i =>
      |across ang (ringPoint (a :: l) (i + 1)) - across ang (ringPoint (a :: l) i)|).sum := by
  induction l generalizing a with
  | nil => simp [projectedLength]
  | cons b l ih =>
    rw [projectedLength, ih b, List.length_cons, List.range_succ_eq_map]
    simp only [List.map_cons, List.sum_cons, List.map_map]
    rfl

theorem prevIndex_succ (i n : Nat) (h : i + 1 < n) (hn : n ≤ 2 ^ 64) : prevIndex (i + 1) n = i := by
  unfold prevIndex
  have : (i + 1 + (2 ^ 64 - 1)) % 2 ^ 64 = i := by
    rw [show i + 1 + (2 ^ 64 - 1) = i + 2 ^ 64 by omega, Nat.add_mod_right, Nat.mod_eq_of_lt (by omega)]
  rw [this, Nat.mod_eq_of_lt (by omega)]

theorem prevIndex_zero (n : Nat) : prevIndex 0 n = (2 ^ 64 - 1) % n := by
  unfold prevIndex
  norm_num

/-- The sum over one ring: the projected border and one more term, between the first point and
the one with number `(2^64 - 1) mod n`. -/
theorem ringTurns_eq (ang acc : ℝ) (a : RPoint) (l : List RPoint) (hn : (a :: l).length ≤ 2 ^ 64) :
    ringTurns ang acc (a :: l) = acc + (projectedLength ang (a :: l) +
      |across ang a - across ang (ringPoint (a :: l) ((2 ^ 64 - 1) % (a :: l).length))|) := by
  unfold ringTurns
  rw [foldl_add_eq, projectedLength_range]
  congr 1
  rw [List.length_cons, List.range_succ_eq_map, List.map_cons, List.sum_cons, List.map_map,
    prevIndex_zero, turnTerm_eq, add_comm]
  congr 1
  apply congrArg
  apply List.map_congr_left
  intro i hi
  have hi := List.mem_range.1 hi
  simp only [Function.comp, Nat.succ_eq_add_one]
  rw [prevIndex_succ i _ (by omega) (by simpa using hn), turnTerm_eq]

theorem foldl_ringTurns (ang : ℝ) (f : Ring ℝ → ℝ) (cell : Cell ℝ) (acc : ℝ)
    (h : ∀ ring ∈ cell, ∀ acc, ringTurns ang acc ring = acc + f ring) :
    cell.foldl (ringTurns ang) acc = acc + (cell.map f).sum := by
  induction cell generalizing acc with
  | nil => simp
  | cons r c ih =>
    rw [List.foldl_cons, h r (by simp), ih _ fun r hr => h r (List.mem_cons_of_mem _ hr)]
    simp; ring

theorem projectedLength_append (ang : ℝ) (l : List RPoint) (a b : RPoint) :
    projectedLength ang (l ++ [a, b]) = projectedLength ang (l ++ [a]) + |across ang b - across ang a| := by
  induction l with
  | nil => simp [projectedLength]
  | cons c l ih =>
    cases l with
    | nil => simp [projectedLength]
    | cons d l =>
      simp only [List.cons_append, projectedLength] at ih ⊢
      rw [ih]; ring

theorem projectedLength_rotate1 (ang : ℝ) (l : List RPoint) :
    projectedLength ang (closeUp (l.rotate 1)) = projectedLength ang (closeUp l) := by
  cases l with
  | nil => rfl
  | cons a l =>
    rw [List.rotate_cons_succ, List.rotate_zero]
    cases l with
    | nil => rfl
    | cons b l =>
      have e1 : closeUp ((b :: l) ++ [a]) = (b :: l) ++ [a, b] := by simp [closeUp]
      have e2 : closeUp (a :: b :: l) = a :: ((b :: l) ++ [a]) := by simp [closeUp]
      rw [e1, e2, projectedLength_append]
      simp only [List.cons_append, projectedLength]
      ring

/-- The projected border does not depend on where the ring starts. -/
theorem projectedLength_rotate (ang : ℝ) (l : List RPoint) (k : Nat) :
    projectedLength ang (closeUp (l.rotate k)) = projectedLength ang (closeUp l) := by
  induction k with
  | zero => rw [List.rotate_zero]
  | succ k ih => rw [← List.rotate_rotate, projectedLength_rotate1, ih]

/-! ## Overlaps -/

variable {A : Type}

theorem overlapInner_ok (inter : A → A → ℝ) (areas : List A) (f : Nat → A) (i n j : Nat) (acc : ℝ)
    (hf : ∀ k, k < j + n → areas[k]? = some (f k)) (hi : i < j) :
    overlapInner inter areas i n j acc
      = .ok (acc + ∑ k ∈ Finset.range n, inter (f i) (f (j + k))) := by
  induction n generalizing j acc with
  | zero => simp [overlapInner]
  | succ n ih =>
    rw [overlapInner, hf i (by omega), hf j (by omega)]
    simp only []
    rw [ih (j + 1) _ (by intro k hk; exact hf k (by omega)) (by omega), Finset.sum_range_succ']
    simp only [Nat.add_zero, Outcome.ok.injEq]
    have : ∀ k, j + 1 + k = j + (k + 1) := by intro k; omega
    simp only [this]
    ring

/-- What the outer loop adds: in round `i` (after pushing, `areas` holds `n - i` entries, entry
`k` belonging to swath `n - 1 - k`) the pairs `(i, j)` of positions with `i < j < n - i`. -/
theorem overlapOuter_ok (inter : A → A → ℝ) (covered : Nat → A) (n : Nat) : ∀ (i : Nat)
    (areas : List A) (acc : ℝ), i ≤ n →
    areas = (List.range (n - i)).map (fun k => covered (n - 1 - k)) →
    overlapOuter inter covered i areas acc = .ok (acc + ∑ a ∈ Finset.range i,
      ∑ k ∈ Finset.range (n - a - (a + 1)),
        inter (covered (n - 1 - a)) (covered (n - 1 - (a + 1 + k)))) := by
  intro i
  induction i with
  | zero => intro areas acc _ _; simp [overlapOuter]
  | succ i ih =>
    intro areas acc hi ha
    have hareas : areas ++ [covered i] = (List.range (n - i)).map (fun k => covered (n - 1 - k)) := by
      rw [ha, show n - i = (n - (i + 1)) + 1 by omega, List.range_succ, List.map_append,
        List.map_cons, List.map_nil, show n - 1 - (n - (i + 1)) = i by omega]
    rw [overlapOuter, hareas]
    have hlen : ((List.range (n - i)).map (fun k => covered (n - 1 - k))).length = n - i := by simp
    rw [hlen]
    have hinner : overlapInner inter ((List.range (n - i)).map (fun k => covered (n - 1 - k))) i
        (n - i - (i + 1)) (i + 1) acc = .ok (acc + ∑ k ∈ Finset.range (n - i - (i + 1)),
          inter (covered (n - 1 - i)) (covered (n - 1 - (i + 1 + k)))) := by
      rcases Nat.lt_or_ge (i + 1) (n - i) with h | h
      · exact overlapInner_ok inter _ (fun k => covered (n - 1 - k)) i _ (i + 1) acc (by
          intro k hk
          rw [List.getElem?_map, List.getElem?_range (by omega)]
          rfl) (by omega)
      · have : n - i - (i + 1) = 0 := by omega
        rw [this]; simp [overlapInner]
    rw [hinner, Outcome.ok_bind, ih _ _ (by omega) rfl, Finset.sum_range_succ]
    congr 1
    ring

end F2C.Obj
