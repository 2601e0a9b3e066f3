import Verif.Lemmas.Path
import Verif.Lemmas.Border
import Verif.Lemmas.Spline
import Verif.Model.PathSpline

/-! # Lemmas about `populate` -/

namespace F2C

open Props.PathSpec

theorem scanl_ge (l : List ℝ) (hl : ∀ x ∈ l, 0 < x) (a : ℝ) :
    ∀ x ∈ l.scanl (· + ·) a, a ≤ x := by
  induction l generalizing a with
  | nil => intro x hx; simp at hx; exact hx.ge
  | cons b l ih =>
    intro x hx
    rw [List.scanl_cons] at hx
    rcases List.mem_cons.1 hx with rfl | hx
    · exact le_rfl
    · have h1 := ih (fun y hy => hl y (List.mem_cons_of_mem _ hy)) _ x hx
      have h2 := hl b (by simp)
      linarith

theorem scanl_sorted (l : List ℝ) (hl : ∀ x ∈ l, 0 < x) (a : ℝ) :
    (l.scanl (· + ·) a).Pairwise (· < ·) := by
  induction l generalizing a with
  | nil => simp
  | cons b l ih =>
    rw [List.scanl_cons]
    have hl' : ∀ y ∈ l, 0 < y := fun y hy => hl y (List.mem_cons_of_mem _ hy)
    refine List.pairwise_cons.2 ⟨?_, ih hl' _⟩
    intro x hx
    have h1 := scanl_ge l hl' _ x hx
    have h2 := hl b (by simp)
    linarith

theorem foldl_plus (l : List ℝ) (a : ℝ) : l.foldl (· + ·) a = a + l.sum := by
  induction l generalizing a with
  | nil => simp
  | cons b l ih => rw [List.foldl_cons, ih, List.sum_cons]; ring

theorem takeWhile_get {v : ℝ} : ∀ (t : List ℝ) (j : Nat),
    j < (t.takeWhile (fun a => decide (a < v))).length → Spline.nth t j < v
  | [], j, h => by simp at h
  | b :: t, j, h => by
    by_cases hb : b < v
    · rw [List.takeWhile_cons_of_pos (by simpa using hb)] at h
      cases j with
      | zero => simpa [Spline.nth] using hb
      | succ j =>
        have := takeWhile_get t j (by simpa using h)
        simpa [Spline.nth] using this
    · rw [List.takeWhile_cons_of_neg (by simpa using hb)] at h
      simp at h

theorem takeWhile_stop {v : ℝ} : ∀ (t : List ℝ),
    (t.takeWhile (fun a => decide (a < v))).length < t.length →
      v ≤ Spline.nth t (t.takeWhile (fun a => decide (a < v))).length
  | [], h => by simp at h
  | b :: t, h => by
    by_cases hb : b < v
    · rw [List.takeWhile_cons_of_pos (by simpa using hb)] at h ⊢
      have := takeWhile_stop t (by simpa using h)
      simpa [Spline.nth] using this
    · rw [List.takeWhile_cons_of_neg (by simpa using hb)]
      simpa [Spline.nth] using hb

theorem takeWhile_len (v : ℝ) (t : List ℝ) :
    (t.takeWhile (fun a => decide (a < v))).length ≤ t.length :=
  (List.takeWhile_prefix _).length_le

theorem sectionAt_spec {t : List ℝ} (ht : t.Pairwise (· < ·)) {v : ℝ} (h0 : t ≠ [])
    (hv : Spline.nth t 0 < v) :
    ∃ i, Path.sectionAt t v = .ok i ∧ i < t.length ∧ Spline.nth t i < v ∧
      (i + 1 < t.length → v ≤ Spline.nth t (i + 1)) := by
  have hg := takeWhile_get (v := v) t
  have hst := takeWhile_stop (v := v) t
  have hlen := takeWhile_len v t
  unfold Path.sectionAt
  simp only
  generalize (t.takeWhile (fun a => decide (a < v))).length = k at hg hst hlen
  have hpos : 0 < t.length := List.length_pos_iff.2 h0
  have hk : k ≠ 0 := by
    rintro rfl
    exact absurd hv (not_lt.2 (hst hpos))
  have hany : ¬ (t.drop k).any (fun a => decide (a < v)) = true := by
    rw [List.any_eq_true]
    rintro ⟨x, hx, hxv⟩
    simp only [decide_eq_true_eq] at hxv
    obtain ⟨j, hj, rfl⟩ := List.getElem_of_mem hx
    rw [List.getElem_drop] at hxv
    have hj' : k + j < t.length := by simp at hj; omega
    have := Spline.nth_le ht (show k ≤ k + j by omega) hj'
    rw [Spline.nth_eq hj'] at this
    have := hst (by omega)
    linarith
  rw [if_neg hany, if_neg hk]
  refine ⟨k - 1, rfl, by omega, hg _ (by omega), ?_⟩
  intro h
  rw [show k - 1 + 1 = k by omega] at h ⊢
  exact hst h

theorem filter_split {p : Path} {f : PathState ℝ → Bool} {i : Nat} {s : PathState ℝ}
    (h : (p.filter f)[i]? = some s) :
    ∃ pre post, p = pre ++ s :: post ∧ pre.filter f = (p.filter f).take i := by
  induction p generalizing i with
  | nil => simp at h
  | cons a p ih =>
    by_cases ha : f a = true
    · rw [List.filter_cons_of_pos ha] at h ⊢
      cases i with
      | zero =>
        simp at h
        subst h
        exact ⟨[], p, rfl, by simp⟩
      | succ i =>
        obtain ⟨pre, post, e1, e2⟩ := ih (by simpa using h)
        exact ⟨a :: pre, post, by rw [e1]; rfl, by
          rw [List.filter_cons_of_pos ha, e2, List.take_succ_cons]⟩
    · rw [List.filter_cons_of_neg ha] at h ⊢
      obtain ⟨pre, post, e1, e2⟩ := ih h
      exact ⟨a :: pre, post, by rw [e1]; rfl, by rw [List.filter_cons_of_neg ha, e2]⟩

theorem lengthOf_filter (p : Path) :
    lengthOf (p.filter (fun s => decide (s.len ≠ 0))) = lengthOf p := by
  induction p with
  | nil => rfl
  | cons a p ih =>
    by_cases ha : a.len = 0
    · rw [List.filter_cons_of_neg (by simp [ha]), lengthOf_cons, ha, ih]; simp
    · rw [List.filter_cons_of_pos (by simp [ha]), lengthOf_cons, lengthOf_cons, ih]

theorem lengthOf_pos_sum {p : Path} (h : ∀ s ∈ p, 0 ≤ s.len) :
    (p.map (·.len)).sum = lengthOf p := by
  unfold lengthOf
  congr 1
  exact List.map_congr_left fun s hs => (abs_of_nonneg (h s hs)).symm

end F2C
