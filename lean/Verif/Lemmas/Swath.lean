import Mathlib.Data.List.Forall2
import Mathlib.Data.List.Perm.Basic
import Verif.Model.Order
import Verif.Lemmas.Order

/-! # Lemmas about swaths and `genSortedSwaths` -/

set_option linter.unusedSectionVars false
set_option linter.unusedSimpArgs false

namespace F2C

variable {K : Type} [Field K] [LinearOrder K]

@[simp] theorem Swath.reverse_reverse (s : Swath K) : s.reverse.reverse = s := by
  cases s; simp [Swath.reverse]

@[simp] theorem Swath.reverse_id (s : Swath K) : s.reverse.id = s.id := rfl
@[simp] theorem Swath.reverse_width (s : Swath K) : s.reverse.width = s.width := rfl
@[simp] theorem Swath.reverse_type (s : Swath K) : s.reverse.type = s.type := rfl
@[simp] theorem Swath.reverse_creationDir (s : Swath K) :
    s.reverse.creationDir = !s.creationDir := rfl
@[simp] theorem Swath.reverse_path (s : Swath K) : s.reverse.path = s.path.reverse := rfl

/-- equal, or equal after reversing -/
def Swath.UpTo (a b : Swath K) : Prop := b = a ∨ b = a.reverse

theorem Swath.UpTo.refl (a : Swath K) : a.UpTo a := .inl rfl
theorem Swath.UpTo.rev (a : Swath K) : a.UpTo a.reverse := .inr rfl

theorem Swath.UpTo.trans {a b c : Swath K} (h : a.UpTo b) (h' : b.UpTo c) : a.UpTo c := by
  rcases h with rfl | rfl <;> rcases h' with rfl | rfl <;> simp [Swath.UpTo]

theorem Swath.UpTo.id {a b : Swath K} (h : a.UpTo b) : b.id = a.id := by
  rcases h with rfl | rfl <;> rfl

theorem Swath.UpTo.opp (a b : Swath K) : a.UpTo (a.targetOppositeDirAs b) := by
  unfold Swath.targetOppositeDirAs; split
  · exact .rev _
  · exact .refl _

/-- A permutation up to reversal of the elements. -/
def PermUpTo (l l' : Swaths K) : Prop :=
  ∃ m, List.Forall₂ Swath.UpTo l m ∧ l'.Perm m

theorem forall₂_upTo_refl (l : Swaths K) : List.Forall₂ Swath.UpTo l l :=
  List.forall₂_same.mpr fun _ _ => .refl _

theorem forall₂_upTo_trans {a b c : Swaths K} (h : List.Forall₂ Swath.UpTo a b)
    (h' : List.Forall₂ Swath.UpTo b c) : List.Forall₂ Swath.UpTo a c := by
  induction h generalizing c with
  | nil => cases h'; exact .nil
  | cons h1 _ ih => cases h' with
    | cons h3 h4 => exact .cons (h1.trans h3) (ih h4)

theorem PermUpTo.refl (l : Swaths K) : PermUpTo l l := ⟨l, forall₂_upTo_refl l, .refl _⟩

theorem PermUpTo.trans {a b c : Swaths K} (h : PermUpTo a b) (h' : PermUpTo b c) :
    PermUpTo a c := by
  obtain ⟨m, h1, h2⟩ := h
  obtain ⟨n, h3, h4⟩ := h'
  obtain ⟨p, h5, h6⟩ := List.perm_comp_forall₂ h2.symm h3
  -- m ~ b and b ~≈ n, move the permutation outwards
  have : ∃ p, List.Forall₂ Swath.UpTo m p ∧ p.Perm n := by
    exact ⟨p, h5, h6⟩
  obtain ⟨p, h5, h6⟩ := this
  exact ⟨p, forall₂_upTo_trans h1 h5, h4.trans h6.symm⟩

theorem PermUpTo.of_perm {a b : Swaths K} (h : b.Perm a) : PermUpTo a b :=
  ⟨a, forall₂_upTo_refl a, h⟩

theorem PermUpTo.of_forall₂ {a b : Swaths K} (h : List.Forall₂ Swath.UpTo a b) : PermUpTo a b :=
  ⟨b, h, .refl _⟩

theorem orient_upTo (l : Swaths K) : List.Forall₂ Swath.UpTo l (Swaths.orient l) := by
  unfold Swaths.orient
  induction l with
  | nil => exact .nil
  | cons a l ih =>
    refine .cons ?_ ih
    show a.UpTo (if _ then _ else _)
    split
    · exact .rev _
    · exact .refl _

theorem reverseDirFrom_upTo (p : Swath K) (l : Swaths K) :
    List.Forall₂ Swath.UpTo l (Swaths.reverseDirFrom p l) := by
  induction l generalizing p with
  | nil => exact .nil
  | cons a l ih => exact .cons (.opp _ _) (ih _)

theorem reverseDirOdd_upTo (l : Swaths K) :
    List.Forall₂ Swath.UpTo l (Swaths.reverseDirOddSwaths l) := by
  cases l with
  | nil => exact .nil
  | cons a l => exact .cons (.refl _) (reverseDirFrom_upTo a l)

theorem targetOpp_dir (a b : Swath K) :
    (a.targetOppositeDirAs b).creationDir = !b.creationDir := by
  unfold Swath.targetOppositeDirAs Swath.hasSameDir
  cases h1 : a.creationDir <;> cases h2 : b.creationDir <;> simp [h1, h2]

theorem reverseDirFrom_chain (p : Swath K) (l : Swaths K) :
    List.IsChain (fun a b : Swath K => a.creationDir ≠ b.creationDir)
      (p :: Swaths.reverseDirFrom p l) := by
  induction l generalizing p with
  | nil => exact List.isChain_singleton _
  | cons a l ih =>
    refine List.isChain_cons_cons.mpr ⟨?_, ih _⟩
    rw [targetOpp_dir]; cases p.creationDir <;> simp

theorem reverseDirOdd_chain (l : Swaths K) :
    List.IsChain (fun a b : Swath K => a.creationDir ≠ b.creationDir)
      (Swaths.reverseDirOddSwaths l) := by
  cases l with
  | nil => exact List.isChain_nil
  | cons a l => exact reverseDirFrom_chain a l

theorem targetOpp_reverse (a p : Swath K) :
    a.targetOppositeDirAs p.reverse = (a.targetOppositeDirAs p).reverse := by
  unfold Swath.targetOppositeDirAs Swath.hasSameDir
  cases h1 : a.creationDir <;> cases h2 : p.creationDir <;> simp [h1, h2]

theorem reverseDirFrom_reverse (p : Swath K) (l : Swaths K) :
    Swaths.reverseDirFrom p.reverse l = (Swaths.reverseDirFrom p l).map Swath.reverse := by
  induction l generalizing p with
  | nil => rfl
  | cons a l ih =>
    simp only [Swaths.reverseDirFrom, List.map_cons, targetOpp_reverse, ih]

theorem reverseDirFrom_ids (p : Swath K) (l : Swaths K) :
    (Swaths.reverseDirFrom p l).map Swath.id = l.map Swath.id := by
  induction l generalizing p with
  | nil => rfl
  | cons a l ih => simp only [Swaths.reverseDirFrom, List.map_cons, ih, (Swath.UpTo.opp a p).id]

theorem reverseDirOdd_ids (l : Swaths K) :
    (Swaths.reverseDirOddSwaths l).map Swath.id = l.map Swath.id := by
  cases l with
  | nil => rfl
  | cons a l => simp only [Swaths.reverseDirOddSwaths, List.map_cons, reverseDirFrom_ids]

/-! ## clone -/

/-- What `clone` delivers when it does not throw: the type is lost. -/
def Swath.cloned (s : Swath K) : Swath K := { s with type := .mainland }

theorem Swath.clone_eq (s : Swath K) :
    s.clone = if 0 < s.width then .ok s.cloned else .throw .invalidArgument := by
  unfold Swath.clone Swath.make Swath.setWidth
  by_cases h : 0 < s.width
  · rw [if_neg (not_le.mpr h), if_pos h]; rfl
  · rw [if_pos (not_lt.mp h), if_neg h]; rfl

theorem Swaths.clone_eq (l : Swaths K) :
    Swaths.clone l = if ∀ s ∈ l, 0 < s.width then .ok (l.map Swath.cloned)
      else .throw .invalidArgument := by
  induction l with
  | nil => simp [Swaths.clone]
  | cons a l ih =>
    simp only [Swaths.clone, Swath.clone_eq, ih]
    by_cases h : 0 < a.width
    · by_cases h2 : ∀ s ∈ l, 0 < s.width
      · have e : ∀ s ∈ a :: l, 0 < s.width := by
          intro s hs
          rcases List.mem_cons.mp hs with rfl | hs
          · exact h
          · exact h2 s hs
        rw [if_pos h2, if_pos e, if_pos h]; rfl
      · have e : ¬ ∀ s ∈ a :: l, 0 < s.width := fun e => h2 fun s hs => e s (by simp [hs])
        rw [if_neg h2, if_neg e, if_pos h]; rfl
    · simp [h]

/-! ## genSortedSwaths -/

theorem changeStartPoint_spec (l : Swaths K) (v : UInt32) (hl : 0 < l.length) :
    ∃ l', changeStartPoint l v = .ok l' ∧ PermUpTo l l' ∧ l'.length = l.length := by
  unfold changeStartPoint
  set l₁ := if v &&& 1 ≠ 0 then l.reverse else l with h1
  have hp : l₁.Perm l := by
    rw [h1]; split
    · exact l.reverse_perm
    · exact .refl _
  have hlen := hp.length_eq
  simp only
  split
  · cases hc : l₁ with
    | nil => rw [hc] at hlen; simp at hlen; omega
    | cons s r =>
      refine ⟨_, rfl, ?_, by rw [← hlen, hc]; rfl⟩
      refine (PermUpTo.of_perm (b := s :: r) (by rw [← hc]; exact hp)).trans ?_
      exact .of_forall₂ (.cons (.rev s) (forall₂_upTo_refl r))
  · exact ⟨_, rfl, .of_perm hp, hlen⟩

theorem sort_permUpTo {f : Swaths K → Swaths K} (hf : Swaths.IsStdSort f) (l : Swaths K) :
    PermUpTo l (Swaths.sort f l) :=
  (PermUpTo.of_forall₂ (orient_upTo l)).trans (.of_perm (hf.perm _))

theorem PermUpTo.length_eq {a b : Swaths K} (h : PermUpTo a b) : b.length = a.length := by
  obtain ⟨m, h1, h2⟩ := h
  rw [h2.length_eq, h1.length_eq]

/-- The whole pipeline: with positive widths and a valid order it succeeds; the result comes from
an intermediate list `l₃` to which only the alternation is applied. -/
theorem genSortedSwaths_spec {f : Swaths K → Swaths K} (hf : Swaths.IsStdSort f) (k : OrderKind)
    (l : Swaths K) (v : UInt32) (hw : ∀ s ∈ l, 0 < s.width) (hk : k.Valid l.length) :
    ∃ l₃, genSortedSwaths f k l v = .ok (Swaths.reverseDirOddSwaths l₃) ∧
      PermUpTo (l.map Swath.cloned) l₃ := by
  unfold genSortedSwaths
  rw [Swaths.clone_eq, if_pos hw]
  simp only [Outcome.ok_bind]
  by_cases h0 : 0 < (l.map Swath.cloned).length
  · rw [if_pos h0]
    have hs := sort_permUpTo hf (l.map Swath.cloned)
    obtain ⟨l₂, e2, p2, n2⟩ := changeStartPoint_spec (Swaths.sort f (l.map Swath.cloned)) v
      (by rw [hs.length_eq]; exact h0)
    have hlen : l₂.length = l.length := by rw [n2, hs.length_eq]; simp
    obtain ⟨l₃, e3, p3⟩ := sortSwaths_perm k l₂ (by rw [hlen]; simpa using h0) (by rw [hlen]; exact hk)
    refine ⟨l₃, ?_, (hs.trans p2).trans (.of_perm p3)⟩
    rw [e2]; simp only [Outcome.ok_bind, e3]; rfl
  · rw [if_neg h0]
    have : l = [] := by cases l with
      | nil => rfl
      | cons a l => simp at h0
    subst this
    exact ⟨[], rfl, .refl _⟩

/-- A concrete function with the guarantees of `std::sort`. -/
def idSort (l : Swaths K) : Swaths K := l.insertionSort fun a b => a.id ≤ b.id

theorem idSort_isStdSort : Swaths.IsStdSort (idSort : Swaths K → Swaths K) where
  perm l := List.perm_insertionSort _ _
  sorted l := by
    have : Std.Total (fun a b : Swath K => a.id ≤ b.id) := ⟨fun a b => by omega⟩
    have : IsTrans (Swath K) (fun a b : Swath K => a.id ≤ b.id) := ⟨fun a b c => by omega⟩
    refine (List.pairwise_insertionSort (fun a b : Swath K => a.id ≤ b.id) l).imp ?_
    intro a b h
    omega

theorem startPoint_reverse (s : Swath K) : s.reverse.startPoint = s.endPoint := by
  simp [Swath.startPoint, Swath.endPoint]

theorem endPoint_reverse (s : Swath K) : s.reverse.endPoint = s.startPoint := by
  simp [Swath.startPoint, Swath.endPoint]

theorem reverseDirFrom_length (p : Swath K) (l : Swaths K) :
    (Swaths.reverseDirFrom p l).length = l.length :=
  ((reverseDirFrom_upTo p l).length_eq).symm

/-- only the two lowest bits of the variant are looked at -/
theorem changeStartPoint_mod4 (l : Swaths K) (v : UInt32) :
    changeStartPoint l v = changeStartPoint l (v &&& 3) := by
  have h1 : v &&& 3 &&& 1 = v &&& 1 := by
    rw [UInt32.and_assoc]; rfl
  have h2 : v &&& 3 &&& 2 = v &&& 2 := by
    rw [UInt32.and_assoc]; rfl
  unfold changeStartPoint
  rw [h1, h2]

end F2C
