import Verif.Model.Graph
import Mathlib.Data.List.Nodup
import Mathlib.Data.List.Perm.Subperm
import Mathlib.Tactic.SplitIfs
import Mathlib.Tactic.Linarith
import Mathlib.Tactic.Push

/-!
# Lemmas on graphs: in-place Floyd–Warshall
-/

set_option linter.unusedSimpArgs false
set_option linter.unusedVariables false

namespace F2C.GraphL

open Outcome

/-- Well-formed edge map with nodes `0..N-1`, costs in `[0, inf)`, and `inf ≤ 2^62` or costs so small that
no path of different nodes reaches `2^62`. -/
structure WF (e : EdgeMap) (inf : Int) : Prop where
  keys : (e.map Prod.fst).Nodup
  src : ∀ s ∈ e.map Prod.fst, s < e.length
  dst : ∀ i j c, e.cost? i j = some c → j < e.length
  dkeys : ∀ p ∈ e, (p.2.map Prod.fst).Nodup
  cost : ∀ i j c, e.cost? i j = some c → 0 ≤ c ∧ c < inf
  pos : 0 < inf
  bound : inf ≤ 4611686018427387904 ∨
    ∀ i j c, e.cost? i j = some c → (e.length : Int) * c ≤ 4611686018427387903

/-- Walks whose inner nodes are `< m`. -/
inductive WalkB (e : EdgeMap) (m : Nat) : Nat → Nat → Int → Prop
  | nil (i) : WalkB e m i i 0
  | edge {i j c} : e.cost? i j = some c → WalkB e m i j c
  | step {i l j c t} : e.cost? i l = some c → l < m → WalkB e m l j t → WalkB e m i j (c + t)

/-- Following `next` towards `j`; all nodes entered are `j` or `< m`. -/
inductive Fol (e : EdgeMap) (m : Nat) (next : Mat) (j : Nat) : Nat → List Nat → Int → Prop
  | here : Fol e m next j j [j] 0
  | step {i l : Nat} {c p t} : i ≠ j → next i j = (l : Int) → e.cost? i l = some c → (l = j ∨ l < m) →
      Fol e m next j l p t → Fol e m next j i (i :: p) (c + t)

section fol
variable {e : EdgeMap} {m : Nat} {next : Mat} {j : Nat}

theorem Fol.det {i p t} (h : Fol e m next j i p t) :
    ∀ {p' t'}, Fol e m next j i p' t' → p = p' ∧ t = t' := by
  induction h with
  | here =>
    intro p' t' h'
    cases h' with
    | here => exact ⟨rfl, rfl⟩
    | step h => exact absurd rfl h
  | step hne hn hc hl hf ih =>
    intro p' t' h'
    cases h' with
    | here => exact absurd rfl hne
    | step hne' hn' hc' hl' hf' =>
      have : _ = _ := hn.symm.trans hn'
      have hll := Int.ofNat_inj.mp this
      subst hll
      rw [hc] at hc'
      obtain ⟨rfl, rfl⟩ := ih hf'
      simp_all

theorem Fol.head {i p t} (h : Fol e m next j i p t) : p.head? = some i := by
  cases h <;> rfl

theorem Fol.last {i p t} (h : Fol e m next j i p t) : p.getLast? = some j := by
  induction h with
  | here => rfl
  | step _ _ _ _ hf ih =>
    rw [List.getLast?_cons, ih]; rfl

theorem Fol.suffix {i p t} (h : Fol e m next j i p t) {x} (hx : x ∈ p) :
    ∃ q t', Fol e m next j x q t' ∧ q.length ≤ p.length := by
  induction h with
  | here =>
    simp only [List.mem_singleton] at hx
    subst hx
    exact ⟨_, _, .here, le_refl _⟩
  | step hne hn hc hl hf ih =>
    rcases List.mem_cons.1 hx with rfl | hx
    · exact ⟨_, _, .step hne hn hc hl hf, le_refl _⟩
    · obtain ⟨q, t', h1, h2⟩ := ih hx
      exact ⟨q, t', h1, by simp; omega⟩

theorem Fol.nodup {i p t} (h : Fol e m next j i p t) : p.Nodup := by
  induction h with
  | here => simp
  | step hne hn hc hl hf ih =>
    refine List.nodup_cons.2 ⟨fun hmem => ?_, ih⟩
    obtain ⟨q, t', h1, h2⟩ := hf.suffix hmem
    have := (Fol.step hne hn hc hl hf).det h1
    have h3 := congrArg List.length this.1
    simp at h3
    omega

theorem Fol.walk {i p t} (h : Fol e m next j i p t) : WalkB e m i j t := by
  induction h with
  | here => exact .nil _
  | @step i l c p t hne hn hc hl hf ih =>
    by_cases hlj : l = j
    · subst hlj
      cases hf with
      | here => simpa using WalkB.edge hc
      | step h => exact absurd rfl h
    · exact .step hc (hl.resolve_left hlj) ih

theorem Fol.mono {m'} (hm : m ≤ m') {i p t} (h : Fol e m next j i p t) :
    Fol e m' next j i p t := by
  induction h with
  | here => exact .here
  | step hne hn hc hl hf ih => exact .step hne hn hc (hl.imp_right fun h => by omega) ih

theorem Fol.nodes {n} (hj : j < n) (hd : ∀ i j c, e.cost? i j = some c → j < n) {i p t}
    (h : Fol e m next j i p t) (hi : i < n) : ∀ x ∈ p, x < n := by
  induction h with
  | here => simpa using hj
  | step hne hn hc hl hf ih =>
    intro x hx
    rcases List.mem_cons.1 hx with rfl | hx
    · exact hi
    · exact ih (hd _ _ _ hc) x hx

end fol

/-! ### One phase, pointwise -/

/-- The phase `k` computed from a fixed copy of the matrices. -/
def upd (t : Tables) (k i j : Nat) : Prop := t.dist i j > t.dist i k + t.dist k j

open Classical in
noncomputable def phase (t : Tables) (k : Nat) (S : Nat → Nat → Prop) : Tables where
  dist i j := if S i j ∧ upd t k i j then t.dist i k + t.dist k j else t.dist i j
  next i j := if S i j ∧ upd t k i j then t.next i k else t.next i j

/-- Basic bounds on the matrix. -/
structure Bd (n : Nat) (inf : Int) (t : Tables) : Prop where
  diag : ∀ i, i < n → t.dist i i = 0
  nonneg : ∀ i j, i < n → j < n → 0 ≤ t.dist i j
  le : ∀ i j, i < n → j < n → t.dist i j ≤ inf

theorem upd_row {n inf t} (h : Bd n inf t) {k j} (hk : k < n) : ¬ upd t k k j := by
  unfold upd; rw [h.diag k hk]; omega

theorem upd_col {n inf t} (h : Bd n inf t) {k i} (hk : k < n) : ¬ upd t k i k := by
  unfold upd; rw [h.diag k hk]; omega

theorem mat_ext {m m' : Mat} (h : ∀ a b, m a b = m' a b) : m = m' := funext fun a => funext (h a)

/-- Sums of two distances below `inf` are in the range of `int64_t`. -/
def SumOk (n : Nat) (inf : Int) (t : Tables) : Prop := ∀ i k j, i < n → k < n → j < n →
  t.dist i k < inf → t.dist k j < inf → t.dist i k + t.dist k j ≤ 9223372036854775807

theorem relax_phase {n inf t} (h : Bd n inf t) (hb : SumOk n inf t) {k i j}
    (hk : k < n) (hi : i < n) (hj : j < n) (S : Nat → Nat → Prop) :
    relax inf k (phase t k S) (i, j) = .ok (phase t k (fun a b => S a b ∨ (a = i ∧ b = j))) := by
  have e1 : (phase t k S).dist i k = t.dist i k := by
    simp [phase, upd_col h hk]
  have e2 : (phase t k S).dist k j = t.dist k j := by
    simp [phase, upd_row h hk]
  have e3 : (phase t k S).next i k = t.next i k := by
    simp [phase, upd_col h hk]
  have p1 := h.nonneg i k hi hk
  have p2 := h.nonneg k j hk hj
  have p3 := h.le i k hi hk
  have p4 := h.le k j hk hj
  have p5 := h.le i j hi hj
  unfold relax
  simp only [e1, e2, e3]
  by_cases hc : t.dist i k < inf ∧ t.dist k j < inf
  · rw [if_pos hc]
    have ha : addI64 (t.dist i k) (t.dist k j) = .ok (t.dist i k + t.dist k j) := by
      have := hb i k j hi hk hj hc.1 hc.2
      unfold addI64; rw [if_pos]; constructor <;> omega
    rw [ha, Outcome.ok_bind]
    by_cases hu : upd t k i j
    · by_cases hS : S i j
      · have : (phase t k S).dist i j = t.dist i k + t.dist k j := by simp [phase, hS, hu]
        rw [this, if_neg (by omega)]
        congr 2
        funext a b
        apply propext
        constructor
        · exact Or.inl
        · rintro (h | ⟨rfl, rfl⟩) <;> assumption
      · have : (phase t k S).dist i j = t.dist i j := by simp [phase, hS]
        rw [this, if_pos (show t.dist i j > t.dist i k + t.dist k j from hu)]
        congr 1
        unfold phase Mat.set
        congr 1 <;>
        · apply mat_ext
          intro a b
          by_cases hab : a = i ∧ b = j
          · obtain ⟨rfl, rfl⟩ := hab
            simp [hu]
          · by_cases hSab : S a b <;> by_cases hq : upd t k a b <;> simp [hab, hSab, hq]
    · have : (phase t k S).dist i j = t.dist i j := by simp [phase, hu]
      rw [this, if_neg (show ¬ t.dist i j > t.dist i k + t.dist k j from hu)]
      congr 1
      unfold phase
      congr 1 <;>
      · apply mat_ext
        intro a b
        by_cases hab : a = i ∧ b = j
        · obtain ⟨rfl, rfl⟩ := hab
          simp [hu]
        · by_cases hSab : S a b <;> by_cases hq : upd t k a b <;> simp [hab, hSab, hq]
  · rw [if_neg hc]
    have hu : ¬ upd t k i j := by
      unfold upd
      intro hu
      apply hc
      constructor <;> omega
    congr 1
    unfold phase
    congr 1 <;>
    · apply mat_ext
      intro a b
      by_cases hab : a = i ∧ b = j
      · obtain ⟨rfl, rfl⟩ := hab
        simp [hu]
      · by_cases hSab : S a b <;> by_cases hq : upd t k a b <;> simp [hab, hSab, hq]

theorem fold_phase {n inf t} (h : Bd n inf t) (hb : SumOk n inf t) {k} (hk : k < n) :
    ∀ (L : List (Nat × Nat)), (∀ p ∈ L, p.1 < n ∧ p.2 < n) → ∀ S,
      foldOutcome (relax inf k) (phase t k S) L
        = .ok (phase t k (fun a b => S a b ∨ (a, b) ∈ L)) := by
  intro L
  induction L with
  | nil => intro _ S; simp [foldOutcome]
  | cons p L ih =>
    intro hL S
    obtain ⟨i, j⟩ := p
    have hp := hL (i, j) (by simp)
    unfold foldOutcome
    rw [relax_phase h hb hk hp.1 hp.2, Outcome.ok_bind, ih (fun p hp => hL p (by simp [hp]))]
    congr 2
    funext a b
    apply propext
    simp only [List.mem_cons, Prod.mk.injEq]
    tauto

theorem phase_false (t : Tables) (k : Nat) : phase t k (fun _ _ => False) = t := by
  simp [phase]

theorem mem_allPairs {n} {p : Nat × Nat} : p ∈ allPairs n ↔ p.1 < n ∧ p.2 < n := by
  obtain ⟨a, b⟩ := p
  simp [allPairs]

/-! ### The invariant -/

structure Inv (e : EdgeMap) (inf : Int) (m : Nat) (t : Tables) : Prop extends
    Bd e.length inf t where
  complete : ∀ i j c, i < e.length → j < e.length → WalkB e m i j c → t.dist i j ≤ c
  nextIff : ∀ i j, i < e.length → j < e.length → i ≠ j → (t.next i j ≠ -1 ↔ t.dist i j < inf)
  fol : ∀ i j, i < e.length → j < e.length → i ≠ j → t.dist i j < inf →
    ∃ p, Fol e m t.next j i p (t.dist i j)

section
variable {e : EdgeMap} {inf : Int} {m : Nat} {t : Tables}

theorem Inv.tri (h : Inv e inf m t) (w : WF e inf) {x l y c} (hx : x < e.length)
    (hy : y < e.length) (hl : l < m) (hln : l < e.length) (hc : e.cost? x l = some c) :
    t.dist x y ≤ c + t.dist l y := by
  have hc0 := w.cost _ _ _ hc
  by_cases hly : l = y
  · subst hly
    rw [h.diag _ hln, add_zero]
    exact h.complete _ _ _ hx hy (.edge hc)
  · by_cases hlt : t.dist l y < inf
    · obtain ⟨p, hp⟩ := h.fol l y hln hy hly hlt
      exact h.complete _ _ _ hx hy (.step hc hl hp.walk)
    · have := h.le x y hx hy
      omega

/-- Cost of the rest of a followed path is the matrix entry. -/
theorem Inv.rest (h : Inv e inf m t) {l j p c} (hl : l < e.length) (hj : j < e.length)
    (hf : Fol e m t.next j l p c) : c = t.dist l j := by
  by_cases hlj : l = j
  · subst hlj
    cases hf with
    | here => exact (h.diag _ hl).symm
    | step h => exact absurd rfl h
  · have hne : t.next l j ≠ -1 := by
      cases hf with
      | here => exact absurd rfl hlj
      | step _ hn _ _ _ => rw [hn]; omega
    obtain ⟨p', hp'⟩ := h.fol l j hl hj hlj ((h.nextIff l j hl hj hlj).1 hne)
    exact (hf.det hp').2

variable (e) in
/-- All pairs of a phase. -/
def allS (n : Nat) : Nat → Nat → Prop := fun a b => a < n ∧ b < n

theorem fol_unchanged (h : Inv e inf m t) (w : WF e inf) (hm : m < e.length) {i j p c}
    (hi : i < e.length) (hj : j < e.length) (hf : Fol e m t.next j i p c)
    (hu : ¬ upd t m i j) : Fol e (m + 1) (phase t m (allS e.length)).next j i p c := by
  induction hf with
  | here => exact .here
  | @step x l c p s hne hn hc hl hf ih =>
    have hln := w.dst _ _ _ hc
    have hs := h.rest hln hj hf
    have hall := h.rest hi hj (.step hne hn hc hl hf)
    refine .step hne ?_ hc (hl.imp_right fun h => by omega) (ih hln ?_)
    · simp [phase, hu, hn]
    · rcases hl with rfl | hl
      · intro hcon
        unfold upd at hcon
        rw [h.diag _ hln] at hcon
        have := h.nonneg l m hln hm
        have := h.nonneg m l hm hln
        omega
      · intro hcon
        apply hu
        unfold upd at hcon ⊢
        have := h.tri w hi hm hl hln hc
        omega

theorem fol_updated (h : Inv e inf m t) (w : WF e inf) (hm : m < e.length) {i j p c}
    (hi : i < e.length) (hj : j < e.length) (hf : Fol e m t.next m i p c)
    (hu : upd t m i j ∨ i = m) (hmj : t.dist m j < inf) (hmne : m ≠ j) :
    ∃ q, Fol e (m + 1) (phase t m (allS e.length)).next j i q (t.dist i m + t.dist m j) := by
  induction hf with
  | here =>
    obtain ⟨p, hp⟩ := h.fol m j hm hj hmne hmj
    rw [h.diag m hm, zero_add]
    exact ⟨p, fol_unchanged h w hm hm hj hp (upd_row h.toBd hm)⟩
  | @step x l c p s hne hn hc hl hf ih =>
    have hln := w.dst _ _ _ hc
    have hs := h.rest hln hm hf
    have hall := h.rest hi hm (.step hne hn hc hl hf)
    have hu' := hu.resolve_right hne
    have hxj : x ≠ j := by
      rintro rfl
      unfold upd at hu'
      rw [h.diag _ hi] at hu'
      have := h.nonneg x m hi hm
      have := h.nonneg m x hm hi
      omega
    have hu2 : upd t m l j ∨ l = m := by
      rcases hl with rfl | hl
      · exact .inr rfl
      · left
        unfold upd at hu' ⊢
        have := h.tri w hi hj hl hln hc
        omega
    obtain ⟨q, hq⟩ := ih hln hu2
    refine ⟨x :: q, ?_⟩
    have : t.dist x m + t.dist m j = c + (t.dist l m + t.dist m j) := by omega
    rw [this]
    refine .step hxj ?_ hc (Or.inr (by rcases hl with rfl | hl <;> omega)) hq
    simp [phase, allS, hi, hj, hu', hn]

theorem walk_split (w : WF e inf) {i j c} (h : WalkB e (m + 1) i j c) :
    (∃ c', c' ≤ c ∧ WalkB e m i j c') ∨
    ∃ c1 c2, c1 + c2 ≤ c ∧ WalkB e m i m c1 ∧ WalkB e m m j c2 := by
  have hn : ∀ {i j c}, WalkB e m i j c → 0 ≤ c := by
    intro i j c h
    induction h with
    | nil => exact le_refl _
    | edge h => exact (w.cost _ _ _ h).1
    | step h _ _ ih => have := (w.cost _ _ _ h).1; omega
  induction h with
  | nil i => exact .inl ⟨0, le_refl _, .nil i⟩
  | edge h => exact .inl ⟨_, le_refl _, .edge h⟩
  | @step i l j c t hc hl hw ih =>
    by_cases hlm : l < m
    · rcases ih with ⟨c', h1, h2⟩ | ⟨c1, c2, h1, h2, h3⟩
      · exact .inl ⟨c + c', by omega, .step hc hlm h2⟩
      · exact .inr ⟨c + c1, c2, by omega, .step hc hlm h2, h3⟩
    · have : l = m := by omega
      subst this
      rcases ih with ⟨c', h1, h2⟩ | ⟨c1, c2, h1, h2, h3⟩
      · exact .inr ⟨c, c', by omega, .edge hc, h2⟩
      · exact .inr ⟨c, c2, by have := hn h2; omega, .edge hc, h3⟩

theorem phase_dist {i j k n} (hi : i < n) (hj : j < n) :
    (phase t k (allS n)).dist i j = min (t.dist i j) (t.dist i k + t.dist k j) := by
  unfold phase upd allS
  simp only [hi, hj, and_self, true_and]
  split <;> omega

theorem inv_step (h : Inv e inf m t) (w : WF e inf) (hm : m < e.length) :
    Inv e inf (m + 1) (phase t m (allS e.length)) where
  diag i hi := by
    rw [phase_dist hi hi, h.diag i hi]
    have := h.nonneg i m hi hm
    have := h.nonneg m i hm hi
    omega
  nonneg i j hi hj := by
    rw [phase_dist hi hj]
    have := h.nonneg i j hi hj
    have := h.nonneg i m hi hm
    have := h.nonneg m j hm hj
    omega
  le i j hi hj := by
    rw [phase_dist hi hj]
    have := h.le i j hi hj
    omega
  complete i j c hi hj hw := by
    rw [phase_dist hi hj]
    rcases walk_split w hw with ⟨c', h1, h2⟩ | ⟨c1, c2, h1, h2, h3⟩
    · have := h.complete _ _ _ hi hj h2
      omega
    · have := h.complete _ _ _ hi hm h2
      have := h.complete _ _ _ hm hj h3
      omega
  nextIff i j hi hj hij := by
    have h0 := h.nextIff i j hi hj hij
    by_cases hu : upd t m i j
    · have him : i ≠ m := by rintro rfl; exact upd_row h.toBd hm hu
      have h1 := h.nextIff i m hi hm him
      have : (phase t m (allS e.length)).next i j = t.next i m := by simp [phase, allS, hi, hj, hu]
      rw [this, phase_dist hi hj]
      unfold upd at hu
      have := h.le i j hi hj
      have := h.nonneg m j hm hj
      have := h.nonneg i m hi hm
      constructor
      · intro; omega
      · intro; exact h1.2 (by omega)
    · have : (phase t m (allS e.length)).next i j = t.next i j := by simp [phase, hu]
      rw [this, phase_dist hi hj, h0]
      unfold upd at hu
      omega
  fol i j hi hj hij hlt := by
    by_cases hu : upd t m i j
    · have him : i ≠ m := by rintro rfl; exact upd_row h.toBd hm hu
      have hmj : m ≠ j := by rintro rfl; exact upd_col h.toBd hm hu
      have h1 := hu
      unfold upd at h1
      have := h.le i j hi hj
      have := h.nonneg m j hm hj
      have := h.nonneg i m hi hm
      obtain ⟨p, hp⟩ := h.fol i m hi hm him (by omega)
      obtain ⟨q, hq⟩ := fol_updated h w hm hi hj hp (.inl hu) (by omega) hmj
      refine ⟨q, ?_⟩
      rw [phase_dist hi hj, min_eq_right (by omega)]
      exact hq
    · have hd : (phase t m (allS e.length)).dist i j = t.dist i j := by simp [phase, hu]
      rw [hd] at hlt ⊢
      obtain ⟨p, hp⟩ := h.fol i j hi hj hij hlt
      exact ⟨p, fol_unchanged h w hm hi hj hp hu⟩

theorem length_le_of_nodup_lt {l : List Nat} {n : Nat} (h : l.Nodup) (hb : ∀ x ∈ l, x < n) :
    l.length ≤ n := by
  have h1 : l ⊆ List.range n := fun x hx => by simpa using hb x hx
  simpa using (List.subperm_of_subset h h1).length_le

theorem Fol.length_le {n next j} (hd : ∀ i j c, e.cost? i j = some c → j < n) {i p c}
    (h : Fol e m next j i p c) (hi : i < n) (hj : j < n) : p.length ≤ n := by
  exact length_le_of_nodup_lt h.nodup (h.nodes hj hd hi)

theorem Fol.cost_le {next j} {n : Nat} {B : Int} (hB : ∀ i j c, e.cost? i j = some c → (n : Int) * c ≤ B)
    {i p c} (h : Fol e m next j i p c) : (n : Int) * c ≤ ((p.length : Int) - 1) * B := by
  induction h with
  | here => simp
  | @step i l c p t hne hn hc hl hf ih =>
    have := hB _ _ _ hc
    push_cast [List.length_cons]
    linarith

theorem Inv.sumOk (h : Inv e inf m t) (w : WF e inf) : SumOk e.length inf t := by
  intro i k j hi hk hj h1 h2
  rcases w.bound with hb | hb
  · omega
  · have key : ∀ a b, a < e.length → b < e.length → t.dist a b < inf → t.dist a b ≤ 4611686018427387903 := by
      intro a b ha hb' hlt
      by_cases hab : a = b
      · subst hab
        rw [h.diag a ha]
        norm_num
      · obtain ⟨p, hp⟩ := h.fol a b ha hb' hab hlt
        have c1 := hp.cost_le (n := e.length) hb
        have c2 := Fol.length_le w.dst hp ha hb'
        have c3 : ((p.length : Int) - 1) * 4611686018427387903 ≤ ((e.length : Int) - 1) * 4611686018427387903 := by
          apply mul_le_mul_of_nonneg_right _ (by norm_num)
          omega
        have c4 : (0 : Int) < e.length := by omega
        have c5 : (e.length : Int) * t.dist a b ≤ (e.length : Int) * 4611686018427387903 := by linarith
        exact le_of_mul_le_mul_left c5 c4
    have := key i k hi hk h1
    have := key k j hk hj h2
    omega

theorem fw_loop (w : WF e inf) : ∀ (d m : Nat), m + d ≤ e.length → ∀ t, Inv e inf m t →
    ∃ t', foldOutcome (fun t k => foldOutcome (relax inf k) t (allPairs e.length)) t
        (List.range' m d) = .ok t' ∧ Inv e inf (m + d) t' := by
  intro d
  induction d with
  | zero => intro m _ t h; exact ⟨t, rfl, h⟩
  | succ d ih =>
    intro m hm t h
    obtain ⟨t', h1, h2⟩ := ih (m + 1) (by omega) _ (inv_step h w (by omega))
    refine ⟨t', ?_, by rw [show m + (d + 1) = m + 1 + d by omega]; exact h2⟩
    rw [List.range'_succ]
    unfold foldOutcome
    have := fold_phase h.toBd (h.sumOk w) (k := m) (by omega) (allPairs e.length)
      (fun p hp => mem_allPairs.1 hp) (fun _ _ => False)
    rw [phase_false] at this
    rw [this, Outcome.ok_bind]
    have hS : (fun a b => False ∨ (a, b) ∈ allPairs e.length) = allS e.length := by
      funext a b; apply propext; simp [mem_allPairs, allS]
    rw [hS]
    exact h1

theorem fw_inv (w : WF e inf) (h : Inv e inf 0 t) :
    ∃ t', floydWarshall e.length inf t = .ok t' ∧ Inv e inf e.length t' := by
  obtain ⟨t', h1, h2⟩ := fw_loop w e.length 0 (by omega) t h
  refine ⟨t', ?_, by simpa using h2⟩
  unfold floydWarshall
  rw [List.range_eq_range']
  exact h1

/-! ### Initial matrices -/

theorem lookup_cons' {β} (d : Nat) (c : β) (ds : List (Nat × β)) (b : Nat) :
    ((d, c) :: ds).lookup b = if b = d then some c else ds.lookup b := by
  rw [List.lookup_cons]
  by_cases h : b = d
  · simp [h]
  · simp [h, beq_eq_false_iff_ne.2 h]

theorem cost_cons (s : Nat) (ds : List (Nat × Int)) (es : EdgeMap) (a b : Nat) :
    EdgeMap.cost? ((s, ds) :: es) a b = if a = s then ds.lookup b else EdgeMap.cost? es a b := by
  unfold EdgeMap.cost?
  rw [lookup_cons']
  split <;> simp

theorem lookup_none_of_notMem {β} {l : List (Nat × β)} {k} (h : k ∉ l.map Prod.fst) :
    l.lookup k = none := by
  rw [List.lookup_eq_none_iff]
  intro q hq
  have : q.1 ≠ k := fun h' => h (List.mem_map.2 ⟨q, hq, h'⟩)
  simp [Ne.symm this]

theorem cost_none_of_notMem {es : EdgeMap} {a b} (h : a ∉ es.map Prod.fst) :
    es.cost? a b = none := by
  unfold EdgeMap.cost?
  rw [lookup_none_of_notMem h]; rfl

theorem initDests_eq {n s} : ∀ (ds : List (Nat × Int)) (t : Tables), (ds.map Prod.fst).Nodup →
    s < n → (∀ p ∈ ds, p.1 < n) →
    initDests n s ds t = .ok
      ⟨fun a b => if a = s then (ds.lookup b).getD (t.dist a b) else t.dist a b,
       fun a b => if a = s ∧ (ds.lookup b).isSome then (b : Int) else t.next a b⟩ := by
  intro ds
  induction ds with
  | nil => intro t _ _ _; simp [initDests]
  | cons p ds ih =>
    intro t hnd hs hb
    obtain ⟨d, c⟩ := p
    have hd : d < n := hb (d, c) (by simp)
    simp only [List.map_cons, List.nodup_cons] at hnd
    have hlk := lookup_none_of_notMem hnd.1
    unfold initDests
    rw [if_pos ⟨hs, hd⟩, ih _ hnd.2 hs (fun p hp => hb p (by simp [hp]))]
    congr 2
    · apply mat_ext
      intro a b
      simp only [Mat.set, lookup_cons']
      by_cases ha : a = s
      · by_cases hbd : b = d
        · simp [ha, hbd, hlk]
        · split_ifs <;> simp_all
      · simp [ha]
    · apply mat_ext
      intro a b
      simp only [Mat.set, lookup_cons']
      by_cases ha : a = s
      · by_cases hbd : b = d
        · simp [ha, hbd, hlk]
        · split_ifs <;> simp_all
      · simp [ha]

theorem initEdges_eq {n} : ∀ (es : EdgeMap) (t : Tables), (es.map Prod.fst).Nodup →
    (∀ p ∈ es, p.1 < n ∧ (p.2.map Prod.fst).Nodup ∧ ∀ q ∈ p.2, q.1 < n) →
    initEdges n es t = .ok
      ⟨fun a b => if a ∈ es.map Prod.fst then
          (if a = b then 0 else (es.cost? a b).getD (t.dist a b)) else t.dist a b,
       fun a b => if (es.cost? a b).isSome then (b : Int) else t.next a b⟩ := by
  intro es
  induction es with
  | nil => intro t _ _; simp [initEdges, EdgeMap.cost?]
  | cons p es ih =>
    intro t hnd hb
    obtain ⟨s, ds⟩ := p
    obtain ⟨h1, h2, h3⟩ := hb (s, ds) (by simp)
    simp only [List.map_cons, List.nodup_cons] at hnd
    have hlk := fun b => cost_none_of_notMem (b := b) hnd.1
    unfold initEdges
    rw [initDests_eq ds t h2 h1 h3, Outcome.ok_bind, if_pos h1,
      ih _ hnd.2 (fun p hp => hb p (by simp [hp]))]
    congr 2
    · apply mat_ext
      intro a b
      simp only [Mat.set, cost_cons, List.map_cons, List.mem_cons]
      by_cases ha : a = s
      · rw [ha]
        by_cases hab : s = b
        · rw [← hab]; simp [hnd.1]
        · simp only [hnd.1, hab, Ne.symm hab, if_false, true_or, if_true, and_false]
      · simp only [ha, false_or, if_false, false_and]
    · apply mat_ext
      intro a b
      simp only [cost_cons]
      by_cases ha : a = s
      · simp only [ha, hlk, if_true, true_and, Option.isSome_none, Bool.false_eq_true, if_false]
      · simp only [ha, if_false, false_and]

/-- `N` distinct keys below `N` are all of `0..N-1`. -/
theorem WF.mem (w : WF e inf) {i} (hi : i < e.length) : i ∈ e.map Prod.fst := by
  by_contra hnot
  have := length_le_of_nodup_lt (n := e.length) (List.nodup_cons.2 ⟨hnot, w.keys⟩) (by
    intro x hx
    rcases List.mem_cons.1 hx with rfl | hx
    · exact hi
    · exact w.src x hx)
  simp at this

theorem mem_of_lookup {β} {l : List (Nat × β)} {k v} (h : l.lookup k = some v) : (k, v) ∈ l := by
  induction l with
  | nil => simp at h
  | cons p l ih =>
    obtain ⟨a, b⟩ := p
    rw [List.lookup_cons] at h
    by_cases hk : k = a
    · subst hk; simp at h; simp [h]
    · rw [beq_eq_false_iff_ne.2 hk] at h
      exact List.mem_cons_of_mem _ (ih h)

theorem lookup_of_mem {β} {l : List (Nat × β)} {k v} (hn : (l.map Prod.fst).Nodup)
    (h : (k, v) ∈ l) : l.lookup k = some v := by
  induction l with
  | nil => simp at h
  | cons p l ih =>
    obtain ⟨a, b⟩ := p
    simp only [List.map_cons, List.nodup_cons] at hn
    rw [List.lookup_cons]
    rcases List.mem_cons.1 h with h | hm
    · simp only [Prod.mk.injEq] at h; obtain ⟨rfl, rfl⟩ := h; simp
    · have hk : k ≠ a := by
        intro hka
        exact hn.1 (List.mem_map.2 ⟨(k, v), hm, hka⟩)
      rw [beq_eq_false_iff_ne.2 hk]
      exact ih hn.2 hm

theorem init_inv (w : WF e inf) : ∃ t, initEdges e.length e ⟨fun _ _ => inf, fun _ _ => -1⟩ = .ok t ∧
    Inv e inf 0 t := by
  refine ⟨_, initEdges_eq e _ w.keys ?_, ?_⟩
  · rintro ⟨s, ds⟩ hp
    refine ⟨w.src _ (List.mem_map.2 ⟨_, hp, rfl⟩), w.dkeys _ hp, ?_⟩
    rintro ⟨d, c⟩ hq
    refine w.dst s d c ?_
    unfold EdgeMap.cost?
    rw [lookup_of_mem w.keys hp]
    exact lookup_of_mem (w.dkeys _ hp) hq
  · have key : ∀ i j, i < e.length → (if i ∈ e.map Prod.fst then
          (if i = j then 0 else (e.cost? i j).getD inf) else inf) =
          if i = j then 0 else (e.cost? i j).getD inf := by
      intro i j hi
      rw [if_pos (w.mem hi)]
    constructor
    · constructor
      · intro i hi
        simpa using key i i hi
      · intro i j hi hj
        simp only [key i j hi]
        split
        · exact le_refl _
        · cases h : e.cost? i j with
          | none => simpa using w.pos.le
          | some c => simpa using (w.cost _ _ _ h).1
      · intro i j hi hj
        simp only [key i j hi]
        split
        · exact w.pos.le
        · cases h : e.cost? i j with
          | none => simp
          | some c => simpa using (w.cost _ _ _ h).2.le
    · intro i j c hi hj hw
      simp only [key i j hi]
      cases hw with
      | nil => simp
      | edge h =>
        split
        · exact (w.cost _ _ _ h).1
        · simp [h]
      | step _ hl _ => omega
    · intro i j hi hj hij
      have k := key i j hi
      simp only [hij, if_false] at k
      simp only [hij, if_false, k]
      cases h : e.cost? i j with
      | none => simp
      | some c =>
        have := (w.cost _ _ _ h).2
        simp only [Option.isSome_some, if_true, Option.getD_some, this, iff_true]
        omega
    · intro i j hi hj hij hlt
      have k := key i j hi
      simp only [hij, if_false] at k
      simp only [hij, if_false, k] at hlt ⊢
      cases h : e.cost? i j with
      | none => rw [h] at hlt; simp at hlt
      | some c =>
        refine ⟨[i, j], ?_⟩
        have : (some c).getD inf = c + 0 := by simp
        rw [this]
        refine .step hij ?_ h (.inl rfl) .here
        simp [h]

/-! ### The reconstruction loops -/

theorem follow_fol {n next j} : ∀ {i p c}, Fol e m next j i p c → (∀ x ∈ p, x < n) →
    ∀ fuel, p.length ≤ fuel + 1 → follow n next j fuel i = .ok p := by
  intro i p c h
  induction h with
  | here => intro _ fuel _; cases fuel <;> simp [follow]
  | step hne hn hc hl hf ih =>
    intro hb fuel hlen
    cases fuel with
    | zero =>
      cases hf <;> simp at hlen
    | succ fuel =>
      unfold follow
      have hj : j < n := by
        have := hf.last
        exact hb j (List.mem_cons_of_mem _ (List.mem_of_getLast? this))
      rw [if_neg hne, if_pos ⟨hb _ (by simp), hj⟩]
      simp only [hn]
      rw [if_neg (by omega), Int.toNat_natCast,
        ih (fun x hx => hb x (List.mem_cons_of_mem _ hx)) fuel (by simpa using hlen)]
      rfl

theorem Inv.follow (h : Inv e inf m t) (w : WF e inf) {i j} (hi : i < e.length)
    (hj : j < e.length) (hij : i ≠ j) (hn : t.next i j ≠ -1) :
    ∃ p, F2C.follow e.length t.next j e.length i = .ok p ∧ Fol e m t.next j i p (t.dist i j) := by
  obtain ⟨p, hp⟩ := h.fol i j hi hj hij ((h.nextIff i j hi hj hij).1 hn)
  refine ⟨p, ?_, hp⟩
  have h1 := hp.nodes hj w.dst hi
  have h2 := Fol.length_le w.dst hp hi hj
  exact follow_fol hp h1 _ (by omega)

theorem check_loop (h : Inv e inf m t) (w : WF e inf) : ∀ (L : List (Nat × Nat)),
    (∀ p ∈ L, p.1 < e.length ∧ p.2 < e.length) →
    foldOutcome (checkPair e.length inf) t L = .ok t := by
  intro L
  induction L with
  | nil => intro _; rfl
  | cons p L ih =>
    intro hL
    obtain ⟨i, j⟩ := p
    have hp := hL (i, j) (by simp)
    have hone : checkPair e.length inf t (i, j) = .ok t := by
      unfold checkPair
      simp only
      by_cases h1 : i ≠ j ∧ t.next i j ≠ -1
      · rw [if_pos h1]
        obtain ⟨q, hq, _⟩ := h.follow w hp.1 hp.2 h1.1 h1.2
        rw [hq]
        rfl
      · rw [if_neg h1]
        by_cases h2 : i ≠ j ∧ t.next i j = -1
        · rw [if_pos h2]
          have h3 := h.nextIff i j hp.1 hp.2 h2.1
          have h4 := h.le i j hp.1 hp.2
          have h5 : t.dist i j = inf := by
            have : ¬ t.dist i j < inf := fun hh => (h3.2 hh) h2.2
            omega
          congr 1
          have : t.dist.set i j inf = t.dist := by
            apply mat_ext
            intro a b
            unfold Mat.set
            split
            · rename_i hab; rw [hab.1, hab.2, h5]
            · rfl
          rw [this]
        · rw [if_neg h2]
    unfold foldOutcome
    rw [hone, Outcome.ok_bind]
    exact ih (fun p hp => hL p (by simp [hp]))

theorem computeTables_spec (w : WF e inf) :
    ∃ t, computeTables e inf = .ok t ∧ Inv e inf e.length t := by
  obtain ⟨t0, h0, i0⟩ := init_inv w
  obtain ⟨t1, h1, i1⟩ := fw_inv w i0
  refine ⟨t1, ?_, i1⟩
  unfold computeTables
  simp only [h0, h1, Outcome.ok_bind]
  exact check_loop i1 w _ (fun p hp => mem_allPairs.1 hp)

end

end F2C.GraphL
