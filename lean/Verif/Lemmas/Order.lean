import Mathlib.Data.List.Perm.Basic
import Mathlib.Data.List.Nodup
import Mathlib.Data.List.Dedup
import Mathlib.Data.List.Sort
import Mathlib.Data.List.Range
import Mathlib.Tactic.Linarith
import Mathlib.Tactic.Ring
import Verif.Model.Order

/-! # Lemmas about the order algorithms -/

namespace F2C

variable {α : Type}

/-- Elements at even positions. -/
def evs : List α → List α
  | [] => []
  | [a] => [a]
  | a :: _ :: l => a :: evs l

/-- Elements at odd positions. -/
def ods : List α → List α
  | [] => []
  | [_] => []
  | _ :: b :: l => b :: ods l

theorem evs_cons (a : α) (l : List α) : evs (a :: l) = a :: ods l := by
  induction l using evs.induct generalizing a with
  | case1 => rfl
  | case2 b => rfl
  | case3 b c l ih => simp only [evs, ods]; rw [← ih]

theorem ods_cons (a : α) (l : List α) : ods (a :: l) = evs l := by
  cases l with
  | nil => rfl
  | cons b l => simp only [ods, evs_cons]

theorem evs_length (l : List α) : (evs l).length = (l.length + 1) / 2 := by
  induction l using evs.induct with
  | case1 => simp [evs]
  | case2 b => simp [evs]
  | case3 b c l ih => simp only [evs, List.length_cons, ih]; omega

theorem ods_length (l : List α) : (ods l).length = l.length / 2 := by
  induction l using ods.induct with
  | case1 => simp [ods]
  | case2 b => simp [ods]
  | case3 b c l ih => simp only [ods, List.length_cons, ih]; omega

theorem evs_getElem? (l : List α) (k : Nat) : (evs l)[k]? = l[2 * k]? := by
  induction l using evs.induct generalizing k with
  | case1 => simp [evs]
  | case2 b =>
    cases k with
    | zero => rfl
    | succ k => simp [evs, Nat.mul_add]
  | case3 b c l ih =>
    cases k with
    | zero => rfl
    | succ k => simp only [evs, Nat.mul_add, List.getElem?_cons_succ, ih]

theorem ods_getElem? (l : List α) (k : Nat) : (ods l)[k]? = l[2 * k + 1]? := by
  cases l with
  | nil => simp [ods]
  | cons a l => rw [ods_cons, evs_getElem?]; rfl

theorem evs_ods_perm (l : List α) : (evs l ++ ods l).Perm l := by
  induction l using evs.induct with
  | case1 => exact .refl _
  | case2 b => exact .refl _
  | case3 b c l ih =>
    simp only [evs, ods, List.cons_append]
    refine .cons _ ?_
    exact (List.perm_middle).trans (.cons _ ih)

/-! ## Snake -/

theorem rotateRange_one (pre : List α) (a : α) (r : List α) :
    rotateRange (pre ++ a :: r) pre.length (pre.length + 1) (pre ++ a :: r).length
      = .ok (pre ++ r ++ [a]) := by
  unfold rotateRange
  rw [if_pos (by simp)]
  congr 1
  have h1 : (pre ++ a :: r).drop (pre.length + 1) = r := by
    rw [List.drop_append, List.drop_eq_nil_of_le (by omega)]; simp
  have h2 : (pre ++ a :: r).drop pre.length = a :: r := by simp
  rw [h1, h2]
  have h3 : (pre ++ a :: r).length - (pre.length + 1) = r.length := by simp; omega
  rw [h3]
  simp

theorem reverseRange_suffix (pre r : List α) :
    reverseRange (pre ++ r) pre.length (pre ++ r).length = .ok (pre ++ r.reverse) := by
  unfold reverseRange
  rw [if_pos (by simp)]
  simp

theorem snakeLoop_spec (n : Nat) (pre rest tail : List α)
    (hn : n = pre.length + rest.length + tail.length) (ht : tail.length + 1 = pre.length) :
    snakeLoop n (pre ++ rest ++ tail) pre.length =
      .ok (pre ++ ods rest ++ (if rest.length % 2 = 1 then rest.drop (rest.length - 1) else [])
        ++ tail ++ evs (rest.take (2 * (rest.length / 2))), pre.length + rest.length / 2) := by
  induction rest using evs.induct generalizing pre tail with
  | case1 =>
    rw [snakeLoop, if_neg (by simp at hn; omega)]
    simp [ods, evs]
  | case2 b =>
    rw [snakeLoop, if_neg (by simp at hn; omega)]
    simp [ods, evs]
  | case3 a b l ih =>
    rw [snakeLoop, if_pos (by simp at hn; omega)]
    have hrot := rotateRange_one pre a (b :: l ++ tail)
    have e : pre ++ (a :: b :: l) ++ tail = pre ++ a :: (b :: l ++ tail) := by simp
    rw [e, hrot]
    have := ih (pre ++ [b]) (tail ++ [a]) (by simp at hn ⊢; omega) (by simp; omega)
    have e2 : pre ++ (b :: l ++ tail) ++ [a] = pre ++ [b] ++ l ++ (tail ++ [a]) := by simp
    simp only [e2]
    rw [List.length_append, List.length_singleton] at this
    rw [this]
    have h3 : (l.length + 1 + 1) % 2 = l.length % 2 := by omega
    have h4 : (l.length + 1 + 1) / 2 = l.length / 2 + 1 := by omega
    simp only [List.length_cons, h3, h4, ods]
    have h5 : 2 * (l.length / 2 + 1) = 2 * (l.length / 2) + 1 + 1 := by ring
    rw [h5]
    simp only [List.take_succ_cons, evs]
    congr 2
    · by_cases hl : l.length % 2 = 1
      · simp only [hl, if_true]
        have : l.length + 1 + 1 - 1 = (l.length - 1) + 1 + 1 := by omega
        rw [this]; simp
      · simp [hl]
    · omega

theorem snakeSort_spec (l : List α) (h : 2 ≤ l.length) :
    snakeSort l = .ok (evs l ++ (ods l).reverse) := by
  cases l with
  | nil => simp at h
  | cons x rest =>
    unfold snakeSort
    rw [if_neg (by simp)]
    have hs := snakeLoop_spec (x :: rest).length [x] rest [] (by simp; omega) (by simp)
    simp only [List.append_nil, List.singleton_append, List.length_singleton] at hs
    rw [hs]
    simp only [Outcome.ok_bind]
    rcases Nat.even_or_odd' rest.length with ⟨p, hp | hp⟩
    · -- odd number of swaths
      have hm : rest.length % 2 = 0 := by omega
      have hd : rest.length / 2 = p := by omega
      have htk : rest.take (2 * p) = rest := List.take_of_length_le (by omega)
      simp only [hm, hd, htk]
      simp only [Nat.zero_ne_one, if_false, List.append_nil]
      obtain ⟨e0, er, he⟩ : ∃ e0 er, evs rest = e0 :: er := by
        cases hr : rest with
        | nil => simp [hr] at h
        | cons a r => exact ⟨a, ods r, evs_cons a r⟩
      rw [he]
      have hlen : (x :: ods rest).length = 1 + p := by simp [ods_length, hd]; omega
      have h1 := reverseRange_suffix (x :: ods rest ++ [e0]) er
      have h2 : (x :: ods rest ++ [e0]).length = 1 + p + 1 := by simp [ods_length, hd]; omega
      rw [h2] at h1
      have e1 : x :: ods rest ++ e0 :: er = (x :: ods rest ++ [e0]) ++ er := by simp
      rw [e1, h1]
      simp only [Outcome.ok_bind]
      have h3 := rotateRange_one (x :: ods rest) e0 er.reverse
      rw [hlen] at h3
      have e2 : x :: ods rest ++ [e0] ++ er.reverse = x :: ods rest ++ e0 :: er.reverse := by simp
      rw [e2, h3]
      have hel : er.length + 1 = p := by
        have := congrArg List.length he
        simp [evs_length] at this; omega
      have hmod : (x :: ods rest ++ e0 :: er.reverse).length % 2 = 1 := by
        simp [ods_length, hd]; omega
      rw [if_pos hmod, evs_cons, ods_cons, he]
      simp
    · -- even number of swaths
      have hm : rest.length % 2 = 1 := by omega
      have hd : rest.length / 2 = p := by omega
      simp only [hm, hd, if_true]
      have hsplit : rest = rest.take (2 * p) ++ rest.drop (2 * p) := (List.take_append_drop _ _).symm
      obtain ⟨y, hy⟩ : ∃ y, rest.drop (2 * p) = [y] := by
        apply List.length_eq_one_iff.mp; simp; omega
      have hl1 : rest.length - 1 = 2 * p := by omega
      rw [hl1, hy]
      have hev : ∀ (a : List α) (b : α), a.length % 2 = 0 → evs (a ++ [b]) = evs a ++ [b] := by
        intro a b
        induction a using evs.induct with
        | case1 => intro _; rfl
        | case2 c => intro h; simp at h
        | case3 c d l ih =>
          intro h; simp only [List.cons_append, evs]; rw [ih (by simp at h; omega)]
      have hev2 : evs rest = evs (rest.take (2 * p)) ++ [y] := by
        conv_lhs => rw [hsplit, hy]
        exact hev _ _ (by simp; omega)
      have h2 : (x :: ods rest ++ [y]).length = 1 + p + 1 := by simp [ods_length, hd]; omega
      have h1 := reverseRange_suffix (x :: ods rest ++ [y]) (evs (rest.take (2 * p)))
      rw [h2] at h1
      rw [h1]
      simp only [Outcome.ok_bind]
      have hmod : ¬ (x :: ods rest ++ [y] ++ (evs (rest.take (2 * p))).reverse).length % 2 = 1 := by
        simp [ods_length, hd, evs_length]; omega
      rw [if_neg hmod, evs_cons, ods_cons, hev2]
      simp

/-! ## Spiral -/

/-- last, first, last but one, second, ... -/
def alt (l : List α) : List α :=
  match l with
  | [] => []
  | a :: r =>
    (a :: r).getLast (by simp) :: (match h : (a :: r).dropLast with
      | [] => []
      | b :: t => b :: alt t)
termination_by l.length
decreasing_by
  have := congrArg List.length h
  simp at this ⊢
  omega

theorem alt_nil : alt ([] : List α) = [] := by rw [alt]

theorem alt_single (a : α) : alt [a] = [a] := by
  rw [alt]
  split
  · simp
  · rename_i h; simp at h

theorem alt_cons_append (a b : α) (m : List α) : alt (a :: (m ++ [b])) = b :: a :: alt m := by
  rw [alt]
  have h1 : (a :: (m ++ [b])).getLast (by simp) = b := by
    simp
  rw [h1]
  congr 1
  split
  · rename_i h
    have := congrArg List.length h
    simp at this
  · rename_i c t h
    have h2 : (a :: (m ++ [b])).dropLast = a :: m := by
      rw [← List.cons_append, List.dropLast_concat]
    rw [h2] at h
    injection h with h3 h4
    rw [h3, h4]

theorem alt_induction {P : List α → Prop} (h0 : P []) (h1 : ∀ a, P [a])
    (h2 : ∀ a m b, P m → P (a :: (m ++ [b]))) (l : List α) : P l := by
  generalize hn : l.length = n
  induction n using Nat.strong_induction_on generalizing l with
  | _ n ih =>
    cases l with
    | nil => exact h0
    | cons a r =>
      rcases List.eq_nil_or_concat r with h | ⟨m, b, h⟩
      · subst h; exact h1 a
      · subst h
        have := ih m.length (by subst hn; simp; omega) m rfl
        simpa using h2 a m b this

theorem alt_perm (l : List α) : (alt l).Perm l := by
  induction l using alt_induction with
  | h0 => rw [alt_nil]
  | h1 a => rw [alt_single]
  | h2 a m b ih =>
    rw [alt_cons_append]
    refine (List.Perm.swap _ _ _).trans (.cons _ ?_)
    exact (List.Perm.cons _ ih).trans (List.perm_append_singleton b m).symm

theorem alt_length (l : List α) : (alt l).length = l.length := (alt_perm l).length_eq

theorem alt_getElem? (l : List α) (k : Nat) :
    (2 * k < l.length → (alt l)[2 * k]? = l[l.length - 1 - k]?) ∧
    (2 * k + 1 < l.length → (alt l)[2 * k + 1]? = l[k]?) := by
  induction l using alt_induction generalizing k with
  | h0 => simp
  | h1 a =>
    constructor
    · intro h
      have : k = 0 := by simp at h; omega
      subst this; simp [alt_single]
    · intro h; simp at h
  | h2 a m b ih =>
    rw [alt_cons_append]
    cases k with
    | zero =>
      constructor
      · intro _
        simp only [Nat.mul_zero, List.getElem?_cons_zero, List.length_cons, List.length_append,
          List.length_nil]
        rw [show m.length + (0 + 1) + 1 - 1 - 0 = m.length + 1 by omega]
        simp
      · intro _; simp
    | succ k =>
      have ihk := ih k
      constructor
      · intro h
        have h' : 2 * k < m.length := by simp at h; omega
        rw [show 2 * (k + 1) = 2 * k + 1 + 1 by ring]
        simp only [List.getElem?_cons_succ]
        rw [ihk.1 h']
        rw [show (a :: (m ++ [b])).length - 1 - (k + 1) = (m.length - 1 - k) + 1 by
          simp; omega]
        rw [List.getElem?_cons_succ, List.getElem?_append_left (by omega)]
      · intro h
        have h' : 2 * k + 1 < m.length := by simp at h; omega
        rw [show 2 * (k + 1) + 1 = 2 * k + 1 + 1 + 1 by ring]
        simp only [List.getElem?_cons_succ]
        rw [ihk.2 h', List.getElem?_append_left (by omega)]

theorem rotateRange_last (pre done m : List α) (b : α) (post : List α) :
    rotateRange (pre ++ (done ++ (m ++ [b])) ++ post) (pre.length + done.length)
      (pre.length + (done ++ (m ++ [b])).length - 1) (pre.length + (done ++ (m ++ [b])).length)
      = .ok (pre ++ (done ++ b :: m) ++ post) := by
  unfold rotateRange
  rw [if_pos (by simp; omega)]
  congr 1
  have e : pre ++ (done ++ (m ++ [b])) ++ post = (pre ++ done) ++ (m ++ (b :: post)) := by simp
  have e2 : pre ++ (done ++ (m ++ [b])) ++ post = (pre ++ done ++ m) ++ (b :: post) := by simp
  have e3 : pre ++ (done ++ (m ++ [b])) ++ post = (pre ++ done ++ m ++ [b]) ++ post := by simp
  have t1 : (pre ++ (done ++ (m ++ [b])) ++ post).take (pre.length + done.length) = pre ++ done := by
    rw [e]; exact List.take_left' (by simp)
  have t2 : (pre ++ (done ++ (m ++ [b])) ++ post).drop
      (pre.length + (done ++ (m ++ [b])).length - 1) = b :: post := by
    rw [e2]; exact List.drop_left' (by simp; omega)
  have t3 : (pre ++ (done ++ (m ++ [b])) ++ post).drop (pre.length + done.length)
      = m ++ (b :: post) := by
    rw [e]; exact List.drop_left' (by simp)
  have t4 : (pre ++ (done ++ (m ++ [b])) ++ post).drop
      (pre.length + (done ++ (m ++ [b])).length) = post := by
    rw [e3]; exact List.drop_left' (by simp)
  rw [t1, t2, t3, t4]
  have n1 : pre.length + (done ++ (m ++ [b])).length
      - (pre.length + (done ++ (m ++ [b])).length - 1) = 1 := by simp; omega
  have n2 : pre.length + (done ++ (m ++ [b])).length - 1 - (pre.length + done.length)
      = m.length := by simp; omega
  rw [n1, n2]
  have : (m ++ b :: post).take m.length = m := List.take_left' rfl
  rw [this]; simp

theorem spiralLoop_spec (pre post done rest : List α) :
    spiralLoop pre.length (done ++ rest).length (pre ++ (done ++ rest) ++ post) done.length
      = .ok (pre ++ (done ++ alt rest) ++ post) := by
  induction rest using alt_induction generalizing done with
  | h0 =>
    rw [spiralLoop, if_neg (by simp), alt_nil]
  | h1 a =>
    rw [spiralLoop, if_pos (by simp)]
    have := rotateRange_last pre done [] a post
    simp only [List.nil_append] at this
    rw [this]
    simp only
    rw [spiralLoop, if_neg (by simp), alt_single]
  | h2 a m b ih =>
    rw [spiralLoop, if_pos (by simp)]
    have := rotateRange_last pre done (a :: m) b post
    simp only [List.cons_append] at this
    rw [this]
    simp only
    have h2 := ih (done ++ [b, a])
    have e : done ++ b :: a :: m = done ++ [b, a] ++ m := by simp
    rw [e]
    have hl : (done ++ a :: (m ++ [b])).length = (done ++ [b, a] ++ m).length := by simp
    have hl2 : done.length + 2 = (done ++ [b, a]).length := by simp
    rw [hl, hl2, h2, alt_cons_append]
    simp

/-- What `spiral` does with one block, depending on the parity of its offset. -/
def blockOrder (offset : Nat) (l : List α) : List α :=
  if offset % 2 = 0 then
    match l with
    | [] => []
    | a :: r => a :: alt r
  else alt l

theorem blockOrder_perm (o : Nat) (l : List α) : (blockOrder o l).Perm l := by
  unfold blockOrder
  split
  · cases l with
    | nil => exact .refl _
    | cons a r => exact .cons _ (alt_perm r)
  · exact alt_perm l

theorem blockOrder_length (o : Nat) (l : List α) : (blockOrder o l).length = l.length :=
  (blockOrder_perm o l).length_eq

theorem spiral_spec (pre b post : List α) :
    spiral (pre ++ b ++ post) pre.length b.length = .ok (pre ++ blockOrder pre.length b ++ post) := by
  unfold spiral blockOrder
  by_cases h : pre.length % 2 = 0
  · rw [if_pos h]
    have h1 : (pre.length + 1) % 2 = 1 := by omega
    rw [h1]
    cases b with
    | nil => rw [spiralLoop, if_neg (by simp)]
    | cons a r => simpa using spiralLoop_spec pre post [a] r
  · rw [if_neg h]
    have h1 : (pre.length + 1) % 2 = 0 := by omega
    rw [h1]
    simpa using spiralLoop_spec pre post [] b

/-- Blocks of size `s`, the last one possibly shorter, each in block order. -/
def blocksOrder (s : Nat) (offset : Nat) (l : List α) (fuel : Nat) : List α :=
  match fuel with
  | 0 => l
  | k + 1 => blockOrder offset (l.take s) ++ blocksOrder s (offset + s) (l.drop s) k

theorem blocksOrder_perm (s o : Nat) (l : List α) (k : Nat) : (blocksOrder s o l k).Perm l := by
  induction k generalizing o l with
  | zero => exact .refl _
  | succ k ih =>
    simp only [blocksOrder]
    refine ((blockOrder_perm o _).append (ih _ _)).trans ?_
    rw [List.take_append_drop]

theorem spiralBlocks_spec (s : Nat) (pre rest : List α) (i k : Nat)
    (hi : pre.length = i * s) (hk : k * s ≤ rest.length) :
    spiralBlocks s (pre ++ rest) i k = .ok (pre ++ blocksOrder s (i * s) rest k) := by
  induction k generalizing pre rest i with
  | zero => rfl
  | succ k ih =>
    simp only [spiralBlocks, blocksOrder]
    have hs : s ≤ rest.length := by
      have : (k + 1) * s = k * s + s := by ring
      omega
    have h1 := spiral_spec pre (rest.take s) (rest.drop s)
    have hts : (rest.take s).length = s := by simp [hs]
    rw [hts, hi] at h1
    have e : pre ++ rest.take s ++ rest.drop s = pre ++ rest := by simp
    rw [e] at h1
    rw [h1]
    simp only [Outcome.ok_bind]
    have h2 := ih (pre ++ blockOrder (i * s) (rest.take s)) (rest.drop s) (i + 1)
      (by simp [blockOrder_length, hts, hi]; ring)
      (by simp; have : (k + 1) * s = k * s + s := by ring
          omega)
    rw [h2]
    simp [Nat.add_mul]

theorem blocksOrder_append (s o : Nat) (a b : List α) (k : Nat) (ha : a.length = k * s) :
    blocksOrder s o (a ++ b) k = blocksOrder s o a k ++ b ∧
    blocksOrder s o (a ++ b) (k + 1)
      = blocksOrder s o a k ++ (blockOrder (o + k * s) (b.take s) ++ b.drop s) := by
  induction k generalizing o a with
  | zero =>
    have : a = [] := by simpa using ha
    subst this
    simp [blocksOrder]
  | succ k ih =>
    have hk : (k + 1) * s = k * s + s := by ring
    have hs : s ≤ a.length := by omega
    have h1 : (a ++ b).take s = a.take s := List.take_append_of_le_length hs
    have h2 : (a ++ b).drop s = a.drop s ++ b := List.drop_append_of_le_length hs
    have ih' := ih (o + s) (a.drop s) (by simp; omega)
    constructor
    · simp only [blocksOrder]
      rw [h1, h2, ih'.1]; simp
    · rw [blocksOrder, h1, h2, ih'.2]
      simp only [blocksOrder]
      rw [show o + s + k * s = o + (k + 1) * s by rw [hk]; omega]
      simp

theorem blockOrder_short (o : Nat) (l : List α) (h : l.length ≤ 1) : blockOrder o l = l := by
  match l, h with
  | [], _ => unfold blockOrder; split <;> simp [alt_nil]
  | [a], _ => unfold blockOrder; split <;> simp [alt_nil, alt_single]

theorem spiralSort_spec (s : Nat) (l : List α) (hs : 0 < s) :
    spiralSort s l = .ok (blocksOrder s 0 l (l.length / s + 1)) := by
  unfold spiralSort
  rw [if_neg (by omega)]
  simp only []
  have hk : l.length / s * s ≤ l.length := Nat.div_mul_le_self _ _
  have h := spiralBlocks_spec s [] l 0 (l.length / s) (by simp) hk
  simp only [List.nil_append] at h
  rw [h]
  simp only [Outcome.ok_bind, Nat.zero_mul]
  have hr : l.length - l.length / s * s < s := by
    have := Nat.div_add_mod l.length s
    have h2 := Nat.mod_lt l.length hs
    rw [Nat.mul_comm] at this; omega
  obtain ⟨a, b, hab, ha⟩ : ∃ a b, l = a ++ b ∧ a.length = l.length / s * s :=
    ⟨l.take (l.length / s * s), l.drop (l.length / s * s), by simp, by simp [hk]⟩
  generalize l.length / s = k at *
  subst hab
  obtain ⟨h1, h2⟩ := blocksOrder_append s 0 a b k ha
  have hbl : b.length < s := by simp at hr; omega
  rw [h1, h2]
  rw [List.take_of_length_le (by omega), List.drop_eq_nil_of_le (by omega)]
  have hlen : (blocksOrder s 0 a k).length = k * s := by
    rw [(blocksOrder_perm s 0 a k).length_eq, ha]
  have hleft : (blocksOrder s 0 a k ++ b).length - k * s = b.length := by simp [hlen]
  rw [hleft]
  split
  · have h3 := spiral_spec (blocksOrder s 0 a k) b []
    rw [hlen] at h3
    simpa using h3
  · rw [blockOrder_short _ b (by omega)]
    simp

theorem spiralSort_perm (s : Nat) (l : List α) (hs : 0 < s) :
    ∃ out, spiralSort s l = .ok out ∧ out.Perm l :=
  ⟨_, spiralSort_spec s l hs, blocksOrder_perm _ _ _ _⟩

theorem blockOrder_getElem? (o : Nat) (l : List α) (j : Nat) (hj : j < l.length) :
    (blockOrder o l)[j]? =
      l[if o % 2 = j % 2 then j / 2 else l.length - 1 - j / 2]? := by
  unfold blockOrder
  rcases Nat.even_or_odd' j with ⟨k, hk | hk⟩ <;> by_cases ho : o % 2 = 0
  · rw [if_pos ho]
    have : j / 2 = k := by omega
    rw [if_pos (by omega), this]
    match l, hj with
    | a :: r, hj =>
      cases k with
      | zero => subst hk; rfl
      | succ k =>
        subst hk
        rw [show 2 * (k + 1) = 2 * k + 1 + 1 by ring]
        simp only [List.getElem?_cons_succ]
        exact (alt_getElem? r k).2 (by simp at hj; omega)
  · rw [if_neg ho, if_neg (by omega)]
    have : j / 2 = k := by omega
    rw [this, hk]
    exact (alt_getElem? l k).1 (by omega)
  · rw [if_pos ho, if_neg (by omega)]
    have : j / 2 = k := by omega
    rw [this, hk]
    match l, hj with
    | a :: r, hj =>
      simp only [List.getElem?_cons_succ]
      rw [(alt_getElem? r k).1 (by simp at hj; omega)]
      rw [show (a :: r).length - 1 - k = (r.length - 1 - k) + 1 by simp at hj ⊢; omega]
      rfl
  · rw [if_neg ho, if_pos (by omega)]
    have : j / 2 = k := by omega
    rw [this, hk]
    exact (alt_getElem? l k).2 (by omega)

theorem blocksOrder_getElem? (s : Nat) (hs : 0 < s) (o : Nat) (l : List α) (f q j : Nat)
    (hq : q < f) (hj : j < s) (hl : q * s + j < l.length) :
    (blocksOrder s o l f)[q * s + j]? =
      l[q * s + (if (o + q * s) % 2 = j % 2 then j / 2
        else min s (l.length - q * s) - 1 - j / 2)]? := by
  induction q generalizing o l f with
  | zero =>
    obtain ⟨f, rfl⟩ : ∃ g, f = g + 1 := ⟨f - 1, by omega⟩
    simp only [blocksOrder, Nat.zero_mul, Nat.zero_add, Nat.add_zero, Nat.sub_zero] at hl ⊢
    have hlen : j < (l.take s).length := by simp; omega
    rw [List.getElem?_append_left (by rw [blockOrder_length]; exact hlen)]
    rw [blockOrder_getElem? o _ j hlen]
    simp only [List.length_take]
    rw [List.getElem?_take_of_lt]
    split <;> omega
  | succ q ih =>
    obtain ⟨f, rfl⟩ : ∃ g, f = g + 1 := ⟨f - 1, by omega⟩
    have e : (q + 1) * s = q * s + s := by ring
    simp only [blocksOrder, e] at hl ⊢
    have hlen : (blockOrder o (l.take s)).length = s := by
      rw [blockOrder_length]; simp; omega
    rw [List.getElem?_append_right (by omega), hlen]
    rw [show q * s + s + j - s = q * s + j by omega]
    rw [ih (o + s) (l.drop s) f (by omega) (by simp; omega)]
    rw [List.getElem?_drop]
    congr 1
    rw [List.length_drop, show o + s + q * s = o + (q * s + s) by omega,
      show l.length - s - q * s = l.length - (q * s + s) by omega]
    omega

theorem spiralSort_length {s : Nat} {l out : List α} (hs : 0 < s) (h : spiralSort s l = .ok out) :
    out.length = l.length := by
  obtain ⟨o', h1, h2⟩ := spiralSort_perm s l hs
  rw [h] at h1; injection h1 with h1; subst h1; exact h2.length_eq

/-! ## Custom -/

theorem stdUnique_sublist (l : List Nat) : (stdUnique l).Sublist l := by
  induction l using stdUnique.induct with
  | case1 => exact .refl _
  | case2 a => exact .refl _
  | case3 a l ih => rw [stdUnique, if_pos rfl]; exact .cons _ ih
  | case4 a b l h ih => rw [stdUnique, if_neg h]; exact .cons_cons _ ih

theorem stdUnique_of_nodup (l : List Nat) (h : l.Nodup) : stdUnique l = l := by
  induction l using stdUnique.induct with
  | case1 => rfl
  | case2 a => rfl
  | case3 a l ih => simp at h
  | case4 a b l hab ih => rw [stdUnique, if_neg hab, ih (List.nodup_cons.mp h).2]

theorem stdUnique_nodup (l : List Nat) (hs : l.Pairwise (· ≤ ·)) : (stdUnique l).Nodup := by
  induction l using stdUnique.induct with
  | case1 => simp [stdUnique]
  | case2 a => simp [stdUnique]
  | case3 a l ih => rw [stdUnique, if_pos rfl]; exact ih (List.pairwise_cons.mp hs).2
  | case4 a b l hab ih =>
    rw [stdUnique, if_neg hab]
    have h2 := List.pairwise_cons.mp hs
    refine List.nodup_cons.mpr ⟨?_, ih h2.2⟩
    intro hm
    have hm' := (stdUnique_sublist (b :: l)).subset hm
    have hab' : a ≤ b := h2.1 b (by simp)
    rcases List.mem_cons.mp hm' with h | h
    · exact hab h
    · have := (List.pairwise_cons.mp h2.2).1 a h
      omega

theorem unique_length_iff (o : List Nat) :
    (stdUnique (o.insertionSort (· ≤ ·))).length = o.length ↔ o.Nodup := by
  have hp : (o.insertionSort (· ≤ ·)).Perm o := List.perm_insertionSort _ _
  have hsrt : (o.insertionSort (· ≤ ·)).Pairwise (· ≤ ·) := List.pairwise_insertionSort _ _
  constructor
  · intro h
    have h2 : stdUnique (o.insertionSort (· ≤ ·))
        = o.insertionSort (· ≤ ·) :=
      (stdUnique_sublist _).eq_of_length (by rw [h, hp.length_eq])
    rw [← hp.nodup_iff, ← h2]
    exact stdUnique_nodup _ hsrt
  · intro h
    rw [stdUnique_of_nodup _ (hp.nodup_iff.mpr h), hp.length_eq]

theorem foldl_max_le (as : List Nat) (a n : Nat) :
    as.foldl max a ≤ n ↔ a ≤ n ∧ ∀ x ∈ as, x ≤ n := by
  induction as generalizing a with
  | nil => simp
  | cons b as ih => simp [ih, and_assoc]

theorem customCheck_cases (o : List Nat) (n : Nat) :
    (¬ o.Nodup → customCheck o n = .throw .invalidArgument) ∧
    (o.Nodup → o.length ≠ n → customCheck o n = .throw .lengthError) ∧
    (o.Nodup → o.length = n → n = 0 → (customCheck o n).isUb = true) ∧
    (o.Nodup → o.length = n → 0 < n → (∃ x ∈ o, n ≤ x) →
      customCheck o n = .throw .invalidArgument) ∧
    (o.Nodup → o.length = n → 0 < n → (∀ x ∈ o, x < n) → customCheck o n = .ok ()) := by
  refine ⟨?_, ?_, ?_, ?_, ?_⟩
  · intro h
    unfold customCheck
    rw [← unique_length_iff] at h
    simp [h]
  · intro h hl
    rw [← unique_length_iff] at h
    unfold customCheck
    simp [h, Ne.symm hl]
  · intro h hl h0
    have : o = [] := List.length_eq_zero_iff.mp (by omega)
    subst this; subst h0
    simp [customCheck, stdUnique]
  · intro h hl h0 ⟨x, hx, hxn⟩
    rw [← unique_length_iff] at h
    unfold customCheck
    simp only [h, ne_eq, not_true_eq_false, if_false, hl]
    match o, hl, hx with
    | a :: as, hl, hx =>
      simp only
      rw [if_pos]
      by_contra hc
      rw [gt_iff_lt, not_lt, foldl_max_le] at hc
      rcases List.mem_cons.mp hx with h1 | h1
      · omega
      · have := hc.2 x h1; omega
  · intro h hl h0 hx
    rw [← unique_length_iff] at h
    unfold customCheck
    simp only [h, ne_eq, not_true_eq_false, if_false, hl]
    cases o with
    | nil => simp at hl; omega
    | cons a as =>
      simp only
      rw [if_neg]
      rw [gt_iff_lt, not_lt, foldl_max_le]
      refine ⟨?_, fun x h1 => ?_⟩
      · have := hx a (by simp); omega
      · have := hx x (by simp [h1]); omega

theorem customPick_spec (o : List Nat) (l : List α) (h : ∀ x ∈ o, x < l.length) :
    ∃ out, customPick o l = .ok out ∧ out.length = o.length ∧
      out.map some = o.map (fun i => l[i]?) := by
  induction o with
  | nil => exact ⟨[], rfl, rfl, rfl⟩
  | cons i is ih =>
    obtain ⟨r, h1, h2, h3⟩ := ih (fun x hx => h x (by simp [hx]))
    have hi : i < l.length := h i (by simp)
    refine ⟨l[i] :: r, ?_, by simp [h2], by simp [h3]⟩
    simp [customPick, List.getElem?_eq_getElem hi, h1]

/-- a permutation of `0..n-1`, as the check sees it -/
theorem perm_range_iff (o : List Nat) (n : Nat) :
    o.Perm (List.range n) ↔ o.Nodup ∧ o.length = n ∧ ∀ x ∈ o, x < n := by
  constructor
  · intro h
    refine ⟨h.nodup_iff.mpr List.nodup_range, by simp [h.length_eq], fun x hx => ?_⟩
    exact List.mem_range.mp (h.mem_iff.mp hx)
  · rintro ⟨h1, h2, h3⟩
    have hsub : o ⊆ List.range n := fun x hx => List.mem_range.mpr (h3 x hx)
    have : o.Subperm (List.range n) := List.subperm_of_subset h1 hsub
    exact this.perm_of_length_le (by simp [h2])

theorem customSort_of_perm (o : List Nat) (l : List α) (hl : 0 < l.length)
    (h : o.Perm (List.range l.length)) :
    ∃ out, customSort o l = .ok out ∧ out.map some = o.map (fun i => l[i]?) ∧ out.Perm l := by
  obtain ⟨h1, h2, h3⟩ := (perm_range_iff _ _).mp h
  obtain ⟨out, e1, e2, e3⟩ := customPick_spec o l h3
  refine ⟨out, ?_, e3, ?_⟩
  · unfold customSort
    rw [(customCheck_cases o l.length).2.2.2.2 h1 h2 hl h3]
    exact e1
  · have hm : (out.map some).Perm (l.map some) := by
      rw [e3]
      refine (h.map _).trans ?_
      have : (List.range l.length).map (fun i => l[i]?) = l.map some := by
        apply List.ext_getElem?
        intro i
        by_cases hi : i < l.length <;> simp [hi]
      rw [this]
    exact (List.map_perm_map_iff (Option.some_injective _)).mp hm

/-! ## All order classes -/

/-- The parameters with which an order class is applicable to `n` swaths. -/
def OrderKind.Valid (k : OrderKind) (n : Nat) : Prop :=
  match k with
  | .boustrophedon => True
  | .snake => n ≠ 1
  | .spiral s => 0 < s
  | .custom o => n = 0 ∨ o.Perm (List.range n)

theorem sortSwaths_perm (k : OrderKind) (l : List α) (hl : 0 < l.length) (hk : k.Valid l.length) :
    ∃ out, k.sortSwaths l = .ok out ∧ out.Perm l := by
  cases k with
  | boustrophedon => exact ⟨l, rfl, .refl _⟩
  | snake =>
    simp only [OrderKind.Valid] at hk
    refine ⟨_, snakeSort_spec l (by omega), ?_⟩
    exact ((List.reverse_perm _).append_left _).trans (evs_ods_perm l)
  | spiral s => exact spiralSort_perm s l hk
  | custom o =>
    rcases hk with h | h
    · omega
    · obtain ⟨out, h1, _, h3⟩ := customSort_of_perm o l hl h
      exact ⟨out, h1, h3⟩

/-- Boustrophedon, snake and spiral keep the first swath first and treat the others independently
of it. -/
theorem sortSwaths_head (k : OrderKind) (r : List α) (hk : k.Valid (r.length + 1))
    (hc : ∀ o, k ≠ .custom o) :
    ∃ r', r'.Perm r ∧ ∀ x, k.sortSwaths (x :: r) = .ok (x :: r') := by
  cases k with
  | boustrophedon => exact ⟨r, .refl _, fun x => rfl⟩
  | snake =>
    simp only [OrderKind.Valid] at hk
    refine ⟨ods r ++ (evs r).reverse, ?_, fun x => ?_⟩
    · exact ((List.reverse_perm _).append_left _).trans (List.perm_append_comm.trans (evs_ods_perm r))
    · rw [OrderKind.sortSwaths, snakeSort_spec _ (by simp; omega), evs_cons, ods_cons]; rfl
  | spiral s =>
    simp only [OrderKind.Valid] at hk
    have hs : s = (s - 1) + 1 := by omega
    refine ⟨alt (r.take (s - 1)) ++ blocksOrder s s (r.drop (s - 1)) ((r.length + 1) / s), ?_,
      fun x => ?_⟩
    · refine ((alt_perm _).append (blocksOrder_perm _ _ _ _)).trans ?_
      rw [List.take_append_drop]
    · rw [OrderKind.sortSwaths, spiralSort_spec s _ hk]
      simp only [blocksOrder, List.length_cons]
      rw [show List.take s (x :: r) = x :: r.take (s - 1) by
        conv_lhs => rw [hs]
        simp,
        show List.drop s (x :: r) = r.drop (s - 1) by
        conv_lhs => rw [hs]
        simp]
      simp [blockOrder]
  | custom o => exact absurd rfl (hc o)

end F2C
