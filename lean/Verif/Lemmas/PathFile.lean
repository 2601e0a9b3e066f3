import Mathlib.Tactic.NormNum
import Mathlib.Tactic.Linarith
import Verif.Props.PathFileSpec

/-! # Lemmas about path files -/

namespace F2C

open PathFile Props.PathFileSpec

theorem words_append (w : List Char) (hw : ∀ c ∈ w, c ≠ ' ' ∧ c ≠ '\n') (cur rest : List Char) :
    words cur (w ++ rest) = words (w.reverse ++ cur) rest := by
  induction w generalizing cur with
  | nil => rfl
  | cons c w ih =>
    have hc := hw c (by simp)
    rw [List.cons_append, words, if_neg (by rintro (h | h); exacts [hc.1 h, hc.2 h]),
      ih (fun d hd => hw d (List.mem_cons_of_mem _ hd))]
    simp

theorem words_word (w : List Char) (h0 : w ≠ []) (hw : ∀ c ∈ w, c ≠ ' ' ∧ c ≠ '\n') (c : Char)
    (hc : c = ' ' ∨ c = '\n') (rest : List Char) :
    words [] (w ++ c :: rest) = w :: words [] rest := by
  rw [words_append w hw, words, if_pos hc, List.append_nil, if_neg (by simpa using h0)]
  simp

theorem words_line : ∀ (ws : List (List Char)), ws ≠ [] →
    (∀ w ∈ ws, w ≠ [] ∧ ∀ c ∈ w, c ≠ ' ' ∧ c ≠ '\n') → ∀ rest : List Char,
    words [] (line ws ++ rest) = ws ++ words [] rest
  | [], h, _, _ => absurd rfl h
  | [w], _, h, rest => by
    obtain ⟨h1, h2⟩ := h w (by simp)
    rw [line, List.append_assoc, List.singleton_append, words_word w h1 h2 _ (Or.inr rfl)]
    rfl
  | w :: w2 :: ws, _, h, rest => by
    obtain ⟨h1, h2⟩ := h w (by simp)
    rw [line, List.append_assoc, List.cons_append, words_word w h1 h2 _ (Or.inl rfl),
      words_line (w2 :: ws) (by simp) (fun v hv => h v (List.mem_cons_of_mem _ hv))]
    · rfl
    · simp

theorem words_serialize {io : NumIO} (hio : Sound io) (prec : Nat) (p : Path) :
    words [] (serialize io prec p) = p.flatMap (stateWords io prec) := by
  unfold serialize
  induction p with
  | nil => rfl
  | cons s p ih =>
    rw [List.flatMap_cons, List.flatMap_cons, words_line _ (by simp [stateWords]), ih]
    intro w hw
    simp only [stateWords, List.mem_cons, List.not_mem_nil, or_false] at hw
    rcases hw with rfl | rfl | rfl | rfl | rfl | rfl | rfl | rfl <;>
      exact ⟨hio.nonempty _ _, hio.word _ _⟩

theorem toDir_dirNum (d : PathDir) : toDir (dirNum d) = .ok d := by
  cases d <;> norm_num [toDir, dirNum]

theorem toType_typeNum (t : SectionType) : toType (typeNum t) = .ok t := by
  cases t <;> norm_num [toType, typeNum]

theorem toDir_trunc {v : ℝ} {d : PathDir} (h : IsTrunc v (dirNum d)) : toDir v = .ok d := by
  unfold IsTrunc at h
  unfold toDir
  cases d <;> simp only [dirNum] at h <;> norm_num at h
  · rw [if_pos h]
  · rw [if_neg (fun g => absurd g.1 (by linarith [h.2])), if_pos h]

theorem toType_trunc {v : ℝ} {t : SectionType} (h : IsTrunc v (typeNum t)) : toType v = .ok t := by
  unfold IsTrunc at h
  unfold toType
  cases t <;> simp only [typeNum] at h <;> norm_num at h
  · rw [if_pos h]
  · rw [if_neg (fun g => absurd g.2 (by linarith [h.1])), if_pos h]
  · rw [if_neg (fun g => absurd g.2 (by linarith [h.1])), if_neg (fun g => absurd g.2 (by linarith [h.1])), if_pos h]

theorem toDir_ub {v : ℝ} (h : ∀ d, ¬ IsTrunc v (dirNum d)) : ∃ w, toDir v = .ub w := by
  have h1 := h .forward
  have h2 := h .backward
  unfold IsTrunc at h1 h2
  simp only [dirNum] at h1 h2
  norm_num at h1 h2
  unfold toDir
  rw [if_neg (fun g => absurd g.2 (not_lt.2 (h1 g.1))), if_neg (fun g => absurd g.2 (not_le.2 (h2 g.1)))]
  exact ⟨_, rfl⟩

theorem toType_ub {v : ℝ} (h : ∀ t, ¬ IsTrunc v (typeNum t)) : ∃ w, toType v = .ub w := by
  have h1 := h .swath
  have h2 := h .turn
  have h3 := h .hlSwath
  unfold IsTrunc at h1 h2 h3
  simp only [typeNum] at h1 h2 h3
  norm_num at h1 h2 h3
  unfold toType
  rw [if_neg (fun g => absurd g.2 (not_lt.2 (h1 g.1))), if_neg (fun g => absurd g.2 (not_lt.2 (h2 g.1))),
    if_neg (fun g => absurd g.2 (not_lt.2 (h3 g.1)))]
  exact ⟨_, rfl⟩

theorem parse_dir {io : NumIO} (hio : Sound io) (d : PathDir) :
    io.parse (io.print 6 (dirNum d)) = some (dirNum d) := by
  cases d with
  | forward => have := hio.exact 1 (by norm_num); simpa [dirNum] using this
  | backward => have := hio.exact (-1) (by norm_num); simpa [dirNum] using this

theorem parse_type {io : NumIO} (hio : Sound io) (t : SectionType) :
    io.parse (io.print 6 (typeNum t)) = some (typeNum t) := by
  cases t with
  | swath => have := hio.exact 1 (by norm_num); simpa [typeNum] using this
  | turn => have := hio.exact 2 (by norm_num); simpa [typeNum] using this
  | hlSwath => have := hio.exact 3 (by norm_num); simpa [typeNum] using this

theorem readStates_spec {io : NumIO} (hio : Sound io) (prec : Nat) (p : Path) :
    ∃ q, readStates io (p.flatMap (stateWords io prec)) = .ok q ∧
      List.Forall₂ (NearState prec) p q ∧
      List.Forall₂ (fun s t => io.parse (io.print prec s.point.y) = some t.point.y) p q := by
  induction p with
  | nil => exact ⟨[], rfl, .nil, .nil⟩
  | cons s p ih =>
    obtain ⟨q, hq1, hq2, hq3⟩ := ih
    obtain ⟨x, hx1, hx2, -⟩ := hio.near prec s.point.x
    obtain ⟨y, hy1, hy2, -⟩ := hio.near prec s.point.y
    obtain ⟨z, hz1, hz2, -⟩ := hio.near prec s.point.z
    obtain ⟨a, ha1, ha2, -⟩ := hio.near prec s.angle
    obtain ⟨v, hv1, hv2, -⟩ := hio.near prec s.velocity
    obtain ⟨l, hl1, hl2, -⟩ := hio.near prec s.len
    refine ⟨⟨⟨x, y, z⟩, a, l, s.dir, s.type, v⟩ :: q, ?_,
      .cons ⟨hx2, hy2, hz2, ha2, hv2, hl2, rfl, rfl⟩ hq2, .cons hy1 hq3⟩
    rw [List.flatMap_cons]
    simp only [stateWords, List.cons_append, List.nil_append, readStates, hx1, hy1, hz1, ha1, hv1,
      hl1, parse_dir hio, parse_type hio, toDir_dirNum, toType_typeNum, Outcome.ok_bind]
    rw [hq1]
    rfl

end F2C
