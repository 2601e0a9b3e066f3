import Mathlib.Data.List.Basic
import Verif.Lemmas.Text

/-! # C59: GML coordinates are rewritten to WKT -/

namespace F2C.Props

open Text

/-- Words separated by `sep`. -/
def separated (sep : List Char) : List (List Char) → List Char
  | [] => []
  | [w] => w
  | w :: v :: l => w ++ sep ++ separated sep (v :: l)

/-- A word without separators. -/
def IsWord (w : List Char) : Prop := ',' ∉ w ∧ ';' ∉ w ∧ ' ' ∉ w

private theorem flatMap_separated (a : Char) (rep sep : List Char) (g : List Char → List Char)
    (l : List (List Char)) (hl : ∀ w ∈ l, (w.flatMap fun c => if c = a then rep else [c]) = g w) :
    ((separated sep l).flatMap fun c => if c = a then rep else [c]) =
      separated (sep.flatMap fun c => if c = a then rep else [c]) (l.map g) := by
  induction l with
  | nil => rfl
  | cons w l ih =>
    cases l with
    | nil => exact hl w List.mem_cons_self
    | cons v l =>
      rw [separated, List.flatMap_append, List.flatMap_append, hl w List.mem_cons_self,
        ih fun w hw => hl w (List.mem_cons_of_mem _ hw)]
      rfl

/-- C59: tuples of words (numbers), separated by blanks, the words of each separated by commas, become
tuples separated by commas, their words separated by blanks; words and order are kept. -/
theorem C59_gml_to_wkt (tuples : List (List (List Char))) (h : ∀ t ∈ tuples, ∀ w ∈ t, IsWord w) :
    gmlToWkt (separated [' '] (tuples.map (separated [',']))) =
      .ok ("POLYGON ((".toList ++ separated [',', ' '] (tuples.map (separated [' '])) ++ "))".toList) := by
  have hw : ∀ a rep sep' sep, (a = ',' ∨ a = ' ' ∨ a = ';') →
      ([sep'].flatMap fun c => if c = a then rep else [c]) = sep → ∀ t ∈ tuples,
      ((separated [sep'] t).flatMap fun c => if c = a then rep else [c]) = separated sep t := by
    intro a rep sep' sep ha hs t ht
    rw [flatMap_separated a rep [sep'] id t (fun w hw => ?_), hs, List.map_id]
    apply flatMap_word
    obtain ⟨h1, h2, h3⟩ := h t ht w hw
    rcases ha with rfl | rfl | rfl
    · exact h1
    · exact h3
    · exact h2
  have key : ∀ a rep sep1 sep2 in1 in2, (a = ',' ∨ a = ' ' ∨ a = ';') →
      ([in1].flatMap fun c => if c = a then rep else [c]) = [in2] →
      (sep1.flatMap fun c => if c = a then rep else [c]) = sep2 →
      ((separated sep1 (tuples.map (separated [in1]))).flatMap fun c => if c = a then rep else [c]) =
        separated sep2 (tuples.map (separated [in2])) := by
    intro a rep sep1 sep2 in1 in2 ha hin hs
    rw [flatMap_separated a rep sep1 (fun w => w.flatMap fun c => if c = a then rep else [c]) _
      (fun _ _ => rfl), hs, List.map_map]
    congr 1
    exact List.map_congr_left fun t ht => hw a rep in1 [in2] ha hin t ht
  unfold gmlToWkt
  rw [replaceAll_char, Outcome.ok_bind,
    key ',' [';'] [' '] [' '] ',' ';' (.inl rfl) (by decide) (by decide),
    replaceAll_char, Outcome.ok_bind,
    key ' ' [',', ' '] [' '] [',', ' '] ';' ';' (.inr (.inl rfl)) (by decide) (by decide),
    replaceAll_char, Outcome.ok_bind,
    key ';' [' '] [',', ' '] [',', ' '] ';' ' ' (.inr (.inr rfl)) (by decide) (by decide)]
  rfl

example : gmlToWkt "5.1,52.2 5.3,52.2 5.3,52.4".toList =
    .ok "POLYGON ((5.1 52.2, 5.3 52.2, 5.3 52.4))".toList :=
  C59_gml_to_wkt [["5.1".toList, "52.2".toList], ["5.3".toList, "52.2".toList], ["5.3".toList, "52.4".toList]]
    (by
      have : ∀ w ∈ ["5.1".toList, "52.2".toList, "5.3".toList, "52.4".toList], IsWord w := by
        unfold IsWord
        decide
      intro t ht w hw
      apply this
      simp only [List.mem_cons, List.not_mem_nil, or_false] at ht
      rcases ht with rfl | rfl | rfl <;> simp only [List.mem_cons, List.not_mem_nil, or_false] at hw ⊢ <;>
        tauto)

/-- GML 3 writes coordinates as `x y x y`: without commas the pairs are lost. -/
theorem C59_blank_separated : gmlToWkt "5.1 52.2 5.3 52.4".toList =
    .ok "POLYGON ((5.1, 52.2, 5.3, 52.4))".toList := by decide +kernel

end F2C.Props
