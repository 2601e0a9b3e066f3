import Verif.Props.JsonSpec
import Verif.Lemmas.FieldObj

/-! # Lemmas about GeoJSON documents -/

namespace F2C

open Text Props.JsonSpec

variable {K : Type} [Field K] [LinearOrder K]

theorem mapOutcome_forall {α β : Type} {f : α → Outcome β} {R : α → β → Prop}
    (h : ∀ a b, R a b → f a = .ok b) : ∀ {l : List α} {m : List β}, List.Forall₂ R l m →
      mapOutcome f l = .ok m
  | _, _, .nil => rfl
  | _, _, .cons h1 h2 => by
    rw [mapOutcome, h _ _ h1, Outcome.ok_bind, mapOutcome_forall h h2]; rfl

namespace Json

theorem at_has {j v : Json K} {key : String} (h : Has j key v) : j.at' key.toList = .ok v := by
  obtain ⟨l, rfl, hl⟩ := h
  simp only [at', hl]

theorem sub_has {j v : Json K} {key : String} (h : Has j key v) : j.sub key.toList = .ok v := by
  obtain ⟨l, rfl, hl⟩ := h
  simp only [sub, hl, Option.getD_some]

theorem toDouble_number {j : Json K} {x : K} (h : IsNumber j x) : j.toDouble = .ok x := by
  rcases h with ⟨n, rfl, rfl⟩ | rfl <;> rfl

theorem point_position {j : Json K} {p : Point K} (h : IsPosition j p) : j.point = .ok p := by
  rcases h with ⟨a, b, rfl, ha, hb, hz⟩ | ⟨a, b, c, rfl, ha, hb, hc⟩
  · simp only [point, size, iter, List.length_cons, List.length_nil, elem, List.getElem?_cons_zero,
      List.getElem?_cons_succ, Outcome.ok_bind, toDouble_number ha, toDouble_number hb]
    norm_num
    obtain ⟨x, y, z⟩ := p
    simp only at hz
    rw [hz]
  · simp only [point, size, iter, List.length_cons, List.length_nil, elem, List.getElem?_cons_zero,
      List.getElem?_cons_succ, Outcome.ok_bind, toDouble_number ha, toDouble_number hb,
      toDouble_number hc]
    norm_num

theorem points_line {j : Json K} {ps : List (Point K)} (h : IsLine j ps) : j.points = .ok ps := by
  obtain ⟨l, rfl, hl⟩ := h
  exact mapOutcome_forall (R := IsPosition) (fun a b (h : IsPosition a b) => point_position h) hl

theorem rings_eq (l : List (Json K)) : ∀ {m : List (Json K)} {c : Cell K}, List.Forall₂ IsLine m c →
    ∀ (pre : List (Json K)) (acc : Cell K), l = pre ++ m →
      rings (.arr l) m.length pre.length acc = .ok (acc ++ c.map closeRing)
  | _, _, .nil, pre, acc, _ => by simp [rings]
  | j :: m, r :: c, .cons h1 h2, pre, acc, e => by
    have hj : l[pre.length]? = some j := by rw [e]; simp
    have ih := rings_eq l h2 (pre ++ [j]) (acc ++ [closeRing r]) (by rw [e]; simp)
    rw [List.length_append] at ih
    simp only [List.length_cons, rings, subElem, hj, Option.getD_some, Outcome.ok_bind, points_line h1,
      ContainerOps.add, cellOps]
    rw [List.length_singleton] at ih
    rw [ih]
    simp

theorem cell_feature {j : Json K} {c : Cell K} (h : PolygonFeature j c) :
    j.cell = .ok (c.map closeRing) := by
  obtain ⟨g, k, hg, hk, l, rfl, hl⟩ := h
  rw [cell, at_has hg, Outcome.ok_bind, at_has hk, Outcome.ok_bind]
  simpa [size, iter] using rings_eq l hl [] [] rfl

end Json
end F2C
