import Verif.Lemmas.DoubleConvex
import Verif.Props.Geometry

/-! # C146: convexity in double precision -/

namespace F2C.Props

open Dbl TurningSpec Geo

variable {fl : ℝ → ℝ} {atan2 : ℝ → ℝ → ℝ}

namespace DoubleConvexSpec

/-- The path turns at every inner point by at least about 2^-40 rad, and does not go back up to as much. -/
def ClearTurns : List RPoint → Prop
  | a :: b :: c :: l => (cross a b c ≠ 0 ∧ pdist a b * pdist b c / 2 ^ 40 ≤ |cross a b c|) ∧ ClearTurns (b :: c :: l)
  | _ => True

end DoubleConvexSpec

open DoubleConvexSpec

/-- **C146**, one corner: the side to which a path turns is found in double precision if the corner is not nearly straight. -/
theorem C146_side (h : IsRounding fl) (ha : IsAtan2 atan2) {M : ℝ} (a b c : RPoint) (pa : DoublePoint M a) (pb : DoublePoint M b)
    (pc : DoublePoint M c) (h0 : cross a b c ≠ 0) (hc : pdist a b * pdist b c / 2 ^ 40 ≤ |cross a b c|) :
    Dbl.turnAngle fl atan2 a b c < Dbl.pi ↔ 0 < cross a b c :=
  turnAngle_side h ha pa pb pc h0 hc

private theorem bent : ∀ {l : List RPoint}, ClearTurns l → Bent l
  | a :: b :: c :: l, h => ⟨h.1.1, bent (l := b :: c :: l) h.2⟩
  | [], _ => trivial
  | [_], _ => trivial
  | [_, _], _ => trivial

private theorem same (h : IsRounding fl) (ha : IsAtan2 atan2) {M : ℝ} (inv : Bool) : ∀ (l : List RPoint), (∀ p ∈ l, DoublePoint M p) →
    ClearTurns l → Dbl.sameTurns fl atan2 inv l = F2C.sameTurns inv l
  | a :: b :: c :: l, hp, hc => by
    have s := turnAngle_side h ha (hp a (by simp)) (hp b (by simp)) (hp c (by simp)) hc.1.1 hc.1.2
    have s' := turnAngle_iff hc.1.1
    have e : decide (Dbl.turnAngle fl atan2 a b c < Dbl.pi) = decide (F2C.turnAngle a b c < Real.pi) :=
      decide_eq_decide.2 (s.trans s'.symm)
    rw [Dbl.sameTurns, F2C.sameTurns, e, same h ha inv (b :: c :: l) (fun p m => hp p (by simp at m ⊢; tauto)) hc.2]
  | [], _, _ => rfl
  | [_], _, _ => rfl
  | [_, _], _, _ => rfl

/-- **C146**, cells: for a border of doubles without nearly straight corners, whose area is found positive, `isConvex` gives in double
precision what it gives in exact arithmetic: whether the border turns to the same side at all corners except the one it starts
with.  Missing: that corner, as in C50, and corners that are nearly straight. -/
theorem C146_convex_partial (h : IsRounding fl) (ha : IsAtan2 atan2) {M : ℝ} (cs : List RPoint) (hn : 3 ≤ cs.length)
    (hp : ∀ p ∈ cs, DoublePoint M p) (hc : ClearTurns (cs ++ cs.take 1)) (area : ℝ) (h1 : 0 < area)
    (h2 : shoelace (cs ++ cs.take 1) ≠ 0) :
    Dbl.isConvex fl atan2 area [cs ++ cs.take 1] = Cell.isConvex [cs ++ cs.take 1] ∧
    ∃ r, Dbl.isConvex fl atan2 area [cs ++ cs.take 1] = .ok r ∧ (r = true ↔ ∃ s, Turning s (cs ++ cs.take 1)) := by
  have hp' : ∀ p ∈ cs ++ cs.take 1, DoublePoint M p := fun p m => by
    rcases List.mem_append.1 m with m | m
    · exact hp p m
    · exact hp p (List.mem_of_mem_take m)
  have key : Dbl.isConvex fl atan2 area [cs ++ cs.take 1] = Cell.isConvex [cs ++ cs.take 1] := by
    have hl : 3 ≤ (cs ++ cs.take 1).length := by simp; omega
    generalize cs ++ cs.take 1 = border at *
    match border, hl with
    | p0 :: p1 :: p2 :: l, _ =>
      have a1 : ¬ (([] : List (Ring ℝ)) ≠ [] ∨ area ≤ 0) := by simpa using h1
      have a2 : ¬ (([] : List (Ring ℝ)) ≠ [] ∨ |shoelace (p0 :: p1 :: p2 :: l)| / 2 ≤ 0) := by
        have := abs_pos.2 h2
        simp only [ne_eq, not_true_eq_false, false_or, not_le]
        linarith
      have s := turnAngle_side h ha (hp' p0 (by simp)) (hp' p1 (by simp)) (hp' p2 (by simp)) hc.1.1 hc.1.2
      have s' := turnAngle_iff hc.1.1
      have e : decide (Dbl.pi > Dbl.turnAngle fl atan2 p0 p1 p2) = decide (Real.pi > F2C.turnAngle p0 p1 p2) :=
        decide_eq_decide.2 (s.trans s'.symm)
      unfold Dbl.isConvex Cell.isConvex
      simp only [if_neg a1, if_neg a2]
      rw [e, same h ha _ (p1 :: p2 :: l) (fun p m => hp' p (by simp at m ⊢; tauto)) hc.2]
  refine ⟨key, ?_⟩
  rw [key]
  exact C50_iff_partial cs hn h2 (bent hc)

/-- **C146**, convex cells: a convex border of doubles without nearly straight corners, whose area is found positive, is found
convex in double precision, whatever corner it starts with. -/
theorem C146_accepts (h : IsRounding fl) (ha : IsAtan2 atan2) {M : ℝ} (cs : List RPoint) (hn : 3 ≤ cs.length)
    (hp : ∀ p ∈ cs, DoublePoint M p) (hc : ClearTurns (cs ++ cs.take 1)) (hx : ConvexCorners cs) (area : ℝ) (h1 : 0 < area)
    (h2 : shoelace (cs ++ cs.take 1) ≠ 0) : Dbl.isConvex fl atan2 area [cs ++ cs.take 1] = .ok true := by
  rw [(C146_convex_partial h ha cs hn hp hc area h1 h2).1]
  exact C50_convex cs hn hx h2

/-- **C146**, refused cells: a cell with holes, one whose area is found not to be positive, one without points and one whose border
has a single point are found not to be convex; a border of two points whose area is found positive throws. -/
theorem C146_refused (area : ℝ) (border : Ring ℝ) (holes : List (Ring ℝ)) :
    Dbl.isConvex fl atan2 area [] = .ok false ∧
    (holes ≠ [] → Dbl.isConvex fl atan2 area (border :: holes) = .ok false) ∧
    (area ≤ 0 → Dbl.isConvex fl atan2 area (border :: holes) = .ok false) ∧
    (border.length ≤ 1 → Dbl.isConvex fl atan2 area (border :: holes) = .ok false) ∧
    (holes = [] → 0 < area → border.length = 2 → Dbl.isConvex fl atan2 area (border :: holes) = .throw .outOfRange) := by
  refine ⟨rfl, fun h => ?_, fun h => ?_, fun h => ?_, fun h1 h2 h3 => ?_⟩
  · simp [Dbl.isConvex, h]
  · simp [Dbl.isConvex, h]
  · have : border.length < 2 := by omega
    simp [Dbl.isConvex, this]
  · match border, h3 with
    | [a, b], _ => simp [Dbl.isConvex, h1, not_le.2 h2]

/-! ## examples -/

private theorem exact_atan2' : IsAtan2 F2C.atan2 := by
  constructor
  · intro y x
    have := Complex.abs_arg_le_pi ⟨x, y⟩
    have := Real.pi_le_four
    unfold F2C.atan2
    linarith
  · intro y x _ _
    refine ⟨0, ?_⟩
    simp [F2C.atan2, u53_pos.le]

private theorem field_point {x y : ℤ} (hx : |x| ≤ 2 ^ 23) (hy : |y| ≤ 2 ^ 23) : DoublePoint (2 ^ 23) ⟨x, y, 0⟩ := by
  have bd : ∀ {x : ℤ}, |x| ≤ 2 ^ 23 → IsDouble x := by
    intro x hx
    refine ⟨x, 0, ?_, by norm_num, by norm_num⟩
    norm_num at *
    omega
  have hx' : |(x : ℝ)| ≤ 2 ^ 23 := by exact_mod_cast hx
  have hy' : |(y : ℝ)| ≤ 2 ^ 23 := by exact_mod_cast hy
  exact ⟨bd hx, bd hy, hx', hy'⟩

/-- a field of 300 m by 400 m in UTM coordinates -/
private noncomputable def field : List RPoint :=
  [⟨500000, 4000000, 0⟩, ⟨500300, 4000000, 0⟩, ⟨500300, 4000400, 0⟩, ⟨500000, 4000400, 0⟩]

/-- the half of it below the diagonal with the diagonal bent inwards: not convex -/
private noncomputable def notched : List RPoint :=
  [⟨500300, 4000000, 0⟩, ⟨500050, 4000050, 0⟩, ⟨500000, 4000400, 0⟩, ⟨500000, 4000000, 0⟩]

private theorem field_doubles : ∀ p ∈ field, DoublePoint (2 ^ 23) p := by
  intro p m
  simp only [field, List.mem_cons, List.not_mem_nil, or_false] at m
  rcases m with rfl | rfl | rfl | rfl
  · exact_mod_cast field_point (x := 500000) (y := 4000000) (by norm_num) (by norm_num)
  · exact_mod_cast field_point (x := 500300) (y := 4000000) (by norm_num) (by norm_num)
  · exact_mod_cast field_point (x := 500300) (y := 4000400) (by norm_num) (by norm_num)
  · exact_mod_cast field_point (x := 500000) (y := 4000400) (by norm_num) (by norm_num)

private theorem notched_doubles : ∀ p ∈ notched, DoublePoint (2 ^ 23) p := by
  intro p m
  simp only [notched, List.mem_cons, List.not_mem_nil, or_false] at m
  rcases m with rfl | rfl | rfl | rfl
  · exact_mod_cast field_point (x := 500300) (y := 4000000) (by norm_num) (by norm_num)
  · exact_mod_cast field_point (x := 500050) (y := 4000050) (by norm_num) (by norm_num)
  · exact_mod_cast field_point (x := 500000) (y := 4000400) (by norm_num) (by norm_num)
  · exact_mod_cast field_point (x := 500000) (y := 4000000) (by norm_num) (by norm_num)

private theorem near {a b : RPoint} (h : (a.x - b.x) ^ 2 + (a.y - b.y) ^ 2 ≤ 2 ^ 20) : pdist a b ≤ 2 ^ 10 := by
  unfold pdist
  rw [Real.sqrt_le_left (by norm_num)]
  refine le_trans (le_of_eq ?_) (h.trans (by norm_num))
  ring

private theorem clear {a b c : RPoint} (h1 : (a.x - b.x) ^ 2 + (a.y - b.y) ^ 2 ≤ 2 ^ 20)
    (h2 : (b.x - c.x) ^ 2 + (b.y - c.y) ^ 2 ≤ 2 ^ 20) (h3 : 1 ≤ |cross a b c|) :
    cross a b c ≠ 0 ∧ pdist a b * pdist b c / 2 ^ 40 ≤ |cross a b c| := by
  refine ⟨fun e => by rw [e] at h3; norm_num at h3, le_trans ?_ h3⟩
  have := mul_le_mul (near h1) (near h2) (Real.sqrt_nonneg _) (by norm_num)
  rw [div_le_one (by norm_num)]
  exact this.trans (by norm_num)

private theorem field_clear : ClearTurns (field ++ field.take 1) := by
  refine ⟨clear ?_ ?_ ?_, clear ?_ ?_ ?_, clear ?_ ?_ ?_, trivial⟩ <;> norm_num [cross]

private theorem notched_clear : ClearTurns (notched ++ notched.take 1) := by
  refine ⟨clear ?_ ?_ ?_, clear ?_ ?_ ?_, clear ?_ ?_ ?_, trivial⟩ <;> norm_num [cross]

example : Dbl.turnAngle toNearest F2C.atan2 ⟨500000, 4000000, 0⟩ ⟨500300, 4000000, 0⟩ ⟨500300, 4000400, 0⟩ < Dbl.pi :=
  (C146_side toNearest_isRounding exact_atan2' _ _ _ (field_doubles _ (by simp [field])) (field_doubles _ (by simp [field]))
    (field_doubles _ (by simp [field])) field_clear.1.1 field_clear.1.2).2 (by norm_num [cross])

example : Dbl.isConvex toNearest F2C.atan2 120000 [field ++ field.take 1] = .ok true :=
  C146_accepts toNearest_isRounding exact_atan2' field (by simp [field]) field_doubles field_clear
    ⟨1, by norm_num [field, Turning, cross]⟩ 120000 (by norm_num) (by norm_num [field, shoelace])

/-- the field with a hole -/
example : Dbl.isConvex toNearest F2C.atan2 110000 [field ++ field.take 1, notched] = .ok false :=
  (C146_refused _ _ _).2.1 (by simp)

/-- the notched field is found not to be convex -/
example : Dbl.isConvex toNearest F2C.atan2 17500 [notched ++ notched.take 1] = .ok false := by
  obtain ⟨-, r, e, i⟩ := C146_convex_partial toNearest_isRounding exact_atan2' notched (by simp [notched]) notched_doubles notched_clear
    17500 (by norm_num) (by norm_num [notched, shoelace])
  rw [e]
  cases r with
  | false => rfl
  | true =>
    obtain ⟨s, hs⟩ := i.1 rfl
    exfalso
    have h1 := hs.1
    have h2 := hs.2.1
    norm_num [cross] at h1 h2
    linarith

end F2C.Props
