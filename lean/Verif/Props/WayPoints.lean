import Verif.Props.PathPlanning

/-!
# C40: which way points a long connection gets
-/

namespace F2C.Props

open Real Turning PP TurningSpec PathPlanningSpec RouteSpec

/-- C40: ends that are near each other, and connections of fewer than two points, get no way points: there is
one turn from pose to pose. -/
theorem C40_close (safe : ℝ) (p1 : RPoint) (a1 : ℝ) (mp : List RPoint) (p2 : RPoint) (a2 : ℝ)
    (h : pdist p1 p2 < 6 * safe ∨ mp.length < 2) : simplify safe p1 a1 mp p2 a2 = [(p1, a1), (p2, a2)] := by
  unfold simplify
  rw [if_pos h]

/-- The points of the connection where it bends, in order. -/
noncomputable def bends (mp : List RPoint) : List RPoint :=
  open Classical in (List.range mp.length).filterMap fun k => if Bent mp k then mp[k + 1]? else none

theorem bends_cons (a : RPoint) (l : List RPoint) :
    bends (a :: l) = (open Classical in if Bent (a :: l) 0 then l[0]?.toList else []) ++ bends l := by
  unfold bends
  rw [List.length_cons, List.range_succ_eq_map, List.filterMap_cons, List.filterMap_map]
  have e : (List.range l.length).filterMap ((fun k => open Classical in if Bent (a :: l) k then (a :: l)[k + 1]? else none) ∘ Nat.succ)
      = (List.range l.length).filterMap fun k => open Classical in if Bent l k then l[k + 1]? else none := by
    apply List.filterMap_congr
    intro k _
    simp only [Function.comp_apply, Nat.succ_eq_add_one, List.getElem?_cons_succ]
    by_cases hk : Bent l k
    · rw [if_pos hk, if_pos ((bent_shift a l k).2 hk)]
    · rw [if_neg hk, if_neg fun h => hk ((bent_shift a l k).1 h)]
  rw [e]
  split <;> rename_i h
  · split at h
    · simp only [List.getElem?_cons_succ] at h
      rw [if_pos (by assumption), h]
      rfl
    · rw [if_neg (by assumption)]
      rfl
  · split at h
    · simp only [List.getElem?_cons_succ] at h
      rw [if_pos (by assumption), h]
      rfl
    · cases h

theorem corners_eq_bends (mp : List RPoint) : corners mp = bends mp := by
  induction mp with
  | nil => simp [corners, bends]
  | cons a l ih =>
    rw [bends_cons, ← ih]
    match l with
    | [] =>
      have : ¬ Bent [a] 0 := by rintro ⟨x, y, z, -, h, -⟩; simp at h
      rw [if_neg this]
      simp [corners]
    | [b] =>
      have : ¬ Bent [a, b] 0 := by rintro ⟨x, y, z, -, -, h, -⟩; simp at h
      rw [if_neg this]
      simp [corners]
    | b :: c :: l =>
      rw [corners]
      by_cases hb : |angleFromPoint (b.sub a) - angleFromPoint (c.sub b)| > 1 / 10
      · rw [if_pos hb, if_pos ⟨a, b, c, rfl, rfl, rfl, hb⟩]
        rfl
      · rw [if_neg hb, if_neg]
        · rfl
        · rintro ⟨x, y, z, hx, hy, hz, h⟩
          simp at hx hy hz
          subst hx; subst hy; subst hz
          exact hb (by linarith)

/-- The pose `w` is before the bend `b`, coming from the bend `a`: on the way between them, heading along it, at
most half of it and at most `safe` before `b`. -/
def Before (safe : ℝ) (a b : RPoint) (w : Pose) : Prop :=
  OnSegment a b w.1 ∧ pdist w.1 b = min (pdist a b / 2) safe ∧ w.2 = angleFromPoint (b.sub a)

theorem pullBack_before {safe : ℝ} (hs : 0 ≤ safe) {a b : RPoint} (hd : pdist b a ≠ 0) :
    Before safe a b (pullBack safe a b, angleFromPoint (b.sub a)) := by
  refine ⟨onSegment_symm (pullBack_segment hs a b hd), ?_, rfl⟩
  have h0 : 0 < pdist b a := lt_of_le_of_ne (pdist_nonneg b a) (Ne.symm hd)
  set t := min (5 / 10 * pdist b a) safe / pdist b a with ht
  have ht0 : 0 ≤ t := div_nonneg (le_min (by linarith) hs) h0.le
  have e : pdist (pullBack safe a b) b = t * pdist b a := by
    unfold pullBack
    rw [← ht]
    unfold pdist
    simp only [Point.add, Point.smul, Point.sub]
    rw [show (a.x - b.x) * t + b.x - b.x = t * (a.x - b.x) by ring,
      show (a.y - b.y) * t + b.y - b.y = t * (a.y - b.y) by ring,
      show (t * (a.x - b.x)) ^ 2 + (t * (a.y - b.y)) ^ 2 = t ^ 2 * ((b.x - a.x) ^ 2 + (b.y - a.y) ^ 2) by ring,
      Real.sqrt_mul (sq_nonneg t), Real.sqrt_sq ht0]
  show pdist (pullBack safe a b) b = _
  rw [e, ht, div_mul_cancel₀ _ hd, pdist_comm a b]
  congr 1
  ring

/-- The pose after a bend is never used: it is at most `2 * safe` from the pose before the bend, and more than
`3 * safe` are asked for. -/
theorem cornerStep_before {safe : ℝ} (hs : 0 ≤ safe) (p1 p2 : RPoint) (path : List Pose) (a b c : RPoint) :
    cornerStep safe p1 p2 path a b c = path ∨
    ∃ w, cornerStep safe p1 p2 path a b c = path ++ [w] ∧ Before safe a b w ∧
      3 * safe < pdist w.1 (path.getLastD (p1, 0)).1 ∧ 3 * safe < pdist w.1 p1 ∧ 3 * safe < pdist w.1 p2 := by
  unfold cornerStep
  by_cases h : pdist b a = 0 ∨ pdist b c = 0
  · rw [if_pos h]
    exact .inl rfl
  · rw [if_neg h]
    push Not at h
    have w1 := pullBack_before hs h.1
    have w2 := pullBack_before hs h.2
    have hno : ¬ (pdist (pullBack safe c b) (pullBack safe a b) > 3 * safe) := by
      have d1 : pdist (pullBack safe a b) b ≤ safe := by rw [w1.2.1]; exact min_le_right _ _
      have d2 : pdist (pullBack safe c b) b ≤ safe := by rw [w2.2.1]; exact min_le_right _ _
      have := pdist_triangle (pullBack safe c b) b (pullBack safe a b)
      rw [pdist_comm b (pullBack safe a b)] at this
      linarith
    simp only
    rw [if_neg (c := _ ∧ _ ∧ _ ∧ _) (fun hh => hno hh.2.2.2)]
    split
    · rename_i hc
      exact .inr ⟨_, rfl, w1, hc.1, hc.2.1, hc.2.2⟩
    · exact .inl rfl

theorem cornerLoop_before {safe : ℝ} (hs : 0 ≤ safe) (p1 p2 : RPoint) (l : List RPoint) :
    ∀ path : List Pose, ∃ q, cornerLoop safe p1 p2 path l = path ++ q ∧
      ∀ w ∈ q, (∃ a b, Next l a b ∧ Before safe a b w) ∧ 3 * safe < pdist w.1 p1 ∧ 3 * safe < pdist w.1 p2 := by
  induction l with
  | nil => intro path; exact ⟨[], by simp [cornerLoop], by simp⟩
  | cons a l ih =>
    intro path
    match l, ih with
    | [], _ => exact ⟨[], by simp [cornerLoop], by simp⟩
    | [b], _ => exact ⟨[], by simp [cornerLoop], by simp⟩
    | b :: c :: l, ih =>
      unfold cornerLoop
      obtain ⟨q2, e2, h2⟩ := ih (cornerStep safe p1 p2 path a b c)
      have lift : ∀ w ∈ q2, (∃ x y, Next (a :: b :: c :: l) x y ∧ Before safe x y w) ∧
          3 * safe < pdist w.1 p1 ∧ 3 * safe < pdist w.1 p2 := by
        intro w hw
        obtain ⟨⟨x, y, ⟨i, hx, hy⟩, h⟩, h3⟩ := h2 w hw
        exact ⟨⟨x, y, ⟨i + 1, hx, hy⟩, h⟩, h3⟩
      rcases cornerStep_before hs p1 p2 path a b c with e | ⟨v, e, hv, -, hv1, hv2⟩
      · exact ⟨q2, by rw [e2, e], lift⟩
      · refine ⟨v :: q2, by rw [e2, e]; simp, fun w hw => ?_⟩
        rcases List.mem_cons.1 hw with rfl | hw
        · exact ⟨⟨a, b, ⟨0, rfl, rfl⟩, hv⟩, hv1, hv2⟩
        · exact lift w hw

/-- C40, what the way points are: each one is before a bend, on the way from the bend before, heading along it,
at most half of it and exactly the smooth turning radius `safe` (if that is less) before the bend, and more than
three times `safe` from both ends. -/
theorem C40_way_points (safe : ℝ) (hs : 0 ≤ safe) (p1 : RPoint) (a1 : ℝ) (mp : List RPoint) (p2 : RPoint)
    (a2 : ℝ) : ∃ mid : List Pose, simplify safe p1 a1 mp p2 a2 = (p1, a1) :: (mid ++ [(p2, a2)]) ∧
      ∀ w ∈ mid, (∃ (i : Nat) (a b : RPoint), (bends mp)[i]? = some a ∧ (bends mp)[i + 1]? = some b ∧
        Before safe a b w) ∧ 3 * safe < pdist w.1 p1 ∧ 3 * safe < pdist w.1 p2 := by
  unfold simplify
  split
  · exact ⟨[], by simp, by simp⟩
  · split
    · exact ⟨[], by simp, by simp⟩
    · obtain ⟨q, e, h⟩ := cornerLoop_before hs p1 p2 (corners mp) [(p1, a1)]
      refine ⟨q, by rw [e]; simp, fun w hw => ?_⟩
      obtain ⟨⟨a, b, ⟨i, ha, hb⟩, hB⟩, h3⟩ := h w hw
      rw [corners_eq_bends] at ha hb
      exact ⟨⟨i, a, b, ha, hb, hB⟩, h3⟩

/-- One way point before each bend, except for the first and the last one. -/
inductive OneEach (safe : ℝ) : List RPoint → List Pose → Prop
  | done {l : List RPoint} : l.length ≤ 2 → OneEach safe l []
  | next {a b c : RPoint} {l : List RPoint} {w : Pose} {ws : List Pose} : Before safe a b w →
      OneEach safe (b :: c :: l) ws → OneEach safe (a :: b :: c :: l) (w :: ws)

theorem getLastD_append_one (l : List Pose) (w d : Pose) : (l ++ [w]).getLastD d = w := by
  rw [List.getLastD_eq_getLast?, List.getLast?_append]
  simp

theorem cornerLoop_all {safe : ℝ} (hs : 0 < safe) (p1 p2 : RPoint) (l : List RPoint)
    (h1 : ∀ b ∈ l, 4 * safe < pdist b p1) (h2 : ∀ b ∈ l, 4 * safe < pdist b p2)
    (hl : l.Pairwise fun a b => 5 * safe < pdist a b) :
    ∀ path : List Pose, (∀ b ∈ l.tail, 4 * safe < pdist b (path.getLastD (p1, 0)).1) →
      ∃ q, cornerLoop safe p1 p2 path l = path ++ q ∧ OneEach safe l q := by
  induction l with
  | nil => intro path _; exact ⟨[], by simp [cornerLoop], .done (by simp)⟩
  | cons a l ih =>
    intro path hpath
    match l, ih with
    | [], _ => exact ⟨[], by simp [cornerLoop], .done (by simp)⟩
    | [b], _ => exact ⟨[], by simp [cornerLoop], .done (by simp)⟩
    | b :: c :: l, ih =>
      have hab : 5 * safe < pdist a b := (List.pairwise_cons.1 hl).1 b (by simp)
      have hl' := (List.pairwise_cons.1 hl).2
      have hbc : 5 * safe < pdist b c := (List.pairwise_cons.1 hl').1 c (by simp)
      have hne : pdist b a ≠ 0 := by rw [pdist_comm]; linarith
      have hw := pullBack_before hs.le hne
      have hwb : pdist (pullBack safe a b) b = safe := by
        rw [hw.2.1, min_eq_right (by linarith)]
      have far : ∀ x : RPoint, 4 * safe < pdist b x → 3 * safe < pdist (pullBack safe a b) x := by
        intro x hx
        have := pdist_triangle b (pullBack safe a b) x
        rw [pdist_comm b (pullBack safe a b)] at this
        linarith
      have estep : cornerStep safe p1 p2 path a b c = path ++ [(pullBack safe a b, angleFromPoint (b.sub a))] := by
        unfold cornerStep
        rw [if_neg (by rintro (h | h) <;> [exact hne h; linarith])]
        simp only
        rw [if_neg (c := _ ∧ _ ∧ _ ∧ _)]
        · rw [if_pos ⟨far _ (hpath b (by simp)), far _ (h1 b (by simp)), far _ (h2 b (by simp))⟩]
        · rintro ⟨-, -, -, h⟩
          have d2 : pdist (pullBack safe c b) b ≤ safe := by
            rw [(pullBack_before hs.le (a := c) (b := b) (by linarith)).2.1]
            exact min_le_right _ _
          have := pdist_triangle (pullBack safe c b) b (pullBack safe a b)
          rw [pdist_comm b (pullBack safe a b)] at this
          linarith
      unfold cornerLoop
      obtain ⟨q, e, hq⟩ := ih (fun x hx => h1 x (List.mem_cons_of_mem _ hx))
        (fun x hx => h2 x (List.mem_cons_of_mem _ hx)) hl' (cornerStep safe p1 p2 path a b c) (by
          intro x hx
          rw [estep, getLastD_append_one]
          have hbx : 5 * safe < pdist b x := (List.pairwise_cons.1 hl').1 x (by simpa using hx)
          have := pdist_triangle b (pullBack safe a b) x
          rw [pdist_comm b (pullBack safe a b)] at this
          rw [pdist_comm x]
          simp only
          linarith)
      refine ⟨_ :: q, by rw [e, estep, List.append_assoc]; rfl, .next hw hq⟩

/-- C40, that they are all there: if the bends are more than five times `safe` from each other and more than four
times from both ends, and the ends are at least six times `safe` apart, there is one way point before each bend but
the first and the last one. -/
theorem C40_one_each (safe : ℝ) (hs : 0 < safe) (p1 : RPoint) (a1 : ℝ) (mp : List RPoint) (p2 : RPoint)
    (a2 : ℝ) (h12 : 6 * safe ≤ pdist p1 p2) (h1 : ∀ b ∈ bends mp, 4 * safe < pdist b p1)
    (h2 : ∀ b ∈ bends mp, 4 * safe < pdist b p2) (hb : (bends mp).Pairwise fun a b => 5 * safe < pdist a b) :
    ∃ mid : List Pose, simplify safe p1 a1 mp p2 a2 = (p1, a1) :: (mid ++ [(p2, a2)]) ∧
      OneEach safe (bends mp) mid := by
  unfold simplify
  rw [corners_eq_bends]
  split
  · rename_i h
    rcases h with h | h
    · linarith
    · refine ⟨[], by simp, .done ?_⟩
      unfold bends
      refine le_trans (List.length_filterMap_le _ _) ?_
      rw [List.length_range]
      omega
  · split
    · rename_i h
      exact ⟨[], by simp, .done (by omega)⟩
    · obtain ⟨q, e, hq⟩ := cornerLoop_all hs p1 p2 (bends mp) h1 h2 hb [(p1, a1)] (fun b hb' => by
        simpa using h1 b (List.mem_of_mem_tail hb'))
      exact ⟨q, by rw [e]; simp, hq⟩

/-! An instance: a meander with three right-angled bends. -/

private theorem east {L : ℝ} (h : 0 < L) : angleFromPoint (⟨L, 0, 0⟩ : RPoint) = 0 := by
  rw [angleFromPoint_eq]
  have : (⟨L, 0⟩ : ℂ) = (L : ℂ) := by apply Complex.ext <;> simp
  simp only [this]
  rw [Complex.arg_ofReal_of_nonneg h.le]
  exact mod2pi_of_range (le_refl _) (by positivity)

private theorem north {L : ℝ} (h : 0 < L) : angleFromPoint (⟨0, L, 0⟩ : RPoint) = π / 2 := by
  rw [angleFromPoint_eq]
  have : (⟨0, L⟩ : ℂ) = (L : ℂ) * Complex.I := by apply Complex.ext <;> simp
  simp only [this]
  rw [Complex.arg_real_mul _ h, Complex.arg_I]
  exact mod2pi_of_range (by positivity) (by linarith [Real.pi_pos])

/-- The connection of the example. -/
def meander : List RPoint := [⟨0, 0, 0⟩, ⟨10, 0, 0⟩, ⟨10, 10, 0⟩, ⟨20, 10, 0⟩, ⟨20, 20, 0⟩]

private theorem meander_bends : bends meander = [⟨10, 0, 0⟩, ⟨10, 10, 0⟩, ⟨20, 10, 0⟩] := by
  have hp3 := Real.pi_gt_three
  rw [← corners_eq_bends]
  simp only [meander, corners, Point.sub]
  norm_num only
  rw [east (by norm_num : (0 : ℝ) < 10), north (by norm_num : (0 : ℝ) < 10)]
  rw [if_pos (by rw [abs_of_nonpos] <;> linarith), if_pos (by rw [abs_of_nonneg] <;> linarith),
    if_pos (by rw [abs_of_nonpos] <;> linarith)]

/-- With the radius 1 there is one way point, before the second bend. -/
example : ∃ w : Pose, simplify 1 ⟨0, 0, 0⟩ 0 meander ⟨20, 20, 0⟩ 0 = [(⟨0, 0, 0⟩, 0), w, (⟨20, 20, 0⟩, 0)] ∧
    Before 1 ⟨10, 0, 0⟩ ⟨10, 10, 0⟩ w := by
  have far : ∀ (a b : RPoint) (r : ℝ), 0 ≤ r → r ^ 2 < (a.x - b.x) ^ 2 + (a.y - b.y) ^ 2 →
      r < pdist a b := fun a b r hr h => Real.lt_sqrt_of_sq_lt h
  obtain ⟨mid, e, h⟩ := C40_one_each 1 one_pos ⟨0, 0, 0⟩ 0 meander ⟨20, 20, 0⟩ 0
    (far _ _ _ (by norm_num) (by norm_num)).le
    (by rw [meander_bends]; intro b hb; simp at hb; rcases hb with rfl | rfl | rfl <;> exact far _ _ _ (by norm_num) (by norm_num))
    (by rw [meander_bends]; intro b hb; simp at hb; rcases hb with rfl | rfl | rfl <;> exact far _ _ _ (by norm_num) (by norm_num))
    (by
      rw [meander_bends]
      simp only [List.pairwise_cons, List.mem_cons, List.not_mem_nil, or_false, forall_eq_or_imp, forall_eq]
      refine ⟨⟨far _ _ _ (by norm_num) (by norm_num), far _ _ _ (by norm_num) (by norm_num)⟩,
        far _ _ _ (by norm_num) (by norm_num), by simp⟩)
  rw [meander_bends] at h
  cases h with
  | done h => simp at h
  | next hw hr =>
    cases hr with
    | done _ => exact ⟨_, e, hw⟩

example : pdist (⟨0, 0, 0⟩ : RPoint) ⟨1, 0, 0⟩ < 6 * 1 := by
  unfold pdist
  norm_num

end F2C.Props
