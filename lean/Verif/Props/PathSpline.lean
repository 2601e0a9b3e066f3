import Mathlib.Tactic.NormNum
import Verif.Props.Angles
import Verif.Props.Path
import Verif.Props.Spline
import Verif.Lemmas.PathSpline

/-! # C35: populate and discretize -/

namespace F2C.Props

open PathSpec Spline Real

/-- Arc length of point `i` of `n`. -/
noncomputable def arcOf (p : Path) (n i : Nat) : ℝ := i * (lengthOf p / n)

/-- The section whose velocity, direction and type are taken at arc length `d`: `d` is in it up to
1e-10, or it is the last one and `d` is less than 1e-10 before the end of the path. -/
def SectionFor (p : Path) (d : ℝ) (s : PathState ℝ) : Prop :=
  ∃ pre post, p = pre ++ s :: post ∧ lengthOf pre < d + 1 / 10 ^ 10 ∧
    (d + 1 / 10 ^ 10 ≤ lengthOf pre + s.len ∨ (post = [] ∧ lengthOf p < d + 1 / 10 ^ 10))

/-- What `populate` promises for point number `i`. -/
structure PopulatedPoint (p : Path) (n i : Nat) (r : PathState ℝ) : Prop where
  /-- all have the same length -/
  len : r.len = lengthOf p / n
  /-- the angle is normalised -/
  angle : 0 ≤ r.angle ∧ r.angle < 2 * π
  /-- the section -/
  section' : ∃ s, SectionFor p (arcOf p n i) s ∧ r.velocity = s.velocity ∧ r.dir = s.dir ∧
    r.type = s.type
  /-- at the beginning of a section of the path, other than the second one, the point and the angle
  are the ones there -/
  knot : ∀ pre s post, p = pre ++ s :: post → 0 < s.len →
    (pre.filter (fun s => decide (s.len ≠ 0))).length ≠ 1 → arcOf p n i = lengthOf pre →
    SameXY r.point s.point ∧ r.angle = mod2pi s.angle

private theorem eval_knot {s : Spline ℝ} {x y : List ℝ} (hx : x.Pairwise (· < ·))
    (hs : Spline.make x y = .ok s) {i : Nat} (hi : i < x.length) (h1 : i ≠ 1) :
    s.eval (nth x i) = .ok (nth y i) := by
  obtain ⟨a, b, e1, e2, e3⟩ := C57_interpolates_partial _ s x y hx hs i hi (Or.inl h1)
  obtain ⟨j1, rfl⟩ := List.getElem?_eq_some_iff.1 e1
  obtain ⟨j2, rfl⟩ := List.getElem?_eq_some_iff.1 e2
  rw [nth_eq j1, nth_eq j2]; exact e3

private theorem eval_ok {s : Spline ℝ} {x y : List ℝ} (hs : Spline.make x y = .ok s) (t : ℝ) :
    ∃ v, s.eval t = .ok v := by
  obtain ⟨-, h2, -, h4, -⟩ := setPoints_ok hs
  rw [eval, if_neg (by rw [h4]; exact List.ne_nil_of_length_pos (by omega))]
  exact ⟨_, rfl⟩

/-- C35: `populate(n)` gives exactly `n` states, of equal length adding up to the original one, with
velocity, direction and type of the section they are in. -/
theorem C35_populate_partial (p : Path) (n : Nat) (hn : 0 < n) (h3 : 3 ≤ List.length p)
    (hlen : ∀ s ∈ p, 0 ≤ s.len) (hpos : ∃ s ∈ p, 0 < s.len)
    (hang : ∀ s ∈ p, |s.angle| ≤ 1000000000) (hsize : List.length p ≤ 1000000000) :
    ∃ q, p.populate n = .ok q ∧ List.length q = n ∧ q.totalLength = p.totalLength ∧
      ∀ i r, q[i]? = some r → PopulatedPoint p n i r := by
  classical
  obtain ⟨last, hlast⟩ : ∃ last, List.getLast? p = some last := by
    cases h : List.getLast? p with
    | none => rw [List.getLast?_eq_none_iff] at h; subst h; simp at h3
    | some l => exact ⟨l, rfl⟩
  obtain ⟨K, hK⟩ : ∃ K, K = p.filter (fun s => decide (s.len ≠ 0)) := ⟨_, rfl⟩
  have hKmem : ∀ s ∈ K, s ∈ p ∧ 0 < s.len := by
    intro s hs
    rw [hK, List.mem_filter] at hs
    exact ⟨hs.1, lt_of_le_of_ne (hlen s hs.1) (by simpa using (of_decide_eq_true hs.2).symm)⟩
  have hKne : 0 < K.length := by
    obtain ⟨s, hs, hsp⟩ := hpos
    refine List.length_pos_of_mem (a := s) ?_
    rw [hK, List.mem_filter]
    exact ⟨hs, by simpa using hsp.ne'⟩
  obtain ⟨ks, hks⟩ : ∃ ks, ks = Path.knots p last := ⟨_, rfl⟩
  have hks' : ks = K ++ [{ last with point := last.atEnd, len := 0 }] := by
    rw [hks, hK]; rfl
  obtain ⟨T, hT⟩ : ∃ T, T = Path.arcs ks := ⟨_, rfl⟩
  have hT' : T = (K.map (·.len)).scanl (· + ·) 0 := by
    rw [hT, Path.arcs, hks', List.dropLast_concat]
  have hTlen : T.length = K.length + 1 := by rw [hT', List.length_scanl, List.length_map]
  have hkslen : ks.length = K.length + 1 := by rw [hks']; simp
  have hTs : T.Pairwise (· < ·) := by
    rw [hT']
    refine scanl_sorted _ ?_ 0
    intro x hx
    obtain ⟨s, hs, rfl⟩ := List.mem_map.1 hx
    exact (hKmem s hs).2
  have hTnth : ∀ i ≤ K.length, nth T i = lengthOf (K.take i) := by
    intro i hi
    have h : i < T.length := by omega
    rw [nth_eq h]
    simp only [hT']
    rw [List.getElem_scanl, foldl_plus, zero_add, ← List.map_take, lengthOf_pos_sum]
    intro s hs
    exact (hKmem s (List.mem_of_mem_take hs)).2.le
  have hL : lengthOf K = lengthOf p := by rw [hK]; exact lengthOf_filter p
  have hTlast : T.getLastD 0 = lengthOf p := by
    rw [List.getLastD_eq_getLast?, List.getLast?_eq_getElem?, List.getElem?_eq_getElem (by omega),
      Option.getD_some, ← nth_eq (by omega), hTnth _ (by omega), hTlen, Nat.add_sub_cancel,
      List.take_length, hL]
  -- the angles
  have hangs : ∃ ang, angContinuityList (ks.map (·.angle)) = .ok ang ∧
      List.Forall₂ SameAngle (ks.map (·.angle)) ang := by
    cases hc : ks with
    | nil => rw [hc] at hkslen; simp at hkslen
    | cons k ks' =>
      have hk : k ∈ p := by
        have : K ≠ [] := List.ne_nil_of_length_pos hKne
        obtain ⟨a, K', rfl⟩ := List.exists_cons_of_ne_nil this
        rw [hks', List.cons_append, List.cons.injEq] at hc
        rw [← hc.1]
        exact (hKmem a (by simp)).1
      have hle : ks'.length ≤ List.length p := by
        have : K.length ≤ List.length p := by rw [hK]; exact List.length_filter_le ..
        rw [hc] at hkslen
        simp at hkslen
        omega
      obtain ⟨rs, e1, e2, _⟩ := C46_angle_continuity k.angle (ks'.map (·.angle)) (by
        have h1 := hang k hk
        have h2 : ((ks'.map (·.angle)).length : ℝ) ≤ 1000000000 := by
          rw [List.length_map]
          exact_mod_cast hle.trans hsize
        have h3 : ((ks'.map (·.angle)).length : ℝ) * π ≤ 1000000000 * 4 :=
          mul_le_mul h2 Real.pi_le_four Real.pi_pos.le (by norm_num)
        linarith)
      refine ⟨_, e1, ?_⟩
      rw [List.map_cons]
      exact List.Forall₂.cons ⟨0, by simp⟩ e2
  obtain ⟨ang, ha1, ha2⟩ := hangs
  have hlang : ang.length = K.length + 1 := by
    rw [← ha2.length_eq, List.length_map, hkslen]
  -- the splines
  obtain ⟨sx, hsx⟩ := C57_accepts T (ks.map (·.point.x)) hTs (by omega) (by simp; omega)
  obtain ⟨sy, hsy⟩ := C57_accepts T (ks.map (·.point.y)) hTs (by omega) (by simp; omega)
  obtain ⟨sa, hsa⟩ := C57_accepts T ang hTs (by omega) (by omega)
  have hpop : p.populate n =
      mapOutcome (Path.sample ks T sx sy sa (lengthOf p / n)) (List.range n) := by
    unfold Path.populate
    rw [if_neg (by omega), hlast]
    simp only [← hks, ← hT, ha1, hsx, hsy, hsa, Outcome.ok_bind, hTlast]
    rw [if_neg (by omega)]
    simp
  have hLnn := lengthOf_nonneg p
  have hnR : (0 : ℝ) < n := by exact_mod_cast hn
  -- every sample
  have hsample : ∀ i ∈ List.range n, ∃ r, Path.sample ks T sx sy sa (lengthOf p / n) i = .ok r ∧
      PopulatedPoint p n i r := by
    intro i hi
    obtain ⟨vx, evx⟩ := eval_ok hsx (arcOf p n i)
    obtain ⟨vy, evy⟩ := eval_ok hsy (arcOf p n i)
    obtain ⟨va, eva⟩ := eval_ok hsa (arcOf p n i)
    have hd0 : 0 ≤ arcOf p n i := mul_nonneg (Nat.cast_nonneg i) (div_nonneg hLnn hnR.le)
    have hT0 : nth T 0 = 0 := by rw [hTnth 0 (by omega)]; simp [lengthOf]
    obtain ⟨it, hit, hitl, hit1, hit2⟩ := sectionAt_spec hTs (v := arcOf p n i + 1 / 10 ^ 10)
      (List.ne_nil_of_length_pos (by omega))
      (by rw [hT0]; have : (0 : ℝ) < 1 / 10 ^ 10 := by norm_num
          linarith)
    obtain ⟨k, hk⟩ : ∃ k, ks[it]? = some k := ⟨_, List.getElem?_eq_getElem (by omega)⟩
    refine ⟨⟨⟨vx, vy, 0⟩, mod2pi va, lengthOf p / n, k.dir, k.type, k.velocity⟩, ?_, ?_⟩
    · unfold Path.sample
      rw [← arcOf]
      simp only
      rw [evx, evy, eva]
      simp only [Outcome.ok_bind]
      rw [hit]
      simp only [Outcome.ok_bind, hk]
    · constructor
      · rfl
      · exact ⟨mod2pi_nonneg _, mod2pi_lt _⟩
      · by_cases hin : it < K.length
        · rw [hks', List.getElem?_append_left hin] at hk
          obtain ⟨pre, post, e1, e2⟩ := filter_split (hK ▸ hk)
          refine ⟨k, ⟨pre, post, e1, ?_, Or.inl ?_⟩, rfl, rfl, rfl⟩
          · rw [← lengthOf_filter pre, e2, ← hK, ← hTnth it hin.le]; exact hit1
          · have := hit2 (by omega)
            rw [hTnth (it + 1) (by omega)] at this
            rw [← lengthOf_filter pre, e2, ← hK]
            have e3 : K.take (it + 1) = K.take it ++ [k] := by
              rw [List.take_add_one, hk]; rfl
            rw [e3, lengthOf_append, lengthOf_cons, lengthOf_nil,
              abs_of_pos (hKmem k (List.mem_of_getElem? hk)).2] at this
            linarith
        · have hite : it = K.length := by omega
          subst hite
          rw [hks', List.getElem?_append_right le_rfl] at hk
          simp at hk
          subst hk
          have hp : p = p.dropLast ++ [last] := by
            have hne : p ≠ [] := by rintro rfl; simp at h3
            rw [List.getLast?_eq_some_getLast hne, Option.some.injEq] at hlast
            rw [← hlast, List.dropLast_append_getLast hne]
          have hend : lengthOf p < arcOf p n i + 1 / 10 ^ 10 := by
            rw [hTnth _ le_rfl, List.take_length, hL] at hit1
            exact hit1
          refine ⟨last, ⟨p.dropLast, [], hp, ?_, Or.inr ⟨rfl, hend⟩⟩, rfl, rfl, rfl⟩
          refine lt_of_le_of_lt ?_ hend
          conv_rhs => rw [hp]
          rw [lengthOf_append]
          linarith [lengthOf_nonneg [last]]
      · intro pre s post e1 e2 e3 e4
        obtain ⟨j, hj⟩ : ∃ j, j = (pre.filter (fun s => decide (s.len ≠ 0))).length := ⟨_, rfl⟩
        have hKs : K = pre.filter (fun s => decide (s.len ≠ 0)) ++
            s :: post.filter (fun s => decide (s.len ≠ 0)) := by
          rw [hK, e1, List.filter_append, List.filter_cons_of_pos (by simpa using e2.ne')]
        have hjK : K[j]? = some s := by
          rw [hKs, hj, List.getElem?_append_right le_rfl]; simp
        have hjl : j < K.length := by
          rw [hKs, List.length_append, ← hj]; simp
        have hks2 : ks[j]? = some s := by rw [hks', List.getElem?_append_left hjl, hjK]
        have harc : arcOf p n i = nth T j := by
          rw [e4, hTnth j hjl.le, hKs, hj, List.take_left, lengthOf_filter]
        have hj1 : j ≠ 1 := hj ▸ e3
        rw [harc] at evx evy eva
        rw [eval_knot hTs hsx (by omega) hj1, Outcome.ok.injEq] at evx
        rw [eval_knot hTs hsy (by omega) hj1, Outcome.ok.injEq] at evy
        rw [eval_knot hTs hsa (by omega) hj1, Outcome.ok.injEq] at eva
        have hnm : ∀ f : PathState ℝ → ℝ, nth (ks.map f) j = f s := by
          intro f
          unfold nth
          rw [List.getD_eq_getElem?_getD, List.getElem?_map, hks2]; rfl
        rw [hnm] at evx evy
        refine ⟨⟨evx.symm, evy.symm⟩, ?_⟩
        simp only
        rw [List.forall₂_iff_get] at ha2
        have hs2 := ha2.2 j (by simp; omega) (by omega)
        simp only [List.get_eq_getElem, List.getElem_map] at hs2
        obtain ⟨_, hgs⟩ := List.getElem?_eq_some_iff.1 hks2
        rw [hgs, ← nth_eq (by omega), eva] at hs2
        obtain ⟨m, hm⟩ := hs2
        rw [mod2pi_eq_iff]
        exact ⟨-m, by rw [hm]; push_cast; ring⟩
  obtain ⟨q, hq1, hq2⟩ := mapOutcome_spec hsample
  have hqlen : List.length q = n := by rw [← hq2.length_eq, List.length_range]
  have hpt : ∀ i r, q[i]? = some r → PopulatedPoint p n i r := by
    intro i r hr
    obtain ⟨hi, rfl⟩ := List.getElem?_eq_some_iff.1 hr
    rw [List.forall₂_iff_get] at hq2
    have := hq2.2 i (by rw [List.length_range]; omega) hi
    simpa using this
  refine ⟨q, by rw [hpop, hq1], hqlen, ?_, hpt⟩
  rw [totalLength_eq, totalLength_eq]
  have hall : q.map (fun s => |s.len|) = List.replicate n (lengthOf p / n) := by
    refine List.eq_replicate_iff.2 ⟨by simp [hqlen], ?_⟩
    intro b hb
    obtain ⟨s, hs, rfl⟩ := List.mem_map.1 hb
    obtain ⟨i, hi⟩ := List.getElem?_of_mem hs
    rw [(hpt i s hi).len, abs_of_nonneg (div_nonneg hLnn hnR.le)]
  unfold lengthOf at hall ⊢
  rw [hall, List.sum_replicate, nsmul_eq_mul]
  field_simp

private theorem mapOutcome_inv {α β : Type} {f : α → Outcome β} {l : List α} {bs : List β}
    (h : mapOutcome f l = .ok bs) : List.Forall₂ (fun a b => f a = .ok b) l bs := by
  induction l generalizing bs with
  | nil => simp [mapOutcome] at h; subst h; exact .nil
  | cons a l ih =>
    rw [mapOutcome] at h
    cases hf : f a with
    | throw e => rw [hf] at h; cases h
    | ub w => rw [hf] at h; cases h
    | ok b =>
      rw [hf] at h
      simp only [Outcome.ok_bind] at h
      cases hl : mapOutcome f l with
      | throw e => rw [hl] at h; cases h
      | ub w => rw [hl] at h; cases h
      | ok bs' =>
        rw [hl] at h
        simp only [Outcome.ok_bind, Outcome.pure_eq, Outcome.ok.injEq] at h
        subst h
        exact .cons hf (ih hl)

private theorem sample_inv {ks : List (PathState ℝ)} {t : List ℝ} {sx sy sa : Spline ℝ} {step : ℝ}
    {i : Nat} {r : PathState ℝ} (h : Path.sample ks t sx sy sa step i = .ok r) :
    sx.eval (i * step) = .ok r.point.x ∧ sy.eval (i * step) = .ok r.point.y ∧
      ∃ a, sa.eval (i * step) = .ok a ∧ r.angle = mod2pi a := by
  unfold Path.sample at h
  simp only at h
  cases hx : sx.eval (i * step) with
  | throw e => rw [hx] at h; cases h
  | ub w => rw [hx] at h; cases h
  | ok px =>
    rw [hx] at h
    cases hy : sy.eval (i * step) with
    | throw e => rw [hy] at h; cases h
    | ub w => rw [hy] at h; cases h
    | ok py =>
      rw [hy] at h
      cases ha : sa.eval (i * step) with
      | throw e => rw [ha] at h; cases h
      | ub w => rw [ha] at h; cases h
      | ok a =>
        rw [ha] at h
        simp only [Outcome.ok_bind] at h
        cases hs : Path.sectionAt t (i * step + 1 / 10 ^ 10) with
        | throw e => rw [hs] at h; cases h
        | ub w => rw [hs] at h; cases h
        | ok it =>
          rw [hs] at h
          simp only [Outcome.ok_bind] at h
          cases hk : ks[it]? with
          | none => rw [hk] at h; cases h
          | some k =>
            rw [hk] at h
            simp only [Outcome.ok.injEq] at h
            subst h
            exact ⟨rfl, rfl, a, rfl, rfl⟩

/-- C35: the points and angles lie on the splines through the knots of the path. -/
private theorem populate_samples (p q : Path) (n : Int) (h3 : 3 ≤ List.length p)
    (h : p.populate n = .ok q) :
    ∃ last sx sy sa ang, List.getLast? p = some last ∧
      angContinuityList ((Path.knots p last).map (·.angle)) = .ok ang ∧
      Spline.make (Path.arcs (Path.knots p last)) ((Path.knots p last).map (·.point.x)) = .ok sx ∧
      Spline.make (Path.arcs (Path.knots p last)) ((Path.knots p last).map (·.point.y)) = .ok sy ∧
      Spline.make (Path.arcs (Path.knots p last)) ang = .ok sa ∧
      ∀ (i : Nat) r, q[i]? = some r →
        sx.eval (i * ((Path.arcs (Path.knots p last)).getLastD 0 / n)) = .ok r.point.x ∧
        sy.eval (i * ((Path.arcs (Path.knots p last)).getLastD 0 / n)) = .ok r.point.y ∧
        ∃ a, sa.eval (i * ((Path.arcs (Path.knots p last)).getLastD 0 / n)) = .ok a ∧
          r.angle = mod2pi a := by
  unfold Path.populate at h
  rw [if_neg (by omega)] at h
  cases hl : List.getLast? p with
  | none => rw [hl] at h; cases h
  | some last =>
    rw [hl] at h
    simp only at h
    cases ha : angContinuityList ((Path.knots p last).map (·.angle)) with
    | throw e => rw [ha] at h; cases h
    | ub w => rw [ha] at h; cases h
    | ok a =>
      rw [ha] at h
      simp only [Outcome.ok_bind] at h
      cases hx : Spline.make (Path.arcs (Path.knots p last))
          ((Path.knots p last).map (·.point.x)) with
      | throw e => rw [hx] at h; cases h
      | ub w => rw [hx] at h; cases h
      | ok sx =>
        rw [hx] at h
        simp only [Outcome.ok_bind] at h
        cases hy : Spline.make (Path.arcs (Path.knots p last))
            ((Path.knots p last).map (·.point.y)) with
        | throw e => rw [hy] at h; cases h
        | ub w => rw [hy] at h; cases h
        | ok sy =>
          rw [hy] at h
          simp only [Outcome.ok_bind] at h
          cases hz : Spline.make (Path.arcs (Path.knots p last)) a with
          | throw e => rw [hz] at h; cases h
          | ub w => rw [hz] at h; cases h
          | ok sa =>
            rw [hz] at h
            simp only [Outcome.ok_bind] at h
            by_cases hn : n < 0
            · rw [if_pos hn] at h; cases h
            · rw [if_neg hn] at h
              have hf := mapOutcome_inv h
              refine ⟨last, sx, sy, sa, a, rfl, ha, hx, hy, hz, ?_⟩
              intro i r hr
              obtain ⟨hi, rfl⟩ := List.getElem?_eq_some_iff.1 hr
              rw [List.forall₂_iff_get] at hf
              have h1 := hf.2 i (by rw [hf.1]; exact hi) hi
              simp only [List.get_eq_getElem, List.getElem_range] at h1
              exact sample_inv h1

/-- C35: the populated path begins where the path begins (the first section with a length). -/
theorem C35_start (p : Path) (n : Nat) (pre post : Path) (s : PathState ℝ)
    (hp : p = pre ++ s :: post) (hpre : ∀ r ∈ pre, r.len = 0) (hs : 0 < s.len) (r : PathState ℝ)
    (hr : PopulatedPoint p n 0 r) : SameXY r.point s.point ∧ r.angle = mod2pi s.angle := by
  refine hr.knot pre s post hp hs ?_ ?_
  · rw [List.filter_eq_nil_iff.2 (fun a ha => by simp [hpre a ha])]; simp
  · have : lengthOf pre = 0 := by
      unfold lengthOf
      refine List.sum_eq_zero ?_
      intro x hx
      obtain ⟨a, ha, rfl⟩ := List.mem_map.1 hx
      rw [hpre a ha, abs_zero]
    rw [this, arcOf]; simp

/-- three sections, for examples -/
noncomputable def threeSections : Path :=
  [st 0 0 0 1 .swath 1, st 1 0 0 2 .turn 2, st 3 0 0 1 .swath 1]

example : 3 ≤ List.length threeSections ∧ (∀ s ∈ threeSections, 0 ≤ s.len) ∧
    (∃ s ∈ threeSections, 0 < s.len) ∧ (∀ s ∈ threeSections, |s.angle| ≤ 1000000000) ∧
    List.length threeSections ≤ 1000000000 := by
  refine ⟨by simp [threeSections], ?_, ⟨st 0 0 0 1 .swath 1, by simp [threeSections], by
    norm_num [st]⟩, ?_, by simp [threeSections]⟩
  all_goals
    intro s hs
    simp only [threeSections, List.mem_cons, List.not_mem_nil, or_false] at hs
    rcases hs with rfl | rfl | rfl <;> norm_num [st]

/-- C35: a path with fewer than three states is not changed. -/
theorem C35_populate_short (p : Path) (n : Int) (h : List.length p < 3) : p.populate n = .ok p := by
  unfold Path.populate; rw [if_pos h]

/-- C35: `populate(0)` deletes the path (for data that are accepted at all). -/
theorem C35_populate_zero (p q : Path) (h3 : 3 ≤ List.length p) (h : p.populate 0 = .ok q) :
    q = [] := by
  unfold Path.populate at h
  rw [if_neg (by omega)] at h
  cases hl : List.getLast? p with
  | none => rw [hl] at h; cases h
  | some last =>
    rw [hl] at h
    simp only at h
    cases ha : angContinuityList ((Path.knots p last).map (·.angle)) with
    | throw e => rw [ha] at h; cases h
    | ub w => rw [ha] at h; cases h
    | ok a =>
      rw [ha] at h
      simp only [Outcome.ok_bind] at h
      cases hx : Spline.make (Path.arcs (Path.knots p last))
          ((Path.knots p last).map (·.point.x)) with
      | throw e => rw [hx] at h; cases h
      | ub w => rw [hx] at h; cases h
      | ok sx =>
        rw [hx] at h
        simp only [Outcome.ok_bind] at h
        cases hy : Spline.make (Path.arcs (Path.knots p last))
            ((Path.knots p last).map (·.point.y)) with
        | throw e => rw [hy] at h; cases h
        | ub w => rw [hy] at h; cases h
        | ok sy =>
          rw [hy] at h
          simp only [Outcome.ok_bind] at h
          cases hz : Spline.make (Path.arcs (Path.knots p last)) a with
          | throw e => rw [hz] at h; cases h
          | ub w => rw [hz] at h; cases h
          | ok sa =>
            rw [hz] at h
            simp [mapOutcome] at h
            exact h

private theorem populate_zero_ok (p : Path) (h3 : 3 ≤ List.length p)
    (hlen : ∀ s ∈ p, 0 ≤ s.len) (hpos : ∃ s ∈ p, 0 < s.len)
    (hang : ∀ s ∈ p, |s.angle| ≤ 1000000000) (hsize : List.length p ≤ 1000000000) :
    p.populate 0 = .ok [] := by
  obtain ⟨q, hq, -⟩ := C35_populate_partial p 1 (by norm_num) h3 hlen hpos hang hsize
  -- the same data are accepted for any number of points
  unfold Path.populate at hq ⊢
  rw [if_neg (by omega)] at hq ⊢
  cases hl : List.getLast? p with
  | none => rw [hl] at hq; cases hq
  | some last =>
    rw [hl] at hq
    simp only at hq ⊢
    cases ha : angContinuityList ((Path.knots p last).map (·.angle)) with
    | throw e => rw [ha] at hq; cases hq
    | ub w => rw [ha] at hq; cases hq
    | ok a =>
      rw [ha] at hq
      simp only [Outcome.ok_bind] at hq ⊢
      cases hx : Spline.make (Path.arcs (Path.knots p last))
          ((Path.knots p last).map (·.point.x)) with
      | throw e => rw [hx] at hq; cases hq
      | ub w => rw [hx] at hq; cases hq
      | ok sx =>
        rw [hx] at hq
        simp only [Outcome.ok_bind] at hq ⊢
        cases hy : Spline.make (Path.arcs (Path.knots p last))
            ((Path.knots p last).map (·.point.y)) with
        | throw e => rw [hy] at hq; cases hq
        | ub w => rw [hy] at hq; cases hq
        | ok sy =>
          rw [hy] at hq
          simp only [Outcome.ok_bind] at hq ⊢
          cases hz : Spline.make (Path.arcs (Path.knots p last)) a with
          | throw e => rw [hz] at hq; cases hq
          | ub w => rw [hz] at hq; cases hq
          | ok sa => simp [mapOutcome]

/-- C35: `discretize(step)` keeps length and existence of a path, if the path is at least a tenth of
the step long. -/
theorem C35_discretize_partial (p : Path) (step : ℝ) (hs : 0 < step) (h3 : 3 ≤ List.length p)
    (hlen : ∀ s ∈ p, 0 ≤ s.len) (hang : ∀ s ∈ p, |s.angle| ≤ 1000000000)
    (hsize : List.length p ≤ 1000000000) (hL : step ≤ 10 * lengthOf p)
    (hbig : 10 * lengthOf p < 2147483648 * step) :
    ∃ q, p.discretize step = .ok q ∧ q ≠ [] ∧ q.totalLength = p.totalLength := by
  have hpos : ∃ s ∈ p, 0 < s.len := by
    by_contra hc
    have : lengthOf p = 0 := by
      unfold lengthOf
      refine List.sum_eq_zero ?_
      intro x hx
      obtain ⟨a, ha, rfl⟩ := List.mem_map.1 hx
      have h1 := hlen a ha
      have h2 : ¬ 0 < a.len := fun h => hc ⟨a, ha, h⟩
      rw [show a.len = 0 by linarith, abs_zero]
    rw [this] at hL
    linarith
  have hv : (10 / step) * p.totalLength = 10 * lengthOf p / step := by
    rw [totalLength_eq]; ring
  have hv1 : 1 ≤ 10 * lengthOf p / step := by rw [le_div_iff₀ hs]; linarith
  have hv2 : 10 * lengthOf p / step < 2147483648 := by rw [div_lt_iff₀ hs]; exact hbig
  have hfl1 : 1 ≤ ⌊10 * lengthOf p / step⌋ := Int.le_floor.2 (by exact_mod_cast hv1)
  have hfl2 : ⌊10 * lengthOf p / step⌋ < 2147483648 := Int.floor_lt.2 (by exact_mod_cast hv2)
  obtain ⟨n, hn⟩ : ∃ n : Nat, (n : Int) = ⌊10 * lengthOf p / step⌋ :=
    ⟨⌊10 * lengthOf p / step⌋.toNat, by omega⟩
  obtain ⟨q, hq1, hq2, hq3, hq4⟩ := C35_populate_partial p n (by omega) h3 hlen hpos hang hsize
  refine ⟨q.reduce step, ?_, ?_, ?_⟩
  · unfold Path.discretize Path.toInt
    rw [if_pos (by omega), if_neg hs.ne', hv]
    simp only [if_pos (show (0 : ℝ) ≤ 10 * lengthOf p / step by linarith)]
    rw [if_neg (by omega), ← hn]
    simp only [Outcome.ok_bind, hq1, Outcome.pure_eq]
  · intro hc
    cases hq : q with
    | nil => rw [hq] at hq2; simp at hq2; omega
    | cons a l =>
      obtain ⟨len, rest, e⟩ := C34_first a l step
      rw [hq, e] at hc
      cases hc
  · rw [C34_length q step, hq3]
    intro s hs
    obtain ⟨i, hi⟩ := List.getElem?_of_mem hs
    rw [(hq4 i s hi).len]
    exact div_nonneg (lengthOf_nonneg p) (Nat.cast_nonneg n)

example : (2 : ℝ) ≤ 10 * lengthOf threeSections ∧
    10 * lengthOf threeSections < 2147483648 * 2 := by
  norm_num [lengthOf, threeSections, st]

/-- C35 fails for short paths: `discretize` deletes a path that is shorter than a tenth of the step. -/
theorem C35_discretize_destroys (p : Path) (step : ℝ) (hs : 0 < step) (h3 : 3 ≤ List.length p)
    (hlen : ∀ s ∈ p, 0 ≤ s.len) (hpos : ∃ s ∈ p, 0 < s.len)
    (hang : ∀ s ∈ p, |s.angle| ≤ 1000000000)
    (hsize : List.length p ≤ 1000000000) (hL : 10 * lengthOf p < step) :
    p.discretize step = .ok [] := by
  have hv : (10 / step) * p.totalLength = 10 * lengthOf p / step := by
    rw [totalLength_eq]; ring
  have hv0 : 0 ≤ 10 * lengthOf p / step :=
    div_nonneg (by linarith [lengthOf_nonneg p]) hs.le
  have hfl : ⌊10 * lengthOf p / step⌋ = 0 := by
    rw [Int.floor_eq_zero_iff]
    exact ⟨hv0, by rw [div_lt_one hs]; exact hL⟩
  unfold Path.discretize Path.toInt
  rw [if_pos (by omega), if_neg hs.ne', hv]
  simp only [if_pos hv0, hfl]
  rw [if_neg (by norm_num)]
  simp only [Outcome.ok_bind, populate_zero_ok p h3 hlen hpos hang hsize, Outcome.pure_eq, Path.reduce]

example : 10 * lengthOf threeSections < 100 := by
  norm_num [lengthOf, threeSections, st]

/-- C35 fails at the second knot: a sample that lies there is not on the path.  The path goes
straight along the x axis for two metres, then turns left by a right angle; the middle one of three
points is off the axis. -/
theorem C35_second_knot_wrong : ∃ (p q : Path) (r : PathState ℝ),
    (∃ s post, p = st 0 0 0 1 .swath 1 :: s :: post ∧ s = st 1 0 0 1 .swath 1) ∧
    p.populate 3 = .ok q ∧ arcOf p 3 1 = 1 ∧ q[1]? = some r ∧ r.point.y ≠ 0 := by
  obtain ⟨p, hp⟩ : ∃ p : Path, p = [st 0 0 0 1 .swath 1, st 1 0 0 1 .swath 1,
    st 2 0 (π / 2) 1 .turn 1] := ⟨_, rfl⟩
  have hpi := Real.pi_pos
  have hpi4 := Real.pi_le_four
  have hmem : ∀ s ∈ p, s.len = 1 ∧ |s.angle| ≤ 1000000000 := by
    intro s hs
    rw [hp] at hs
    simp only [List.mem_cons, List.not_mem_nil, or_false] at hs
    rcases hs with rfl | rfl | rfl
    · norm_num [st]
    · norm_num [st]
    · refine ⟨rfl, ?_⟩
      simp only [st]
      rw [abs_of_pos (by linarith)]
      linarith
  obtain ⟨q, hq1, hq2, -, -⟩ := C35_populate_partial p 3 (by norm_num) (by rw [hp]; simp)
    (fun s hs => by rw [(hmem s hs).1]; norm_num)
    ⟨st 0 0 0 1 .swath 1, by rw [hp]; simp, by norm_num [st]⟩ (fun s hs => (hmem s hs).2)
    (by rw [hp]; simp)
  have hL : lengthOf p = 3 := by rw [hp]; norm_num [lengthOf, st]
  obtain ⟨r, hr⟩ : ∃ r, q[1]? = some r := ⟨_, List.getElem?_eq_getElem (by omega)⟩
  refine ⟨p, q, r, ⟨_, _, hp, rfl⟩, hq1, by rw [arcOf, hL]; norm_num, hr, ?_⟩
  obtain ⟨last, sx, sy, sa, ang, hl, ha, hx, hy, hz, hev⟩ :=
    populate_samples p q 3 (by rw [hp]; simp) hq1
  have h1 := (hev 1 r hr).2.1
  have hlast : last = st 2 0 (π / 2) 1 .turn 1 := by
    rw [hp] at hl; simpa using hl.symm
  have hks : Path.knots p last = [st 0 0 0 1 .swath 1, st 1 0 0 1 .swath 1,
      st 2 0 (π / 2) 1 .turn 1, { last with point := last.atEnd, len := 0 }] := by
    unfold Path.knots
    rw [hp]
    simp [st]
  have hT : Path.arcs (Path.knots p last) = [0, 1, 2, 3] := by
    rw [hks]
    simp [Path.arcs, st]
    norm_num
  have hY : (Path.knots p last).map (·.point.y) = [0, 0, 0, 1] := by
    rw [hks, hlast]
    simp [st, PathState.atEnd, pointFromAngle, PathDir.sign]
  rw [hY, hT] at hy
  rw [hT] at h1
  have e1 : ((1 : Nat) : ℝ) * (([0, 1, 2, 3] : List ℝ).getLastD 0 / ((3 : Nat) : ℝ)) = 1 := by
    norm_num [List.getLastD]
  have e1' : ((1 : Nat) : ℝ) * (([0, 1, 2, 3] : List ℝ).getLastD 0 / ((3 : Int) : ℝ)) = 1 := by
    norm_num [List.getLastD]
  rw [e1'] at h1
  have hsorted : ([0, 1, 2, 3] : List ℝ).Pairwise (· < ·) := by norm_num
  obtain ⟨a, b, ea, eb, hiff⟩ := C57_second_knot _ sy _ _ hsorted hy
  simp at ea eb
  subst ea eb
  intro hc
  rw [h1, hc] at hiff
  have hc1 := hiff.1 rfl
  obtain ⟨-, -, -, -, -, -, -, hcc, -, -, -⟩ := setPoints_ok hy
  rw [hcc 1 (by simp)] at hc1
  have : cAt [0, 1, 2, 3] [0, 0, 0, 1] 1 = (-1 / 5 : ℝ) := by
    norm_num [cAt, cBack, forward, alpha, Spline.h, nth]
  rw [this] at hc1
  norm_num at hc1

end F2C.Props
