import Verif.Lemmas.Ieee
import Verif.Props.Double
import Verif.Props.DoubleSteps

/-! # C127-C130: infinities and values that are not numbers -/

namespace F2C.Props

open Ieee Ieee.Flt Dbl

variable {fl : ℝ → ℝ}

namespace IeeeSpec

/-- A positive value: a positive number or infinity. -/
def Positive : Flt → Prop
  | fin x => 0 < x
  | pinf => True
  | _ => False

/-- A value of at least 0. -/
def NotNegative : Flt → Prop
  | fin x => 0 ≤ x
  | pinf => True
  | _ => False

/-- A state with these numbers. -/
def Numbers (s : PathState ℝ) (q : PathState Flt) : Prop :=
  q = ⟨⟨fin s.point.x, fin s.point.y, fin s.point.z⟩, fin s.angle, fin s.len, s.dir, s.type, fin s.velocity⟩

/-- A state of doubles that are not extremely large. -/
def Moderate (s : PathState ℝ) : Prop :=
  IsDouble s.point.x ∧ IsDouble s.point.y ∧ IsDouble s.point.z ∧ IsDouble s.len ∧
  |s.point.x| ≤ 2 ^ 1000 ∧ |s.point.y| ≤ 2 ^ 1000 ∧ |s.point.z| ≤ 2 ^ 1000 ∧ |s.len| ≤ 2 ^ 1000

end IeeeSpec

open IeeeSpec

/-! ## Widths -/

/-- **C127**, what the constructor of a robot accepts: a width that is positive or not a number, and a coverage width that is
not negative or not a number; everything else throws. -/
theorem C127_robot (w c k d : Flt) :
    ((∃ r, Robot.make w c k d = .ok r) ↔ (Positive w ∨ w = nan) ∧ (NotNegative c ∨ c = nan)) ∧
    (¬ ((Positive w ∨ w = nan) ∧ (NotNegative c ∨ c = nan)) → Robot.make w c k d = .throw .outOfRange) := by
  have hw : le w (fin 0) ↔ ¬ (Positive w ∨ w = nan) := by cases w <;> simp [le, Positive]
  have hc : lt c (fin 0) ↔ ¬ (NotNegative c ∨ c = nan) := by cases c <;> simp [lt, NotNegative]
  unfold Robot.make
  rw [hw, hc]
  by_cases h1 : Positive w ∨ w = nan <;> by_cases h2 : NotNegative c ∨ c = nan <;> simp [h1, h2]

/-- **C127**, what holds: if the given widths are numbers or infinite, those of the robot are positive. -/
theorem C127_robot_partial (w c k d : Flt) (hw : w ≠ nan) (hc : c ≠ nan) (r : Robot) (h : Robot.make w c k d = .ok r) :
    Positive r.width ∧ Positive r.covWidth ∧ r.width = w ∧ (r.covWidth = c ∨ c = fin 0 ∧ r.covWidth = w) := by
  obtain ⟨h1, h2⟩ := (C127_robot w c k d).1.1 ⟨r, h⟩
  have h1 := h1.resolve_right hw
  have h2 := h2.resolve_right hc
  unfold Robot.make at h
  split at h
  · exact absurd h (by simp)
  · simp only [Outcome.ok.injEq] at h
    subst h
    by_cases h0 : c = fin 0
    · simp [h0, h1]
    · refine ⟨h1, ?_, rfl, Or.inl (if_neg h0)⟩
      rw [if_neg h0]
      cases c with
      | fin x => exact lt_of_le_of_ne h2 (fun e => h0 (by rw [e]))
      | pinf => trivial
      | nan => exact absurd rfl hc
      | ninf => exact absurd h2 (by simp [NotNegative])

/-- **C127** is false of values that are not numbers: they are accepted as widths of robots and of swaths. -/
theorem C127_nan :
    (∃ r, Robot.make nan nan (fin 1) (fin 1) = .ok r ∧ r.width = nan ∧ r.covWidth = nan) ∧ setWidth nan = .ok nan := by
  simp [Robot.make, setWidth, le, lt]

/-- **C127**, what `Swath::setWidth` accepts, and so the constructors of swaths. -/
theorem C127_swath (w : Flt) :
    (Positive w ∨ w = nan → setWidth w = .ok w) ∧ (¬ (Positive w ∨ w = nan) → setWidth w = .throw .invalidArgument) := by
  have hw : le w (fin 0) ↔ ¬ (Positive w ∨ w = nan) := by cases w <;> simp [le, Positive]
  unfold setWidth
  rw [hw]
  by_cases h1 : Positive w ∨ w = nan <;> simp [h1]

/-- **C127**, consequence: a width that is not a number gives no tracks, in a field of whatever height, and no error. -/
theorem C127_nan_tracks (fl : ℝ → ℝ) (fuel : Nat) (overlap : Bool) (H : Flt) :
    Ieee.trackOffsets fl fuel overlap H nan = .ok [] := by
  unfold Ieee.trackOffsets
  cases fuel <;> simp [Ieee.trackLoop]

/-- **C127**, infinite widths: without overlap there is no track; with overlap there is one, at a position that is not a
number. -/
theorem C127_infinite_tracks (fl : ℝ → ℝ) (fuel : Nat) (H : ℝ) :
    Ieee.trackOffsets fl fuel false (fin H) pinf = .ok [] ∧ Ieee.trackOffsets fl (fuel + 1) true (fin H) pinf = .ok [nan] := by
  have m1 : mul fl (fin (-(1 / 2))) pinf = ninf := by
    show signed (-(1 / 2)) = ninf
    rw [signed, if_neg (by norm_num), if_pos (by norm_num)]
  have m2 : mul fl (fin (1 / 2)) pinf = pinf := by
    show signed (1 / 2) = pinf
    rw [signed, if_pos (by norm_num)]
  have a1 : add fl ninf pinf = nan := rfl
  have a2 : add fl ninf (fin 0) = ninf := rfl
  unfold Ieee.trackOffsets
  rw [m1, m2]
  constructor
  · cases fuel <;> simp [Ieee.trackLoop, a1]
  · cases fuel <;> simp [Ieee.trackLoop, a1, a2]

/-- **C127**, numbers: for heights and widths up to 2^1000 nothing overflows, and the tracks are those of C115. -/
theorem C127_finite_tracks (h : IsRounding fl) (overlap : Bool) (H w : ℝ) (hH : |H| ≤ 2 ^ 1000) (hw0 : 0 ≤ w)
    (hw : w ≤ 2 ^ 1000) (ys : List ℝ) (hy : Dbl.trackOffsets fl overlap H w = .ok ys) :
    Ieee.trackOffsets fl (⌈H / w⌉₊ + 1) overlap (fin H) (fin w) = .ok (ys.map fin) := by
  have b0 := big_pos
  have b1 : w ≤ big := hw
  have e1 : mul fl (fin (-(1 / 2))) (fin w) = fin (fl (-(1 / 2) * w)) := by
    rw [mul_fin, rnd_fin]
    rw [abs_le]; constructor <;> linarith
  have e2 : mul fl (fin (1 / 2)) (fin w) = fin (fl (1 / 2 * w)) := by
    rw [mul_fin, rnd_fin]
    rw [abs_le]; constructor <;> linarith
  have hslack : (if overlap = true then fin 0 else mul fl (fin (1 / 2)) (fin w)) =
      fin (if overlap = true then 0 else fl (1 / 2 * w)) := by
    rw [e2]; split <;> rfl
  unfold Ieee.trackOffsets
  rw [e1, hslack, trackLoop_fin h hH hw0 b1]
  · unfold Dbl.trackOffsets at hy
    rw [hy]
    rfl
  · split
    · exact le_rfl
    · exact h.ge isDouble_zero (by linarith)
  · split
    · exact b0.le
    · exact h.le isDouble_big (by linarith)
  · exact fl_abs_le h isDouble_two_big (abs_le.2 ⟨by linarith, by linarith⟩)

/-! ## Distances along paths -/

private theorem map_ofState {p : Path} {q : List (PathState Flt)} (h : List.Forall₂ Numbers p q) : q = p.map ofState := by
  induction h with
  | nil => rfl
  | cons h1 _ ih => rw [List.map_cons, ← ih, h1]; rfl

/-- **C128**, numbers: for paths and distances of moderate size `at` is the function of C117. -/
theorem C128_number (h : IsRounding fl) {cos sin : ℝ → ℝ} (hc : ∀ x, |cos x| ≤ 1) (hs : ∀ x, |sin x| ≤ 1) (p : Path)
    (q : List (PathState Flt)) (hq : List.Forall₂ Numbers p q) (hp : ∀ s ∈ p, Moderate s)
    (hL : Dbl.length fl p ≤ 2 ^ 1000) (len : ℝ) :
    Numbers (Dbl.stateAt fl cos sin p len) (Ieee.stateAt fl cos sin q (fin len)) := by
  have hL' : Dbl.length fl p ≤ big := hL
  have hp' : ∀ s ∈ p, |s.point.x| ≤ big ∧ |s.point.y| ≤ big := fun s hs => ⟨(hp s hs).2.2.2.2.1, (hp s hs).2.2.2.2.2.1⟩
  have h0 : 0 ≤ Dbl.length fl p := length_step h p 0 le_rfl isDouble_zero
  have hlen : Ieee.length fl (p.map ofState) = fin (Dbl.length fl p) := length_fin h p 0 le_rfl isDouble_zero hL'
  rw [map_ofState hq]
  unfold Ieee.stateAt Dbl.stateAt
  rw [hlen, lt_fin, lt_fin]
  split
  · rw [atLoop_fin h hc hs p _ h0 hL' hp']; rfl
  · split
    · rw [atLoop_fin h hc hs p _ le_rfl big_pos.le hp']; rfl
    · rw [atLoop_fin h hc hs p _ (by linarith) (by linarith) hp']; rfl

/-- **C128**, infinite distances: the ends of the path, as for every distance that is too large or negative. -/
theorem C128_infinite (h : IsRounding fl) {cos sin : ℝ → ℝ} (hc : ∀ x, |cos x| ≤ 1) (hs : ∀ x, |sin x| ≤ 1) (p : Path)
    (q : List (PathState Flt)) (hq : List.Forall₂ Numbers p q) (hp : ∀ s ∈ p, Moderate s)
    (hL : Dbl.length fl p ≤ 2 ^ 1000) :
    Numbers (Dbl.stateAt fl cos sin p (Dbl.length fl p)) (Ieee.stateAt fl cos sin q pinf) ∧
    Numbers (Dbl.stateAt fl cos sin p 0) (Ieee.stateAt fl cos sin q ninf) := by
  have hL' : Dbl.length fl p ≤ big := hL
  have h0 : 0 ≤ Dbl.length fl p := length_step h p 0 le_rfl isDouble_zero
  have hlen : Ieee.length fl q = fin (Dbl.length fl p) := by
    rw [map_ofState hq]; exact length_fin h p 0 le_rfl isDouble_zero hL'
  have k1 := C128_number h hc hs p q hq hp hL (Dbl.length fl p)
  have k2 := C128_number h hc hs p q hq hp hL 0
  constructor
  · convert k1 using 1
    unfold Ieee.stateAt
    rw [hlen, if_pos (fin_lt_pinf _), lt_fin, if_neg (_root_.lt_irrefl _), lt_fin, if_neg (not_lt.2 h0)]
  · convert k2 using 1
    unfold Ieee.stateAt
    rw [hlen, if_neg (not_lt_ninf _), if_pos (ninf_lt_fin _), lt_fin, if_neg (not_lt.2 h0), lt_fin, if_neg (_root_.lt_irrefl _)]

/-- **C128** is false of distances that are not numbers: the result is the first state, moved to a position that is not a
number. -/
theorem C128_nan (fl cos sin : ℝ → ℝ) (s : PathState Flt) (q : List (PathState Flt)) :
    Ieee.stateAt fl cos sin (s :: q) nan = { s with point := ⟨nan, nan, fin 0⟩ } := by
  simp [Ieee.stateAt, Ieee.atLoop]

/-- **C128**, lengths: if one of the lengths is not a number, the length of the path is none. -/
theorem C128_length_nan (fl : ℝ → ℝ) (q : List (PathState Flt)) (s : PathState Flt) (hs : s ∈ q) (h : s.len = nan) :
    Ieee.length fl q = nan := by
  have key : ∀ (q : List (PathState Flt)) (d : Flt), d = nan ∨ s ∈ q →
      q.foldl (fun d s => add fl d (Flt.abs s.len)) d = nan := by
    intro q
    induction q with
    | nil => intro d hd; simpa using hd
    | cons a q ih =>
      intro d hd
      rw [List.foldl_cons]
      apply ih
      rcases hd with rfl | hd
      · left; simp
      · rcases List.mem_cons.1 hd with rfl | hd
        · left; rw [h]; exact add_nan d
        · exact Or.inr hd
  exact key q _ (Or.inr hs)

/-- **C128** is false of paths with a length that is not a number: if it is the first, `at` extends the first state to any
distance, however far; it does not stop at the end of the path. -/
theorem C128_beyond (h : IsRounding fl) {cos sin : ℝ → ℝ} (hc : ∀ x, |cos x| ≤ 1) (hs : ∀ x, |sin x| ≤ 1)
    (a v : ℝ) (t : SectionType) (q : List (PathState Flt)) (len : ℝ) (h0 : 0 ≤ len) (h1 : len ≤ 2 ^ 1000) (hd : IsDouble len) :
    Ieee.stateAt fl cos sin (⟨⟨fin 0, fin 0, fin 0⟩, fin a, nan, .forward, t, fin v⟩ :: q) (fin len) =
      ⟨⟨fin (fl (len * cos a)), fin (fl (len * sin a)), fin 0⟩, fin a, nan, .forward, t, fin v⟩ := by
  have h1' : len ≤ big := h1
  have b0 := big_pos
  have hl : Ieee.length fl (⟨⟨fin 0, fin 0, fin 0⟩, fin a, nan, .forward, t, fin v⟩ :: q) = nan :=
    C128_length_nan fl _ _ List.mem_cons_self rfl
  have hm : ∀ c : ℝ, |c| ≤ 1 → |len * c| ≤ big := fun c hc => by
    rw [abs_mul, abs_of_nonneg h0]
    nlinarith [abs_nonneg c]
  have e : mul fl (fin len) (fin 1) = fin len := by
    rw [mul_fin, mul_one, rnd_fin (by rw [abs_of_nonneg h0]; linarith), h.self hd]
  have e3 : ∀ c : ℝ, |c| ≤ 1 → add fl (fin 0) (mul fl (fin len) (fin c)) = fin (fl (len * c)) := fun c hc => by
    rw [mul_fin, rnd_fin ((hm c hc).trans (by linarith)), add_fin, zero_add,
      rnd_fin ((fl_abs_le h isDouble_big (hm c hc)).trans (by linarith)), h.self (h.double _)]
  unfold Ieee.stateAt
  rw [hl, if_neg (nan_lt _), lt_fin, if_neg (not_lt.2 h0), Ieee.atLoop, if_neg (by exact nan_lt _)]
  simp only [PathDir.sign, lift_fin, e, e3 _ (hc a), e3 _ (hs a)]

/-- **C128**, `discretizeSwath`: for a step that is infinite or not a number the path stays as it is. -/
theorem C128_discretize_nan (h : IsRounding fl) {cos sin : ℝ → ℝ} (hc : ∀ x, |cos x| ≤ 1) (hs : ∀ x, |sin x| ≤ 1) (p : Path)
    (q : List (PathState Flt)) (hq : List.Forall₂ Numbers p q) (hp : ∀ s ∈ p, Moderate s) (fuel : Nat) (step : Flt)
    (hst : step = nan ∨ step = pinf ∨ step = ninf) :
    Ieee.discretizeSwath fl cos sin (fuel + 1) step q = .ok q := by
  have b0 := big_pos
  induction hq with
  | nil => rfl
  | @cons s q0 p q h1 hq ih =>
    have ih := ih fun s hs => hp s (List.mem_cons_of_mem _ hs)
    obtain ⟨dx, dy, dz, dl, bx, bY, bz, bl⟩ := hp s List.mem_cons_self
    have bx : |s.point.x| ≤ big := bx
    have bY : |s.point.y| ≤ big := bY
    have bz : |s.point.z| ≤ big := bz
    have bl : |s.len| ≤ big := bl
    have d1 : IsDouble 1 := by simpa using isDouble_nat 1 (by norm_num)
    have hn : Ieee.nSteps fl step q0 = fin 1 := by
      unfold Ieee.nSteps
      rw [h1]
      rcases hst with rfl | rfl | rfl
      · simp [Flt.abs, Flt.round, Flt.max]
      · have : Ieee.Flt.div fl (fin s.len) pinf = fin 0 := rfl
        rw [this, abs_fin, abs_zero]
        show Flt.max (fin 1) (fin ((cround 0 : ℤ) : ℝ)) = _
        rw [Flt.max, lt_fin, if_neg (by norm_num [cround])]
      · have : Ieee.Flt.div fl (fin s.len) ninf = fin 0 := rfl
        rw [this, abs_fin, abs_zero]
        show Flt.max (fin 1) (fin ((cround 0 : ℤ) : ℝ)) = _
        rw [Flt.max, lt_fin, if_neg (by norm_num [cround])]
    have hsg : |s.len * (s.dir.sign : ℝ)| ≤ big := by
      rw [abs_mul]
      cases s.dir <;> simpa [PathDir.sign] using bl
    have hl := fl_abs_le h isDouble_big hsg
    have hmul : ∀ c : ℝ, |c| ≤ 1 → |fl (s.len * s.dir.sign) * c| ≤ big := fun c hc => by
      rw [abs_mul]
      calc |fl (s.len * s.dir.sign)| * |c| ≤ big * 1 := mul_le_mul hl hc (abs_nonneg _) b0.le
        _ = big := mul_one _
    have hend : ∃ ex ey : ℝ, |ex| ≤ 2 * big ∧ |ey| ≤ 2 * big ∧ Ieee.endPoint fl cos sin q0 = ⟨fin ex, fin ey, fin 0⟩ := by
      have hsum : ∀ a c : ℝ, |a| ≤ big → |c| ≤ 1 → |a + fl (fl (s.len * s.dir.sign) * c)| ≤ 2 * big := fun a c ha hc => by
        have := fl_abs_le h isDouble_big (hmul c hc)
        exact (abs_add_le _ _).trans (by linarith)
      refine ⟨fl (s.point.x + fl (fl (s.len * s.dir.sign) * cos s.angle)),
        fl (s.point.y + fl (fl (s.len * s.dir.sign) * sin s.angle)), fl_abs_le h isDouble_two_big (hsum _ _ bx (hc _)),
        fl_abs_le h isDouble_two_big (hsum _ _ bY (hs _)), ?_⟩
      unfold Ieee.endPoint
      rw [h1]
      simp only [lift_fin]
      rw [mul_fin, rnd_fin (hsg.trans (by linarith)), mul_fin, mul_fin,
        rnd_fin ((hmul _ (hc _)).trans (by linarith)), rnd_fin ((hmul _ (hs _)).trans (by linarith)), add_fin, add_fin,
        rnd_fin ((hsum _ _ bx (hc _)).trans (by linarith)), rnd_fin ((hsum _ _ bY (hs _)).trans (by linarith))]
    have hz : fl 0 = 0 := h.self isDouble_zero
    have hone : ∀ (a e : ℝ), IsDouble a → |a| ≤ big → |e| ≤ 2 * big →
        add fl (fin a) (mul fl (Ieee.Flt.sub fl (fin e) (fin a)) (fin 0)) = fin a := fun a e da ba be => by
      have h3 : |e - a| ≤ 4 * big := (abs_sub e a).trans (by linarith)
      rw [sub_fin, rnd_fin h3, mul_fin, mul_zero, rnd_fin (by rw [abs_zero]; linarith), hz, add_fin, add_zero,
        rnd_fin (by linarith), h.self da]
    have hsplit : Ieee.splitState fl cos sin (fuel + 1) step q0 = .ok [q0] := by
      obtain ⟨ex, ey, hx, hy, he⟩ := hend
      have ht : Ieee.Flt.div fl (fin 0) (fin 1) = fin 0 := by
        show (if (1 : ℝ) = 0 then _ else rnd fl (0 / 1)) = _
        rw [if_neg one_ne_zero, zero_div, rnd_fin (by rw [abs_zero]; linarith), hz]
      have hlen : Ieee.Flt.div fl (fin s.len) (fin 1) = fin s.len := by
        show (if (1 : ℝ) = 0 then _ else rnd fl (s.len / 1)) = _
        rw [if_neg one_ne_zero, div_one, rnd_fin (by linarith), h.self dl]
      have hpiece : Ieee.piece fl q0 ⟨fin ex, fin ey, fin 0⟩ (fin 1) (fin 0) = q0 := by
        unfold Ieee.piece
        rw [ht, h1]
        simp only [hlen]
        rw [hone _ _ dx bx hx, hone _ _ dy bY hy, hone _ _ dz bz (by rw [abs_zero]; linarith)]
      unfold Ieee.splitState
      rw [hn, he, Ieee.pieceLoop, lt_fin, if_pos one_pos, add_fin, zero_add,
        rnd_fin (by rw [abs_one]; linarith [one_le_big]), h.self d1, hpiece]
      have : Ieee.pieceLoop fl q0 ⟨fin ex, fin ey, fin 0⟩ (fin 1) fuel (fin 1) = .ok [] := by
        cases fuel <;> simp [Ieee.pieceLoop]
      rw [this]
      rfl
    rw [Ieee.discretizeSwath, ih]
    split
    · rw [hsplit]; rfl
    · rfl

/-- **C128**, numbers: for steps other than 0 that go at most 2^60 times into each swath section, `discretizeSwath` is the
function of C124. -/
theorem C128_discretize_number (h : IsRounding fl) {cos sin : ℝ → ℝ} (hc : ∀ x, |cos x| ≤ 1) (hs : ∀ x, |sin x| ≤ 1) (p : Path)
    (q : List (PathState Flt)) (hq : List.Forall₂ Numbers p q) (hp : ∀ s ∈ p, Moderate s) (step : ℝ) (h0 : step ≠ 0)
    (hst : ∀ s ∈ p, |s.len| ≤ 2 ^ 60 * |step|) (r : Path) (hr : Dbl.discretizeSwath fl cos sin step p = .ok r) :
    ∃ n, ∀ fuel, n ≤ fuel → ∃ r', Ieee.discretizeSwath fl cos sin fuel (fin step) q = .ok r' ∧ List.Forall₂ Numbers r r' := by
  have b0 := big_pos
  have hbig : (2 : ℝ) ^ 61 ≤ big := pow_le_pow_right₀ (by norm_num) (by norm_num)
  induction hq generalizing r with
  | nil =>
    cases hr
    exact ⟨0, fun _ _ => ⟨[], rfl, .nil⟩⟩
  | @cons s q0 p q h1 hq ih =>
    obtain ⟨-, -, -, -, hf⟩ := hp s List.mem_cons_self
    have hf : Fits s := hf
    have h1' : q0 = ofState s := h1
    have hquo : |s.len / step| ≤ 2 ^ 60 := by
      rw [abs_div, div_le_iff₀ (abs_pos.2 h0)]
      exact hst s List.mem_cons_self
    have hfq : |fl (s.len / step)| ≤ 2 ^ 60 :=
      fl_abs_le h ⟨2 ^ 50, 10, by norm_num, by norm_num, by norm_num⟩ hquo
    have hn : Ieee.nSteps fl (fin step) q0 = fin (Dbl.nSteps fl step s) := by
      unfold Ieee.nSteps Dbl.nSteps
      rw [h1']
      show Flt.max (fin 1) (Flt.round (Flt.abs (Ieee.Flt.div fl (fin s.len) (fin step)))) = _
      rw [div_fin h0 (by linarith), abs_fin]
      show Flt.max (fin 1) (fin ((cround |fl (s.len / step)| : ℤ) : ℝ)) = _
      rw [Flt.max, lt_fin]
      split
      · rename_i hlt; rw [max_eq_right hlt.le]
      · rename_i hlt; rw [max_eq_left (not_lt.1 hlt)]
    have hn1 : 1 ≤ Dbl.nSteps fl step s := le_max_left _ _
    have hnb : Dbl.nSteps fl step s ≤ big := by
      refine max_le one_le_big ?_
      have : ((cround |fl (s.len / step)| : ℤ) : ℝ) ≤ |fl (s.len / step)| + 1 / 2 := by
        rw [cround, if_pos (abs_nonneg _)]
        exact Int.floor_le _
      linarith
    obtain ⟨he, hex, hey, hez⟩ := endPoint_fin h hc hs s hf
    have hdef : Dbl.discretizeSwath fl cos sin step (s :: p) =
        ((if s.type = .swath then Dbl.splitState fl cos sin step s else .ok [s]) >>= fun g =>
          Dbl.discretizeSwath fl cos sin step p >>= fun rest => .ok (g ++ rest)) := by
      rw [Dbl.discretizeSwath]; split <;> rfl
    have idef : ∀ fuel, Ieee.discretizeSwath fl cos sin fuel (fin step) (q0 :: q) =
        ((if q0.type = .swath then Ieee.splitState fl cos sin fuel (fin step) q0 else .ok [q0]) >>= fun g =>
          Ieee.discretizeSwath fl cos sin fuel (fin step) q >>= fun rest => .ok (g ++ rest)) := fun fuel => by
      rw [Ieee.discretizeSwath]; split <;> rfl
    rw [hdef] at hr
    have hg : ∀ g, (if s.type = .swath then Dbl.splitState fl cos sin step s else .ok [s]) = .ok g →
        ∃ n, ∀ fuel, n ≤ fuel →
          (if q0.type = .swath then Ieee.splitState fl cos sin fuel (fin step) q0 else .ok [q0]) = .ok (g.map ofState) := by
      intro g hg
      have ht : q0.type = s.type := by rw [h1']; rfl
      rw [ht]
      split at hg
      · rename_i hsw
        rw [Dbl.splitState, if_neg (by tauto)] at hg
        refine ⟨⌈Dbl.nSteps fl step s⌉₊, fun fuel hfu => ?_⟩
        rw [if_pos hsw, Ieee.splitState, hn, h1', he]
        exact pieceLoop_fin h s hf _ hex hey hez hn1 hnb _ _ g le_rfl hg fuel hfu
      · rename_i hsw
        cases hg
        exact ⟨0, fun _ _ => by rw [if_neg hsw, h1']; rfl⟩
    cases hg0 : (if s.type = .swath then Dbl.splitState fl cos sin step s else .ok [s]) with
    | throw x => rw [hg0] at hr; cases hr
    | ub x => rw [hg0] at hr; cases hr
    | ok g =>
      rw [hg0, Outcome.ok_bind] at hr
      cases hrest : Dbl.discretizeSwath fl cos sin step p with
      | throw x => rw [hrest] at hr; cases hr
      | ub x => rw [hrest] at hr; cases hr
      | ok rest =>
        rw [hrest] at hr
        cases hr
        obtain ⟨n1, k1⟩ := hg g hg0
        obtain ⟨n2, k2⟩ := ih (fun s hs => hp s (List.mem_cons_of_mem _ hs)) (fun s hs => hst s (List.mem_cons_of_mem _ hs))
          rest hrest
        refine ⟨max n1 n2, fun fuel hfu => ?_⟩
        obtain ⟨r', e, hr'⟩ := k2 fuel ((le_max_right _ _).trans hfu)
        refine ⟨g.map ofState ++ r', ?_, ?_⟩
        · rw [idef, k1 fuel ((le_max_left _ _).trans hfu), e]
          rfl
        · refine List.rel_append (R := Numbers) ?_ hr'
          exact List.forall₂_map_right_iff.2 (List.forall₂_same.2 fun _ _ => rfl)

/-- **C128**, `discretizeSwath` with a step of 0: the loop never ends, as the number of pieces is infinite. -/
theorem C128_discretize_zero (h : IsRounding fl) (cos sin : ℝ → ℝ) (s : PathState Flt) (q : List (PathState Flt)) (x : ℝ)
    (hx : x ≠ 0) (hs : s.len = fin x) (ht : s.type = .swath) (fuel : Nat) :
    Ieee.discretizeSwath fl cos sin fuel (fin 0) (s :: q) = .ub "endless loop" := by
  have hn : Ieee.nSteps fl (fin 0) s = pinf := by
    unfold Ieee.nSteps
    rw [hs]
    show Flt.max (fin 1) (Flt.round (Flt.abs (if (0 : ℝ) = 0 then signed x else _))) = _
    rw [if_pos rfl]
    have : Flt.abs (signed x) = pinf := by
      unfold signed
      rcases lt_or_gt_of_ne hx with h1 | h1
      · rw [if_neg (not_lt.2 h1.le), if_pos h1]; rfl
      · rw [if_pos h1]; rfl
    rw [this]
    show Flt.max (fin 1) pinf = pinf
    rw [Flt.max, if_pos (fin_lt_pinf 1)]
  rw [Ieee.discretizeSwath, if_pos ht, Ieee.splitState, hn, pieceLoop_pinf h _ _ _ _ (by norm_num)]
  rfl

/-! ## Best angle -/

/-- **C129**, what holds: if there is a candidate and the cost of the first one is a number or infinite, the angle returned is
that of a candidate with a cost, none has a lower cost, and those before it have higher costs or none. -/
theorem C129_best_partial (fl : ℝ → ℝ) (step : Flt) (cost : Nat → Flt) (n : ℤ)
    (hn : toInt (Ieee.Flt.div fl (fin twoPi) step) = .ok n) (h1 : 1 ≤ n) (h0 : cost 0 ≠ nan) :
    ∃ k : Nat, (k : ℤ) < n ∧ bestAngle fl step cost = .ok (mul fl (fin k) step) ∧ cost k ≠ nan ∧
      (∀ j : Nat, (j : ℤ) < n → ¬ lt (cost j) (cost k)) ∧ ∀ j < k, cost j ≠ nan → lt (cost k) (cost j) := by
  obtain ⟨m, rfl⟩ : ∃ m : Nat, n = m + 1 := ⟨(n - 1).toNat, by omega⟩
  obtain ⟨k, hk, e, r1, r2, r3⟩ := minLoop_spec cost m 0 1 one_pos h0
    (fun j hj => by rw [Nat.lt_one_iff.1 hj]; exact Ieee.Flt.lt_irrefl _) (fun j hj => absurd hj (Nat.not_lt_zero j))
  refine ⟨k, by omega, ?_, r1, fun j hj => r2 j (by omega), r3⟩
  unfold bestAngle
  rw [hn, Outcome.ok_bind, if_neg (by omega), show ((m : ℤ) + 1).toNat = m + 1 by omega, List.range_eq_range',
    List.range'_succ, List.map_cons]
  simp only
  rw [zero_add, e]

/-- **C129** is false if the cost of the first candidate is not a number: then its angle is returned, whatever the costs of the
others are. -/
theorem C129_first_nan (fl : ℝ → ℝ) (step : Flt) (cost : Nat → Flt) (n : ℤ)
    (hn : toInt (Ieee.Flt.div fl (fin twoPi) step) = .ok n) (h1 : 1 ≤ n) (h0 : cost 0 = nan) :
    bestAngle fl step cost = .ok (mul fl (fin 0) step) := by
  obtain ⟨m, rfl⟩ : ∃ m : Nat, n = m + 1 := ⟨(n - 1).toNat, by omega⟩
  unfold bestAngle
  rw [hn, Outcome.ok_bind, if_neg (by omega), show ((m : ℤ) + 1).toNat = m + 1 by omega, List.range_eq_range',
    List.range'_succ, List.map_cons]
  simp only
  rw [h0, minLoop_nan, Nat.cast_zero]

/-- **C129**, steps: a step that is 0, infinite or not a number is undefined behaviour. -/
theorem C129_undefined (fl : ℝ → ℝ) (step : Flt) (cost : Nat → Flt)
    (hst : step = nan ∨ step = pinf ∨ step = ninf ∨ step = fin 0) : (bestAngle fl step cost).isUb = true := by
  have hz : (toInt (fin 0)) = .ok 0 := by norm_num [toInt]
  rcases hst with rfl | rfl | rfl | rfl
  · rfl
  · have : Ieee.Flt.div fl (fin twoPi) pinf = fin 0 := rfl
    unfold bestAngle
    rw [this, hz]
    rfl
  · have : Ieee.Flt.div fl (fin twoPi) ninf = fin 0 := rfl
    unfold bestAngle
    rw [this, hz]
    rfl
  · have : Ieee.Flt.div fl (fin twoPi) (fin 0) = pinf := by
      show (if (0 : ℝ) = 0 then signed twoPi else _) = _
      rw [if_pos rfl, signed, if_pos (by linarith [twoPi_bounds.1])]
    unfold bestAngle
    rw [this]
    rfl

/-- **C129**, steps: negative ones throw, those of more than a turn (7 and more) are undefined behaviour. -/
theorem C129_range (h : IsRounding fl) (x : ℝ) (cost : Nat → Flt) :
    (-twoPi ≤ x → x ≤ -(1 / 2 ^ 20) → bestAngle fl (fin x) cost = .throw .lengthError) ∧
    (7 ≤ x → (bestAngle fl (fin x) cost).isUb = true) := by
  have hT := twoPi_bounds
  have hb : (2 : ℝ) ^ 24 ≤ big := pow_le_pow_right₀ (by norm_num) (by norm_num)
  constructor
  · intro h1 h2
    have hx : x < 0 := lt_of_le_of_lt h2 (by norm_num)
    have q1 : twoPi / x ≤ -1 := by
      rw [div_le_iff_of_neg hx]; linarith
    have q2 : -2 ^ 24 ≤ twoPi / x := by
      rw [le_div_iff_of_neg hx]
      norm_num at h2 ⊢
      linarith
    have e : Ieee.Flt.div fl (fin twoPi) (fin x) = fin (fl (twoPi / x)) := by
      show (if x = 0 then _ else rnd fl (twoPi / x)) = _
      rw [if_neg hx.ne, rnd_fin (abs_le.2 ⟨by linarith [big_pos], by linarith [big_pos]⟩)]
    have r1 : fl (twoPi / x) ≤ -1 := h.le ⟨-1, 0, by norm_num, by norm_num, by norm_num⟩ q1
    have r2 : -2 ^ 24 ≤ fl (twoPi / x) := h.ge ⟨-2 ^ 24, 0, by norm_num, by norm_num, by norm_num⟩ q2
    have c1 : ⌈fl (twoPi / x)⌉ ≤ -1 := Int.ceil_le.2 (by exact_mod_cast r1)
    have c2 : -2 ^ 24 ≤ ⌈fl (twoPi / x)⌉ := by
      have := (r2.trans (Int.le_ceil _))
      exact_mod_cast this
    unfold bestAngle
    rw [e]
    have : toInt (fin (fl (twoPi / x))) = .ok ⌈fl (twoPi / x)⌉ := by
      unfold toInt
      simp only
      rw [if_neg (by linarith : ¬ 0 ≤ fl (twoPi / x)), if_pos (by constructor <;> linarith)]
    rw [this, Outcome.ok_bind, if_pos (by linarith)]
  · intro h1
    have hx : 0 < x := by linarith
    have q1 : twoPi / x ≤ 15 / 16 := by rw [div_le_iff₀ hx]; linarith
    have q0 : 0 ≤ twoPi / x := by rw [le_div_iff₀ hx]; linarith
    have e : Ieee.Flt.div fl (fin twoPi) (fin x) = fin (fl (twoPi / x)) := by
      show (if x = 0 then _ else rnd fl (twoPi / x)) = _
      rw [if_neg hx.ne', rnd_fin (abs_le.2 ⟨by linarith [big_pos], by linarith [one_le_big]⟩)]
    have r1 : fl (twoPi / x) ≤ 15 / 16 := h.le ⟨15, -4, by norm_num, by norm_num, by norm_num⟩ q1
    have r0 : 0 ≤ fl (twoPi / x) := h.ge isDouble_zero q0
    have c : ⌊fl (twoPi / x)⌋ = 0 := Int.floor_eq_zero_iff.2 ⟨r0, by linarith⟩
    unfold bestAngle
    rw [e]
    have : toInt (fin (fl (twoPi / x))) = .ok 0 := by
      unfold toInt
      simp only
      rw [if_pos r0, c, if_pos (by norm_num)]
    rw [this]
    rfl

/-! ## Points and angles -/

/-- **C130**, points: a point is equal to itself exactly if its three coordinates are finite. -/
theorem C130_self (h : IsRounding fl) (p : Point Flt) :
    pointEq fl p p ↔ ∃ x y z : ℝ, p = ⟨fin x, fin y, fin z⟩ := by
  have hpos : 0 < fl (1 / 10 ^ 7) :=
    lt_of_lt_of_le (by norm_num) (h.ge (d := 1 / 2 ^ 24) ⟨1, -24, by norm_num, by norm_num, by norm_num⟩ (by norm_num))
  have key : ∀ a : Flt, lt (Flt.abs (Ieee.Flt.sub fl a a)) (fin (fl (1 / 10 ^ 7))) ↔ ∃ x, a = fin x := by
    intro a
    cases a with
    | nan => simp [Ieee.Flt.sub, Flt.abs]
    | ninf => exact ⟨fun hc => absurd hc (nan_lt _), fun ⟨x, hx⟩ => by cases hx⟩
    | pinf => exact ⟨fun hc => absurd hc (nan_lt _), fun ⟨x, hx⟩ => by cases hx⟩
    | fin x =>
      rw [sub_fin, sub_self, rnd_fin (by rw [abs_zero]; linarith [big_pos]), abs_fin, h.self isDouble_zero, abs_zero, lt_fin]
      exact ⟨fun _ => ⟨x, rfl⟩, fun _ => hpos⟩
  unfold pointEq
  rw [key, key, key]
  obtain ⟨a, b, c⟩ := p
  constructor
  · rintro ⟨⟨x, hx⟩, ⟨y, hy⟩, ⟨z, hz⟩⟩
    simp only at hx hy hz
    exact ⟨x, y, z, by rw [hx, hy, hz]⟩
  · rintro ⟨x, y, z, e⟩
    simp only [Point.mk.injEq] at e
    exact ⟨⟨x, e.1⟩, ⟨y, e.2.1⟩, ⟨z, e.2.2⟩⟩

/-- **C130**, tolerance: two points of numbers are equal if all coordinates differ by at most 0.99999e-7, and not equal if some
differ by 1.00001e-7 or more. -/
theorem C130_tolerance (h : IsRounding fl) (a b : Point ℝ)
    (ha : |a.x| ≤ 2 ^ 1000 ∧ |a.y| ≤ 2 ^ 1000 ∧ |a.z| ≤ 2 ^ 1000) (hb : |b.x| ≤ 2 ^ 1000 ∧ |b.y| ≤ 2 ^ 1000 ∧ |b.z| ≤ 2 ^ 1000) :
    (|a.x - b.x| ≤ 99999 / 10 ^ 12 → |a.y - b.y| ≤ 99999 / 10 ^ 12 → |a.z - b.z| ≤ 99999 / 10 ^ 12 →
      pointEq fl ⟨fin a.x, fin a.y, fin a.z⟩ ⟨fin b.x, fin b.y, fin b.z⟩) ∧
    (100001 / 10 ^ 12 ≤ |a.x - b.x| ∨ 100001 / 10 ^ 12 ≤ |a.y - b.y| ∨ 100001 / 10 ^ 12 ≤ |a.z - b.z| →
      ¬ pointEq fl ⟨fin a.x, fin a.y, fin a.z⟩ ⟨fin b.x, fin b.y, fin b.z⟩) := by
  have ec := h.error (1 / 10 ^ 7)
  rw [abs_of_pos (a := (1 / 10 ^ 7 : ℝ)) (by norm_num)] at ec
  have tiny : (2 : ℝ) ^ (-1075 : ℤ) ≤ 1 / 2 ^ 100 := by
    rw [one_div, ← zpow_natCast, ← zpow_neg]
    exact zpow_le_zpow_right₀ (by norm_num) (by norm_num)
  have ec := abs_le.1 ec
  unfold pointEq
  generalize fl (1 / 10 ^ 7) = c at ec ⊢
  generalize (2 : ℝ) ^ (-1075 : ℤ) = u at ec tiny
  have c1 : 999999 / 10 ^ 13 ≤ c := by norm_num at ec tiny ⊢; linarith [ec.2]
  have c2 : c ≤ 1000001 / 10 ^ 13 := by norm_num at ec tiny ⊢; linarith [ec.1]
  have key : ∀ x y : ℝ, |x| ≤ big → |y| ≤ big →
      (|x - y| ≤ 99999 / 10 ^ 12 → lt (Flt.abs (Ieee.Flt.sub fl (fin x) (fin y))) (fin c)) ∧
      (100001 / 10 ^ 12 ≤ |x - y| → ¬ lt (Flt.abs (Ieee.Flt.sub fl (fin x) (fin y))) (fin c)) := by
    intro x y hx hy
    have hd : |x - y| ≤ 4 * big := (abs_sub x y).trans (by linarith [big_pos])
    rw [sub_fin, rnd_fin hd, abs_fin, lt_fin, not_lt]
    have e := h.error (x - y)
    have tiny : (2 : ℝ) ^ (-1075 : ℤ) ≤ 1 / 2 ^ 100 := by
      rw [one_div, ← zpow_natCast, ← zpow_neg]
      exact zpow_le_zpow_right₀ (by norm_num) (by norm_num)
    generalize (2 : ℝ) ^ (-1075 : ℤ) = u at e tiny
    have e1 : |fl (x - y)| ≤ |x - y| + (|x - y| / 2 ^ 53 + u) := by
      have := abs_sub_abs_le_abs_sub (fl (x - y)) (x - y)
      rw [abs_sub_comm (fl (x - y)) (x - y)] at this
      linarith
    have e2 : |x - y| ≤ |fl (x - y)| + (|x - y| / 2 ^ 53 + u) := by
      have := abs_sub_abs_le_abs_sub (x - y) (fl (x - y))
      linarith
    constructor
    · intro hxy
      norm_num at e1 hxy c1 tiny ⊢
      linarith
    · intro hxy
      norm_num at e2 hxy c2 tiny ⊢
      linarith
  have kx := key a.x b.x ha.1 hb.1
  have ky := key a.y b.y ha.2.1 hb.2.1
  have kz := key a.z b.z ha.2.2 hb.2.2
  refine ⟨fun h1 h2 h3 => ⟨kx.1 h1, ky.1 h2, kz.1 h3⟩, ?_⟩
  rintro (h1 | h1 | h1) ⟨g1, g2, g3⟩
  · exact kx.2 h1 g1
  · exact ky.2 h1 g2
  · exact kz.2 h1 g3

/-- **C130**, angles: normalising an angle gives a number of [0, 2π) for all numbers, and none for infinities and NaN. -/
theorem C130_angle (h : IsRounding fl) (a : Flt) :
    (∀ x, a = fin x → ∃ y, Ieee.mod2pi fl a = fin y ∧ 0 ≤ y ∧ y < twoPi) ∧
    ((∀ x, a ≠ fin x) → Ieee.mod2pi fl a = nan) := by
  constructor
  · rintro x rfl
    exact ⟨_, rfl, (C114_mod h x).1⟩
  · intro ha
    cases a with
    | fin x => exact absurd rfl (ha x)
    | _ => rfl

/-! ## Examples -/

example : ∃ r, Robot.make (fin 2) (fin 0) (fin 1) (fin 1) = .ok r ∧ Positive r.covWidth := by
  obtain ⟨r, hr⟩ := (C127_robot (fin 2) (fin 0) (fin 1) (fin 1)).1.2
    ⟨Or.inl (by norm_num [Positive]), Or.inl (by norm_num [NotNegative])⟩
  exact ⟨r, hr, (C127_robot_partial _ _ _ _ (by simp) (by simp) r hr).2.1⟩

example : setWidth (fin (-1)) = .throw .invalidArgument := (C127_swath _).2 (by
  rintro (h | h)
  · norm_num [Positive] at h
  · cases h)

/-- Three tracks of width 2 in a field of height 5. -/
example : ∃ ys : List ℝ, Ieee.trackOffsets toNearest (⌈(5 : ℝ) / 2⌉₊ + 1) false (fin 5) (fin 2) = .ok (ys.map fin) ∧
    ys.length = 3 := by
  have h := toNearest_isRounding
  have d2 : IsDouble 2 := by simpa using isDouble_nat 2 (by norm_num)
  obtain ⟨ys, h1, h2⟩ := C115_number h 5 2 d2
    ((zpow_le_zpow_right₀ (by norm_num) (by norm_num) : (2 : ℝ) ^ (-1000 : ℤ) ≤ 2 ^ (1 : ℤ)).trans (by norm_num))
    (by norm_num) (by norm_num) (fun k => by
      rcases Nat.lt_or_ge k 3 with hk | hk
      · have : (k : ℝ) ≤ 2 := by exact_mod_cast Nat.lt_succ_iff.1 hk
        rw [abs_of_pos (by linarith)]
        linarith
      · have : (3 : ℝ) ≤ k := by exact_mod_cast hk
        rw [abs_of_neg (by linarith)]
        linarith)
  have b : (5 : ℝ) ≤ 2 ^ 1000 := le_trans (by norm_num) (pow_le_pow_right₀ (by norm_num) (by norm_num : 3 ≤ 1000))
  refine ⟨ys, C127_finite_tracks h false 5 2 ?_ (by norm_num) (le_trans (by norm_num) b) ys h1, ?_⟩
  · rw [abs_of_pos (by norm_num)]; exact b
  · rw [h2]; norm_num [Nat.ceil_eq_iff]

/-- A path of one state of 4 m. -/
private def oneState : PathState ℝ := ⟨⟨1, 2, 3⟩, 0, 4, .forward, .swath, 1⟩

private theorem oneState_moderate : ∀ s ∈ [oneState], Moderate s := by
  have b : ∀ k : ℝ, k ≤ 8 → k ≤ 2 ^ 1000 := fun k hk =>
    le_trans (le_trans hk (by norm_num)) (pow_le_pow_right₀ (by norm_num) (by norm_num : 3 ≤ 1000))
  have D : ∀ k : Nat, k ≤ 2 ^ 53 → IsDouble k := isDouble_nat
  intro s hs
  rw [List.mem_singleton.1 hs]
  refine ⟨by simpa [oneState] using D 1 (by norm_num), by simpa [oneState] using D 2 (by norm_num),
    by simpa [oneState] using D 3 (by norm_num), by simpa [oneState] using D 4 (by norm_num), ?_, ?_, ?_, ?_⟩ <;>
  · apply b
    norm_num [oneState]

/-- At infinity it is the state at its end, and cutting it at NaN changes nothing. -/
example : Numbers (Dbl.stateAt toNearest (fun _ => 1) (fun _ => 0) [oneState] (Dbl.length toNearest [oneState]))
      (Ieee.stateAt toNearest (fun _ => 1) (fun _ => 0) [ofState oneState] pinf) ∧
    Ieee.discretizeSwath toNearest (fun _ => 1) (fun _ => 0) 1 nan [ofState oneState] = .ok [ofState oneState] := by
  have h := toNearest_isRounding
  have b : ∀ k : ℝ, k ≤ 8 → k ≤ 2 ^ 1000 := fun k hk =>
    le_trans (le_trans hk (by norm_num)) (pow_le_pow_right₀ (by norm_num) (by norm_num : 3 ≤ 1000))
  have hq : List.Forall₂ Numbers [oneState] [ofState oneState] := .cons rfl .nil
  have hL : Dbl.length toNearest [oneState] ≤ 2 ^ 1000 := by
    apply b
    have := h.self (isDouble_nat 4 (by norm_num))
    norm_num at this
    norm_num [Dbl.length, oneState, this]
  exact ⟨(C128_infinite h (by norm_num) (by norm_num) _ _ hq oneState_moderate hL).1,
    C128_discretize_nan h (by norm_num) (by norm_num) _ _ hq oneState_moderate 0 nan (Or.inl rfl)⟩

/-- Cut at steps of 1 m it is as in C124. -/
example : ∃ r r' fuel, Dbl.discretizeSwath toNearest (fun _ => 1) (fun _ => 0) 1 [oneState] = .ok r ∧
    Ieee.discretizeSwath toNearest (fun _ => 1) (fun _ => 0) fuel (fin 1) [ofState oneState] = .ok r' ∧
    List.Forall₂ Numbers r r' := by
  have h := toNearest_isRounding
  obtain ⟨d1, d2, d3, d4, -⟩ := oneState_moderate oneState (by simp)
  obtain ⟨g, hg, -⟩ := C124_discretize h (fun _ => 1) (fun _ => 0) (by norm_num) (by norm_num) 1 (by norm_num) [oneState]
    (fun s hs _ => by
      rw [List.mem_singleton.1 hs]
      exact ⟨d4, ⟨d1, d2, d3⟩, by norm_num [oneState]⟩)
  obtain ⟨n, hn⟩ := C128_discretize_number h (cos := fun _ => 1) (sin := fun _ => 0) (by norm_num) (by norm_num) [oneState]
    [ofState oneState] (.cons rfl .nil) oneState_moderate 1 (by norm_num)
    (fun s hs => by rw [List.mem_singleton.1 hs]; norm_num [oneState]) _ hg
  obtain ⟨r', h1, h2⟩ := hn n le_rfl
  exact ⟨_, r', n, hg, h1, h2⟩

/-- A state whose length is not a number, 1000 m on. -/
example : (Ieee.stateAt toNearest (fun _ => 1) (fun _ => 0)
    [⟨⟨fin 0, fin 0, fin 0⟩, fin 0, nan, .forward, .swath, fin 1⟩] (fin 1000)).point = ⟨fin 1000, fin 0, fin 0⟩ := by
  have h := toNearest_isRounding
  have d : IsDouble 1000 := by simpa using isDouble_nat 1000 (by norm_num)
  rw [C128_beyond h (by norm_num) (by norm_num) 0 1 _ _ 1000 (by norm_num)
    (le_trans (by norm_num) (pow_le_pow_right₀ (by norm_num) (by norm_num : 10 ≤ 1000) : (2 : ℝ) ^ 10 ≤ 2 ^ 1000)) d]
  simp [h.self d, h.self isDouble_zero]

private theorem four_candidates : toInt (Ieee.Flt.div toNearest (fin twoPi) (fin (twoPi / 4))) = .ok 4 := by
  have h := toNearest_isRounding
  have hT := twoPi_bounds
  have e : twoPi / (twoPi / 4) = 4 := by
    rw [div_div_cancel₀ (by linarith : twoPi ≠ 0)]
  show toInt (if twoPi / 4 = 0 then _ else rnd toNearest (twoPi / (twoPi / 4))) = _
  have b : (4 : ℝ) ≤ big := le_trans (by norm_num) (pow_le_pow_right₀ (by norm_num) (by norm_num : 2 ≤ 1000) : (2 : ℝ) ^ 2 ≤ 2 ^ 1000)
  have d4 : IsDouble 4 := by simpa using isDouble_nat 4 (by norm_num)
  rw [if_neg (by linarith), e, rnd_fin (by rw [abs_of_pos (by norm_num)]; linarith), h.self d4]
  norm_num [toInt]


/-- A cost that is not a number in the middle does no harm: four candidates with costs 3, NaN, 1, 2. -/
example : bestAngle toNearest (fin (twoPi / 4)) 
    (fun i => if i = 0 then fin 3 else if i = 1 then nan else if i = 2 then fin 1 else fin 2) =
    .ok (mul toNearest (fin 2) (fin (twoPi / 4))) := by
  have hn := four_candidates
  obtain ⟨k, hk, e, h1, h2, h3⟩ := C129_best_partial toNearest (fin (twoPi / 4))
    (fun i => if i = 0 then fin 3 else if i = 1 then nan else if i = 2 then fin 1 else fin 2) 4 hn (by norm_num) (by simp)
  have : k = 2 := by
    have h2 := h2 2 (by norm_num)
    have hk : k < 4 := by omega
    obtain rfl | rfl | rfl | rfl : k = 0 ∨ k = 1 ∨ k = 2 ∨ k = 3 := by omega
    · exact absurd h2 (by norm_num)
    · exact absurd rfl h1
    · rfl
    · exact absurd h2 (by norm_num)
  rw [e, this]
  norm_num

/-- If the first cost is not a number, the first angle is returned, though the others have costs. -/
example : bestAngle toNearest (fin (twoPi / 4)) (fun i => if i = 0 then nan else fin i) =
    .ok (mul toNearest (fin 0) (fin (twoPi / 4))) :=
  C129_first_nan _ _ _ 4 four_candidates (by norm_num) rfl

example : bestAngle toNearest (fin (-1)) (fun _ => fin 0) = .throw .lengthError :=
  (C129_range toNearest_isRounding (-1) _).1 (by linarith [twoPi_bounds]) (by norm_num)

example : pointEq toNearest ⟨fin 0, fin 0, fin 0⟩ ⟨fin 0, fin 0, fin (9 / 10 ^ 8)⟩ ∧
    ¬ pointEq toNearest ⟨fin 0, fin 0, fin 0⟩ ⟨fin 0, fin 0, fin (2 / 10 ^ 7)⟩ := by
  have b : ∀ k : ℝ, k ≤ 1 → k ≤ 2 ^ 1000 := fun k hk => le_trans hk (one_le_pow₀ (by norm_num))
  have b0 : |(0 : ℝ)| ≤ 2 ^ 1000 := b _ (by norm_num)
  constructor
  · exact (C130_tolerance toNearest_isRounding ⟨0, 0, 0⟩ ⟨0, 0, 9 / 10 ^ 8⟩ ⟨b0, b0, b0⟩ ⟨b0, b0, b _ (by norm_num [abs_of_pos])⟩).1
      (by norm_num) (by norm_num) (by norm_num [abs_of_pos])
  · exact (C130_tolerance toNearest_isRounding ⟨0, 0, 0⟩ ⟨0, 0, 2 / 10 ^ 7⟩ ⟨b0, b0, b0⟩ ⟨b0, b0, b _ (by norm_num [abs_of_pos])⟩).2
      (.inr (.inr (by norm_num [abs_of_pos])))

example : ¬ pointEq toNearest ⟨pinf, fin 0, fin 0⟩ ⟨pinf, fin 0, fin 0⟩ := by
  rw [C130_self toNearest_isRounding]
  rintro ⟨x, y, z, e⟩
  simp at e

end F2C.Props
