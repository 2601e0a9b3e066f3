import Verif.Props.Route

/-!
# Property C121: parts of a route can be read and replaced
-/

set_option linter.unusedSectionVars false

namespace F2C.Props

open RouteSpec RouteL

variable {K : Type} [Field K] [LinearOrder K]

namespace RouteEditSpec

/-- The functions that change a route: those that add to it, and those that replace a part. -/
inductive REdit (K : Type)
  | add (o : ROp K)
  | setSwaths (i : Nat) (l : Swaths K)
  | setConnection (i : Nat) (ps : List (Point K))

/-- Effect of a call. -/
def REdit.exec (sp : Point K → Point K → List (Point K)) (r : Route K) : REdit K → Outcome (Route K)
  | .add o => o.exec sp r
  | .setSwaths i l => r.setSwaths i l
  | .setConnection i ps => r.setConnection i ps

/-- A route after some calls. -/
def runEdits (sp : Point K → Point K → List (Point K)) (es : List (REdit K)) : Outcome (Route K) :=
  foldOutcome (REdit.exec sp) Route.empty es

end RouteEditSpec

open RouteEditSpec

private theorem exec_inv {sp : Point K → Point K → List (Point K)} {r r' : Route K} {e : REdit K}
    (hi : Inv r) (h : e.exec sp r = .ok r') : Inv r' := by
  cases e with
  | add o =>
    obtain ⟨r₀, h1, h2, -⟩ := exec_spec sp r hi o
    rw [show REdit.exec sp r (.add o) = o.exec sp r from rfl, h1] at h
    injection h with h
    exact h ▸ h2
  | setSwaths i l =>
    simp only [REdit.exec, Route.setSwaths] at h
    split at h
    · injection h with h
      subst h
      simpa [RouteL.Inv] using hi
    · cases h
  | setConnection i ps =>
    simp only [REdit.exec, Route.setConnection] at h
    split at h
    · injection h with h
      subst h
      simpa [RouteL.Inv] using hi
    · cases h

private theorem run_inv {sp : Point K → Point K → List (Point K)} : ∀ (es : List (REdit K)) {r r' : Route K},
    Inv r → foldOutcome (REdit.exec sp) r es = .ok r' → Inv r'
  | [], r, r', hi, h => by
    injection h with h
    exact h ▸ hi
  | e :: es, r, r', hi, h => by
    unfold foldOutcome at h
    cases he : REdit.exec sp r e with
    | ok r₁ =>
      rw [he, Outcome.ok_bind] at h
      exact run_inv es (exec_inv hi he) h
    | throw x => rw [he] at h; cases h
    | ub x => rw [he] at h; cases h

/-- C121: whatever was replaced, the route alternates connections and groups of swaths, and its line lists
their points in this order. -/
theorem C121_line (sp : Point K → Point K → List (Point K)) (es : List (REdit K)) (r : Route K)
    (h : runEdits sp es = .ok r) :
    r.sizeVectorSwaths ≤ r.sizeConnections ∧ r.sizeConnections ≤ r.sizeVectorSwaths + 1 ∧
    r.asLineString = interleave r.connections r.groups := by
  have hi := run_inv es inv_empty h
  exact ⟨hi.1, hi.2, asLineString_eq r hi⟩

private theorem interleave_set_conn : ∀ (cs : List (List (Point K))) (gs : List (Swaths K)) (i : Nat)
    (hi : i < cs.length), gs.length ≤ cs.length → cs.length ≤ gs.length + 1 → ∀ ps, ∃ b,
    interleave cs gs = interleave (cs.take i) (gs.take i) ++ cs[i] ++ b ∧
    interleave (cs.set i ps) gs = interleave (cs.take i) (gs.take i) ++ ps ++ b
  | [], _, _, hi, _, _, _ => absurd hi (by simp)
  | c :: cs, [], 0, _, _, _, ps => ⟨interleave cs [], by simp [interleave], by simp [interleave]⟩
  | c :: cs, g :: gs, 0, _, _, _, ps =>
    ⟨(g.flatMap fun s => s.path) ++ interleave cs gs, by simp [interleave], by simp [interleave]⟩
  | c :: cs, [], i + 1, hi, _, h2, ps => by
    simp only [List.length_cons, List.length_nil] at hi h2
    omega
  | c :: cs, g :: gs, i + 1, hi, h1, h2, ps => by
    obtain ⟨b, e1, e2⟩ := interleave_set_conn cs gs i (by simpa using hi) (by simpa using h1)
      (by simpa using h2) ps
    exact ⟨b, by simp [interleave, e1], by simp [interleave, e2]⟩

private theorem interleave_set_group : ∀ (cs : List (List (Point K))) (gs : List (Swaths K)) (i : Nat)
    (hi : i < gs.length), gs.length ≤ cs.length → ∀ l : Swaths K, ∃ b,
    interleave cs gs = interleave (cs.take (i + 1)) (gs.take i) ++ (gs[i].flatMap fun s => s.path) ++ b ∧
    interleave cs (gs.set i l) =
      interleave (cs.take (i + 1)) (gs.take i) ++ (l.flatMap fun s => s.path) ++ b
  | _, [], _, hi, _, _ => absurd hi (by simp)
  | [], g :: gs, _, _, h, _ => absurd h (by simp)
  | c :: cs, g :: gs, 0, _, _, l => ⟨interleave cs gs, by simp [interleave], by simp [interleave]⟩
  | c :: cs, g :: gs, i + 1, hi, h, l => by
    obtain ⟨b, e1, e2⟩ := interleave_set_group cs gs i (by simpa using hi) (by simpa using h) l
    exact ⟨b, by simp [interleave, e1], by simp [interleave, e2]⟩

/-- C121: replacing a connection replaces its points in the line of the route, between the parts before
and after it, and changes no other part. -/
theorem C121_set_connection (sp : Point K → Point K → List (Point K)) (es : List (REdit K)) (r : Route K)
    (h : runEdits sp es = .ok r) (i : Nat) (ps : List (Point K)) (hi : i < r.sizeConnections) :
    ∃ r' old b, r.setConnection i ps = .ok r' ∧ r.getConnection i = .ok old ∧ r'.getConnection i = .ok ps ∧
      (∀ j, j ≠ i → r'.getConnection j = r.getConnection j) ∧ (∀ j, r'.getSwaths j = r.getSwaths j) ∧
      r'.sizeConnections = r.sizeConnections ∧ r'.sizeVectorSwaths = r.sizeVectorSwaths ∧
      r.asLineString = interleave (r.connections.take i) (r.groups.take i) ++ old ++ b ∧
      r'.asLineString = interleave (r.connections.take i) (r.groups.take i) ++ ps ++ b := by
  have inv := run_inv es inv_empty h
  have hi' : i < r.connections.length := hi
  obtain ⟨b, e1, e2⟩ := interleave_set_conn r.connections r.groups i hi inv.1 inv.2 ps
  have hs : r.setConnection i ps = .ok { r with connections := r.connections.set i ps } := if_pos hi'
  refine ⟨_, r.connections[i], b, hs, ?_, ?_, ?_, fun j => rfl, ?_, rfl, ?_, ?_⟩
  · simp [Route.getConnection, hi']
  · simp [Route.getConnection, hi']
  · intro j hj
    simp [Route.getConnection, List.getElem?_set_ne (Ne.symm hj)]
  · simp [Route.sizeConnections]
  · exact (asLineString_eq r inv).trans e1
  · rw [asLineString_eq _ (exec_inv (sp := sp) (e := .setConnection i ps) inv hs), e2]

/-- C121: the same for groups of swaths. -/
theorem C121_set_swaths (sp : Point K → Point K → List (Point K)) (es : List (REdit K)) (r : Route K)
    (h : runEdits sp es = .ok r) (i : Nat) (l : Swaths K) (hi : i < r.sizeVectorSwaths) :
    ∃ r' old b, r.setSwaths i l = .ok r' ∧ r.getSwaths i = .ok old ∧ r'.getSwaths i = .ok l ∧
      (∀ j, j ≠ i → r'.getSwaths j = r.getSwaths j) ∧ (∀ j, r'.getConnection j = r.getConnection j) ∧
      r'.sizeConnections = r.sizeConnections ∧ r'.sizeVectorSwaths = r.sizeVectorSwaths ∧
      r.asLineString = interleave (r.connections.take (i + 1)) (r.groups.take i) ++
        (old.flatMap fun s => s.path) ++ b ∧
      r'.asLineString = interleave (r.connections.take (i + 1)) (r.groups.take i) ++
        (l.flatMap fun s => s.path) ++ b := by
  have inv := run_inv es inv_empty h
  have hi' : i < r.groups.length := hi
  obtain ⟨b, e1, e2⟩ := interleave_set_group r.connections r.groups i hi inv.1 l
  have hs : r.setSwaths i l = .ok { r with groups := r.groups.set i l } := if_pos hi'
  refine ⟨_, r.groups[i], b, hs, ?_, ?_, ?_, fun j => rfl, rfl, ?_, ?_, ?_⟩
  · simp [Route.getSwaths, hi']
  · simp [Route.getSwaths, hi']
  · intro j hj
    simp [Route.getSwaths, List.getElem?_set_ne (Ne.symm hj)]
  · simp [Route.sizeVectorSwaths]
  · exact (asLineString_eq r inv).trans e1
  · rw [asLineString_eq _ (exec_inv (sp := sp) (e := .setSwaths i l) inv hs), e2]

/-- C121: reading and replacing is undefined behaviour exactly for numbers from the size on. -/
theorem C121_out_of_range (r : Route K) (i : Nat) (ps : List (Point K)) (l : Swaths K) :
    ((r.getConnection i).isUb = true ↔ r.sizeConnections ≤ i) ∧
    ((r.setConnection i ps).isUb = true ↔ r.sizeConnections ≤ i) ∧
    ((r.getSwaths i).isUb = true ↔ r.sizeVectorSwaths ≤ i) ∧
    ((r.setSwaths i l).isUb = true ↔ r.sizeVectorSwaths ≤ i) := by
  unfold Route.getConnection Route.setConnection Route.getSwaths Route.setSwaths Route.sizeConnections
    Route.sizeVectorSwaths
  refine ⟨?_, ?_, ?_, ?_⟩
  · rcases Nat.lt_or_ge i r.connections.length with h | h
    · simp [List.getElem?_eq_getElem h, Outcome.isUb, h]
    · simp [List.getElem?_eq_none h, Outcome.isUb, h]
  · rcases Nat.lt_or_ge i r.connections.length with h | h
    · simp [Outcome.isUb, h]
    · simp [Outcome.isUb, h, Nat.not_lt.2 h]
  · rcases Nat.lt_or_ge i r.groups.length with h | h
    · simp [List.getElem?_eq_getElem h, Outcome.isUb, h]
    · simp [List.getElem?_eq_none h, Outcome.isUb, h]
  · rcases Nat.lt_or_ge i r.groups.length with h | h
    · simp [Outcome.isUb, h]
    · simp [Outcome.isUb, h, Nat.not_lt.2 h]

/-- C121: the last connection and the last group are those with the largest numbers; without any, asking for
them is undefined behaviour. -/
theorem C121_last (r : Route K) :
    ((r.getLastConnection).isUb = true ↔ r.sizeConnections = 0) ∧
    (r.sizeConnections ≠ 0 → r.getLastConnection = r.getConnection (r.sizeConnections - 1)) ∧
    ((r.getLastSwaths).isUb = true ↔ r.sizeVectorSwaths = 0) ∧
    (r.sizeVectorSwaths ≠ 0 → r.getLastSwaths = r.getSwaths (r.sizeVectorSwaths - 1)) := by
  unfold Route.getLastConnection Route.getLastSwaths Route.getConnection Route.getSwaths
    Route.sizeConnections Route.sizeVectorSwaths
  refine ⟨?_, fun h => ?_, ?_, fun h => ?_⟩
  · cases hl : r.connections using List.reverseRecOn <;> simp [Outcome.isUb]
  · rw [List.getLast?_eq_getElem?]
    have : r.connections.length - 1 < r.connections.length := by omega
    rw [List.getElem?_eq_getElem this]
  · cases hl : r.groups using List.reverseRecOn <;> simp [Outcome.isUb]
  · rw [List.getLast?_eq_getElem?]
    have : r.groups.length - 1 < r.groups.length := by omega
    rw [List.getElem?_eq_getElem this]

/-- The calls that add swaths, even if they add none. -/
def RouteEditSpec.IsSwaths : ROp K → Prop
  | .swath _ | .swaths _ | .connectedSwaths _ _ | .swathVia _ => True
  | .connection | .connectionPoint _ | .connectionPoints _ => False

private theorem modifyBack_ne {α : Type} {f : α → α} {l l' : List α} (h : modifyBack f l = .ok l') :
    l' ≠ [] ∧ l ≠ [] := by
  unfold modifyBack at h
  split at h
  · cases h
  · rename_i a ha
    injection h with h
    subst h
    refine ⟨by simp, ?_⟩
    rintro rfl
    simp at ha

private theorem bind_ok {α β : Type} {x : Outcome α} {f : α → Outcome β} {b : β} (h : (x >>= f) = .ok b) :
    ∃ a, x = .ok a ∧ f a = .ok b := by
  cases x with
  | ok a => exact ⟨a, rfl, h⟩
  | throw e => cases h
  | ub e => cases h

private theorem addSwaths_ne {r r' : Route K} {l : Swaths K} (h : r.addSwaths l = .ok r') : r'.groups ≠ [] := by
  unfold Route.addSwaths at h
  simp only at h
  generalize (if r.connections.length = 0 then r.connections ++ [[]] else r.connections) = cs at h
  split at h
  · injection h with h
    subst h
    simp
  · obtain ⟨gs, h1, h⟩ := bind_ok h
    injection h with h
    subst h
    exact (modifyBack_ne h1).1

private theorem addSwath_ne {r r' : Route K} {s : Swath K} (h : r.addSwath s = .ok r') : r'.groups ≠ [] := by
  unfold Route.addSwath at h
  obtain ⟨gs, h1, h⟩ := bind_ok h
  injection h with h
  subst h
  exact (modifyBack_ne h1).1

private theorem addConnection_groups (r : Route K) : r.addConnection.groups = r.groups := by
  unfold Route.addConnection
  split <;> rfl

private theorem addPoint_groups {r r' : Route K} {p : Point K} (h : r.addConnectionPoint p = .ok r') :
    r'.groups = r.groups := by
  unfold Route.addConnectionPoint at h
  obtain ⟨cs, -, h⟩ := bind_ok h
  injection h with h
  subst h
  exact addConnection_groups r

private theorem addPoints_groups : ∀ (ps : List (Point K)) {r r' : Route K},
    foldOutcome Route.addConnectionPoint r ps = .ok r' → r'.groups = r.groups
  | [], r, r', h => by
    injection h with h
    exact h ▸ rfl
  | p :: ps, r, r', h => by
    obtain ⟨r₁, h1, h2⟩ := bind_ok h
    exact (addPoints_groups ps h2).trans (addPoint_groups h1)

private theorem exec_groups {sp : Point K → Point K → List (Point K)} {r r' : Route K} {o : ROp K}
    (h : o.exec sp r = .ok r') : r'.groups ≠ [] ↔ r.groups ≠ [] ∨ IsSwaths o := by
  cases o with
  | swath s => simp [IsSwaths, addSwath_ne h]
  | swaths l => simp [IsSwaths, addSwaths_ne h]
  | connection =>
    injection h with h
    subst h
    simp [IsSwaths, addConnection_groups]
  | connectionPoint p => simp [IsSwaths, addPoint_groups h]
  | connectionPoints ps =>
    have := addPoints_groups ps h
    rw [this]
    split <;> simp [IsSwaths, addConnection_groups]
  | connectedSwaths ps l =>
    obtain ⟨r₁, -, h2⟩ := bind_ok (show (r.addConnectionPoints ps >>= fun x => x.addSwaths l) = .ok r' from h)
    simp [IsSwaths, addSwaths_ne h2]
  | swathVia s =>
    change r.addSwathVia (fun a b => .ok (sp a b)) s = .ok r' at h
    unfold Route.addSwathVia at h
    simp only [Outcome.ok_bind] at h
    split at h
    · simp [IsSwaths, addSwath_ne h]
    · obtain ⟨r₁, -, h2⟩ := bind_ok h
      simp [IsSwaths, addSwath_ne h2]

/-- C121: a route that anything was added to has a last connection; it has a last group of swaths as soon
as swaths, even an empty collection of them, were added. -/
theorem C121_has_last (sp : Point K → Point K → List (Point K)) (ops : List (ROp K))
    (r : Route K) (h : RouteSpec.run sp ops = .ok r) :
    (r.getLastConnection.isOk = true ↔ ops ≠ []) ∧
    (r.getLastSwaths.isOk = true ↔ ∃ o ∈ ops, IsSwaths o) := by
  obtain ⟨r₀, h1, inv⟩ := run_ok sp ops
  rw [h] at h1
  injection h1 with h1
  subst h1
  constructor
  · have hne := run_isEmpty sp ops r h
    unfold Route.getLastConnection
    rw [ne_eq, ← hne]
    unfold Route.isEmpty
    obtain ⟨cs, gs⟩ := r
    cases cs using List.reverseRecOn with
    | nil =>
      have : gs = [] := List.length_eq_zero_iff.1 (Nat.le_zero.1 inv.1)
      simp [this, Outcome.isOk]
    | append_singleton cs c => simp [Outcome.isOk]
  · have hg : r.groups ≠ [] ↔ ∃ o ∈ ops, IsSwaths o := by
      clear inv
      induction ops using List.reverseRecOn generalizing r with
      | nil =>
        injection h with h
        subst h
        simp [Route.empty]
      | append_singleton ops o ih =>
        rw [run_concat] at h
        obtain ⟨r₁, h1, h2⟩ := bind_ok h
        rw [exec_groups h2, ih r₁ h1]
        simp [or_and_right, exists_or]
    rw [← hg]
    unfold Route.getLastSwaths
    cases hgs : r.groups using List.reverseRecOn <;> simp [Outcome.isOk]

/-- A route with a replaced connection and a replaced group. -/
def editDemo : List (REdit ℚ) :=
  [.add (.swath rs1), .add (.connectedSwaths [⟨1, 1, 0⟩] [rs2]), .setConnection 0 [⟨-1, 0, 0⟩],
    .setSwaths 1 [rs1, rs1], .setConnection 1 []]

example : (runEdits (fun a b => [a, b]) editDemo).map (fun r =>
    (r.asLineString.map fun p => (p.x, p.y), r.sizeConnections, r.sizeVectorSwaths)) =
    .ok ([(-1, 0), (0, 0), (0, 5), (0, 0), (0, 5), (0, 0), (0, 5)], 2, 2) := by decide +kernel

end F2C.Props
