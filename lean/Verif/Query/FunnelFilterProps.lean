import Verif.Query.Funnel

/-! Property C164 (the filter of a funnel). -/

namespace OptiPrism.Query

variable {G K : Type}

/-- The same funnel with another filter. -/
def FCfg.filtered (c : FCfg) (f : Option FFilter) : FCfg := { c with filter := f }

/-- **C164** (partial: not which attempts count, only which end the rows of their user): an attempt that reaches the last step ends the user's rows exactly if users are counted once and the filter accepts it: without a filter always,
with drop-off on any step never, with drop-off on a step if that is the last one, with a time to convert if the time is within the bounds. -/
theorem C164_skip_partial (c : FCfg) (g : FGroup) (r : FRow G K) (hm : matchesStep c g.curStep r = true) (hc : g.completed = g.curStep)
    (hl : g.curStep + 1 = c.len) : (g.step c r).2 = true ↔ c.unique = true ∧ match c.filter with
      | none => True
      | some .dropOffOnAnyStep => False
      | some (.dropOffOnStep k) => k + 1 = c.len
      | some (.timeToConvert a b) => a ≤ r.ts - (if g.curStep = 0 then r.ts else g.steps 0) ∧ r.ts - (if g.curStep = 0 then r.ts else g.steps 0) ≤ b := by
  unfold FGroup.step
  rw [if_pos hm]
  dsimp only
  rw [if_neg (by omega)]
  dsimp only
  rw [Bool.and_eq_true, and_comm]
  apply and_congr_right
  intro _
  unfold FGroup.isCompleted
  cases c.filter with
  | none => simp; omega
  | some f =>
    cases f with
    | dropOffOnAnyStep => simp; omega
    | dropOffOnStep k => simp; omega
    | timeToConvert a b =>
      have e : g.completed + 1 = c.len := by omega
      have e0 : (0 = g.curStep) ↔ (g.curStep = 0) := eq_comm
      simp [e, e0]

theorem step_filtered (c : FCfg) (hu : c.unique = false) (f : Option FFilter) (g : FGroup) (r : FRow G K) :
    g.step (c.filtered f) r = g.step c r := by
  have h1 : (c.filtered f).unique = false := hu
  unfold FGroup.step
  rw [hu, h1]
  simp only [Bool.and_false]
  rfl

theorem fresh_filtered (c : FCfg) (hu : c.unique = false) (f : Option FFilter) (g : FGroup) (i : Nat) (r : FRow G K) :
    g.fresh (c.filtered f) i r = g.fresh c i r := step_filtered c hu f _ r

variable [DecidableEq G] [DecidableEq K]

omit [DecidableEq G] in
theorem fRow_filtered (c : FCfg) (hu : c.unique = false) (f : Option FFilter) (batch : List (FRow G K)) (i : Nat) (g : FGroup) (r : FRow G K) :
    fRow (c.filtered f) batch i g r = fRow c batch i g r := by
  unfold fRow
  simp only [fresh_filtered c hu, step_filtered c hu]
  rfl

theorem fLoop_filtered (c : FCfg) (hu : c.unique = false) (f : Option FFilter) (exist : Option (Int → Bool)) (batch : List (FRow G K)) :
    ∀ (rows : List (FRow G K)) (i : Nat) (st : FState G), fLoop (c.filtered f) exist batch i rows st = fLoop c exist batch i rows st
  | [], _, _ => rfl
  | r :: rest, i, st => by
    have hU : ∀ st : FState G, fUse (c.filtered f) batch i st r = fUse c batch i st r := by
      intro st
      unfold fUse
      rw [fRow_filtered c hu]
      rfl
    simp only [fLoop, hU, fLoop_filtered c hu f exist batch rest]
    have hB : fLoop (c.filtered f) exist batch (i + 1) rest = fLoop c exist batch (i + 1) rest := funext (fLoop_filtered c hu f exist batch rest (i + 1))
    rw [hB]

/-- **C164**, violated in all cases: unless users are counted once, the filter of a funnel changes nothing, whatever the filter, the rows and the batches. -/
theorem C164_ignored_violated (c : FCfg) (hu : c.unique = false) (f : Option FFilter) (exist : Option (Int → Bool)) (batches : List (List (FRow G K))) :
    funnel (c.filtered f) exist batches = funnel c exist batches := by
  have hb : (fBatch (c.filtered f) exist : FState G → List (FRow G K) → _) = fBatch c exist := by
    funext st batch
    unfold fBatch
    simp only [fLoop_filtered c hu]
  unfold funnel fBatches
  rw [hb]
  rfl

/-- The same funnel, users counted as often as they convert. -/
def FCfg.repeated (c : FCfg) : FCfg := { c with unique := false }

/-- The funnel asks for attempts that end before the last step. -/
def AsksDropped (c : FCfg) : Prop := c.filter = some .dropOffOnAnyStep ∨ ∃ k, c.filter = some (.dropOffOnStep k) ∧ k + 1 ≠ c.len

/-- Between rows an attempt has completed the steps before its current one. -/
def OpenAttempt (c : FCfg) (g : FGroup) : Prop := g.completed = g.curStep ∧ g.curStep ≤ c.len - 1

omit [DecidableEq G] [DecidableEq K] in
theorem matched_lt {c : FCfg} {n : Nat} {r : FRow G K} (h : matchesStep c n r = true) : n < c.len := by
  unfold matchesStep at h
  cases ho : c.orders[n]? with
  | none => rw [ho] at h; cases h
  | some o => exact (List.getElem?_eq_some_iff.mp ho).1

omit [DecidableEq G] [DecidableEq K] in
theorem step_repeated {c : FCfg} (hf : AsksDropped c) {g : FGroup} (h : OpenAttempt c g) (r : FRow G K) :
    g.step c.repeated r = g.step c r ∧ OpenAttempt c (g.step c r).1 := by
  have hu : c.repeated.unique = false := rfl
  unfold FGroup.step
  show (if matchesStep c g.curStep r then _ else _) = _ ∧ _
  cases hm : matchesStep c g.curStep r with
  | false => exact ⟨rfl, h⟩
  | true =>
    have hlt := matched_lt hm
    obtain ⟨hc, hl⟩ := h
    simp only [if_true]
    show (if g.curStep < c.len - 1 then _ else _) = _ ∧ _
    by_cases hs : g.curStep < c.len - 1
    · simp only [if_pos hs]
      exact ⟨trivial, by show g.completed + 1 = g.curStep + 1; omega, by show g.curStep + 1 ≤ c.len - 1; omega⟩
    · simp only [if_neg hs]
      refine ⟨?_, rfl, Nat.zero_le _⟩
      have e : g.completed + 1 = c.len := by omega
      rw [hu, Bool.and_false]
      have hz : FGroup.isCompleted c
          { g with completed := g.completed + 1, steps := fun i => if i = g.curStep then r.ts else g.steps i } = false := by
        unfold FGroup.isCompleted
        rcases hf with hf | ⟨k, hf, hk⟩
        · rw [hf]
          simp [e]
        · rw [hf]
          simp
          omega
      rw [hz]
      rfl

omit [DecidableEq G] [DecidableEq K] in
theorem open_pushed {c : FCfg} {g : FGroup} (h : OpenAttempt c g) : OpenAttempt c (g.pushed c) := by
  unfold FGroup.pushed
  split
  · exact h
  · exact h

omit [DecidableEq G] [DecidableEq K] in
theorem open_partition {c : FCfg} {g : FGroup} (h : OpenAttempt c g) (r : FRow G K) : OpenAttempt c (g.partition c r) := by
  unfold FGroup.partition
  split
  · exact ⟨rfl, Nat.zero_le _⟩
  · exact h

omit [DecidableEq G] [DecidableEq K] in
theorem fresh_repeated {c : FCfg} (hf : AsksDropped c) {g : FGroup} (h : OpenAttempt c g) (i : Nat) (r : FRow G K) :
    g.fresh c.repeated i r = g.fresh c i r ∧ OpenAttempt c (g.fresh c i r).1 := by
  have hg : OpenAttempt c (if c.hasConst then { g with constRow := i } else g) := by
    split
    · exact h
    · exact h
  exact step_repeated hf (open_partition hg r) r

omit [DecidableEq G] in
theorem fRow_repeated {c : FCfg} (hf : AsksDropped c) (batch : List (FRow G K)) (i : Nat) {g : FGroup} (h : OpenAttempt c g)
    (r : FRow G K) : fRow c.repeated batch i g r = fRow c batch i g r ∧ ∀ p, fRow c batch i g r = some p → OpenAttempt c p.1 := by
  have hs : OpenAttempt c (g.seen r) := by
    unfold FGroup.seen
    split
    · exact h
    · exact h
  have hr : ∀ g' : FGroup, OpenAttempt c g'.reset := fun _ => ⟨rfl, Nat.zero_le _⟩
  have h1 := fresh_repeated hf (hr (g.seen r)) i r
  have h2 := fresh_repeated hf (hr ((g.seen r).pushed c)) i r
  have h3 := fresh_repeated hf hs i r
  have h4 := step_repeated hf (open_partition hs r) r
  have e2 : ((g.seen r).pushed c.repeated).reset.fresh c.repeated i r = ((g.seen r).pushed c).reset.fresh c i r := h2.1
  have e4 : ((g.seen r).partition c.repeated r).step c.repeated r = ((g.seen r).partition c r).step c r := h4.1
  constructor
  · unfold fRow
    simp only [h1.1, e2, h3.1, e4]
    rfl
  · intro p hp
    unfold fRow at hp
    dsimp only at hp
    split at hp
    · split at hp
      · cases hp; exact h1.2
      · split at hp
        · cases hp; exact h2.2
        · split at hp
          · split at hp
            · cases hp
            · cases hp; exact h1.2
            · cases hp; exact h4.2
          · cases hp; exact h4.2
    · cases hp; exact h3.2

/-- All attempts of a state. -/
def OpenState (c : FCfg) (st : FState G) : Prop := ∀ k g, st.groups k = some g → OpenAttempt c g

theorem fUse_repeated {c : FCfg} (hf : AsksDropped c) (batch : List (FRow G K)) (i : Nat) {st : FState G} (h : OpenState c st)
    (r : FRow G K) : fUse c.repeated batch i st r = fUse c batch i st r ∧ ∀ st', fUse c batch i st r = some st' → OpenState c st' := by
  have hg : OpenAttempt c ((st.groups r.group).getD (FGroup.new c)) := by
    cases hk : st.groups r.group with
    | none => exact ⟨rfl, Nat.zero_le _⟩
    | some g => exact h _ _ hk
  have hr := fRow_repeated hf batch i hg r
  constructor
  · unfold fUse
    have : (FGroup.new c.repeated) = FGroup.new c := rfl
    rw [this, hr.1]
  · intro st' hst
    unfold fUse at hst
    rw [Option.map_eq_some_iff] at hst
    obtain ⟨p, hp, rfl⟩ := hst
    intro k g hk
    simp only [setGroup] at hk
    split at hk
    · cases hk; exact hr.2 p hp
    · exact h k g hk

theorem fLoop_repeated {c : FCfg} (hf : AsksDropped c) (exist : Option (Int → Bool)) (batch : List (FRow G K)) :
    ∀ (rows : List (FRow G K)) (i : Nat) (st : FState G), OpenState c st →
      fLoop c.repeated exist batch i rows st = fLoop c exist batch i rows st ∧ ∀ st', fLoop c exist batch i rows st = some st' → OpenState c st'
  | [], _, st, h => ⟨rfl, fun st' e => by cases e; exact h⟩
  | r :: rest, i, st, h => by
    have hs : OpenState c { st with skip := false } := h
    obtain ⟨e, hu⟩ := fUse_repeated hf batch i hs r
    have ih := fLoop_repeated hf exist batch rest (i + 1)
    simp only [fLoop]
    split
    · exact ih st h
    · split
      · exact ih _ hs
      · rw [e]
        cases hx : fUse c batch i { st with skip := false } r with
        | none => exact ⟨rfl, fun st' e => by cases e⟩
        | some st1 => exact ih st1 (hu st1 hx)

theorem fBatches_repeated {c : FCfg} (hf : AsksDropped c) (exist : Option (Int → Bool)) :
    ∀ (batches : List (List (FRow G K))) (st : FState G), OpenState c st →
      batches.foldlM (fBatch c.repeated exist) st = batches.foldlM (fBatch c exist) st
  | [], _, _ => rfl
  | b :: bs, st, h => by
    have hb : fBatch c.repeated exist st b = fBatch c exist st b ∧ ∀ st', fBatch c exist st b = some st' → OpenState c st' := by
      unfold fBatch
      cases b with
      | nil => exact ⟨rfl, fun st' e => by cases e⟩
      | cons r rest =>
        dsimp only
        split
        · exact ⟨rfl, fun st' e => by cases e⟩
        · exact fLoop_repeated hf exist _ _ 0 st h
    rw [List.foldlM_cons, List.foldlM_cons, hb.1]
    cases hx : fBatch c exist st b with
    | none => rfl
    | some st1 => exact fBatches_repeated hf exist bs st1 (hb.2 st1 hx)

/-- **C164**, violated in all cases: a funnel that asks for those who dropped off, on any step or on one before the last, and counts users once is the funnel that counts every conversion, whatever the
rows and batches. -/
theorem C164_dropped_violated (c : FCfg) (hf : AsksDropped c) (exist : Option (Int → Bool)) (batches : List (List (FRow G K))) :
    funnel c exist batches = funnel { c with unique := false, filter := none } exist batches := by
  have h1 : funnel c.repeated exist batches = funnel c exist batches := by
    unfold funnel fBatches
    rw [fBatches_repeated hf exist batches ⟨false, 0, fun _ => none⟩ fun _ _ e => by cases e]
    rfl
  rw [← h1]
  exact (C164_ignored_violated c.repeated rfl none exist batches).symm

/-- Two steps, users counted once, a single bucket. -/
def filterCfg (f : Option FFilter) : FCfg := ⟨[.exact, .exact], [], false, true, f, 100, fun _ => 0, [0]⟩

/-- A row of user `u` at time `t` that matches step `s`. -/
def filterRow (u t : Int) (s : Nat) : FRow Unit Unit := ⟨u, t, fun i => i == s, fun _ => false, (), ()⟩

/-- How many attempts reached the two steps. -/
def filterTotals (f : Option FFilter) (batch : List (FRow Unit Unit)) : Option (Int × Int) :=
  match funnel (filterCfg f) none [batch] with
  | none => none
  | some r => (r () 0).map fun b => ((b 0).total, (b 1).total)

/-- User 1 converts twice, within 5 and within 1; user 2 drops off. -/
def filterRows : List (FRow Unit Unit) := [filterRow 1 0 0, filterRow 1 5 1, filterRow 1 10 0, filterRow 1 11 1, filterRow 2 0 0, filterRow 2 1 2]

/-- **C164**, violated: asked for those who dropped off, here user 2 only, the funnel counts the conversions of user 1 too, and twice although users are counted
once; asked for conversions within 2, it counts the one that took 5. -/
theorem C164_unique_violated : filterTotals none filterRows = some (2, 1) ∧ filterTotals (some .dropOffOnAnyStep) filterRows = some (3, 2) ∧
    filterTotals (some (.dropOffOnStep 0)) filterRows = some (3, 2) ∧ filterTotals (some (.timeToConvert 0 2)) filterRows = some (3, 2) ∧
    filterTotals (some (.timeToConvert 0 5)) filterRows = some (2, 1) := by decide +kernel

/-- The bounds of the time belong to it. -/
example : filterTotals (some (.timeToConvert 5 5)) filterRows = some (2, 1) ∧ filterTotals (some (.timeToConvert 6 9)) filterRows = some (3, 2) := by
  decide +kernel

end OptiPrism.Query
