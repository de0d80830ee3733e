import Verif.Query.Agg

/-! Lemmas about the aggregates. -/

namespace OptiPrism.Query

section
variable {G S : Type} [DecidableEq G]

/-- The rows an aggregate looks at. -/
def chosen (exist : Option (Int → Bool)) (hasFilter : Bool) (r : ARow G) : Bool :=
  (match exist with | none => true | some e => e r.slot)
    && (!hasFilter || checkFilter r.pass) && r.val.isSome

theorem setGroup_self (m : G → Option S) (g : G) (s : S) : setGroup m g s g = some s := by
  simp [setGroup]

theorem setGroup_ne (m : G → Option S) {g x : G} (s : S) (h : x ≠ g) :
    setGroup m g s x = m x := by simp [setGroup, h]

/-- The update of one row. -/
def stepMap (exist : Option (Int → Bool)) (hasFilter : Bool) (upd : Option S → Rat → S)
    (m : G → Option S) (r : ARow G) : G → Option S :=
  if chosen exist hasFilter r then setGroup m r.group (upd (m r.group) (r.val.getD 0)) else m

theorem useRow_eq (hasFilter : Bool) (upd : Option S → Rat → S) (m : G → Option S) (r : ARow G)
    (exist : Option (Int → Bool))
    (he : (match exist with | none => true | some e => e r.slot) = true) :
    useRow hasFilter upd m r = stepMap exist hasFilter upd m r := by
  unfold useRow stepMap chosen
  rw [he]
  cases hasFilter <;> cases checkFilter r.pass <;> cases r.val <;> simp

theorem evalRow_spec (exist : Option (Int → Bool)) (hasFilter : Bool) (upd : Option S → Rat → S)
    (st : Loop G S) (r : ARow G)
    (hinv : st.skip = true → ∃ e, exist = some e ∧ e st.skipPartition = false) :
    (evalRow exist hasFilter upd st r).groups = stepMap exist hasFilter upd st.groups r ∧
    ((evalRow exist hasFilter upd st r).skip = true →
      ∃ e, exist = some e ∧ e (evalRow exist hasFilter upd st r).skipPartition = false) := by
  unfold evalRow
  split
  next h =>
    simp only [Bool.and_eq_true, beq_iff_eq] at h
    obtain ⟨e, he, hf⟩ := hinv h.1
    refine ⟨?_, hinv⟩
    subst he
    simp [stepMap, chosen, h.2, hf]
  next h =>
    cases exist with
    | none =>
      refine ⟨?_, by simp⟩
      exact useRow_eq hasFilter upd _ r none rfl
    | some e =>
      by_cases he : e r.slot = true
      · simp only [he, if_true]
        refine ⟨?_, by simp⟩
        exact useRow_eq hasFilter upd _ r (some e) he
      · simp only [Bool.not_eq_true] at he
        simp only [he]
        refine ⟨?_, fun _ => ⟨e, rfl, he⟩⟩
        simp [stepMap, chosen, he]

theorem foldl_evalRow (exist : Option (Int → Bool)) (hasFilter : Bool) (upd : Option S → Rat → S)
    (rows : List (ARow G)) : ∀ (st : Loop G S),
    (st.skip = true → ∃ e, exist = some e ∧ e st.skipPartition = false) →
    (rows.foldl (evalRow exist hasFilter upd) st).groups =
      rows.foldl (stepMap exist hasFilter upd) st.groups := by
  induction rows with
  | nil => intro st _; rfl
  | cons r rows ih =>
    intro st h
    obtain ⟨h1, h2⟩ := evalRow_spec exist hasFilter upd st r h
    rw [List.foldl_cons, List.foldl_cons, ih _ h2, h1]

theorem evalBatches_eq (exist : Option (Int → Bool)) (hasFilter : Bool) (upd : Option S → Rat → S)
    (batches : List (List (ARow G))) : ∀ (m : G → Option S),
    evalBatches exist hasFilter upd m batches =
      batches.flatten.foldl (stepMap exist hasFilter upd) m := by
  induction batches with
  | nil => intro m; rfl
  | cons b bs ih =>
    intro m
    show evalBatches exist hasFilter upd (evalBatch exist hasFilter upd m b) bs = _
    rw [ih, List.flatten_cons, List.foldl_append]
    unfold evalBatch
    rw [foldl_evalRow exist hasFilter upd b _ (by simp)]

/-- The values used for a group, in order. -/
def fed (exist : Option (Int → Bool)) (hasFilter : Bool) (g : G) (rows : List (ARow G)) :
    List Rat :=
  (rows.filter fun r => chosen exist hasFilter r && r.group == g).map fun r => r.val.getD 0

theorem foldl_stepMap (exist : Option (Int → Bool)) (hasFilter : Bool) (upd : Option S → Rat → S)
    (g : G) (rows : List (ARow G)) : ∀ (m : G → Option S),
    rows.foldl (stepMap exist hasFilter upd) m g =
      (fed exist hasFilter g rows).foldl (fun s v => some (upd s v)) (m g) := by
  induction rows with
  | nil => intro m; rfl
  | cons r rows ih =>
    intro m
    rw [List.foldl_cons, ih]
    unfold stepMap fed
    by_cases hc : chosen exist hasFilter r = true
    · by_cases hg : r.group = g
      · subst hg
        simp [hc, setGroup]
      · have hg' : ¬ g = r.group := fun e => hg e.symm
        simp [hc, setGroup, hg, hg']
    · simp [hc]

theorem evalBatches_group (exist : Option (Int → Bool)) (hasFilter : Bool)
    (upd : Option S → Rat → S) (m : G → Option S) (batches : List (List (ARow G))) (g : G) :
    evalBatches exist hasFilter upd m batches g =
      (fed exist hasFilter g batches.flatten).foldl (fun s v => some (upd s v)) (m g) := by
  rw [evalBatches_eq, foldl_stepMap]

/-- Feeding values to an aggregate function. -/
def feed (f : AggFn) (vs : List Rat) : AggFn := vs.foldl AggFn.accumulate f

theorem feed_append (f : AggFn) (a b : List Rat) : feed f (a ++ b) = feed (feed f a) b := by
  simp [feed]

theorem feed_opt (f : AggFn) (conv : Rat → Rat) (vs : List Rat) : ∀ (s : Option AggFn),
    vs.foldl (fun s v => some ((s.getD f).accumulate (conv v))) s =
      if vs = [] then s else some (feed (s.getD f) (vs.map conv)) := by
  induction vs with
  | nil => intro s; simp
  | cons v vs ih =>
    intro s
    rw [List.foldl_cons, ih]
    cases vs with
    | nil => simp [feed]
    | cons w ws => simp [feed]

theorem count_opt (vs : List Rat) : ∀ (s : Option Nat),
    vs.foldl (fun s _ => some (s.getD 0 + 1)) s =
      if vs = [] then s else some (s.getD 0 + vs.length) := by
  induction vs with
  | nil => intro s; simp
  | cons v vs ih =>
    intro s
    rw [List.foldl_cons, ih]
    cases vs with
    | nil => simp
    | cons w ws => simp; omega

/-! ### What an aggregate function computes -/

theorem feed_sum (vs : List Rat) : ∀ s, feed (.sum s) vs = .sum (s + vs.sum) := by
  induction vs with
  | nil => intro s; simp [feed, Rat.add_zero]
  | cons v vs ih =>
    intro s
    show feed (.sum (s + v)) vs = _
    rw [ih, List.sum_cons, Rat.add_assoc]

theorem feed_count (vs : List Rat) : ∀ s, feed (.count s) vs = .count (s + vs.length) := by
  induction vs with
  | nil => intro s; simp [feed, Rat.add_zero]
  | cons v vs ih =>
    intro s
    show feed (.count (s + 1)) vs = _
    rw [ih, List.length_cons, Rat.natCast_add, Rat.add_assoc, Rat.add_comm (1 : Rat)]
    rfl

theorem feed_avg (vs : List Rat) : ∀ s c, feed (.avg s c) vs = .avg (s + vs.sum) (c + vs.length) := by
  induction vs with
  | nil => intro s c; simp [feed, Rat.add_zero]
  | cons v vs ih =>
    intro s c
    show feed (.avg (s + v) (c + 1)) vs = _
    rw [ih, List.sum_cons, Rat.add_assoc, List.length_cons, Rat.natCast_add, Rat.add_assoc c,
      Rat.add_comm (1 : Rat)]
    rfl

theorem feed_min (vs : List Rat) : ∀ m, ∃ x, feed (.min m) vs = .min x ∧
    (x = m ∨ x ∈ vs) ∧ x ≤ m ∧ ∀ v ∈ vs, x ≤ v := by
  induction vs with
  | nil => intro m; exact ⟨m, rfl, .inl rfl, Rat.le_refl, by simp⟩
  | cons v vs ih =>
    intro m
    by_cases h : v < m
    · obtain ⟨x, hx, hm, hle, hall⟩ := ih v
      refine ⟨x, ?_, ?_, ?_, ?_⟩
      · show feed ((AggFn.min m).accumulate v) vs = _
        simp only [AggFn.accumulate, if_pos h]; exact hx
      · rcases hm with rfl | hm
        · exact .inr (by simp)
        · exact .inr (by simp [hm])
      · exact Rat.le_trans hle (Rat.le_of_lt h)
      · intro w hw
        rcases List.mem_cons.mp hw with rfl | hw
        · exact hle
        · exact hall w hw
    · obtain ⟨x, hx, hm, hle, hall⟩ := ih m
      refine ⟨x, ?_, ?_, hle, ?_⟩
      · show feed ((AggFn.min m).accumulate v) vs = _
        simp only [AggFn.accumulate, if_neg h]; exact hx
      · rcases hm with rfl | hm
        · exact .inl rfl
        · exact .inr (by simp [hm])
      · intro w hw
        rcases List.mem_cons.mp hw with rfl | hw
        · exact Rat.le_trans hle (Rat.not_lt.mp h)
        · exact hall w hw

theorem feed_max (vs : List Rat) : ∀ m, ∃ x, feed (.max m) vs = .max x ∧
    (x = m ∨ x ∈ vs) ∧ m ≤ x ∧ ∀ v ∈ vs, v ≤ x := by
  induction vs with
  | nil => intro m; exact ⟨m, rfl, .inl rfl, Rat.le_refl, by simp⟩
  | cons v vs ih =>
    intro m
    by_cases h : m < v
    · obtain ⟨x, hx, hm, hle, hall⟩ := ih v
      refine ⟨x, ?_, ?_, ?_, ?_⟩
      · show feed ((AggFn.max m).accumulate v) vs = _
        simp only [AggFn.accumulate, if_pos h]; exact hx
      · rcases hm with rfl | hm
        · exact .inr (by simp)
        · exact .inr (by simp [hm])
      · exact Rat.le_trans (Rat.le_of_lt h) hle
      · intro w hw
        rcases List.mem_cons.mp hw with rfl | hw
        · exact hle
        · exact hall w hw
    · obtain ⟨x, hx, hm, hle, hall⟩ := ih m
      refine ⟨x, ?_, ?_, hle, ?_⟩
      · show feed ((AggFn.max m).accumulate v) vs = _
        simp only [AggFn.accumulate, if_neg h]; exact hx
      · rcases hm with rfl | hm
        · exact .inl rfl
        · exact .inr (by simp [hm])
      · intro w hw
        rcases List.mem_cons.mp hw with rfl | hw
        · exact Rat.le_trans (Rat.not_lt.mp h) hle
        · exact hall w hw

/-- What the aggregate of a list of values is. -/
inductive IsAgg : AggOp → List Rat → Rat → Prop where
  | sum {vs} : IsAgg .sum vs vs.sum
  | count {vs} : IsAgg .count vs vs.length
  | avg {vs} : vs ≠ [] → IsAgg .avg vs (vs.sum / vs.length)
  | min {vs x} : x ∈ vs → (∀ v ∈ vs, x ≤ v) → IsAgg .min vs x
  | max {vs x} : x ∈ vs → (∀ v ∈ vs, v ≤ x) → IsAgg .max vs x

/-- Values fit the accumulator. -/
def Bounds.Fit (B : Bounds) (vs : List Rat) : Prop := ∀ v ∈ vs, B.lo ≤ v ∧ v ≤ B.hi

theorem natCast_ne_zero {n : Nat} (h : n ≠ 0) : ((n : Nat) : Rat) ≠ 0 := by
  intro e
  exact h (by have : ((n : Nat) : Rat) = ((0 : Nat) : Rat) := e
              exact Rat.natCast_inj.mp this)

theorem feed_isAgg (B : Bounds) (op : AggOp) (vs : List Rat) (hne : vs ≠ []) (hB : B.Fit vs) :
    ∃ x, (feed (op.new B) vs).result = some x ∧ IsAgg op vs x := by
  cases op with
  | sum => exact ⟨_, by rw [AggOp.new, feed_sum, Rat.zero_add]; rfl, .sum⟩
  | count => exact ⟨_, by rw [AggOp.new, feed_count, Rat.zero_add]; rfl, .count⟩
  | avg =>
    refine ⟨_, ?_, .avg hne⟩
    have hz : ((vs.length : Nat) : Rat) ≠ 0 := natCast_ne_zero (by simpa using hne)
    rw [AggOp.new, feed_avg, Rat.zero_add, Rat.zero_add, AggFn.result, if_neg hz]
  | min =>
    obtain ⟨x, hx, hm, hle, hall⟩ := feed_min vs B.hi
    refine ⟨x, by rw [AggOp.new, hx]; rfl, .min ?_ hall⟩
    rcases hm with rfl | hm
    · obtain ⟨w, hw⟩ := List.exists_mem_of_ne_nil vs hne
      have := Rat.le_antisymm (hall w hw) (hB w hw).2
      rw [this]; exact hw
    · exact hm
  | max =>
    obtain ⟨x, hx, hm, hle, hall⟩ := feed_max vs B.lo
    refine ⟨x, by rw [AggOp.new, hx]; rfl, .max ?_ hall⟩
    rcases hm with rfl | hm
    · obtain ⟨w, hw⟩ := List.exists_mem_of_ne_nil vs hne
      have := Rat.le_antisymm (hB w hw).1 (hall w hw)
      rw [this]; exact hw
    · exact hm

theorem IsAgg.unique {op : AggOp} {vs : List Rat} {x y : Rat} (h1 : IsAgg op vs x)
    (h2 : IsAgg op vs y) : x = y := by
  cases h1 with
  | sum => cases h2; rfl
  | count => cases h2; rfl
  | avg _ => cases h2; rfl
  | min a b => cases h2 with | min c d => exact Rat.le_antisymm (b _ c) (d _ a)
  | max a b => cases h2 with | max c d => exact Rat.le_antisymm (d _ a) (b _ c)

end
end OptiPrism.Query
