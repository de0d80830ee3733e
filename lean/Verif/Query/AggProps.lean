import Verif.Query.AggLemmas

/-! Properties C51, C52, C53: counting and aggregating events. -/

namespace OptiPrism.Query

section
variable {G : Type} [DecidableEq G]

/-- Specification: a row belongs to the selected users, passes the filter, has a value and is in
the group. -/
def counted (exist : Option (Int → Bool)) (hasFilter : Bool) (g : G) (r : ARow G) : Bool :=
  (match exist, r.user with
    | none, _ => true
    | some e, some u => e u
    | some _, none => false) &&
  (match hasFilter with | true => r.pass == some true | false => true) &&
  r.val != none && r.group == g

/-- No set of selected users contains the id 0, or every row has a user: ids start at 1, and the
slot of a NULL reads as 0. -/
def NullsApart (exist : Option (Int → Bool)) (rows : List (ARow G)) : Prop :=
  ∀ e, exist = some e → e 0 = true → ∀ r ∈ rows, r.user ≠ none

theorem counted_eq (exist : Option (Int → Bool)) (hasFilter : Bool) (g : G)
    (rows : List (ARow G)) (h : NullsApart exist rows) (r : ARow G) (hr : r ∈ rows) :
    (chosen exist hasFilter r && r.group == g) = counted exist hasFilter g r := by
  unfold chosen counted ARow.slot
  have e1 : checkFilter r.pass = (r.pass == some true) := by
    rcases r.pass with _ | b
    · rfl
    · cases b <;> rfl
  have e2 : r.val.isSome = (r.val != none) := by cases r.val <;> rfl
  rw [e1, e2]
  cases exist with
  | none => cases hasFilter <;> simp
  | some e =>
    cases hu : r.user with
    | some u => cases hasFilter <;> simp
    | none =>
      have : e 0 = false := by
        cases h0 : e 0 with
        | false => rfl
        | true => exact absurd hu (h e rfl h0 r hr)
      simp [this]

theorem fed_eq (exist : Option (Int → Bool)) (hasFilter : Bool) (g : G)
    (rows : List (ARow G)) (h : NullsApart exist rows) :
    fed exist hasFilter g rows =
      (rows.filter (counted exist hasFilter g)).map fun r => r.val.getD 0 := by
  unfold fed
  rw [List.filter_congr (fun r hr => counted_eq exist hasFilter g rows h r hr)]

/-- C51: the grouped count is the number of selected rows of the group, for every batching; a group
without such rows is not reported. -/
theorem C51_count (exist : Option (Int → Bool)) (hasFilter : Bool)
    (batches : List (List (ARow G))) (h : NullsApart exist batches.flatten) (g : G) :
    countEval exist hasFilter (fun _ => none) batches g =
      (match batches.flatten.countP (counted exist hasFilter g) with
        | 0 => none
        | n + 1 => some (n + 1)) := by
  unfold countEval
  rw [evalBatches_group, count_opt, fed_eq exist hasFilter g _ h,
    List.length_map, List.countP_eq_length_filter]
  cases hf : batches.flatten.filter (counted exist hasFilter g) with
  | nil => simp
  | cons a l => simp

/-- C51, without groups: the single count is always reported. -/
theorem C51_single (exist : Option (Int → Bool)) (hasFilter : Bool)
    (batches : List (List (ARow Unit))) (h : NullsApart exist batches.flatten) :
    countEval exist hasFilter (fun _ => some 0) batches () =
      some (batches.flatten.countP (counted exist hasFilter ())) := by
  unfold countEval
  rw [evalBatches_group, count_opt, fed_eq exist hasFilter () _ h,
    List.length_map, List.countP_eq_length_filter]
  cases hf : batches.flatten.filter (counted exist hasFilter ()) with
  | nil => simp
  | cons a l => simp

/-- C51: two batchings of the same rows give the same counts. -/
theorem C51_batching (exist : Option (Int → Bool)) (hasFilter : Bool)
    (m : G → Option Nat) (b1 b2 : List (List (ARow G))) (h : b1.flatten = b2.flatten) :
    countEval exist hasFilter m b1 = countEval exist hasFilter m b2 := by
  unfold countEval
  rw [evalBatches_eq, evalBatches_eq, h]

/-- C52: the grouped aggregate is the aggregate of the non-null values of the selected rows, for
every batching; a group without such values is not reported. -/
theorem C52_aggregate (B : Bounds) (op : AggOp) (conv : Rat → Rat) (exist : Option (Int → Bool))
    (hasFilter : Bool) (batches : List (List (ARow G))) (h : NullsApart exist batches.flatten)
    (g : G) (vs : List Rat)
    (hvs : (batches.flatten.filter (counted exist hasFilter g)).map
      (fun r => r.val.map conv) = vs.map some)
    (hB : B.Fit vs) :
    (vs = [] → aggEval B op conv exist hasFilter (fun _ => none) batches g = none) ∧
    (vs ≠ [] → ∃ f x, aggEval B op conv exist hasFilter (fun _ => none) batches g = some f ∧
      f.result = some x ∧ IsAgg op vs x) := by
  have hm : (fed exist hasFilter g batches.flatten).map conv = vs := by
    rw [fed_eq exist hasFilter g _ h, List.map_map]
    have : ((batches.flatten.filter (counted exist hasFilter g)).map
        (fun r => r.val.map conv)).map (Option.getD · 0) = vs := by
      rw [hvs, List.map_map]; exact List.map_id' vs
    rw [← this, List.map_map]
    apply List.map_congr_left
    intro r hr
    have hc := (List.mem_filter.mp hr).2
    unfold counted at hc
    simp only [Bool.and_eq_true, bne_iff_ne] at hc
    cases hv : r.val with
    | none => exact absurd hv hc.1.2
    | some v => simp [hv]
  unfold aggEval
  rw [evalBatches_group, feed_opt]
  constructor
  · intro he
    rw [he] at hm
    rw [if_pos (List.map_eq_nil_iff.mp hm)]
  · intro he
    obtain ⟨x, h1, h2⟩ := feed_isAgg B op vs he hB
    refine ⟨_, x, ?_, h1, h2⟩
    rw [if_neg, hm]
    · rfl
    · intro e; rw [e] at hm; exact he hm.symm

/-- C52: two batchings of the same rows give the same aggregates. -/
theorem C52_batching (B : Bounds) (op : AggOp) (conv : Rat → Rat) (exist : Option (Int → Bool))
    (hasFilter : Bool) (m : G → Option AggFn) (b1 b2 : List (List (ARow G)))
    (h : b1.flatten = b2.flatten) :
    aggEval B op conv exist hasFilter m b1 = aggEval B op conv exist hasFilter m b2 := by
  unfold aggEval
  rw [evalBatches_eq, evalBatches_eq, h]

/-- Two batches of events of three users; user 2 is not selected. -/
def exRows : List (List (ARow Bool)) :=
  [[⟨some 1, some true, some 5, true⟩, ⟨some 2, some true, some 7, true⟩],
   [⟨some 2, some true, some 9, true⟩, ⟨some 3, none, some 1, true⟩,
    ⟨some 3, some true, none, true⟩, ⟨some 3, some true, some 2, true⟩,
    ⟨some 3, some true, some 4, false⟩]]

def exSet : Option (Int → Bool) := some fun u => u == 1 || u == 3

example : NullsApart exSet exRows.flatten := by
  intro e he h0; cases he; revert h0; decide

example : countEval exSet true (fun _ => none) exRows true = some 2 := by decide +kernel

example : (aggEval ⟨100, -100⟩ .avg id exSet true (fun _ => none) exRows true).bind AggFn.result
    = some (7 / 2) := by decide +kernel

/-! ### Parallel aggregation -/

/-- Specification of a result table: every group once, with its value. -/
def Listing (m : G → Option Rat) (l : List (G × Rat)) : Prop :=
  (l.map Prod.fst).Nodup ∧ ∀ g v, (g, v) ∈ l ↔ m g = some v

/-- The table of an aggregate over the values of each group. -/
def table (B : Bounds) (op : AggOp) (vals : G → List Rat) (g : G) : Option Rat :=
  if vals g = [] then none else (feed (op.new B) (vals g)).result

theorem listing_filter {m : G → Option Rat} {l : List (G × Rat)} (h : Listing m l) (g : G) :
    (l.filter fun e => e.1 == g).map Prod.snd = (m g).toList := by
  obtain ⟨hn, hm⟩ := h
  have hmg : ∀ v, (g, v) ∈ l ↔ m g = some v := hm g
  clear hm
  induction l generalizing m with
  | nil =>
    cases e : m g with
    | none => rfl
    | some v => exact absurd ((hmg v).mpr e) (by simp)
  | cons p l ih =>
    obtain ⟨k, w⟩ := p
    rw [List.map_cons, List.nodup_cons] at hn
    by_cases hk : k = g
    · subst hk
      have hw : m k = some w := (hmg w).mp (by simp)
      have hnone : l.filter (fun e => e.1 == k) = [] := by
        rw [List.filter_eq_nil_iff]
        intro e he hek
        have : e.1 = k := by simpa using hek
        exact hn.1 (List.mem_map.mpr ⟨e, he, this⟩)
      simp [hnone, hw]
    · have : (((k, w) : G × Rat).1 == g) = false := by simpa using hk
      rw [List.filter_cons_of_neg (by simp [hk])]
      apply ih hn.2
      intro v
      rw [← hmg v]
      constructor
      · intro hv; exact List.mem_cons_of_mem _ hv
      · intro hv
        rcases List.mem_cons.mp hv with e | hv
        · exact absurd (congrArg Prod.fst e).symm hk
        · exact hv

/-- The cells of column `i` a worker hands over for group `g`. -/
def cellsFor (i : Nat) (g : G) (rows : List (PartialRow G)) : List Rat :=
  (rows.filter fun r => r.group == g).filterMap fun r => r.cells[i]?

theorem combine_eq (B : Bounds) (op : AggOp) (i : Nat) (workers : List (List (PartialRow G)))
    (g : G) :
    combine B op i workers g =
      if (workers.map (cellsFor i g)).flatten = [] then none
      else some (feed ((combineOp op).new B) (workers.map (cellsFor i g)).flatten) := by
  have key : ∀ rows : List (PartialRow G),
      fed none false g (rows.map fun r => (⟨some 0, none, r.cells[i]?, r.group⟩ : ARow G)) =
        cellsFor i g rows := by
    intro rows
    unfold fed cellsFor
    induction rows with
    | nil => rfl
    | cons r rows ih =>
      rw [List.map_cons]
      cases hc : r.cells[i]? with
      | none =>
        rw [List.filter_cons_of_neg (by simp [chosen]), ih]
        by_cases hg : r.group = g
        · rw [List.filter_cons_of_pos (by simpa using hg), List.filterMap_cons, hc]
        · rw [List.filter_cons_of_neg (by simpa using hg)]
      | some v =>
        by_cases hg : r.group = g
        · rw [List.filter_cons_of_pos (by simp [chosen, hg]), List.map_cons, ih,
            List.filter_cons_of_pos (by simpa using hg), List.filterMap_cons, hc]
          rfl
        · rw [List.filter_cons_of_neg (by simp [hg]), ih,
            List.filter_cons_of_neg (by simpa using hg)]
  have hf : fed none false g (workers.map fun rows => rows.map fun r =>
      (⟨some 0, none, r.cells[i]?, r.group⟩ : ARow G)).flatten =
      (workers.map (cellsFor i g)).flatten := by
    induction workers with
    | nil => rfl
    | cons w ws ih =>
      rw [List.map_cons, List.flatten_cons, List.map_cons, List.flatten_cons, ← ih, ← key w]
      unfold fed
      rw [List.filter_append, List.map_append]
  unfold combine aggEval
  rw [evalBatches_group, feed_opt, hf]
  simp

theorem cellsFor_partialRows (n i j : Nat) (hi : i < n) (g : G) (l : List (G × Rat)) :
    cellsFor i g (partialRows n j l) =
      ((l.filter fun e => e.1 == g).map Prod.snd).map fun v => if i = j then v else 0 := by
  unfold cellsFor partialRows
  induction l with
  | nil => rfl
  | cons p l ih =>
    rw [List.map_cons]
    by_cases hg : p.1 = g
    · rw [List.filter_cons_of_pos (by simpa using hg), List.filterMap_cons,
        List.filter_cons_of_pos (by simpa using hg), List.map_cons, List.map_cons, ih]
      have : (cellsOf n j p.2)[i]? = some (if i = j then p.2 else 0) := by
        unfold cellsOf
        rw [List.getElem?_map, List.getElem?_range hi]; rfl
      rw [this]
    · rw [List.filter_cons_of_neg (by simpa using hg), ih,
        List.filter_cons_of_neg (by simpa using hg)]

/-- One aggregate only: a worker hands over the value of the group. -/
theorem cellsFor_single (g : G) (l : List (G × Rat)) :
    cellsFor 0 g (workerRows [l]) = (l.filter fun e => e.1 == g).map Prod.snd := by
  have : workerRows [l] = partialRows 1 0 l := by
    simp [workerRows]
  rw [this, cellsFor_partialRows 1 0 0 (by omega)]
  simp

theorem sum_append (a b : List Rat) : (a ++ b).sum = a.sum + b.sum := by
  induction a with
  | nil => simp [Rat.zero_add]
  | cons x a ih => rw [List.cons_append, List.sum_cons, List.sum_cons, ih, Rat.add_assoc]

/-- The values one worker reports for a group: none, or the aggregate. -/
theorem table_toList (B : Bounds) (op : AggOp) (vals : G → List Rat) (g : G)
    (hB : B.Fit (vals g)) :
    (vals g = [] ∧ (table B op vals g).toList = []) ∨
    (∃ x, vals g ≠ [] ∧ (table B op vals g).toList = [x] ∧ IsAgg op (vals g) x) := by
  by_cases h : vals g = []
  · exact .inl ⟨h, by simp [table, h]⟩
  · obtain ⟨x, h1, h2⟩ := feed_isAgg B op (vals g) h hB
    exact .inr ⟨x, h, by simp [table, h, h1], h2⟩

/-- Aggregates of aggregates. -/
theorem agg_of_aggs (B : Bounds) (op : AggOp) (hop : op ≠ .avg) (g : G)
    (vals : List (G → List Rat)) (hB : ∀ vs ∈ vals, B.Fit (vs g)) :
    let cells := (vals.map fun vs => (table B op vs g).toList).flatten
    let all := (vals.map fun vs => vs g).flatten
    (cells = [] ↔ all = []) ∧ (cells ≠ [] → B.Fit all ∧ (∀ x, IsAgg (combineOp op) cells x →
      IsAgg op all x)) ∧ ((op = .min ∨ op = .max) → B.Fit cells) ∧
      (op = .sum → cells.sum = all.sum) ∧ (op = .count → cells.sum = all.length) ∧
      (op = .min → (∀ c ∈ cells, c ∈ all) ∧ ∀ a ∈ all, ∃ c ∈ cells, c ≤ a) ∧
      (op = .max → (∀ c ∈ cells, c ∈ all) ∧ ∀ a ∈ all, ∃ c ∈ cells, a ≤ c) := by
  intro cells all
  have main : (cells = [] ↔ all = []) ∧ B.Fit all ∧
      (op = .sum → cells.sum = all.sum) ∧ (op = .count → cells.sum = all.length) ∧
      (op = .min → (∀ c ∈ cells, c ∈ all) ∧ ∀ a ∈ all, ∃ c ∈ cells, c ≤ a) ∧
      (op = .max → (∀ c ∈ cells, c ∈ all) ∧ ∀ a ∈ all, ∃ c ∈ cells, a ≤ c) := by
    show ((vals.map fun vs => (table B op vs g).toList).flatten = [] ↔
      (vals.map fun vs => vs g).flatten = []) ∧ _
    show _ ∧ B.Fit (vals.map fun vs => vs g).flatten ∧
      (op = .sum → (vals.map fun vs => (table B op vs g).toList).flatten.sum =
        (vals.map fun vs => vs g).flatten.sum) ∧
      (op = .count → (vals.map fun vs => (table B op vs g).toList).flatten.sum =
        (vals.map fun vs => vs g).flatten.length) ∧
      (op = .min → (∀ c ∈ (vals.map fun vs => (table B op vs g).toList).flatten,
          c ∈ (vals.map fun vs => vs g).flatten) ∧
        ∀ a ∈ (vals.map fun vs => vs g).flatten,
          ∃ c ∈ (vals.map fun vs => (table B op vs g).toList).flatten, c ≤ a) ∧
      (op = .max → (∀ c ∈ (vals.map fun vs => (table B op vs g).toList).flatten,
          c ∈ (vals.map fun vs => vs g).flatten) ∧
        ∀ a ∈ (vals.map fun vs => vs g).flatten,
          ∃ c ∈ (vals.map fun vs => (table B op vs g).toList).flatten, a ≤ c)
    clear cells all
    induction vals with
    | nil =>
      refine ⟨by simp, ?_, by simp, ?_, by simp, by simp⟩
      · intro v hv; simp at hv
      · intro _; rfl
    | cons vs vals ih =>
      obtain ⟨i1, i2, i3, i4, i5, i6⟩ := ih (fun v hv => hB v (List.mem_cons_of_mem _ hv))
      have hv := hB vs (by simp)
      simp only [List.map_cons, List.flatten_cons]
      rcases table_toList B op vs g hv with ⟨e1, e2⟩ | ⟨x, hne, e2, hx⟩
      · rw [e1, e2, List.nil_append, List.nil_append]
        exact ⟨i1, i2, i3, i4, i5, i6⟩
      · rw [e2]
        refine ⟨?_, ?_, ?_, ?_, ?_, ?_⟩
        · simp [hne]
        · intro v hv'
          rcases List.mem_append.mp hv' with h | h
          · exact hv v h
          · exact i2 v h
        · intro e; subst e; cases hx
          rw [sum_append, sum_append, i3 rfl]
          simp [Rat.add_zero]
        · intro e; subst e; cases hx
          rw [sum_append, i4 rfl, List.length_append, Rat.natCast_add]
          simp [Rat.add_zero]
        · intro e; subst e
          cases hx with
          | min hm hle =>
            obtain ⟨j1, j2⟩ := i5 rfl
            refine ⟨?_, ?_⟩
            · intro c hc
              rcases List.mem_append.mp hc with h | h
              · rw [List.mem_singleton.mp h]; exact List.mem_append_left _ hm
              · exact List.mem_append_right _ (j1 c h)
            · intro a ha
              rcases List.mem_append.mp ha with h | h
              · exact ⟨x, by simp, hle a h⟩
              · obtain ⟨c, hc, hca⟩ := j2 a h
                exact ⟨c, List.mem_append_right _ hc, hca⟩
        · intro e; subst e
          cases hx with
          | max hm hle =>
            obtain ⟨j1, j2⟩ := i6 rfl
            refine ⟨?_, ?_⟩
            · intro c hc
              rcases List.mem_append.mp hc with h | h
              · rw [List.mem_singleton.mp h]; exact List.mem_append_left _ hm
              · exact List.mem_append_right _ (j1 c h)
            · intro a ha
              rcases List.mem_append.mp ha with h | h
              · exact ⟨x, by simp, hle a h⟩
              · obtain ⟨c, hc, hca⟩ := j2 a h
                exact ⟨c, List.mem_append_right _ hc, hca⟩
  obtain ⟨m1, m2, m3, m4, m5, m6⟩ := main
  refine ⟨m1, fun _ => ⟨m2, fun x hx => ?_⟩, ?_, m3, m4, m5, m6⟩
  · cases op with
    | avg => exact absurd rfl hop
    | sum => cases hx; rw [m3 rfl]; exact .sum
    | count => cases hx; rw [m4 rfl]; exact .count
    | min =>
      cases hx with
      | min a b =>
        refine .min ((m5 rfl).1 _ a) (fun v hv => ?_)
        obtain ⟨c, hc, hcv⟩ := (m5 rfl).2 v hv
        exact Rat.le_trans (b c hc) hcv
    | max =>
      cases hx with
      | max a b =>
        refine .max ((m6 rfl).1 _ a) (fun v hv => ?_)
        obtain ⟨c, hc, hcv⟩ := (m6 rfl).2 v hv
        exact Rat.le_trans hcv (b c hc)
  · rintro (h | h) c hc
    · exact m2 c ((m5 h).1 c hc)
    · exact m2 c ((m6 h).1 c hc)

/-- C53, one aggregate in the query: combining the workers' tables gives the table of all values,
for sum, count, min and max. `_partial`: an average of averages is not the average, and with several
aggregates in a query the zero cells of one take part in the minimum and maximum of the other (see
`C53_avg_violated`, `C53_zero_violated`). -/
theorem C53_partial (B : Bounds) (op : AggOp) (hop : op ≠ .avg)
    (workers : List ((G → List Rat) × List (G × Rat)))
    (hw : ∀ w ∈ workers, Listing (table B op w.1) w.2)
    (g : G) (hB : ∀ w ∈ workers, B.Fit (w.1 g)) :
    let all := (workers.map fun w => w.1 g).flatten
    (all = [] → combine B op 0 (workers.map fun w => workerRows [w.2]) g = none) ∧
    (all ≠ [] → ∃ f x, combine B op 0 (workers.map fun w => workerRows [w.2]) g = some f ∧
      f.result = some x ∧ IsAgg op all x) := by
  intro all
  have hcells : ((workers.map fun w => workerRows [w.2]).map (cellsFor 0 g)).flatten =
      ((workers.map Prod.fst).map fun vs => (table B op vs g).toList).flatten := by
    rw [List.map_map, List.map_map]
    congr 1
    apply List.map_congr_left
    intro w hmem
    show cellsFor 0 g (workerRows [w.2]) = _
    rw [cellsFor_single, listing_filter (hw w hmem)]
    rfl
  have hall : all = ((workers.map Prod.fst).map fun vs => vs g).flatten := by
    show (workers.map fun w => w.1 g).flatten = _
    rw [List.map_map]; rfl
  obtain ⟨m1, m2, m3, m4, m5, m6, m7⟩ := agg_of_aggs B op hop g (workers.map Prod.fst)
    (by intro vs hvs
        obtain ⟨w, hmem, rfl⟩ := List.mem_map.mp hvs
        exact hB w hmem)
  rw [combine_eq, hcells, hall]
  generalize ((workers.map Prod.fst).map fun vs => (table B op vs g).toList).flatten = cells at *
  generalize ((workers.map Prod.fst).map fun vs => vs g).flatten = all at *
  constructor
  · intro he
    rw [if_pos (m1.mpr he)]
  · intro he
    have hne : cells ≠ [] := fun e => he (m1.mp e)
    rw [if_neg hne]
    have fin : ∃ x, (feed ((combineOp op).new B) cells).result = some x ∧
        IsAgg (combineOp op) cells x := by
      cases op with
      | avg => exact absurd rfl hop
      | sum => exact ⟨_, by rw [combineOp, AggOp.new, feed_sum, Rat.zero_add]; rfl, .sum⟩
      | count => exact ⟨_, by rw [combineOp, AggOp.new, feed_sum, Rat.zero_add]; rfl, .sum⟩
      | min => exact feed_isAgg B .min cells hne (m3 (.inl rfl))
      | max => exact feed_isAgg B .max cells hne (m3 (.inr rfl))
    obtain ⟨x, h1, h2⟩ := fin
    exact ⟨_, x, rfl, h1, (m2 hne).2 x h2⟩

/-- The sum of a column over the rows of one worker. -/
theorem sum_cellsFor_worker (i : Nat) (g : G) (results : List (List (G × Rat)))
    (hi : i < results.length) :
    (cellsFor i g (workerRows results)).sum =
      (((results[i]).filter fun e => e.1 == g).map Prod.snd).sum := by
  have zsum : ∀ l : List Rat, (l.map fun _ => (0 : Rat)).sum = 0 := by
    intro l
    induction l with
    | nil => rfl
    | cons x l ih => rw [List.map_cons, List.sum_cons, ih, Rat.zero_add]
  have gen : ∀ (n : Nat) (hn : i < n) (k : Nat) (rs : List (List (G × Rat))),
      (cellsFor i g ((rs.zipIdx k).map fun p => partialRows n p.2 p.1).flatten).sum =
        if h : k ≤ i ∧ i - k < rs.length then
          (((rs[i - k]'h.2).filter fun e => e.1 == g).map Prod.snd).sum else 0 := by
    intro n hn k rs
    induction rs generalizing k with
    | nil => simp [cellsFor]
    | cons r rs ih =>
      rw [List.zipIdx_cons, List.map_cons, List.flatten_cons]
      have happ : ∀ a b : List (PartialRow G), cellsFor i g (a ++ b) =
          cellsFor i g a ++ cellsFor i g b := by
        intro a b; unfold cellsFor; rw [List.filter_append, List.filterMap_append]
      rw [happ, sum_append, ih (k + 1), cellsFor_partialRows n i k hn]
      by_cases hk : i = k
      · subst hk
        have h1 : ¬ (i + 1 ≤ i ∧ i - (i + 1) < rs.length) := by omega
        rw [dif_neg h1, Rat.add_zero]
        have h2 : i ≤ i ∧ i - i < (r :: rs).length := by simp
        rw [dif_pos h2]
        simp only [if_true, List.map_id', Nat.sub_self, List.getElem_cons_zero]
      · simp only [hk, if_false]
        rw [zsum, Rat.zero_add]
        by_cases hle : k + 1 ≤ i ∧ i - (k + 1) < rs.length
        · rw [dif_pos hle]
          have h2 : k ≤ i ∧ i - k < (r :: rs).length := by
            simp only [List.length_cons]; omega
          rw [dif_pos h2]
          have : i - k = (i - (k + 1)) + 1 := by omega
          simp only [this, List.getElem_cons_succ]
        · rw [dif_neg hle]
          have h2 : ¬ (k ≤ i ∧ i - k < (r :: rs).length) := by
            simp only [List.length_cons]; omega
          rw [dif_neg h2]
  have := gen results.length hi 0 results
  simp only [Nat.zero_le, Nat.sub_zero, true_and, hi, dif_pos] at this
  exact this

/-- C53, several aggregates: sums and counts stay right whatever the other aggregates are. A group
known to any aggregate of any worker is reported. -/
theorem C53_sums (B : Bounds) (op : AggOp) (hop : op = .sum ∨ op = .count) (i : Nat)
    (workers : List ((G → List Rat) × List (List (G × Rat))))
    (hi : ∀ w ∈ workers, i < w.2.length)
    (hw : ∀ w (hm : w ∈ workers), Listing (table B op w.1) (w.2[i]'(hi w hm)))
    (g : G) (f : AggFn)
    (hf : combine B op i (workers.map fun w => workerRows w.2) g = some f) :
    f.result = some ((if op = .sum then (workers.map fun w => w.1 g).flatten.sum
      else ((workers.map fun w => w.1 g).flatten.length : Rat)) : Rat) := by
  rw [combine_eq] at hf
  split at hf
  next => cases hf
  next hne =>
    cases hf
    have hcomb : combineOp op = .sum := by rcases hop with h | h <;> rw [h] <;> rfl
    rw [hcomb, AggOp.new, feed_sum, Rat.zero_add]
    show some _ = some _
    congr 1
    clear hne
    have hone : ∀ w (hm : w ∈ workers), (cellsFor i g (workerRows w.2)).sum =
        if op = .sum then (w.1 g).sum else ((w.1 g).length : Rat) := by
      intro w hm
      rw [sum_cellsFor_worker i g w.2 (hi w hm), listing_filter (hw w hm)]
      by_cases he : w.1 g = []
      · rw [he]
        simp only [table, he, if_true, Option.toList_none, List.sum_nil, List.length_nil]
        rcases hop with h | h
        · rw [if_pos h]
        · rw [h]; rfl
      · rcases hop with h | h
        · subst h
          rw [table, if_neg he, AggOp.new, feed_sum, Rat.zero_add]
          simp [AggFn.result, Rat.add_zero]
        · subst h
          rw [table, if_neg he, AggOp.new, feed_count, Rat.zero_add]
          simp [AggFn.result, Rat.add_zero]
    clear hw hi
    induction workers with
    | nil => rcases hop with h | h <;> subst h <;> rfl
    | cons w ws ih =>
      simp only [List.map_cons, List.flatten_cons]
      rw [sum_append, sum_append, hone w (by simp), List.length_append, Rat.natCast_add]
      have := ih (fun v hv => hone v (List.mem_cons_of_mem _ hv))
      rw [this]
      by_cases h : op = .sum
      · simp only [if_pos h]
      · simp only [if_neg h]

/-- C53 is false for averages: workers with the values 1 and 2, 3 give the average of 1 and 5/2. -/
theorem C53_avg_violated :
    ∃ (a b : Bool → List Rat) (la lb : List (Bool × Rat)),
      Listing (table ⟨100, -100⟩ .avg a) la ∧ Listing (table ⟨100, -100⟩ .avg b) lb ∧
      (combine ⟨100, -100⟩ .avg 0 [workerRows [la], workerRows [lb]] true).bind AggFn.result
        = some (7 / 4) ∧
      table ⟨100, -100⟩ .avg (fun g => a g ++ b g) true = some 2 := by
  refine ⟨fun g => if g then [1] else [], fun g => if g then [2, 3] else [],
    [(true, 1)], [(true, 5 / 2)], ⟨by simp, ?_⟩, ⟨by simp, ?_⟩, by decide +kernel,
    by decide +kernel⟩
  · intro g v
    cases g
    · simp [table]
    · have : table ⟨100, -100⟩ .avg (fun g => if g then [1] else []) true = some 1 := by
        decide +kernel
      simp [this, eq_comm]
  · intro g v
    cases g
    · simp [table]
    · have : table ⟨100, -100⟩ .avg (fun g => if g then [2, 3] else []) true = some (5 / 2) := by
        decide +kernel
      simp [this, eq_comm]

/-- C53 is false for a minimum next to another aggregate, even with one worker: values 5 and 7 have
the minimum 0. -/
theorem C53_zero_violated :
    ∃ (a : Bool → List Rat) (la lc : List (Bool × Rat)),
      Listing (table ⟨100, -100⟩ .min a) la ∧ Listing (table ⟨100, -100⟩ .count a) lc ∧
      (combine ⟨100, -100⟩ .min 0 [workerRows [la, lc]] true).bind AggFn.result = some 0 ∧
      table ⟨100, -100⟩ .min a true = some 5 := by
  refine ⟨fun g => if g then [5, 7] else [], [(true, 5)], [(true, 2)],
    ⟨by simp, ?_⟩, ⟨by simp, ?_⟩, by decide +kernel, by decide +kernel⟩
  · intro g v
    cases g
    · simp [table]
    · have : table ⟨100, -100⟩ .min (fun g => if g then [5, 7] else []) true = some 5 := by
        decide +kernel
      simp [this, eq_comm]
  · intro g v
    cases g
    · simp [table]
    · have : table ⟨100, -100⟩ .count (fun g => if g then [5, 7] else []) true = some 2 := by
        decide +kernel
      simp [this, eq_comm]

/-- C53 with the evaluator: any distribution of the rows over workers. Each worker runs `Aggregate`
on its own rows; the combined result is the one of a single worker reading all rows. -/
theorem C53_workers (B : Bounds) (op : AggOp) (hop : op ≠ .avg) (conv : Rat → Rat)
    (exist : Option (Int → Bool)) (hasFilter : Bool)
    (workers : List (List (List (ARow G)) × List (G × Rat)))
    (hw : ∀ w ∈ workers, Listing (fun g =>
      (aggEval B op conv exist hasFilter (fun _ => none) w.1 g).bind AggFn.result) w.2)
    (g : G) (hB : ∀ w ∈ workers, B.Fit ((fed exist hasFilter g w.1.flatten).map conv)) :
    (combine B op 0 (workers.map fun w => workerRows [w.2]) g).bind AggFn.result =
      (aggEval B op conv exist hasFilter (fun _ => none)
        (workers.map fun w => w.1).flatten g).bind AggFn.result := by
  have htab : ∀ (bs : List (List (ARow G))) (g : G),
      (aggEval B op conv exist hasFilter (fun _ => none) bs g).bind AggFn.result =
        table B op (fun g => (fed exist hasFilter g bs.flatten).map conv) g := by
    intro bs g
    unfold aggEval table
    rw [evalBatches_group, feed_opt]
    by_cases h : fed exist hasFilter g bs.flatten = []
    · simp [h]
    · simp [h]
  have hfun : ∀ w ∈ workers,
      Listing (table B op (fun g => (fed exist hasFilter g w.1.flatten).map conv)) w.2 := by
    intro w hm
    have := hw w hm
    rwa [funext (htab w.1)] at this
  have hC := C53_partial B op hop
    (workers.map fun w => ((fun g => (fed exist hasFilter g w.1.flatten).map conv), w.2))
    (by intro p hp
        obtain ⟨w, hm, rfl⟩ := List.mem_map.mp hp
        exact hfun w hm) g
    (by intro p hp
        obtain ⟨w, hm, rfl⟩ := List.mem_map.mp hp
        exact hB w hm)
  simp only [List.map_map] at hC
  have hall : (workers.map ((fun w : (G → List Rat) × List (G × Rat) => w.1 g) ∘ fun w =>
        ((fun g => (fed exist hasFilter g w.1.flatten).map conv), w.2))).flatten =
      (fed exist hasFilter g (workers.map fun w => w.1).flatten.flatten).map conv := by
    clear hC hfun hB hw
    induction workers with
    | nil => rfl
    | cons w ws ih =>
      rw [List.map_cons, List.flatten_cons, ih, List.map_cons, List.flatten_cons,
        List.flatten_append]
      unfold fed
      rw [List.filter_append, List.map_append, List.map_append]
      rfl
  have hrows : (workers.map ((fun w : (G → List Rat) × List (G × Rat) => workerRows [w.2]) ∘
      fun w => ((fun g => (fed exist hasFilter g w.1.flatten).map conv), w.2))) =
      workers.map fun w => workerRows [w.2] := rfl
  rw [hall, hrows] at hC
  rw [htab]
  obtain ⟨h0, h1⟩ := hC
  by_cases he : (fed exist hasFilter g (workers.map fun w => w.1).flatten.flatten).map conv = []
  · rw [h0 he]
    simp only [table, he, if_true]
    rfl
  · obtain ⟨f, x, e1, e2, e3⟩ := h1 he
    rw [e1]
    show f.result = _
    rw [e2]
    unfold table
    rw [if_neg he]
    have hfit : B.Fit ((fed exist hasFilter g (workers.map fun w => w.1).flatten.flatten).map
        conv) := by
      rw [← hall]
      intro v hv
      obtain ⟨l, hl, hvl⟩ := List.mem_flatten.mp hv
      obtain ⟨w, hm, rfl⟩ := List.mem_map.mp hl
      exact hB w hm v hvl
    obtain ⟨y, y1, y2⟩ := feed_isAgg B op _ he hfit
    rw [y1, e3.unique y2]

/-- Two workers with one selected value each and a group both know. -/
example : (combine ⟨100, -100⟩ .min 0 [workerRows [[(true, 5)]], workerRows [[(true, 2), (false, 4)]]]
    true).bind AggFn.result = some 2 := by decide +kernel

end
end OptiPrism.Query
