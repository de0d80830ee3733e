import Verif.Platform.ChartRowsProps

/-!
# C128: rows of others do not stop a chart
-/

namespace OptiPrism.Platform

open OptiPrism.Meta (Str PropOp PropertyRef EventRef Scalar PropFilter Kv Property PropType Event propsC customC eventsC kEvents dictGetValue dictGetKey)
open OptiPrism.Query
open OptiPrism.Ingest (groupCol dictRoom dictCell World Life KeepsSys)

variable {N : Type} {E : ReqEnv N} {sys : Str → Str} {p : Nat} {kv : Kv} {tbl : List Str}

/-! ## Spec -/

/-- The strings of the row that are matched against patterns are in the dictionary of the project. -/
def Readable (sys : Str → Str) (p : Nat) (kv : Kv) (r : JSegReq N) (row : QRow) : Prop :=
  ∀ f ∈ allFilters r, ∀ rf, PropertyAt p kv f.property rf → rf.isDictionary = true → Pattern f.op →
    row (rf.columnName sys) = none ∨
      ∃ k s, k < 2 ^ 63 ∧ row (rf.columnName sys) = some (.int (k : Nat)) ∧ dictGetValue p (tableAt f.property) (rf.columnName sys) k kv = .ok s

/-- The full claim: a chart of a project whose own rows can be read gets its rows, whatever rows other projects have. -/
def C128_full (N : Type) : Prop :=
  ∀ (E : ReqEnv N) (sys : Str → Str) (fuel p : Nat) (kv : Kv) (tbl : List Str) (cur : Int) (r : JSegReq N) (c : Chart), chart E sys fuel p kv tbl cur r = .ok c →
    ∀ rows : List QRow, (∀ row ∈ rows, Owned p row → Readable sys p kv r row) → ∃ rows', decodeRows p kv c.decoded rows = some rows'

/-! ## Helpers -/

theorem decodeRow_isSome {ds : List (Str × Str)} {row : QRow} (h : ∀ d ∈ ds, (decodeCell p kv d.2 d.1 (row d.1)).isSome = true) :
    ∃ row', decodeRow p kv ds row = some row' := by
  unfold decodeRow
  rw [if_pos]
  · exact ⟨_, rfl⟩
  · rw [List.all_eq_true]
    intro d hd
    cases hf : ds.find? (fun x => x.1 = d.1) with
    | none => rfl
    | some x => exact h x (List.mem_of_find?_eq_some hf)

theorem mapM_isSome {α β : Type} {f : α → Option β} {l : List α} (h : ∀ a ∈ l, ∃ b, f a = some b) : ∃ bs, l.mapM f = some bs := by
  induction l with
  | nil => exact ⟨[], rfl⟩
  | cons a l ih =>
    obtain ⟨b, hb⟩ := h a (.head _)
    obtain ⟨bs, hbs⟩ := ih fun a ha => h a (.tail _ ha)
    exact ⟨b :: bs, by simp [List.mapM_cons, hb, hbs]⟩

theorem readable_decodes {fuel : Nat} {cur : Int} {r : JSegReq N} {c : Chart} (h : chart E sys fuel p kv tbl cur r = .ok c) {row : QRow}
    (hr : Readable sys p kv r row) : ∃ row', decodeRow p kv c.decoded row = some row' := by
  obtain ⟨q, w⟩ := chart_way h
  refine decodeRow_isSome fun d hd => ?_
  obtain ⟨f, hf, rf, h1, h2, h3, rfl⟩ := (decoded_mem w d).mp hd
  rcases hr f hf rf h1 h2 h3 with e | ⟨k, s, hk, e, hs⟩
  · simp only [e, decodeCell, Option.isSome_some]
  · simp only [e, decodeCell, ofInt_key hk, hs, Option.isSome_some]

/-! ## C128 -/

/-- C128 (partial): without patterns for dictionary properties nothing is decoded and all rows come through as they are; with patterns
they do when the rows of all projects can be read with the dictionary of the project that asks, and every row is then as before except
in the columns matched against patterns. Missing: charts with patterns over rows of other projects. -/
theorem C128_partial {fuel : Nat} {cur : Int} {r : JSegReq N} {c : Chart} (h : chart E sys fuel p kv tbl cur r = .ok c) :
    ((∀ f ∈ allFilters r, Pattern f.op → ∀ rf, PropertyAt p kv f.property rf → rf.isDictionary = false) →
      ∀ rows : List QRow, decodeRows p kv c.decoded rows = some rows) ∧
    (∀ rows : List QRow, (∀ row ∈ rows, Readable sys p kv r row) → ∃ rows', decodeRows p kv c.decoded rows = some rows') ∧
    ∀ (row row' : QRow) (x : Str), decodeRow p kv c.decoded row = some row' →
      (∀ f ∈ allFilters r, Pattern f.op → ∀ rf, PropertyAt p kv f.property rf → rf.isDictionary = true → rf.columnName sys ≠ x) → row' x = row x := by
  obtain ⟨q, w⟩ := chart_way h
  refine ⟨fun hp rows => ?_, fun rows hr => ?_, fun row row' x hd hx => ?_⟩
  · have : c.decoded = [] := by
      cases hd : c.decoded with
      | nil => rfl
      | cons d ds =>
        obtain ⟨f, hf, rf, h1, h2, h3, -⟩ := (decoded_mem w d).mp (by rw [hd]; exact .head _)
        rw [hp f hf h3 rf h1] at h2
        cases h2
    rw [this]
    unfold decodeRows
    induction rows with
    | nil => rfl
    | cons a l ih => simp [List.mapM_cons, ih, decodeRow]
  · exact mapM_isSome fun row hrow => readable_decodes h (hr row hrow)
  · refine decodeRow_other hd fun d hd' e => ?_
    obtain ⟨f, hf, rf, h1, h2, h3, rfl⟩ := (decoded_mem w d).mp hd'
    exact hx f hf h3 rf h1 h2 e

/-- City is like "R%". -/
def patternReq : JSegReq Int :=
  { ask Int "buy".toList with
    events := [⟨.regular "buy".toList, some [⟨.event "city".toList, .like, some [.str "R%".toList]⟩], none, [.countEvents]⟩] }

/-- The chart is planned, its own row decoded. -/
example : (chart exReqEnv id 1 1 demoKv demoCols 0 patternReq).toOption.map (fun c => (decodeRows 1 demoKv c.decoded [demoRow (some 1) none]).map fun rows =>
    rows.map fun row => row "e_str_0".toList) = some (some [some (.str "Rome".toList)]) := by decide +kernel

/-- The row of another project: the same column, with the number of a string of that project. -/
def foreignRow : QRow := fun c => if c = "project_id".toList then some (.int 2) else if c = "e_str_0".toList then some (.int 2) else none

/-- C128 is violated: one row of another project, which no filter of the chart would let through, ends the query with a panic. -/
theorem C128_violated : ¬ C128_full Int := by
  intro h
  have hok : (chart exReqEnv id 1 1 demoKv demoCols 0 patternReq).toOption.map (fun c => ((decodeRows 1 demoKv c.decoded [foreignRow]).isSome,
    c.events.map fun pl => eval exSem foreignRow pl.filter)) = some (false, [some false]) := by decide +kernel
  cases hc : chart exReqEnv id 1 1 demoKv demoCols 0 patternReq with
  | error e => rw [hc] at hok; cases hok
  | ok c =>
    rw [hc] at hok
    simp only [Except.toOption, Option.map_some, Option.some.injEq, Prod.mk.injEq] at hok
    obtain ⟨rows', hr⟩ := h _ _ _ _ _ _ _ _ c hc [foreignRow] (by
      intro row hrow ho
      cases List.mem_singleton.mp hrow
      cases ho)
    rw [hr] at hok
    cases hok.1

end OptiPrism.Platform
