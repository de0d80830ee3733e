import Verif.Platform.QueryApart
import Verif.Platform.ApartProps
import Verif.Platform.ChartDecodeProps
import Verif.Platform.GroupSearchProps
import Verif.Platform.ValuesProps
import Verif.Platform.SingleProps
import Verif.Platform.FunnelRowsProps

/-!
# C160: queries and other projects

What a query is planned as and what it answers follows from the metadata of its own project; where columns are not decoded before the filter, it
follows also from the rows of this project alone.
-/

namespace OptiPrism.Platform

open OptiPrism.Meta (Str Kv only hide only_of_hide)
open OptiPrism.Query

variable {N : Type}

/-! ## Spec -/

/-- The rows of a project. -/
def ownRows (p : Nat) (rows : List QRow) : List QRow := rows.filter fun row => decide (row "project_id".toList = some (.int (p : Int)))

/-- What the queries of a project give with one store and table is what they give with another. -/
structure SameQueries (N : Type) (p : Nat) (kv kv' : Kv) : Prop where
  chart : ∀ (E : ReqEnv N) sys fuel tbl cur r, chart E sys fuel p kv tbl cur r = chart E sys fuel p kv' tbl cur r
  funnel : ∀ (E : ReqEnv N) wrap sys fuel tbl cur r, funnel E wrap sys fuel p kv tbl cur r = funnel E wrap sys fuel p kv' tbl cur r
  search : ∀ (E : ReqEnv N) sys fuel tbl cur r, search E sys fuel p kv tbl cur r = search E sys fuel p kv' tbl cur r
  groupSearch : ∀ (E : ReqEnv N) sys tbls cur r, groupSearch E sys p kv tbls cur r = groupSearch E sys p kv' tbls cur r
  values : ∀ (E : ReqEnv N) sys fuel tbl r, valuesRequest E sys fuel p kv tbl r = valuesRequest E sys fuel p kv' tbl r
  decoded : ∀ ds rows, decodeRows p kv ds rows = decodeRows p kv' ds rows
  answer : ∀ S order c rows, answer S p kv order c rows = answer S p kv' order c rows
  listed : ∀ S order c rows, valuesRun S p kv order c rows = valuesRun S p kv' order c rows
  event : ∀ S junk sys tbl rows id, eventRecord S junk sys p kv tbl rows id = eventRecord S junk sys p kv' tbl rows id
  group : ∀ S junk sys tbl rows g id, groupRecord S junk sys p kv tbl rows g id = groupRecord S junk sys p kv' tbl rows g id

/-! ## Metadata -/

/-- **C160, metadata.** Whatever differs between two stores outside the project, its queries are planned and answered alike: charts, funnels, searches for
events and groups, values of properties, single records. -/
theorem C160_metadata {p : Nat} {kv kv' : Kv} (h : only p kv = only p kv') : SameQueries N p kv kv' where
  chart := chart_alike h
  funnel := funnel_alike h
  search := search_alike h
  groupSearch := groupSearch_alike h
  values := valuesRequest_alike h
  decoded ds rows := by rw [decodeRows_alike h]
  answer := answer_alike h
  listed := valuesRun_alike h
  event := eventRecord_alike h
  group := groupRecord_alike h

/-- What happens in the metadata of a project is not seen by queries of another. -/
theorem C160_beside {p q : Nat} (hq : q ≠ p) {kv kv' : Kv} (h : hide p kv = hide p kv') : SameQueries N q kv kv' := C160_metadata (only_of_hide hq h)

/-- A stranger to the project, calling anything in the API, changes nothing for its queries. -/
theorem C160_stranger {Q : Type} {E : Meta.Env Q} {n : Nat} {kv : Kv} (hh : Meta.Hist E n kv) {W : WebEnv N} {p : Nat} (d : Draw) (r : HttpReq N) (hu : r.Usual W d kv)
    (hs : ∀ ctx, caller d r kv = .ok ctx → Stranger ctx p) : SameQueries N p kv (serve W d r kv).2 := by
  refine C160_metadata (Classical.byContradiction fun hn => ?_)
  obtain ⟨ctx, op, h1, -, h3⟩ := C152_writer_partial hh d r hu (fun e => hn e.symm)
  rw [(hs ctx h1).refused op] at h3
  cases h3

/-! ## Rows -/

theorem kept_own {S : Sem} {p : Nat} {e : Expr} (he : ∀ row, Selects S row e → Owned p row) {rows rows' : List QRow} (h : ownRows p rows = ownRows p rows') :
    kept S e rows = kept S e rows' := by
  have key : ∀ rows, kept S e (ownRows p rows) = kept S e rows := fun rows => by
    unfold kept ownRows
    rw [List.filter_filter]
    refine List.filter_congr fun row _ => ?_
    cases hx : (eval S row e == some true) with
    | false => rfl
    | true =>
      have : Owned p row := he row (by unfold Selects; exact eq_of_beq hx)
      have : decide (row "project_id".toList = some (.int (p : Int))) = true := decide_eq_true this
      rw [this]
      rfl
  rw [← key rows, h, key]

theorem eventsSearch_own {F : Type} {md : Md F} {S : Sem} {row : QRow} {fuel : Nat} {u : TsUnit} {p : Nat} (hp : p < 2 ^ 63) {q : QueryTime} {cur : Int}
    {evs : Option (List (EventReq F))} {fs : Option (List F)} {e : Expr} (h : eventsSearchFilter md fuel u p q cur evs fs = .ok e) (hs : Selects S row e) : Owned p row := by
  unfold eventsSearchFilter at h
  split at h
  · cases h
  · split at h
    · exact (project_selects hp).mp ((multiAnd_selects h).mp hs _ (.head _))
    · exact (project_selects hp).mp ((multiAnd_selects h).mp hs _ (.head _))
    · split at h
      · cases h
      · split at h
        · cases h
        · exact (project_selects hp).mp ((multiAnd_selects h).mp hs _ (.head _))

/-- All that is claimed of searches: the rows of other projects do not matter. -/
def C160_full (N : Type) : Prop := ∀ (S : Sem) (E : ReqEnv N) sys fuel p kv tbl cur r c order rows rows', p < 2 ^ 63 → search E sys fuel p kv tbl cur r = .ok c →
  ownRows p rows = ownRows p rows' → answer S p kv order c rows = answer S p kv order c rows'

variable {E : ReqEnv N} {sys : Str → Str} {fuel p : Nat} {kv : Kv} {tbl : List Str} {cur : Int} {rows rows' : List QRow}

/-- **C160, rows (part).** Searches that decode nothing before their filter answer from the rows of the project. Missing: pattern filters on
dictionaries (see `C160_violated`). -/
theorem C160_search_partial (S : Sem) (hp : p < 2 ^ 63) {r : JSearch N} {c : RecordsPlan} (h : search E sys fuel p kv tbl cur r = .ok c) (hd : c.decoded = [])
    (order : List QRow → List QRow) (hr : ownRows p rows = ownRows p rows') : answer S p kv order c rows = answer S p kv order c rows' := by
  obtain ⟨q, w⟩ := search_way h
  obtain ⟨_, _, _, -, -, -, h4, -⟩ := searchPlan_parts w.plan
  have hn : ∀ rows, decodeRows p kv [] rows = some rows := fun rows => by
    unfold decodeRows
    induction rows with
    | nil => rfl
    | cons a l ih => simp only [List.mapM_cons, ih]; rfl
  unfold answer
  rw [hd, hn, hn]
  simp only [Option.bind_eq_bind, Option.bind_some]
  rw [kept_own (fun row => eventsSearch_own hp h4) hr]

/-- As before, for groups. -/
theorem C160_groups_partial (S : Sem) (hp : p < 2 ^ 63) {tbls : Nat → Option (List Str)} {r : JGroupSearch N} {c : RecordsPlan}
    (h : groupSearch E sys p kv tbls cur r = .ok c) (hd : c.decoded = []) (order : List QRow → List QRow) (hr : ownRows p rows = ownRows p rows') :
    answer S p kv order c rows = answer S p kv order c rows' := by
  obtain ⟨q, w⟩ := group_way h
  obtain ⟨_, _, _, -, -, -, -, h4, -⟩ := groupPlan_parts w.plan
  have hn : ∀ rows, decodeRows p kv [] rows = some rows := fun rows => by
    unfold decodeRows
    induction rows with
    | nil => rfl
    | cons a l ih => simp only [List.mapM_cons, ih]; rfl
  unfold answer
  rw [hd, hn, hn]
  simp only [Option.bind_eq_bind, Option.bind_some]
  rw [kept_own (fun row => (C117_partial _ S row 0 .ms hp cur _).2.2.2.1 _ _ h4) hr]

/-- The rows a chart counts are the same; what it computes of them is computed of these alone. -/
theorem C160_charts_partial (S : Sem) (hp : p < 2 ^ 63) {r : JSegReq N} {c : Chart} (h : chart E sys fuel p kv tbl cur r = .ok c)
    (hr : ownRows p rows = ownRows p rows') : ∀ e ∈ c.events, kept S e.filter rows = kept S e.filter rows' := by
  obtain ⟨q, w⟩ := chart_way h
  obtain ⟨_, _, h⟩ := bind_ok w.plan
  obtain ⟨_, _, h⟩ := bind_ok h
  obtain ⟨_, _, h⟩ := bind_ok h
  obtain ⟨es, h4, h⟩ := bind_ok h
  cases h
  intro e he
  obtain ⟨a, -, ha⟩ := (collect_spec h4).2.1 e he
  obtain ⟨_, g1, ha⟩ := bind_ok ha
  obtain ⟨_, _, ha⟩ := bind_ok ha
  obtain ⟨_, _, ha⟩ := bind_ok ha
  cases ha
  exact kept_own (fun row => (C117_partial _ S row fuel .ms hp cur _).1 _ _ _ g1) hr

/-- Values of properties are those of the rows of the project. -/
theorem C160_values (S : Sem) (hp : p < 2 ^ 63) {r : JValues N} {c : ValuesPlan} (h : valuesRequest E sys fuel p kv tbl r = .ok c)
    (order : List (Option Cell) → List (Option Cell)) (hr : ownRows p rows = ownRows p rows') : valuesRun S p kv order c rows = valuesRun S p kv order c rows' := by
  obtain ⟨-, _, _, -, -, -, -, -, h4, -⟩ := values_way h
  unfold valuesRun
  rw [kept_own (fun row => (C117_partial _ S row fuel .ms hp 0 _).2.2.2.2.2 _ h4) hr]

/-- So are single events and groups. -/
theorem C160_records (S : Sem) (junk : Str → Cell) (hp : p < 2 ^ 63) (hr : ownRows p rows = ownRows p rows') :
    (∀ tbl id, eventRecord S junk sys p kv tbl rows id = eventRecord S junk sys p kv tbl rows' id) ∧
    ∀ tbl g id, groupRecord S junk sys p kv tbl rows g id = groupRecord S junk sys p kv tbl rows' g id := by
  have md : Md Unit := ⟨fun _ => .error .notFound, fun _ => .error .notFound, fun _ => .error .plan⟩
  have k1 : ∀ id f, eventByIdFilter p id = .ok f → kept S f rows = kept S f rows' := fun id f h =>
    kept_own (fun row => (C117_partial md S row 0 .ms hp 0 _).2.2.1 _ h) hr
  have k2 : ∀ key f, groupByIdFilter p key = .ok f → kept S f rows = kept S f rows' := fun id f h =>
    kept_own (fun row => (C117_partial md S row 0 .ms hp 0 _).2.2.2.2.1 _ h) hr
  constructor
  · intro tbl id
    unfold eventRecord
    cases h : eventByIdFilter p id with
    | error e => rfl
    | ok f => simp only [Bind.bind, Except.bind, recordRows, k1 id f h]
  · intro tbl g id
    unfold groupRecord
    refine congrArg _ (funext fun tbl => congrArg _ (funext fun idProp => congrArg _ (funext fun key => ?_)))
    cases h : groupByIdFilter p key with
    | error e => rfl
    | ok f => simp only [Bind.bind, Except.bind, recordRows, k2 key f h]

/-! ## What is not so -/

/-- All events, where the city is like "R%". -/
def likeSearch : JSearch Int :=
  { recordsReq with
    events := some [⟨.regular "buy".toList, some [⟨.event "city".toList, .like, some [.str "R%".toList]⟩]⟩]
    filters := none
    properties := some [.event "event_id".toList, .event "city".toList] }

theorem foreign_own (row : QRow) (h : (row "project_id".toList == some (.int 1)) = false) (rows : List QRow) : ownRows 1 (row :: rows) = ownRows 1 rows := by
  unfold ownRows
  rw [List.filter_cons, if_neg]
  intro e
  rw [of_decide_eq_true e] at h
  exact absurd h (by decide)

/-- **C160 is violated**: a row of another project ends a search with a pattern filter. -/
theorem C160_violated : ¬ C160_full Int := by
  intro h
  have hok : (search exReqEnv id 1 1 recordsKv recordsCols 0 likeSearch).toOption.map (fun c => ((answer exSem 1 recordsKv id c [foreignRow]).isSome,
    (answer exSem 1 recordsKv id c []).isSome)) = some (false, true) := by decide +kernel
  cases hc : search exReqEnv id 1 1 recordsKv recordsCols 0 likeSearch with
  | error e => rw [hc] at hok; cases hok
  | ok c =>
    rw [hc] at hok
    simp only [Except.toOption, Option.map_some, Option.some.injEq, Prod.mk.injEq] at hok
    have := h exSem exReqEnv id 1 1 recordsKv recordsCols 0 likeSearch c id [foreignRow] [] (by decide) hc (foreign_own _ (by decide +kernel) _)
    rw [this, hok.2] at hok
    cases hok.1

/-- **C160 is violated for funnels**: a row of another project is kept. -/
theorem C160_funnel_violated : ∃ c, funnel exReqEnv false id 1 1 demoKv demoCols 0 (askFunnel Int "buy".toList) = .ok c ∧ c.decoded = [] ∧
    ownRows 1 [foreignSeen] = ownRows 1 [] ∧ (kept exSem c.filter [foreignSeen]).length = 1 ∧ (kept exSem c.filter []).length = 0 := by
  have hok : (funnel exReqEnv false id 1 1 demoKv demoCols 0 (askFunnel Int "buy".toList)).toOption.map (fun c => (c.decoded, (kept exSem c.filter [foreignSeen]).length)) =
    some ([], 1) := by decide +kernel
  cases hc : funnel exReqEnv false id 1 1 demoKv demoCols 0 (askFunnel Int "buy".toList) with
  | error e => rw [hc] at hok; cases hok
  | ok c =>
    rw [hc] at hok
    simp only [Except.toOption, Option.map_some, Option.some.injEq, Prod.mk.injEq] at hok
    exact ⟨c, rfl, hok.1, foreign_own _ (by decide +kernel) _, hok.2, rfl⟩

/-! ## Cases -/

/-- A store in which project 2 has an event of the same name and a dictionary of its own. -/
def besideKv : Kv :=
  (Meta.runCall (Meta.dictGetOrCreate 2 Meta.kEvents "e_str_0".toList "Oslo".toList) (Meta.createEvent 2 ⟨7, 0⟩ buyEvent []).2).2 ++ demoKv

/-- The stores differ, not in project 1; the queries of project 1 find what they need in both. -/
example : only 1 besideKv = only 1 demoKv ∧ besideKv ≠ demoKv ∧
    (chart exReqEnv id 1 1 besideKv demoCols 0 patternReq).toOption.isSome = true ∧
    (decodeCell 1 besideKv Meta.kEvents "e_str_0".toList (some (.int 1))) = some (some (.str "Rome".toList)) ∧
    (decodeCell 2 besideKv Meta.kEvents "e_str_0".toList (some (.int 1))) = some (some (.str "Oslo".toList)) := by decide +kernel

/-- Cities of the project, with and without a row of another. -/
example : ownRows 1 (foreignSeen :: cityRows) = ownRows 1 cityRows ∧
    (valuesRequest exReqEnv id 1 1 demoKv demoCols citiesReq).toOption.map (fun c => (valuesRun exSem 1 demoKv id c (foreignSeen :: cityRows)).map (·.length)) = some (some 2) := by
  exact ⟨foreign_own _ (by decide +kernel) _, by decide +kernel⟩

/-- All events that are "buy", without a pattern. -/
example : (search exReqEnv id 1 1 recordsKv recordsCols 0 { likeSearch with events := some [⟨.regular "buy".toList, some []⟩] }).toOption.map (fun c => (c.decoded,
    (answer exSem 1 recordsKv id c [foreignSeen, recordsRow 5 (some 1) none]).map fun l => l.map fun x => x.data)) = some ([], some [[some (.int 5)], [some (.str "Rome".toList)]]) := by
  decide +kernel

end OptiPrism.Platform
