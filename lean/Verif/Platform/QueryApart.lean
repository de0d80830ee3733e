import Verif.Meta.Apart
import Verif.Platform.FunnelPlan
import Verif.Platform.Values
import Verif.Platform.Single
import Verif.Query.PlanProps

/-!
# What queries read of the metadata

Two stores with the same content in a project look the same to every query of the project.
-/

namespace OptiPrism.Meta

variable {R : Type} {p : Nat} {kv kv' : Kv}

theorem get_only {k : Str} (h : inProject p k = true) (kv : Kv) : Kv.get (only p kv) k = kv.get k := by
  unfold only Kv.get
  rw [List.find?_filter]
  congr 1
  congr 1
  funext e
  by_cases he : e.1 = k
  · simp [he, h]
  · simp [he]

theorem getK_alike (h : only p kv = only p kv') {k : Key} (hk : k.proj? = some p) : getK kv k = getK kv' k := by
  have hr : inProject p k.render = true := by rw [inProject_render]; simp [hk]
  unfold getK
  rw [← get_only hr kv, h, get_only hr]

theorem entries_only {pre : Str} (hp : ∀ t, inProject p (pre ++ t) = true) (kv : Kv) : entries pre (only p kv) = entries pre kv := by
  unfold entries only
  rw [List.filter_filter]
  refine List.filter_congr fun e _ => ?_
  cases h : pre.isPrefixOf e.1 with
  | false => rfl
  | true =>
    obtain ⟨t, ht⟩ := List.isPrefixOf_iff_prefix.mp h
    rw [← ht, hp t]
    rfl

theorem getById_alike (h : only p kv = only p kv') {c : Coll R} (hc : c.ns.proj? = some p) (id : Nat) : c.getById id kv = c.getById id kv' := by
  unfold Coll.getById
  rw [getK_alike h (k := .data c.ns id) hc]

theorem getBy_alike (h : only p kv = only p kv') {c : Coll R} (hc : c.ns.proj? = some p) (ix : Ix) (s : Str) : c.getBy ix s kv = c.getBy ix s kv' := by
  unfold Coll.getBy getIndex
  rw [getK_alike h (k := .idx c.ns ix s) hc]
  simp only [getById_alike h hc]

theorem list_alike (h : only p kv = only p kv') {c : Coll R} {g : PColl} (hc : c.ns = .proj p g) : c.list kv = c.list kv' := by
  have hp : ∀ t, inProject p (c.ns.listPrefix ++ t) = true := fun t => by
    rw [inProject_iff, hc]
    exact ⟨_, by simp [Ns.listPrefix, Ns.path, projPath]; rfl⟩
  unfold Coll.list
  rw [← entries_only hp kv, h, entries_only hp]

theorem dictGetValue_alike (h : only p kv = only p kv') (t d : Str) (n : Nat) : dictGetValue p t d n kv = dictGetValue p t d n kv' := by
  unfold dictGetValue
  rw [getK_alike h (k := .dictKey p t d n) rfl]

theorem dictGetKey_alike (h : only p kv = only p kv') (t d v : Str) : dictGetKey p t d v kv = dictGetKey p t d v kv' := by
  unfold dictGetKey
  rw [getK_alike h (k := .dictVal p t d v) rfl]

/-- Stores that are the same outside a project are the same in every other. -/
theorem only_of_hide {q : Nat} (hq : q ≠ p) (h : hide p kv = hide p kv') : only q kv = only q kv' := by
  have key : ∀ kv, only q (hide p kv) = only q kv := fun kv => by
    unfold only hide
    rw [List.filter_filter]
    refine List.filter_congr fun e _ => ?_
    cases hx : inProject q e.1 with
    | false => rfl
    | true =>
      obtain ⟨t, ht⟩ := inProject_iff.1 hx
      rw [ht, projPath_other hq]
      rfl
  rw [← key kv, h, key]

end OptiPrism.Meta

namespace OptiPrism.Platform

open OptiPrism.Meta
open OptiPrism.Query

variable {N : Type} {p : Nat} {kv kv' : Kv}

theorem findProp_alike (h : only p kv = only p kv') (c : QErr) : findProp c p kv = findProp c p kv' := by
  funext r
  cases r <;> simp only [findProp, getBy_alike h (c := propsC p _) rfl]

theorem validateFilter_alike (h : only p kv = only p kv') : validateFilter (N := N) p kv = validateFilter p kv' := by
  funext f
  simp only [validateFilter, findProp_alike h]

theorem validateProperty_alike (h : only p kv = only p kv') : validateProperty p kv = validateProperty p kv' := by
  funext r
  simp only [validateProperty, findProp_alike h]

theorem validateEvent_alike (h : only p kv = only p kv') : validateEvent p kv = validateEvent p kv' := by
  funext r
  cases r <;> simp only [validateEvent, getBy_alike h (c := eventsC p) rfl, getById_alike h (c := customC p) rfl]

theorem validateGroup_alike (h : only p kv = only p kv') : validateGroup (N := N) p kv = validateGroup p kv' := by
  funext g
  simp only [validateGroup, validateFilter_alike h]

theorem fixFilter_alike (h : only p kv = only p kv') : fixFilter p kv = fixFilter p kv' := by
  funext f
  simp only [fixFilter, findProp_alike h]

theorem fixFilters_alike (h : only p kv = only p kv') : fixFilters p kv = fixFilters p kv' := by
  funext f
  unfold fixFilters
  rw [fixFilter_alike h]

theorem colName_alike (h : only p kv = only p kv') (sys : Str → Str) : colName sys p kv = colName sys p kv' := by
  funext r
  simp only [colName, findProp_alike h]

theorem encodeDictValues_alike (h : only p kv = only p kv') (t d : Str) (dt : DictType) : ∀ vs, encodeDictValues p t d dt kv vs = encodeDictValues p t d dt kv' vs
  | [] => rfl
  | none :: vs => by simp only [encodeDictValues, encodeDictValues_alike h t d dt vs]
  | some (.str s) :: vs => by simp only [encodeDictValues, encodeDictValues_alike h t d dt vs, dictGetKey_alike h]
  | some (.bool _) :: _ | some (.int _) :: _ | some (.ts _) :: _ | some (.decimal _) :: _ => rfl

theorem propExpression_alike (h : only p kv = only p kv') (sys : Str → Str) (t : Str) (r : Property) (op : PropOp) (vs : Option (List (Option Cell))) :
    propExpression sys p t r kv op vs = propExpression sys p t r kv' op vs := by
  unfold propExpression
  simp only [encodeDictValues_alike h]

theorem mdOf_alike (h : only p kv = only p kv') (sys : Str → Str) : mdOf sys p kv = mdOf sys p kv' := by
  have : propertyExpression sys p kv = propertyExpression sys p kv' := by
    funext f
    simp only [propertyExpression, findProp_alike h, propExpression_alike h]
  simp only [mdOf, getBy_alike h (c := eventsC p) rfl, getById_alike h (c := customC p) rfl, this]

theorem decodeFilter_alike (h : only p kv = only p kv') (sys : Str → Str) : decodeFilter sys p kv = decodeFilter sys p kv' := by
  funext f
  simp only [decodeFilter, findProp_alike h]

theorem chart_alike (h : only p kv = only p kv') (E : ReqEnv N) (sys : Str → Str) (fuel : Nat) (tbl : List Str) (cur : Int) (r : JSegReq N) :
    chart E sys fuel p kv tbl cur r = chart E sys fuel p kv' tbl cur r := by
  have h1 : validateChartEvent (N := N) p kv = validateChartEvent p kv' := by
    funext e
    simp only [validateChartEvent, validateEvent_alike h, validateFilter_alike h]
  have h2 : fixChartEvent p kv = fixChartEvent p kv' := by
    funext e
    simp only [fixChartEvent, fixFilters_alike h]
  have h3 : aggPlan sys p kv = aggPlan sys p kv' := by
    funext q
    cases q <;> simp only [aggPlan, colName_alike h]
  have h4 : breakdownCol sys p kv = breakdownCol sys p kv' := by
    funext q
    simp only [breakdownCol, findProp_alike h]
  have h5 : eventPlan sys fuel p kv = eventPlan sys fuel p kv' := by
    funext cur cols r e
    simp only [eventPlan, mdOf_alike h, h3, h4]
  simp only [chart, validateChart, h1, validateGroup_alike h, validateProperty_alike h, fixChart, h2, fixFilters_alike h, chartPlan, projection, colName_alike h,
    decodeFilter_alike h, h5]

theorem funnel_alike (h : only p kv = only p kv') (E : ReqEnv N) (wrap : Bool) (sys : Str → Str) (fuel : Nat) (tbl : List Str) (cur : Int) (r : JFunnel N) :
    funnel E wrap sys fuel p kv tbl cur r = funnel E wrap sys fuel p kv' tbl cur r := by
  have h1 : validateFEvent (N := N) p kv = validateFEvent p kv' := by
    funext e
    simp only [validateFEvent, validateEvent_alike h, validateFilter_alike h]
  have h2 : validateStep (N := N) p kv = validateStep p kv' := by
    funext n e
    simp only [validateStep, h1]
  have h3 : validateExclude (N := N) p kv = validateExclude p kv' := by
    funext n e
    simp only [validateExclude, validateEvent_alike h]
  have h4 : stepName p kv = stepName p kv' := by
    funext s
    simp only [stepName, getById_alike h (c := eventsC p) rfl]
  have h5 : stepPlan sys fuel p kv = stepPlan sys fuel p kv' := by
    funext s
    simp only [stepPlan, mdOf_alike h]
  have h6 : excludePlan sys fuel p kv = excludePlan sys fuel p kv' := by
    funext n s
    simp only [excludePlan, mdOf_alike h]
  have h7 : breakdownDict sys p kv = breakdownDict sys p kv' := by
    funext s
    simp only [breakdownDict, findProp_alike h]
  have h8 : breakdownGroup sys p kv = breakdownGroup sys p kv' := by
    funext s
    simp only [breakdownGroup, findProp_alike h]
  simp only [funnel, validateFunnel, h2, h3, validateProperty_alike h, validateFilter_alike h, fixFunnel, fixFilters_alike h, funnelPlan, funnelProjection,
    colName_alike h, decodeFilter_alike h, mdOf_alike h, h4, h5, h6, h7, h8]

theorem search_alike (h : only p kv = only p kv') (E : ReqEnv N) (sys : Str → Str) (fuel : Nat) (tbl : List Str) (cur : Int) (r : JSearch N) :
    search E sys fuel p kv tbl cur r = search E sys fuel p kv' tbl cur r := by
  have h1 : validateSearchEvent (N := N) p kv = validateSearchEvent p kv' := by
    funext e
    simp only [validateSearchEvent, validateEvent_alike h, validateFilter_alike h]
  have h2 : fixSearchEvents p kv = fixSearchEvents p kv' := by
    funext e
    cases e <;> simp only [fixSearchEvents, fixFilter_alike h]
  have h3 : allProperties p kv = allProperties p kv' := by
    simp only [allProperties, list_alike h (c := propsC p _) rfl]
  simp only [search, validateSearch, h1, validateGroup_alike h, validateProperty_alike h, fixSearch, h2, fixFilters_alike h, searchPlan, searchColumns,
    colName_alike h, findProp_alike h, decodeFilter_alike h, mdOf_alike h, eventProperties, h3]

theorem groupSearch_alike (h : only p kv = only p kv') (E : ReqEnv N) (sys : Str → Str) (tbls : Nat → Option (List Str)) (cur : Int) (r : JGroupSearch N) :
    groupSearch E sys p kv tbls cur r = groupSearch E sys p kv' tbls cur r := by
  have h1 : findGroupProp p kv = findGroupProp p kv' := by
    funext e
    cases e <;> simp only [findGroupProp, findProp_alike h]
  simp only [groupSearch, validateGroupSearch, validateGroup_alike h, validateProperty_alike h, fixGroupSearch, fixFilters_alike h, groupSearchPlan, groupColumns,
    colName_alike h, h1, decodeFilter_alike h, mdOf_alike h, groupProperties, list_alike h (c := propsC p _) rfl]

theorem valuesRequest_alike (h : only p kv = only p kv') (E : ReqEnv N) (sys : Str → Str) (fuel : Nat) (tbl : List Str) (r : JValues N) :
    valuesRequest E sys fuel p kv tbl r = valuesRequest E sys fuel p kv' tbl r := by
  have h1 : validateValuesEvent p kv = validateValuesEvent p kv' := by
    funext e
    cases e <;> simp only [validateValuesEvent, validateEvent_alike h]
  have h2 : validateValuesFilter (N := N) p kv = validateValuesFilter p kv' := by
    funext r e
    cases e <;> simp only [validateValuesFilter, validateFilter_alike h]
  have h3 : valuesPost sys p kv = valuesPost sys p kv' := by
    funext r e
    cases e <;> simp only [valuesPost, propExpression_alike h]
  simp only [valuesRequest, validateValues, validateProperty_alike h, h1, h2, valuesPlan, colName_alike h, mdOf_alike h, findProp_alike h, h3]

theorem decodeCell_alike (h : only p kv = only p kv') : decodeCell p kv = decodeCell p kv' := by
  funext t d v
  unfold decodeCell
  simp only [dictGetValue_alike h]

theorem decodeRows_alike (h : only p kv = only p kv') : decodeRows p kv = decodeRows p kv' := by
  have : decodeRow p kv = decodeRow p kv' := by
    funext ds row
    unfold decodeRow
    rw [decodeCell_alike h]
  funext ds rows
  unfold decodeRows
  rw [this]

theorem answer_alike (h : only p kv = only p kv') (S : Sem) (order : List QRow → List QRow) (c : RecordsPlan) (rows : List QRow) :
    answer S p kv order c rows = answer S p kv' order c rows := by
  unfold answer
  rw [decodeRows_alike h]

theorem valuesRun_alike (h : only p kv = only p kv') (S : Sem) (order : List (Option Cell) → List (Option Cell)) (c : ValuesPlan) (rows : List QRow) :
    valuesRun S p kv order c rows = valuesRun S p kv' order c rows := by
  have : valuesDecode p kv = valuesDecode p kv' := by
    funext col t vs
    cases t <;> simp only [valuesDecode, decodeCell_alike h]
  unfold valuesRun
  rw [this]

theorem eventRecord_alike (h : only p kv = only p kv') (S : Sem) (junk : Str → Cell) (sys : Str → Str) (tbl : List Str) (rows : List QRow) (id : Nat) :
    eventRecord S junk sys p kv tbl rows id = eventRecord S junk sys p kv' tbl rows id := by
  simp only [eventRecord, list_alike h (c := propsC p _) rfl, recordRows, decodeRows_alike h]

theorem groupRecord_alike (h : only p kv = only p kv') (S : Sem) (junk : Str → Cell) (sys : Str → Str) (tbl : Option (List Str)) (rows : List QRow) (g : Nat)
    (id : Str) : groupRecord S junk sys p kv tbl rows g id = groupRecord S junk sys p kv' tbl rows g id := by
  simp only [groupRecord, findProp_alike h, dictGetKey_alike h, list_alike h (c := propsC p _) rfl, recordRows, decodeRows_alike h]

end OptiPrism.Platform
