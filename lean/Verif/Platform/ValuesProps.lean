import Verif.Platform.Values
import Verif.Platform.SearchColsProps
import Verif.Platform.GroupSearchProps

/-!
# C137: the values of a property
-/

namespace OptiPrism.Platform

open OptiPrism.Meta (Str PropOp PropertyRef EventRef Scalar PropFilter Kv Property PropType Event propsC customC eventsC kEvents dictGetValue dictGetKey)
open OptiPrism.Query
open OptiPrism.Ingest (groupCol)

variable {N : Type} {E : ReqEnv N} {sys : Str → Str} {p : Nat} {kv : Kv} {tbl : List Str} {fuel : Nat}

/-! ## Spec -/

/-- A row whose value is asked for: of the project, of the event if one is named, passing the filter if there is one. -/
def ValueWanted (S : Sem) (E : ReqEnv N) (sys : Str → Str) (p : Nat) (kv : Kv) (r : JValues N) (row : QRow) : Prop :=
  Owned p row ∧ (∀ n, r.event = some (.regular n) → OfEvent p kv n row) ∧ ∀ f, r.filter = some f → Holds S E sys p kv row ⟨r.property, f.1, f.2⟩

/-- The property has the value in a row that is asked for. -/
def HasValue (S : Sem) (E : ReqEnv N) (sys : Str → Str) (p : Nat) (kv : Kv) (r : JValues N) (rows : List QRow) (v : Option Cell) : Prop :=
  ∃ row ∈ rows, ValueWanted S E sys p kv r row ∧ ∃ prop, PropertyAt p kv r.property prop ∧ ValueAt sys p kv (tableAt r.property) prop row v

/-- The first thousand of the values there are, each once and in order. -/
structure FirstValues (le : Option Cell → Option Cell → Prop) (has : Option Cell → Prop) (vs : List (Option Cell)) : Prop where
  once : vs.Nodup
  real : ∀ v ∈ vs, has v
  sorted : vs.Pairwise le
  few : vs.length ≤ 1000
  rest : ∀ v, has v → v ∉ vs → vs.length = 1000 ∧ ∀ w ∈ vs, le w v

/-- Sorting. -/
def Orders (le : Option Cell → Option Cell → Prop) (order : List (Option Cell) → List (Option Cell)) : Prop :=
  ∀ l, (order l).Perm l ∧ (order l).Pairwise le

/-- A store and tables in which the request means what it says. `cols` and `rows` are the columns and rows of the tables. -/
structure ValuesClear (E : ReqEnv N) (sys : Str → Str) (p : Nat) (kv : Kv) (cols : Str → List Str) (rows : Str → List QRow) (r : JValues N) : Prop where
  project : p < 2 ^ 63
  dictionaries : Dictionaries p kv
  events : ∀ n ev, (eventsC p).getBy .name n kv = .ok ev → ev.id < 2 ^ 63
  fixed : kProjectCol ∈ cols kEvents ∧ kEventCol ∈ cols kEvents
  known : ∀ i, r.event ≠ some (.custom i)
  read : ∀ prop, PropertyAt p kv r.property prop → prop.columnName sys ∈ cols (tableAt r.property)
  coded : ∀ prop dt, PropertyAt p kv r.property prop → prop.dictType = some dt → Coded p (tableAt r.property) (prop.columnName sys) kv dt
  stored : ∀ row ∈ rows (tableAt r.property), Owned p row → ∀ prop, PropertyAt p kv r.property prop → ∃ v, ValueAt sys p kv (tableAt r.property) prop row v
  nums : ∀ f, r.filter = some f → ∀ prop, PropertyAt p kv r.property prop → ∀ n, .num n ∈ f.2.getD [] → ∃ m s, E.dec n = some (m, s) ∧
    s ≤ 28 ∧ (prop.dataType = .timestamp → s = 0 ∧ -2 ^ 63 ≤ m.toInt ∧ m.toInt < 2 ^ 63)

/-- **C137 as one would have it**: a request that passes validation is answered with the values of the property. -/
def C137_full : Prop :=
  ∀ (S : Sem) (le : Option Cell → Option Cell → Prop) (order : List (Option Cell) → List (Option Cell)), Orders le order →
  ∀ (E : ReqEnv Int) (sys : Str → Str) (fuel p : Nat) (kv : Kv) (cols : Str → List Str) (rows : Str → List QRow) (r : JValues Int), 0 < fuel →
    validateValues p kv r = .ok () → ValuesClear E sys p kv cols rows r →
    ∃ c vs, valuesRequest E sys fuel p kv (cols kEvents) r = .ok c ∧ valuesRun S p kv order c (rows kEvents) = some vs ∧
      FirstValues le (HasValue S E sys p kv r (rows (tableAt r.property))) vs

/-! ## Lemmas -/

theorem nodup_eraseDups {α : Type} [BEq α] [LawfulBEq α] (l : List α) : l.eraseDups.Nodup := by
  generalize hn : l.length = n
  induction n using Nat.strongRecOn generalizing l with
  | _ n ih =>
    cases l with
    | nil => simp [List.eraseDups, List.eraseDupsBy, List.eraseDupsBy.loop]
    | cons a l =>
      rw [List.eraseDups_cons, List.nodup_cons]
      refine ⟨fun hm => ?_, ih (l.filter fun b => !b == a).length ?_ _ rfl⟩
      · have := List.mem_eraseDups.mp hm
        simp at this
      · subst hn
        exact Nat.lt_succ_of_le (List.length_filter_le _ _)

theorem named_none {col : Str} {op : PropOp} {x : Expr} (h : namedPropertyExpression col op none = .ok x) (vs : List (Option Cell)) :
    namedPropertyExpression col op (some vs) = .ok x := by
  cases op <;> first | (cases h; done) | exact h

theorem nodup_filter {α : Type} {l : List α} (h : l.Nodup) (q : α → Bool) : (l.filter q).Nodup := h.sublist (List.filter_sublist)

/-- Where the filter on values means what the request says. -/
def Gentle (p : Nat) (kv : Kv) (r : JValues N) : Prop :=
  ∀ f, r.filter = some f → ∀ prop, PropertyAt p kv r.property prop →
    (prop.isDictionary = false ∧ prop.dataType ≠ .timestamp) ∨ Pattern f.1 ∨ Presence f.1

theorem sent_same {r : Property} (h : r.dataType ≠ .timestamp) (v : JVal N) : sent E r v = jsonToScalar E v := by cases v <;> simp [sent, jsonToScalar, h]

theorem keepEmpty_mem {α β : Type} {f : α → Option β} {o : Option (List α)} {o' : Option (List β)} (h : keepEmpty f o = some o') (b : β) :
    b ∈ o'.getD [] ↔ ∃ a ∈ o.getD [], f a = some b := by
  cases o with
  | none => cases h; simp
  | some l =>
    simp only [keepEmpty, Option.map_eq_some_iff] at h
    obtain ⟨bs, hb, rfl⟩ := h
    exact mapM_mem_iff hb b

theorem post_meaning (S : Sem) (hd : Dictionaries p kv) {ref : JPropertyRef} {op : JOp} {vs : Option (List (JVal N))} {prop : Property} (hp : PropertyAt p kv ref prop)
    (hv : validateFilter p kv ⟨ref, op, vs⟩ = .ok ()) {ss : Option (List Scalar)} (hs : keepEmpty (jsonToScalar E) vs = some ss) {t : Str} {x : Expr}
    (hx : propExpression sys p t prop kv (opIn op) (ss.map fun vs => vs.map scalarCell) = .ok x)
    (hn : ∀ n, .num n ∈ vs.getD [] → ∃ m s, E.dec n = some (m, s) ∧ s ≤ 28 ∧ (prop.dataType = .timestamp → s = 0 ∧ -2 ^ 63 ≤ m.toInt ∧ m.toInt < 2 ^ 63))
    (hg : (prop.isDictionary = false ∧ prop.dataType ≠ .timestamp) ∨ Pattern op ∨ Presence op) {row : QRow} {v : Option Cell}
    (hval : ValueAt sys p kv (tableAt ref) prop row v) :
    Selects S (onlyCol (prop.columnName sys) v) x ↔ Holds S E sys p kv row ⟨ref, op, vs⟩ := by
  have hnums : ∀ x ∈ vs.getD [], ∀ n, x = .num n → ∀ m s, E.dec n = some (m, s) → s ≤ 28 ∧ (prop.dataType = .timestamp → s = 0 ∧ -2 ^ 63 ≤ m.toInt ∧ m.toInt < 2 ^ 63) := by
    intro x hx n e m s h
    subst e
    obtain ⟨m', s', h1, h2⟩ := hn n hx
    rw [h1] at h
    cases h
    exact h2
  -- what the values mean
  have hcells : ∀ c, some c ∈ ((vs.getD []).filterMap (sent E prop)).map scalarCell ↔ ∃ y ∈ vs.getD [], Meant E prop y c := by
    intro c
    simp only [List.mem_map, List.mem_filterMap]
    constructor
    · rintro ⟨s, ⟨y, hy, e⟩, e'⟩
      exact ⟨y, hy, (sent_meant (hnums y hy)).mp ⟨s, e, e'⟩⟩
    · rintro ⟨y, hy, h⟩
      obtain ⟨s, e, e'⟩ := (sent_meant (hnums y hy)).mpr h
      exact ⟨s, ⟨y, hy, e⟩, e'⟩
  have hholds : Holds S E sys p kv row ⟨ref, op, vs⟩ ↔ Says S v (((vs.getD []).filterMap (sent E prop)).map scalarCell) (opIn op) := by
    constructor
    · rintro ⟨r1, v', vs', h1, h2, h3, h4⟩
      have := propertyAt_unique hp h1
      subst this
      rw [valueAt_unique hval h2] at h4
      exact (says_ext (fun c => (h3 c).trans (hcells c).symm) _).mp h4
    · exact fun h => ⟨prop, v, _, hp, hval, hcells, h⟩
  rw [hholds]
  have hcol : onlyCol (prop.columnName sys) v (prop.columnName sys) = v := if_pos rfl
  by_cases hpr : Presence op
  · -- only whether there is a value
    have hn : ∃ l, namedPropertyExpression (prop.columnName sys) (opIn op) l = .ok x := by
      cases ss with
      | none => exact ⟨none, hx⟩
      | some l =>
        unfold propExpression at hx
        dsimp only [Option.map] at hx
        rcases hpr with ho | ho <;> rw [ho] at hx ⊢ <;> dsimp only [opIn] at hx ⊢
        all_goals
          cases hdt : prop.dictType with
          | none => rw [hdt] at hx; exact ⟨_, hx⟩
          | some dt =>
            rw [hdt] at hx
            dsimp only at hx
            split at hx
            · cases hx
            · exact ⟨_, hx⟩
    obtain ⟨l, hn⟩ := hn
    rcases hpr with ho | ho <;> rw [ho] at hn ⊢ <;> cases hn
    · simp [Selects, eval, Says, opIn, hcol, Option.isSome_iff_exists]
    · simp [Selects, eval, Says, opIn, hcol]
  · have hts : prop.dataType ≠ .timestamp := by
      rcases hg with h | h | h
      · exact h.2
      · obtain ⟨r', h1, h2, -⟩ := validFilter_ok hv
        have := propertyAt_unique hp (propertyAt_iff (h1 .plan))
        subst this
        rcases h with rfl | rfl | rfl | rfl <;> simp [opFits] at h2 <;> simp [h2]
      · exact absurd h hpr
    have hraw : namedPropertyExpression (prop.columnName sys) (opIn op) (ss.map fun vs => vs.map scalarCell) = .ok x := by
      cases ss with
      | none => exact hx
      | some l =>
        unfold propExpression at hx
        dsimp only [Option.map] at hx ⊢
        rcases hg with h | h | h
        · have hdt : prop.dictType = none := by
            have := (hd _ _ hp).1
            rw [h.1] at this
            cases hq : prop.dictType with
            | none => rfl
            | some _ => rw [hq] at this; cases this
          rw [hdt] at hx
          cases ho : opIn op <;> rw [ho] at hx <;> exact hx
        · rcases h with ho | ho | ho | ho <;> rw [ho] at hx ⊢ <;> exact hx
        · exact absurd h hpr
    have hall : ∀ c, some c ∈ ((ss.getD []).map scalarCell) ↔ some c ∈ ((vs.getD []).filterMap (sent E prop)).map scalarCell := by
      intro c
      simp only [List.mem_map, List.mem_filterMap, keepEmpty_mem hs, sent_same hts]
    have hsome : namedPropertyExpression (prop.columnName sys) (opIn op) (some ((ss.getD []).map scalarCell)) = .ok x := by
      cases ss with
      | none => exact named_none hraw _
      | some l => exact hraw
    rw [C49_operators S _ _ _ _ _ hsome, hcol]
    exact says_ext hall _

/-- The plan of a request that is answered. -/
theorem values_way {r : JValues N} {c : ValuesPlan} (h : valuesRequest E sys fuel p kv tbl r = .ok c) :
    validateValues p kv r = .ok () ∧ ∃ prop f, (∀ q, findProp q p kv (propIn r.property) = .ok prop) ∧ PropertyAt p kv r.property prop ∧
      scan tbl [kProjectCol, kEventCol, prop.columnName sys] = .ok c.cols ∧ c.col = prop.columnName sys ∧ c.decoded = valuesDict (propIn r.property) prop ∧
      valuesFilter (mdOf sys p kv) fuel p (r.event.map eventIn) = .ok c.filter ∧ optConv (valuesFilterIn E) r.filter = some f ∧
      valuesPost sys p kv prop f = .ok c.post := by
  obtain ⟨u, h1, h2⟩ := bind_ok h
  refine ⟨h1, ?_⟩
  obtain ⟨v, v1, -⟩ := bind_ok h1
  obtain ⟨prop, v2, -⟩ := bind_ok v1
  have hall := (findProp_ok (refused_ok v2)).2
  cases hin : valuesIn E r with
  | none => rw [hin] at h2; cases h2
  | some q =>
    rw [hin] at h2
    unfold valuesIn at hin
    obtain ⟨f, hf, rfl⟩ := Option.map_eq_some_iff.mp hin
    obtain ⟨col, g1, h3⟩ := bind_ok h2
    obtain ⟨cols, g2, h4⟩ := bind_ok h3
    obtain ⟨fx, g3, h5⟩ := bind_ok h4
    obtain ⟨prop', g4, h6⟩ := bind_ok h5
    obtain ⟨post, g5, h7⟩ := bind_ok h6
    cases h7
    rw [hall] at g4
    cases g4
    unfold colName at g1
    dsimp only at g1
    rw [hall] at g1
    cases g1
    exact ⟨prop, f, hall, propertyAt_iff (hall .plan), g2, rfl, rfl, g3, hf, g5⟩

theorem event_wanted (S : Sem) (hp : p < 2 ^ 63) (hid : ∀ n ev, (eventsC p).getBy .name n kv = .ok ev → ev.id < 2 ^ 63) {ev : Option JEventRef} (hk : ∀ i, ev ≠ some (.custom i)) {f : Expr}
    (h : valuesFilter (mdOf sys p kv) fuel p (ev.map eventIn) = .ok f) (row : QRow) :
    Selects S row f ↔ Owned p row ∧ ∀ n, ev = some (.regular n) → OfEvent p kv n row := by
  unfold valuesFilter at h
  cases ev with
  | none => cases h; rw [project_selects hp]; simp
  | some e =>
    cases e with
    | custom i => exact absurd rfl (hk i)
    | regular n =>
      dsimp only [Option.map] at h
      cases hee : eventExpression (mdOf sys p kv) fuel (eventIn (.regular n)) with
      | error y => rw [hee] at h; cases h
      | ok ee =>
        rw [hee] at h
        cases h
        rw [and_selects, project_selects hp]
        have hev : Selects S row ee ↔ OfEvent p kv n row := by
          cases fuel with
          | zero => cases hee
          | succ fuel =>
            simp only [eventIn, eventExpression, mdOf] at hee
            cases hg : (eventsC p).getBy .name n kv with
            | error y => rw [hg] at hee; cases hee
            | ok ev =>
              rw [hg] at hee
              cases hee
              rw [bin_eq_selects, toInt_ofNat (hid n ev hg), kEventCol_eq]
              unfold OfEvent
              rw [hg]
              simp
        rw [hev]
        simp

theorem first_values {le : Option Cell → Option Cell → Prop} {order : List (Option Cell) → List (Option Cell)} (hO : Orders le order) {has : Option Cell → Prop} {l : List (Option Cell)}
    (h1 : l.Nodup) (h2 : ∀ v, v ∈ l ↔ has v) : FirstValues le has ((order l).take 1000) := by
  obtain ⟨hp, hs⟩ := hO l
  have hnd : (order l).Nodup := hp.nodup_iff.mpr h1
  refine ⟨hnd.sublist (List.take_sublist _ _), fun v hv => (h2 v).mp (hp.mem_iff.mp (List.mem_of_mem_take hv)), hs.sublist (List.take_sublist _ _), ?_, fun v hv hn => ?_⟩
  · rw [List.length_take]
    exact Nat.min_le_left _ _
  · have hm : v ∈ order l := hp.mem_iff.mpr ((h2 v).mpr hv)
    rw [← List.take_append_drop 1000 (order l), List.mem_append] at hm
    rcases hm with hm | hm
    · exact absurd hm hn
    · constructor
      · rw [List.length_take]
        have : 0 < ((order l).drop 1000).length := List.length_pos_of_mem hm
        rw [List.length_drop] at this
        omega
      · rw [← List.take_append_drop 1000 (order l), List.pairwise_append] at hs
        exact fun w hw => hs.2.2 w hw v hm

theorem nodup_map_on {α β : Type} {f : α → β} {l : List α} (h : l.Nodup) (hf : ∀ a ∈ l, ∀ b ∈ l, f a = f b → a = b) : (l.map f).Nodup := by
  induction l with
  | nil => simp
  | cons a l ih =>
    rw [List.nodup_cons] at h
    rw [List.map_cons, List.nodup_cons]
    refine ⟨fun hm => ?_, ih h.2 fun x hx y hy => hf x (by simp [hx]) y (by simp [hy])⟩
    obtain ⟨b, hb, e⟩ := List.mem_map.mp hm
    have := hf b (by simp [hb]) a (by simp) e
    exact h.1 (this ▸ hb)

/-- Grouping and decoding gives each value once. -/
theorem values_decoded (hd : Dictionaries p kv) {n : Str} {prop : Property} (hp : PropertyAt p kv (.event n) prop)
    (hc : ∀ dt, prop.dictType = some dt → Coded p kEvents (prop.columnName sys) kv dt) {rows : List QRow}
    (hst : ∀ row ∈ rows, ∃ v, ValueAt sys p kv kEvents prop row v) :
    ∃ l, valuesDecode p kv (prop.columnName sys) (valuesDict (.event n) prop) (rows.map fun row => row (prop.columnName sys)).eraseDups = some l ∧ l.Nodup ∧
      ∀ v, v ∈ l ↔ ∃ row ∈ rows, ValueAt sys p kv kEvents prop row v := by
  have hdt := (hd _ _ hp).1
  cases hq : prop.dictType with
  | none =>
    rw [hq] at hdt
    refine ⟨_, by unfold valuesDict; rw [hq]; rfl, nodup_eraseDups _, fun v => ?_⟩
    rw [List.mem_eraseDups, List.mem_map]
    have : prop.isDictionary = false := hdt
    simp only [ValueAt, this, Bool.false_eq_true, if_false]
    constructor
    · rintro ⟨row, h1, h2⟩; exact ⟨row, h1, h2.symm⟩
    · rintro ⟨row, h1, h2⟩; exact ⟨row, h1, h2.symm⟩
  | some dt =>
    rw [hq] at hdt
    have hdict : prop.isDictionary = true := hdt
    have C := hc dt hq
    have hdec : ∀ row ∈ rows, ∀ v, ValueAt sys p kv kEvents prop row v → decodeCell p kv kEvents (prop.columnName sys) (row (prop.columnName sys)) = some v := by
      intro row _ v hv
      unfold ValueAt at hv
      rw [if_pos hdict] at hv
      rcases hv with ⟨h1, h2⟩ | ⟨k, s, h1, h2, h3⟩
      · rw [h1, h2]; rfl
      · rw [h1, h3]
        simp only [decodeCell, ofInt_key (C.room s k ((C.both s k).mpr h2)).2, h2]
    have hall : ∀ a ∈ (rows.map fun row => row (prop.columnName sys)).eraseDups, decodeCell p kv kEvents (prop.columnName sys) a =
        some ((decodeCell p kv kEvents (prop.columnName sys) a).getD none) := by
      intro a ha
      rw [List.mem_eraseDups, List.mem_map] at ha
      obtain ⟨row, hr, rfl⟩ := ha
      obtain ⟨v, hv⟩ := hst row hr
      rw [hdec row hr v hv]
      rfl
    refine ⟨(rows.map fun row => row (prop.columnName sys)).eraseDups.map fun a => (decodeCell p kv kEvents (prop.columnName sys) a).getD none, ?_,
      nodup_map_on (nodup_eraseDups _) ?_, fun v => ?_⟩
    · unfold valuesDict
      rw [hq]
      exact mapM_of hall
    · intro a ha b hb e
      rw [List.mem_eraseDups, List.mem_map] at ha hb
      obtain ⟨row, hr, rfl⟩ := ha
      obtain ⟨row', hr', rfl⟩ := hb
      obtain ⟨v, hv⟩ := hst row hr
      obtain ⟨v', hv'⟩ := hst row' hr'
      rw [hdec row hr v hv, hdec row' hr' v' hv'] at e
      simp only [Option.getD_some] at e
      subst e
      unfold ValueAt at hv hv'
      rw [if_pos hdict] at hv hv'
      rcases hv with ⟨h1, h2⟩ | ⟨k, s, h1, h2, h3⟩ <;> rcases hv' with ⟨g1, g2⟩ | ⟨k', s', g1, g2, g3⟩
      · rw [h1, g1]
      · rw [h2] at g3; cases g3
      · rw [h3] at g2; cases g2
      · rw [h3] at g3
        cases g3
        have e1 := (C.both s k).mpr h2
        have e2 := (C.both s k').mpr g2
        rw [e1] at e2
        cases e2
        rw [h1, g1]
    · simp only [List.mem_map, List.mem_eraseDups]
      constructor
      · rintro ⟨_, ⟨row, hr, rfl⟩, e⟩
        obtain ⟨w, hw⟩ := hst row hr
        rw [hdec row hr w hw] at e
        cases e
        exact ⟨row, hr, hw⟩
      · rintro ⟨row, hr, hw⟩
        exact ⟨_, ⟨row, hr, rfl⟩, by rw [hdec row hr v hw]; rfl⟩

/-! ## C137 -/

/-- **C137, for properties of events.** An answer has the values of the property in the events of the project, with the name and passing the
filter. What is missing: properties of groups, filters on dictionaries other than patterns and presence, filters on times (`C137_violated`). -/
theorem C137_partial (S : Sem) {le : Option Cell → Option Cell → Prop} {order : List (Option Cell) → List (Option Cell)} (hO : Orders le order) {cols : Str → List Str}
    {rows : Str → List QRow} {r : JValues N} {n : Str} (hn : r.property = .event n) {c : ValuesPlan} (h : valuesRequest E sys fuel p kv (cols kEvents) r = .ok c)
    (T : ValuesClear E sys p kv cols rows r) (hg : Gentle p kv r) :
    ∃ vs, valuesRun S p kv order c (rows kEvents) = some vs ∧ FirstValues le (HasValue S E sys p kv r (rows kEvents)) vs := by
  obtain ⟨hv, prop, f, w1, w2, -, w4, w5, w6, w7, w8⟩ := values_way h
  have htab : tableAt r.property = kEvents := by rw [hn]; rfl
  have hsel := event_wanted S T.project T.events T.known w6
  have hkept : ∀ row, row ∈ kept S c.filter (rows kEvents) ↔ row ∈ rows kEvents ∧ Owned p row ∧ ∀ n, r.event = some (.regular n) → OfEvent p kv n row := by
    intro row
    unfold kept
    rw [List.mem_filter, beq_iff_eq]
    exact and_congr_right fun _ => hsel row
  have hst := T.stored
  have hcod := T.coded
  rw [htab] at hst hcod
  obtain ⟨l, d1, d2, d3⟩ := values_decoded (sys := sys) (rows := kept S c.filter (rows kEvents)) T.dictionaries (hn ▸ w2) (fun dt => hcod prop dt w2)
    (fun row hr => hst row ((hkept row).mp hr).1 ((hkept row).mp hr).2.1 prop w2)
  have hdecoded : c.decoded = valuesDict (.event n) prop := by rw [w5, hn]; rfl
  refine ⟨(order (valuesKept S c.col c.post l)).take 1000, ?_, first_values hO ?_ fun v => ?_⟩
  · unfold valuesRun
    rw [w4, hdecoded, d1]
    rfl
  · unfold valuesKept
    split
    · exact d2
    · exact nodup_filter d2 _
  · have hhas : HasValue S E sys p kv r (rows kEvents) v ↔ ∃ row ∈ kept S c.filter (rows kEvents), ValueAt sys p kv kEvents prop row v ∧
        ∀ f, r.filter = some f → Holds S E sys p kv row ⟨r.property, f.1, f.2⟩ := by
      unfold HasValue ValueWanted
      rw [htab]
      constructor
      · rintro ⟨row, hr, ⟨a1, a2, a3⟩, prop', a4, a5⟩
        have := propertyAt_unique w2 a4
        subst this
        exact ⟨row, (hkept row).mpr ⟨hr, a1, a2⟩, a5, a3⟩
      · rintro ⟨row, hr, a5, a3⟩
        obtain ⟨hr, a1, a2⟩ := (hkept row).mp hr
        exact ⟨row, hr, ⟨a1, a2, a3⟩, prop, w2, a5⟩
    rw [hhas]
    cases hf : r.filter with
    | none =>
      rw [hf] at w7
      cases w7
      cases w8' : c.post with
      | some x => rw [w8'] at w8; cases w8
      | none =>
        show v ∈ l ↔ _
        rw [d3]
        simp
    | some g =>
      rw [hf] at w7
      obtain ⟨ss, hs, rfl⟩ := Option.map_eq_some_iff.mp w7
      unfold valuesFilterIn at hs
      obtain ⟨ss, hs', rfl⟩ := Option.map_eq_some_iff.mp hs
      obtain ⟨x, hx, e⟩ := bind_ok w8
      cases hpost : c.post with
      | none => rw [hpost] at e; cases e
      | some x' =>
        rw [hpost] at e
        cases e
        have hvf : validateFilter p kv ⟨r.property, g.1, g.2⟩ = .ok () := by
          obtain ⟨_, -, k1⟩ := bind_ok hv
          obtain ⟨_, -, k2⟩ := bind_ok k1
          rw [hf] at k2
          exact k2
        have hm : ∀ {row : QRow} {v : Option Cell}, ValueAt sys p kv kEvents prop row v →
            (Selects S (onlyCol (prop.columnName sys) v) x ↔ Holds S E sys p kv row ⟨r.property, g.1, g.2⟩) := by
          intro row v hval
          exact post_meaning S T.dictionaries w2 hvf hs' hx (T.nums g hf prop w2) (hg g hf prop w2) (htab ▸ hval)
        show v ∈ l.filter _ ↔ _
        rw [List.mem_filter, d3, beq_iff_eq, w4]
        constructor
        · rintro ⟨⟨row, hr, hval⟩, hsx⟩
          refine ⟨row, hr, hval, fun f e => ?_⟩
          cases e
          exact (hm hval).mp hsx
        · rintro ⟨row, hr, hval, hh⟩
          exact ⟨⟨row, hr, hval⟩, (hm hval).mpr (hh _ rfl)⟩

/-- **C137, what is read.** The columns a request names are read, unless the event is a custom one (`C137_custom_violated`). -/
theorem C137_reads {r : JValues N} (hk : ∀ i, r.event ≠ some (.custom i)) {c : ValuesPlan} (h : valuesRequest E sys fuel p kv tbl r = .ok c) :
    (∀ x ∈ exprUses c.filter, x ∈ c.cols) ∧ c.col ∈ c.cols ∧ ∀ e, c.post = some e → ∀ x ∈ exprUses e, x = c.col := by
  obtain ⟨hv, prop, f, w1, w2, w3, w4, w5, w6, w7, w8⟩ := values_way h
  have hcols : ∀ x ∈ [kProjectCol, kEventCol, prop.columnName sys], x ∈ c.cols := by
    intro x hx
    unfold scan at w3
    split at w3
    · rename_i ha
      rw [← Except.ok.inj w3]
      rw [List.all_eq_true] at ha
      simp only [List.mem_filter, List.contains_iff_mem] at ha ⊢
      exact ⟨by simpa using ha x hx, by simpa using hx⟩
    · cases w3
  refine ⟨fun x hx => ?_, hcols _ (by simp [w4]), fun e he x hx => ?_⟩
  · unfold valuesFilter at w6
    cases hev : r.event with
    | none =>
      rw [hev] at w6
      rw [← Except.ok.inj w6] at hx
      refine hcols x ?_
      simp only [projectExpr, exprUses, List.mem_singleton] at hx
      simp [hx]
    | some ev =>
      cases ev with
      | custom i => exact absurd hev (hk i)
      | regular n =>
        rw [hev] at w6
        dsimp only [Option.map] at w6
        split at w6
        · cases w6
        · rename_i ee hee
          have e := Except.ok.inj w6
          rw [← e] at hx
          simp only [exprUses, projectExpr, List.mem_append, List.mem_singleton] at hx
          rcases hx with hx | hx
          · exact hcols x (by simp [hx])
          · exact hcols x (by rw [regular_uses hee hx, kEventCol_eq]; simp)
  · cases f with
    | none =>
      rw [← Except.ok.inj w8] at he
      cases he
    | some g =>
      obtain ⟨y, hy, e⟩ := bind_ok w8
      rw [← Except.ok.inj e] at he
      cases he
      rw [w4]
      exact prop_uses hy hx

/-- **C137, that there is an answer.** A request without a filter for a property of events is answered, if it passes validation. -/
theorem C137_served (S : Sem) {le : Option Cell → Option Cell → Prop} {order : List (Option Cell) → List (Option Cell)} (hO : Orders le order) {cols : Str → List Str}
    {rows : Str → List QRow} {r : JValues N} {n : Str} (hn : r.property = .event n) (hfuel : 0 < fuel) (hv : validateValues p kv r = .ok ()) (T : ValuesClear E sys p kv cols rows r)
    (hf : r.filter = none) : ∃ c vs, valuesRequest E sys fuel p kv (cols kEvents) r = .ok c ∧ valuesRun S p kv order c (rows kEvents) = some vs ∧
      FirstValues le (HasValue S E sys p kv r (rows kEvents)) vs := by
  have hser : ∃ c, valuesRequest E sys fuel p kv (cols kEvents) r = .ok c := by
    obtain ⟨v, v1, v3⟩ := bind_ok hv
    obtain ⟨prop, v2, -⟩ := bind_ok v1
    have hall := (findProp_ok (refused_ok v2)).2
    have hp : PropertyAt p kv r.property prop := propertyAt_iff (hall .plan)
    obtain ⟨_, v4, -⟩ := bind_ok v3
    have hfilter : ∃ f, valuesFilter (mdOf sys p kv) fuel p (r.event.map eventIn) = .ok f := by
      unfold valuesFilter
      cases hev : r.event with
      | none => exact ⟨_, rfl⟩
      | some ev =>
        cases ev with
        | custom i => exact absurd hev (T.known i)
        | regular m =>
          rw [hev] at v4
          obtain ⟨e, v5, -⟩ := bind_ok v4
          have v6 := refused_ok v5
          cases hg : (eventsC p).getBy .name m kv with
          | error x => rw [hg] at v6; cases v6
          | ok e =>
            cases fuel with
            | zero => omega
            | succ fuel =>
              dsimp only [Option.map, eventIn, eventExpression, mdOf]
              rw [hg]
              exact ⟨_, rfl⟩
    obtain ⟨f, hfx⟩ := hfilter
    have hscan : ∃ cs, scan (cols kEvents) [kProjectCol, kEventCol, prop.columnName sys] = .ok cs := by
      unfold scan
      refine ⟨_, if_pos ?_⟩
      have hr := T.read prop hp
      rw [show tableAt r.property = kEvents by rw [hn]; rfl] at hr
      simp only [List.all_cons, List.all_nil, Bool.and_true, Bool.and_eq_true, List.contains_iff_mem]
      exact ⟨T.fixed.1, T.fixed.2, hr⟩
    obtain ⟨cs, hsc⟩ := hscan
    unfold valuesRequest
    rw [hv]
    simp only [Bind.bind, Except.bind, valuesIn, hf, optConv, Option.map_some]
    unfold valuesPlan colName
    simp only [Bind.bind, Except.bind, hall, Pure.pure, Except.pure, hsc, hfx, valuesPost]
    exact ⟨_, rfl⟩
  obtain ⟨c, hc⟩ := hser
  obtain ⟨vs, h1, h2⟩ := C137_partial S hO hn hc T (fun f e => by rw [hf] at e; cases e)
  exact ⟨c, vs, hc, h1, h2⟩

/-- **C137 is violated for properties of groups**: a request that passes validation is a panic, because the column is looked for in the table of events. -/
theorem C137_groups {r : JValues N} (hv : validateValues p kv r = .ok ()) {prop : Property} (hp : PropertyAt p kv r.property prop)
    (hc : prop.columnName sys ∉ tbl) : valuesRequest E sys fuel p kv tbl r = .error .panic := by
  have hall : ∀ q, findProp q p kv (propIn r.property) = .ok prop := by
    obtain ⟨v, v1, -⟩ := bind_ok hv
    obtain ⟨prop', v2, -⟩ := bind_ok v1
    have hall := (findProp_ok (refused_ok v2)).2
    have := propertyAt_unique hp (propertyAt_iff (hall .plan))
    subst this
    exact hall
  unfold valuesRequest
  rw [hv]
  simp only [Bind.bind, Except.bind]
  cases hin : valuesIn E r with
  | none => rfl
  | some q =>
    unfold valuesIn at hin
    obtain ⟨f, hf, rfl⟩ := Option.map_eq_some_iff.mp hin
    unfold valuesPlan colName
    dsimp only
    rw [hall]
    have hs : scan tbl [kProjectCol, kEventCol, prop.columnName sys] = .error .panic := by
      unfold scan
      rw [if_neg]
      simp only [List.all_eq_true, List.contains_iff_mem]
      intro h
      exact hc (h _ (by simp))
    simp only [Bind.bind, Except.bind, Pure.pure, Except.pure, hs]

/-! ## Examples -/

/-- The cities. -/
def citiesReq : JValues Int := ⟨.event "city".toList, some (.regular "buy".toList), none⟩

/-- The city, where it is Rome. -/
def romeReq : JValues Int := { citiesReq with filter := some (.eq, some [.str "Rome".toList]) }

/-- The city, where it is like Rome. -/
def likeRomeReq : JValues Int := { citiesReq with filter := some (.like, some [.str "R%".toList]) }

/-- Two buyers in Rome and one somewhere. -/
def cityRows : List QRow := [demoRow (some 1) none, demoRow none (some 7), demoRow (some 1) (some 5)]

theorem cities_clear {r : JValues Int} (hr : r.property = .event "city".toList) (he : r.event = some (.regular "buy".toList)) (hn : ∀ f, r.filter = some f → ∀ n, .num n ∉ f.2.getD []) :
    ValuesClear exReqEnv id 1 demoKv (fun _ => demoCols) (fun _ => cityRows) r := by
  have hprop : ∀ prop, PropertyAt 1 demoKv r.property prop → prop = cityAt := by
    intro prop h
    rw [hr] at h
    exact propertyAt_unique (ref := .event "city".toList) city_at h
  have htab : tableAt r.property = kEvents := by rw [hr]; rfl
  have hcol : cityAt.columnName id = "e_str_0".toList := by decide +kernel
  refine ⟨by decide, demo_dictionaries, fun n ev h => ?_, by decide +kernel, fun i h => ?_, fun prop h => ?_, fun prop dt h h' => ?_, fun row hrow _ prop h => ?_,
    fun f hf prop _ n hm => absurd hm (hn f hf n)⟩
  · rw [(demo_event h).2]; decide
  · rw [he] at h; cases h
  · rw [hprop prop h]; decide +kernel
  · rw [hprop prop h] at h' ⊢
    cases h'
    rw [htab, hcol]
    exact demo_coded _ rfl
  · rw [hprop prop h, htab]
    have hone : ∀ w, ∃ v, ValueAt id 1 demoKv kEvents cityAt (demoRow (some 1) w) v := fun w =>
      ⟨_, .inr ⟨1, "Rome".toList, by rw [hcol]; rfl, ok_of (by decide +kernel), rfl⟩⟩
    have hnone : ∀ w, ∃ v, ValueAt id 1 demoKv kEvents cityAt (demoRow none w) v := fun w => ⟨_, .inl ⟨by rw [hcol]; rfl, rfl⟩⟩
    simp only [cityRows, List.mem_cons, List.not_mem_nil, or_false] at hrow
    rcases hrow with rfl | rfl | rfl
    · exact hone _
    · exact hnone _
    · exact hone _

/-- Rome once, and a missing one. -/
example : (valuesRequest exReqEnv id 1 1 demoKv demoCols citiesReq).toOption.map (fun c => valuesRun exSem 1 demoKv id c cityRows) =
    some (some [some (.str "Rome".toList), none]) := by decide +kernel

/-- Only Rome. -/
example : (valuesRequest exReqEnv id 1 1 demoKv demoCols likeRomeReq).toOption.map (fun c => valuesRun likeSem 1 demoKv id c cityRows) =
    some (some [some (.str "Rome".toList)]) := by decide +kernel

/-- The hypotheses of `C137_partial` are met. -/
example : Gentle 1 demoKv likeRomeReq ∧ Gentle 1 demoKv citiesReq ∧ ValuesClear exReqEnv id 1 demoKv (fun _ => demoCols) (fun _ => cityRows) likeRomeReq :=
  ⟨fun f hf _ _ => by cases hf; exact .inr (.inl (.inl rfl)), fun _ hf => by (cases hf), cities_clear rfl rfl fun f hf n hm => by cases hf; simp at hm⟩

/-- The value asked for is not found: the key of "Rome" is compared with the name. -/
theorem rome_nothing : (valuesRequest exReqEnv id 1 1 demoKv demoCols romeReq).toOption.map (fun c => valuesRun exSem 1 demoKv id c cityRows) = some (some []) := by
  decide +kernel

/-- **C137 is violated**: asked for the cities that are Rome, the answer is empty. -/
theorem C137_violated : ¬ C137_full := by
  intro h
  have hcol : cityAt.columnName id = "e_str_0".toList := by decide +kernel
  obtain ⟨c, vs, h1, h2, h3⟩ := h exSem (fun _ _ => True) id (fun l => ⟨.refl _, List.pairwise_of_forall fun _ _ => trivial⟩) exReqEnv id 1 1 demoKv (fun _ => demoCols)
    (fun _ => cityRows) romeReq (by decide) (by
      have : (validateValues 1 demoKv romeReq).toOption = some () := by decide +kernel
      cases hv : validateValues 1 demoKv romeReq with
      | error e => rw [hv] at this; cases this
      | ok u => rfl) (cities_clear rfl rfl fun f hf n hm => by cases hf; simp at hm)
  have h4 := rome_nothing
  rw [h1] at h4
  simp only [Except.toOption, Option.map_some, h2, Option.some.injEq] at h4
  subst h4
  have hval : ValueAt id 1 demoKv kEvents cityAt (demoRow (some 1) none) (some (.str "Rome".toList)) :=
    .inr ⟨1, "Rome".toList, by rw [hcol]; rfl, ok_of (by decide +kernel), rfl⟩
  have := (h3.rest (some (.str "Rome".toList)) ⟨demoRow (some 1) none, .head _, ⟨rfl, fun n hn => by
    cases hn
    exact ⟨_, buy_at, rfl⟩, fun f hf => by
    cases hf
    exact ⟨cityAt, _, [some (.str "Rome".toList)], city_at, hval, fun c => by simp [Meant], _, _, rfl, by simp, rfl⟩⟩, cityAt, city_at, hval⟩ (by simp)).1
  cases this

/-- Events when it is five. -/
def fiveReq : JValues Int := ⟨.event "when".toList, some (.regular "buy".toList), some (.eq, some [.num 5])⟩

/-- **C137 is violated for times**: a number stays a decimal, and is not compared as a moment. -/
theorem C137_times_violated : (valuesRequest exReqEnv id 1 1 demoKv demoCols fiveReq).toOption.map (fun c => valuesRun exSem 1 demoKv id c cityRows) = some (some []) ∧
    HasValue exSem exReqEnv id 1 demoKv fiveReq cityRows (some (.ts 5)) := by
  have hts : whenAt.dataType = .timestamp := by decide +kernel
  refine ⟨by decide +kernel, demoRow (some 1) (some 5), by simp [cityRows], ⟨rfl, fun n hn => ?_, fun f hf => ?_⟩, whenAt, when_at, ?_⟩
  · cases hn
    exact ⟨_, buy_at, rfl⟩
  · cases hf
    refine ⟨whenAt, some (.ts 5), [some (.ts 5)], when_at, ?_, fun c => ?_, _, _, rfl, List.mem_singleton.mpr rfl, rfl⟩
    · show _ = demoRow (some 1) (some 5) _
      rw [show whenAt.columnName id = "e_ts_0".toList by decide +kernel]
      rfl
    · simp only [List.mem_singleton, Option.some.injEq, Option.getD_some, exists_eq_left, Meant]
      constructor
      · rintro rfl
        exact ⟨5, 0, rfl, by rw [if_pos hts]; exact ⟨5, rfl, by decide⟩⟩
      · rintro ⟨m, s, e, hm⟩
        cases e
        rw [if_pos hts] at hm
        obtain ⟨k, rfl, hk⟩ := hm
        have : k = 5 := by simpa using hk
        rw [this]
  · show _ = demoRow (some 1) (some 5) _
    rw [show whenAt.columnName id = "e_ts_0".toList by decide +kernel]
    rfl

/-- The names of users are a panic. -/
example : valuesRequest exReqEnv id 1 1 usersKv demoCols ⟨.group "name".toList 0, none, none⟩ = .error .panic :=
  C137_groups (by
    have : (validateValues 1 usersKv (⟨.group "name".toList 0, none, none⟩ : JValues Int)).toOption = some () := by decide +kernel
    cases hv : validateValues 1 usersKv (⟨.group "name".toList 0, none, none⟩ : JValues Int) with
    | error e => rw [hv] at this; cases this
    | ok u => rfl) (show PropertyAt 1 usersKv (.group "name".toList 0) nameAt from users_name) (by decide +kernel)

/-- Values of "when" in a custom event. -/
def soldReq : JValues Int := ⟨.event "when".toList, some (.custom 1), none⟩

/-- **C137 is violated for custom events**: the columns of their filters are not read. -/
theorem C137_custom_violated : ∃ c, valuesRequest exReqEnv id 2 1 customKv demoCols soldReq = .ok c ∧ "e_str_0".toList ∈ exprUses c.filter ∧ "e_str_0".toList ∉ c.cols := by
  have hok : (valuesRequest exReqEnv id 2 1 customKv demoCols soldReq).toOption.map
      (fun c => decide ("e_str_0".toList ∈ exprUses c.filter) && !decide ("e_str_0".toList ∈ c.cols)) = some true := by decide +kernel
  cases hc : valuesRequest exReqEnv id 2 1 customKv demoCols soldReq with
  | error e => rw [hc] at hok; cases hok
  | ok c =>
    rw [hc] at hok
    simp only [Except.toOption, Option.map_some, Option.some.injEq, Bool.and_eq_true, decide_eq_true_eq, Bool.not_eq_true', decide_eq_false_iff_not] at hok
    exact ⟨c, rfl, hok⟩

end OptiPrism.Platform
