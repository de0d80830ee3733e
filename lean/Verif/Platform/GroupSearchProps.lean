import Verif.Platform.SearchColsProps

/-!
# C135: searches for groups
-/

namespace OptiPrism.Platform

open OptiPrism.Meta (Str PropOp PropertyRef EventRef Scalar PropFilter Kv Property PropType Event propsC customC eventsC kEvents dictGetValue dictGetKey)
open OptiPrism.Query
open OptiPrism.Ingest (groupCol)

variable {N : Type} {E : ReqEnv N} {sys : Str → Str} {p : Nat} {kv : Kv} {tbls : Nat → Option (List Str)} {cur : Int}

/-! ## Spec -/

/-- The group is asked for: of the project, created in time, passing the filters. -/
def GroupAskedFor (S : Sem) (E : ReqEnv N) (sys : Str → Str) (p : Nat) (kv : Kv) (f t : Int) (r : JGroupSearch N) (row : QRow) : Prop :=
  Owned p row ∧ (r.time.isSome → During .ms f t row) ∧ ∀ x ∈ firstGroup r.filters, Holds S E sys p kv row x

/-- Rows are in the order asked for: smaller values of the property first, or last. -/
def SortedAs (S : Sem) (sys : Str → Str) (p : Nat) (kv : Kv) (sort : Option (JPropertyRef × Bool)) (l : List QRow) : Prop :=
  ∀ ref asc, sort = some (ref, asc) → l.Pairwise fun a b => ∀ rp x y, PropertyAt p kv ref rp → ValueAt sys p kv (tableAt ref) rp a (some x) →
    ValueAt sys p kv (tableAt ref) rp b (some y) → (if asc then S.lt y x else S.lt x y) = false

/-- The property is to be shown: it is asked for, or it is one of the group and no property is asked for. -/
def GroupToShow (p : Nat) (kv : Kv) (r : JGroupSearch N) (ref : JPropertyRef) : Prop :=
  match r.properties with
  | some (a :: l) => ref ∈ a :: l
  | _ => ∃ n rp, ref = .group n r.group ∧ PropertyAt p kv ref rp

/-- The answer is the first hundred groups asked for, in the order asked for, with the properties to be shown. -/
def GroupsAnswered (S : Sem) (E : ReqEnv N) (sys : Str → Str) (p : Nat) (kv : Kv) (cur : Int) (r : JGroupSearch N) (order : List QRow → List QRow)
    (c : RecordsPlan) (rows : List QRow) : Prop :=
  ∃ f t cs L, (∀ tm, r.time = some tm → Denotes (timeIn tm) cur f t) ∧ answer S p kv order c rows = some cs ∧ TopHundred (GroupAskedFor S E sys p kv f t r) (SortedAs S sys p kv r.sort) rows L ∧
    Displays sys p kv (GroupToShow p kv r) L cs

/-- **C135.** A search for groups that is planned is answered with the first hundred groups asked for, in the order asked for, and with the
properties asked for (all of the group if none are): each in a column labelled with the property, under a name of its own, with the values
of the property. -/
def C135_full (N : Type) : Prop :=
  ∀ (S : Sem) (E : ReqEnv N) (sys : Str → Str) (p : Nat) (kv : Kv) (tbls : Nat → Option (List Str)) (cur : Int) (r : JGroupSearch N) (c : RecordsPlan),
    groupSearch E sys p kv tbls cur r = .ok c → ∀ order : List QRow → List QRow, (∀ l, (order l).Perm l) → ∀ rows,
    Tidied S E sys p kv r.time (firstGroup r.filters) (r.properties.getD []) rows → GroupsAnswered S E sys p kv cur r order c rows

/-! ## From the request to the plan -/

/-- The way of a search that is planned. -/
structure GroupWay (E : ReqEnv N) (sys : Str → Str) (p : Nat) (kv : Kv) (tbls : Nat → Option (List Str)) (cur : Int) (r : JGroupSearch N) (q : CGroupSearch)
    (c : RecordsPlan) : Prop where
  plan : groupSearchPlan sys p kv (tbls r.group) cur q = .ok c
  time : q.time = r.time.map timeIn
  group : q.group = r.group
  properties : q.properties = (noneIfEmpty r.properties).map fun l => l.map propIn
  filters : LinkedAll E p kv (firstGroup r.filters) (q.filters.getD [])

theorem group_way {r : JGroupSearch N} {c : RecordsPlan} (h : groupSearch E sys p kv tbls cur r = .ok c) : ∃ q, GroupWay E sys p kv tbls cur r q c := by
  obtain ⟨_, hv, h⟩ := bind_ok h
  cases hi : groupSearchIn E r with
  | none => rw [hi] at h; cases h
  | some r' =>
    rw [hi] at h
    dsimp only at h
    obtain ⟨q, hq, hc⟩ := bind_ok h
    obtain ⟨_, v1, hv⟩ := bind_ok hv
    obtain ⟨_, v2, hv⟩ := bind_ok hv
    obtain ⟨_, v3, v4⟩ := bind_ok hv
    simp only [groupSearchIn, Option.bind_eq_bind, Option.pure_def, Option.bind_eq_some_iff] at hi
    obtain ⟨fs, i1, ps, i2, e⟩ := hi
    cases e
    obtain ⟨fs', f2, hq⟩ := bind_ok hq
    cases hq
    refine ⟨_, hc, rfl, rfl, ?_, firstGroup_linked v2 i1 f2⟩
    show noneIfEmpty ps = _
    rw [keepEmpty_props i2, noneIfEmpty_map]

/-- What the plan is made of. -/
theorem groupPlan_parts {q : CGroupSearch} {o : Option (List Str)} {c : RecordsPlan} (h : groupSearchPlan sys p kv o cur q = .ok c) :
    ∃ tbl found ds, o = some tbl ∧ groupColumns sys p kv tbl q = .ok c.cols ∧ collect (findGroupProp p kv) (q.properties.getD []) = .ok found ∧
      collect (decodeFilter sys p kv) (q.filters.getD []) = .ok ds ∧
      groupsSearchFilter (mdOf sys p kv) .ms p q.time cur q.filters = .ok c.filter ∧
      groupProperties p kv q.group (uniqueColumns sys [] found) = .ok c.props ∧
      c.shown = (if (uniqueColumns sys [] found).isEmpty then c.cols else (uniqueColumns sys [] found).map fun r => r.columnName sys) ∧
      namedColumns sys c.shown c.props = .ok c.names ∧ c.decoded = ds.flatten ∧
      c.after = decodedAfter sys (fun _ => groupCol q.group) (c.decoded.map (·.1)) c.shown c.props := by
  unfold groupSearchPlan at h
  obtain ⟨tbl, h0, h⟩ := bind_ok h
  obtain ⟨cols, h1, h⟩ := bind_ok h
  obtain ⟨found, h2, h⟩ := bind_ok h
  obtain ⟨ds, h3, h⟩ := bind_ok h
  obtain ⟨f, h4, h⟩ := bind_ok h
  obtain ⟨props, h5, h⟩ := bind_ok h
  obtain ⟨names, h6, h⟩ := bind_ok h
  cases h
  refine ⟨tbl, found, ds, ?_, h1, h2, h3, h4, h5, rfl, h6, rfl, rfl⟩
  cases o with
  | none => cases h0
  | some t => cases h0; rfl

variable {r : JGroupSearch N} {q : CGroupSearch} {c : RecordsPlan}

theorem GroupWay.decoded (w : GroupWay E sys p kv tbls cur r q c) (d : Str × Str) :
    d ∈ c.decoded ↔ ∃ f ∈ firstGroup r.filters, ∃ rf, PropertyAt p kv f.property rf ∧ rf.isDictionary = true ∧ Pattern f.op ∧
      d = (rf.columnName sys, tableAt f.property) := by
  obtain ⟨tbl, found, ds, -, -, -, h3, -, -, -, -, h7, -⟩ := groupPlan_parts w.plan
  rw [h7]
  exact decoded_of w.filters h3 d

theorem groupProp_found {refs : List JPropertyRef} {found : List Property} (h : collect (findGroupProp p kv) (refs.map propIn) = .ok found) :
    collect (findProp .plan p kv) (refs.map propIn) = .ok found := by
  induction refs generalizing found with
  | nil => exact h
  | cons a refs ih =>
    rw [List.map_cons] at h ⊢
    unfold collect at h ⊢
    cases ha : findGroupProp p kv (propIn a) with
    | error e => rw [ha] at h; cases h
    | ok x =>
      have hx : findProp .plan p kv (propIn a) = .ok x := by
        cases a with
        | group n g => exact ha
        | event n => cases ha
        | custom i => cases ha
      rw [ha] at h
      rw [hx]
      dsimp only at h ⊢
      cases hl : collect (findGroupProp p kv) (refs.map propIn) with
      | error e => rw [hl] at h; cases h
      | ok l =>
        rw [hl] at h
        rw [ih hl]
        exact h

theorem group_props (w : GroupWay E sys p kv tbls cur r q c) {refs : List JPropertyRef} (hr : r.properties = some refs) (hne : refs ≠ []) :
    ∃ found, collect (findProp .plan p kv) (refs.map propIn) = .ok found ∧ c.props = uniqueColumns sys [] found ∧
      c.shown = (c.props.map fun r => r.columnName sys) ∧
      namedColumns sys c.shown c.props = .ok c.names ∧ c.after = decodedAfter sys (fun _ => groupCol r.group) (c.decoded.map (·.1)) c.shown c.props := by
  obtain ⟨tbl, found, ds, -, -, h2, -, -, h5, h6, h7, -, h9⟩ := groupPlan_parts w.plan
  have hq : q.properties.getD [] = refs.map propIn := by
    rw [w.properties, hr]
    cases refs with
    | nil => exact (hne rfl).elim
    | cons a l => rfl
  rw [hq] at h2
  have hu : uniqueColumns sys [] found ≠ [] := by
    intro h0
    have h0 := (uniqueColumns_nil rfl).mp h0
    subst h0
    have := (collect_spec h2).2.2
    rw [List.length_map] at this
    exact hne (List.length_eq_zero_iff.mp this.symm)
  unfold groupProperties at h5
  rw [if_neg (by simpa using hu)] at h5
  rw [if_neg (by simpa using hu), Except.ok.inj h5] at h6
  refine ⟨found, groupProp_found h2, (Except.ok.inj h5).symm, h6, h7, by rw [h9, w.group]⟩

/-- The rows the filter keeps, where there are no filters or no period. -/
theorem group_rows (S : Sem) (hS : ∀ a b, S.lt (.ts a) (.ts b) = decide (a < b)) (hd : Dictionaries p kv) (hp : p < 2 ^ 63)
    (w : GroupWay E sys p kv tbls cur r q c) (ht : ∀ tm, r.time = some tm → TimeInRange tm) (hc : Clear E sys p kv (firstGroup r.filters))
    (hone : r.time = none ∨ firstGroup r.filters = []) : ∃ f t, (∀ tm, r.time = some tm → Denotes (timeIn tm) cur f t) ∧
    ∀ row row', decodeRow p kv c.decoded row = some row' → (∀ x, row "created_at".toList = some x → ∃ v, x = .ts v) → StoredIn sys p kv row (firstGroup r.filters) →
    (Selects S row' c.filter ↔ GroupAskedFor S E sys p kv f t r row) := by
  have hper : ∃ f t, ∀ tm, r.time = some tm → Denotes (timeIn tm) cur f t ∧ ∃ te, timeExpression kCreatedCol .ms (timeIn tm) cur = .ok te ∧
      ∀ row, (∀ x, row "created_at".toList = some x → ∃ v, x = .ts v) → (Selects S row te ↔ During .ms f t row) := by
    cases htm : r.time with
    | none => exact ⟨0, 0, fun tm h => by cases h⟩
    | some tm =>
      obtain ⟨te, f, t, t1, t2, t3⟩ := range_selects S hS .ms (timeIn tm) cur (timeIn_range (ht tm htm))
      refine ⟨f, t, fun tm' h => ?_⟩
      cases h
      exact ⟨t2, te, t1, t3⟩
  obtain ⟨f, t, hper⟩ := hper
  refine ⟨f, t, fun tm h => (hper tm h).1, fun row row' hrow hts hst => ?_⟩
  obtain ⟨tbl, found, ds, -, -, -, -, h4, -⟩ := groupPlan_parts w.plan
  have hfix := fixed_of w.decoded hc hrow
  have hproj : Selects S row' (projectExpr p) ↔ Owned p row := by rw [project_selects hp]; unfold Owned; rw [hfix _ (by simp)]
  have key : ∀ es, (match q.time with
      | none => .ok [projectExpr p]
      | some x => match timeExpression kCreatedCol .ms x cur with
        | .error x => .error x
        | .ok te => .ok [projectExpr p, te] : Except QErr (List Expr)) = .ok es → ∀ e, multiAnd es = .ok e → (Selects S row' e ↔
      Owned p row ∧ (r.time.isSome → During .ms f t row)) := by
    intro es hes e he
    rw [multiAnd_selects he]
    rw [w.time] at hes
    cases htm : r.time with
    | none =>
      rw [htm] at hes
      cases hes
      simp [hproj]
    | some tm =>
      rw [htm] at hes
      simp only [Option.map_some] at hes
      obtain ⟨-, te, t1, t3⟩ := hper tm htm
      rw [t1] at hes
      cases hes
      have hdur : During .ms f t row' ↔ During .ms f t row := by unfold During; rw [hfix _ (by simp)]
      have hbase : Selects S row' te ↔ During .ms f t row := by rw [t3 row' (by rw [hfix _ (by simp)]; exact hts), hdur]
      simp [hbase, hproj]
  unfold groupsSearchFilter at h4
  dsimp only at h4
  split at h4
  · cases h4
  · rename_i es hes
    cases hf : q.filters with
    | none =>
      rw [hf] at h4
      have hno : firstGroup r.filters = [] := by
        apply List.eq_nil_iff_forall_not_mem.mpr
        intro f hm
        obtain ⟨f', hf', -⟩ := w.filters.1 f hm
        rw [hf] at hf'
        cases hf'
      rw [key es hes _ h4]
      unfold GroupAskedFor
      rw [hno]
      simp
    | some fs =>
      rw [hf] at h4
      dsimp only at h4
      cases hx : eventFiltersExpression (mdOf sys p kv) fs with
      | error x => rw [hx] at h4; cases h4
      | ok e =>
        rw [hx] at h4
        dsimp only at h4
        have hwith : withFilters (mdOf sys p kv) (.ok (projectExpr p)) (some fs) = .ok c.filter := by
          unfold withFilters
          dsimp only
          rw [hx]
          exact h4
        obtain ⟨x0, m1, m2⟩ := withFilters_selects (S := S) (row := row') hwith
        cases m1
        have o1 := withFilters_ok hwith
        have hfl := w.filters
        rw [hf] at hfl
        rw [m2, passes_linked S w.decoded hd hc hrow hst (fun f hf => hf) hfl o1, hproj]
        unfold GroupAskedFor
        refine and_congr_right fun _ => ⟨fun h => ⟨fun htm => ?_, h⟩, fun h => h.2⟩
        rcases hone with h0 | h0
        · rw [h0] at htm; cases htm
        · exfalso
          cases fs with
          | nil => cases hx
          | cons a l =>
            obtain ⟨f, hm, -⟩ := w.filters.2 a (by rw [hf]; simp)
            rw [h0] at hm
            cases hm

/-! ## Properties -/

/-- **C135 (part).** Where properties of the group are asked for, no order is, and not both a period and filters. Missing: searches for all
properties, orders, periods together with filters. -/
theorem C135_partial (S : Sem) (h : groupSearch E sys p kv tbls cur r = .ok c) {order : List QRow → List QRow} (ho : ∀ l, (order l).Perm l) {rows : List QRow}
    {refs : List JPropertyRef} (hr : r.properties = some refs) (hne : refs ≠ []) (T : Tidied S E sys p kv r.time (firstGroup r.filters) refs rows)
    (hown : ∀ ref ∈ refs, ∃ n, ref = .group n r.group) (hs : r.sort = none) (hone : r.time = none ∨ firstGroup r.filters = []) :
    ∃ f t cs L, (∀ tm, r.time = some tm → Denotes (timeIn tm) cur f t) ∧ answer S p kv order c rows = some cs ∧ TopHundred (GroupAskedFor S E sys p kv f t r) (SortedAs S sys p kv r.sort) rows L ∧
      Displays sys p kv (GroupToShow p kv r) L cs ∧ (L ≠ [] → refs.Nodup → cs.map (·.property) = refs.map propIn) := by
  obtain ⟨q, w⟩ := group_way h
  obtain ⟨rows1, hdec⟩ := T.decode w.decoded
  obtain ⟨L, M, R, s1, s2, s3, s4, s5, s6, s7, s8⟩ := answer_shape S ho c hdec
  obtain ⟨found, g1, g2, g3, g4, g5⟩ := group_props w hr hne
  have hlm : ∀ row ∈ L ++ M, row ∈ rows := fun row hm => s1.subset (List.mem_append_left _ hm)
  have hrm : ∀ row ∈ R, row ∈ rows := fun row hm => s1.subset (List.mem_append_right _ hm)
  obtain ⟨f, t, hden, hrows⟩ := group_rows S T.sem T.dictionaries T.project w T.range T.clear hone
  have hask : ∀ row ∈ rows, Selects S (decodedAs p kv c.decoded row) c.filter ↔ GroupAskedFor S E sys p kv f t r row := fun row hrow =>
    hrows row _ (s2 row hrow) (T.moments row hrow) (T.stored row hrow)
  obtain ⟨cs, k1, k2, k3⟩ := columns_display T (fun _ => groupCol r.group) g1 g2 g3 g4 g5 w.decoded (fun ref hm rp hat => by
    obtain ⟨n, rfl⟩ := hown ref hm
    rfl) (L := L) (by
    intro row hrow
    have hrow' := hlm row (List.mem_append_left _ hrow)
    exact ⟨hrow', ((hask row hrow').mp (s3 row (List.mem_append_left _ hrow))).1, s2 row hrow'⟩)
  refine ⟨f, t, cs, L, hden, by rw [s8]; exact k1, ⟨M, R, s1, ?_, ?_, s5, s6, ?_⟩, ?_, k3⟩
  · exact fun row hm => (hask row (hlm row hm)).mp (s3 row hm)
  · exact fun row hm hx => s4 row hm ((hask row (hrm row hm)).mpr hx)
  · intro ref asc e
    rw [hs] at e
    cases e
  · have : GroupToShow p kv r = (· ∈ refs) := by
      funext ref
      unfold GroupToShow
      rw [hr]
      cases refs with
      | nil => exact (hne rfl).elim
      | cons a l => rfl
    rw [this]
    exact k2

/-- The columns every search for groups is about. -/
def groupReads : List Str := ["project_id".toList, "id".toList, "version".toList, "created_at".toList]

theorem kIdCol_eq : kIdCol = "id".toList := by decide +kernel
theorem kVersionCol_eq : kVersionCol = "version".toList := by decide +kernel

/-- What is read where properties are asked for. -/
theorem group_reads (w : GroupWay E sys p kv tbls cur r q c) {refs : List JPropertyRef} (hr : r.properties = some refs) (hne : refs ≠ []) :
    (∀ x, x ∈ c.cols ↔ x ∈ groupReads ∨ (∃ f ∈ firstGroup r.filters, ColumnAt sys p kv f.property x) ∨ ∃ ref ∈ refs, ColumnAt sys p kv ref x) ∧
      ∀ tbl, tbls r.group = some tbl → ∀ x ∈ c.cols, x ∈ tbl := by
  obtain ⟨tbl, found, ds, h0, h1, -⟩ := groupPlan_parts w.plan
  have hq : q.properties = some (refs.map propIn) := by
    rw [w.properties, hr]
    cases refs with
    | nil => exact (hne rfl).elim
    | cons a l => rfl
  unfold groupColumns at h1
  rw [hq] at h1
  obtain ⟨cs, h5, h2⟩ := bind_ok h1
  unfold scan at h2
  split at h2
  · rename_i hall
    have e := Except.ok.inj h2
    simp only [List.all_eq_true, List.contains_iff_mem] at hall
    have hin : ∀ x, x ∈ [kProjectCol, kIdCol, kVersionCol, kCreatedCol] ++ cs ↔
        x ∈ groupReads ∨ (∃ f ∈ firstGroup r.filters, ColumnAt sys p kv f.property x) ∨ ∃ ref ∈ refs, ColumnAt sys p kv ref x := by
      intro x
      rw [List.mem_append, kProjectCol_eq, kCreatedCol_eq, kIdCol_eq, kVersionCol_eq]
      refine or_congr Iff.rfl ⟨fun hx => ?_, ?_⟩
      · obtain ⟨y, hy, hc⟩ := (collect_spec h5).2.1 x hx
        rcases List.mem_append.mp hy with hy | hy
        · obtain ⟨f', hf', rfl⟩ := List.mem_map.mp hy
          obtain ⟨f, hf, hl⟩ := w.filters.2 f' hf'
          rw [hl.property] at hc
          exact .inl ⟨f, hf, colName_at hc⟩
        · obtain ⟨ref, hm, rfl⟩ := List.mem_map.mp hy
          exact .inr ⟨ref, hm, colName_at hc⟩
      · rintro (⟨f, hf, hx⟩ | ⟨ref, hm, hx⟩)
        · obtain ⟨f', hf', hl⟩ := w.filters.1 f hf
          obtain ⟨y, hy, hc⟩ := (collect_spec h5).1 (propIn f.property) (List.mem_append_left _ (List.mem_map.mpr ⟨f', hf', hl.property⟩))
          rw [columnAt_unique (colName_at hc) hx]
          exact hy
        · obtain ⟨y, hy, hc⟩ := (collect_spec h5).1 (propIn ref) (List.mem_append_right _ (List.mem_map.mpr ⟨ref, hm, rfl⟩))
          rw [columnAt_unique (colName_at hc) hx]
          exact hy
    refine ⟨fun x => ?_, fun tbl' ht x hx => ?_⟩
    · rw [← hin x, ← e, List.mem_filter, List.contains_iff_mem]
      exact ⟨fun h => h.2, fun h => ⟨hall x h, h⟩⟩
    · rw [← e] at hx
      rw [h0] at ht
      cases ht
      exact (List.mem_filter.mp hx).1
  · cases h2

/-- **C135, columns.** A search for some properties of a group reads every column it needs. -/
theorem C135_reads (h : groupSearch E sys p kv tbls cur r = .ok c) {refs : List JPropertyRef} (hr : r.properties = some refs) (hne : refs ≠ []) :
    (∀ x, x ∈ c.cols ↔ x ∈ groupReads ∨ (∃ f ∈ firstGroup r.filters, ColumnAt sys p kv f.property x) ∨ ∃ ref ∈ refs, ColumnAt sys p kv ref x) ∧
      (∀ tbl, tbls r.group = some tbl → ∀ x ∈ c.cols, x ∈ tbl) ∧ ∀ x ∈ exprUses c.filter ++ c.shown ++ c.decoded.map (·.1), x ∈ c.cols := by
  obtain ⟨q, w⟩ := group_way h
  obtain ⟨hc, ht⟩ := group_reads w hr hne
  refine ⟨hc, ht, fun x hx => ?_⟩
  simp only [List.mem_append] at hx
  rcases hx with (hx | hx) | hx
  · obtain ⟨tbl, found, ds, -, -, -, -, h4, -⟩ := groupPlan_parts w.plan
    have base : ∀ es, (match q.time with
        | none => .ok [projectExpr p]
        | some x => match timeExpression kCreatedCol .ms x cur with
          | .error x => .error x
          | .ok te => .ok [projectExpr p, te] : Except QErr (List Expr)) = .ok es → ∀ y ∈ es, x ∈ exprUses y → x ∈ groupReads := by
      intro es hes y hy hx
      have pro : x ∈ exprUses (projectExpr p) → x ∈ groupReads := by
        intro hx
        simp only [exprUses, projectExpr, List.mem_singleton, kProjectCol_eq] at hx
        simp [groupReads, hx]
      split at hes
      · cases hes
        cases List.mem_singleton.mp hy
        exact pro hx
      · split at hes
        · cases hes
        · rename_i te hte
          cases hes
          simp only [List.mem_cons, List.not_mem_nil, or_false] at hy
          rcases hy with rfl | rfl
          · exact pro hx
          · rw [time_uses hte hx]; simp [groupReads]
    unfold groupsSearchFilter at h4
    dsimp only at h4
    split at h4
    · cases h4
    · rename_i es hes
      cases hf : q.filters with
      | none =>
        rw [hf] at h4
        obtain ⟨y, hy, hx⟩ := multiAnd_uses h4 hx
        exact (hc x).mpr (.inl (base es hes y hy hx))
      | some fs =>
        rw [hf] at h4
        dsimp only at h4
        cases he : eventFiltersExpression (mdOf sys p kv) fs with
        | error x => rw [he] at h4; cases h4
        | ok e =>
          rw [he] at h4
          have hwith : withFilters (mdOf sys p kv) (.ok (projectExpr p)) (some fs) = .ok c.filter := by
            unfold withFilters
            dsimp only
            rw [he]
            exact h4
          obtain ⟨e1, w1, u1⟩ := withFilters_uses hwith
          cases w1
          rcases u1 x hx with hx | ⟨f', hf', ef, hef, hx⟩
          · refine (hc x).mpr (.inl ?_)
            simp only [exprUses, projectExpr, List.mem_singleton, kProjectCol_eq] at hx
            simp [groupReads, hx]
          · obtain ⟨f, hm, hl⟩ := w.filters.2 f' (by rw [hf]; exact hf')
            exact (hc x).mpr (.inr (.inl ⟨f, hm, linked_uses hl hef hx⟩))
  · obtain ⟨found, g1, g2, g3, -⟩ := group_props w hr hne
    rw [g3] at hx
    obtain ⟨rp, hp, rfl⟩ := List.mem_map.mp hx
    obtain ⟨ref, hm, hat⟩ := props_from g1 g2 rp hp
    exact (hc _).mpr (.inr (.inr ⟨ref, hm, rp, hat, rfl⟩))
  · obtain ⟨d, hd, rfl⟩ := List.mem_map.mp hx
    obtain ⟨f, hf, rf, a1, -, -, rfl⟩ := (w.decoded d).mp hd
    exact (hc _).mpr (.inr (.inl ⟨f, hf, rf, a1, rfl⟩))

/-- **C135 is violated**: a search for all properties takes the properties for the columns by position, and panics if the table has more
columns than the group has properties. -/
theorem C135_all (S : Sem) (h : groupSearch E sys p kv tbls cur r = .ok c) (order : List QRow → List QRow) (rows : List QRow)
    (hr : r.properties = none) : tbls r.group = some c.shown ∧ (propsC p (.group r.group)).list kv = .ok c.props ∧ (c.props.length < c.shown.length → answer S p kv order c rows = none) ∧
      ∀ cs : List RecordColumn, answer S p kv order c rows = some cs → ∀ (i : Nat) (x : RecordColumn), cs[i]? = some x → ∃ rp, c.props[i]? = some rp ∧ x.property = reference rp := by
  obtain ⟨q, w⟩ := group_way h
  obtain ⟨tbl, found, ds, h0, h1, h2, h3, h4, h5, h6, h7, -⟩ := groupPlan_parts w.plan
  have hq : q.properties = none := by rw [w.properties, hr]; rfl
  rw [hq] at h2
  cases h2
  unfold groupColumns at h1
  rw [hq] at h1
  have h1 := Except.ok.inj h1
  simp only [uniqueColumns, List.isEmpty_nil, if_true] at h6
  simp only [groupProperties, uniqueColumns, List.isEmpty_nil, if_true] at h5
  have hprops : (propsC p (.group r.group)).list kv = .ok c.props := by
    rw [w.group] at h5
    by_cases hg : r.group < groupsCount
    · rw [if_pos hg] at h5
      unfold ofStore at h5
      split at h5 <;> simp_all
    · rw [if_neg hg] at h5
      cases h5
  have hnames : c.names.length = c.shown.length := by rw [(namedColumns_ok h7).1]; simp
  refine ⟨by rw [h0, h6, h1], hprops, fun hlt => ?_, fun cs hcs i x hx => ?_⟩
  · unfold answer
    cases decodeRows p kv c.decoded rows with
    | none => rfl
    | some rows1 =>
      simp only [Option.bind_eq_bind, Option.bind_some]
      cases decodeRows p kv c.after ((order (kept S c.filter rows1)).take 100) with
      | none => rfl
      | some rows2 =>
        simp only [Option.bind_some]
        rw [labelled_none c hnames hlt]
        rfl
  · simp only [answer, Option.bind_eq_bind, Option.bind_eq_some_iff, Option.pure_def] at hcs
    obtain ⟨rows1, -, rows2, -, cs', hl, e⟩ := hcs
    cases e
    by_cases hle : c.shown.length ≤ c.props.length
    · obtain ⟨cs'', e1, -, e3⟩ := labelled_at c hnames hle rows2
      rw [hl] at e1
      cases e1
      have hx' : cs'[i]? = some x := by
        cases cs' with
        | nil => exact hx
        | cons a l =>
          unfold emptied at hx
          dsimp only at hx
          split at hx
          · cases hx
          · exact hx
      obtain ⟨rp, s, n, a1, -, -, a4⟩ := e3 i x hx'
      exact ⟨rp, a1, by rw [a4]⟩
    · rw [labelled_none c hnames (by omega)] at hl
      cases hl

/-! ## Cases -/

def nameProp : Property :=
  ⟨0, ⟨0, 0⟩, 1, none, none, 0, none, "name".toList, none, none, 0, .group 0, .string, .enabled, false, true, false, false, true, some .int64⟩

def nameAt : Property := { nameProp with id := 1, createdAt := ⟨7, 0⟩, projectId := 1, order := 1 }

/-- The example store with a property of the users, two of which have names. -/
def usersKv : Kv :=
  (Meta.runCall (Meta.dictGetOrCreate 1 (groupCol 0) "g_0_str_1".toList "Bob".toList)
    (Meta.runCall (Meta.dictGetOrCreate 1 (groupCol 0) "g_0_str_1".toList "Ann".toList)
      (Meta.runCall (Meta.propCreate id 1 (.group 0) ⟨7, 0⟩ nameProp (.ok ())) recordsKv).2).2).2

def usersCols (g : Nat) : Option (List Str) :=
  if g = 0 then some (["project_id", "id", "version", "created_at", "g_0_str_1"].map String.toList) else none

def userRow (name : Option Int) (created : Int) : QRow := fun c =>
  if c = "project_id".toList then some (.int 1)
  else if c = "created_at".toList then some (.ts created)
  else if c = "g_0_str_1".toList then name.map .int
  else none

/-- Which users are there, by name? -/
def usersReq : JGroupSearch Int where
  time := none
  group := 0
  filters := some ⟨none, [⟨false, [⟨.group "name".toList 0, .neq, some [.str "Bob".toList]⟩]⟩]⟩
  properties := some [.group "name".toList 0]
  sort := none

def usersRows : List QRow := [userRow (some 2) (-5), userRow (some 1) (-5), userRow none (-5)]

theorem users_name : (propsC 1 (.group 0)).getBy .name "name".toList usersKv = .ok nameAt := ok_of (by decide +kernel)

theorem users_typed : Typed 1 usersKv ∧ Dictionaries 1 usersKv := sound_typed (by decide +kernel)

theorem users_codes : codedPass 1 usersKv = true := by decide +kernel

theorem users_events {n : Str} {ev : Event} (h : (eventsC 1).getBy .name n usersKv = .ok ev) : ev.id < 2 ^ 63 := by
  have : eventsPass 1 usersKv (fun _ e => decide (e.id < 100)) = true := by decide +kernel
  have := of_decide_eq_true (events_pass this h)
  omega

theorem users_group {n : Str} {g : Nat} {r : Property} (h : PropertyAt 1 usersKv (.group n g) r) : g = 0 ∧ n = "name".toList ∧ r = nameAt := by
  have hp : propsPass 1 usersKv (fun ty n r => match ty with | .event => true | .group g => g = 0 && n = "name".toList && r = nameAt) = true := by decide +kernel
  have := propertyAt_pass hp h
  simp only [Bool.and_eq_true, decide_eq_true_eq] at this
  exact ⟨this.1.1, this.1.2, this.2⟩

theorem userRow_name {n : Option Int} {t : Int} : userRow n t "g_0_str_1".toList = n.map .int := by
  unfold userRow
  rw [if_neg (by decide +kernel), if_neg (by decide +kernel), if_pos rfl]

theorem userRow_created {n : Option Int} {t : Int} : userRow n t "created_at".toList = some (.ts t) := by
  unfold userRow
  rw [if_neg (by decide +kernel), if_pos rfl]

theorem nameAt_col : nameAt.columnName id = "g_0_str_1".toList := by decide +kernel

theorem users_value {n : Option Int} (hn : n = none ∨ n = some 1 ∨ n = some 2) {t : Int} :
    ValueAt id 1 usersKv (groupCol 0) nameAt (userRow n t) (n.map fun k => .str (if k = 1 then "Ann".toList else "Bob".toList)) := by
  unfold ValueAt
  rw [if_pos (by decide), nameAt_col, userRow_name]
  rcases hn with rfl | rfl | rfl
  · exact .inl ⟨rfl, rfl⟩
  · exact .inr ⟨1, "Ann".toList, rfl, ok_of (by decide +kernel), rfl⟩
  · exact .inr ⟨2, "Bob".toList, rfl, ok_of (by decide +kernel), rfl⟩

/-- Requests for users in the example store, without numbers and patterns, mean what they say. -/
theorem users_tidy {S : Sem} (hS : ∀ a b, S.lt (.ts a) (.ts b) = decide (a < b)) {time : Option JTime} (ht : ∀ t, time = some t → t = .last 7 .day) {fs : List (JFilter Int)} (hp : ∀ f ∈ fs, ¬ Pattern f.op)
    (hn : ∀ f ∈ fs, ∀ n, .num n ∉ f.value.getD []) (hg : ∀ f ∈ fs, ∃ n, f.property = .group n 0) {asked : List JPropertyRef} (ha : ∀ a ∈ asked, ∃ n, a = .group n 0)
    {rows : List QRow} (hr : ∀ row ∈ rows, ∃ (n : Option Int) (t : Int), (n = none ∨ n = some 1 ∨ n = some 2) ∧ row = userRow n t) :
    Tidied S exReqEnv id 1 usersKv time fs asked rows where
  sem := hS
  project := by decide
  typed := users_typed.1
  dictionaries := users_typed.2
  events _ _ := users_events
  range := by intro t h; rw [ht t h]; intro n; simp
  clear := {
    nums f hf r _ n hm := absurd hm (hn f hf n)
    dicts f hf r dt hr _ := by
      obtain ⟨n, e⟩ := hg f hf
      rw [e] at hr ⊢
      obtain ⟨-, -, rfl⟩ := users_group hr
      exact coded_pass users_codes (t := groupCol 0) (by decide +kernel) dt
    fixed f hf r _ _ hpat := absurd hpat (hp f hf)
    apart f hf g _ r s _ _ _ hpat := absurd hpat (hp f hf) }
  number f hf _ _ _ hpat := absurd hpat (hp f hf)
  distinct a hm b hm' ra rb h1 h2 _ := by
    obtain ⟨n, rfl⟩ := ha a hm
    obtain ⟨n', rfl⟩ := ha b hm'
    rw [(users_group h1).2.1, (users_group h2).2.1]
  tables f hf _ _ _ _ _ _ _ hpat := absurd hpat (hp f hf)
  keyed a hm ra h _ := by
    obtain ⟨n, rfl⟩ := ha a hm
    obtain ⟨-, -, rfl⟩ := users_group h
    exact keyed_of_coded (coded_pass users_codes (t := groupCol 0) (by decide +kernel) .int64)
  moments row hrow x hx := by
    obtain ⟨n, t, -, rfl⟩ := hr row hrow
    rw [userRow_created] at hx
    exact ⟨t, (Option.some.inj hx).symm⟩
  stored row hrow f hf r h := by
    obtain ⟨n, t, hn, rfl⟩ := hr row hrow
    obtain ⟨m, e⟩ := hg f hf
    rw [e] at h ⊢
    obtain ⟨-, -, rfl⟩ := users_group h
    exact ⟨_, users_value hn⟩
  values row hrow _ a hm ra h := by
    obtain ⟨n, t, hn, rfl⟩ := hr row hrow
    obtain ⟨m, rfl⟩ := ha a hm
    obtain ⟨-, -, rfl⟩ := users_group h
    exact ⟨_, users_value hn⟩

theorem usersRows_are : ∀ row ∈ usersRows, ∃ (n : Option Int) (t : Int), (n = none ∨ n = some 1 ∨ n = some 2) ∧ row = userRow n t := by
  intro row h
  simp only [usersRows, List.mem_cons, List.not_mem_nil, or_false] at h
  rcases h with rfl | rfl | rfl
  · exact ⟨some 2, _, by simp, rfl⟩
  · exact ⟨some 1, _, by simp, rfl⟩
  · exact ⟨none, _, by simp, rfl⟩

/-- The hypotheses hold of the example request. -/
example : Tidied exSem exReqEnv id 1 usersKv usersReq.time (firstGroup usersReq.filters) [.group "name".toList 0] usersRows ∧
    (∀ ref ∈ ([.group "name".toList 0] : List JPropertyRef), ∃ n, ref = .group n usersReq.group) := by
  refine ⟨users_tidy exSem_ts ?_ ?_ ?_ ?_ ?_ usersRows_are, ?_⟩ <;> simp [usersReq, firstGroup, Pattern]

/-- Ann is found. -/
example : (groupSearch exReqEnv id 1 usersKv usersCols 0 usersReq).toOption.map (fun c => (answer exSem 1 usersKv id c usersRows).map
    fun cs => cs.map fun x => (x.name, x.data)) = some (some [("name".toList, [some (.str "Ann".toList)])]) := by decide +kernel

/-- **C135 is violated**: a property of events passes validation, and is then looked for in the table of the group. -/
theorem C135_panics : (groupSearch exReqEnv id 1 usersKv usersCols 0 { usersReq with properties := some [.event "city".toList] }) = .error .panic := by
  have : (match groupSearch exReqEnv id 1 usersKv usersCols 0 { usersReq with properties := some [.event "city".toList] } with
    | .error .panic => true
    | _ => false) = true := by decide +kernel
  split at this
  · assumption
  · cases this

/-- The same, but of the last week. -/
def weekReq : JGroupSearch Int := { usersReq with time := some (.last 7 .day) }

/-- **C135 is violated**: the period is forgotten where there are filters. -/
theorem C135_time_violated : ∃ c, groupSearch exReqEnv id 1 usersKv usersCols 0 weekReq = .ok c ∧
    Tidied exSem exReqEnv id 1 usersKv weekReq.time (firstGroup weekReq.filters) (weekReq.properties.getD []) [userRow (some 1) 5] ∧
    ¬ GroupsAnswered exSem exReqEnv id 1 usersKv 0 weekReq id c [userRow (some 1) 5] := by
  have he : ((groupSearch exReqEnv id 1 usersKv usersCols 0 weekReq).toOption.map fun c => ((answer exSem 1 usersKv id c [userRow (some 1) 5]).map (·.length))) = some (some 1) := by decide +kernel
  cases hs : groupSearch exReqEnv id 1 usersKv usersCols 0 weekReq with
  | error e => rw [hs] at he; cases he
  | ok c =>
    rw [hs] at he
    simp only [Except.toOption, Option.map_some, Option.some.injEq] at he
    refine ⟨c, rfl, users_tidy exSem_ts ?_ ?_ ?_ ?_ ?_ ?_, ?_⟩
    · simp [weekReq]
    · simp [weekReq, usersReq, firstGroup, Pattern]
    · simp [weekReq, usersReq, firstGroup]
    · simp [weekReq, usersReq, firstGroup]
    · simp [weekReq, usersReq]
    · intro row h
      rw [List.mem_singleton] at h
      exact ⟨_, _, .inr (.inl rfl), h⟩
    · rintro ⟨f, t, cs, L, h1, h2, ⟨M, R, k1, k2, -⟩, h4, -⟩
      have hd := h1 _ rfl
      have : L = [] := by
        cases L with
        | nil => rfl
        | cons a L =>
          have ha : a ∈ [userRow (some 1) 5] := k1.subset (by simp)
          rw [List.mem_singleton] at ha
          obtain ⟨-, hdur, -⟩ := k2 a (by simp)
          obtain ⟨v, e, -, e2⟩ := hdur rfl
          rw [ha, userRow_created] at e
          cases e
          obtain ⟨-, rfl⟩ := hd
          exact absurd e2 (by decide +kernel)
      rw [h2, h4 this] at he
      cases he

/-- Names are compared as words. -/
def nameSem : Sem := { exSem with
  lt := fun a b => match a, b with
    | .ts a, .ts b => decide (a < b)
    | .str a, .str b => decide (a = "Ann".toList ∧ b = "Bob".toList)
    | _, _ => false }

/-- The users, the last name first. -/
def sortReq : JGroupSearch Int where
  time := none
  group := 0
  filters := none
  properties := some [.group "name".toList 0]
  sort := some (.group "name".toList 0, false)

/-- **C135 is violated**: the order asked for is forgotten. -/
theorem C135_sort_violated : ∃ c, groupSearch exReqEnv id 1 usersKv usersCols 0 sortReq = .ok c ∧
    Tidied nameSem exReqEnv id 1 usersKv sortReq.time (firstGroup sortReq.filters) (sortReq.properties.getD []) [userRow (some 1) 5, userRow (some 2) 5] ∧
    ¬ GroupsAnswered nameSem exReqEnv id 1 usersKv 0 sortReq id c [userRow (some 1) 5, userRow (some 2) 5] := by
  have he : ((groupSearch exReqEnv id 1 usersKv usersCols 0 sortReq).toOption.map fun c => ((answer nameSem 1 usersKv id c [userRow (some 1) 5, userRow (some 2) 5]).map fun cs => cs.map (·.data))) =
      some (some [[some (.str "Ann".toList), some (.str "Bob".toList)]]) := by decide +kernel
  cases hs : groupSearch exReqEnv id 1 usersKv usersCols 0 sortReq with
  | error e => rw [hs] at he; cases he
  | ok c =>
    rw [hs] at he
    simp only [Except.toOption, Option.map_some, Option.some.injEq] at he
    refine ⟨c, rfl, users_tidy (fun _ _ => rfl) ?_ ?_ ?_ ?_ ?_ ?_, ?_⟩
    · simp [sortReq]
    · simp [sortReq, firstGroup]
    · simp [sortReq, firstGroup]
    · simp [sortReq, firstGroup]
    · simp [sortReq]
    · intro row h
      simp only [List.mem_cons, List.not_mem_nil, or_false] at h
      rcases h with rfl | rfl
      · exact ⟨_, _, .inr (.inl rfl), rfl⟩
      · exact ⟨_, _, .inr (.inr rfl), rfl⟩
    · rintro ⟨f, t, cs, L, h1, h2, ⟨M, R, k1, k2, -, -, -, k6⟩, h4, h5⟩
      rw [h2] at he
      simp only [Option.map_some, Option.some.injEq] at he
      have hne : L ≠ [] := by
        intro h
        rw [h4 h] at he
        cases he
      obtain ⟨x, hx, -, rp, hp, -, hpairs⟩ := (h5 hne).2.1 (.group "name".toList 0) (List.mem_singleton.mpr rfl)
      have hd : x.data = [some (.str "Ann".toList), some (.str "Bob".toList)] := by
        have : x.data ∈ cs.map (·.data) := List.mem_map.mpr ⟨x, hx, rfl⟩
        rw [he] at this
        exact List.mem_singleton.mp this
      rw [hd] at hpairs
      match L, hpairs with
      | [a, b], hpairs =>
        obtain ⟨p1, p2, -⟩ := hpairs
        have hord := k6 _ false rfl
        have := (List.pairwise_cons.mp hord).1 b (by simp) rp _ _ hp p1 p2
        exact absurd this (by decide +kernel)

/-- So the full statement is false. -/
theorem C135_violated : ¬ C135_full Int := by
  intro h
  obtain ⟨c, h1, h2, h3⟩ := C135_time_violated
  exact h3 (h exSem exReqEnv id 1 usersKv usersCols 0 weekReq c h1 id (fun _ => .refl _) _ h2)

end OptiPrism.Platform
