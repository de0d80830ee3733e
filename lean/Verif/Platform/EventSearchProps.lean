import Verif.Platform.RecordsDemo
import Verif.Platform.ChartColsProps

/-!
# C133: searches for events
-/

namespace OptiPrism.Platform

open OptiPrism.Meta (Str PropOp PropertyRef EventRef Scalar PropFilter Kv Property PropType Event propsC customC eventsC kEvents dictGetValue dictGetKey)
open OptiPrism.Query
open OptiPrism.Ingest (groupCol)

variable {N : Type} {E : ReqEnv N} {sys : Str → Str} {p : Nat} {kv : Kv} {tbl : List Str} {fuel : Nat} {cur : Int}

/-! ## Spec -/

/-- The row is asked for: in the project, in time, of one of the events, passing the filters. -/
def AskedFor (S : Sem) (E : ReqEnv N) (sys : Str → Str) (p : Nat) (kv : Kv) (f t : Int) (r : JSearch N) (row : QRow) : Prop :=
  Owned p row ∧ During .ms f t row ∧ OfEvents S E sys p kv row r.events ∧ ∀ x ∈ firstGroup r.filters, Holds S E sys p kv row x

/-- Later events, those with larger numbers, come first. -/
def LatestFirst (l : List QRow) : Prop :=
  l.Pairwise fun a b => ∀ x y, a "event_id".toList = some (.int x) → b "event_id".toList = some (.int y) → y ≤ x

/-- The property is to be shown: it is asked for, or no property is. -/
def ToShow (p : Nat) (kv : Kv) (refs : Option (List JPropertyRef)) (ref : JPropertyRef) : Prop :=
  match refs with
  | some (a :: l) => ref ∈ a :: l
  | _ => ∃ r, PropertyAt p kv ref r

/-- The column is that of the property, for the rows. -/
def ColumnOf (sys : Str → Str) (p : Nat) (kv : Kv) (L : List QRow) (ref : JPropertyRef) (x : RecordColumn) : Prop :=
  x.property = propIn ref ∧ ∃ r, PropertyAt p kv ref r ∧ NameFits r x.name ∧ Pairs (ValueAt sys p kv (tableAt ref) r) L x.data

/-- The columns are those of the properties to be shown, under different names; there are none without rows. -/
def Displays (sys : Str → Str) (p : Nat) (kv : Kv) (show_ : JPropertyRef → Prop) (L : List QRow) (cs : List RecordColumn) : Prop :=
  (L = [] → cs = []) ∧ (L ≠ [] → (cs.map (·.name)).Nodup ∧ (∀ ref, show_ ref → ∃ x ∈ cs, ColumnOf sys p kv L ref x) ∧
    ∀ x ∈ cs, ∃ ref, show_ ref ∧ ColumnOf sys p kv L ref x)

/-- `L` are the first hundred of the rows asked for, in order. -/
def TopHundred (A : QRow → Prop) (O : List QRow → Prop) (rows L : List QRow) : Prop :=
  ∃ M R, (L ++ M ++ R).Perm rows ∧ (∀ row ∈ L ++ M, A row) ∧ (∀ row ∈ R, ¬ A row) ∧ L.length ≤ 100 ∧ (M = [] ∨ L.length = 100) ∧ O (L ++ M)

/-- A store and rows in which the request means what it says. -/
structure Tidied (S : Sem) (E : ReqEnv N) (sys : Str → Str) (p : Nat) (kv : Kv) (time : Option JTime) (filters : List (JFilter N)) (asked : List JPropertyRef)
    (rows : List QRow) : Prop where
  sem : ∀ a b, S.lt (.ts a) (.ts b) = decide (a < b)
  project : p < 2 ^ 63
  typed : Typed p kv
  dictionaries : Dictionaries p kv
  events : ∀ n ev, (eventsC p).getBy .name n kv = .ok ev → ev.id < 2 ^ 63
  range : ∀ t, time = some t → TimeInRange t
  clear : Clear E sys p kv filters
  /-- Numbers of events are not strings. -/
  number : ∀ f ∈ filters, ∀ rf, PropertyAt p kv f.property rf → rf.isDictionary = true → Pattern f.op → rf.columnName sys ≠ "event_id".toList
  /-- Properties asked for have columns of their own. -/
  distinct : ∀ a ∈ asked, ∀ b ∈ asked, ∀ ra rb, PropertyAt p kv a ra → PropertyAt p kv b rb → ra.columnName sys = rb.columnName sys → a = b
  tables : ∀ f ∈ filters, ∀ a ∈ asked, ∀ rf ra, PropertyAt p kv f.property rf → PropertyAt p kv a ra → rf.isDictionary = true → Pattern f.op →
    ra.columnName sys = rf.columnName sys → ra.isDictionary = true ∧ tableAt f.property = tableAt a
  keyed : ∀ a ∈ asked, ∀ ra, PropertyAt p kv a ra → ra.isDictionary = true → Keyed p kv (tableAt a) (ra.columnName sys)
  moments : ∀ row ∈ rows, ∀ x, row "created_at".toList = some x → ∃ v, x = .ts v
  stored : ∀ row ∈ rows, StoredIn sys p kv row filters
  values : ∀ row ∈ rows, Owned p row → ∀ a ∈ asked, ∀ ra, PropertyAt p kv a ra → ∃ v, ValueAt sys p kv (tableAt a) ra row v

/-- **C133.** A search for events that is planned is answered with the latest hundred events asked for, and with the properties asked
for (all if none are): each in a column labelled with the property, under a name of its own, with the values of the property. -/
def C133_full (N : Type) : Prop :=
  ∀ (S : Sem) (E : ReqEnv N) (sys : Str → Str) (fuel p : Nat) (kv : Kv) (tbl : List Str) (cur : Int) (r : JSearch N) (c : RecordsPlan),
    search E sys fuel p kv tbl cur r = .ok c → ∀ order : List QRow → List QRow, (∀ l, (order l).Perm l ∧ LatestFirst (order l)) → ∀ rows,
    Tidied S E sys p kv (some r.time) (searchFilters r) (r.properties.getD []) rows →
    ∃ f t cs L, Denotes (timeIn r.time) cur f t ∧ answer S p kv order c rows = some cs ∧ TopHundred (AskedFor S E sys p kv f t r) LatestFirst rows L ∧
      Displays sys p kv (ToShow p kv r.properties) L cs

/-! ## Proofs -/

theorem keyed_of_coded {t d : Str} {dt : Meta.DictType} (h : Coded p t d kv dt) : Keyed p kv t d := fun k s hk => (h.room s k ((h.both s k).mpr hk)).2

theorem Tidied.decode {S : Sem} {time : Option JTime} {filters : List (JFilter N)} {asked : List JPropertyRef} {rows : List QRow}
    (T : Tidied S E sys p kv time filters asked rows) {ds : List (Str × Str)} (hds : ∀ d, d ∈ ds ↔ ∃ f ∈ filters, ∃ rf, PropertyAt p kv f.property rf ∧
      rf.isDictionary = true ∧ Pattern f.op ∧ d = (rf.columnName sys, tableAt f.property)) : ∃ rows1, decodeRows p kv ds rows = some rows1 := by
  have one : ∀ row ∈ rows, decodeRow p kv ds row = some (decodedAs p kv ds row) := by
    intro row hrow
    obtain ⟨row', h⟩ : ∃ row', decodeRow p kv ds row = some row' := by
      refine decodeRow_some fun d hd => ?_
      obtain ⟨f, hf, rf, h1, h2, h3, rfl⟩ := (hds d).mp hd
      obtain ⟨v, hv⟩ := T.stored row hrow f hf rf h1
      have hdt := (T.dictionaries _ _ h1).1
      rw [h2] at hdt
      obtain ⟨dt, hdt⟩ := Option.isSome_iff_exists.mp hdt.symm
      exact ⟨v, decodeCell_value h2 hv (keyed_of_coded (T.clear.dicts f hf rf dt h1 hdt))⟩
    unfold decodedAs
    rw [h]
    rfl
  exact ⟨_, mapM_of one⟩

theorem search_props {r : JSearch N} {q : CSearch} {c : RecordsPlan} (w : SearchWay E sys fuel p kv tbl cur r q c) {refs : List JPropertyRef}
    (hr : r.properties = some refs) (hne : refs ≠ []) :
    ∃ found, collect (findProp .plan p kv) (refs.map propIn) = .ok found ∧ c.props = uniqueColumns sys [] found ∧
      c.shown = (if kEventIdCol ∈ c.props.map (fun r => r.columnName sys) then c.props.map fun r => r.columnName sys
        else kEventIdCol :: c.props.map fun r => r.columnName sys) ∧
      namedColumns sys c.shown c.props = .ok c.names ∧ c.after = decodedAfter sys eventTable (c.decoded.map (·.1)) c.shown c.props := by
  obtain ⟨found, ds, props, h1, h2, h3, h4, h5, h6, h7, h8, h9, h10⟩ := searchPlan_parts w.plan
  have hq : q.properties.getD [] = refs.map propIn := by
    rw [w.properties, hr]
    cases refs with
    | nil => exact (hne rfl).elim
    | cons a l => rfl
  rw [hq] at h2
  have hu : uniqueColumns sys [] found ≠ [] := by
    intro h0
    have h0 := (uniqueColumns_nil rfl).mp h0
    subst h0
    have := (collect_spec h2).2.2
    rw [List.length_map] at this
    exact hne (List.length_eq_zero_iff.mp this.symm)
  have hp : props = uniqueColumns sys [] found := by
    unfold eventProperties at h5
    rw [if_neg (by simpa using hu)] at h5
    exact (Except.ok.inj h5).symm
  subst hp
  refine ⟨found, h2, h9, ?_, by rw [h8, h9]; exact h6, by rw [h9]; exact h10⟩
  rw [h8, h9]
  unfold eventColumns
  rw [if_neg (by simpa using hu)]
  simp only [List.contains_eq_mem, decide_eq_true_eq]

theorem kEventIdCol_eq : kEventIdCol = "event_id".toList := by decide +kernel

theorem latest_lift {d : QRow → QRow} {l : List QRow} (hd : ∀ row ∈ l, d row "event_id".toList = row "event_id".toList) (h : LatestFirst (l.map d)) : LatestFirst l := by
  unfold LatestFirst at h ⊢
  rw [List.pairwise_map] at h
  refine List.Pairwise.imp_of_mem ?_ h
  intro a b ha hb hab x y hx hy
  exact hab x y (by rw [hd a ha]; exact hx) (by rw [hd b hb]; exact hy)

theorem toShow_iff {refs : List JPropertyRef} (hne : refs ≠ []) {o : Option (List JPropertyRef)} (ho : o = some refs) {ref : JPropertyRef} : ToShow p kv o ref ↔ ref ∈ refs := by
  subst ho
  cases refs with
  | nil => exact (hne rfl).elim
  | cons a l => exact Iff.rfl

section Columns

variable {refs : List JPropertyRef} {c : RecordsPlan} {found : List Property}

theorem props_from (g1 : collect (findProp .plan p kv) (refs.map propIn) = .ok found) (g2 : c.props = uniqueColumns sys [] found) :
    ∀ rp ∈ c.props, ∃ ref ∈ refs, PropertyAt p kv ref rp := by
  intro rp hp
  rw [g2] at hp
  obtain ⟨pr, hm, hx⟩ := (collect_spec g1).2.1 rp ((uniqueColumns_spec [] found).2.1 rp hp).1
  obtain ⟨ref, hm', rfl⟩ := List.mem_map.mp hm
  exact ⟨ref, hm', findProp_at hx⟩

theorem props_to {S : Sem} {time : Option JTime} {filters : List (JFilter N)} {rows : List QRow} (T : Tidied S E sys p kv time filters refs rows)
    (g1 : collect (findProp .plan p kv) (refs.map propIn) = .ok found) (g2 : c.props = uniqueColumns sys [] found) :
    ∀ ref ∈ refs, ∀ rp, PropertyAt p kv ref rp → rp ∈ c.props := by
  intro ref hm rp hp
  obtain ⟨rp', hm', hx⟩ := (collect_spec g1).1 (propIn ref) (List.mem_map.mpr ⟨ref, hm, rfl⟩)
  have := propertyAt_unique hp (findProp_at hx)
  subst this
  obtain ⟨r', m1, m2⟩ := (uniqueColumns_spec (sys := sys) [] found).2.2 _ hm' (by simp)
  obtain ⟨ref', m3, m4⟩ := props_from g1 g2 r' (by rw [g2]; exact m1)
  have := T.distinct ref' m3 ref hm _ _ m4 hp m2
  subst this
  have := propertyAt_unique hp m4
  subst this
  rw [g2]
  exact m1

theorem unique_all (seen : List Str) (l : List Property) (h1 : ∀ x ∈ l, x.columnName sys ∉ seen) (h2 : (l.map fun r => r.columnName sys).Nodup) :
    uniqueColumns sys seen l = l := by
  induction l generalizing seen with
  | nil => rfl
  | cons a l ih =>
    rw [List.map_cons, List.nodup_cons] at h2
    unfold uniqueColumns
    rw [if_neg (by simpa using h1 a (by simp)), ih]
    · intro x hx
      simp only [List.mem_append, List.mem_singleton, not_or]
      exact ⟨h1 x (List.mem_cons_of_mem _ hx), fun e => h2.1 (e ▸ List.mem_map.mpr ⟨x, hx, rfl⟩)⟩
    · exact h2.2

/-- The columns of the answer where they are those of the properties asked for. -/
theorem columns_display {S : Sem} {time : Option JTime} {filters : List (JFilter N)} {rows : List QRow} (T : Tidied S E sys p kv time filters refs rows) (t : Property → Str)
    (g1 : collect (findProp .plan p kv) (refs.map propIn) = .ok found) (g2 : c.props = uniqueColumns sys [] found)
    (g3 : c.shown = c.props.map fun r => r.columnName sys) (g4 : namedColumns sys c.shown c.props = .ok c.names)
    (g5 : c.after = decodedAfter sys t (c.decoded.map (·.1)) c.shown c.props)
    (hds : ∀ d, d ∈ c.decoded ↔ ∃ f ∈ filters, ∃ rf, PropertyAt p kv f.property rf ∧ rf.isDictionary = true ∧ Pattern f.op ∧ d = (rf.columnName sys, tableAt f.property))
    (ht : ∀ ref ∈ refs, ∀ rp, PropertyAt p kv ref rp → t rp = tableAt ref) {L : List QRow}
    (hL : ∀ row ∈ L, row ∈ rows ∧ Owned p row ∧ decodeRow p kv c.decoded row = some (decodedAs p kv c.decoded row)) :
    ∃ cs : List RecordColumn, ((decodeRows p kv c.after (L.map (decodedAs p kv c.decoded))).bind fun x => (labelled c x).map emptied) = some cs ∧
      Displays sys p kv (· ∈ refs) L cs ∧ (L ≠ [] → refs.Nodup → cs.map (·.property) = refs.map propIn) := by
  have from_ref := props_from (refs := refs) (c := c) g1 g2
  have to_prop := props_to T g1 g2
  have hnd : (c.props.map fun r => r.columnName sys).Nodup := by rw [g2]; exact (uniqueColumns_spec [] found).1
  obtain ⟨cs, k1, k2, k3⟩ := answer_columns (p := p) (kv := kv) (L := L) c t g3 hnd g4 g5
    (by
      intro rp hp d hd e
      obtain ⟨ref, hm, hat⟩ := from_ref rp hp
      obtain ⟨x, hx, rf, a1, a2, a3, rfl⟩ := (hds d).mp hd
      rw [ht ref hm rp hat]
      exact T.tables x hx ref hm rf rp a1 hat a2 a3 e.symm)
    (by
      intro rp hp hd
      obtain ⟨ref, hm, hat⟩ := from_ref rp hp
      rw [ht ref hm rp hat]
      exact T.keyed ref hm rp hat hd)
    (by
      intro row hrow
      obtain ⟨l1, l2, l3⟩ := hL row hrow
      refine ⟨l3, fun rp hp => ?_⟩
      obtain ⟨ref, hm, hat⟩ := from_ref rp hp
      rw [ht ref hm rp hat]
      exact T.values row l1 l2 ref hm rp hat)
  have col : ∀ ref ∈ refs, ∀ rp, PropertyAt p kv ref rp → ∀ i : Nat, c.props[i]? = some rp → L ≠ [] → ∃ x, cs[i]? = some x ∧ ColumnOf sys p kv L ref x := by
    intro ref hm rp hat i hi hL
    obtain ⟨x, x1, x2, x3, x4⟩ := (k3 hL).2.2 i rp hi
    exact ⟨x, x1, by rw [x2, T.typed.reference hat], rp, hat, x3, by rw [← ht ref hm rp hat]; exact x4⟩
  refine ⟨cs, k1, ⟨k2, fun hL => ⟨(k3 hL).2.1, ?_, ?_⟩⟩, fun hL hrn => ?_⟩
  · intro ref hm
    obtain ⟨pr, hm', hx⟩ := (collect_spec g1).1 (propIn ref) (List.mem_map.mpr ⟨ref, hm, rfl⟩)
    have hat := findProp_at hx
    obtain ⟨i, hi⟩ := List.getElem?_of_mem (to_prop ref hm pr hat)
    obtain ⟨x, x1, x2⟩ := col ref hm pr hat i hi hL
    exact ⟨x, List.mem_of_getElem? x1, x2⟩
  · intro x hx
    obtain ⟨i, hi⟩ := List.getElem?_of_mem hx
    have hlt := (List.getElem?_eq_some_iff.mp hi).1
    rw [(k3 hL).1] at hlt
    have hpi := List.getElem?_eq_getElem hlt
    obtain ⟨ref, hm, hat⟩ := from_ref _ (List.mem_of_getElem? hpi)
    obtain ⟨y, y1, y2⟩ := col ref hm _ hat i hpi hL
    rw [hi] at y1
    cases y1
    exact ⟨ref, hm, y2⟩
  · -- the order asked for
    have hall : uniqueColumns sys [] found = found := by
      refine unique_all [] found (by simp) ?_
      rw [List.nodup_iff_getElem?_ne_getElem?]
      intro i j hij hj hx
      simp only [List.length_map] at hj
      have hlen := (collect_spec g1).2.2
      rw [List.length_map] at hlen
      obtain ⟨bi, b1, b2⟩ := collect_get g1 (i := i) (a := propIn refs[i]) (by rw [List.getElem?_map, List.getElem?_eq_getElem (by omega)]; rfl)
      obtain ⟨bj, b3, b4⟩ := collect_get g1 (i := j) (a := propIn refs[j]) (by rw [List.getElem?_map, List.getElem?_eq_getElem (by omega)]; rfl)
      rw [List.getElem?_map, List.getElem?_map, b1, b3] at hx
      have := T.distinct refs[i] (List.getElem_mem _) refs[j] (List.getElem_mem _) bi bj (findProp_at b2) (findProp_at b4) (Option.some.inj hx)
      have := (List.getElem_inj hrn).mp this
      omega
    have hprops : c.props = found := by rw [g2, hall]
    apply List.ext_getElem?
    intro i
    rw [List.getElem?_map, List.getElem?_map]
    have hlen := (collect_spec g1).2.2
    rw [List.length_map] at hlen
    have hlen2 := (k3 hL).1
    rw [hprops] at hlen2
    by_cases hi : i < refs.length
    · rw [List.getElem?_eq_getElem hi]
      obtain ⟨b, b1, b2⟩ := collect_get g1 (i := i) (a := propIn refs[i]) (by rw [List.getElem?_map, List.getElem?_eq_getElem hi]; rfl)
      obtain ⟨x, x1, x2, -⟩ := col refs[i] (List.getElem_mem _) b (findProp_at b2) i (by rw [hprops]; exact b1) hL
      rw [x1]
      simp [x2]
    · rw [List.getElem?_eq_none (by omega), List.getElem?_eq_none (by omega)]
      rfl

end Columns

/-- **C133 (part).** Where the number of the event is among the properties asked for, every event comes with a list of filters (if
empty), and the request has no filters of its own. Missing: requests for all properties, and for properties without the number, custom
events, events without filters, and filters of the request. -/
theorem C133_partial (S : Sem) {r : JSearch N} {c : RecordsPlan} (h : search E sys fuel p kv tbl cur r = .ok c) {order : List QRow → List QRow}
    (ho : ∀ l, (order l).Perm l ∧ LatestFirst (order l)) {rows : List QRow} (T : Tidied S E sys p kv (some r.time) (searchFilters r) (r.properties.getD []) rows)
    {refs : List JPropertyRef} (hr : r.properties = some refs) (hid : ∃ ref ∈ refs, ColumnAt sys p kv ref "event_id".toList)
    (he : ∀ e ∈ r.events.getD [], (∃ n, e.event = .regular n) ∧ e.filters ≠ none) (hf : firstGroup r.filters = []) :
    ∃ f t cs L, Denotes (timeIn r.time) cur f t ∧ answer S p kv order c rows = some cs ∧ TopHundred (AskedFor S E sys p kv f t r) LatestFirst rows L ∧
      Displays sys p kv (ToShow p kv r.properties) L cs ∧ (L ≠ [] → refs.Nodup → cs.map (·.property) = refs.map propIn) := by
  obtain ⟨q, w⟩ := search_way h
  have hne : refs ≠ [] := by
    rintro rfl
    obtain ⟨ref, hm, -⟩ := hid
    cases hm
  rw [hr, Option.getD_some] at T
  obtain ⟨rows1, hdec⟩ := T.decode w.decoded
  obtain ⟨f, t, hden, hrows⟩ := search_rows S T.sem T.dictionaries T.events T.project w (T.range _ rfl) T.clear he
  obtain ⟨L, M, R, s1, s2, s3, s4, s5, s6, s7, s8⟩ := answer_shape S (fun l => (ho l).1) c hdec
  obtain ⟨found, g1, g2, g3, g4, g5⟩ := search_props w hr hne
  have hlm : ∀ row ∈ L ++ M, row ∈ rows := fun row hm => s1.subset (List.mem_append_left _ hm)
  have hrm : ∀ row ∈ R, row ∈ rows := fun row hm => s1.subset (List.mem_append_right _ hm)
  have hask : ∀ row ∈ rows, Selects S (decodedAs p kv c.decoded row) c.filter ↔ AskedFor S E sys p kv f t r row := by
    intro row hrow
    rw [hrows row _ (s2 row hrow) (T.moments row hrow) fun _ => T.stored row hrow]
    unfold AskedFor
    rw [hf]
    simp
  have hev : kEventIdCol ∈ c.props.map fun r => r.columnName sys := by
    obtain ⟨ref, hm, rp, hp, e⟩ := hid
    rw [kEventIdCol_eq, e]
    exact List.mem_map.mpr ⟨rp, props_to T g1 g2 ref hm rp hp, rfl⟩
  rw [if_pos hev] at g3
  obtain ⟨cs, k1, k2, k3⟩ := columns_display T eventTable g1 g2 g3 g4 g5 w.decoded (fun ref _ rp hat => T.typed.table hat) (L := L) (by
    intro row hrow
    have hrow' := hlm row (List.mem_append_left _ hrow)
    exact ⟨hrow', ((hask row hrow').mp (s3 row (List.mem_append_left _ hrow))).1, s2 row hrow'⟩)
  refine ⟨f, t, cs, L, hden, by rw [s8]; exact k1, ⟨M, R, s1, ?_, ?_, s5, s6, ?_⟩, ?_, k3⟩
  · exact fun row hm => (hask row (hlm row hm)).mp (s3 row hm)
  · exact fun row hm hx => s4 row hm ((hask row (hrm row hm)).mpr hx)
  · refine latest_lift (d := decodedAs p kv c.decoded) (fun row hm => ?_) (by rw [← s7]; exact (ho _).2)
    refine decodeRow_other (s2 row (hlm row hm)) fun d hd e => ?_
    obtain ⟨x, hx, rf, a1, a2, a3, rfl⟩ := (w.decoded d).mp hd
    exact T.number x hx rf a1 a2 a3 e
  · have : ToShow p kv r.properties = (· ∈ refs) := funext fun ref => propext (toShow_iff hne hr)
    rw [this]
    exact k2

/-- **C133 is violated**: whatever is found, a search for properties without the number of the event panics. -/
theorem C133_panics (S : Sem) {r : JSearch N} {c : RecordsPlan} (h : search E sys fuel p kv tbl cur r = .ok c) (order : List QRow → List QRow) (rows : List QRow)
    {refs : List JPropertyRef} (hr : r.properties = some refs) (hne : refs ≠ []) (hid : ¬ ∃ ref ∈ refs, ColumnAt sys p kv ref "event_id".toList) :
    answer S p kv order c rows = none := by
  obtain ⟨q, w⟩ := search_way h
  obtain ⟨found, g1, g2, g3, g4, g5⟩ := search_props w hr hne
  have hev : kEventIdCol ∉ c.props.map fun r => r.columnName sys := by
    intro hm
    obtain ⟨rp, hp, e⟩ := List.mem_map.mp hm
    rw [g2] at hp
    obtain ⟨pr, hm', hx⟩ := (collect_spec g1).2.1 rp ((uniqueColumns_spec [] found).2.1 rp hp).1
    obtain ⟨ref, hm'', rfl⟩ := List.mem_map.mp hm'
    exact hid ⟨ref, hm'', rp, findProp_at hx, by rw [← kEventIdCol_eq]; exact e.symm⟩
  rw [if_neg hev] at g3
  unfold answer
  cases decodeRows p kv c.decoded rows with
  | none => rfl
  | some rows1 =>
    simp only [Option.bind_eq_bind, Option.bind_some]
    cases decodeRows p kv c.after ((order (kept S c.filter rows1)).take 100) with
    | none => rfl
    | some rows2 =>
      simp only [Option.bind_some]
      rw [labelled_none c (by rw [(namedColumns_ok g4).1]; simp) (by rw [g3]; simp)]
      rfl

/-- **C133 is violated**: a search for all properties takes the properties for the columns by position, and panics as soon as the table
has more columns than the project has properties, as when other projects have created theirs. -/
theorem C133_all (S : Sem) {r : JSearch N} {c : RecordsPlan} (h : search E sys fuel p kv tbl cur r = .ok c) (order : List QRow → List QRow) (rows : List QRow)
    (hr : ∀ l, r.properties = some l → l = []) : c.shown = tbl ∧ allProperties p kv = .ok c.props ∧ (c.props.length < tbl.length → answer S p kv order c rows = none) ∧
      ∀ cs : List RecordColumn, answer S p kv order c rows = some cs → ∀ (i : Nat) (x : RecordColumn), cs[i]? = some x → ∃ rp, c.props[i]? = some rp ∧ x.property = reference rp := by
  obtain ⟨q, w⟩ := search_way h
  obtain ⟨found, ds, props, h1, h2, h3, h4, h5, h6, h7, h8, h9, h10⟩ := searchPlan_parts w.plan
  have hq : q.properties = none := by
    rw [w.properties]
    cases hp : r.properties with
    | none => rfl
    | some l => rw [hr l hp]; rfl
  rw [hq] at h2
  cases h2
  unfold searchColumns at h1
  rw [hq] at h1
  have h1 := Except.ok.inj h1
  simp only [uniqueColumns, eventColumns, List.isEmpty_nil, if_true] at h8 h6
  simp only [eventProperties, uniqueColumns, List.isEmpty_nil, if_true] at h5
  have hshown : c.shown = tbl := by rw [h8, h1]
  have hnames : c.names.length = c.shown.length := by rw [(namedColumns_ok h6).1, h8]; simp
  refine ⟨hshown, by rw [h9]; exact h5, fun hlt => ?_, fun cs hcs i x hx => ?_⟩
  · unfold answer
    cases decodeRows p kv c.decoded rows with
    | none => rfl
    | some rows1 =>
      simp only [Option.bind_eq_bind, Option.bind_some]
      cases decodeRows p kv c.after ((order (kept S c.filter rows1)).take 100) with
      | none => rfl
      | some rows2 =>
        simp only [Option.bind_some]
        rw [labelled_none c hnames (by rw [hshown]; exact hlt)]
        rfl
  · simp only [answer, Option.bind_eq_bind, Option.bind_eq_some_iff, Option.pure_def] at hcs
    obtain ⟨rows1, -, rows2, -, cs', hl, e⟩ := hcs
    cases e
    by_cases hle : c.shown.length ≤ c.props.length
    · obtain ⟨cs'', e1, -, e3⟩ := labelled_at c hnames hle rows2
      rw [hl] at e1
      cases e1
      have hx' : cs'[i]? = some x := by
        cases cs' with
        | nil => exact hx
        | cons a l =>
          unfold emptied at hx
          dsimp only at hx
          split at hx
          · cases hx
          · exact hx
      obtain ⟨rp, s, n, a1, -, -, a4⟩ := e3 i x hx'
      exact ⟨rp, a1, by rw [a4]⟩
    · rw [labelled_none c hnames (by omega)] at hl
      cases hl

/-! ## Cases -/

/-- Which purchases were made in Rome? The number, city and time of each. -/
def recordsReq : JSearch Int where
  time := .last 7 .day
  events := some [⟨.regular "buy".toList, some [⟨.event "city".toList, .eq, some [.str "Rome".toList]⟩]⟩]
  filters := none
  properties := some [.event "event_id".toList, .event "city".toList, .event "when".toList]

def recordsRows : List QRow := [recordsRow 1 (some 1) (some 9), recordsRow 2 none none, recordsRow 3 (some 1) none]

theorem records_distinct {ref ref' : JPropertyRef} {a b : Property} (ha : PropertyAt 1 recordsKv ref a) (hb : PropertyAt 1 recordsKv ref' b)
    (h : a.columnName id = b.columnName id) : ref = ref' := by
  rcases records_prop ha with ⟨rfl, rfl⟩ | ⟨rfl, rfl⟩ | ⟨rfl, rfl⟩ <;> rcases records_prop hb with ⟨rfl, rfl⟩ | ⟨rfl, rfl⟩ | ⟨rfl, rfl⟩ <;>
    first | rfl | exact absurd h (by decide +kernel)

theorem records_keyed {ref : JPropertyRef} {a : Property} (ha : PropertyAt 1 recordsKv ref a) (dt : Meta.DictType) : Coded 1 (tableAt ref) (a.columnName id) recordsKv dt := by
  refine coded_pass records_codes ?_ dt
  rcases records_prop ha with ⟨rfl, rfl⟩ | ⟨rfl, rfl⟩ | ⟨rfl, rfl⟩ <;> decide +kernel

theorem records_value {ref : JPropertyRef} {a : Property} (ha : PropertyAt 1 recordsKv ref a) {row : QRow} (hr : row ∈ recordsRows) :
    ∃ v, ValueAt id 1 recordsKv (tableAt ref) a row v := by
  rcases records_prop ha with ⟨rfl, rfl⟩ | ⟨rfl, rfl⟩ | ⟨rfl, rfl⟩
  · simp only [recordsRows, List.mem_cons, List.not_mem_nil, or_false] at hr
    rcases hr with rfl | rfl | rfl
    · exact ⟨some (.str "Rome".toList), .inr ⟨1, "Rome".toList, by decide +kernel, ok_of (by decide +kernel), rfl⟩⟩
    · exact ⟨none, .inl ⟨by decide +kernel, rfl⟩⟩
    · exact ⟨some (.str "Rome".toList), .inr ⟨1, "Rome".toList, by decide +kernel, ok_of (by decide +kernel), rfl⟩⟩
  · exact ⟨row (whenAt.columnName id), by unfold ValueAt; rw [if_neg (by decide)]⟩
  · exact ⟨row (eventIdAt.columnName id), by unfold ValueAt; rw [if_neg (by decide)]⟩

theorem records_created {i : Int} {a b : Option Int} : recordsRow i a b "created_at".toList = some (.ts (-5)) := by
  unfold recordsRow
  rw [if_neg (by decide +kernel)]
  rfl

/-- Requests to the example store, without numbers and patterns, mean what they say. -/
theorem records_tidy {fs : List (JFilter Int)} (hp : ∀ f ∈ fs, ¬ Pattern f.op) (hn : ∀ f ∈ fs, ∀ n, .num n ∉ f.value.getD []) (asked : List JPropertyRef)
    {rows : List QRow} (hr : ∀ row ∈ rows, row ∈ recordsRows) : Tidied exSem exReqEnv id 1 recordsKv (some (.last 7 .day)) fs asked rows where
  sem := exSem_ts
  project := by decide
  typed := records_typed
  dictionaries := records_dictionaries
  events _ _ := records_events
  range := by intro t ht; cases ht; intro n; simp
  clear := {
    nums f hf r _ n hm := absurd hm (hn f hf n)
    dicts f _ r dt hr _ := records_keyed hr dt
    fixed f hf r _ _ hpat := absurd hpat (hp f hf)
    apart f hf g _ r s _ _ _ hpat := absurd hpat (hp f hf) }
  number f hf _ _ _ hpat := absurd hpat (hp f hf)
  distinct _ _ _ _ _ _ ha hb h := records_distinct ha hb h
  tables f hf _ _ _ _ _ _ _ hpat := absurd hpat (hp f hf)
  keyed _ _ _ ha _ := keyed_of_coded (records_keyed ha .int64)
  moments row hrow x hx := by
    have := hr row hrow
    simp only [recordsRows, List.mem_cons, List.not_mem_nil, or_false] at this
    rcases this with rfl | rfl | rfl <;> (rw [records_created] at hx; exact ⟨-5, (Option.some.inj hx).symm⟩)
  stored row hrow f _ r hr' := records_value hr' (hr row hrow)
  values row hrow _ a _ ra ha := records_value ha (hr row hrow)

/-- The hypotheses hold of the example request. -/
example : Tidied exSem exReqEnv id 1 recordsKv (some recordsReq.time) (searchFilters recordsReq) (recordsReq.properties.getD []) recordsRows ∧
    (∃ ref ∈ recordsReq.properties.getD [], ColumnAt id 1 recordsKv ref "event_id".toList) ∧
    (∀ e ∈ recordsReq.events.getD [], (∃ n, e.event = .regular n) ∧ e.filters ≠ none) ∧ firstGroup recordsReq.filters = [] := by
  refine ⟨records_tidy ?_ ?_ _ fun _ h => h, ⟨_, List.mem_cons_self .., eventIdAt, records_id, by decide +kernel⟩, ?_, rfl⟩
  · simp [searchFilters, recordsReq, firstGroup, Pattern]
  · simp [searchFilters, recordsReq, firstGroup]
  · simp [recordsReq]

/-- It is answered with the purchases 3 and 1. -/
example : (search exReqEnv id 1 1 recordsKv recordsCols 0 recordsReq).toOption.map (fun c => (answer exSem 1 recordsKv List.reverse c recordsRows).map
    fun cs => cs.map fun x => (x.name, x.data)) = some (some [("Event ID".toList, [some (.int 3), some (.int 1)]),
      ("city".toList, [some (.str "Rome".toList), some (.str "Rome".toList)]), ("when".toList, [none, some (.ts 9)])]) := by decide +kernel

/-- All properties are asked for: columns are labelled with other properties (the project with the number, group 0 with the time), and
there are more columns than properties, which is a panic. -/
example : (search exReqEnv id 1 1 recordsKv recordsCols 0 { recordsReq with properties := none }).toOption.map (fun c =>
    ((c.shown.zip c.props).map (fun x => (x.1, x.2.name)), (answer exSem 1 recordsKv List.reverse c recordsRows).isSome)) =
    some ([("project_id".toList, "event_id".toList), ("group_0".toList, "when".toList), ("group_1".toList, "city".toList)], false) := by decide +kernel

/-- The number a row is sorted by; rows without one come last. -/
def numberOf (row : QRow) : Option Int := match row "event_id".toList with
  | some (.int x) => some x
  | _ => none

def sortLatest (l : List QRow) : List QRow := l.mergeSort fun a b => match numberOf a, numberOf b with
  | some x, some y => decide (y ≤ x)
  | some _, none => true
  | none, some _ => false
  | none, none => true

/-- Rows can be sorted so. -/
theorem latest_exists (l : List QRow) : (sortLatest l).Perm l ∧ LatestFirst (sortLatest l) := by
  refine ⟨List.mergeSort_perm _ _, ?_⟩
  unfold LatestFirst sortLatest
  refine List.Pairwise.imp ?_ (List.pairwise_mergeSort ?_ ?_ l)
  · intro a b h x y hx hy
    simp only [numberOf, hx, hy, decide_eq_true_eq] at h
    exact h
  · intro a b c h1 h2
    cases ha : numberOf a <;> cases hb : numberOf b <;> cases hc : numberOf c <;> simp_all
    omega
  · intro a b
    cases ha : numberOf a <;> cases hb : numberOf b <;> simp
    omega

/-- **C133 is violated**: the city of each purchase cannot be asked for, unless its number is. -/
theorem C133_violated : ¬ C133_full Int := by
  intro h
  cases hs : search exReqEnv id 1 1 recordsKv recordsCols 0 { recordsReq with properties := some [.event "city".toList] } with
  | error e =>
    have : (search exReqEnv id 1 1 recordsKv recordsCols 0 { recordsReq with properties := some [.event "city".toList] }).toOption.isSome = true := by decide +kernel
    rw [hs] at this
    cases this
  | ok c =>
    obtain ⟨f, t, cs, L, -, h2, -⟩ := h exSem exReqEnv id 1 1 recordsKv recordsCols 0 _ c hs _ latest_exists recordsRows (records_tidy (by simp [searchFilters, recordsReq, firstGroup, Pattern])
        (by simp [searchFilters, recordsReq, firstGroup]) _ fun _ h => h)
    rw [C133_panics exSem hs _ _ rfl (by simp)] at h2
    · cases h2
    · rintro ⟨ref, hm, r, hr, e⟩
      rw [List.mem_singleton] at hm
      subst hm
      cases Except.ok.inj (Eq.trans (Eq.symm hr) records_city)
      exact absurd e (by decide +kernel)

end OptiPrism.Platform
