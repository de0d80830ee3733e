import Verif.Platform.Single
import Verif.Platform.GroupSearchProps

/-!
# C136: one record by its number or name
-/

namespace OptiPrism.Platform

open OptiPrism.Meta (Str PropertyRef Kv Property PropType propsC kEvents dictGetValue dictGetKey)
open OptiPrism.Query
open OptiPrism.Ingest (groupCol)

variable {sys : Str → Str} {p : Nat} {kv : Kv} {tbl : List Str}

/-! ## Spec -/

/-- The properties listed are those found by name, and there are as many groups as there are tables for. -/
structure Listed (p : Nat) (kv : Kv) : Prop where
  events : ∃ l, (propsC p .event).list kv = .ok l ∧ ∀ r, r ∈ l ↔ ∃ n, PropertyAt p kv (.event n) r
  groups : ∀ g, g < groupsCount → ∃ l, (propsC p (.group g)).list kv = .ok l ∧ ∀ r, r ∈ l ↔ ∃ n, PropertyAt p kv (.group n g) r
  few : ∀ n g r, PropertyAt p kv (.group n g) r → g < groupsCount

/-- A record of the row: the properties of a table that have a column, with their values. -/
def RecordOf (sys : Str → Str) (p : Nat) (kv : Kv) (tbl : List Str) (own : JPropertyRef → Prop) (row : QRow) (rec : List (PropertyRef × Option Cell)) : Prop :=
  ∀ x, x ∈ rec ↔ ∃ ref r v, own ref ∧ PropertyAt p kv ref r ∧ r.columnName sys ∈ tbl ∧ ValueAt sys p kv (tableAt ref) r row v ∧ x = (propIn ref, v)

/-- Properties of events. -/
def EventProp (ref : JPropertyRef) : Prop := ∃ n, ref = .event n

/-- Properties of a group. -/
def GroupProp (g : Nat) (ref : JPropertyRef) : Prop := ∃ n, ref = .group n g

/-- A store and a row that make sense together. -/
structure Sound (sys : Str → Str) (p : Nat) (kv : Kv) (tbl : List Str) (own : JPropertyRef → Prop) (row : QRow) : Prop where
  project : p < 2 ^ 63
  listed : Listed p kv
  typed : Typed p kv
  plain : ∀ ref r, own ref → PropertyAt p kv ref r → r.columnName sys ∈ tbl → r.isArray = false
  distinct : ∀ a b ra rb, own a → own b → PropertyAt p kv a ra → PropertyAt p kv b rb → ra.columnName sys ∈ tbl → ra.columnName sys = rb.columnName sys → ra = rb
  shared : ∀ a ra, PropertyAt p kv a ra → ra.columnName sys ∈ tbl → ∃ b rb, own b ∧ PropertyAt p kv b rb ∧ rb.columnName sys = ra.columnName sys ∧
    (ra.isDictionary = true → rb.isDictionary = true)
  keyed : ∀ a ra, own a → PropertyAt p kv a ra → ra.isDictionary = true → ra.columnName sys ∈ tbl → Keyed p kv (tableAt a) (ra.columnName sys)
  values : ∀ a ra, own a → PropertyAt p kv a ra → ra.columnName sys ∈ tbl → ∃ v, ValueAt sys p kv (tableAt a) ra row v

/-- The row of the event with the number. -/
def EventWith (p id : Nat) (row : QRow) : Prop := Owned p row ∧ row "event_id".toList = some (.int (id : Int))

/-- The row of the group with the name: the value of its property `id`. -/
def GroupWith (sys : Str → Str) (p : Nat) (kv : Kv) (g : Nat) (name : Str) (row : QRow) : Prop :=
  Owned p row ∧ ∃ r, PropertyAt p kv (.group "id".toList g) r ∧ ValueAt sys p kv (groupCol g) r row (some (.str name))

/-- **C136.** Asked for an event by its number, or for a group by its name, the answer is the record of the row with all properties of its
table and their values, if there is such a row, and a refusal if there is none. -/
def C136_full : Prop :=
  ∀ (S : Sem) (junk : Str → Cell) (sys : Str → Str) (p : Nat) (kv : Kv) (tbl : List Str) (rows : List QRow),
    (∀ id, id < 2 ^ 63 →
      (∀ row ∈ rows, EventWith p id row → (∀ row' ∈ rows, EventWith p id row' → row' = row) → Sound sys p kv tbl EventProp row →
        ∃ rec, eventRecord S junk sys p kv tbl rows id = .ok rec ∧ RecordOf sys p kv tbl EventProp row rec) ∧
      ((∀ row ∈ rows, ¬ EventWith p id row) → eventRecord S junk sys p kv tbl rows id ≠ .error .panic)) ∧
    (∀ g name, ∀ row ∈ rows, GroupWith sys p kv g name row → (∀ row' ∈ rows, GroupWith sys p kv g name row' → row' = row) → Sound sys p kv tbl (GroupProp g) row →
      (∀ r, PropertyAt p kv (.group "id".toList g) r → r.columnName sys = "id".toList ∧ r.isDictionary = true ∧ ∃ dt, Coded p (groupCol g) "id".toList kv dt) →
        ∃ rec, groupRecord S junk sys p kv (some tbl) rows g name = .ok rec ∧ RecordOf sys p kv tbl (GroupProp g) row rec)

/-! ## Lists and names -/

/-- Stores reached by the application list what they find by name. -/
theorem listed_of_inv {Valid : Property → Prop} (hc : Meta.Clean kv) (h : ∀ ty, (propsC p ty).Inv Valid kv) (hf : ∀ n g r, PropertyAt p kv (.group n g) r → g < groupsCount) :
    Listed p kv := by
  have key : ∀ ty, ∃ l, (propsC p ty).list kv = .ok l ∧ ∀ r, r ∈ l ↔ ∃ n, (propsC p ty).getBy .name n kv = .ok r := by
    intro ty
    obtain ⟨l, h1, h2, -⟩ := Meta.list_spec hc (h ty)
    refine ⟨l, h1, fun r => ?_⟩
    rw [h2]
    have hi : ((.name, fun r => some r.name) : Meta.Ix × (Property → Option Str)) ∈ (propsC p ty).ixs := by simp [propsC]
    constructor
    · rintro ⟨id, hl⟩
      exact ⟨r.name, (Meta.getBy_eq (h ty) hi r.name (.ok r)).mpr (.inl ⟨id, r, hl, rfl, rfl⟩)⟩
    · rintro ⟨n, hn⟩
      rcases (Meta.getBy_eq (h ty) hi n (.ok r)).mp hn with ⟨id, r', hl, -, e⟩ | ⟨-, e⟩
      · cases e; exact ⟨id, hl⟩
      · cases e
  exact ⟨key .event, fun g _ => key (.group g), hf⟩

/-! ## Decoding by the first entry -/

theorem decodeRow_first {ds : List (Str × Str)} {row : QRow} (h : ∀ d ∈ ds, ∀ x, ds.find? (fun y => y.1 = d.1) = some x → ∃ y, decodeCell p kv x.2 x.1 (row x.1) = some y) :
    ∃ row', decodeRow p kv ds row = some row' ∧ ∀ c, row' c = match ds.find? fun x => x.1 = c with
      | none => row c
      | some x => (decodeCell p kv x.2 x.1 (row c)).getD none := by
  unfold decodeRow
  rw [if_pos]
  · exact ⟨_, rfl, fun _ => rfl⟩
  · rw [List.all_eq_true]
    intro d hd
    cases hf : ds.find? fun x => x.1 = d.1 with
    | none => rfl
    | some x =>
      obtain ⟨y, hy⟩ := h d hd x hf
      simp only [hy, Option.isSome_some]

theorem decodeRows_same {ds : List (Str × Str)} {row row' : QRow} (h : decodeRow p kv ds row = some row') {L : List QRow} (hL : ∀ x ∈ L, x = row) (hne : L ≠ []) :
    ∃ out, decodeRows p kv ds L = some out ∧ out.head? = some row' := by
  have all : ∀ L : List QRow, (∀ x ∈ L, x = row) → ∃ out, decodeRows p kv ds L = some out := by
    intro L
    induction L with
    | nil => intro _; exact ⟨[], rfl⟩
    | cons a L ih =>
      intro hL
      obtain ⟨out, ho⟩ := ih fun x hx => hL x (List.mem_cons_of_mem _ hx)
      refine ⟨row' :: out, ?_⟩
      unfold decodeRows at ho ⊢
      rw [List.mapM_cons, hL a List.mem_cons_self, h, ho]
      rfl
  cases L with
  | nil => exact (hne rfl).elim
  | cons a L =>
    obtain ⟨out, ho⟩ := all L fun x hx => hL x (List.mem_cons_of_mem _ hx)
    refine ⟨row' :: out, ?_, rfl⟩
    unfold decodeRows at ho ⊢
    rw [List.mapM_cons, hL a List.mem_cons_self, h, ho]
    rfl

/-- The values of a row that is found, with what is shown of missing ones. -/
theorem values_found {own : List Property} {t : Str} {ds : List (Str × Str)} {row : QRow}
    (hd : ∀ r ∈ own, r.columnName sys ∈ tbl → r.isDictionary = true → ds.find? (fun y => y.1 = r.columnName sys) = some (r.columnName sys, t))
    (hn : ∀ d ∈ ds, d.1 ∈ tbl ∧ ∃ r ∈ own, r.isDictionary = true ∧ r.columnName sys = d.1)
    (distinct : ∀ r ∈ own, ∀ s ∈ own, r.columnName sys ∈ tbl → r.columnName sys = s.columnName sys → r = s)
    (keyed : ∀ r ∈ own, r.isDictionary = true → r.columnName sys ∈ tbl → Keyed p kv t (r.columnName sys))
    (values : ∀ r ∈ own, r.columnName sys ∈ tbl → ∃ v, ValueAt sys p kv t r row v) :
    ∃ row', decodeRow p kv ds row = some row' ∧ ∀ r ∈ own, r.columnName sys ∈ tbl → ∀ v, ValueAt sys p kv t r row v → row' (r.columnName sys) = v := by
  have cell : ∀ r ∈ own, r.columnName sys ∈ tbl → r.isDictionary = true → ∀ v, ValueAt sys p kv t r row v →
      decodeCell p kv t (r.columnName sys) (row (r.columnName sys)) = some v := fun r hr ht hdi v hv => decodeCell_value hdi hv (keyed r hr hdi ht)
  obtain ⟨row', h1, h2⟩ := decodeRow_first (p := p) (kv := kv) (ds := ds) (row := row) (by
    intro d hdm x hx
    obtain ⟨ht, r, hr, hdi, e⟩ := hn d hdm
    rw [← e] at hx ht
    rw [hd r hr ht hdi] at hx
    cases hx
    obtain ⟨v, hv⟩ := values r hr ht
    exact ⟨v, cell r hr ht hdi v hv⟩)
  refine ⟨row', h1, fun r hr ht v hv => ?_⟩
  rw [h2]
  by_cases hdi : r.isDictionary = true
  · rw [hd r hr ht hdi]
    simp only [cell r hr ht hdi v hv, Option.getD_some]
  · have : ds.find? (fun y => y.1 = r.columnName sys) = none := by
      rw [List.find?_eq_none]
      intro d hdm e
      have e := of_decide_eq_true e
      obtain ⟨-, s, hs, hsd, es⟩ := hn d hdm
      have := distinct r hr s hs ht (by rw [es, e])
      rw [this] at hdi
      exact hdi hsd
    rw [this]
    unfold ValueAt at hv
    rw [if_neg hdi] at hv
    exact hv.symm

/-- The record of a row that is found. -/
theorem record_found {own : List Property} {label : Str → Option Property} (junk : Str → Cell) {out : List QRow} {row' : QRow} (ho : out.head? = some row')
    (hl : ∀ c ∈ tbl, ∀ r, label c = some r ↔ r ∈ own ∧ r.columnName sys = c) (plain : ∀ r ∈ own, r.columnName sys ∈ tbl → r.isArray = false) :
    ∃ rec, recordValues junk label tbl out = some rec ∧
      ∀ x, x ∈ rec ↔ ∃ r ∈ own, r.columnName sys ∈ tbl ∧ x = (reference r, some ((row' (r.columnName sys)).getD (junk (r.columnName sys)))) := by
  have hmem : ∀ y, y ∈ (tbl.filterMap fun c => (label c).map fun r => (c, r)) ↔ y.1 ∈ tbl ∧ y.2 ∈ own ∧ y.2.columnName sys = y.1 := by
    intro y
    simp only [List.mem_filterMap, Option.map_eq_some_iff]
    constructor
    · rintro ⟨c, hc, r, hr, rfl⟩
      obtain ⟨a, b⟩ := (hl c hc r).mp hr
      exact ⟨hc, a, b⟩
    · rintro ⟨hc, hr, e⟩
      exact ⟨y.1, hc, y.2, (hl y.1 hc y.2).mpr ⟨hr, e⟩, rfl⟩
  cases hm : recordValues junk label tbl out with
  | none =>
    exfalso
    have : ∀ l : List (Str × Property), (∀ y ∈ l, y.2.isArray = false) →
        ∃ bs, (l.mapM fun x => if x.2.isArray then none else out.head?.map fun row => (reference x.2, some ((row x.1).getD (junk x.1)))) = some bs := by
      intro l hplain
      refine ⟨l.map fun x => (reference x.2, some ((row' x.1).getD (junk x.1))), ?_⟩
      rw [← mapM_some_map]
      induction l with
      | nil => rfl
      | cons a l ih =>
        rw [List.mapM_cons, List.mapM_cons, ih fun y hy => hplain y (List.mem_cons_of_mem _ hy), hplain a List.mem_cons_self, ho]
        rfl
    obtain ⟨bs, hb⟩ := this _ fun y hy => by
      obtain ⟨a, b, c⟩ := (hmem y).mp hy
      exact plain y.2 b (by rw [c]; exact a)
    unfold recordValues at hm
    rw [hb] at hm
    cases hm
  | some rec =>
    refine ⟨rec, rfl, fun x => ?_⟩
    rw [mapM_mem_iff hm]
    constructor
    · rintro ⟨y, hy, e⟩
      obtain ⟨a, b, c⟩ := (hmem y).mp hy
      rw [plain y.2 b (by rw [c]; exact a), ho] at e
      cases e
      refine ⟨y.2, b, by rw [c]; exact a, ?_⟩
      rw [c]
    · rintro ⟨r, hr, ht, rfl⟩
      refine ⟨(r.columnName sys, r), (hmem _).mpr ⟨ht, hr, rfl⟩, ?_⟩
      rw [plain r hr ht, ho]
      rfl

/-- What is shown of the row: as a record, but for missing values whatever is in the buffer. -/
def ShownOf (junk : Str → Cell) (sys : Str → Str) (p : Nat) (kv : Kv) (tbl : List Str) (own : JPropertyRef → Prop) (row : QRow) (rec : List (PropertyRef × Option Cell)) : Prop :=
  ∀ x, x ∈ rec ↔ ∃ ref r v, own ref ∧ PropertyAt p kv ref r ∧ r.columnName sys ∈ tbl ∧ ValueAt sys p kv (tableAt ref) r row v ∧
    x = (propIn ref, some (v.getD (junk (r.columnName sys))))

theorem ShownOf.record {junk : Str → Cell} {own : JPropertyRef → Prop} {row : QRow} {rec : List (PropertyRef × Option Cell)} (h : ShownOf junk sys p kv tbl own row rec)
    (hv : ∀ a ra, own a → PropertyAt p kv a ra → ra.columnName sys ∈ tbl → ¬ ValueAt sys p kv (tableAt a) ra row none) : RecordOf sys p kv tbl own row rec := by
  intro x
  rw [h x]
  constructor
  · rintro ⟨ref, r, v, h1, h2, h3, h4, rfl⟩
    cases v with
    | none => exact absurd h4 (hv ref r h1 h2 h3)
    | some v => exact ⟨ref, r, _, h1, h2, h3, h4, rfl⟩
  · rintro ⟨ref, r, v, h1, h2, h3, h4, rfl⟩
    cases v with
    | none => exact absurd h4 (hv ref r h1 h2 h3)
    | some v => exact ⟨ref, r, _, h1, h2, h3, h4, rfl⟩

/-- The answer of a table whose own properties are `own`. -/
theorem shown_of (junk : Str → Cell) {own : JPropertyRef → Prop} {l : List Property} {t : Str} (hl : ∀ r, r ∈ l ↔ ∃ ref, own ref ∧ PropertyAt p kv ref r)
    (ht : ∀ ref, own ref → tableAt ref = t) {row : QRow} (T : Sound sys p kv tbl own row) {ds : List (Str × Str)}
    (hd : ∀ r ∈ l, r.columnName sys ∈ tbl → r.isDictionary = true → ds.find? (fun y => y.1 = r.columnName sys) = some (r.columnName sys, t))
    (hn : ∀ d ∈ ds, d.1 ∈ tbl ∧ ∃ r ∈ l, r.isDictionary = true ∧ r.columnName sys = d.1) {label : Str → Option Property}
    (hlab : ∀ c ∈ tbl, ∀ r, label c = some r ↔ r ∈ l ∧ r.columnName sys = c) {L : List QRow} (hL : ∀ x ∈ L, x = row) (hne : L ≠ []) :
    ∃ out rec, decodeRows p kv ds L = some out ∧ recordValues junk label tbl out = some rec ∧ ShownOf junk sys p kv tbl own row rec := by
  obtain ⟨row', h1, h2⟩ := values_found (row := row) hd hn
    (fun r hr s hs => by
      obtain ⟨a, o1, a1⟩ := (hl r).mp hr
      obtain ⟨b, o2, b1⟩ := (hl s).mp hs
      exact T.distinct a b r s o1 o2 a1 b1)
    (fun r hr hdi hm => by
      obtain ⟨a, o1, a1⟩ := (hl r).mp hr
      rw [← ht a o1]
      exact T.keyed a r o1 a1 hdi hm)
    (fun r hr hm => by
      obtain ⟨a, o1, a1⟩ := (hl r).mp hr
      rw [← ht a o1]
      exact T.values a r o1 a1 hm)
  obtain ⟨out, h3, h4⟩ := decodeRows_same h1 hL hne
  obtain ⟨rec, h5, h6⟩ := record_found junk h4 hlab fun r hr hm => by
    obtain ⟨a, o1, a1⟩ := (hl r).mp hr
    exact T.plain a r o1 a1 hm
  refine ⟨out, rec, h3, h5, fun x => ?_⟩
  rw [h6 x]
  constructor
  · rintro ⟨r, hr, hm, rfl⟩
    obtain ⟨a, o1, a1⟩ := (hl r).mp hr
    obtain ⟨v, hv⟩ := T.values a r o1 a1 hm
    refine ⟨a, r, v, o1, a1, hm, hv, ?_⟩
    rw [ht a o1] at hv
    rw [h2 r hr hm v hv, T.typed.reference a1]
  · rintro ⟨a, r, v, o1, a1, hm, hv, rfl⟩
    have hr := (hl r).mpr ⟨a, o1, a1⟩
    refine ⟨r, hr, hm, ?_⟩
    rw [ht a o1] at hv
    rw [h2 r hr hm v hv, T.typed.reference a1]

theorem kept_same {S : Sem} {f : Expr} {rows : List QRow} {row : QRow} {A : QRow → Prop} (hf : ∀ x, Selects S x f ↔ A x) (hrow : row ∈ rows) (hA : A row)
    (hone : ∀ x ∈ rows, A x → x = row) : (∀ x ∈ kept S f rows, x = row) ∧ kept S f rows ≠ [] := by
  have hm : ∀ x, x ∈ kept S f rows ↔ x ∈ rows ∧ A x := by
    intro x
    unfold kept
    rw [List.mem_filter, ← hf x]
    simp only [Selects, beq_iff_eq]
  refine ⟨fun x hx => ?_, fun h => ?_⟩
  · obtain ⟨a, b⟩ := (hm x).mp hx
    exact hone x a b
  · have := (hm row).mpr ⟨hrow, hA⟩
    rw [h] at this
    cases this

theorem firstWith_iff {l : List Property} {c : Str} (distinct : ∀ r ∈ l, ∀ s ∈ l, r.columnName sys ∈ tbl → r.columnName sys = s.columnName sys → r = s) (hc : c ∈ tbl) (r : Property) :
    firstWith sys c l = some r ↔ r ∈ l ∧ r.columnName sys = c := by
  unfold firstWith
  constructor
  · intro h
    exact ⟨List.mem_of_find?_eq_some h, by simpa using List.find?_some h⟩
  · rintro ⟨hr, e⟩
    cases h : l.find? fun r => r.columnName sys = c with
    | none => exact absurd (decide_eq_true e) (List.find?_eq_none.mp h r hr)
    | some s =>
      have hs : s.columnName sys = c := by simpa using List.find?_some h
      rw [distinct r hr s (List.mem_of_find?_eq_some h) (by rw [e]; exact hc) (by rw [e, hs])]

theorem mem_afterAll {t : Property → Str} {props : List Property} (d : Str × Str) :
    d ∈ decodedAfter sys t [] tbl props ↔ ∃ r ∈ props, r.isDictionary = true ∧ r.columnName sys ∈ tbl ∧ d = (r.columnName sys, t r) := by
  unfold decodedAfter
  simp only [List.mem_filter, List.mem_map, List.contains_nil, Bool.not_false, Bool.and_true, List.contains_iff_mem]
  constructor
  · rintro ⟨⟨r, ⟨hr, hd⟩, rfl⟩, hc⟩
    exact ⟨r, hr, hd, hc, rfl⟩
  · rintro ⟨r, hr, hd, hc, rfl⟩
    exact ⟨⟨r, ⟨hr, hd⟩, rfl⟩, hc⟩

theorem decodedAfter_append {t : Property → Str} (a b : List Property) :
    decodedAfter sys t [] tbl (a ++ b) = decodedAfter sys t [] tbl a ++ decodedAfter sys t [] tbl b := by
  simp [decodedAfter]

theorem find_after {t : Property → Str} {props : List Property} {u : Str} (ht : ∀ r ∈ props, t r = u) {r : Property} (hr : r ∈ props) (hc : r.columnName sys ∈ tbl) (hd : r.isDictionary = true) :
    (decodedAfter sys t [] tbl props).find? (fun y => y.1 = r.columnName sys) = some (r.columnName sys, u) := by
  cases h : (decodedAfter sys t [] tbl props).find? (fun y => y.1 = r.columnName sys) with
  | none => exact absurd (decide_eq_true rfl) (List.find?_eq_none.mp h _ ((mem_afterAll _).mpr ⟨r, hr, hd, hc, rfl⟩))
  | some d =>
    have e : d.1 = r.columnName sys := by simpa using List.find?_some h
    obtain ⟨s, hs, -, -, rfl⟩ := (mem_afterAll d).mp (List.mem_of_find?_eq_some h)
    rw [show s.columnName sys = r.columnName sys from e, ht s hs]

theorem fold_found {c : Str} {gs : List (List Property)} {r : Property} {a : Option Property}
    (h : gs.foldl (fun found l => match firstWith sys c l with | some r => some r | none => found) a = some r) : a = some r ∨ ∃ l ∈ gs, firstWith sys c l = some r := by
  induction gs generalizing a with
  | nil => exact .inl h
  | cons l gs ih =>
    rw [List.foldl_cons] at h
    rcases ih h with h | ⟨l', hl, h⟩
    · split at h
      · rename_i r' hr
        cases h
        exact .inr ⟨l, List.mem_cons_self, hr⟩
      · exact .inl h
    · exact .inr ⟨l', List.mem_cons_of_mem _ hl, h⟩

theorem collect_every {α β : Type} {f : α → Except QErr β} {l : List α} (h : ∀ a ∈ l, ∃ b, f a = .ok b) : ∃ bs, collect f l = .ok bs := by
  induction l with
  | nil => exact ⟨[], rfl⟩
  | cons a l ih =>
    obtain ⟨b, hb⟩ := h a List.mem_cons_self
    obtain ⟨bs, hbs⟩ := ih fun x hx => h x (List.mem_cons_of_mem _ hx)
    exact ⟨b :: bs, by unfold collect; rw [hb, hbs]⟩

/-! ## Theorems -/

/-- **C136, events.** What is shown of an event that exists. -/
theorem C136_event (S : Sem) (junk : Str → Cell) {rows : List QRow} {id : Nat} (hid : id < 2 ^ 63) {row : QRow} (hrow : row ∈ rows) (hw : EventWith p id row)
    (hone : ∀ row' ∈ rows, EventWith p id row' → row' = row) (T : Sound sys p kv tbl EventProp row) :
    ∃ rec, eventRecord S junk sys p kv tbl rows id = .ok rec ∧ ShownOf junk sys p kv tbl EventProp row rec := by
  obtain ⟨f, hf, -⟩ := (C118_by_id S row T.project hid).1
  have hsel : ∀ x, Selects S x f ↔ EventWith p id x := by
    intro x
    obtain ⟨f', hf', hx⟩ := (C118_by_id S x T.project hid).1
    rw [hf] at hf'
    cases hf'
    exact hx
  obtain ⟨k1, k2⟩ := kept_same hsel hrow hw hone
  obtain ⟨es, he, hes⟩ := T.listed.events
  have hgroup : ∀ g ∈ List.range groupsCount, ∃ l, ofStore ((propsC p (.group g)).list kv) = .ok l := by
    intro g hg
    obtain ⟨l, hl, -⟩ := T.listed.groups g (List.mem_range.mp hg)
    exact ⟨l, by rw [hl]; rfl⟩
  obtain ⟨gs, hgs⟩ := collect_every hgroup
  have hgmem : ∀ l ∈ gs, ∀ r ∈ l, ∃ n g, PropertyAt p kv (.group n g) r := by
    intro l hl r hr
    obtain ⟨g, hgm, hg⟩ := (collect_spec hgs).2.1 l hl
    obtain ⟨l', hl', hm⟩ := T.listed.groups g (List.mem_range.mp hgm)
    rw [hl'] at hg
    cases hg
    obtain ⟨n, hn⟩ := (hm r).mp hr
    exact ⟨n, g, hn⟩
  have hown : ∀ r, r ∈ es ↔ ∃ ref, EventProp ref ∧ PropertyAt p kv ref r := by
    intro r
    rw [hes]
    constructor
    · rintro ⟨n, h⟩
      exact ⟨_, ⟨n, rfl⟩, h⟩
    · rintro ⟨ref, ⟨n, rfl⟩, h⟩
      exact ⟨n, h⟩
  have htab : ∀ r ∈ es, eventTable r = kEvents := by
    intro r hr
    obtain ⟨n, hn⟩ := (hes r).mp hr
    have := T.typed _ r hn
    unfold eventTable
    cases ht : r.typ with
    | event => rfl
    | group g => rw [ht] at this; cases this
  have hdist : ∀ r ∈ es, ∀ s ∈ es, r.columnName sys ∈ tbl → r.columnName sys = s.columnName sys → r = s := by
    intro r hr s hs
    obtain ⟨n, hn⟩ := (hes r).mp hr
    obtain ⟨m, hm⟩ := (hes s).mp hs
    exact T.distinct _ _ r s ⟨n, rfl⟩ ⟨m, rfl⟩ hn hm
  obtain ⟨out, rec, h1, h2, h3⟩ := shown_of (t := kEvents) junk hown (by rintro ref ⟨n, rfl⟩; rfl) T
    (ds := decodedAfter sys eventTable [] tbl (es ++ gs.flatten)) (label := eventLabel sys es gs)
    (fun r hr hc hd => by
      rw [decodedAfter_append, List.find?_append, find_after htab hr hc hd]
      rfl)
    (fun d hd => by
      obtain ⟨r, hr, hdi, hc, rfl⟩ := (mem_afterAll d).mp hd
      refine ⟨hc, ?_⟩
      rcases List.mem_append.mp hr with hr | hr
      · exact ⟨r, hr, hdi, rfl⟩
      · obtain ⟨l, hl, hr⟩ := List.mem_flatten.mp hr
        obtain ⟨n, g, hn⟩ := hgmem l hl r hr
        obtain ⟨b, s, o, hb, e, hi⟩ := T.shared _ r hn hc
        exact ⟨s, (hown s).mpr ⟨b, o, hb⟩, hi hdi, e⟩)
    (fun c hc r => by
      unfold eventLabel
      cases hfw : firstWith sys c es with
      | some s =>
        dsimp only
        rw [← firstWith_iff hdist hc r, hfw]
      | none =>
        dsimp only
        have no : ∀ s ∈ es, s.columnName sys ≠ c := by
          intro s hs e
          rw [(firstWith_iff hdist hc s).mpr ⟨hs, e⟩] at hfw
          cases hfw
        constructor
        · intro h
          rcases fold_found h with h | ⟨l, hl, h⟩
          · cases h
          · obtain ⟨n, g, hn⟩ := hgmem l hl r (List.mem_of_find?_eq_some h)
            have e : r.columnName sys = c := by simpa using List.find?_some h
            obtain ⟨b, s, o, hb, e', -⟩ := T.shared _ r hn (by rw [e]; exact hc)
            exact absurd (e'.trans e) (no s ((hown s).mpr ⟨b, o, hb⟩))
        · rintro ⟨hr, e⟩
          exact absurd e (no r hr)) k1 k2
  refine ⟨rec, ?_, h3⟩
  unfold eventRecord recordRows
  rw [hf, he, hgs]
  simp only [ofStore, Bind.bind, Except.bind, h1, orCrash, h2]

/-- **C136, groups.** What is shown of a group that exists. -/
theorem C136_group (S : Sem) (junk : Str → Cell) {rows : List QRow} {g : Nat} {name : Str} {row : QRow} (hrow : row ∈ rows) (hw : GroupWith sys p kv g name row)
    (hone : ∀ row' ∈ rows, GroupWith sys p kv g name row' → row' = row) (T : Sound sys p kv tbl (GroupProp g) row)
    (hc : ∀ r, PropertyAt p kv (.group "id".toList g) r → r.columnName sys = "id".toList ∧ r.isDictionary = true ∧ ∃ dt, Coded p (groupCol g) "id".toList kv dt) :
    ∃ rec, groupRecord S junk sys p kv (some tbl) rows g name = .ok rec ∧ ShownOf junk sys p kv tbl (GroupProp g) row rec := by
  obtain ⟨hwo, ri, hri, hvi⟩ := hw
  obtain ⟨c1, c2, dt, c3⟩ := hc ri hri
  have hval : ∀ x k, dictGetKey p (groupCol g) "id".toList name kv = .ok k → (ValueAt sys p kv (groupCol g) ri x (some (.str name)) ↔ x "id".toList = some (.int (k : Int))) := by
    intro x k hk
    unfold ValueAt
    rw [if_pos c2, c1]
    constructor
    · rintro (⟨-, e⟩ | ⟨k', s, e1, e2, e3⟩)
      · cases e
      · cases e3
        rw [(c3.both name k').mpr e2] at hk
        cases hk
        exact e1
    · intro h
      exact .inr ⟨k, name, h, (c3.both name k).mp hk, rfl⟩
  have hkey : ∃ k, dictGetKey p (groupCol g) "id".toList name kv = .ok k ∧ k < 2 ^ 63 := by
    unfold ValueAt at hvi
    rw [if_pos c2, c1] at hvi
    rcases hvi with ⟨-, e⟩ | ⟨k, s, -, e2, e3⟩
    · cases e
    · cases e3
      have := (c3.both name k).mpr e2
      exact ⟨k, this, (c3.room name k this).2⟩
  obtain ⟨k, hk, hk63⟩ := hkey
  obtain ⟨f, hf, -⟩ := (C118_by_id S row T.project hk63).2
  have hsel : ∀ x, Selects S x f ↔ GroupWith sys p kv g name x := by
    intro x
    obtain ⟨f', hf', hx⟩ := (C118_by_id S x T.project hk63).2
    rw [hf] at hf'
    cases hf'
    rw [hx, ← hval x k hk]
    constructor
    · rintro ⟨a, b⟩
      exact ⟨a, ri, hri, b⟩
    · rintro ⟨a, r, hr, b⟩
      rw [propertyAt_unique hri hr] at b
      exact ⟨a, b⟩
  obtain ⟨k1, k2⟩ := kept_same hsel hrow ⟨hwo, ri, hri, hvi⟩ hone
  have hg := T.listed.few _ g ri hri
  obtain ⟨ps, hp, hps⟩ := T.listed.groups g hg
  have hown : ∀ r, r ∈ ps ↔ ∃ ref, GroupProp g ref ∧ PropertyAt p kv ref r := by
    intro r
    rw [hps]
    constructor
    · rintro ⟨n, h⟩
      exact ⟨_, ⟨n, rfl⟩, h⟩
    · rintro ⟨ref, ⟨n, rfl⟩, h⟩
      exact ⟨n, h⟩
  obtain ⟨out, rec, h1, h2, h3⟩ := shown_of (t := groupCol g) junk hown (by rintro ref ⟨n, rfl⟩; rfl) T
    (ds := decodedAfter sys (fun _ => groupCol g) [] tbl ps) (label := fun c => firstWith sys c ps)
    (fun r hr hc hd => find_after (fun _ _ => rfl) hr hc hd)
    (fun d hd => by
      obtain ⟨r, hr, hdi, hc, rfl⟩ := (mem_afterAll d).mp hd
      exact ⟨hc, r, hr, hdi, rfl⟩)
    (fun c hc r => firstWith_iff (fun r hr s hs => by
      obtain ⟨n, hn⟩ := (hps r).mp hr
      obtain ⟨m, hm⟩ := (hps s).mp hs
      exact T.distinct _ _ r s ⟨n, rfl⟩ ⟨m, rfl⟩ hn hm) hc r) k1 k2
  refine ⟨rec, ?_, h3⟩
  have hfind : findProp .plan p kv (.group kIdCol g) = .ok ri := by
    rw [kIdCol_eq]
    show (if g < groupsCount then ofStore ((propsC p (.group g)).getBy .name "id".toList kv) else .error .panic) = _
    rw [if_pos hg, show (propsC p (.group g)).getBy .name "id".toList kv = .ok ri from hri]
    rfl
  unfold groupRecord recordRows
  simp only [groupTable, Bind.bind, Except.bind, hfind, c1, hk, ofStore, hf, hp, h1, orCrash, h2]

/-- **C136 (part).** Where no value is missing. Missing: rows with missing values, and events that do not exist. -/
theorem C136_partial (S : Sem) (junk : Str → Cell) {rows : List QRow} {row : QRow} (hrow : row ∈ rows) :
    (∀ id, id < 2 ^ 63 → EventWith p id row → (∀ row' ∈ rows, EventWith p id row' → row' = row) → Sound sys p kv tbl EventProp row →
      (∀ a ra, EventProp a → PropertyAt p kv a ra → ra.columnName sys ∈ tbl → ¬ ValueAt sys p kv (tableAt a) ra row none) →
      ∃ rec, eventRecord S junk sys p kv tbl rows id = .ok rec ∧ RecordOf sys p kv tbl EventProp row rec) ∧
    (∀ g name, GroupWith sys p kv g name row → (∀ row' ∈ rows, GroupWith sys p kv g name row' → row' = row) → Sound sys p kv tbl (GroupProp g) row →
      (∀ r, PropertyAt p kv (.group "id".toList g) r → r.columnName sys = "id".toList ∧ r.isDictionary = true ∧ ∃ dt, Coded p (groupCol g) "id".toList kv dt) →
      (∀ a ra, GroupProp g a → PropertyAt p kv a ra → ra.columnName sys ∈ tbl → ¬ ValueAt sys p kv (tableAt a) ra row none) →
      ∃ rec, groupRecord S junk sys p kv (some tbl) rows g name = .ok rec ∧ RecordOf sys p kv tbl (GroupProp g) row rec) := by
  refine ⟨fun id hid hw hone T hv => ?_, fun g name hw hone T hc hv => ?_⟩
  · obtain ⟨rec, h1, h2⟩ := C136_event S junk hid hrow hw hone T
    exact ⟨rec, h1, h2.record hv⟩
  · obtain ⟨rec, h1, h2⟩ := C136_group S junk hrow hw hone T hc
    exact ⟨rec, h1, h2.record hv⟩

/-- **C136 is violated**: an event that does not exist is a panic, whenever a column of the table belongs to a property. -/
theorem C136_unknown (S : Sem) (junk : Str → Cell) (hp : p < 2 ^ 63) {rows : List QRow} {id : Nat} (hid : id < 2 ^ 63) (hno : ∀ row ∈ rows, ¬ EventWith p id row) (hl : Listed p kv)
    {n : Str} {r : Property} (hr : PropertyAt p kv (.event n) r) (hc : r.columnName sys ∈ tbl) : eventRecord S junk sys p kv tbl rows id = .error .panic := by
  obtain ⟨f, hf, -⟩ := (C118_by_id S (fun _ => none) hp hid).1
  have hkept : kept S f rows = [] := by
    rw [List.eq_nil_iff_forall_not_mem]
    intro x hx
    unfold kept at hx
    rw [List.mem_filter, beq_iff_eq] at hx
    obtain ⟨f', hf', hx'⟩ := (C118_by_id S x hp hid).1
    rw [hf] at hf'
    cases hf'
    exact hno x hx.1 (hx'.mp hx.2)
  obtain ⟨es, he, hes⟩ := hl.events
  obtain ⟨gs, hgs⟩ := collect_every (l := List.range groupsCount) (f := fun g => ofStore ((propsC p (.group g)).list kv)) (by
    intro g hg
    obtain ⟨l, hl, -⟩ := hl.groups g (List.mem_range.mp hg)
    exact ⟨l, by rw [hl]; rfl⟩)
  have hrec : recordValues junk (eventLabel sys es gs) tbl [] = none := by
    cases hm : recordValues junk (eventLabel sys es gs) tbl [] with
    | none => rfl
    | some rec =>
      have hlab : ∃ s, eventLabel sys es gs (r.columnName sys) = some s := by
        unfold eventLabel
        cases h : firstWith sys (r.columnName sys) es with
        | some s => exact ⟨s, rfl⟩
        | none => exact absurd (decide_eq_true rfl) (List.find?_eq_none.mp h r ((hes r).mpr ⟨n, hr⟩))
      obtain ⟨s, hs⟩ := hlab
      have : (r.columnName sys, s) ∈ tbl.filterMap fun c => (eventLabel sys es gs c).map fun r => (c, r) :=
        List.mem_filterMap.mpr ⟨_, hc, by rw [hs]; rfl⟩
      obtain ⟨b, -, hb⟩ := mapM_back hm this
      split at hb <;> cases hb
  unfold eventRecord recordRows
  rw [hf, he, hgs]
  simp only [ofStore, Bind.bind, Except.bind, hkept]
  rw [show decodeRows p kv (decodedAfter sys eventTable [] tbl (es ++ gs.flatten)) [] = some [] from rfl]
  simp only [orCrash, hrec]

/-! ## Cases -/

/-- The lists hold what is found by name, as far as the keys of the store go. -/
def listedPass (p : Nat) (kv : Kv) : Bool :=
  (match (propsC p .event).list kv with
    | .ok l => l.all fun r => ((propsC p .event).getBy .name r.name kv).toOption == some r
    | .error _ => false) &&
  ((List.range groupsCount).all fun g => match (propsC p (.group g)).list kv with
    | .ok l => l.all fun r => ((propsC p (.group g)).getBy .name r.name kv).toOption == some r
    | .error _ => false) &&
  propsPass p kv fun ty _ r => match ty with
    | .event => match (propsC p .event).list kv with
      | .ok l => l.contains r
      | .error _ => false
    | .group g => decide (g < groupsCount) && match (propsC p (.group g)).list kv with
      | .ok l => l.contains r
      | .error _ => false

theorem listed_pass (h : listedPass p kv = true) : Listed p kv := by
  unfold listedPass at h
  rw [Bool.and_eq_true, Bool.and_eq_true] at h
  obtain ⟨⟨h1, h2⟩, h3⟩ := h
  refine ⟨?_, fun g hg => ?_, fun n g r hr => ?_⟩
  · cases hl : (propsC p .event).list kv with
    | error e => rw [hl] at h1; cases h1
    | ok l =>
      rw [hl] at h1
      refine ⟨l, rfl, fun r => ⟨fun hr => ⟨r.name, ok_of (by simpa using List.all_eq_true.mp h1 r hr)⟩, ?_⟩⟩
      rintro ⟨n, hn⟩
      have := propertyAt_pass h3 hn
      simp only [hl] at this
      exact List.contains_iff_mem.mp this
  · have h2 := List.all_eq_true.mp h2 g (List.mem_range.mpr hg)
    cases hl : (propsC p (.group g)).list kv with
    | error e => rw [hl] at h2; cases h2
    | ok l =>
      rw [hl] at h2
      refine ⟨l, rfl, fun r => ⟨fun hr => ⟨r.name, ok_of (by simpa using List.all_eq_true.mp h2 r hr)⟩, ?_⟩⟩
      rintro ⟨n, hn⟩
      have := propertyAt_pass h3 hn
      simp only [hl, Bool.and_eq_true] at this
      exact List.contains_iff_mem.mp this.2
  · have := propertyAt_pass h3 hr
    simp only [Bool.and_eq_true, decide_eq_true_eq] at this
    exact this.1

theorem records_listed : Listed 1 recordsKv := listed_pass (by decide +kernel)

theorem recordsRow_with (i : Nat) (a b : Option Int) : EventWith 1 i (recordsRow i a b) :=
  ⟨by unfold Owned recordsRow; rw [if_neg (by decide +kernel)]; rfl, by unfold recordsRow; rw [if_pos rfl]⟩

/-- An event of the example store. -/
theorem records_whole {a : Option Int} (ha : a = none ∨ a = some 1) {i : Nat} : Sound id 1 recordsKv recordsCols EventProp (recordsRow i a (some 5)) where
  project := by decide
  listed := records_listed
  typed := records_typed
  plain ref r _ h _ := by rcases records_prop h with ⟨-, rfl⟩ | ⟨-, rfl⟩ | ⟨-, rfl⟩ <;> rfl
  distinct a b ra rb _ _ h1 h2 _ e := by
    have n1 : cityAt.columnName id ≠ whenAt.columnName id := by decide +kernel
    have n2 : cityAt.columnName id ≠ eventIdAt.columnName id := by decide +kernel
    have n3 : whenAt.columnName id ≠ eventIdAt.columnName id := by decide +kernel
    rcases records_prop h1 with ⟨-, rfl⟩ | ⟨-, rfl⟩ | ⟨-, rfl⟩ <;> rcases records_prop h2 with ⟨-, rfl⟩ | ⟨-, rfl⟩ | ⟨-, rfl⟩ <;>
      first | rfl | exact absurd e n1 | exact absurd e n2 | exact absurd e n3 | exact absurd e.symm n1 | exact absurd e.symm n2 | exact absurd e.symm n3
  shared a ra h _ := by
    refine ⟨a, ra, ?_, h, rfl, fun h => h⟩
    rcases records_prop h with ⟨rfl, -⟩ | ⟨rfl, -⟩ | ⟨rfl, -⟩ <;> exact ⟨_, rfl⟩
  keyed a ra _ h hd _ := by
    rcases records_prop h with ⟨rfl, rfl⟩ | ⟨rfl, rfl⟩ | ⟨rfl, rfl⟩
    · exact keyed_of_coded (coded_pass records_codes (t := kEvents) (by decide +kernel) .int64)
    · cases hd
    · cases hd
  values b ra _ h _ := by
    rcases records_prop h with ⟨rfl, rfl⟩ | ⟨rfl, rfl⟩ | ⟨rfl, rfl⟩
    · rcases ha with rfl | rfl
      · exact ⟨none, .inl ⟨by rw [show cityAt.columnName id = "e_str_0".toList by decide +kernel]; unfold recordsRow; rw [if_neg (by decide +kernel)]; rfl, rfl⟩⟩
      · exact ⟨some (.str "Rome".toList), .inr ⟨1, "Rome".toList, by rw [show cityAt.columnName id = "e_str_0".toList by decide +kernel]; unfold recordsRow; rw [if_neg (by decide +kernel)]; rfl,
          ok_of (by decide +kernel), rfl⟩⟩
    · exact ⟨_, rfl⟩
    · exact ⟨_, rfl⟩

/-- The event is shown. -/
example : (eventRecord exSem (fun _ => .str []) id 1 recordsKv recordsCols [recordsRow 8 none none, recordsRow 7 (some 1) (some 5)] 7).toOption =
    some [(.event "city".toList, some (.str "Rome".toList)), (.event "when".toList, some (.ts 5)), (.event "event_id".toList, some (.int 7))] := by decide +kernel

/-- The hypotheses hold of it. -/
example : EventWith 1 7 (recordsRow 7 (some 1) (some 5)) ∧ Sound id 1 recordsKv recordsCols EventProp (recordsRow 7 (some 1) (some 5)) :=
  ⟨recordsRow_with 7 _ _, records_whole (.inr rfl)⟩

/-- **C136 is violated**: a missing value is shown as whatever is in the buffer. -/
theorem C136_violated : ¬ C136_full := by
  intro h
  have hw : EventWith 1 7 (recordsRow 7 none (some 5)) := recordsRow_with 7 _ _
  have hone : ∀ row' ∈ [recordsRow 7 none (some 5)], EventWith 1 7 row' → row' = recordsRow 7 none (some 5) := fun _ hr _ => List.mem_singleton.mp hr
  have T := records_whole (a := none) (.inl rfl) (i := 7)
  obtain ⟨rec, h1, h2⟩ := ((h exSem (fun _ => .str []) id 1 recordsKv recordsCols [recordsRow 7 none (some 5)]).1 7 (by decide)).1 _ (List.mem_singleton.mpr rfl) hw hone T
  obtain ⟨rec', h3, h4⟩ := C136_event exSem (fun _ => .str []) (by decide) (List.mem_singleton.mpr rfl) hw hone T
  rw [h1] at h3
  cases h3
  have : (propIn (.event "city".toList), none) ∈ rec := (h2 _).mpr ⟨.event "city".toList, cityAt, none, ⟨_, rfl⟩, records_city, by decide +kernel,
    .inl ⟨by rw [show cityAt.columnName id = "e_str_0".toList by decide +kernel]; unfold recordsRow; rw [if_neg (by decide +kernel)]; rfl, rfl⟩, rfl⟩
  obtain ⟨_, _, _, -, -, -, -, e⟩ := (h4 _).mp this
  cases (Prod.mk.inj e).2

/-- The number 9 is a panic. -/
example : eventRecord exSem (fun _ => .str []) id 1 recordsKv recordsCols [recordsRow 7 (some 1) (some 5)] 9 = .error .panic := by
  refine C136_unknown exSem _ (by decide) (by decide) (fun row hr hw => ?_) records_listed records_city (by decide +kernel)
  cases List.mem_singleton.mp hr
  have := hw.2
  unfold recordsRow at this
  rw [if_pos rfl] at this
  cases this

/-! A group -/

def idProp : Property :=
  ⟨0, ⟨0, 0⟩, 1, none, none, 0, none, "id".toList, some "ID".toList, none, 0, .group 0, .string, .enabled, true, true, true, false, true, some .int64⟩

def idAt : Property := { idProp with id := 2, createdAt := ⟨7, 0⟩, projectId := 1, order := 2 }

/-- The store with names, and users with an identifier. -/
def singleKv : Kv :=
  (Meta.runCall (Meta.dictGetOrCreate 1 (groupCol 0) "id".toList "u1".toList)
    (Meta.runCall (Meta.propCreate id 1 (.group 0) ⟨7, 0⟩ idProp (.ok ())) usersKv).2).2

def singleCols : List Str := ["project_id", "id", "version", "created_at", "g_0_str_1"].map String.toList

def singleRow : QRow := fun c => if c = "id".toList then some (.int 1) else userRow (some 1) 5 c

theorem single_group {n : Str} {g : Nat} {r : Property} (h : PropertyAt 1 singleKv (.group n g) r) :
    g = 0 ∧ ((n = "name".toList ∧ r = nameAt) ∨ (n = "id".toList ∧ r = idAt)) := by
  have hp : propsPass 1 singleKv (fun ty n r => match ty with | .event => true | .group g => g = 0 && ((n = "name".toList && r = nameAt) || (n = "id".toList && r = idAt))) = true := by decide +kernel
  have := propertyAt_pass hp h
  simp only [Bool.and_eq_true, Bool.or_eq_true, decide_eq_true_eq] at this
  exact this

theorem single_event {n : Str} {r : Property} (h : PropertyAt 1 singleKv (.event n) r) : r.columnName id ∉ singleCols := by
  have hp : propsPass 1 singleKv (fun ty _ r => match ty with | .event => !singleCols.contains (r.columnName id) | .group _ => true) = true := by decide +kernel
  have := propertyAt_pass hp h
  simpa using this

theorem single_codes : codedPass 1 singleKv = true := by decide +kernel

theorem idAt_col : idAt.columnName id = "id".toList := by decide +kernel

theorem single_id : PropertyAt 1 singleKv (.group "id".toList 0) idAt := ok_of (by decide +kernel)

theorem single_value : ValueAt id 1 singleKv (groupCol 0) idAt singleRow (some (.str "u1".toList)) := by
  unfold ValueAt
  rw [if_pos (by decide), idAt_col]
  exact .inr ⟨1, "u1".toList, by unfold singleRow; rw [if_pos rfl]; rfl, ok_of (by decide +kernel), rfl⟩

theorem single_name : ValueAt id 1 singleKv (groupCol 0) nameAt singleRow (some (.str "Ann".toList)) := by
  unfold ValueAt
  rw [if_pos (by decide), nameAt_col]
  exact .inr ⟨1, "Ann".toList, by unfold singleRow; rw [if_neg (by decide +kernel), userRow_name]; rfl, ok_of (by decide +kernel), rfl⟩

/-- The hypotheses hold of a group. -/
theorem single_whole : Sound id 1 singleKv singleCols (GroupProp 0) singleRow where
  project := by decide
  listed := listed_pass (by decide +kernel)
  typed := (sound_typed (by decide +kernel)).1
  plain ref r o h _ := by obtain ⟨n, rfl⟩ := o; rcases (single_group h).2 with ⟨-, rfl⟩ | ⟨-, rfl⟩ <;> rfl
  distinct a b ra rb o1 o2 h1 h2 _ e := by
    obtain ⟨n, rfl⟩ := o1
    obtain ⟨m, rfl⟩ := o2
    have n1 : nameAt.columnName id ≠ idAt.columnName id := by decide +kernel
    rcases (single_group h1).2 with ⟨-, rfl⟩ | ⟨-, rfl⟩ <;> rcases (single_group h2).2 with ⟨-, rfl⟩ | ⟨-, rfl⟩ <;>
      first | rfl | exact absurd e n1 | exact absurd e.symm n1
  shared a ra h hc := by
    cases a with
    | custom i => exact absurd h id
    | event n => exact absurd hc (single_event h)
    | group n g =>
      obtain ⟨rfl, -⟩ := single_group h
      exact ⟨_, ra, ⟨n, rfl⟩, h, rfl, fun h => h⟩
  keyed a ra o h _ _ := by
    obtain ⟨n, rfl⟩ := o
    rcases (single_group h).2 with ⟨-, rfl⟩ | ⟨-, rfl⟩
    · exact keyed_of_coded (coded_pass single_codes (t := groupCol 0) (by decide +kernel) .int64)
    · exact keyed_of_coded (coded_pass single_codes (t := groupCol 0) (by decide +kernel) .int64)
  values a ra o h _ := by
    obtain ⟨n, rfl⟩ := o
    rcases (single_group h).2 with ⟨-, rfl⟩ | ⟨-, rfl⟩
    · exact ⟨_, single_name⟩
    · exact ⟨_, single_value⟩

example : GroupWith id 1 singleKv 0 "u1".toList singleRow ∧
    ∀ r, PropertyAt 1 singleKv (.group "id".toList 0) r → r.columnName id = "id".toList ∧ r.isDictionary = true ∧ ∃ dt, Coded 1 (groupCol 0) "id".toList singleKv dt := by
  refine ⟨⟨?_, idAt, single_id, single_value⟩, fun r hr => ?_⟩
  · unfold Owned singleRow
    rw [if_neg (by decide +kernel)]
    rfl
  · cases propertyAt_unique single_id hr
    exact ⟨idAt_col, rfl, .int64, coded_pass single_codes (t := groupCol 0) (by decide +kernel) _⟩

example : (groupRecord exSem (fun _ => .str []) id 1 singleKv (some singleCols) [singleRow] 0 "u1".toList).toOption =
    some [(.group "id".toList 0, some (.str "u1".toList)), (.group "name".toList 0, some (.str "Ann".toList))] := by decide +kernel

end OptiPrism.Platform
