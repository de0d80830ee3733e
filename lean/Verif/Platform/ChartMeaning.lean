import Verif.Platform.ChartProps
import Verif.Platform.Decode
import Verif.Query.PlanProps

/-!
# C127, C128: which rows the events of a chart are about

The meaning of a filter is given for the request as it was sent (`JFilter`) and the row as it is stored: strings for strings, numbers
by value, moments in milliseconds.
-/

namespace OptiPrism.Platform

open OptiPrism.Meta (Str PropOp PropertyRef EventRef Scalar PropFilter Kv Property PropType Event propsC customC eventsC kEvents dictGetValue dictGetKey)
open OptiPrism.Query
open OptiPrism.Ingest (groupCol dictRoom dictCell)

variable {N : Type} {E : ReqEnv N} {sys : Str → Str} {p : Nat} {kv : Kv} {tbl : List Str}

/-! ## Spec -/

/-- The property a reference names. -/
def PropertyAt (p : Nat) (kv : Kv) : JPropertyRef → Property → Prop
  | .event n, r => (propsC p .event).getBy .name n kv = .ok r
  | .group n g, r => (propsC p (.group g)).getBy .name n kv = .ok r
  | .custom _, _ => False

/-- The table whose dictionaries hold the strings of the property. -/
def tableAt : JPropertyRef → Str
  | .group _ g => groupCol g
  | _ => kEvents

/-- The value of a property in a stored row: for dictionaries the string of the number stored. -/
def ValueAt (sys : Str → Str) (p : Nat) (kv : Kv) (t : Str) (r : Property) (row : QRow) (v : Option Cell) : Prop :=
  if r.isDictionary then
    (row (r.columnName sys) = none ∧ v = none) ∨
    ∃ (k : Nat) (s : Str), row (r.columnName sys) = some (.int (k : Int)) ∧ dictGetValue p t (r.columnName sys) k kv = .ok s ∧ v = some (.str s)
  else v = row (r.columnName sys)

/-- What a value of a filter means: numbers are meant by value (cells of numbers have 28 digits after the point), those for a time in
milliseconds. -/
def Meant (E : ReqEnv N) (r : Property) : JVal N → Cell → Prop
  | .bool b, c => c = .bool b
  | .str s, c => c = .str s
  | .num n, c => ∃ m s, E.dec n = some (m, s) ∧
      if r.dataType = .timestamp then ∃ k : Int, c = .ts k ∧ k * 10 ^ s = m.toInt else ∃ k : Int, c = .decimal k ∧ k * 10 ^ s = m.toInt * 10 ^ 28
  | _, _ => False

/-- The filter holds of the row. -/
def Holds (S : Sem) (E : ReqEnv N) (sys : Str → Str) (p : Nat) (kv : Kv) (row : QRow) (f : JFilter N) : Prop :=
  ∃ r v vs, PropertyAt p kv f.property r ∧ ValueAt sys p kv (tableAt f.property) r row v ∧
    (∀ c, some c ∈ vs ↔ ∃ x ∈ f.value.getD [], Meant E r x c) ∧ Says S v vs (opIn f.op)

/-- The filters of the whole chart: those of the first group. -/
def sharedFilters (r : JSegReq N) : List (JFilter N) :=
  match r.filters with
  | some ⟨_, g :: _⟩ => g.filters
  | _ => []

/-- All filters of the request that count. -/
def allFilters (r : JSegReq N) : List (JFilter N) := r.events.flatMap (fun e => e.filters.getD []) ++ sharedFilters r

/-- Patterns are matched against strings. -/
def Pattern (op : JOp) : Prop := op = .like ∨ op = .notLike ∨ op = .regex ∨ op = .notRegex

/-- Only asks whether there is a value. -/
def Presence (op : JOp) : Prop := op = .exists ∨ op = .empty

/-- The dictionary is one: numbers and strings go both ways, and the numbers fit the column. -/
structure Coded (p : Nat) (t : Str) (d : Str) (kv : Kv) (dt : Meta.DictType) : Prop where
  both : ∀ s k, dictGetKey p t d s kv = .ok k ↔ dictGetValue p t d k kv = .ok s
  room : ∀ s k, dictGetKey p t d s kv = .ok k → k < dictRoom dt ∧ k < 2 ^ 63

/-- The filters for which the claim is proved: numbers for times are whole and fit, dictionaries are intact, and a column that is matched
against patterns is not also compared, nor one of those every chart filters by. -/
structure Clear (E : ReqEnv N) (sys : Str → Str) (p : Nat) (kv : Kv) (fs : List (JFilter N)) : Prop where
  nums : ∀ f ∈ fs, ∀ r, PropertyAt p kv f.property r → ∀ n, .num n ∈ f.value.getD [] → ∀ m s, E.dec n = some (m, s) →
    s ≤ 28 ∧ (r.dataType = .timestamp → s = 0 ∧ -2 ^ 63 ≤ m.toInt ∧ m.toInt < 2 ^ 63)
  dicts : ∀ f ∈ fs, ∀ r dt, PropertyAt p kv f.property r → r.dictType = some dt → Coded p (tableAt f.property) (r.columnName sys) kv dt
  fixed : ∀ f ∈ fs, ∀ r, PropertyAt p kv f.property r → r.isDictionary = true → Pattern f.op →
    r.columnName sys ∉ ["project_id".toList, "created_at".toList, "event".toList]
  apart : ∀ f ∈ fs, ∀ g ∈ fs, ∀ r s, PropertyAt p kv f.property r → PropertyAt p kv g.property s → r.isDictionary = true → Pattern f.op →
    s.columnName sys = r.columnName sys → s.isDictionary = true ∧ tableAt g.property = tableAt f.property ∧ (Pattern g.op ∨ Presence g.op)

/-- The numbers of the row are in the dictionaries. -/
def StoredIn (sys : Str → Str) (p : Nat) (kv : Kv) (row : QRow) (fs : List (JFilter N)) : Prop :=
  ∀ f ∈ fs, ∀ r, PropertyAt p kv f.property r → ∃ v, ValueAt sys p kv (tableAt f.property) r row v

/-! ## Lists -/

theorem collect_get {α β : Type} {f : α → Except QErr β} {l : List α} {bs : List β} (h : collect f l = .ok bs) {i : Nat} {a : α} (ha : l[i]? = some a) :
    ∃ b, bs[i]? = some b ∧ f a = .ok b := by
  induction l generalizing bs i with
  | nil => simp at ha
  | cons x l ih =>
    unfold collect at h
    cases hf : f x with
    | error e => rw [hf] at h; cases h
    | ok b =>
      rw [hf] at h
      dsimp only at h
      cases hr : collect f l with
      | error e => rw [hr] at h; cases h
      | ok bs' =>
        rw [hr] at h
        cases h
        cases i with
        | zero => simp at ha; subst ha; exact ⟨b, rfl, hf⟩
        | succ i => simp at ha; obtain ⟨b', h1, h2⟩ := ih hr ha; exact ⟨b', by simpa using h1, h2⟩

theorem mapM_get {α β : Type} {f : α → Option β} {l : List α} {bs : List β} (h : l.mapM f = some bs) {i : Nat} {a : α} (ha : l[i]? = some a) :
    ∃ b, bs[i]? = some b ∧ f a = some b := by
  induction l generalizing bs i with
  | nil => simp at ha
  | cons x l ih =>
    simp only [List.mapM_cons, Option.bind_eq_bind, Option.pure_def, Option.bind_eq_some_iff] at h
    obtain ⟨b', hb, bs', hbs, e⟩ := h
    cases e
    cases i with
    | zero => simp at ha; subst ha; exact ⟨b', rfl, hb⟩
    | succ i => simp at ha; obtain ⟨b, h1, h2⟩ := ih hbs ha; exact ⟨b, by simpa using h1, h2⟩

/-! ## The way of a filter -/

theorem propertyAt_iff {ref : JPropertyRef} {r : Property} : findProp .plan p kv (propIn ref) = .ok r → PropertyAt p kv ref r := by
  cases ref with
  | event n =>
    simp only [propIn, findProp, PropertyAt]
    intro h
    cases hx : (propsC p .event).getBy .name n kv with
    | error e => rw [hx] at h; cases h
    | ok r' => rw [hx] at h; cases h; rfl
  | group n g =>
    simp only [propIn, findProp, PropertyAt]
    intro h
    split at h
    · cases hx : (propsC p (.group g)).getBy .name n kv with
      | error e => rw [hx] at h; cases h
      | ok r' => rw [hx] at h; cases h; rfl
    · cases h
  | custom i => intro h; cases h

theorem propertyAt_unique {ref : JPropertyRef} {r r' : Property} (h : PropertyAt p kv ref r) (h' : PropertyAt p kv ref r') : r' = r := by
  cases ref with
  | event n => simp only [PropertyAt] at h h'; rw [h] at h'; cases h'; rfl
  | group n g => simp only [PropertyAt] at h h'; rw [h] at h'; cases h'; rfl
  | custom i => cases h

theorem tableAt_eq (ref : JPropertyRef) : dictTable (propIn ref) = tableAt ref := by cases ref <;> rfl

/-- What is planned for a filter. -/
def Linked (E : ReqEnv N) (p : Nat) (kv : Kv) (f : JFilter N) (f'' : PropFilter) : Prop :=
  ∃ r vs, (∀ c, findProp c p kv (propIn f.property) = .ok r) ∧ opFits r f.op = true ∧ valuesFit r f.op f.value = true ∧
    f'' = ⟨propIn f.property, opIn f.op, some vs⟩ ∧ (∀ s, s ∈ vs ↔ ∃ v ∈ f.value.getD [], sent E r v = some s)

theorem linked_of {f : JFilter N} (h : validateFilter p kv f = .ok ()) {f' f'' : PropFilter} (h1 : filterIn E f = some f') (h2 : fixFilter p kv f' = .ok f'') :
    Linked E p kv f f'' := by
  obtain ⟨r, vs, a, b, c, d, e, -⟩ := fixed_filter h h1
  rw [h2] at d
  cases d
  exact ⟨r, vs, a, b, c, rfl, e⟩

theorem filters_linked {fs : Option (List (JFilter N))} {fs' fs'' : Option (List PropFilter)} (hv : ∀ f ∈ fs.getD [], validateFilter p kv f = .ok ())
    (h1 : dropEmpty (filterIn E) fs = some fs') (h2 : fixFilters p kv fs' = .ok fs'') :
    (∀ f ∈ fs.getD [], ∃ f'' ∈ fs''.getD [], Linked E p kv f f'') ∧ ∀ f'' ∈ fs''.getD [], ∃ f ∈ fs.getD [], Linked E p kv f f'' := by
  cases fs with
  | none => cases h1; cases h2; simp
  | some l =>
    cases l with
    | nil => cases h1; cases h2; simp
    | cons a l =>
      simp only [dropEmpty, Option.map_eq_some_iff] at h1
      obtain ⟨bs, h3, rfl⟩ := h1
      have hne : bs ≠ [] := fun h0 => by have := (mapM_nil_iff h3).mp h0; cases this
      cases bs with
      | nil => exact (hne rfl).elim
      | cons b bs =>
        obtain ⟨cs, h4, h5⟩ := bind_ok h2
        cases h5
        simp only [Option.getD_some] at hv ⊢
        constructor
        · intro f hf
          obtain ⟨f', m1, e1⟩ := mapM_back h3 hf
          obtain ⟨f'', m2, e2⟩ := (collect_spec h4).1 f' m1
          exact ⟨f'', m2, linked_of (hv f hf) e1 e2⟩
        · intro f'' hf
          obtain ⟨f', m1, e1⟩ := (collect_spec h4).2.1 f'' hf
          obtain ⟨f, m2, e2⟩ := (mapM_mem_iff h3 f').mp m1
          exact ⟨f, m2, linked_of (hv f m2) e2 e1⟩

/-- The way of a request that is planned. -/
structure Way (E : ReqEnv N) (sys : Str → Str) (fuel : Nat) (p : Nat) (kv : Kv) (tbl : List Str) (cur : Int) (r : JSegReq N) (q : CSegReq) (c : Chart) : Prop where
  plan : chartPlan sys fuel p kv tbl cur q = .ok c
  time : q.time = timeIn r.time
  group : q.groupId = r.group
  events : ∀ (i : Nat) (e : JEvent N), r.events[i]? = some e → ∃ e' : CEvent, q.events[i]? = some e' ∧ e'.event = eventIn e.event ∧
    (∀ x, x ∈ e'.breakdowns.getD [] ↔ ∃ b ∈ e.breakdowns.getD [], propIn b = x) ∧ (∃ qs, e.queries.mapM queryIn = some qs ∧ e'.queries = named E e.event 0 qs) ∧
    (∀ f ∈ e.filters.getD [], ∃ f' ∈ e'.filters.getD [], Linked E p kv f f') ∧ ∀ f' ∈ e'.filters.getD [], ∃ f ∈ e.filters.getD [], Linked E p kv f f'
  count : q.events.length = r.events.length
  filters : (∀ f ∈ sharedFilters r, ∃ f' ∈ q.filters.getD [], Linked E p kv f f') ∧ ∀ f' ∈ q.filters.getD [], ∃ f ∈ sharedFilters r, Linked E p kv f f'
  breakdowns : ∀ x, x ∈ q.breakdowns.getD [] ↔ ∃ b ∈ r.breakdowns.getD [], propIn b = x

theorem mapM_length {α β : Type} {f : α → Option β} {l : List α} {bs : List β} (h : l.mapM f = some bs) : bs.length = l.length := by
  induction l generalizing bs with
  | nil => simp at h; simp [h]
  | cons x l ih =>
    simp only [List.mapM_cons, Option.bind_eq_bind, Option.pure_def, Option.bind_eq_some_iff] at h
    obtain ⟨b', hb, bs', hbs, e⟩ := h
    cases e
    simp [ih hbs]

theorem chart_way {fuel : Nat} {cur : Int} {r : JSegReq N} {c : Chart} (h : chart E sys fuel p kv tbl cur r = .ok c) : ∃ q, Way E sys fuel p kv tbl cur r q c := by
  obtain ⟨_, hv, h⟩ := bind_ok h
  cases hi : segReqIn E r with
  | none => rw [hi] at h; cases h
  | some r' =>
    rw [hi] at h
    dsimp only at h
    obtain ⟨q, hq, hc⟩ := bind_ok h
    obtain ⟨_, v1, hv⟩ := bind_ok hv
    obtain ⟨_, v2, hv⟩ := bind_ok hv
    obtain ⟨_, v3, hv⟩ := bind_ok hv
    obtain ⟨_, v4, hv⟩ := bind_ok hv
    obtain ⟨_, v5, hv⟩ := bind_ok hv
    obtain ⟨_, v6, v7⟩ := bind_ok hv
    have hev : ∀ e ∈ r.events, ∀ f ∈ e.filters.getD [], validateFilter p kv f = .ok () := by
      intro e he
      obtain ⟨_, _, h⟩ := bind_ok (each_ok v4 e he)
      obtain ⟨_, h, _⟩ := bind_ok h
      exact each_ok h
    simp only [segReqIn, Option.bind_eq_bind, Option.pure_def, Option.bind_eq_some_iff] at hi
    obtain ⟨es, i1, fs, i2, bs, i3, ss, i4, e⟩ := hi
    cases e
    obtain ⟨es', f1, hq⟩ := bind_ok hq
    obtain ⟨fs', f2, hq⟩ := bind_ok hq
    cases hq
    refine ⟨_, hc, rfl, rfl, fun i e he => ?_, ?_, ?_, ?_⟩
    · obtain ⟨e', g1, g2⟩ := mapM_get i1 he
      obtain ⟨e'', g3, g4⟩ := collect_get f1 g1
      refine ⟨e'', g3, ?_⟩
      simp only [esEventIn, Option.bind_eq_bind, Option.pure_def, Option.bind_eq_some_iff] at g2
      obtain ⟨fs1, j1, bs1, j2, qs1, j3, e1⟩ := g2
      cases e1
      obtain ⟨fs2, j4, e2⟩ := bind_ok g4
      cases e2
      obtain ⟨bs2, k1, k2⟩ := dropEmpty_refs (bs := e.breakdowns)
      rw [j2] at k1
      cases k1
      exact ⟨rfl, k2, ⟨qs1, j3, rfl⟩, filters_linked (hev e (List.mem_of_getElem? he)) j1 j4⟩
    · show es'.length = _
      rw [(collect_spec f1).2.2, mapM_length i1]
    · show (∀ f ∈ sharedFilters r, ∃ f' ∈ fs'.getD [], _) ∧ ∀ f' ∈ fs'.getD [], _
      unfold sharedFilters
      cases hr : r.filters with
      | none => rw [hr] at i2; cases i2; cases f2; simp
      | some g =>
        obtain ⟨cond, gs⟩ := g
        rw [hr] at i2 v5
        cases gs with
        | nil => cases i2
        | cons g0 gs =>
          have hv0 := each_ok v5 g0 (by simp)
          obtain ⟨_, _, hv0⟩ := bind_ok hv0
          exact filters_linked (fs := some g0.filters) (each_ok hv0) i2 f2
    · obtain ⟨bs2, k1, k2⟩ := dropEmpty_refs (bs := r.breakdowns)
      rw [i3] at k1
      cases k1
      exact k2

/-! ## Decoded columns -/

theorem decodeRow_other {ds : List (Str × Str)} {row row' : QRow} (h : decodeRow p kv ds row = some row') {c : Str} (hc : ∀ d ∈ ds, d.1 ≠ c) : row' c = row c := by
  unfold decodeRow at h
  split at h
  · injection h with h
    rw [← h]
    dsimp only
    rw [List.find?_eq_none.mpr fun d hd => by simpa using hc d hd]
  · cases h

theorem decodeRow_col {ds : List (Str × Str)} {row row' : QRow} (h : decodeRow p kv ds row = some row') {c t : Str} (hm : (c, t) ∈ ds)
    (hone : ∀ d ∈ ds, d.1 = c → d.2 = t) : decodeCell p kv t c (row c) = some (row' c) := by
  unfold decodeRow at h
  split at h
  · rename_i hall
    injection h with h
    cases hf : ds.find? fun x => x.1 = c with
    | none => exact absurd (List.find?_eq_none.mp hf _ hm) (by simp)
    | some x =>
      have h1 : x.1 = c := by simpa using List.find?_some hf
      have h2 := hone x (List.mem_of_find?_eq_some hf) h1
      have h3 := (List.all_eq_true.mp hall) _ hm
      dsimp only at h3
      rw [hf] at h3
      dsimp only at h3
      rw [← h]
      dsimp only
      rw [hf]
      dsimp only
      rw [h1, h2] at h3 ⊢
      obtain ⟨y, hy⟩ := Option.isSome_iff_exists.mp h3
      rw [hy]
      rfl
  · cases h

theorem pattern_iff (op : JOp) : decodedOp (opIn op) = true ↔ Pattern op := by
  cases op <;> simp [decodedOp, opIn, Pattern]

/-- The columns decoded are those of the dictionary properties that are matched against patterns. -/
theorem decoded_mem {fuel : Nat} {cur : Int} {r : JSegReq N} {q : CSegReq} {c : Chart} (w : Way E sys fuel p kv tbl cur r q c) (d : Str × Str) :
    d ∈ c.decoded ↔ ∃ f ∈ allFilters r, ∃ rf, PropertyAt p kv f.property rf ∧ rf.isDictionary = true ∧ Pattern f.op ∧ d = (rf.columnName sys, tableAt f.property) := by
  obtain ⟨pr, h1, h⟩ := bind_ok w.plan
  obtain ⟨cols, h2, h⟩ := bind_ok h
  obtain ⟨ds, h3, h⟩ := bind_ok h
  obtain ⟨es, h4, h⟩ := bind_ok h
  cases h
  have all1 : ∀ f ∈ allFilters r, ∃ f' ∈ q.events.flatMap (fun e => e.filters.getD []) ++ q.filters.getD [], Linked E p kv f f' := by
    intro f hf
    rcases List.mem_append.mp hf with hf | hf
    · obtain ⟨e, he, hf⟩ := List.mem_flatMap.mp hf
      obtain ⟨i, hi⟩ := List.getElem?_of_mem he
      obtain ⟨e', he', -, -, -, l1, -⟩ := w.events i e hi
      obtain ⟨f', hf', hl⟩ := l1 f hf
      exact ⟨f', List.mem_append_left _ (List.mem_flatMap.mpr ⟨e', List.mem_of_getElem? he', hf'⟩), hl⟩
    · obtain ⟨f', hf', hl⟩ := w.filters.1 f hf
      exact ⟨f', List.mem_append_right _ hf', hl⟩
  have all2 : ∀ f' ∈ q.events.flatMap (fun e => e.filters.getD []) ++ q.filters.getD [], ∃ f ∈ allFilters r, Linked E p kv f f' := by
    intro f' hf
    rcases List.mem_append.mp hf with hf | hf
    · obtain ⟨e', he, hf⟩ := List.mem_flatMap.mp hf
      obtain ⟨i, hi⟩ := List.getElem?_of_mem he
      have hlt : i < q.events.length := (List.getElem?_eq_some_iff.mp hi).1
      rw [w.count] at hlt
      obtain ⟨e'', he'', -, -, -, -, l2⟩ := w.events i _ (List.getElem?_eq_getElem hlt)
      rw [hi] at he''
      cases he''
      obtain ⟨f, hm, hl⟩ := l2 f' hf
      exact ⟨f, List.mem_append_left _ (List.mem_flatMap.mpr ⟨_, List.getElem_mem hlt, hm⟩), hl⟩
    · obtain ⟨f, hm, hl⟩ := w.filters.2 f' hf
      exact ⟨f, List.mem_append_right _ hm, hl⟩
  have one : ∀ f f', Linked E p kv f f' → ∀ l, decodeFilter sys p kv f' = .ok l → (d ∈ l ↔
      ∃ rf, PropertyAt p kv f.property rf ∧ rf.isDictionary = true ∧ Pattern f.op ∧ d = (rf.columnName sys, tableAt f.property)) := by
    rintro f f' ⟨rp, vs, a1, -, -, rfl, -⟩ l hl
    have hp := propertyAt_iff (a1 .plan)
    unfold decodeFilter at hl
    dsimp only at hl
    by_cases ho : decodedOp (opIn f.op) = true
    · rw [if_pos ho, a1] at hl
      cases hl
      constructor
      · intro hd
        split at hd
        · rename_i hdict
          refine ⟨rp, hp, hdict, (pattern_iff _).mp ho, ?_⟩
          rw [tableAt_eq] at hd
          simpa using hd
        · simp at hd
      · rintro ⟨rf, hp', hd, -, rfl⟩
        rw [propertyAt_unique hp hp'] at hd ⊢
        rw [if_pos hd, tableAt_eq]
        simp
    · rw [if_neg ho] at hl
      cases hl
      simp only [List.not_mem_nil, false_iff]
      rintro ⟨rf, -, -, hpat, -⟩
      exact ho ((pattern_iff _).mpr hpat)
  simp only [List.mem_flatten]
  constructor
  · rintro ⟨l, hl, hd⟩
    obtain ⟨f', hf', hx⟩ := (collect_spec h3).2.1 l hl
    obtain ⟨f, hf, hk⟩ := all2 f' hf'
    exact ⟨f, hf, (one f f' hk l hx).mp hd⟩
  · rintro ⟨f, hf, hx⟩
    obtain ⟨f', hf', hk⟩ := all1 f hf
    obtain ⟨l, hl, he⟩ := (collect_spec h3).1 f' hf'
    exact ⟨l, hl, (one f f' hk l he).mpr hx⟩

/-! ## One filter -/

theorem says_ext {S : Sem} {v : Option Cell} {vs vs' : List (Option Cell)} (h : ∀ c, some c ∈ vs ↔ some c ∈ vs') (op : PropOp) : Says S v vs op ↔ Says S v vs' op := by
  cases op <;> simp only [Says, h]

theorem narrow_toInt {m : BitVec 128} (h1 : -2 ^ 63 ≤ m.toInt) (h2 : m.toInt < 2 ^ 63) : (m.setWidth 64).toInt = m.toInt := by
  rw [BitVec.toInt_setWidth, ← Int.bmod_bmod_of_dvd (n := 2 ^ 64) (m := 2 ^ 128) (by decide), ← BitVec.toInt_eq_toNat_bmod]
  exact Int.bmod_eq_of_le (by omega) (by omega)

theorem sent_meant {r : Property} {v : JVal N} {c : Cell}
    (hn : ∀ n, v = .num n → ∀ m s, E.dec n = some (m, s) → s ≤ 28 ∧ (r.dataType = .timestamp → s = 0 ∧ -2 ^ 63 ≤ m.toInt ∧ m.toInt < 2 ^ 63)) :
    (∃ s, sent E r v = some s ∧ scalarCell s = some c) ↔ Meant E r v c := by
  cases v with
  | bool b => simp [sent, scalarCell, Meant, eq_comm]
  | str x => simp [sent, scalarCell, Meant, eq_comm]
  | null => simp [sent, Meant]
  | arr => simp [sent, Meant]
  | obj => simp [sent, Meant]
  | num n =>
    simp only [sent, Meant, Option.map_eq_some_iff]
    constructor
    · rintro ⟨s, ⟨⟨m, sc⟩, e, rfl⟩, hc⟩
      obtain ⟨h1, h2⟩ := hn n rfl m sc e
      refine ⟨m, sc, e, ?_⟩
      by_cases ht : r.dataType = .timestamp
      · obtain ⟨rfl, h3, h4⟩ := h2 ht
        simp only [ht, if_true] at hc ⊢
        cases hc
        refine ⟨_, rfl, ?_⟩
        rw [narrow_toInt h3 h4]
        omega
      · simp only [ht, if_false] at hc ⊢
        cases hc
        refine ⟨_, rfl, ?_⟩
        rw [Int.mul_assoc, ← Int.pow_add, Nat.sub_add_cancel h1]
    · rintro ⟨m, sc, e, h⟩
      obtain ⟨h1, h2⟩ := hn n rfl m sc e
      by_cases ht : r.dataType = .timestamp
      · obtain ⟨rfl, h3, h4⟩ := h2 ht
        simp only [ht, if_true] at h ⊢
        obtain ⟨k, rfl, hk⟩ := h
        refine ⟨_, ⟨_, e, rfl⟩, ?_⟩
        simp only [scalarCell, Option.map_some, Option.some.injEq, Cell.ts.injEq]
        rw [narrow_toInt h3 h4]
        omega
      · simp only [ht, if_false] at h ⊢
        obtain ⟨k, rfl, hk⟩ := h
        refine ⟨_, ⟨_, e, rfl⟩, ?_⟩
        simp only [scalarCell, Option.map_some, Option.some.injEq, Cell.decimal.injEq]
        have h3 : (10 : Int) ^ 28 = 10 ^ (28 - sc) * 10 ^ sc := by rw [← Int.pow_add, Nat.sub_add_cancel h1]
        rw [h3, ← Int.mul_assoc] at hk
        have h5 : (10 : Int) ^ sc ≠ 0 := Int.pow_ne_zero (by decide)
        exact (Int.eq_of_mul_eq_mul_right h5 hk).symm

theorem valueAt_unique {t : Str} {r : Property} {row : QRow} {v v' : Option Cell} (h : ValueAt sys p kv t r row v) (h' : ValueAt sys p kv t r row v') : v' = v := by
  unfold ValueAt at h h'
  split at h
  · rename_i hd
    rw [if_pos hd] at h'
    rcases h with ⟨h1, rfl⟩ | ⟨k, s, h1, h2, rfl⟩ <;> rcases h' with ⟨g1, rfl⟩ | ⟨k', s', g1, g2, rfl⟩
    · rfl
    · rw [h1] at g1; cases g1
    · rw [h1] at g1; cases g1
    · rw [h1] at g1
      simp only [Option.some.injEq, Cell.int.injEq] at g1
      have : k' = k := by omega
      subst this
      rw [h2] at g2
      cases g2
      rfl
  · rename_i hd
    rw [if_neg hd] at h'
    rw [h, h']

theorem ofInt_key {k : Nat} (h : k < 2 ^ 63) : (BitVec.ofInt 64 (k : Int)).toNat = k := by
  rw [BitVec.toNat_ofInt]
  omega

/-- Properties are dictionaries exactly if they have a type of keys, and then hold strings. -/
def Dictionaries (p : Nat) (kv : Kv) : Prop :=
  ∀ ref r, PropertyAt p kv ref r → r.isDictionary = r.dictType.isSome ∧ (r.isDictionary = true → r.dataType = .string)

theorem filter_meaning_of (S : Sem) {fs : List (JFilter N)} {ds : List (Str × Str)}
    (hmem : ∀ d ∈ ds, ∃ f ∈ fs, ∃ rf, PropertyAt p kv f.property rf ∧ rf.isDictionary = true ∧ Pattern f.op ∧ d = (rf.columnName sys, tableAt f.property))
    (hd : Dictionaries p kv) (hc : Clear E sys p kv fs) {row row' : QRow} (hrow : decodeRow p kv ds row = some row')
    {f : JFilter N} (hf : f ∈ fs) {f' : PropFilter} (hl : Linked E p kv f f') {x : Expr} (hx : propertyExpression sys p kv f' = .ok x)
    (hself : ∀ rp, PropertyAt p kv f.property rp → rp.isDictionary = true → Pattern f.op → (rp.columnName sys, tableAt f.property) ∈ ds)
    (hst : ∀ rp, PropertyAt p kv f.property rp → ∃ v, ValueAt sys p kv (tableAt f.property) rp row v) :
    Selects S row' x ↔ Holds S E sys p kv row f := by
  obtain ⟨rp, vs, a1, a2, a3, rfl, a5⟩ := hl
  have hp := propertyAt_iff (a1 .plan)
  obtain ⟨d1, d2⟩ := hd _ _ hp
  obtain ⟨v0, hv0⟩ := hst rp hp
  have hcells : ∀ c, some c ∈ vs.map scalarCell ↔ ∃ v ∈ f.value.getD [], Meant E rp v c := by
    intro c
    simp only [List.mem_map, a5]
    constructor
    · rintro ⟨s, ⟨v, hv, e⟩, e'⟩
      exact ⟨v, hv, (sent_meant fun n hn => hc.nums f hf rp hp n (hn ▸ hv)).mp ⟨s, e, e'⟩⟩
    · rintro ⟨v, hv, h⟩
      obtain ⟨s, e, e'⟩ := (sent_meant fun n hn => hc.nums f hf rp hp n (hn ▸ hv)).mpr h
      exact ⟨s, ⟨v, hv, e⟩, e'⟩
  have hholds : Holds S E sys p kv row f ↔ Says S v0 (vs.map scalarCell) (opIn f.op) := by
    constructor
    · rintro ⟨r1, v, vs', h1, h2, h3, h4⟩
      have := propertyAt_unique hp h1
      subst this
      rw [valueAt_unique hv0 h2] at h4
      exact (says_ext (fun c => (h3 c).trans (hcells c).symm) _).mp h4
    · exact fun h => ⟨rp, v0, _, hp, hv0, hcells, h⟩
  rw [hholds]
  unfold propertyExpression at hx
  dsimp only at hx
  rw [a1] at hx
  simp only [Bind.bind, Except.bind, Option.map_some, tableAt_eq] at hx
  -- the column is decoded only for a dictionary property of the same table
  have hother : ∀ d ∈ ds, d.1 = rp.columnName sys → rp.isDictionary = true ∧ d.2 = tableAt f.property ∧ (Pattern f.op ∨ Presence f.op) := by
    intro d hm he
    obtain ⟨g, hg, rg, h1, h2, h3, rfl⟩ := hmem d hm
    obtain ⟨k1, k2, k3⟩ := hc.apart g hg f hf rg rp h1 hp h2 h3 he.symm
    exact ⟨k1, k2.symm, k3⟩
  cases hdt : rp.dictType with
  | none =>
    have hnd : rp.isDictionary = false := by rw [d1, hdt]; rfl
    have hv : v0 = row (rp.columnName sys) := by simpa [ValueAt, hnd] using hv0
    have hr : row' (rp.columnName sys) = row (rp.columnName sys) := decodeRow_other hrow fun d hm he => by
      rw [(hother d hm he).1] at hnd; cases hnd
    have hn : namedPropertyExpression (rp.columnName sys) (opIn f.op) (some (vs.map scalarCell)) = .ok x := by
      unfold propExpression at hx
      dsimp only at hx
      rw [hdt] at hx
      cases ho : opIn f.op <;> rw [ho] at hx <;> exact hx
    rw [C49_operators S row' _ _ _ _ hn, hr, hv]
  | some dt =>
    have hdict : rp.isDictionary = true := by rw [d1, hdt]; rfl
    have htext := d2 hdict
    have hcod := hc.dicts f hf rp dt hp hdt
    have hval : (row (rp.columnName sys) = none ∧ v0 = none) ∨ ∃ (k : Nat) (s : Str), row (rp.columnName sys) = some (.int (k : Int)) ∧
        dictGetValue p (tableAt f.property) (rp.columnName sys) k kv = .ok s ∧ v0 = some (.str s) := by
      unfold ValueAt at hv0
      rwa [if_pos hdict] at hv0
    have hdec : (rp.columnName sys, tableAt f.property) ∈ ds → row' (rp.columnName sys) = v0 := by
      intro hm
      have h := decodeRow_col hrow hm fun d hd he => (hother d hd he).2.1
      rcases hval with ⟨h1, h2⟩ | ⟨k, s, h1, h2, h3⟩
      · rw [h1] at h
        simp only [decodeCell, Option.some.injEq] at h
        rw [← h, h2]
      · rw [h1] at h
        simp only [decodeCell, ofInt_key (hcod.room s k ((hcod.both s k).mpr h2)).2, h2, Option.some.injEq] at h
        rw [← h, h3]
    by_cases hpat : Pattern f.op
    · have hm : (rp.columnName sys, tableAt f.property) ∈ ds := hself rp hp hdict hpat
      have hn : namedPropertyExpression (rp.columnName sys) (opIn f.op) (some (vs.map scalarCell)) = .ok x := by
        unfold propExpression at hx
        dsimp only at hx
        rcases hpat with ho | ho | ho | ho <;> rw [ho] at hx ⊢ <;> exact hx
      rw [C49_operators S row' _ _ _ _ hn, hdec hm]
    · have henc : ∃ l, encodeDictValues p (tableAt f.property) (rp.columnName sys) dt kv (vs.map scalarCell) = .ok l ∧
          namedPropertyExpression (rp.columnName sys) (opIn f.op) (some l) = .ok x := by
        unfold propExpression at hx
        dsimp only at hx
        rw [hdt] at hx
        dsimp only at hx
        cases he : encodeDictValues p (tableAt f.property) (rp.columnName sys) dt kv (vs.map scalarCell) with
        | error e =>
          rw [he] at hx
          cases ho : f.op <;> rw [ho] at hx hpat <;> first | (exfalso; apply hpat; simp [Pattern]; done) | cases hx
        | ok l =>
          rw [he] at hx
          refine ⟨l, rfl, ?_⟩
          cases ho : f.op <;> rw [ho] at hx hpat <;> first | (exfalso; apply hpat; simp [Pattern]; done) | exact hx
      obtain ⟨l, hl, hn⟩ := henc
      rw [C49_operators S row' _ _ _ _ hn]
      by_cases hpr : Presence f.op
      · have hnone : row' (rp.columnName sys) = none ↔ v0 = none := by
          by_cases hm : (rp.columnName sys, tableAt f.property) ∈ ds
          · rw [hdec hm]
          · have : row' (rp.columnName sys) = row (rp.columnName sys) := decodeRow_other hrow fun d hd he => by
              have := (hother d hd he).2.1
              apply hm
              rw [← this, ← he]
              exact hd
            rw [this]
            rcases hval with ⟨h1, h2⟩ | ⟨k, s, h1, h2, h3⟩
            · simp [h1, h2]
            · simp [h1, h3]
        rcases hpr with ho | ho
        · simp only [ho, opIn, Says, ← Option.ne_none_iff_exists', ne_eq, hnone]
        · simp only [ho, opIn, Says, hnone]
      · have hr : row' (rp.columnName sys) = row (rp.columnName sys) := decodeRow_other hrow fun d hd he => by
          rcases (hother d hd he).2.2 with h | h
          · exact hpat h
          · exact hpr h
        rw [hr]
        obtain ⟨ss, hss⟩ : ∃ ss : List Str, vs.map scalarCell = ss.map fun s => some (.str s) := by
          have : ∀ s ∈ vs, ∃ y, scalarCell s = some (.str y) := by
            intro s hs
            obtain ⟨v, hv, e⟩ := (a5 s).mp hs
            have hfit : valFits rp v = true := by
              cases hx : f.value with
              | none => rw [hx] at hv; simp at hv
              | some l =>
                rw [hx] at hv a3
                simp only [valuesFit, Bool.and_eq_true, List.all_eq_true] at a3
                exact a3.2 v hv
            cases v with
            | null => cases e
            | arr => cases e
            | obj => cases e
            | bool b => simp [valFits, htext] at hfit
            | num n => simp [valFits, htext] at hfit
            | str y => cases e; exact ⟨y, rfl⟩
          clear a5 hcells hholds hl hx
          induction vs with
          | nil => exact ⟨[], rfl⟩
          | cons a l ih =>
            obtain ⟨y, hy⟩ := this a (by simp)
            obtain ⟨ss, e⟩ := ih fun s hs => this s (by simp [hs])
            exact ⟨y :: ss, by simp [hy, e]⟩
        rw [hss] at hl ⊢
        obtain ⟨e1, e2⟩ := (encode_spec ss).1 l hl
        have hmem : ∀ s, some (Cell.str s) ∈ (ss.map fun s => some (Cell.str s)) ↔ s ∈ ss := by simp
        have hkey : ∀ k : Nat, some (Cell.int (k : Int)) ∈ l ↔ ∃ s ∈ ss, dictGetKey p (tableAt f.property) (rp.columnName sys) s kv = .ok k := by
          intro k
          rw [e2]
          constructor
          · rintro ⟨s, hs, k', hk, e⟩
            rw [ofG_dictCell dt k' (hcod.room s k' hk).1 (hcod.room s k' hk).2] at e
            simp only [Option.some.injEq, Cell.int.injEq] at e
            have : k' = k := by omega
            subst this
            exact ⟨s, hs, hk⟩
          · rintro ⟨s, hs, hk⟩
            exact ⟨s, hs, k, hk, ofG_dictCell dt k (hcod.room s k hk).1 (hcod.room s k hk).2⟩
        have hint : ∀ b, some b ∈ l → ∃ k : Nat, b = .int (k : Int) := by
          intro b hb
          obtain ⟨s, hs, k', hk, e⟩ := (e2 b).mp hb
          rw [ofG_dictCell dt k' (hcod.room s k' hk).1 (hcod.room s k' hk).2] at e
          cases e
          exact ⟨k', rfl⟩
        have hstr : ∀ b, some b ∈ (ss.map fun s => some (Cell.str s)) → ∃ s ∈ ss, b = .str s := by
          intro b hb
          obtain ⟨s, hs, e⟩ := List.mem_map.mp hb
          cases e
          exact ⟨s, hs, rfl⟩
        have hop : f.op = .eq ∨ f.op = .neq := by
          cases ho : f.op <;> rw [ho] at hpat hpr a2 <;> simp [Pattern, Presence, opFits, htext] at hpat hpr a2 ⊢
        rcases hval with ⟨h1, h2⟩ | ⟨k, s, h1, h2, h3⟩
        · rcases hop with ho | ho <;> simp [ho, opIn, Says, h1, h2]
        · have hk := (hcod.both s k).mpr h2
          rcases hop with ho | ho
          · simp only [ho, opIn, Says, h1, h3, Option.some.injEq]
            constructor
            · rintro ⟨_, b, rfl, hb, rfl⟩
              obtain ⟨s', hs', hk'⟩ := (hkey k).mp hb
              have h4 := (hcod.both s' k).mp hk'
              rw [h2] at h4
              cases h4
              exact ⟨_, _, rfl, (hmem s).mpr hs', rfl⟩
            · rintro ⟨_, b, rfl, hb, rfl⟩
              exact ⟨_, _, rfl, (hkey k).mpr ⟨s, (hmem s).mp hb, hk⟩, rfl⟩
          · simp only [ho, opIn, Says, h1, h3, Option.some.injEq]
            constructor
            · rintro ⟨_, b, rfl, hb, hne⟩
              obtain ⟨k', rfl⟩ := hint b hb
              obtain ⟨s', hs', hk'⟩ := (hkey k').mp hb
              refine ⟨_, .str s', rfl, (hmem s').mpr hs', fun e => hne ?_⟩
              cases e
              rw [hk] at hk'
              cases hk'
              rfl
            · rintro ⟨_, b, rfl, hb, hne⟩
              obtain ⟨s', hs', rfl⟩ := hstr b hb
              obtain ⟨k', hk'⟩ := e1 s' hs'
              refine ⟨_, .int (k' : Int), rfl, (hkey k').mpr ⟨s', hs', hk'⟩, fun e => hne ?_⟩
              simp only [Cell.int.injEq] at e
              have : k' = k := by omega
              subst this
              have h4 := (hcod.both s' k').mp hk'
              rw [h2] at h4
              cases h4
              rfl

theorem filter_meaning (S : Sem) {fuel : Nat} {cur : Int} {r : JSegReq N} {q : CSegReq} {c : Chart} (w : Way E sys fuel p kv tbl cur r q c)
    (hd : Dictionaries p kv) (hc : Clear E sys p kv (allFilters r)) {row row' : QRow} (hrow : decodeRow p kv c.decoded row = some row')
    {f : JFilter N} (hf : f ∈ allFilters r) {f' : PropFilter} (hl : Linked E p kv f f') {x : Expr} (hx : propertyExpression sys p kv f' = .ok x)
    (hst : ∀ rp, PropertyAt p kv f.property rp → ∃ v, ValueAt sys p kv (tableAt f.property) rp row v) :
    Selects S row' x ↔ Holds S E sys p kv row f :=
  filter_meaning_of S (fun d => (decoded_mem w d).mp) hd hc hrow hf hl hx (fun rp h1 h2 h3 => (decoded_mem w _).mpr ⟨f, hf, rp, h1, h2, h3, rfl⟩) hst

/-! ## The rows of an event -/

theorem withFilters_ok {F : Type} {md : Md F} {e0 : Except QErr Expr} {fs : Option (List F)} {e : Expr} (h : withFilters md e0 fs = .ok e) :
    ∀ f ∈ fs.getD [], ∃ x, md.filter f = .ok x := by
  unfold withFilters at h
  cases e0 with
  | error x => cases h
  | ok x =>
    cases fs with
    | none => simp
    | some l =>
      dsimp only at h
      unfold eventFiltersExpression at h
      cases hc : collect md.filter l with
      | error y => rw [hc] at h; cases h
      | ok ys =>
        intro f hf
        obtain ⟨b, -, hb⟩ := (collect_spec hc).1 f hf
        exact ⟨b, hb⟩

/-- The row is one of the event. -/
def OfEvent (p : Nat) (kv : Kv) (n : Str) (row : QRow) : Prop :=
  ∃ ev, (eventsC p).getBy .name n kv = .ok ev ∧ row "event".toList = some (.int (ev.id : Int))

theorem kEventCol_eq : kEventCol = "event".toList := by decide +kernel

/-- The numbers of months and years are in the range of the code. -/
def TimeInRange (t : JTime) : Prop :=
  ∀ n, (t = .last n .month → -2147483648 ≤ n ∧ n < 2147483648) ∧ (t = .last n .year → -178956970 ≤ n ∧ n ≤ 178956970)

theorem chart_rows (S : Sem) (hS : ∀ a b, S.lt (.ts a) (.ts b) = decide (a < b)) (hd : Dictionaries p kv)
    (hid : ∀ n ev, (eventsC p).getBy .name n kv = .ok ev → ev.id < 2 ^ 63) (hp : p < 2 ^ 63) {fuel : Nat} {cur : Int} {r : JSegReq N} {c : Chart}
    (h : chart E sys fuel p kv tbl cur r = .ok c) (ht : TimeInRange r.time) (hc : Clear E sys p kv (allFilters r)) {i : Nat} {e : JEvent N}
    (he : r.events[i]? = some e) {n : Str} (hn : e.event = .regular n) :
    ∃ pl f t, c.events[i]? = some pl ∧ Denotes (timeIn r.time) cur f t ∧
      ∀ row row', decodeRow p kv c.decoded row = some row' → (∀ x, row "created_at".toList = some x → ∃ v, x = .ts v) →
        (Owned p row → StoredIn sys p kv row (allFilters r)) →
        (Selects S row' pl.filter ↔ Owned p row ∧ During .ms f t row ∧ OfEvent p kv n row ∧
          (∀ f ∈ e.filters.getD [], Holds S E sys p kv row f) ∧ ∀ f ∈ sharedFilters r, Holds S E sys p kv row f) := by
  obtain ⟨q, w⟩ := chart_way h
  obtain ⟨pr, h1, hx⟩ := bind_ok w.plan
  obtain ⟨cols, h2, hx⟩ := bind_ok hx
  obtain ⟨ds, h3, hx⟩ := bind_ok hx
  obtain ⟨es, h4, hx⟩ := bind_ok hx
  obtain ⟨e', g1, g2, -, -, l1, l2⟩ := w.events i e he
  obtain ⟨pl, g3, g4⟩ := collect_get h4 g1
  obtain ⟨flt, k1, k2⟩ := bind_ok g4
  obtain ⟨bs, -, k2⟩ := bind_ok k2
  obtain ⟨as, -, k2⟩ := bind_ok k2
  have hpl : pl.filter = flt := by cases k2; rfl
  have hes : c.events = es := by cases hx; rfl
  have hq : ∀ n, (q.time = .last n .month → -2147483648 ≤ n ∧ n < 2147483648) ∧ (q.time = .last n .year → -178956970 ≤ n ∧ n ≤ 178956970) := by
    rw [w.time]
    intro n
    have := ht n
    constructor
    · intro e
      apply this.1
      cases hr : r.time with
      | between a b => rw [hr] at e; cases e
      | from_ a => rw [hr] at e; cases e
      | last m u => rw [hr] at e; cases u <;> simp [timeIn, unitIn] at e; rw [e]
    · intro e
      apply this.2
      cases hr : r.time with
      | between a b => rw [hr] at e; cases e
      | from_ a => rw [hr] at e; cases e
      | last m u => rw [hr] at e; cases u <;> simp [timeIn, unitIn] at e; rw [e]
  obtain ⟨te, f, t, t1, t2, t3⟩ := range_selects S hS .ms q.time cur hq
  rw [w.time] at t2
  refine ⟨pl, f, t, by rw [hes]; exact g3, t2, fun row row' hrow hts hst => ?_⟩
  -- columns of every chart are not decoded
  have hfix : ∀ col ∈ ["project_id".toList, "created_at".toList, "event".toList], row' col = row col := by
    intro col hcol
    refine decodeRow_other hrow fun d hm hcd => ?_
    obtain ⟨g, hg, rg, a1, a2, a3, rfl⟩ := (decoded_mem w d).mp hm
    apply hc.fixed g hg rg a1 a2 a3
    rw [show rg.columnName sys = col from hcd]
    exact hcol
  have hown : Owned p row' ↔ Owned p row := by unfold Owned; rw [hfix _ (by simp)]
  have hdur : During .ms f t row' ↔ During .ms f t row := by unfold During; rw [hfix _ (by simp)]
  rw [hpl]
  unfold segmentationFilter at k1
  rw [t1, g2, hn] at k1
  dsimp only at k1
  cases hee : eventExpression (mdOf sys p kv) fuel (eventIn (.regular n)) with
  | error y => rw [hee] at k1; cases k1
  | ok ee =>
    rw [hee] at k1
    dsimp only at k1
    obtain ⟨x1, m1, m2⟩ := withFilters_selects (S := S) (row := row') k1
    obtain ⟨x0, m3, m4⟩ := withFilters_selects (S := S) (row := row') m1
    cases m3
    have o1 := withFilters_ok m1
    have o2 := withFilters_ok k1
    rw [m2, m4, and_selects, and_selects, project_selects hp, t3 row' (by rw [hfix _ (by simp)]; exact hts), hown, hdur]
    have hev : Selects S row' ee ↔ OfEvent p kv n row := by
      cases fuel with
      | zero => cases hee
      | succ fuel =>
        simp only [eventIn, eventExpression, mdOf] at hee
        cases hg : (eventsC p).getBy .name n kv with
        | error y => rw [hg] at hee; cases hee
        | ok ev =>
          rw [hg] at hee
          cases hee
          rw [bin_eq_selects, toInt_ofNat (hid n ev hg), kEventCol_eq, hfix _ (by simp)]
          unfold OfEvent
          rw [hg]
          simp
    rw [hev]
    have passes : ∀ {fs : List (JFilter N)} {fs' : Option (List PropFilter)}, (∀ f ∈ fs, f ∈ allFilters r) → Owned p row →
        (∀ f ∈ fs, ∃ f' ∈ fs'.getD [], Linked E p kv f f') → (∀ f' ∈ fs'.getD [], ∃ f ∈ fs, Linked E p kv f f') →
        (∀ f ∈ fs'.getD [], ∃ x, (mdOf sys p kv).filter f = .ok x) →
        (PassesAll (mdOf sys p kv) S row' fs' ↔ ∀ f ∈ fs, Holds S E sys p kv row f) := by
      intro fs fs' hall ho j1 j2 j3
      constructor
      · intro hpa f hf
        obtain ⟨f', hf', hl⟩ := j1 f hf
        cases hq : fs' with
        | none => rw [hq] at hf'; simp at hf'
        | some l =>
          rw [hq] at hf'
          obtain ⟨x, hx, hs⟩ := hpa l hq f' hf'
          exact (filter_meaning S w hd hc hrow (hall f hf) hl hx (hst ho f (hall f hf))).mp hs
      · intro hh l hq f' hf'
        have hf'' : f' ∈ fs'.getD [] := by rw [hq]; exact hf'
        obtain ⟨f, hf, hl⟩ := j2 f' hf''
        obtain ⟨x, hx⟩ := j3 f' hf''
        exact ⟨x, hx, (filter_meaning S w hd hc hrow (hall f hf) hl hx (hst ho f (hall f hf))).mpr (hh f hf)⟩
    by_cases ho : Owned p row
    · rw [passes (fs := e.filters.getD []) (fun f hf => List.mem_append_left _ (List.mem_flatMap.mpr ⟨e, List.mem_of_getElem? he, hf⟩)) ho l1 l2 o1,
        passes (fs := sharedFilters r) (fun f hf => List.mem_append_right _ hf) ho w.filters.1 w.filters.2 o2]
      constructor
      · rintro ⟨⟨⟨⟨a, b⟩, c⟩, d⟩, e⟩; exact ⟨a, b, c, d, e⟩
      · rintro ⟨a, b, c, d, e⟩; exact ⟨⟨⟨⟨a, b⟩, c⟩, d⟩, e⟩
    · constructor
      · rintro ⟨⟨⟨⟨a, b⟩, c⟩, d⟩, e⟩; exact absurd a ho
      · rintro ⟨a, b, c, d, e⟩; exact absurd a ho

end OptiPrism.Platform
