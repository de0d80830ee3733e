import Verif.Platform.FunnelReqProps
import Verif.Platform.ChartRowsProps

/-!
# From a request for a funnel to the rows of its plan
-/

namespace OptiPrism.Platform

open OptiPrism.Meta (Str PropOp PropertyRef EventRef Scalar PropFilter Kv Property PropType Event propsC eventsC kEvents dictGetKey dictGetValue)
open OptiPrism.Query
open OptiPrism.Ingest (groupCol)

variable {N : Type} {E : ReqEnv N} {sys : Str → Str} {p : Nat} {kv : Kv} {tbl : List Str}

/-! ## The filters of a request -/

def stepFilters (r : JFunnel N) : List (JFilter N) := r.steps.flatMap fun s => s.events.flatMap fun e => e.filters.getD []

def exclusionFilters (r : JFunnel N) : List (JFilter N) := (r.exclude.getD []).flatMap fun e => e.filters.getD []

/-- The first of the groups. -/
def firstGroup : Option (JGrouped N) → List (JFilter N)
  | some ⟨_, g :: _⟩ => g.filters
  | _ => []

def funnelFilters (r : JFunnel N) : List (JFilter N) := stepFilters r ++ exclusionFilters r ++ firstGroup r.filters

/-! ## Filters as they are planned -/

/-- What a filter is planned as: like one put right, unless planning it fails. -/
def Akin (E : ReqEnv N) (sys : Str → Str) (p : Nat) (kv : Kv) (f : JFilter N) (f' : PropFilter) : Prop :=
  f'.property = propIn f.property ∧ f'.op = opIn f.op ∧
  ∃ f'', Linked E p kv f f'' ∧ ∀ x, propertyExpression sys p kv f' = .ok x → propertyExpression sys p kv f'' = .ok x

theorem Linked.akin {f : JFilter N} {f' : PropFilter} (h : Linked E p kv f f') : Akin E sys p kv f f' := by
  obtain ⟨r, vs, h1, h2, h3, rfl, h5⟩ := h
  exact ⟨rfl, rfl, _, ⟨r, vs, h1, h2, h3, rfl, h5⟩, fun _ h => h⟩

theorem filterIn_eq {f : JFilter N} {f' : PropFilter} (h : filterIn E f = some f') :
    ∃ v, dropEmpty (jsonToScalar E) f.value = some v ∧ f' = ⟨propIn f.property, opIn f.op, v⟩ := by
  unfold filterIn at h
  cases hv : dropEmpty (jsonToScalar E) f.value with
  | none => rw [hv] at h; cases h
  | some v => rw [hv] at h; cases h; exact ⟨v, rfl, rfl⟩

theorem dropEmpty_mem {α β : Type} {g : α → Option β} {l : Option (List α)} {v : Option (List β)} (h : dropEmpty g l = some v) (b : β) :
    b ∈ v.getD [] ↔ ∃ a ∈ l.getD [], g a = some b := by
  cases l with
  | none => cases h; simp
  | some l =>
    cases l with
    | nil => cases h; simp
    | cons a l =>
      simp only [dropEmpty] at h
      cases hm : (a :: l).mapM g with
      | none => rw [hm] at h; cases h
      | some bs =>
        rw [hm] at h
        cases h
        exact mapM_mem_iff hm b

theorem akin_of {f : JFilter N} (hv : validateFilter p kv f = .ok ()) {f' : PropFilter} (h : filterIn E f = some f')
    (ht : ∀ x, PropertyAt p kv f.property x → ∀ n, .num n ∈ f.value.getD [] → x.dataType ≠ .timestamp) : Akin E sys p kv f f' := by
  obtain ⟨r, h1, h2, h3⟩ := validFilter_ok hv
  obtain ⟨v, hd, rfl⟩ := filterIn_eq h
  refine ⟨rfl, rfl, ⟨propIn f.property, opIn f.op, some (v.getD [])⟩, ⟨r, v.getD [], h1, h2, h3, rfl, fun s => ?_⟩, fun x hx => ?_⟩
  · rw [dropEmpty_mem hd]
    have : ∀ a ∈ f.value.getD [], jsonToScalar E a = sent E r a := by
      intro a ha
      cases a with
      | num n => simp only [jsonToScalar, sent, if_neg (ht r (propertyAt_iff (h1 .plan)) n ha)]
      | _ => rfl
    constructor
    · rintro ⟨a, ha, e⟩; exact ⟨a, ha, by rw [← this a ha]; exact e⟩
    · rintro ⟨a, ha, e⟩; exact ⟨a, ha, by rw [this a ha]; exact e⟩
  · cases v with
    | some vs => exact hx
    | none =>
      unfold propertyExpression at hx ⊢
      dsimp only at hx ⊢
      rw [h1] at hx ⊢
      simp only [Bind.bind, Except.bind, Option.map_none, Option.map_some, Option.getD_none, List.map_nil] at hx ⊢
      cases ho : opIn f.op <;> rw [ho] at hx <;> simp only [propExpression, namedPropertyExpression, reduceCtorEq] at hx ⊢ <;>
        cases r.dictType <;> simpa [encodeDictValues] using hx

/-! ## The way of a request -/

/-- Filters converted one by one. -/
def SentAs (E : ReqEnv N) (fs : Option (List (JFilter N))) (fs' : Option (List PropFilter)) : Prop :=
  (∀ f ∈ fs.getD [], ∃ f' ∈ fs'.getD [], filterIn E f = some f') ∧ ∀ f' ∈ fs'.getD [], ∃ f ∈ fs.getD [], filterIn E f = some f'

theorem keepEmpty_sent {fs : Option (List (JFilter N))} {fs' : Option (List PropFilter)} (h : keepEmpty (filterIn E) fs = some fs') : SentAs E fs (noEmpty fs') := by
  unfold SentAs
  rw [noEmpty_getD]
  cases fs with
  | none => cases h; simp
  | some l =>
    simp only [keepEmpty] at h
    cases hm : l.mapM (filterIn E) with
    | none => rw [hm] at h; cases h
    | some bs =>
      rw [hm] at h
      cases h
      refine ⟨fun f hf => ?_, fun f' hf' => (mapM_mem_iff hm f').mp hf'⟩
      obtain ⟨i, hi⟩ := List.getElem?_of_mem hf
      obtain ⟨b, hb, e⟩ := mapM_get hm hi
      exact ⟨b, List.mem_of_getElem? hb, e⟩

structure FunnelWay (E : ReqEnv N) (wrap : Bool) (sys : Str → Str) (fuel : Nat) (p : Nat) (kv : Kv) (tbl : List Str) (cur : Int) (r : JFunnel N) (q : CFunnel)
    (c : FunnelPlan) : Prop where
  plan : funnelPlan wrap sys fuel p kv tbl cur q = .ok c
  time : q.time = timeIn r.time
  group : q.groupId = r.group
  window : q.timeWindow = windowIn r.timeWindow
  count : q.steps.length = r.steps.length
  steps : ∀ (i : Nat) (s : JStep N), r.steps[i]? = some s → ∃ s' : CStep, q.steps[i]? = some s' ∧ s'.order = stepOrderIn s.order ∧
    s'.events.length = s.events.length ∧ ∀ (j : Nat) (e : JFEvent N), s.events[j]? = some e → (∀ f ∈ e.filters.getD [], validateFilter p kv f = .ok ()) ∧
      ∃ e' : CFEvent, s'.events[j]? = some e' ∧ e'.event = eventIn e.event ∧ SentAs E e.filters e'.filters
  excluded : (q.exclude.getD []).length = (r.exclude.getD []).length
  exclude : ∀ (i : Nat) (e : JExclude N), (r.exclude.getD [])[i]? = some e → ∃ e' : CExclude, (q.exclude.getD [])[i]? = some e' ∧ e'.event = eventIn e.event ∧
    optConv (exStepsIn E) e.steps = some e'.steps ∧ SentAs E e.filters e'.filters
  filters : (∀ f ∈ firstGroup r.filters, ∃ f' ∈ q.filters.getD [], Linked E p kv f f') ∧ ∀ f' ∈ q.filters.getD [], ∃ f ∈ firstGroup r.filters, Linked E p kv f f'
  constants : q.holdingConstants.getD [] = (r.holdingConstants.getD []).map propIn
  breakdowns : q.breakdowns.getD [] = (r.breakdowns.getD []).map propIn
  distinct : (r.breakdowns.getD []).Nodup

theorem opt_bind {α β : Type} {x : Option α} {f : α → Option β} {b : β} (h : (x >>= f) = some b) : ∃ a, x = some a ∧ f a = some b := by
  cases x with
  | none => cases h
  | some a => exact ⟨a, rfl, h⟩

theorem funnel_way {wrap : Bool} {fuel : Nat} {cur : Int} {r : JFunnel N} {c : FunnelPlan} (h : funnel E wrap sys fuel p kv tbl cur r = .ok c) :
    ∃ q, FunnelWay E wrap sys fuel p kv tbl cur r q c := by
  obtain ⟨_, hv, h⟩ := bind_ok h
  obtain ⟨_, v1, hv⟩ := bind_ok hv
  obtain ⟨_, v2, hv⟩ := bind_ok hv
  obtain ⟨_, v3, hv⟩ := bind_ok hv
  obtain ⟨_, v4, hv⟩ := bind_ok hv
  obtain ⟨_, v5, hv⟩ := bind_ok hv
  obtain ⟨_, v6, hv⟩ := bind_ok hv
  obtain ⟨_, v7, hv⟩ := bind_ok hv
  obtain ⟨_, v8, hv⟩ := bind_ok hv
  obtain ⟨_, v9, hv⟩ := bind_ok hv
  obtain ⟨_, v10, hv⟩ := bind_ok hv
  obtain ⟨_, v11, v12⟩ := bind_ok hv
  cases hf : funnelIn E r with
  | none => rw [hf] at h; cases h
  | some r' =>
    rw [hf] at h
    obtain ⟨q, hq, hplan⟩ := bind_ok h
    obtain ⟨fs'', hq1, hq⟩ := bind_ok hq
    have hsg : r.segments = none := by simpa using require_ok v9
    unfold funnelIn at hf
    obtain ⟨st, hst, hf⟩ := opt_bind hf
    simp only [keepEmpty_refs, hsg] at hf
    obtain ⟨hc, hhc, hf⟩ := opt_bind hf
    obtain ⟨ex, hex, hf⟩ := opt_bind hf
    obtain ⟨bd, hbd, hf⟩ := opt_bind hf
    obtain ⟨sg, -, hf⟩ := opt_bind hf
    obtain ⟨fs', hfs, hf⟩ := opt_bind hf
    cases hf
    cases hhc
    cases hbd
    cases hq
    have hmap : ∀ bs : Option (List JPropertyRef), (noEmpty (bs.map fun l => l.map propIn)).getD [] = (bs.getD []).map propIn := by
      intro bs
      rw [noEmpty_getD]
      cases bs <;> rfl
    refine ⟨_, hplan, rfl, rfl, rfl, by simp [mapM_length hst], fun i s hi => ?_, ?_, fun i e hi => ?_, ?_, hmap _, hmap _, by simpa using require_ok v7⟩
    · obtain ⟨s', hs', e'⟩ := mapM_get hst hi
      unfold stepIn at e'
      obtain ⟨es, hes, e'⟩ := opt_bind e'
      cases e'
      refine ⟨_, by simp only [List.getElem?_map, hs', Option.map_some]; rfl, rfl, by simp [mapM_length hes], fun j e hj => ?_⟩
      have hm := List.mem_of_getElem? hi
      obtain ⟨_, w1, w⟩ := bind_ok (each_ok v5 s hm)
      obtain ⟨_, w2, _⟩ := bind_ok w
      obtain ⟨_, _, w3⟩ := bind_ok (each_ok w2 e (List.mem_of_getElem? hj))
      obtain ⟨e1, he1, x⟩ := mapM_get hes hj
      unfold fEventIn at x
      obtain ⟨fs, hfs, x⟩ := opt_bind x
      cases x
      exact ⟨each_ok w3, _, by simp only [List.getElem?_map, he1, Option.map_some]; rfl, rfl, keepEmpty_sent hfs⟩
    · cases hx : r.exclude with
      | none => rw [hx] at hex; cases hex; rfl
      | some l =>
        rw [hx] at hex
        simp only [keepEmpty] at hex
        cases hm : l.mapM (excludeIn E) with
        | none => rw [hm] at hex; cases hex
        | some bs =>
          rw [hm] at hex
          cases hex
          have hl := mapM_length hm
          cases bs with
          | nil => simpa [noEmpty] using hl
          | cons b bs => simpa [noEmpty] using hl
    · cases hx : r.exclude with
      | none => rw [hx] at hi; simp at hi
      | some l =>
        rw [hx] at hex hi
        simp only [Option.getD_some] at hi
        simp only [keepEmpty] at hex
        cases hm : l.mapM (excludeIn E) with
        | none => rw [hm] at hex; cases hex
        | some bs =>
          rw [hm] at hex
          cases hex
          obtain ⟨b, hb, x⟩ := mapM_get hm hi
          unfold excludeIn at x
          obtain ⟨fs, hfs, x⟩ := opt_bind x
          obtain ⟨se, hse, x⟩ := opt_bind x
          cases x
          have hne : noEmpty (some bs) = some bs := by
            cases bs with
            | nil => simp at hb
            | cons b bs => rfl
          refine ⟨_, by simp only [Option.map_some, hne, Option.getD_some, List.getElem?_map, hb]; rfl, rfl, hse, keepEmpty_sent hfs⟩
    · dsimp only
      cases hg : r.filters with
      | none =>
        rw [hg] at hfs
        cases hfs
        cases hq1
        simp [firstGroup]
      | some g =>
        obtain ⟨gc, gs⟩ := g
        rw [hg] at hfs v12
        cases gs with
        | nil => cases hfs
        | cons g0 gs =>
          have hv0 := each_ok v12 g0 (by simp)
          have hk : keepEmpty (filterIn E) (some g0.filters) = some fs' := hfs
          simp only [keepEmpty] at hk
          cases hfl : g0.filters with
          | nil =>
            rw [hfl] at hk
            cases hk
            cases hq1
            simp [firstGroup, hfl]
          | cons a l =>
            have := filters_linked (E := E) (p := p) (kv := kv) (fs := some g0.filters) (fs' := fs') (fs'' := fs'') (each_ok hv0)
              (by rw [hfl] at hk ⊢; exact hk) hq1
            simpa only [firstGroup, Option.getD_some] using this

/-! ## What is decoded -/

theorem decodeFilter_mem {f : JFilter N} {f' : PropFilter} (hk : Akin E sys p kv f f') {l : List (Str × Str)} (hl : decodeFilter sys p kv f' = .ok l) (d : Str × Str) :
    d ∈ l ↔ ∃ rf, PropertyAt p kv f.property rf ∧ rf.isDictionary = true ∧ Pattern f.op ∧ d = (rf.columnName sys, tableAt f.property) := by
  obtain ⟨k1, k2, _, ⟨rp, vs, a1, -⟩, -⟩ := hk
  have hp := propertyAt_iff (a1 .plan)
  unfold decodeFilter at hl
  rw [k1, k2] at hl
  by_cases ho : decodedOp (opIn f.op) = true
  · rw [if_pos ho, a1] at hl
    cases hl
    constructor
    · intro hd
      split at hd
      · rename_i hdict
        refine ⟨rp, hp, hdict, (pattern_iff _).mp ho, ?_⟩
        rw [tableAt_eq] at hd
        simpa using hd
      · simp at hd
    · rintro ⟨rf, hp', hd, -, rfl⟩
      rw [propertyAt_unique hp hp'] at hd ⊢
      rw [if_pos hd, tableAt_eq]
      simp
  · rw [if_neg ho] at hl
    cases hl
    simp only [List.not_mem_nil, false_iff]
    rintro ⟨rf, -, -, hpat, -⟩
    exact ho ((pattern_iff _).mpr hpat)

/-- Requests whose filters mean what they say, in a store. -/
structure ClearFunnel (E : ReqEnv N) (sys : Str → Str) (p : Nat) (kv : Kv) (r : JFunnel N) : Prop where
  clear : Clear E sys p kv (funnelFilters r)
  /-- In steps and exclusions, times are not compared with numbers. -/
  times : ∀ f ∈ stepFilters r ++ exclusionFilters r, ∀ x, PropertyAt p kv f.property x → ∀ n, .num n ∈ f.value.getD [] → x.dataType ≠ .timestamp
  /-- The filters of exclusions would be accepted in a step. -/
  exclusions : ∀ f ∈ exclusionFilters r, validateFilter p kv f = .ok ()
  /-- The filters of exclusions are not patterns of dictionary properties. -/
  patterns : ∀ f ∈ exclusionFilters r, ∀ x, PropertyAt p kv f.property x → x.isDictionary = true → ¬ Pattern f.op

theorem mem_stepFilters {r : JFunnel N} {f : JFilter N} :
    f ∈ stepFilters r ↔ ∃ (i : Nat) (s : JStep N), r.steps[i]? = some s ∧ ∃ (j : Nat) (e : JFEvent N), s.events[j]? = some e ∧ f ∈ e.filters.getD [] := by
  simp only [stepFilters, List.mem_flatMap]
  constructor
  · rintro ⟨s, hs, e, he, hf⟩
    obtain ⟨i, hi⟩ := List.getElem?_of_mem hs
    obtain ⟨j, hj⟩ := List.getElem?_of_mem he
    exact ⟨i, s, hi, j, e, hj, hf⟩
  · rintro ⟨i, s, hi, j, e, hj, hf⟩
    exact ⟨s, List.mem_of_getElem? hi, e, List.mem_of_getElem? hj, hf⟩

variable {wrap : Bool} {fuel : Nat} {cur : Int} {r : JFunnel N} {q : CFunnel} {c : FunnelPlan}

/-- Filters of a step as planned. -/
theorem step_akin (hc : ClearFunnel E sys p kv r) {i j : Nat} {s : JStep N} {e : JFEvent N} (hi : r.steps[i]? = some s) (hj : s.events[j]? = some e)
    (hv : ∀ f ∈ e.filters.getD [], validateFilter p kv f = .ok ()) {f : JFilter N} (hf : f ∈ e.filters.getD []) {f' : PropFilter} (h : filterIn E f = some f') :
    Akin E sys p kv f f' :=
  akin_of (hv f hf) h fun x hx n hn => hc.times f (List.mem_append_left _ (mem_stepFilters.mpr ⟨i, s, hi, j, e, hj, hf⟩)) x hx n hn

theorem funnel_decoded (w : FunnelWay E wrap sys fuel p kv tbl cur r q c) (hc : ClearFunnel E sys p kv r) (d : Str × Str) :
    d ∈ c.decoded ↔ ∃ f ∈ stepFilters r ++ firstGroup r.filters, ∃ rf, PropertyAt p kv f.property rf ∧ rf.isDictionary = true ∧ Pattern f.op ∧
      d = (rf.columnName sys, tableAt f.property) := by
  obtain ⟨pr, h1, h⟩ := bind_ok w.plan
  obtain ⟨cols, h2, h⟩ := bind_ok h
  obtain ⟨ds, h3, h⟩ := bind_ok h
  obtain ⟨fl, h4, h⟩ := bind_ok h
  obtain ⟨wd, h5, h⟩ := bind_ok h
  obtain ⟨st, h6, h⟩ := bind_ok h
  obtain ⟨ex, h7, h⟩ := bind_ok h
  obtain ⟨cs, h8, h⟩ := bind_ok h
  obtain ⟨bd, h9, h⟩ := bind_ok h
  obtain ⟨gs, h10, h⟩ := bind_ok h
  obtain ⟨_, h11, h⟩ := bind_ok h
  obtain ⟨ns, h12, h⟩ := bind_ok h
  cases h
  have all1 : ∀ f ∈ stepFilters r ++ firstGroup r.filters, ∃ f' ∈ q.decodable, Akin E sys p kv f f' := by
    intro f hf
    rcases List.mem_append.mp hf with hf | hf
    · obtain ⟨i, s, hi, j, e, hj, hf⟩ := mem_stepFilters.mp hf
      obtain ⟨s', hi', -, -, hs⟩ := w.steps i s hi
      obtain ⟨hv, e', hj', -, l1, -⟩ := hs j e hj
      obtain ⟨f', hf', hl⟩ := l1 f hf
      refine ⟨f', List.mem_append_left _ ?_, step_akin hc hi hj hv hf hl⟩
      exact List.mem_flatMap.mpr ⟨s', List.mem_of_getElem? hi', List.mem_flatMap.mpr ⟨e', List.mem_of_getElem? hj', hf'⟩⟩
    · obtain ⟨f', hf', hl⟩ := w.filters.1 f hf
      exact ⟨f', List.mem_append_right _ hf', hl.akin⟩
  have all2 : ∀ f' ∈ q.decodable, ∃ f ∈ stepFilters r ++ firstGroup r.filters, Akin E sys p kv f f' := by
    intro f' hf
    rcases List.mem_append.mp hf with hf | hf
    · obtain ⟨s', hs', hf⟩ := List.mem_flatMap.mp hf
      obtain ⟨e', he', hf⟩ := List.mem_flatMap.mp hf
      obtain ⟨i, hi⟩ := List.getElem?_of_mem hs'
      have hlt : i < q.steps.length := (List.getElem?_eq_some_iff.mp hi).1
      rw [w.count] at hlt
      have hi0 := List.getElem?_eq_getElem hlt
      obtain ⟨s'', hs'', -, hlen, hs⟩ := w.steps i _ hi0
      rw [hi] at hs''
      cases hs''
      obtain ⟨j, hj⟩ := List.getElem?_of_mem he'
      have hlt' : j < s'.events.length := (List.getElem?_eq_some_iff.mp hj).1
      rw [hlen] at hlt'
      have hj0 := List.getElem?_eq_getElem hlt'
      obtain ⟨hv, e'', he'', -, -, l2⟩ := hs j _ hj0
      rw [hj] at he''
      cases he''
      obtain ⟨f, hm, hl⟩ := l2 f' hf
      exact ⟨f, List.mem_append_left _ (mem_stepFilters.mpr ⟨i, _, hi0, j, _, hj0, hm⟩), step_akin hc hi0 hj0 hv hm hl⟩
    · obtain ⟨f, hm, hl⟩ := w.filters.2 f' hf
      exact ⟨f, List.mem_append_right _ hm, hl.akin⟩
  simp only [List.mem_flatten]
  constructor
  · rintro ⟨l, hl, hd⟩
    obtain ⟨f', hf', hx⟩ := (collect_spec h3).2.1 l hl
    obtain ⟨f, hf, hk⟩ := all2 f' hf'
    exact ⟨f, hf, (decodeFilter_mem hk hx d).mp hd⟩
  · rintro ⟨f, hf, hx⟩
    obtain ⟨f', hf', hk⟩ := all1 f hf
    obtain ⟨l, hl, he⟩ := (collect_spec h3).1 f' hf'
    exact ⟨l, hl, (decodeFilter_mem hk he d).mpr hx⟩

/-! ## Rows -/

/-- Filters planned, of a row decoded. -/
theorem passes_holds (S : Sem) (w : FunnelWay E wrap sys fuel p kv tbl cur r q c) (hc : ClearFunnel E sys p kv r) (hd : Dictionaries p kv) {row row' : QRow}
    (hrow : decodeRow p kv c.decoded row = some row') (hst : StoredIn sys p kv row (funnelFilters r)) {fs : List (JFilter N)} {fs' : Option (List PropFilter)}
    (hall : ∀ f ∈ fs, f ∈ funnelFilters r)
    (hself : ∀ f ∈ fs, f ∈ stepFilters r ++ firstGroup r.filters ∨ ∀ x, PropertyAt p kv f.property x → x.isDictionary = true → ¬ Pattern f.op)
    (j1 : ∀ f ∈ fs, ∃ f' ∈ fs'.getD [], Akin E sys p kv f f') (j2 : ∀ f' ∈ fs'.getD [], ∃ f ∈ fs, Akin E sys p kv f f')
    (j3 : ∀ f ∈ fs'.getD [], ∃ x, (mdOf sys p kv).filter f = .ok x) :
    PassesAll (mdOf sys p kv) S row' fs' ↔ ∀ f ∈ fs, Holds S E sys p kv row f := by
  have hmem : ∀ d ∈ c.decoded, ∃ f ∈ funnelFilters r, ∃ rf, PropertyAt p kv f.property rf ∧ rf.isDictionary = true ∧ Pattern f.op ∧
      d = (rf.columnName sys, tableAt f.property) := by
    intro d hm
    obtain ⟨f, hf, h⟩ := (funnel_decoded w hc d).mp hm
    refine ⟨f, ?_, h⟩
    rcases List.mem_append.mp hf with hf | hf
    · exact List.mem_append_left _ (List.mem_append_left _ hf)
    · exact List.mem_append_right _ hf
  have mean : ∀ f ∈ fs, ∀ f', Akin E sys p kv f f' → ∀ x, propertyExpression sys p kv f' = .ok x → (Selects S row' x ↔ Holds S E sys p kv row f) := by
    rintro f hf f' ⟨-, -, f'', hl, hi⟩ x hx
    refine filter_meaning_of S hmem hd hc.clear hrow (hall f hf) hl (hi x hx) (fun rp h1 h2 h3 => ?_) (hst f (hall f hf))
    rcases hself f hf with h | h
    · exact (funnel_decoded w hc _).mpr ⟨f, h, rp, h1, h2, h3, rfl⟩
    · exact absurd h3 (h rp h1 h2)
  constructor
  · intro hpa f hf
    obtain ⟨f', hf', hl⟩ := j1 f hf
    cases hq : fs' with
    | none => rw [hq] at hf'; simp at hf'
    | some l =>
      rw [hq] at hf'
      obtain ⟨x, hx, hs⟩ := hpa l hq f' hf'
      exact (mean f hf f' hl x hx).mp hs
  · intro hh l hq f' hf'
    have hf'' : f' ∈ fs'.getD [] := by rw [hq]; exact hf'
    obtain ⟨f, hf, hl⟩ := j2 f' hf''
    obtain ⟨x, hx⟩ := j3 f' hf''
    exact ⟨x, hx, (mean f hf f' hl x hx).mpr (hh f hf)⟩

theorem named_selects (S : Sem) (hid : ∀ n ev, (eventsC p).getBy .name n kv = .ok ev → ev.id < 2 ^ 63) {row row' : QRow}
    (hfix : row' "event".toList = row "event".toList) {n : Str} {x : Expr} (h : eventExpression (mdOf sys p kv) fuel (eventIn (.regular n)) = .ok x) :
    Selects S row' x ↔ OfEvent p kv n row := by
  cases fuel with
  | zero => cases h
  | succ fuel =>
    simp only [eventIn, eventExpression, mdOf] at h
    cases hg : (eventsC p).getBy .name n kv with
    | error y => rw [hg] at h; cases h
    | ok ev =>
      rw [hg] at h
      cases h
      rw [bin_eq_selects, toInt_ofNat (hid n ev hg), kEventCol_eq, hfix]
      unfold OfEvent
      rw [hg]
      simp

/-- Columns of every funnel are not decoded. -/
theorem fixed_kept (w : FunnelWay E wrap sys fuel p kv tbl cur r q c) (hc : ClearFunnel E sys p kv r) {row row' : QRow}
    (hrow : decodeRow p kv c.decoded row = some row') : ∀ col ∈ ["project_id".toList, "created_at".toList, "event".toList], row' col = row col := by
  intro col hcol
  refine decodeRow_other hrow fun d hm hcd => ?_
  obtain ⟨g, hg, rg, a1, a2, a3, rfl⟩ := (funnel_decoded w hc d).mp hm
  have hg' : g ∈ funnelFilters r := by
    rcases List.mem_append.mp hg with hf | hf
    · exact List.mem_append_left _ (List.mem_append_left _ hf)
    · exact List.mem_append_right _ hf
  apply hc.clear.fixed g hg' rg a1 a2 a3
  rw [show rg.columnName sys = col from hcd]
  exact hcol

end OptiPrism.Platform
