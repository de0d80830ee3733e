import Verif.Platform.ChartDemo

/-!
# C127, C128: the rows of a chart are those asked for, and rows of others do not disturb it
-/

namespace OptiPrism.Platform

open OptiPrism.Meta (Str PropOp PropertyRef EventRef Scalar PropFilter Kv Property PropType Event propsC customC eventsC kEvents dictGetValue dictGetKey)
open OptiPrism.Query
open OptiPrism.Ingest (groupCol dictRoom dictCell World Life KeepsSys)

variable {N : Type} {E : ReqEnv N} {sys : Str → Str} {p : Nat} {kv : Kv} {tbl : List Str}

/-! ## Spec -/

/-- The filters of a group hold, as the group joins them. -/
def GroupHolds (S : Sem) (E : ReqEnv N) (sys : Str → Str) (p : Nat) (kv : Kv) (row : QRow) (g : JGroup N) : Prop :=
  if g.filtersOr then ∃ f ∈ g.filters, Holds S E sys p kv row f else ∀ f ∈ g.filters, Holds S E sys p kv row f

/-- The groups of filters hold, as the request joins them. -/
def GroupsHold (S : Sem) (E : ReqEnv N) (sys : Str → Str) (p : Nat) (kv : Kv) (row : QRow) : Option (JGrouped N) → Prop
  | none => True
  | some g => if g.groupsCondition = some .or then ∃ x ∈ g.groups, GroupHolds S E sys p kv row x else ∀ x ∈ g.groups, GroupHolds S E sys p kv row x

/-- The row is one an event of the request asks for, `f` to `t` being the time asked for. -/
def Asked (S : Sem) (E : ReqEnv N) (sys : Str → Str) (p : Nat) (kv : Kv) (f t : Int) (r : JSegReq N) (e : JEvent N) (n : Str) (row : QRow) : Prop :=
  Owned p row ∧ During .ms f t row ∧ OfEvent p kv n row ∧ (∀ f ∈ e.filters.getD [], Holds S E sys p kv row f) ∧
    GroupsHold S E sys p kv row r.filters

/-- The full claim: of a regular event of a planned chart exactly the rows asked for are counted. -/
def C127_full (N : Type) : Prop :=
  ∀ (S : Sem), (∀ a b, S.lt (.ts a) (.ts b) = decide (a < b)) → ∀ (E : ReqEnv N) (sys : Str → Str) (fuel p : Nat) (kv : Kv) (tbl : List Str) (cur : Int) (r : JSegReq N) (c : Chart), chart E sys fuel p kv tbl cur r = .ok c →
    ∀ (i : Nat) e n, r.events[i]? = some e → e.event = .regular n →
      ∃ pl f t, c.events[i]? = some pl ∧ Denotes (timeIn r.time) cur f t ∧
        ∀ row row', decodeRow p kv c.decoded row = some row' → (∀ x, row "created_at".toList = some x → ∃ v, x = .ts v) →
        (Owned p row → StoredIn sys p kv row (allFilters r)) → (Selects S row' pl.filter ↔ Asked S E sys p kv f t r e n row)

/-- At most one group of filters, all of which are to hold. -/
def SingleGroup (r : JSegReq N) : Prop := ∀ g, r.filters = some g → ∃ x, g.groups = [x] ∧ (x.filtersOr = true → ∃ f, x.filters = [f])

theorem singleGroup_holds {S : Sem} {row : QRow} {r : JSegReq N} (h : SingleGroup r) :
    (∀ f ∈ sharedFilters r, Holds S E sys p kv row f) ↔ GroupsHold S E sys p kv row r.filters := by
  unfold sharedFilters GroupsHold
  cases hr : r.filters with
  | none => simp
  | some g =>
    obtain ⟨x, h1, h2⟩ := h g hr
    obtain ⟨cond, gs⟩ := g
    simp only at h1
    subst h1
    have : (∀ f ∈ x.filters, Holds S E sys p kv row f) ↔ GroupHolds S E sys p kv row x := by
      unfold GroupHolds
      split
      · rename_i ho
        obtain ⟨f, e⟩ := h2 ho
        simp [e]
      · rfl
    simp only [List.mem_singleton, exists_eq_left, forall_eq]
    rw [this]
    split <;> rfl

theorem chart_asked (S : Sem) (hS : ∀ a b, S.lt (.ts a) (.ts b) = decide (a < b)) (hd : Dictionaries p kv) (hid : ∀ n ev, (eventsC p).getBy .name n kv = .ok ev → ev.id < 2 ^ 63) (hp : p < 2 ^ 63) {fuel : Nat} {cur : Int}
    {r : JSegReq N} {c : Chart} (h : chart E sys fuel p kv tbl cur r = .ok c) (ht : TimeInRange r.time) (hc : Clear E sys p kv (allFilters r)) (hone : SingleGroup r)
    {i : Nat} {e : JEvent N} (he : r.events[i]? = some e) {n : Str} (hn : e.event = .regular n) :
    ∃ pl f t, c.events[i]? = some pl ∧ Denotes (timeIn r.time) cur f t ∧
      ∀ row row', decodeRow p kv c.decoded row = some row' → (∀ x, row "created_at".toList = some x → ∃ v, x = .ts v) →
      (Owned p row → StoredIn sys p kv row (allFilters r)) → (Selects S row' pl.filter ↔ Asked S E sys p kv f t r e n row) := by
  obtain ⟨pl, f, t, h1, h2, h3⟩ := chart_rows S hS hd hid hp h ht hc he hn
  refine ⟨pl, f, t, h1, h2, fun row row' ha hb hs => ?_⟩
  rw [h3 row row' ha hb hs, singleGroup_holds hone]
  rfl

/-! ## The states -/

variable {Q : Type} {M : Meta.Env Q} {T : Str → Bool} {m : Nat} {w : World}

/-- A dictionary nobody writes into except by looking up strings is intact. -/
theorem coded_of {p : Nat} {t d : Str} (hw : '/' ∉ t ∧ '/' ∉ d) {kv : Kv} (h : Meta.Runs M (Meta.Req.NoPut p t d) [] m kv) (hm : m < 2 ^ 62) {dt : Meta.DictType}
    (hroom : m < dictRoom dt) : Coded p t d kv dt := by
  obtain ⟨hi, -, hl⟩ := h.dict hw (Meta.DInv.empty p t _) (by simp only [Meta.dictLast, Meta.getK, Meta.Kv.get]; simp; omega)
  have hl' : Meta.dictLast p t d kv ≤ m := by simpa [Meta.dictLast, Meta.getK, Meta.Kv.get] using hl
  have hsmall : ∀ s k, dictGetKey p t d s kv = .ok k → k ≤ m := by
    intro s k hk
    obtain ⟨h4, h5⟩ := (Meta.getKey_iff hi s k).mp hk
    obtain ⟨k', e', -, h6, -⟩ := hi.val s _ h4
    have := Meta.le64_inj h5 (by omega) e'
    omega
  refine ⟨fun s k => ?_, fun s k hk => ?_⟩
  · by_cases hk : k < 2 ^ 64
    · exact (Meta.C29_bijection hw h hm).2 s k hk
    · constructor
      · intro e; have := hsmall s k e; omega
      · intro e
        unfold dictGetValue at e
        cases hb : Meta.getK kv (.dictKey p t d k) with
        | none => rw [hb] at e; cases e
        | some b => obtain ⟨_, -, -, h1, -⟩ := hi.key k b hb; omega
  · have := hsmall s k hk
    exact ⟨by omega, by omega⟩

theorem Life.dictionaries (hk : KeepsSys M.sys) (h : Life M T m w) (hm : m < 2 ^ 61) (p : Nat) : Dictionaries p w.kv := by
  have hL := h.inv hk hm
  have live : ∀ ty x r, (propsC p ty).getBy .name x w.kv = .ok r → ∃ id, (propsC p ty).live w.kv id = some r := by
    intro ty x r hr
    rcases (Meta.getBy_eq ((hL.inv.kv.prop (by omega) p ty).inv (Meta.props_ok _ _)) (name_ix ty) x _).mp hr with ⟨id, r', h1, -, e⟩ | ⟨-, e⟩
    · injection e with e; subst e; exact ⟨id, h1⟩
    · cases e
  intro ref r hr
  have : ∃ ty id, (propsC p ty).live w.kv id = some r := by
    cases ref with
    | event x => exact ⟨_, live _ x r hr⟩
    | group x g => exact ⟨_, live _ x r hr⟩
    | custom i => cases hr
  obtain ⟨ty, id, hl⟩ := this
  have hru := (hL.inv.kv.ruled p ty id r hl).1
  exact ⟨hru.dict, hru.text⟩

theorem Life.eventIds (hk : KeepsSys M.sys) (h : Life M T m w) (hm : m < 2 ^ 61) {p : Nat} {x : Str} {ev : Event} (he : (eventsC p).getBy .name x w.kv = .ok ev) :
    ev.id < 2 ^ 63 := by
  have hL := h.inv hk hm
  obtain ⟨k, h1, h2⟩ := hL.inv.kv.hist
  have hlast := (Meta.hist_events_le h2 p).last (Meta.events_ok p) (by omega)
  have hi := (hL.inv.kv.event (by omega) p).inv (Meta.events_ok p)
  have hix : (Meta.Ix.name, fun r : Event => some r.name) ∈ (eventsC p).ixs := by simp [eventsC]
  rcases (Meta.getBy_eq hi hix x _).mp he with ⟨id, r', g1, -, e⟩ | ⟨-, e⟩
  · injection e with e
    subst e
    obtain ⟨e1, -, e2, -⟩ := Meta.Inv.live_id hi g1
    have e3 : ev.id = id := e1
    omega
  · cases e

/-- C127 (partial): in every state of the system, the filter of a regular event of a chart selects, after decoding, exactly the rows of
the project, time and event whose stored values satisfy the filters as they were sent. Missing: custom events, several groups of filters
or filters joined by "or", numbers with a fraction compared with times, columns both matched against patterns and compared, and patterns
for the columns every chart filters by. -/
theorem C127_partial (S : Sem) (hS : ∀ a b, S.lt (.ts a) (.ts b) = decide (a < b)) (hk : KeepsSys M.sys) (h : Life M T m w) (hm : m < 2 ^ 61) {project : Meta.Project} (hp : Meta.projectsC.getById p w.kv = .ok project)
    {fuel : Nat} {cur : Int} {r : JSegReq N} {c : Chart} (hc : chart E M.sys fuel p w.kv (eventCols w) cur r = .ok c) (ht : TimeInRange r.time)
    (hclear : Clear E M.sys p w.kv (allFilters r)) (hone : SingleGroup r) {i : Nat} {e : JEvent N} (he : r.events[i]? = some e) {n : Str} (hn : e.event = .regular n) :
    ∃ pl f t, c.events[i]? = some pl ∧ Denotes (timeIn r.time) cur f t ∧
      ∀ row row', decodeRow p w.kv c.decoded row = some row' → (∀ x, row "created_at".toList = some x → ∃ v, x = .ts v) →
      (Owned p row → StoredIn M.sys p w.kv row (allFilters r)) → (Selects S row' pl.filter ↔ Asked S E M.sys p w.kv f t r e n row) := by
  have hL := h.inv hk hm
  have hpi := hL.inv.kv.pinv (by omega)
  have hp63 : p < 2 ^ 63 := by
    rw [hpi.1.getById] at hp
    cases hl : Meta.projectsC.live w.kv p with
    | none => rw [hl] at hp; cases hp
    | some r => have := (hpi.1.live hl).2.2.1; omega
  exact chart_asked S hS (Life.dictionaries hk h hm p) (fun x ev hx => Life.eventIds hk h hm hx) hp63 hc ht hclear hone he hn

/-! ## Cases -/

theorem exSem_ts : ∀ a b, exSem.lt (.ts a) (.ts b) = decide (a < b) := fun _ _ => rfl

/-- Filters of the example store, without patterns. -/
theorem demo_clear {fs : List (JFilter Int)} (hn : ∀ f ∈ fs, ∀ n, .num n ∈ f.value.getD [] → -2 ^ 63 ≤ n ∧ n < 2 ^ 63) (hg : ∀ f ∈ fs, tableAt f.property = kEvents)
    (hp : ∀ f ∈ fs, ¬ Pattern f.op) : Clear exReqEnv id 1 demoKv fs where
  nums f hf r _ n hm m s he := by
    have := hn f hf n hm
    simp only [exReqEnv, Option.some.injEq, Prod.mk.injEq] at he
    obtain ⟨rfl, rfl⟩ := he
    refine ⟨by omega, fun _ => ⟨rfl, ?_⟩⟩
    rw [BitVec.toInt_ofInt, Int.bmod_eq_of_le (by omega) (by omega)]
    exact this
  dicts f hf r dt hr hdt := by
    rcases demo_prop hr with rfl | rfl
    · cases hdt
      have e : cityAt.columnName id = "e_str_0".toList := by decide +kernel
      rw [e]
      exact demo_coded _ (hg f hf)
    · cases hdt
  fixed f hf r _ _ hpat := absurd hpat (hp f hf)
  apart f hf g _ r s _ _ _ hpat := absurd hpat (hp f hf)

/-- The hypotheses hold of the example request, and its rows are decoded. -/
example : Dictionaries 1 demoKv ∧ (∀ n ev, (eventsC 1).getBy .name n demoKv = .ok ev → ev.id < 2 ^ 63) ∧ TimeInRange demo.time ∧
    Clear exReqEnv id 1 demoKv (allFilters demo) ∧ SingleGroup demo ∧ (chart exReqEnv id 1 1 demoKv demoCols 0 demo).toOption.isSome = true ∧
    StoredIn id 1 demoKv (demoRow (some 1) (some 9)) (allFilters demo) := by
  refine ⟨demo_dictionaries, fun n ev h => ?_, ?_, demo_clear ?_ ?_ ?_, ?_, by decide +kernel, ?_⟩
  · rw [(demo_event h).2]; decide
  · intro n; simp [demo, ask]
  · intro f hf n hm
    simp only [allFilters, demo, ask, sharedFilters, List.flatMap_cons, List.flatMap_nil, Option.getD_some, List.append_nil, List.mem_cons, List.not_mem_nil,
      or_false] at hf
    rcases hf with rfl | rfl <;> simp at hm
    subst hm
    omega
  · intro f hf
    simp only [allFilters, demo, ask, sharedFilters, List.flatMap_cons, List.flatMap_nil, Option.getD_some, List.append_nil, List.mem_cons, List.not_mem_nil,
      or_false] at hf
    rcases hf with rfl | rfl <;> rfl
  · intro f hf
    simp only [allFilters, demo, ask, sharedFilters, List.flatMap_cons, List.flatMap_nil, Option.getD_some, List.append_nil, List.mem_cons, List.not_mem_nil,
      or_false] at hf
    rcases hf with rfl | rfl <;> simp [Pattern]
  · intro g hg
    cases hg
  · intro f hf r hr
    simp only [allFilters, demo, ask, sharedFilters, List.flatMap_cons, List.flatMap_nil, Option.getD_some, List.append_nil, List.mem_cons, List.not_mem_nil,
      or_false] at hf
    rcases hf with rfl | rfl
    · cases Except.ok.inj (Eq.trans (Eq.symm hr) city_at)
      exact ⟨some (.str "Rome".toList), .inr ⟨1, "Rome".toList, by decide +kernel, ok_of (by decide +kernel), rfl⟩⟩
    · cases Except.ok.inj (Eq.trans (Eq.symm hr) when_at)
      exact ⟨some (.ts 9), by unfold ValueAt; rw [if_neg (by decide)]; decide +kernel⟩

/-- Of the rows of Rome that later than 5 ms is counted, the other is not. -/
example : (chart exReqEnv id 1 1 demoKv demoCols 0 demo).toOption.map (fun c => c.events.map fun pl =>
    (decide (eval exSem (demoRow (some 1) (some 9)) pl.filter = some true), decide (eval exSem (demoRow (some 1) (some 3)) pl.filter = some true),
      decide (eval exSem (demoRow (some 2) (some 9)) pl.filter = some true))) = some [(true, false, false)] := by decide +kernel

/-- City is Rome or the time is later than 5 ms. -/
def eitherReq : JSegReq Int :=
  { ask Int "buy".toList with
    filters := some ⟨none, [⟨true, [⟨.event "city".toList, .eq, some [.str "Rome".toList]⟩, ⟨.event "when".toList, .gt, some [.num 5]⟩]⟩]⟩ }

theorem rome_holds {S : Sem} {w : Option Int} : Holds S exReqEnv id 1 demoKv (demoRow (some 1) w) ⟨.event "city".toList, .eq, some [.str "Rome".toList]⟩ := by
  refine ⟨cityAt, some (.str "Rome".toList), [some (.str "Rome".toList)], city_at,
    .inr ⟨1, "Rome".toList, ?_, ok_of (by decide +kernel), rfl⟩, ?_, _, _, rfl, List.mem_singleton.mpr rfl, rfl⟩
  · have e : cityAt.columnName id = "e_str_0".toList := by decide +kernel
    rw [e]; rfl
  · intro c; simp [Meant]

/-- The full claim at a request for one event in the example store. -/
theorem full_at (h : C127_full Int) (S : Sem) (hS : ∀ a b, S.lt (.ts a) (.ts b) = decide (a < b)) {r : JSegReq Int} {row : QRow} {b : Bool}
    (hok : (chart exReqEnv id 1 1 demoKv demoCols 0 r).toOption.map (fun c => c.events.map fun pl =>
      (decodeRow 1 demoKv c.decoded row).map fun row' => decide (eval S row' pl.filter = some true)) = some [some b])
    {e : JEvent Int} {n : Str} (he : r.events[0]? = some e) (hn : e.event = .regular n) (ht : r.time = .last 7 .day)
    (hts : ∀ x, row "created_at".toList = some x → ∃ v, x = .ts v) (hst : StoredIn id 1 demoKv row (allFilters r)) :
    b = true ↔ Asked S exReqEnv id 1 demoKv (-(7 * nsDay)) 0 r e n row := by
  cases hc : chart exReqEnv id 1 1 demoKv demoCols 0 r with
  | error e => rw [hc] at hok; cases hok
  | ok c =>
    rw [hc] at hok
    simp only [Except.toOption, Option.map_some, Option.some.injEq] at hok
    obtain ⟨pl, f, t, h1, h2, h3⟩ := h S hS exReqEnv id 1 1 demoKv demoCols 0 r c hc 0 e n he hn
    rw [ht] at h2
    simp only [timeIn, Denotes] at h2
    obtain ⟨rfl, rfl⟩ := h2
    cases hl : c.events with
    | nil => rw [hl] at h1; simp at h1
    | cons a l =>
      rw [hl] at h1 hok
      simp only [List.getElem?_cons_zero, Option.some.injEq] at h1
      subst h1
      simp only [List.map_cons, List.cons.injEq] at hok
      cases hd : decodeRow 1 demoKv c.decoded row with
      | none => rw [hd] at hok; cases hok.1
      | some row' =>
        rw [hd] at hok
        simp only [Option.map_some, Option.some.injEq] at hok
        rw [← hok.1, decide_eq_true_iff]
        have := h3 row row' hd hts fun _ => hst
        rwa [show (0 : Int) - 7 * nsDay = -(7 * nsDay) by omega] at this

theorem demoRow_ts {a b : Option Int} : ∀ x, demoRow a b "created_at".toList = some x → ∃ v, x = .ts v := by
  intro x hx
  cases hx
  exact ⟨-5, rfl⟩

theorem demo_during {a b : Option Int} : During .ms (-(7 * nsDay)) 0 (demoRow a b) := ⟨-5, rfl, by decide +kernel, by decide +kernel⟩

theorem demo_stored {fs : List (JFilter Int)} (hg : ∀ f ∈ fs, tableAt f.property = kEvents) {b : Option Int} : StoredIn id 1 demoKv (demoRow (some 1) b) fs := by
  intro f hf r hr
  rw [hg f hf]
  rcases demo_prop hr with rfl | rfl
  · refine ⟨some (.str "Rome".toList), .inr ⟨1, "Rome".toList, ?_, ok_of (by decide +kernel), rfl⟩⟩
    rw [show cityAt.columnName id = "e_str_0".toList by decide +kernel]
    rfl
  · exact ⟨demoRow (some 1) b (whenAt.columnName id), by unfold ValueAt; rw [if_neg (by decide)]⟩

/-- C127 is violated: filters joined by "or" are all required, so a row of Rome at 3 ms is left out. -/
theorem C127_or_violated : ¬ C127_full Int := by
  intro h
  have := full_at h exSem exSem_ts (r := eitherReq) (row := demoRow (some 1) (some 3)) (b := false) (by decide +kernel) rfl rfl rfl demoRow_ts
    (demo_stored (by
      intro f hf
      simp only [allFilters, eitherReq, ask, sharedFilters, List.flatMap_cons, List.flatMap_nil, Option.getD_none, List.append_nil, List.nil_append,
        List.mem_cons, List.not_mem_nil, or_false] at hf
      rcases hf with rfl | rfl <;> rfl))
  refine absurd (this.mpr ⟨rfl, demo_during, ⟨_, buy_at, rfl⟩, by simp, ?_⟩) (by simp)
  simp only [GroupsHold, eitherReq]
  rw [if_neg (by simp)]
  intro x hx
  cases List.mem_singleton.mp hx
  exact ⟨_, .head _, rome_holds⟩

/-- City is Rome, and in another group: the time is later than 5 ms. -/
def bothReq : JSegReq Int :=
  { ask Int "buy".toList with
    filters := some ⟨some .and, [⟨false, [⟨.event "city".toList, .eq, some [.str "Rome".toList]⟩]⟩,
      ⟨false, [⟨.event "when".toList, .gt, some [.num 5]⟩]⟩]⟩ }

/-- C127 is violated: groups of filters after the first are not looked at, so a row of Rome at 3 ms is counted. -/
theorem C127_groups_violated : ¬ C127_full Int := by
  intro h
  have := full_at h exSem exSem_ts (r := bothReq) (row := demoRow (some 1) (some 3)) (b := true) (by decide +kernel) rfl rfl rfl demoRow_ts
    (demo_stored (by
      intro f hf
      simp only [allFilters, bothReq, ask, sharedFilters, List.flatMap_cons, List.flatMap_nil, Option.getD_none, List.append_nil, List.nil_append,
        List.mem_cons, List.not_mem_nil, or_false] at hf
      rcases hf with rfl; rfl))
  obtain ⟨-, -, -, -, hg⟩ := this.mp rfl
  simp only [GroupsHold, bothReq] at hg
  rw [if_neg (by simp)] at hg
  have hg := hg ⟨false, [⟨.event "when".toList, .gt, some [.num 5]⟩]⟩ (by simp)
  unfold GroupHolds at hg
  rw [if_neg (by simp)] at hg
  obtain ⟨r, v, vs, h1, h2, h3, h4⟩ := hg _ (.head _)
  cases Except.ok.inj (Eq.trans (Eq.symm h1) when_at)
  unfold ValueAt at h2
  rw [if_neg (by decide)] at h2
  have hv : v = some (.ts 3) := by rw [h2]; decide +kernel
  obtain ⟨a, b, e1, e2, e3⟩ := h4
  rw [hv] at e1
  cases e1
  obtain ⟨x, hx, hm⟩ := (h3 b).mp e2
  simp only [Option.getD_some, List.mem_singleton] at hx
  subst hx
  obtain ⟨m, s, hd, hk⟩ := hm
  rw [if_pos (by decide)] at hk
  obtain ⟨k, rfl, hk⟩ := hk
  cases hd
  have : k = 5 := by
    have e : (BitVec.ofInt 128 5).toInt = 5 := by decide
    rw [e] at hk
    omega
  subst this
  exact absurd e3 (by decide)

/-- Patterns match all strings and nothing else, say. -/
def likeSem : Sem := { exSem with like := fun a b => match a, b with | .str _, .str _ => true | _, _ => false }

/-- City is Rome, and like "R%". -/
def likeReq : JSegReq Int :=
  { ask Int "buy".toList with
    events := [⟨.regular "buy".toList, some [⟨.event "city".toList, .eq, some [.str "Rome".toList]⟩, ⟨.event "city".toList, .like, some [.str "R%".toList]⟩],
      none, [.countEvents]⟩] }

/-- C127 is violated: a column matched against a pattern is decoded, and the number of the string it is also to be equal to is compared
with the string. -/
theorem C127_pattern_violated : ¬ C127_full Int := by
  intro h
  have := full_at h likeSem (fun _ _ => rfl) (r := likeReq) (row := demoRow (some 1) none) (b := false) (by decide +kernel) rfl rfl rfl demoRow_ts
    (demo_stored (by
      intro f hf
      simp only [allFilters, likeReq, ask, sharedFilters, List.flatMap_cons, List.flatMap_nil, Option.getD_some, List.append_nil,
        List.mem_cons, List.not_mem_nil, or_false] at hf
      rcases hf with rfl | rfl <;> rfl))
  refine absurd (this.mpr ⟨rfl, demo_during, ⟨_, buy_at, rfl⟩, ?_, trivial⟩) (by simp)
  intro f hf
  simp only [Option.getD_some, List.mem_cons, List.not_mem_nil, or_false] at hf
  rcases hf with rfl | rfl
  · exact rome_holds
  · refine ⟨cityAt, some (.str "Rome".toList), [some (.str "R%".toList)], city_at,
      .inr ⟨1, "Rome".toList, ?_, ok_of (by decide +kernel), rfl⟩, ?_, _, _, rfl, List.mem_singleton.mpr rfl, rfl⟩
    · rw [show cityAt.columnName id = "e_str_0".toList by decide +kernel]; rfl
    · intro c; simp [Meant]

/-- Numbers are tenths: 55 is sent for 5.5, which has mantissa 55 and one digit after the point. -/
def tenths : ReqEnv Int := { exReqEnv with dec := fun n => some (BitVec.ofInt 128 n, 1) }

/-- The time is later than 5.5 ms. -/
def fractionReq : JSegReq Int :=
  { ask Int "buy".toList with
    events := [⟨.regular "buy".toList, some [⟨.event "when".toList, .gt, some [.num 55]⟩], none, [.countEvents]⟩] }

/-- The numbers of `Clear` are needed: a row at 9 ms is not later than 5.5 ms but one at 56 ms is. -/
theorem C127_fraction_violated : (chart tenths id 1 1 demoKv demoCols 0 fractionReq).toOption.map (fun c => c.events.map fun pl =>
    (decide (eval exSem (demoRow none (some 9)) pl.filter = some true), decide (eval exSem (demoRow none (some 56)) pl.filter = some true))) =
      some [(false, true)] := by decide +kernel

end OptiPrism.Platform
