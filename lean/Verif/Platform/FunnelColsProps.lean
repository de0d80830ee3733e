import Verif.Platform.FunnelMeaning
import Verif.Platform.ChartColsProps

/-!
# A funnel reads the columns it needs, for the window and groups asked for (C131)
-/

namespace OptiPrism.Platform

open OptiPrism.Meta (Str PropOp PropertyRef EventRef Scalar PropFilter Kv Property PropType Event propsC eventsC kEvents dictGetKey dictGetValue)
open OptiPrism.Query
open OptiPrism.Ingest (groupCol)

variable {N : Type} {E : ReqEnv N} {sys : Str → Str} {p : Nat} {kv : Kv} {tbl : List Str}

/-! ## What is asked for -/

/-- The request names the property. -/
def NamedInFunnel (r : JFunnel N) (ref : JPropertyRef) : Prop :=
  (∃ f ∈ funnelFilters r, f.property = ref) ∨ ref ∈ r.holdingConstants.getD [] ∨ ref ∈ r.breakdowns.getD []

/-- The columns a plan works with. -/
def FunnelPlan.uses (c : FunnelPlan) : List Str :=
  exprUses c.filter ++ c.steps.flatMap (fun x => exprUses x.1) ++ c.exclude.flatMap (fun x => exprUses x.1) ++ c.constants ++ c.groups.map (·.1) ++ c.decoded.map (·.1)

/-- Lists of the same length that are related place by place. -/
def Aligned {α β : Type} (R : α → β → Prop) (l : List α) (l' : List β) : Prop :=
  l'.length = l.length ∧ ∀ (i : Nat) (a : α), l[i]? = some a → ∃ b, l'[i]? = some b ∧ R a b

/-- A column grouped by is sorted by keys if it holds keys; it holds strings once it is decoded. -/
def FunnelPlan.Typed (c : FunnelPlan) : Prop := ∀ g ∈ c.groups, g.2.isSome = true → g.1 ∉ c.decoded.map (·.1)

/-- C131 as wanted: all columns worked with are read, columns to group by are sorted as what they hold, and the window is as long as asked for. -/
def C131_full (N : Type) : Prop :=
  ∀ (E : ReqEnv N) (wrap : Bool) (sys : Str → Str) (fuel p : Nat) (kv : Kv) (tbl : List Str) (cur : Int) (r : JFunnel N) (c : FunnelPlan),
    funnel E wrap sys fuel p kv tbl cur r = .ok c → (∀ x ∈ c.uses, x ∈ c.cols) ∧ c.Typed ∧
      ∃ k, unitHours r.timeWindow.unit = some k ∧ c.window = r.timeWindow.n * (k * 3600000)

/-! ## Columns -/

variable {wrap : Bool} {fuel : Nat} {cur : Int} {r : JFunnel N} {q : CFunnel} {c : FunnelPlan}

theorem FunnelWay.step_of (w : FunnelWay E wrap sys fuel p kv tbl cur r q c) {s' : CStep} (hs : s' ∈ q.steps) {e' : CFEvent} (he : e' ∈ s'.events) :
    ∃ s ∈ r.steps, ∃ e ∈ s.events, e'.event = eventIn e.event ∧ SentAs E e.filters e'.filters := by
  obtain ⟨i, hi⟩ := List.getElem?_of_mem hs
  have hlt : i < q.steps.length := (List.getElem?_eq_some_iff.mp hi).1
  rw [w.count] at hlt
  obtain ⟨s'', hs'', -, hlen, hev⟩ := w.steps i _ (List.getElem?_eq_getElem hlt)
  rw [hi] at hs''
  cases hs''
  obtain ⟨j, hj⟩ := List.getElem?_of_mem he
  have hlt' : j < s'.events.length := (List.getElem?_eq_some_iff.mp hj).1
  rw [hlen] at hlt'
  obtain ⟨-, e'', he'', h1, h2⟩ := hev j _ (List.getElem?_eq_getElem hlt')
  rw [hj] at he''
  cases he''
  exact ⟨_, List.getElem_mem hlt, _, List.getElem_mem hlt', h1, h2⟩

theorem FunnelWay.exclude_of (w : FunnelWay E wrap sys fuel p kv tbl cur r q c) {e' : CExclude} (he : e' ∈ q.exclude.getD []) :
    ∃ e ∈ r.exclude.getD [], e'.event = eventIn e.event ∧ SentAs E e.filters e'.filters := by
  obtain ⟨i, hi⟩ := List.getElem?_of_mem he
  have hlt : i < (q.exclude.getD []).length := (List.getElem?_eq_some_iff.mp hi).1
  rw [w.excluded] at hlt
  obtain ⟨e'', h1, h2, -, h4⟩ := w.exclude i _ (List.getElem?_eq_getElem hlt)
  rw [hi] at h1
  cases h1
  exact ⟨_, List.getElem_mem hlt, h2, h4⟩

theorem sent_property {f : JFilter N} {f' : PropFilter} (h : filterIn E f = some f') : f'.property = propIn f.property := by
  obtain ⟨v, -, rfl⟩ := filterIn_eq h
  rfl

theorem FunnelWay.properties (w : FunnelWay E wrap sys fuel p kv tbl cur r q c) (x : PropertyRef) : x ∈ q.properties ↔ ∃ ref, NamedInFunnel r ref ∧ propIn ref = x := by
  simp only [CFunnel.properties, List.mem_append, List.mem_flatMap, List.mem_map]
  constructor
  · rintro ((((⟨s', hs, e', he, f', hf, rfl⟩ | hx) | ⟨e', he, f', hf, rfl⟩) | ⟨f', hf, rfl⟩) | hx)
    · obtain ⟨s, h1, e, h2, -, -, h3⟩ := w.step_of hs he
      obtain ⟨f, hm, hin⟩ := h3 f' hf
      refine ⟨f.property, .inl ⟨f, ?_, rfl⟩, (sent_property hin).symm⟩
      exact List.mem_append_left _ (List.mem_append_left _ (List.mem_flatMap.mpr ⟨s, h1, List.mem_flatMap.mpr ⟨e, h2, hm⟩⟩))
    · rw [w.constants] at hx
      obtain ⟨b, hb, rfl⟩ := List.mem_map.mp hx
      exact ⟨b, .inr (.inl hb), rfl⟩
    · obtain ⟨e, h1, -, -, h3⟩ := w.exclude_of he
      obtain ⟨f, hm, hin⟩ := h3 f' hf
      refine ⟨f.property, .inl ⟨f, ?_, rfl⟩, (sent_property hin).symm⟩
      exact List.mem_append_left _ (List.mem_append_right _ (List.mem_flatMap.mpr ⟨e, h1, hm⟩))
    · obtain ⟨f, hm, hl⟩ := w.filters.2 f' hf
      exact ⟨f.property, .inl ⟨f, List.mem_append_right _ hm, rfl⟩, hl.property.symm⟩
    · rw [w.breakdowns] at hx
      obtain ⟨b, hb, rfl⟩ := List.mem_map.mp hx
      exact ⟨b, .inr (.inr hb), rfl⟩
  · rintro ⟨ref, ⟨f, hf, rfl⟩ | hb | hb, rfl⟩
    · rcases List.mem_append.mp hf with hf | hf
      · rcases List.mem_append.mp hf with hf | hf
        · obtain ⟨i, s, hi, j, e, hj, hf⟩ := mem_stepFilters.mp hf
          obtain ⟨s', hi', -, -, hs⟩ := w.steps i s hi
          obtain ⟨-, e', hj', -, l1, -⟩ := hs j e hj
          obtain ⟨f', hf', hl⟩ := l1 f hf
          exact .inl (.inl (.inl (.inl ⟨s', List.mem_of_getElem? hi', e', List.mem_of_getElem? hj', f', hf', sent_property hl⟩)))
        · obtain ⟨e, he, hf⟩ := List.mem_flatMap.mp hf
          obtain ⟨i, hi⟩ := List.getElem?_of_mem he
          obtain ⟨e', hi', -, -, l1, -⟩ := w.exclude i e hi
          obtain ⟨f', hf', hl⟩ := l1 f hf
          exact .inl (.inl (.inr ⟨e', List.mem_of_getElem? hi', f', hf', sent_property hl⟩))
      · obtain ⟨f', hf', hl⟩ := w.filters.1 f hf
        exact .inl (.inr ⟨f', hf', hl.property⟩)
    · refine .inl (.inl (.inl (.inr ?_)))
      rw [w.constants]
      exact List.mem_map.mpr ⟨ref, hb, rfl⟩
    · refine .inr ?_
      rw [w.breakdowns]
      exact List.mem_map.mpr ⟨ref, hb, rfl⟩

/-- The columns that are always read. -/
def funnelReads (r : JFunnel N) : List Str := ["project_id".toList, groupCol r.group, "created_at".toList, "event".toList]

theorem newDicts_spec {seen : List Str} {l : List (Str × Str)} :
    (∀ d ∈ newDicts seen l, d ∈ l ∧ d.1 ∉ seen) ∧ (∀ d ∈ l, d.1 ∉ seen → ∃ t, (d.1, t) ∈ newDicts seen l) ∧ ((newDicts seen l).map (·.1)).Nodup := by
  induction l generalizing seen with
  | nil => simp [newDicts]
  | cons a l ih =>
    unfold newDicts
    by_cases ha : a.1 ∈ seen
    · rw [if_pos (by simpa using ha)]
      obtain ⟨h1, h2, h3⟩ := ih (seen := seen)
      refine ⟨fun d hd => ⟨List.mem_cons_of_mem _ (h1 d hd).1, (h1 d hd).2⟩, fun d hd hn => ?_, h3⟩
      rcases List.mem_cons.mp hd with rfl | hd
      · exact absurd ha hn
      · exact h2 d hd hn
    · rw [if_neg (by simpa using ha)]
      obtain ⟨h1, h2, h3⟩ := ih (seen := a.1 :: seen)
      refine ⟨fun d hd => ?_, fun d hd hn => ?_, ?_⟩
      · rcases List.mem_cons.mp hd with rfl | hd
        · exact ⟨List.mem_cons_self, ha⟩
        · exact ⟨List.mem_cons_of_mem _ (h1 d hd).1, fun h => (h1 d hd).2 (List.mem_cons_of_mem _ h)⟩
      · by_cases hda : d.1 = a.1
        · exact ⟨a.2, by rw [hda]; exact List.mem_cons_self⟩
        · rcases List.mem_cons.mp hd with rfl | hd
          · exact absurd rfl hda
          · obtain ⟨t, ht⟩ := h2 d hd (by simp [hda, hn])
            exact ⟨t, List.mem_cons_of_mem _ ht⟩
      · rw [List.map_cons, List.nodup_cons]
        refine ⟨fun hm => ?_, h3⟩
        obtain ⟨d, hd, e⟩ := List.mem_map.mp hm
        exact (h1 d hd).2 (by rw [e]; exact List.mem_cons_self)

theorem windowMs_value {w : CWindow} {ms : Int} (h : windowMs false w = some ms) (hn : w.n < 2 ^ 63) :
    (w.unit = .hour ∧ ms = w.n * (1 * 3600000)) ∨ (w.unit = .day ∧ ms = w.n * (24 * 3600000)) ∨ (w.unit = .week ∧ ms = w.n * (7 * 24 * 3600000)) ∨
    (w.unit = .month ∧ ms = w.n * (31 * 24 * 3600000)) ∨ (w.unit = .year ∧ ms = w.n * (12 * 31 * 24 * 3600000)) := by
  have hb : ((w.n : Int)).bmod (2 ^ 64) = w.n := by
    rw [Int.bmod_eq_emod]
    have h1 : (w.n : Int) % (2 ^ 64 : Nat) = w.n := Int.emod_eq_of_lt (by omega) (by omega)
    rw [h1, if_neg (by omega)]
    exact Int.sub_zero _
  unfold windowMs at h
  dsimp only at h
  rw [hb] at h
  have hdur : ∀ s ms, durationMs s = some ms → ms = s * 1000 := by
    intro s ms h
    unfold durationMs at h
    split at h
    · cases h; rfl
    · cases h
  have hmul : ∀ a b d, mul64 false a b = some d → d = a * b := by
    intro a b d h
    unfold mul64 at h
    split at h
    · cases h; rfl
    · simp at h
  cases hu : w.unit with
  | hour => rw [hu] at h; have := hdur _ _ h; exact .inl ⟨rfl, by omega⟩
  | day => rw [hu] at h; have := hdur _ _ h; exact .inr (.inl ⟨rfl, by omega⟩)
  | week => rw [hu] at h; have := hdur _ _ h; exact .inr (.inr (.inl ⟨rfl, by omega⟩))
  | month =>
    rw [hu] at h
    obtain ⟨d, h1, h2⟩ := opt_bind h
    have := hdur _ _ h2
    have := hmul _ _ _ h1
    exact .inr (.inr (.inr (.inl ⟨rfl, by omega⟩)))
  | year =>
    rw [hu] at h
    obtain ⟨d, h1, h2⟩ := opt_bind h
    obtain ⟨d', h2, h3⟩ := opt_bind h2
    have := hdur _ _ h3
    have := hmul _ _ _ h1
    have := hmul _ _ _ h2
    exact .inr (.inr (.inr (.inr ⟨rfl, by omega⟩)))
  | session => rw [hu] at h; cases h

theorem collect_aligned {α β γ : Type} {f : α → Except QErr β} {l : List α} {bs : List β} (h : collect f l = .ok bs) {R : γ → β → Prop} {g : γ → α} {l0 : List γ}
    (hl : l = l0.map g) (hR : ∀ a b, f (g a) = .ok b → R a b) : Aligned R l0 bs := by
  subst hl
  refine ⟨by simp [(collect_spec h).2.2], fun i a ha => ?_⟩
  obtain ⟨b, hb, e⟩ := collect_get h (i := i) (a := g a) (by simp [ha])
  exact ⟨b, hb, hR a b e⟩

/-- C131 (partial): the columns a funnel reads are those always read and those of the properties it names; they include those of its filter,
constants and groups and, where events are regular ones, of its steps and exclusions. Groups and constants are those asked for, in order; the columns to
group by are distinct; those that are dictionaries are decoded once, before or after. The window is as long as asked for, without overflow, and steps are named
after their first event. Missing: filters of custom events (their columns are not read), columns to group by that are matched against patterns
(they are sorted as what they do not hold any more), windows that overflow where that is not checked. -/
theorem C131_partial (h : funnel E wrap sys fuel p kv tbl cur r = .ok c) :
    (∀ x, x ∈ c.cols ↔ x ∈ funnelReads r ∨ ∃ ref, NamedInFunnel r ref ∧ ColumnAt sys p kv ref x) ∧ (∀ x ∈ c.cols, x ∈ tbl) ∧
    (∀ x ∈ exprUses c.filter ++ c.constants ++ c.groups.map (·.1) ++ c.decoded.map (·.1), x ∈ c.cols) ∧
    ((∀ s ∈ r.steps, ∀ e ∈ s.events, ∃ n, e.event = .regular n) → ∀ x ∈ c.steps.flatMap (fun x => exprUses x.1), x ∈ c.cols) ∧
    ((∀ e ∈ r.exclude.getD [], ∃ n, e.event = .regular n) → ∀ x ∈ c.exclude.flatMap (fun x => exprUses x.1), x ∈ c.cols) ∧
    Aligned (fun b x => ColumnAt sys p kv b x) (r.holdingConstants.getD []) c.constants ∧
    Aligned (fun b g => ∃ rp, PropertyAt p kv b rp ∧ g = (rp.columnName sys, rp.dictType)) (r.breakdowns.getD []) c.groups ∧ (c.groups.map (·.1)).Nodup ∧
    (∀ d ∈ c.decodedAfter, d.1 ∉ c.decoded.map (·.1) ∧ ∃ b ∈ r.breakdowns.getD [], ∃ rp, PropertyAt p kv b rp ∧ rp.isDictionary = true ∧
      d = (rp.columnName sys, tableAt b)) ∧
    (∀ b ∈ r.breakdowns.getD [], ∀ rp, PropertyAt p kv b rp → rp.isDictionary = true → rp.columnName sys ∈ c.decoded.map (·.1) ++ c.decodedAfter.map (·.1)) ∧
    (c.decodedAfter.map (·.1)).Nodup ∧
    (wrap = false → r.timeWindow.n < 2 ^ 63 → ∃ k, unitHours r.timeWindow.unit = some k ∧ c.window = r.timeWindow.n * (k * 3600000)) ∧
    Aligned (fun (s : JStep N) n => ∃ e, s.events.head? = some e ∧ e.event = .regular n) r.steps c.names := by
  obtain ⟨q, w⟩ := funnel_way h
  obtain ⟨pr, h1, hx⟩ := bind_ok w.plan
  obtain ⟨cols, h2, hx⟩ := bind_ok hx
  obtain ⟨ds, h3, hx⟩ := bind_ok hx
  obtain ⟨fl, h4, hx⟩ := bind_ok hx
  obtain ⟨wd, h5, hx⟩ := bind_ok hx
  obtain ⟨st, h6, hx⟩ := bind_ok hx
  obtain ⟨ex, h7, hx⟩ := bind_ok hx
  obtain ⟨cs, h8, hx⟩ := bind_ok hx
  obtain ⟨bd, h9, hx⟩ := bind_ok hx
  obtain ⟨gs, h10, hx⟩ := bind_ok hx
  obtain ⟨_, h11, hx⟩ := bind_ok hx
  obtain ⟨ns, h12, hx⟩ := bind_ok hx
  cases hx
  dsimp only
  -- columns read
  have hread : (∀ x, x ∈ cols ↔ x ∈ funnelReads r ∨ ∃ ref, NamedInFunnel r ref ∧ ColumnAt sys p kv ref x) ∧ ∀ x ∈ cols, x ∈ tbl := by
    obtain ⟨cs, h5, h6⟩ := bind_ok h1
    cases h6
    unfold scan at h2
    split at h2
    · rename_i hall
      cases h2
      simp only [List.all_eq_true, List.contains_iff_mem] at hall
      have hin : ∀ x, x ∈ [kProjectCol, groupCol q.groupId, kCreatedCol, kEventCol] ++ cs ↔
          x ∈ funnelReads r ∨ ∃ ref, NamedInFunnel r ref ∧ ColumnAt sys p kv ref x := by
        intro x
        rw [List.mem_append, kProjectCol_eq, kCreatedCol_eq, kEventCol_eq, w.group]
        refine or_congr Iff.rfl ⟨fun hx => ?_, ?_⟩
        · obtain ⟨y, hy, hc⟩ := (collect_spec h5).2.1 x hx
          obtain ⟨ref, hr, rfl⟩ := (w.properties y).mp hy
          exact ⟨ref, hr, colName_at hc⟩
        · rintro ⟨ref, hr, hx⟩
          obtain ⟨y, hy, hc⟩ := (collect_spec h5).1 _ ((w.properties _).mpr ⟨ref, hr, rfl⟩)
          rw [columnAt_unique (colName_at hc) hx]
          exact hy
      refine ⟨fun x => ?_, fun x hx => (List.mem_filter.mp hx).1⟩
      rw [← hin x, List.mem_filter, List.contains_iff_mem]
      exact ⟨fun h => h.2, fun h => ⟨hall x h, h⟩⟩
    · cases h2
  obtain ⟨hcols, htbl⟩ := hread
  have cre : "created_at".toList ∈ cols := (hcols _).mpr (.inl (by simp [funnelReads]))
  have eve : "event".toList ∈ cols := (hcols _).mpr (.inl (by simp [funnelReads]))
  have hfilter : ∀ f', (∃ f : JFilter N, NamedInFunnel r f.property ∧ f'.property = propIn f.property) → ∀ ef, propertyExpression sys p kv f' = .ok ef →
      ∀ x ∈ exprUses ef, x ∈ cols := by
    rintro f' ⟨f, hnam, hl⟩ ef hef x hx
    obtain ⟨rp, g1, g2⟩ := bind_ok hef
    rw [hl] at g1
    rw [prop_uses g2 hx]
    exact (hcols _).mpr (.inr ⟨f.property, hnam, rp, findProp_at g1, rfl⟩)
  have hone : ∀ n ee, eventExpression (mdOf sys p kv) fuel (.regularName n) = .ok ee → ∀ x ∈ exprUses ee, x ∈ cols := by
    intro n ee hee x hx
    have : x = "event".toList := by
      unfold eventExpression at hee
      split at hee
      · cases hee
      · dsimp only at hee
        split at hee
        · cases hee
        · cases hee
          simpa [exprUses, kEventCol_eq] using hx
    rw [this]
    exact eve
  -- groups
  have hgroups : Aligned (fun b g => ∃ rp, PropertyAt p kv b rp ∧ g = (rp.columnName sys, rp.dictType)) (r.breakdowns.getD []) gs :=
    collect_aligned h10 w.breakdowns fun b g e => by
      obtain ⟨rp, g1, g2⟩ := bind_ok e
      cases g2
      exact ⟨rp, findProp_at g1, rfl⟩
  have hconst : Aligned (fun b x => ColumnAt sys p kv b x) (r.holdingConstants.getD []) cs := collect_aligned h8 w.constants fun b x e => colName_at e
  have hback : ∀ {α β : Type} {R : α → β → Prop} {l : List α} {l' : List β}, Aligned R l l' → ∀ b ∈ l', ∃ a ∈ l, R a b := by
    intro α β R l l' hal b hb
    obtain ⟨i, hi⟩ := List.getElem?_of_mem hb
    have hlt : i < l'.length := (List.getElem?_eq_some_iff.mp hi).1
    rw [hal.1] at hlt
    obtain ⟨b', h1, h2⟩ := hal.2 i _ (List.getElem?_eq_getElem hlt)
    rw [hi] at h1
    cases h1
    exact ⟨_, List.getElem_mem hlt, h2⟩
  have hdec : ∀ x ∈ ds.flatten.map (·.1), x ∈ cols := by
    intro x hx
    obtain ⟨d, hd, rfl⟩ := List.mem_map.mp hx
    obtain ⟨l, hl, hd⟩ := List.mem_flatten.mp hd
    obtain ⟨f', hf', e⟩ := (collect_spec h3).2.1 l hl
    unfold decodeFilter at e
    split at e
    · obtain ⟨rp, g1, g2⟩ := bind_ok e
      cases g2
      split at hd
      · cases List.mem_singleton.mp hd
        have : f'.property ∈ q.properties := by
          simp only [CFunnel.properties, List.mem_append, List.mem_flatMap, List.mem_map]
          rcases List.mem_append.mp hf' with hf | hf
          · obtain ⟨s', hs', hf⟩ := List.mem_flatMap.mp hf
            obtain ⟨e', he', hf⟩ := List.mem_flatMap.mp hf
            exact .inl (.inl (.inl (.inl ⟨s', hs', e', he', f', hf, rfl⟩)))
          · exact .inl (.inr ⟨f', hf, rfl⟩)
        obtain ⟨ref, hn, hr⟩ := (w.properties _).mp this
        rw [← hr] at g1
        exact (hcols _).mpr (.inr ⟨ref, hn, rp, findProp_at g1, rfl⟩)
      · simp at hd
    · cases e
      simp at hd
  have hbd : ∀ d, d ∈ bd.flatten ↔ ∃ b ∈ r.breakdowns.getD [], ∃ rp, PropertyAt p kv b rp ∧ rp.isDictionary = true ∧ d = (rp.columnName sys, tableAt b) := by
    intro d
    simp only [List.mem_flatten]
    constructor
    · rintro ⟨l, hl, hd⟩
      obtain ⟨y, hy, e⟩ := (collect_spec h9).2.1 l hl
      rw [w.breakdowns] at hy
      obtain ⟨b, hb, rfl⟩ := List.mem_map.mp hy
      obtain ⟨rp, g1, g2⟩ := bind_ok e
      cases g2
      split at hd
      · rename_i hdict
        rw [tableAt_eq] at hd
        exact ⟨b, hb, rp, findProp_at g1, hdict, List.mem_singleton.mp hd⟩
      · simp at hd
    · rintro ⟨b, hb, rp, hp, hdict, rfl⟩
      obtain ⟨l, hl, e⟩ := (collect_spec h9).1 (propIn b) (by rw [w.breakdowns]; exact List.mem_map.mpr ⟨b, hb, rfl⟩)
      obtain ⟨rp', g1, g2⟩ := bind_ok e
      cases g2
      rw [propertyAt_unique hp (findProp_at g1), if_pos hdict, tableAt_eq] at hl
      exact ⟨_, hl, List.mem_singleton.mpr rfl⟩
  obtain ⟨n1, n2, n3⟩ := newDicts_spec (seen := ds.flatten.map (·.1)) (l := bd.flatten)
  refine ⟨hcols, htbl, fun x hx => ?_, fun hreg x hx => ?_, fun hreg x hx => ?_, hconst, hgroups, ?_, fun d hd => ⟨(n1 d hd).2, (hbd d).mp (n1 d hd).1⟩, ?_, n3, ?_, ?_⟩
  · simp only [List.mem_append] at hx
    rcases hx with ((hx | hx) | hx) | hx
    · unfold funnelFilter at h4
      obtain ⟨te, w1, u1⟩ := withFilters_uses h4
      rcases u1 x hx with hx | ⟨f', hf', ef, hef, hx⟩
      · unfold timeExpression at w1
        split at w1
        · cases w1
        · cases w1
          have : x = "created_at".toList := by simpa [exprUses, kCreatedCol_eq] using hx
          rw [this]
          exact cre
      · obtain ⟨f, hf, hl⟩ := w.filters.2 f' hf'
        exact hfilter f' ⟨f, .inl ⟨f, List.mem_append_right _ hf, rfl⟩, hl.property⟩ ef hef x hx
    · obtain ⟨b, hb, hc⟩ := hback hconst x hx
      exact (hcols x).mpr (.inr ⟨b, .inr (.inl hb), hc⟩)
    · obtain ⟨g, hg, rfl⟩ := List.mem_map.mp hx
      obtain ⟨b, hb, rp, hp, rfl⟩ := hback hgroups g hg
      exact (hcols _).mpr (.inr ⟨b, .inr (.inr hb), rp, hp, rfl⟩)
    · exact hdec x hx
  · obtain ⟨y, hy, hx⟩ := List.mem_flatMap.mp hx
    obtain ⟨s', hs', e⟩ := (collect_spec h6).2.1 y hy
    obtain ⟨x1, e1, e2⟩ := bind_ok e
    cases e2
    unfold funnelStep at e1
    cases hes : collect (fun ev : EventReq PropFilter => withFilters (mdOf sys p kv) (eventExpression (mdOf sys p kv) fuel ev.event) ev.filters)
        (s'.events.map fun e => ⟨e.event, e.filters⟩) with
    | error y => rw [hes] at e1; cases e1
    | ok es =>
      rw [hes] at e1
      obtain ⟨a, ha, hx⟩ := multiOr_uses e1 hx
      obtain ⟨ev, hev, e⟩ := (collect_spec hes).2.1 a ha
      obtain ⟨e', he', rfl⟩ := List.mem_map.mp hev
      obtain ⟨s, k1, e0, k2, k3, k4⟩ := w.step_of hs' he'
      obtain ⟨n, hn⟩ := hreg s k1 e0 k2
      obtain ⟨ee, w1, u1⟩ := withFilters_uses e
      dsimp only at w1 u1
      rw [k3, hn] at w1
      rcases u1 x hx with hx | ⟨f', hf', ef, hef, hx⟩
      · exact hone n ee w1 x hx
      · obtain ⟨f, hf, hl⟩ := k4.2 f' hf'
        refine hfilter f' ⟨f, .inl ⟨f, ?_, rfl⟩, sent_property hl⟩ ef hef x hx
        exact List.mem_append_left _ (List.mem_append_left _ (List.mem_flatMap.mpr ⟨s, k1, List.mem_flatMap.mpr ⟨e0, k2, hf⟩⟩))
  · obtain ⟨y, hy, hx⟩ := List.mem_flatMap.mp hx
    obtain ⟨e', he', e⟩ := (collect_spec h7).2.1 y hy
    obtain ⟨x1, e1, e2⟩ := bind_ok e
    cases e2
    obtain ⟨e0, k2, k3, k4⟩ := w.exclude_of he'
    obtain ⟨n, hn⟩ := hreg e0 k2
    obtain ⟨ee, w1, u1⟩ := withFilters_uses e1
    rw [k3, hn] at w1
    rcases u1 x hx with hx | ⟨f', hf', ef, hef, hx⟩
    · exact hone n ee w1 x hx
    · obtain ⟨f, hf, hl⟩ := k4.2 f' hf'
      refine hfilter f' ⟨f, .inl ⟨f, ?_, rfl⟩, sent_property hl⟩ ef hef x hx
      exact List.mem_append_left _ (List.mem_append_right _ (List.mem_flatMap.mpr ⟨e0, k2, hf⟩))
  · unfold groupSchema at h11
    split at h11
    · rename_i hok
      simp only [Bool.and_eq_true, decide_eq_true_eq] at hok
      exact hok.2
    · cases h11
  · intro b hb rp hp hdict
    by_cases hm : rp.columnName sys ∈ ds.flatten.map (·.1)
    · exact List.mem_append_left _ hm
    · obtain ⟨t, ht⟩ := n2 _ ((hbd _).mpr ⟨b, hb, rp, hp, hdict, rfl⟩) hm
      exact List.mem_append_right _ (List.mem_map.mpr ⟨_, ht, rfl⟩)
  · intro hw hn
    subst hw
    have hw : windowMs false (windowIn r.timeWindow) = some wd := by
      rw [w.window] at h5
      cases hx : windowMs false (windowIn r.timeWindow) with
      | none => rw [hx] at h5; cases h5
      | some y => rw [hx] at h5; cases h5; rfl
    have := windowMs_value hw hn
    cases hu : r.timeWindow.unit <;> simp only [windowIn, unitSIn, hu, unitHours] at this ⊢
    · exact ⟨1, rfl, by simpa using this⟩
    · exact ⟨24, rfl, by simpa using this⟩
    · exact ⟨7 * 24, rfl, by simpa using this⟩
    · exact ⟨31 * 24, rfl, by simpa using this⟩
    · exact ⟨12 * 31 * 24, rfl, by simpa using this⟩
    · simp at this
  · refine ⟨by rw [(collect_spec h12).2.2, w.count], fun i s hi => ?_⟩
    obtain ⟨s', hi', -, hlen, hev⟩ := w.steps i s hi
    obtain ⟨n, hn, e⟩ := collect_get h12 hi'
    refine ⟨n, hn, ?_⟩
    unfold stepName at e
    cases hs' : s'.events with
    | nil => rw [hs'] at e; cases e
    | cons e' l =>
      rw [hs'] at e
      dsimp only at e
      cases hs : s.events with
      | nil => rw [hs, hs'] at hlen; simp at hlen
      | cons e0 l0 =>
        obtain ⟨-, e'', k1, k2, -⟩ := hev 0 e0 (by rw [hs]; rfl)
        rw [hs'] at k1
        simp only [List.getElem?_cons_zero, Option.some.injEq] at k1
        subst k1
        refine ⟨e0, rfl, ?_⟩
        cases he : e0.event with
        | regular m => rw [k2, he] at e; cases e; rfl
        | custom i => rw [k2, he] at e; cases e

/-! ## Cases -/

/-- A funnel with filters, an exclusion, a constant and a breakdown: what it reads, groups by, and is named. -/
example : (funnel exReqEnv false id 1 1 demoKv demoCols 0 demoF).toOption.map (fun c => (c.cols, c.constants)) =
    some (["project_id", "group_0", "created_at", "event", "e_str_0", "e_ts_0"].map String.toList, ["e_str_0".toList]) := by decide +kernel

example : (funnel exReqEnv false id 1 1 demoKv demoCols 0 demoF).toOption.map (fun c => (c.groups.map (·.1), c.decodedAfter.map (·.1))) =
    some (["e_str_0".toList], ["e_str_0".toList]) := by decide +kernel

example : (funnel exReqEnv false id 1 1 demoKv demoCols 0 demoF).toOption.map (fun c => (c.window, c.names)) =
    some (86400000, ["buy", "buy", "buy"].map String.toList) := by decide +kernel

/-- A step that either a regular or a custom event takes. -/
def orSold : JFunnel Int := { askFunnel Int "buy".toList with steps := [⟨[⟨.regular "buy".toList, none⟩, ⟨.custom 1, none⟩], .exact⟩] }

/-- C131 is violated: the filter of the custom event is about a column that is not read. -/
theorem C131_violated : ¬ C131_full Int := by
  intro h
  have hok : (funnel exReqEnv false id 2 1 customKv demoCols 0 orSold).toOption.map
      (fun c => decide ("e_str_0".toList ∈ c.uses) && !decide ("e_str_0".toList ∈ c.cols)) = some true := by decide +kernel
  cases hc : funnel exReqEnv false id 2 1 customKv demoCols 0 orSold with
  | error e => rw [hc] at hok; cases hok
  | ok c =>
    rw [hc] at hok
    simp only [Except.toOption, Option.map_some, Option.some.injEq, Bool.and_eq_true, decide_eq_true_eq, Bool.not_eq_true', decide_eq_false_iff_not] at hok
    exact hok.2 ((h _ _ _ _ _ _ _ _ _ c hc).1 _ hok.1)

/-- Broken down by a property that is matched against a pattern. -/
def likeBroken : JFunnel Int :=
  { askFunnel Int "buy".toList with
    steps := [⟨[⟨.regular "buy".toList, some [⟨.event "city".toList, .like, some [.str "R%".toList]⟩]⟩], .exact⟩]
    breakdowns := some [.event "city".toList] }

/-- C131 fails, patterns: the column to group by has been decoded to strings and is still sorted as keys. -/
theorem C131_typed_violated : ¬ C131_full Int := by
  intro h
  have hok : (funnel exReqEnv false id 2 1 demoKv demoCols 0 likeBroken).toOption.map
      (fun c => c.groups.any fun g => g.2.isSome && decide (g.1 ∈ c.decoded.map (·.1))) = some true := by decide +kernel
  cases hc : funnel exReqEnv false id 2 1 demoKv demoCols 0 likeBroken with
  | error e => rw [hc] at hok; cases hok
  | ok c =>
    rw [hc] at hok
    simp only [Except.toOption, Option.map_some, Option.some.injEq, List.any_eq_true, Bool.and_eq_true, decide_eq_true_eq] at hok
    obtain ⟨g, hg, h1, h2⟩ := hok
    exact (h _ _ _ _ _ _ _ _ _ c hc).2.1 g hg h1 h2

/-- A window of very many months. -/
def manyMonths : JFunnel Int := { askFunnel Int "buy".toList with timeWindow := ⟨595056260442243601, .month⟩ }

/-- C131 fails, windows: where overflow is not checked, very many months are fifteen days. -/
theorem C131_window_violated : ¬ C131_full Int := by
  intro h
  have hok : (funnel exReqEnv true id 2 1 demoKv demoCols 0 manyMonths).toOption.map (fun c => decide (c.window = 15 * 86400000)) = some true := by decide +kernel
  cases hc : funnel exReqEnv true id 2 1 demoKv demoCols 0 manyMonths with
  | error e => rw [hc] at hok; cases hok
  | ok c =>
    rw [hc] at hok
    simp only [Except.toOption, Option.map_some, Option.some.injEq, decide_eq_true_eq] at hok
    obtain ⟨k, h1, h2⟩ := (h _ _ _ _ _ _ _ _ _ c hc).2.2
    cases h1
    rw [hok] at h2
    exact absurd h2 (by decide)

end OptiPrism.Platform
