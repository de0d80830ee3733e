import Verif.Ingest.Setup
import Verif.Ingest.PropRowsProps
import Verif.Ingest.OneId
import Verif.Meta.GroupTypesProps
import Verif.Meta.RecordsProps

/-!
# Worlds in which every column has one type

What stays true of the metadata and of the tables over metadata requests, new properties and rows: the type of a
column follows from its name, every property has its columns, and the stored values of groups fit their properties.
-/

namespace OptiPrism.Ingest

open OptiPrism.Meta
open OptiPrism.Storage (Bytes Value NamedValue Tbl InsertErr ColType Field Row typeOk validate)

variable {Q : Type} {S : Meta.Env Q} {T : Str → Bool}

/-! ## The type of a column -/

/-- The system columns and their types. -/
def sysTypes : List (Str × ColType) :=
  [(kProjectId, .int64), (groupCol 0, .int64), (groupCol 1, .int64), (groupCol 2, .int64), (groupCol 3, .int64), (groupCol 4, .int64),
   (kCreatedAt, .timestamp), (kEventId, .int64), (kEvent, .int64), (kIp, .string), (kId, .int64), (kVersion, .int64)]

/-- The type of the column of a property, from what its name is made of. -/
def rule (r : Property) : Option ColType :=
  if r.isSystem then sysTypes.lookup r.name
  else match r.dataType with
    | .string => if 28 ≤ r.order ∧ r.order < 39 then some .string else some .int64
    | .int64 => some .int64
    | .decimal => some .decimal
    | .boolean => some .boolean
    | .timestamp => some .timestamp
    | _ => none

/-- A property whose column has the type that goes with its name. -/
structure Ruled (r : Property) : Prop where
  some : (rule r).isSome
  col : colType r = rule r
  dict : r.isDictionary = r.dictType.isSome
  text : r.isDictionary = true → r.dataType = .string

/-- The system columns keep their names. -/
def KeepsSys (sys : Str → Str) : Prop := ∀ n ∈ sysTypes.map Prod.fst, sys n = n

theorem lookup_mem {α β : Type} [BEq α] [LawfulBEq α] {l : List (α × β)} {a : α} (h : (l.lookup a).isSome) : a ∈ l.map Prod.fst := by
  induction l with
  | nil => simp at h
  | cons x l ih =>
    rw [List.lookup_cons] at h
    cases e : a == x.1 with
    | true => exact List.mem_map.mpr ⟨x, by simp, (eq_of_beq e).symm⟩
    | false => rw [e] at h; exact List.mem_cons_of_mem _ (ih h)

theorem sysTypes_col : ∀ n ∈ sysTypes.map Prod.fst, (n.drop 1).head? ≠ some '_' := by decide +kernel

theorem rule_eq {sys : Str → Str} (hk : KeepsSys sys) {r r' : Property} (h : (rule r).isSome) (h' : (rule r').isSome)
    (e : r.columnName sys = r'.columnName sys) : rule r = rule r' := by
  cases hs : r.isSystem with
  | true =>
    have hn : r.name ∈ sysTypes.map Prod.fst := lookup_mem (by simpa [rule, hs] using h)
    have hc : r.columnName sys = r.name := by simp [Property.columnName, hs, hk _ hn]
    cases hs' : r'.isSystem with
    | true =>
      have hn' : r'.name ∈ sysTypes.map Prod.fst := lookup_mem (by simpa [rule, hs'] using h')
      have hc' : r'.columnName sys = r'.name := by simp [Property.columnName, hs', hk _ hn']
      simp only [rule, hs, hs', if_true]
      rw [← hc, ← hc', e]
    | false => exact absurd (e.symm.trans hc) ((columnName_col hs').ne (sysTypes_col _ hn))
  | false =>
    cases hs' : r'.isSystem with
    | true =>
      have hn' : r'.name ∈ sysTypes.map Prod.fst := lookup_mem (by simpa [rule, hs'] using h')
      have hc' : r'.columnName sys = r'.name := by simp [Property.columnName, hs', hk _ hn']
      exact absurd (e.trans hc') ((columnName_col hs).ne (sysTypes_col _ hn'))
    | false =>
      obtain ⟨h1, h2⟩ := columnName_inj hs hs' e
      have hd : r.dataType = r'.dataType := by
        have a1 : ∃ s, r.dataType.shortName = .some s := by
          unfold rule at h; rw [hs] at h
          cases hd : r.dataType <;> simp [hd] at h <;> exact ⟨_, rfl⟩
        have a2 : ∃ s, r'.dataType.shortName = .some s := by
          unfold rule at h'; rw [hs'] at h'
          cases hd : r'.dataType <;> simp [hd] at h' <;> exact ⟨_, rfl⟩
        obtain ⟨s1, e1⟩ := a1
        obtain ⟨s2, e2⟩ := a2
        rw [e1, e2] at h1
        simp at h1
        subst h1
        exact shortName_inj e1 e2
      simp [rule, hs, hs', hd, h2]

/-! ## What stays of a property -/

/-- The same property, as far as columns and values go. -/
structure SameProp (r r' : Property) : Prop where
  name : r'.name = r.name
  typ : r'.typ = r.typ
  dt : r'.dataType = r.dataType
  order : r'.order = r.order
  sys : r'.isSystem = r.isSystem
  dict : r'.isDictionary = r.isDictionary
  dictType : r'.dictType = r.dictType

theorem SameProp.refl (r : Property) : SameProp r r := ⟨rfl, rfl, rfl, rfl, rfl, rfl, rfl⟩

theorem SameProp.trans {a b c : Property} (h : SameProp a b) (h' : SameProp b c) : SameProp a c :=
  ⟨h'.name.trans h.name, h'.typ.trans h.typ, h'.dt.trans h.dt, h'.order.trans h.order, h'.sys.trans h.sys, h'.dict.trans h.dict, h'.dictType.trans h.dictType⟩

theorem SameProp.symm {a b : Property} (h : SameProp a b) : SameProp b a :=
  ⟨h.name.symm, h.typ.symm, h.dt.symm, h.order.symm, h.sys.symm, h.dict.symm, h.dictType.symm⟩

theorem SameProp.norm (r : Property) : SameProp r r.norm := ⟨rfl, rfl, rfl, rfl, rfl, rfl, rfl⟩

theorem SameProp.rule {r r' : Property} (h : SameProp r r') : rule r' = rule r := by
  simp [Ingest.rule, h.name, h.dt, h.order, h.sys]

theorem SameProp.colType {r r' : Property} (h : SameProp r r') : colType r' = colType r := by
  simp [Ingest.colType, h.dt, h.dictType]

theorem SameProp.column {r r' : Property} (h : SameProp r r') (sys : Str → Str) : r'.columnName sys = r.columnName sys := by
  simp [Property.columnName, h.name, h.dt, h.order, h.sys, h.typ]

theorem SameProp.ruled {r r' : Property} (h : SameProp r r') (hr : Ruled r) : Ruled r' :=
  ⟨by rw [h.rule]; exact hr.some, by rw [h.rule, h.colType]; exact hr.col, by rw [h.dict, h.dictType]; exact hr.dict, by rw [h.dict, h.dt]; exact hr.text⟩

/-- A cell of the type of the property's column. -/
def Typed (v : Value) (r : Property) : Prop := ∃ dt, rule r = some dt ∧ typeOk v dt = true

theorem Typed.same {v : Value} {r r' : Property} (h : Typed v r) (hs : SameProp r r') : Typed v r' := by
  obtain ⟨dt, h1, h2⟩ := h
  exact ⟨dt, by rw [hs.rule]; exact h1, h2⟩

/-- What a change of the metadata leaves. -/
structure Ext (kv kv' : Kv) : Prop where
  props : ∀ p ty id r, (propsC p ty).live kv id = some r → ∃ r', (propsC p ty).live kv' id = some r' ∧ SameProp r r'
  events : ∀ p, Kept p kv kv'
  groups : ∀ p, GnKept p kv kv'
  orders : ∀ p sh, '/' ∉ sh → nextOrder p sh kv ≤ nextOrder p sh kv'
  projects : lastId kv (.top .projects) ≤ lastId kv' (.top .projects)

theorem Ext.refl (kv : Kv) : Ext kv kv :=
  ⟨fun _ _ _ r h => ⟨r, h, .refl r⟩, fun p => .refl p kv, fun _ _ _ h => h, fun _ _ _ => Nat.le_refl _, Nat.le_refl _⟩

theorem Ext.trans {a b c : Kv} (h : Ext a b) (h' : Ext b c) : Ext a c := by
  refine ⟨fun p ty id r hr => ?_, fun p => (h.events p).trans (h'.events p), fun p n b hb => h'.groups p n b (h.groups p n b hb),
    fun p sh hs => Nat.le_trans (h.orders p sh hs) (h'.orders p sh hs), Nat.le_trans h.projects h'.projects⟩
  obtain ⟨r1, h1, h2⟩ := h.props p ty id r hr
  obtain ⟨r2, h3, h4⟩ := h'.props p ty id r1 h1
  exact ⟨r2, h3, h2.trans h4⟩

/-! ## The metadata -/

/-- The values fit the properties of the group. -/
def ValsFit (p g : Nat) (kv : Kv) (vs : List PropVal) : Prop :=
  ∀ v ∈ vs, ∃ r, (propsC p (.group g)).live kv v.propertyId = some r ∧ Typed (toStore v.value) r

theorem ValsFit.ext {p g : Nat} {kv kv' : Kv} {vs : List PropVal} (h : ValsFit p g kv vs) (he : Ext kv kv') : ValsFit p g kv' vs := by
  intro v hv
  obtain ⟨r, h1, h2⟩ := h v hv
  obtain ⟨r', h3, h4⟩ := he.props p (.group g) _ r h1
  exact ⟨r', h3, h2.same h4⟩

/-- The requests of the histories: types of columns and names of projects stay as they are, nobody is merged. -/
def Tame (T : Str → Bool) (r : Req Q) : Prop := r.keepsColumns ∧ (∀ p g, r.NoMerge p g) ∧ r.Sep T

/-- The keys of numbers that are drawn or looked up. -/
def Key.IsU64 : Key → Prop
  | .dictVal .. | .dictSeq .. | .recSeq _ | .groupRecSeq .. => True
  | _ => False

/-- Those numbers can be read. -/
def ReadsU64 (kv : Kv) : Prop := ∀ (k : Key) b, k.WF → Key.IsU64 k → getK kv k = some b → b.length = 8

/-- What holds of the metadata after `n` requests. -/
structure KInv (S : Meta.Env Q) (T : Str → Bool) (n : Nat) (kv : Kv) : Prop where
  runs : ∃ m, m ≤ n ∧ Runs S (Tame T) [] m kv
  ruled : ∀ p ty id r, (propsC p ty).live kv id = some r → Ruled r ∧ r.typ = ty
  vals : ∀ p g s b gv, getK kv (.real p g s) = some b → GroupValues.dec b = some gv → ValsFit p g kv gv.values
  u64 : ReadsU64 kv
  fresh : ∀ p, lastId kv (.top .projects) < p → ∀ k : Key, k.WF → modProject k.mod = some p → getK kv k = none

theorem KInv.mono {n m : Nat} {kv : Kv} (h : KInv S T n kv) (hm : n ≤ m) : KInv S T m kv := by
  obtain ⟨k, h1, h2⟩ := h.runs
  exact ⟨⟨k, by omega, h2⟩, h.ruled, h.vals, h.u64, h.fresh⟩

theorem KInv.start : KInv S T 0 [] where
  runs := ⟨0, Nat.le_refl _, .refl⟩
  ruled := fun p ty id r h => by simp [Coll.live, getK, Kv.get] at h
  vals := fun p g s b gv h => by simp [getK, Kv.get] at h
  u64 := fun k b _ _ h => by simp [getK, Kv.get] at h
  fresh := fun p _ k _ _ => by simp [getK, Kv.get]

theorem runs_chist {n : Nat} {kv : Kv} (h : Runs S (Tame T) [] n kv) : CHist S n kv := by
  induction h with
  | refl => exact .start
  | step r _ hr hp ih => exact ih.step r hr hp.1

theorem runs_sep {n : Nat} {kv : Kv} (h : Runs S (Tame T) [] n kv) : SepHist S T n kv := by
  induction h with
  | refl => exact .start
  | step r _ hr hp ih => exact ih.step r hr hp.2.2

section facts
variable {n : Nat} {kv : Kv}

theorem KInv.hist (h : KInv S T n kv) : ∃ m, m ≤ n ∧ Hist S m kv := by
  obtain ⟨m, h1, h2⟩ := h.runs
  exact ⟨m, h1, (runs_chist h2).hist⟩

theorem KInv.prop (h : KInv S T n kv) (hn : n < 2 ^ 62) (p : Nat) (ty : PropType) : Reach (propsC p ty) Property.Valid kv := by
  obtain ⟨m, h1, h2⟩ := h.hist
  exact hist_props h2 (by omega) p ty

theorem KInv.event (h : KInv S T n kv) (hn : n < 2 ^ 62) (p : Nat) : Reach (eventsC p) Event.Valid kv := by
  obtain ⟨m, h1, h2⟩ := h.hist
  exact hist_events h2 (by omega) p

theorem KInv.orderInv (h : KInv S T n kv) (hn : n < 2 ^ 62) (p : Nat) : OrderInv p n kv := by
  obtain ⟨m, h1, h2⟩ := h.runs
  have := (runs_chist h2).order (by omega) p
  exact ⟨this.len, fun sh hs => Nat.le_trans (this.le sh hs) h1, this.lt, this.inj⟩

theorem KInv.pinv (h : KInv S T n kv) (hn : n < 2 ^ 62) : PInv T kv ∧ lastId kv (.top .projects) ≤ n := by
  obtain ⟨m, h1, h2⟩ := h.runs
  have := (runs_sep h2).inv (by omega)
  exact ⟨this.1, Nat.le_trans this.2 h1⟩

theorem KInv.ginv (h : KInv S T n kv) (hn : n < 2 ^ 62) (p g : Nat) : GShape p g kv ∧ GInv p g kv ∧ gSeq p g kv ≤ n := by
  obtain ⟨m, h1, h2⟩ := h.runs
  have := Runs.ginv (p := p) (g := g) (runs_mono (fun _ h => h.2.1 p g) h2) (by omega)
  exact ⟨this.1, this.2.1, Nat.le_trans this.2.2 h1⟩

theorem KInv.gn (h : KInv S T n kv) (p : Nat) : GnInv p kv := by
  obtain ⟨m, -, h2⟩ := h.runs
  exact (h2.gn (GnInv.empty p)).1

theorem KInv.sinv (h : KInv S T n kv) (p : Nat) : SInv p kv := by
  obtain ⟨m, h1, h2⟩ := h.hist
  exact h2.sinv p

end facts

/-! ## Numbers can be read -/

theorem ReadsU64.put {kv : Kv} (h : ReadsU64 kv) {k : Key} (hk : k.WF) {b : Bytes} (hb : Key.IsU64 k → b.length = 8) : ReadsU64 (putK kv k b) := by
  intro k' b' hw hu hg
  rw [getK_putK _ hk hw] at hg
  split at hg
  · rename_i e; subst e; cases hg; exact hb hu
  · exact h k' b' hw hu hg

theorem ReadsU64.next {kv kv' : Kv} (h : ReadsU64 kv) {k : Key} (hk : k.WF) {n : Nat} (e : nextSeq k kv = .ok (n, kv')) : ReadsU64 kv' := by
  obtain ⟨rfl, -⟩ := nextSeq_out e
  exact h.put hk fun _ => by simp

theorem ReadsU64.dictGet {kv kv' : Kv} (h : ReadsU64 kv) {p : Nat} {t d v : Str} (hw : '/' ∉ t ∧ '/' ∉ d) {n : Nat} (e : dictGetOrCreate p t d v kv = .ok (n, kv')) :
    ReadsU64 kv' := by
  unfold dictGetOrCreate at e
  split at e
  · split at e
    · cases e
    · cases e; exact h
  · split at e
    · cases e
    · rename_i e1
      cases e
      exact ((h.next (show (Key.dictSeq p t d).WF from hw) e1).put (show (Key.dictKey p t d _).WF from hw) (fun e => e.elim)).put
        (show (Key.dictVal p t d v).WF from hw) fun _ => by simp

theorem ReadsU64.run {α : Type} {c : Call α} {kv : Kv} (h : ReadsU64 kv) (hc : ∀ a kv', c kv = .ok (a, kv') → ReadsU64 kv') : ReadsU64 (runCall c kv).2 := by
  unfold runCall
  split
  · rename_i e; exact hc _ _ e
  · exact h

theorem createEvent_u64 {p : Nat} {now : Time} {r : Event} {kv : Kv} (h : ReadsU64 kv) : ReadsU64 (createEvent p now r kv).2 := by
  have h1 : ∀ a kv1, eventCreate p now r kv = .ok (a, kv1) → ReadsU64 kv1 := by
    intro a kv1 e k b hw hu hg
    refine h k b hw hu ?_
    rw [← hg]
    symm
    refine ((eventCreate_touches p now r) kv a kv1 e).same (m := k.mod) ?_ k hw rfl
    intro k' hk' e'
    simp at hk'
    rw [hk'] at e'
    cases k <;> simp [Key.IsU64, Key.mod] at hu e'
  unfold createEvent
  split
  · exact h
  · rename_i e1
    split
    · exact h1 _ _ e1
    · rename_i e2; exact (h1 _ _ e1).dictGet kEvents_ok e2

theorem exec_u64 {r : Req Q} (hr : r.Ok) {kv : Kv} (h : ReadsU64 kv) : ReadsU64 (r.exec S kv) := by
  by_cases hm : ∃ m ∈ r.mods, ∃ k : Key, Key.IsU64 k ∧ k.mod = m
  · obtain ⟨m, hm, k, hk, rfl⟩ := hm
    cases k <;> simp only [Key.IsU64] at hk <;> cases r <;>
      simp only [Key.mod, Req.mods, List.mem_cons, List.not_mem_nil, or_false, reduceCtorEq, or_self, false_or] at hm
    all_goals first
      | exact h.run fun _ _ e => h.dictGet hr e
      | (refine h.run fun _ _ e => ?_
         cases e
         exact (h.put (show (Key.dictKey _ _ _ _).WF from hr.1) (fun e => e.elim)).put (show (Key.dictVal _ _ _ _).WF from hr.1) fun _ => by simp)
      | exact h.run fun _ _ e => h.next (by trivial) e
      | exact createEvent_u64 h
      | (show ReadsU64 (getOrCreateEvent _ _ _ kv).2
         unfold getOrCreateEvent
         split
         · exact h
         · exact createEvent_u64 h
         · exact h)
  · intro k b hw hu hg
    refine h k b hw hu ?_
    rw [← hg]
    exact (exec_same S hr (fun h' => hm ⟨_, h', k, hu, rfl⟩) kv k hw rfl).symm

/-! ## Requests that leave properties and events -/

/-- A request about existing projects that adds or removes no property, removes or renames no event, merges nobody, and stores values
that fit. -/
def Benign (T : Str → Bool) (kv : Kv) (r : Req Q) : Prop :=
  (∀ m ∈ r.mods, ∀ p, modProject m = some p → p ≤ lastId kv (.top .projects)) ∧ r.Sep T ∧
  match r with
  | .propCreate .. | .propGetOrCreate .. | .propDelete .. | .groupMerge .. | .eventDelete .. => False
  | .propUpdate _ _ _ _ q => q.typ = none ∧ q.dataType = none ∧ q.isSystem = none ∧ q.isDictionary = none ∧ q.dictType = none
  | .eventUpdate _ _ _ q => q.name = none
  | .groupGet _ _ _ vs => vs = []
  | .groupUpdate p g _ vs => ValsFit p g kv vs
  | _ => True

theorem mergeValues_mem {a b : List PropVal} {v : PropVal} (h : v ∈ mergeValues a b) : v ∈ a ∨ v ∈ b := by
  suffices ∀ (l : List PropVal) (init : List PropVal), v ∈ l.foldl (fun vals v =>
      match a.findIdx? (fun x => x.propertyId == v.propertyId) with
      | some i => vals.set i v
      | none => vals ++ [v]) init → v ∈ init ∨ v ∈ l from this b a h
  intro l
  induction l with
  | nil => intro init h; exact .inl h
  | cons x l ih =>
    intro init h
    rw [List.foldl_cons] at h
    rcases ih _ h with h | h
    · split at h
      · rcases List.mem_or_eq_of_mem_set h with h | h
        · exact .inl h
        · exact .inr (by simp [h])
      · rcases List.mem_append.mp h with h | h
        · exact .inl h
        · exact .inr (by simp at h; simp [h])
    · exact .inr (List.mem_cons_of_mem _ h)

/-- Both without the property, or both with it. -/
def Twin (a b : Option Property) : Prop := (a = none ∧ b = none) ∨ ∃ r r', a = some r ∧ b = some r' ∧ SameProp r r'

theorem Twin.of_eq {a b : Option Property} (h : b = a) : Twin a b := by
  subst h
  cases b with
  | none => exact .inl ⟨rfl, rfl⟩
  | some r => exact .inr ⟨r, r, rfl, rfl, .refl r⟩

theorem benign_live {n : Nat} {kv : Kv} (h : KInv S T n kv) (hn : n < 2 ^ 62) {r : Req Q} (hr : r.Ok) (hb : Benign T kv r) (p : Nat) (ty : PropType) (id : Nat) :
    Twin ((propsC p ty).live kv id) ((propsC p ty).live (r.exec S kv) id) := by
  by_cases hc : Mod.coll (.proj p ty.coll) ∈ r.mods
  · have hne : ty.coll ≠ .events ∧ ty.coll ≠ .customEvents ∧ ty.coll ≠ .dashboards ∧ ty.coll ≠ .reports ∧ ty.coll ≠ .global := by
      cases ty <;> simp [PropType.coll]
    obtain ⟨h1, h2, h3, h4, h5⟩ := hne
    obtain ⟨-, -, hb⟩ := hb
    cases r <;> simp only [Req.mods, List.mem_cons, List.not_mem_nil, or_false, Mod.coll.injEq, reduceCtorEq, Ns.proj.injEq, or_self,
      false_or, h1, h2, h3, h4, h5, and_false] at hc
    case propCreate => exact hb.elim
    case propGetOrCreate => exact hb.elim
    case propDelete => exact hb.elim
    case propUpdate p' ty' id' now q =>
      obtain ⟨rfl, hc⟩ := hc
      cases PropType.coll_inj hc
      obtain ⟨k1, k2, k3, k4, k5⟩ := hb
      show Twin _ ((propsC p ty).live (runCall (Meta.propUpdate p ty id' now q) kv).2 id)
      unfold runCall
      split
      · rename_i a kv' e
        obtain ⟨r, g1, -, -, g4⟩ := update_done (props_ok p ty) ((h.prop hn p ty).inv (props_ok p ty)) (propUpdate_ok hr) e
        dsimp only
        rw [g4]
        split
        · rename_i hid
          rw [hid, g1]
          refine .inr ⟨r, _, rfl, rfl, ⟨rfl, ?_, ?_, rfl, ?_, ?_, ?_⟩⟩
          · simp [Property.norm, PropUpd.apply, k1]
          · simp [Property.norm, PropUpd.apply, k2]
          · simp [Property.norm, PropUpd.apply, k3]
          · simp [Property.norm, PropUpd.apply, k4]
          · simp [Property.norm, PropUpd.apply, k5]
        · exact .of_eq rfl
      · exact .of_eq rfl
  · exact .of_eq ((exec_agree S hr hc kv).live id)

theorem last_projects {n : Nat} {kv : Kv} (h : KInv S T n kv) (hn : n < 2 ^ 62) {r : Req Q} (hr : r.Ok) (hs : r.Sep T) :
    lastId kv (.top .projects) ≤ lastId (r.exec S kv) (.top .projects) := by
  obtain ⟨hi, hle⟩ := h.pinv hn
  by_cases hm : Mod.coll (.top .projects) ∈ r.mods
  · have same : ∀ {α : Type} {c : Call α} {e : Err}, c kv = .error e → lastId kv (.top .projects) ≤ lastId (runCall c kv).2 (.top .projects) := by
      intro α c e h; rw [runCall, h]; exact Nat.le_refl _
    have done : ∀ {α : Type} {c : Call α} {r : α} {kv' : Kv}, c kv = .ok (r, kv') → lastId kv (.top .projects) ≤ lastId kv' (.top .projects) →
        lastId kv (.top .projects) ≤ lastId (runCall c kv).2 (.top .projects) := by
      intro α c r kv' h h1; rw [runCall, h]; exact h1
    cases r <;> simp [Req.mods] at hm
    case projectCreate now req =>
      show _ ≤ lastId (runCall (projectCreate now req) kv).2 _
      rcases projectCreate_spec hi (by omega) (now := now) hr hs.1 hs.2 with ⟨-, e⟩ | ⟨-, kv', e, h1, h2⟩
      · exact same e
      · exact done e (by omega)
    case projectUpdate id now q =>
      show _ ≤ lastId (runCall (projectUpdate id now q) kv).2 _
      cases hl : projectsC.live kv id with
      | none => exact same (update_missing hi hl _ _)
      | some r =>
        rcases projectUpdate_spec hi (q := q) (t := q.apply now) hl rfl rfl rfl (apply_sep (hi.live hl).2.2.2 hr hs) with ⟨-, e⟩ | ⟨-, kv', e, h1, h2⟩
        · exact same e
        · exact done e (by omega)
    case projectIncrement id =>
      show _ ≤ lastId (runCall (incrementEvents id) kv).2 _
      cases hl : projectsC.live kv id with
      | none => exact same (update_missing hi hl _ _)
      | some r =>
        have hv := (hi.live hl).2.2.2
        rcases projectUpdate_spec hi (q := { updatedBy := 0 }) (t := fun r => { r with eventsCount := (r.eventsCount + 1) % 2 ^ 64 }) hl rfl rfl rfl
          ⟨⟨hv.1.head, hv.1.org, hv.1.dur, Nat.mod_lt _ (Nat.two_pow_pos 64)⟩, hv.2⟩ with ⟨-, e⟩ | ⟨-, kv', e, h1, h2⟩
        · exact same e
        · exact done e (by omega)
    case projectDelete id =>
      show _ ≤ lastId (runCall (projectsC.delete id) kv).2 _
      cases hl : projectsC.live kv id with
      | none => exact same (e := .notFound) (by unfold Coll.delete; rw [getById_none hi hl])
      | some r =>
        obtain ⟨kv', e, h1, h2, -⟩ := projectDelete_spec hi hl
        exact done e (by omega)
  · rw [(exec_agree S hr hm kv).last]; exact Nat.le_refl _

theorem Runs.snoc {P : Req Q → Prop} {kv kv' : Kv} {n : Nat} (h : Runs S P kv n kv') {r : Req Q} (hr : r.Ok) (hp : P r) : Runs S P kv (n + 1) (r.exec S kv') :=
  .step r h hr hp

/-- The stored values of groups after a request. -/
theorem benign_vals {n : Nat} {kv : Kv} (h : KInv S T n kv) (hn : n < 2 ^ 62) {r : Req Q} (hr : r.Ok) (hb : Benign T kv r) (p g : Nat) (s : Str) (b : Bytes) (gv : GroupValues)
    (hg : getK (r.exec S kv) (.real p g s) = some b) (hd : GroupValues.dec b = some gv) : ValsFit p g kv gv.values := by
  by_cases hm : Mod.grp p g ∈ r.mods
  · obtain ⟨-, -, hb⟩ := hb
    obtain ⟨hsh, hgi, hseq⟩ := h.ginv hn p g
    cases r <;> simp [Req.mods] at hm
    case groupMerge => exact hb.elim
    case anonymous p' g' s' =>
      obtain ⟨rfl, rfl⟩ := hm
      have hg : getK (runCall (anonymousId p g s') kv).2 (.real p g s) = some b := hg
      unfold runCall at hg
      split at hg
      · rename_i e
        rw [anon_real e] at hg
        exact h.vals p g s b gv hg hd
      · exact h.vals p g s b gv hg hd
    case groupGet p' g' s' vs =>
      obtain ⟨rfl, rfl⟩ := hm
      have hb : vs = [] := hb
      subst hb
      have hg : getK (runCall (groupGetOrCreate p g s' []) kv).2 (.real p g s) = some b := hg
      unfold runCall at hg
      split at hg
      · rename_i kv' e
        unfold groupGetOrCreate at e
        split at e
        · split at e
          · cases e
          · cases e; exact h.vals p g s b gv hg hd
        · split at e
          · cases e
          · rename_i e1
            dsimp only at e
            split at e
            · cases e
            · rename_i e2
              cases e
              obtain ⟨rfl, hlt⟩ := nextSeq_out e1
              rw [getK_putK _ (by trivial) (by trivial)] at hg
              split at hg
              · cases hg
                rw [GroupValues.dec_enc _ _ e2 hlt (fun _ h => absurd h (by simp))] at hd
                cases hd
                intro v hv; exact absurd hv (by simp)
              · rw [getK_putK _ (by trivial) (by trivial), if_neg (by simp)] at hg
                exact h.vals p g s b gv hg hd
      · exact h.vals p g s b gv hg hd
    case groupUpdate p' g' s' vs =>
      obtain ⟨rfl, rfl⟩ := hm
      have hb : ValsFit p g kv vs := hb
      have hg : getK (runCall (groupCreateOrUpdate p g s' vs) kv).2 (.real p g s) = some b := hg
      unfold runCall at hg
      split at hg
      · rename_i kv' e
        unfold groupCreateOrUpdate at e
        split at e
        · rename_i b0 hb0
          obtain ⟨r0, hr0, hid, hvo⟩ := hsh.2 s' b0 hb0
          simp only [gvRead, hr0] at e
          split at e
          · cases e
          · rename_i e2
            cases e
            rw [getK_putK _ (by trivial) (by trivial)] at hg
            split at hg
            · cases hg
              rw [GroupValues.dec_enc _ _ e2 hid (mergeValues_ok hvo hr)] at hd
              cases hd
              intro v hv
              rcases mergeValues_mem hv with hv | hv
              · exact h.vals p g s' b0 r0 hb0 hr0 v hv
              · exact hb v hv
            · exact h.vals p g s b gv hg hd
        · split at e
          · cases e
          · rename_i e1
            dsimp only at e
            split at e
            · cases e
            · rename_i e2
              cases e
              obtain ⟨rfl, hlt⟩ := nextSeq_out e1
              rw [getK_putK _ (by trivial) (by trivial)] at hg
              split at hg
              · cases hg
                rw [GroupValues.dec_enc _ _ e2 hlt hr] at hd
                cases hd
                exact hb
              · rw [getK_putK _ (by trivial) (by trivial), if_neg (by simp)] at hg
                exact h.vals p g s b gv hg hd
      · exact h.vals p g s b gv hg hd
  · rw [exec_same S hr hm kv (.real p g s) trivial rfl] at hg
    exact h.vals p g s b gv hg hd

theorem benign_tame {kv : Kv} {r : Req Q} (hb : Benign T kv r) : Tame T r ∧ ∀ p, r.SparesEvents p := by
  obtain ⟨-, h1, h2⟩ := hb
  refine ⟨⟨?_, ?_, h1⟩, ?_⟩
  · cases r <;> first | trivial | exact ⟨h2.1, h2.2.1, h2.2.2.1⟩
  · intro p g; cases r <;> first | trivial | exact h2.elim
  · intro p; cases r <;> first | trivial | exact h2.elim | exact fun _ => h2

theorem orders_same {kv kv' : Kv} {p : Nat} (h : Same (.order p) kv kv') {sh : Str} (hs : '/' ∉ sh) : nextOrder p sh kv' = nextOrder p sh kv := by
  unfold nextOrder
  rw [h (.orderSeq p sh) hs rfl]

theorem KInv.benign {n : Nat} {kv : Kv} (h : KInv S T n kv) (hn : n + 1 < 2 ^ 62) {r : Req Q} (hr : r.Ok) (hb : Benign T kv r) :
    KInv S T (n + 1) (r.exec S kv) ∧ Ext kv (r.exec S kv) := by
  obtain ⟨ht, hsp⟩ := benign_tame hb
  have hlive := benign_live h (by omega) hr hb
  have hlast := last_projects h (by omega) hr ht.2.2
  have hext : Ext kv (r.exec S kv) := by
    refine ⟨fun p ty id x hx => ?_, fun p => ?_, fun p => (exec_gn S hr (h.gn p)).2, fun p sh hs => ?_, hlast⟩
    · rcases hlive p ty id with ⟨e, -⟩ | ⟨a, b, e1, e2, e3⟩
      · rw [e] at hx; cases hx
      · rw [e1] at hx; cases hx; exact ⟨b, e2, e3⟩
    · have := h.event (by omega) p
      exact exec_kept hr (hsp p) (this.inv (events_ok p)) (this.room (events_ok p))
    · rw [orders_same (exec_same S hr ?_ kv) hs]
      · exact Nat.le_refl _
      · obtain ⟨-, -, hb⟩ := hb
        cases r <;> first | exact hb.elim | simp [Req.mods]
  obtain ⟨m, hm, hruns⟩ := h.runs
  refine ⟨⟨⟨m + 1, by omega, Runs.snoc hruns hr ht⟩, fun p ty id x hx => ?_, fun p g s b gv hg hd => (benign_vals h (by omega) hr hb p g s b gv hg hd).ext hext,
    exec_u64 hr h.u64, fun p hp k hk hm' => ?_⟩, hext⟩
  · rcases hlive p ty id with ⟨-, e⟩ | ⟨a, b, e1, e2, e3⟩
    · rw [e] at hx; cases hx
    · rw [e2] at hx; cases hx
      obtain ⟨g1, g2⟩ := h.ruled p ty id a e1
      exact ⟨e3.ruled g1, e3.typ.trans g2⟩
  · rw [exec_same S hr (fun hmem => ?_) kv k hk rfl]
    · exact h.fresh p (by omega) k hk hm'
    · have := hb.1 _ hmem p hm'
      omega

end OptiPrism.Ingest
