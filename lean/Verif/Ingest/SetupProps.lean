import Verif.Ingest.AcceptAll
import Verif.Ingest.IngestProps

/-!
# Property C121: what a new project holds
-/

namespace OptiPrism.Ingest

open OptiPrism.Meta
open OptiPrism.Storage (Bytes Value NamedValue Tbl InsertErr ColType Field Row KeyValue typeOk fromLE)

variable {Q : Type} {S : Meta.Env Q} {T : Str → Bool} {n : Nat} {w : World}

/-- Spec: the attributes of a property. -/
structure Wanted where
  typ : PropType
  name : String
  display : Option String
  nullable : Bool
  hidden : Bool
  dt : DType
  dict : Option DictType
  system : Bool
  deriving DecidableEq, Repr

/-- Spec: the property has these attributes. -/
def Wanted.Is (x : Wanted) (r : Property) : Prop :=
  r.typ = x.typ ∧ r.name = x.name.toList ∧ r.dataType = x.dt ∧ r.dictType = x.dict ∧ r.isDictionary = x.dict.isSome ∧ r.isSystem = x.system ∧
    r.displayName = x.display.map String.toList ∧ r.nullable = x.nullable ∧ r.hidden = x.hidden ∧ r.isArray = false ∧ r.status = .enabled

/-- Spec: the properties of the events of a new project. -/
def wantedEvent : List Wanted :=
  [⟨.event, "project_id", some "Project", false, true, .string, some .int64, true⟩] ++
  ([("group_0", "Group 0"), ("group_1", "Group 1"), ("group_2", "Group 2"), ("group_3", "Group 3"), ("group_4", "Group 4")].map fun s =>
    ⟨.event, s.1, some s.2, true, false, .string, some .int64, true⟩) ++
  [⟨.event, "created_at", some "Created At", false, false, .timestamp, none, true⟩,
   ⟨.event, "event_id", some "Event ID", false, true, .int64, none, true⟩,
   ⟨.event, "event", some "Event", false, true, .string, some .int64, true⟩,
   ⟨.event, "ip", some "Ip", true, true, .string, none, true⟩] ++
  (["Client Family", "Client Version Minor", "Client Version Major", "Version Patch", "Device Family", "Device Brand", "Device Model", "OS", "OS Family",
    "OS Version Major", "OS Version Minor", "OS Version Patch", "OS Version Patch Minor", "Country", "City", "UTM Source", "UTM Medium", "UTM Campaign",
    "UTM Term", "UTM Content"].map fun s => ⟨.event, s, none, true, false, .string, some .int64, false⟩) ++
  (["Name", "Href", "ID", "Class", "Text", "Element", "Page Path", "Page Referer", "Page Search", "Page Title", "Page URL"].map fun s =>
    ⟨.event, s, none, true, false, .string, none, false⟩) ++
  [⟨.event, "Session Length", none, true, false, .timestamp, none, false⟩]

/-- Spec: the properties of each group. -/
def wantedGroup (g : Nat) : List Wanted :=
  [⟨.group g, "project_id", some "Project ID", true, true, .string, some .int64, true⟩,
   ⟨.group g, "id", some "ID", true, true, .string, some .int64, true⟩,
   ⟨.group g, "version", some "Version", true, true, .int64, none, true⟩,
   ⟨.group g, "created_at", some "Created At", true, false, .timestamp, none, true⟩]

/-- Spec: all of them. -/
def wanted : List Wanted := wantedEvent ++ wantedGroup 0 ++ wantedGroup 1 ++ wantedGroup 2 ++ wantedGroup 3 ++ wantedGroup 4

/-- Spec: the type of the column of a property: that of the dictionary keys, or else that of the values. -/
def Wanted.col (x : Wanted) : ColType :=
  match x.dict, x.dt with
  | some _, _ => .int64
  | none, .timestamp => .timestamp
  | none, .int64 => .int64
  | none, _ => .string

def SetupProp.wanted (x : SetupProp) : Wanted := ⟨x.typ, String.ofList x.name, x.display.map String.ofList, x.nullable, x.hidden, x.dt, x.dict, x.system⟩

theorem wanted_setup : (∀ x ∈ wanted, x ∈ allSetup.map SetupProp.wanted) ∧ (∀ x ∈ allSetup, x.wanted ∈ wanted) :=
  ⟨by decide +kernel, by decide +kernel⟩

/-- Spec: a live project has the name or the token. -/
def Taken (kv : Kv) (req : Project) : Prop := ∃ id r, projectsC.getById id kv = .ok r ∧ (r.name = req.name ∨ r.token = req.token)

theorem taken_iff {kv : Kv} (h : PInv T kv) {req : Project} (ht : T req.name = false ∧ T req.token = true) : ProjTaken kv req ↔ Taken kv req := by
  have key : ∀ j r, projectsC.live kv j = some r → ((req.name ∈ r.keys ∨ req.token ∈ r.keys) ↔ (r.name = req.name ∨ r.token = req.token)) := by
    intro j r hl
    obtain ⟨-, h1, h2⟩ := (h.live hl).2.2.2
    have a1 : req.name ≠ r.token := fun e => by rw [e] at ht; rw [ht.1] at h2; cases h2
    have a2 : req.token ≠ r.name := fun e => by rw [e] at ht; rw [ht.2] at h1; cases h1
    simp only [Project.keys, List.mem_cons, List.not_mem_nil, or_false, a1, a2, false_or]
    constructor <;> rintro (e | e)
    · exact .inl e.symm
    · exact .inr e.symm
    · exact .inl e.symm
    · exact .inr e.symm
  constructor
  · rintro ⟨j, hj⟩
    cases hl : projectsC.live kv j with
    | none => simp [keysAt, hl] at hj
    | some r =>
      refine ⟨j, r, by rw [h.getById, hl], (key j r hl).mp ?_⟩
      simpa [keysAt, hl] using hj
  · rintro ⟨j, r, e, hj⟩
    rw [h.getById] at e
    cases hl : projectsC.live kv j with
    | none => rw [hl] at e; cases e
    | some r' =>
      rw [hl] at e
      cases e
      refine ⟨j, ?_⟩
      simpa [keysAt, hl] using (key j r hl).mpr hj

/-- C121 (partial): creating a project in any state of the system either is refused because the name or the token is in use, and then nothing changes;
or it succeeds, the project has an id no project had, is found by its token, the other projects are as they were, and it holds exactly the
properties, events and kinds of groups listed, with a column of the right type in the table of events, and in the group's table for a property of a
group, for each property. Missing: names and tokens are told apart (`T`), see C35. -/
theorem C121_partial (hk : KeepsSys S.sys) (h : Life S T n w) (hn : n < 2 ^ 61) (now : Time) {req : Project} (hr : (Req.projectCreate (Q := Q) now req).Ok)
    (ht : T req.name = false ∧ T req.token = true) :
    (Taken w.kv req ∧ createProject S.sys now req w = (.error (.metadata .alreadyExists), w)) ∨
    (¬ Taken w.kv req ∧ ∃ project w', createProject S.sys now req w = (.ok project, w') ∧
      (∀ r, projectsC.getById project.id w.kv ≠ .ok r) ∧
      (∃ r, getByToken req.token w'.kv = .ok r ∧ r.id = project.id ∧ r.name = req.name ∧ r.token = req.token) ∧
      (∀ id, id ≠ project.id → projectsC.getById id w'.kv = projectsC.getById id w.kv) ∧
      (∀ x ∈ wanted, ∃ id r, (propsC project.id x.typ).getById id w'.kv = .ok r ∧ x.Is r ∧
        (∃ f ∈ (w'.tbl kEvents).schema, f.name = String.ofList (r.columnName S.sys) ∧ f.dt = x.col) ∧
        ∀ g, x.typ = .group g → ∃ f ∈ (w'.tbl (groupCol g)).schema, f.name = String.ofList (r.columnName S.sys) ∧ f.dt = x.col) ∧
      (∀ ty id r, (propsC project.id ty).getById id w'.kv = .ok r → ∃ x ∈ wanted, x.typ = ty ∧ x.Is r) ∧
      (∀ name, (∃ id ev, (eventsC project.id).getById id w'.kv = .ok ev ∧ ev.name = name) ↔
        name ∈ ["Click", "Page", "Screen", "Session Begin", "Session End"].map String.toList) ∧
      (∀ name g, Known project.id w'.kv name g ↔ name = "user".toList ∧ g = ⟨0, "user".toList, "user".toList⟩)) := by
  have hL := h.inv hk hn
  obtain ⟨hpi, hle⟩ := hL.inv.kv.pinv (by omega)
  rw [← taken_iff hpi ht]
  rcases createProject_spec hL.inv (by omega) now hr ht with ⟨h1, e⟩ | ⟨h1, w', e, hw', hext, hlast, hborn, hlive⟩
  · exact .inl ⟨h1, e⟩
  · obtain ⟨hpi', -⟩ := hw'.kv.pinv (by omega)
    generalize hp : lastId w.kv (.top .projects) + 1 = p at *
    have hnone : projectsC.live w.kv p = none := by
      cases hl : projectsC.live w.kv p with
      | none => rfl
      | some r => have := (hpi.live hl).2.2.1; omega
    have hprop : ∀ ty id r, (propsC p ty).getById id w'.kv = .ok r ↔ (propsC p ty).live w'.kv id = some r := by
      intro ty id r
      rw [getById_eq ((hw'.kv.prop (by omega) p ty).inv (props_ok p ty))]
      cases (propsC p ty).live w'.kv id <;> simp
    have hev : ∀ id ev, (eventsC p).getById id w'.kv = .ok ev ↔ (eventsC p).live w'.kv id = some ev := by
      intro id ev
      rw [getById_eq ((hw'.kv.event (by omega) p).inv (events_ok p))]
      cases (eventsC p).live w'.kv id <;> simp
    have hmade : ∀ {x : SetupProp} {r : Property}, Made x r → x.wanted.Is r := fun {x r} hm =>
      ⟨hm.typ, by show r.name = (String.ofList x.name).toList; rw [String.toList_ofList]; exact hm.name, hm.dt, hm.dict, hm.isDict, hm.system, by
        show r.displayName = (x.display.map String.ofList).map String.toList
        rw [hm.display]; cases x.display <;> simp, hm.nullable, hm.hidden, hm.array, hm.status⟩
    refine .inr ⟨h1, projMk now req p, w', e, fun r => ?_, ?_, fun id hid => ?_, fun x hx => ?_, fun ty id r hl => ?_, fun name => ?_, fun name g => ?_⟩
    · show projectsC.getById p w.kv ≠ _
      rw [hpi.getById, hnone]
      intro h; cases h
    · have hl : projectsC.live w'.kv p = some (projMk now req p).norm := by rw [hlive, if_pos rfl]
      refine ⟨(projMk now req p).norm, (getBy_idx hpi' req.token _).mpr ⟨⟨p, by rw [hpi'.getById, hl]⟩, .inr rfl⟩, rfl, rfl, rfl⟩
    · have hid : id ≠ p := hid
      rw [hpi'.getById, hpi.getById, hlive, if_neg hid]
    · obtain ⟨y, hy, rfl⟩ := List.mem_map.mp (wanted_setup.1 x hx)
      obtain ⟨i, hi⟩ := List.getElem?_of_mem hy
      obtain ⟨id, r, h1, h2, h3⟩ := hborn.props.made i y hi
      have hty : (propsC p y.typ).live w'.kv id = some r := h1
      refine ⟨id, r, (hprop _ _ _).mpr h1, hmade h2, ?_⟩
      obtain ⟨c1, c2⟩ := hw'.cols _ _ _ _ h1
      have hruled := (hw'.kv.ruled _ _ _ _ h1).1
      have hcol : rule r = some y.wanted.col := by
        rw [← hruled.col]
        have hy' : ∀ z ∈ allSetup, colType (propMk 0 ⟨0, 0⟩ z.req 0 0) = some z.wanted.col := by decide +kernel
        have := hy' y hy
        unfold colType at this ⊢
        rw [h2.dict, h2.dt]
        exact this
      refine ⟨?_, fun g hg => ?_⟩
      · obtain ⟨f, hf, hfn⟩ := c1
        have := (hw'.tabs kEvents).dt hk hf hruled.some hfn
        rw [hcol] at this
        exact ⟨f, hf, hfn, (Option.some.inj this).symm⟩
      · obtain ⟨f, hf, hfn⟩ := c2 g hg
        have := (hw'.tabs (groupCol g)).dt hk hf hruled.some hfn
        rw [hcol] at this
        exact ⟨f, hf, hfn, (Option.some.inj this).symm⟩
    · obtain ⟨x, hx, hty, hm⟩ := hborn.props.only ty id r ((hprop _ _ _).mp hl)
      exact ⟨x.wanted, wanted_setup.2 x hx, hty, hmade hm⟩
    · have hlist : ["Click", "Page", "Screen", "Session Begin", "Session End"].map String.toList = setupEvents := by decide +kernel
      rw [hlist]
      constructor
      · rintro ⟨id, ev, hl, rfl⟩
        exact hborn.events.2 id ev.name (by unfold nameAt; rw [(hev _ _).mp hl]; rfl)
      · intro hm
        obtain ⟨id, hid⟩ := hborn.events.1 name hm
        unfold nameAt at hid
        obtain ⟨ev, h1, h2⟩ := Option.map_eq_some_iff.mp hid
        exact ⟨id, ev, (hev _ _).mpr h1, h2⟩
    · have hu : "user".toList = kUser := by decide +kernel
      rw [hu]
      constructor
      · intro hg
        obtain ⟨b, hb, -⟩ := (known_iff (hw'.kv.gn p) name g).mp hg
        have := hborn.groups name b hb
        subst this
        refine ⟨rfl, ?_⟩
        have e1 : getOrCreateGroup p kUser [] w'.kv = .ok (g, w'.kv) := hg []
        have e2 := hborn.user []
        rw [e1] at e2
        exact congrArg Prod.fst (Except.ok.inj e2)
      · rintro ⟨rfl, rfl⟩
        exact hborn.user

/-- The hypotheses are met by the first project, which is created. -/
def exIsToken (s : Str) : Bool := s == exToken

theorem exKeeps : KeepsSys exSysEnv.sys := by
  show ∀ n ∈ sysTypes.map Prod.fst, exSys n = n
  decide +kernel

theorem exProj_ok : (Req.projectCreate (Q := Unit) ⟨7#64, 0⟩ exProj).Ok ∧ exIsToken exProj.name = false ∧ exIsToken exProj.token = true :=
  ⟨⟨by decide, by decide, by decide⟩, by decide +kernel, by decide +kernel⟩

example : ∃ project w', createProject exSys ⟨7#64, 0⟩ exProj World.fresh = (.ok project, w') ∧
    ∃ r, getByToken exToken w'.kv = .ok r ∧ r.id = project.id := by
  rcases C121_partial exKeeps (T := exIsToken) .start (by decide) ⟨7#64, 0⟩ exProj_ok.1 exProj_ok.2 with ⟨⟨id, r, h, -⟩, -⟩ | ⟨-, project, w', e, -, ⟨r, h1, h2, -⟩, -⟩
  · have : World.fresh.kv = [] := rfl
    rw [this] at h
    simp [Coll.getById, getK, Kv.get] at h
  · exact ⟨project, w', e, r, h1, h2⟩

/-- A project named like the token of another. -/
def exNamedTok : Project := { exProj with name := exToken, token := "other".toList }

/-- Without telling names and tokens apart the claim fails: a project whose name and token no project has is refused, if its name is the token of
another. -/
theorem C121_name_violated : ∃ w', Life exSysEnv exIsToken 75 w' ∧ ¬ Taken w'.kv exNamedTok ∧
    createProject exSys ⟨8#64, 0⟩ exNamedTok w' = (.error (.metadata .alreadyExists), w') := by
  have hfresh : ∀ id r, projectsC.getById id World.fresh.kv ≠ .ok r := by
    intro id r h
    have : World.fresh.kv = [] := rfl
    rw [this] at h
    simp [Coll.getById, getK, Kv.get] at h
  have hlife : Life exSysEnv exIsToken 75 (createProject exSys ⟨7#64, 0⟩ exProj World.fresh).2 := .create .start _ _ exProj_ok.1 exProj_ok.2
  rcases C121_partial exKeeps (T := exIsToken) .start (by decide) ⟨7#64, 0⟩ exProj_ok.1 exProj_ok.2 with ⟨⟨id, r, h, -⟩, -⟩ | ⟨-, project, w', e, -, ⟨r, h1, h2, h3, h4⟩, h5, -⟩
  · exact absurd h (hfresh id r)
  have e' : createProject exSys ⟨7#64, 0⟩ exProj World.fresh = (.ok project, w') := e
  rw [e'] at hlife
  refine ⟨w', hlife, ?_, ?_⟩
  · obtain ⟨hpi, -⟩ := (hlife.inv exKeeps (by decide)).inv.kv.pinv (by decide)
    rintro ⟨id, x, hx, hor⟩
    have only : ∀ id x, projectsC.getById id w'.kv = .ok x → id = project.id := by
      intro id x hx
      by_cases hj : id = project.id
      · exact hj
      · rw [h5 id hj] at hx
        exact absurd hx (hfresh id x)
    obtain ⟨⟨id0, h0⟩, -⟩ := (getBy_idx hpi _ _).mp h1
    have e0 := only _ _ h0
    rw [e0] at h0
    rw [only _ _ hx, h0] at hx
    cases hx
    rcases hor with h | h
    · rw [h3] at h
      exact absurd h (by decide)
    · rw [h4] at h
      exact absurd h (by decide)
  · have hkey : (getK w'.kv (projIdx exToken)).isSome = true := by
      unfold getByToken Coll.getBy Meta.getIndex at h1
      cases hg : getK w'.kv (projIdx exToken) with
      | some v => rfl
      | none =>
        have : getK w'.kv (.idx projectsC.ns .name exProj.token) = none := hg
        rw [this] at h1
        cases h1
    have hc : runCall (projectCreate ⟨8#64, 0⟩ exNamedTok) w'.kv = (.error .alreadyExists, w'.kv) := by
      have : clashInsert [some (projIdx exNamedTok.name), some (projIdx exNamedTok.token)] w'.kv = true := by
        unfold clashInsert
        simp only [List.any_cons]
        rw [show exNamedTok.name = exToken from rfl, hkey]
        rfl
      unfold runCall projectCreate Coll.create
      rw [this]
      rfl
    unfold createProject M.bind call callRaw
    rw [hc]

end OptiPrism.Ingest
