import Verif.Decimal

/-!
# Keys of the metadata store

Every key the metadata crate writes to RocksDB, as text (keys are the UTF-8 bytes of these strings;
UTF-8 is injective and preserves prefixes, so characters stand for bytes):
/repo/src/metadata/src/lib.rs 94-122 and the key builders of the single modules.
-/

namespace OptiPrism.Meta

abbrev Str := List Char

/-! Literal segments. -/

@[irreducible] def kEvents : Str := "events".toList
@[irreducible] def kCustomEvents : Str := "custom_events".toList
@[irreducible] def kEventProperties : Str := "event_properties".toList
@[irreducible] def kGroup_ : Str := "group_".toList
@[irreducible] def k_Properties : Str := "_properties".toList
@[irreducible] def kDashboards : Str := "dashboards".toList
@[irreducible] def kReports : Str := "reports".toList
@[irreducible] def kGlobal : Str := "global".toList
@[irreducible] def kAccounts : Str := "accounts".toList
@[irreducible] def kOrganizations : Str := "organizations".toList
@[irreducible] def kProjects : Str := "projects".toList
@[irreducible] def kSystem : Str := "system".toList
@[irreducible] def kBackups : Str := "backups".toList
@[irreducible] def kTeams : Str := "teams".toList
@[irreducible] def kName : Str := "name".toList
@[irreducible] def kDisplayName : Str := "display_name".toList
@[irreducible] def kEmail : Str := "email".toList
@[irreducible] def kColumnName : Str := "column_name".toList
@[irreducible] def idSeq : Str := "id_seq".toList
@[irreducible] def kDictinaries : Str := "dictinaries".toList
@[irreducible] def kTables : Str := "tables".toList
@[irreducible] def kGroups : Str := "groups".toList
@[irreducible] def kData : Str := "data".toList
@[irreducible] def kIdx : Str := "idx".toList
@[irreducible] def kRecords : Str := "records".toList
@[irreducible] def kProperties : Str := "properties".toList
@[irreducible] def kOrder : Str := "order".toList
@[irreducible] def kKeys : Str := "keys".toList
@[irreducible] def kValues : Str := "values".toList
@[irreducible] def kAnonymous : Str := "anonymous".toList
@[irreducible] def kReal : Str := "real".toList
@[irreducible] def kNames : Str := "names".toList
@[irreducible] def kSessions : Str := "sessions".toList
@[irreducible] def kBookmarks : Str := "bookmarks".toList
@[irreducible] def kConfig : Str := "config".toList

/-- Collections of a project (`NAMESPACE` constants; `Type::path`, properties.rs 555-564). -/
inductive PColl where
  | events | customEvents | eventProps | groupProps (g : Nat) | dashboards | reports | global
deriving DecidableEq, Repr

def PColl.name : PColl → Str
  | .events => kEvents
  | .customEvents => kCustomEvents
  | .eventProps => kEventProperties
  | .groupProps g => kGroup_ ++ (decimal g ++ k_Properties)
  | .dashboards => kDashboards
  | .reports => kReports
  | .global => kGlobal

/-- Collections outside projects. -/
inductive GColl where
  | accounts | organizations | projects
deriving DecidableEq, Repr

def GColl.name : GColl → Str
  | .accounts => kAccounts
  | .organizations => kOrganizations
  | .projects => kProjects

/-- A namespace: `project_ns` (lib.rs 94-96), `org_ns` (98-106), or a fixed one. -/
inductive Ns where
  | top (c : GColl)
  | backups
  | teams (org : Nat)
  | proj (p : Nat) (c : PColl)
deriving DecidableEq, Repr

def projPath (p : Nat) (rest : Str) : Str := kProjects ++ '/' :: (decimal p ++ '/' :: rest)

def orgPath (o : Nat) (rest : Str) : Str := kOrganizations ++ '/' :: (decimal o ++ '/' :: rest)

/-- The namespace followed by `rest`. -/
def Ns.path : Ns → Str → Str
  | .top c, rest => c.name ++ rest
  | .backups, rest => kSystem ++ '/' :: (kBackups ++ rest)
  | .teams o, rest => orgPath o (kTeams ++ rest)
  | .proj p c, rest => projPath p (c.name ++ rest)

/-- Index names (`IDX_*` constants). -/
inductive Ix where
  | name | displayName | email | columnName
deriving DecidableEq, Repr

def Ix.str : Ix → Str
  | .name => kName
  | .displayName => kDisplayName
  | .email => kEmail
  | .columnName => kColumnName

inductive Key where
  /-- `make_data_value_key`, lib.rs 108-110 -/
  | data (ns : Ns) (id : Nat)
  /-- `make_index_key`, lib.rs 116-118 -/
  | idx (ns : Ns) (ix : Ix) (s : Str)
  /-- `make_id_seq_key`, lib.rs 120-122 -/
  | seq (ns : Ns)
  /-- events.rs 402-412 -/
  | recSeq (p : Nat)
  /-- properties.rs 239-248 -/
  | orderSeq (p : Nat) (sh : Str)
  /-- `make_key_key`, dictionaries.rs 22-29 -/
  | dictKey (p : Nat) (t d : Str) (n : Nat)
  /-- `make_value_key`, dictionaries.rs 31-38 -/
  | dictVal (p : Nat) (t d : Str) (v : Str)
  /-- dictionaries.rs 73-79 -/
  | dictSeq (p : Nat) (t d : Str)
  /-- groups.rs 38 -/
  | anon (p g : Nat) (s : Str)
  /-- groups.rs 79, 111, 150 -/
  | real (p g : Nat) (s : Str)
  /-- groups.rs 41-45 -/
  | groupSeq (p g : Nat)
  /-- groups.rs 248-256 -/
  | groupRecSeq (p g : Nat)
  /-- groups.rs 218 -/
  | groupName (p : Nat) (s : Str)
  /-- groups.rs 221-224 -/
  | groupNamesSeq (p : Nat)
  /-- sessions.rs 19-26 -/
  | session (p u : Nat)
  /-- bookmarks.rs 35, 63-66 -/
  | bookmark (p a : Nat) (s : Str)
  /-- settings.rs 136, 147 -/
  | config
deriving DecidableEq, Repr

/-- `dict_ns (tbl_dict t d)`, dictionaries.rs 18-20, 55-57, inside the project. -/
def dictPath (p : Nat) (t d : Str) (rest : Str) : Str :=
  projPath p (kDictinaries ++ '/' :: (kTables ++ '/' :: (t ++ '/' :: (d ++ '/' :: rest))))

def groupPath (p g : Nat) (rest : Str) : Str := projPath p (kGroups ++ '/' :: (decimal g ++ rest))

def Key.render : Key → Str
  | .data ns id => ns.path ('/' :: (kData ++ '/' :: decimal id))
  | .idx ns ix s => ns.path ('/' :: (kIdx ++ '/' :: (ix.str ++ '/' :: s)))
  | .seq ns => ns.path idSeq
  | .recSeq p => projPath p (kEvents ++ '/' :: (kRecords ++ idSeq))
  | .orderSeq p sh => projPath p (kProperties ++ '/' :: (kOrder ++ '/' :: (sh ++ idSeq)))
  | .dictKey p t d n => dictPath p t d (kKeys ++ '/' :: decimal n)
  | .dictVal p t d v => dictPath p t d (kValues ++ '/' :: v)
  | .dictSeq p t d => dictPath p t d idSeq
  | .anon p g s => groupPath p g ('/' :: (kAnonymous ++ '/' :: (kKeys ++ '/' :: s)))
  | .real p g s => groupPath p g ('/' :: (kReal ++ '/' :: (kKeys ++ '/' :: s)))
  | .groupSeq p g => groupPath p g idSeq
  | .groupRecSeq p g => groupPath p g ('/' :: (kRecords ++ '/' :: idSeq))
  | .groupName p s => projPath p (kGroups ++ '/' :: (kNames ++ '/' :: s))
  | .groupNamesSeq p => projPath p (kGroups ++ idSeq)
  | .session p u => projPath p (kSessions ++ '/' :: (kData ++ decimal u))
  | .bookmark p a s => projPath p (kBookmarks ++ '/' :: (kAccounts ++ '/' :: (decimal a ++ '/' :: s)))
  | .config => kConfig

/-- Table, dictionary and type names contain no slash (columns are named by `column_name`,
properties.rs 610-631; tables are `events` and `group_N`; type names are `short_name`s). -/
def Key.WF : Key → Prop
  | .orderSeq _ sh => '/' ∉ sh
  | .dictKey _ t d _ => '/' ∉ t ∧ '/' ∉ d
  | .dictVal _ t d _ => '/' ∉ t ∧ '/' ∉ d
  | .dictSeq _ t d => '/' ∉ t ∧ '/' ∉ d
  | _ => True

/-- `make_data_key`, lib.rs 112-114: the prefix by which a collection is listed. -/
def Ns.listPrefix (ns : Ns) : Str := ns.path ('/' :: kData)

/-! ### reading keys back -/

def splitFirst : Str → Str × Option Str
  | [] => ([], none)
  | c :: cs => if c = '/' then ([], some cs) else (c :: (splitFirst cs).1, (splitFirst cs).2)

def stripSeq (t : Str) : Option Str :=
  if t.drop (t.length - 6) = idSeq then some (t.take (t.length - 6)) else none

def num (s : Str) : Option Nat := if s = [] then none else digitsVal? 0 s

def parseIx (s : Str) : Option Ix :=
  if s = kName then some .name
  else if s = kDisplayName then some .displayName
  else if s = kEmail then some .email
  else if s = kColumnName then some .columnName
  else none

def takeDigits : Str → Str
  | [] => []
  | c :: cs => if IsDigit c then c :: takeDigits cs else []

def parsePColl (t : Str) : Option PColl :=
  if t = kEvents then some .events
  else if t = kCustomEvents then some .customEvents
  else if t = kEventProperties then some .eventProps
  else if t = kDashboards then some .dashboards
  else if t = kReports then some .reports
  else if t = kGlobal then some .global
  else if t.take 6 = kGroup_ then (num (takeDigits (t.drop 6))).map .groupProps
  else none

def parseGColl (t : Str) : Option GColl :=
  if t = kAccounts then some .accounts
  else if t = kOrganizations then some .organizations
  else if t = kProjects then some .projects
  else none

def parseEntry (ns : Ns) (r : Str) : Option Key :=
  match splitFirst r with
  | (t, some x) =>
    if t = kData then (num x).map (.data ns)
    else if t = kIdx then
      match splitFirst x with
      | (i, some s) => (parseIx i).map fun ix => .idx ns ix s
      | _ => none
    else none
  | _ => none

def parseDict (p : Nat) (x : Str) : Option Key :=
  match splitFirst x with
  | (_, some x) =>
    match splitFirst x with
    | (t, some x) =>
      match splitFirst x with
      | (d, some x) =>
        match splitFirst x with
        | (_, none) => some (.dictSeq p t d)
        | (k, some y) => if k = kKeys then (num y).map (.dictKey p t d) else some (.dictVal p t d y)
      | _ => none
    | _ => none
  | _ => none

def parseGroup (p : Nat) (x : Str) : Option Key :=
  match splitFirst x with
  | (g, none) => ((stripSeq g).bind num).map (.groupSeq p)
  | (g, some y) =>
    if g = kNames then some (.groupName p y)
    else
      match num g, splitFirst y with
      | some g, (k, some z) =>
        if k = kRecords then some (.groupRecSeq p g)
        else
          match splitFirst z with
          | (_, some s) => if k = kAnonymous then some (.anon p g s) else some (.real p g s)
          | _ => none
      | _, _ => none

def parseProj (p : Nat) (r : Str) : Option Key :=
  match splitFirst r with
  | (t, none) =>
    match stripSeq t with
    | none => none
    | some c => if c = kGroups then some (.groupNamesSeq p) else (parsePColl c).map fun c => .seq (.proj p c)
  | (t, some x) =>
    if t = kSessions then (if x.take 4 = kData then (num (x.drop 4)).map (.session p) else none)
    else if t = kDictinaries then parseDict p x
    else if t = kGroups then parseGroup p x
    else if t = kProperties then
      match splitFirst x with
      | (_, some y) => (stripSeq y).map (.orderSeq p)
      | _ => none
    else if t = kBookmarks then
      match splitFirst x with
      | (_, some y) =>
        match splitFirst y with
        | (a, some s) => (num a).map fun a => .bookmark p a s
        | _ => none
      | _ => none
    else if t = kEvents ∧ x = kRecords ++ idSeq then some (.recSeq p)
    else (parsePColl t).bind fun c => parseEntry (.proj p c) x

def parseKey (s : Str) : Option Key :=
  match splitFirst s with
  | (t, none) =>
    if t = kConfig then some .config
    else ((stripSeq t).bind parseGColl).map fun c => .seq (.top c)
  | (t, some r) =>
    if t = kSystem then
      match splitFirst r with
      | (_, none) => some (.seq .backups)
      | (_, some x) => parseEntry .backups x
    else
      match num (splitFirst r).1, (splitFirst r).2 with
      | some n, some x =>
        if t = kProjects then parseProj n x
        else
          match splitFirst x with
          | (_, none) => some (.seq (.teams n))
          | (_, some y) => parseEntry (.teams n) y
      | _, _ => (parseGColl t).bind fun c => parseEntry (.top c) r

/-! ### lemmas -/

theorem split_tok {a : Str} (h : '/' ∉ a) (x : Str) : splitFirst (a ++ '/' :: x) = (a, some x) := by
  induction a with
  | nil => simp [splitFirst]
  | cons c a ih =>
    simp only [List.mem_cons, not_or] at h
    have : c ≠ '/' := fun e => h.1 e.symm
    simp [splitFirst, this, ih h.2]

theorem split_last {a : Str} (h : '/' ∉ a) : splitFirst a = (a, none) := by
  induction a with
  | nil => rfl
  | cons c a ih =>
    simp only [List.mem_cons, not_or] at h
    have : c ≠ '/' := fun e => h.1 e.symm
    simp [splitFirst, this, ih h.2]

theorem split_append {a : Str} (h : '/' ∉ a) (x : Str) :
    splitFirst (a ++ x) = (a ++ (splitFirst x).1, (splitFirst x).2) := by
  induction a with
  | nil => rfl
  | cons c a ih =>
    simp only [List.mem_cons, not_or] at h
    have : c ≠ '/' := fun e => h.1 e.symm
    simp [splitFirst, this, ih h.2]

theorem strip_seq (a : Str) : stripSeq (a ++ idSeq) = some a := by
  have hl : (a ++ idSeq).length - 6 = a.length := by simp [idSeq]
  unfold stripSeq
  rw [hl, List.drop_left, if_pos rfl, List.take_left]

theorem num_decimal (n : Nat) : num (decimal n) = some n := by
  rw [num, if_neg (decimal_ne_nil n), digitsVal_decimal]

theorem decimal_no_slash (n : Nat) : '/' ∉ decimal n := fun h => absurd (decimal_digits n _ h) (by decide +kernel)

theorem decimal_ne_names (g : Nat) : ¬ decimal g = kNames := fun h => by
  have h1 := num_decimal g
  rw [h, show num kNames = none by decide +kernel] at h1
  simp at h1

theorem takeDigits_append {a : Str} (ha : ∀ c ∈ a, IsDigit c) {c : Char} (hc : ¬ IsDigit c) (x : Str) :
    takeDigits (a ++ c :: x) = a := by
  induction a with
  | nil => simp [takeDigits, hc]
  | cons d a ih => simp [takeDigits, ha d (by simp), ih fun c h => ha c (List.mem_cons_of_mem _ h)]

theorem parseIx_str (ix : Ix) : parseIx ix.str = some ix := by cases ix <;> decide +kernel

theorem ix_no_slash (ix : Ix) : '/' ∉ ix.str := by cases ix <;> decide +kernel

theorem gcoll_no_slash (c : GColl) : '/' ∉ c.name := by cases c <;> decide +kernel

theorem parseGColl_name (c : GColl) : parseGColl c.name = some c := by cases c <;> decide +kernel

theorem pcoll_no_slash (c : PColl) : '/' ∉ c.name := by
  cases c with
  | groupProps g =>
    simp only [PColl.name, List.mem_append, not_or]
    exact ⟨by decide +kernel, decimal_no_slash g, by decide +kernel⟩
  | _ => decide +kernel

theorem group_ne {l : Str} (x : Str) (h : l.take 6 ≠ kGroup_) : kGroup_ ++ x ≠ l := by
  rintro rfl
  apply h
  rw [List.take_left' (by decide +kernel)]

theorem parsePColl_group (x : Str) : parsePColl (kGroup_ ++ x) = (num (takeDigits x)).map .groupProps := by
  unfold parsePColl
  rw [if_neg (group_ne _ (by decide +kernel)), if_neg (group_ne _ (by decide +kernel)),
    if_neg (group_ne _ (by decide +kernel)), if_neg (group_ne _ (by decide +kernel)),
    if_neg (group_ne _ (by decide +kernel)), if_neg (group_ne _ (by decide +kernel)),
    List.take_left' (by decide +kernel), List.drop_left' (by decide +kernel), if_pos rfl]

theorem parsePColl_name (c : PColl) : parsePColl c.name = some c := by
  cases c with
  | groupProps g =>
    have h : takeDigits (decimal g ++ k_Properties) = decimal g := by
      rw [show k_Properties = '_' :: "properties".toList by decide +kernel]
      exact takeDigits_append (decimal_digits g) (by decide +kernel) _
    show parsePColl (kGroup_ ++ (decimal g ++ k_Properties)) = _
    rw [parsePColl_group, h, num_decimal]
    rfl
  | _ => decide +kernel

theorem pcoll_special (c : PColl) : c.name ≠ kSessions ∧ c.name ≠ kDictinaries ∧
    c.name ≠ kGroups ∧ c.name ≠ kProperties ∧ c.name ≠ kBookmarks := by
  cases c with
  | groupProps g =>
    exact ⟨group_ne _ (by decide +kernel), group_ne _ (by decide +kernel), group_ne _ (by decide +kernel),
      group_ne _ (by decide +kernel), group_ne _ (by decide +kernel)⟩
  | _ => decide +kernel

theorem ne_records {a x : Str} : a ++ '/' :: x ≠ kRecords ++ idSeq := by
  intro h
  have : '/' ∈ kRecords ++ idSeq := by rw [← h]; simp
  exact absurd this (by decide +kernel)

theorem parseEntry_data (ns : Ns) (id : Nat) : parseEntry ns (kData ++ '/' :: decimal id) = some (.data ns id) := by
  simp only [parseEntry, split_tok (a := kData) (by decide +kernel)]
  rw [if_pos trivial, num_decimal]
  rfl

theorem parseEntry_idx (ns : Ns) (ix : Ix) (s : Str) :
    parseEntry ns (kIdx ++ '/' :: (ix.str ++ '/' :: s)) = some (.idx ns ix s) := by
  simp only [parseEntry, split_tok (a := kIdx) (by decide +kernel)]
  rw [if_neg (by decide +kernel), if_pos trivial]
  simp only [split_tok (ix_no_slash ix), parseIx_str]
  rfl

theorem parseKey_proj (p : Nat) (r : Str) : parseKey (projPath p r) = parseProj p r := by
  simp only [parseKey, projPath, split_tok (a := kProjects) (by decide +kernel)]
  rw [if_neg (by decide +kernel)]
  simp only [split_tok (decimal_no_slash p), num_decimal]
  rw [if_pos trivial]

theorem parseKey_org (o : Nat) (r : Str) : parseKey (orgPath o r) =
    match splitFirst r with
    | (_, none) => some (.seq (.teams o))
    | (_, some y) => parseEntry (.teams o) y := by
  simp only [parseKey, orgPath, split_tok (a := kOrganizations) (by decide +kernel)]
  rw [if_neg (by decide +kernel)]
  simp only [split_tok (decimal_no_slash o), num_decimal]
  rw [if_neg (by decide +kernel)]

theorem parseProj_coll (p : Nat) (c : PColl) (x : Str) (hx : x ≠ kRecords ++ idSeq) :
    parseProj p (c.name ++ '/' :: x) = parseEntry (.proj p c) x := by
  obtain ⟨h1, h2, h3, h4, h5⟩ := pcoll_special c
  simp only [parseProj, split_tok (pcoll_no_slash c)]
  rw [if_neg h1, if_neg h2, if_neg h3, if_neg h4, if_neg h5, if_neg (fun h => hx h.2), parsePColl_name]
  rfl

theorem num_data : num kData = none := by decide +kernel
theorem num_idx : num kIdx = none := by decide +kernel

theorem parseKey_top_data (c : GColl) (x : Str) :
    parseKey (c.name ++ '/' :: (kData ++ '/' :: x)) = parseEntry (.top c) (kData ++ '/' :: x) := by
  simp only [parseKey, split_tok (gcoll_no_slash c)]
  rw [if_neg (by cases c <;> decide +kernel), split_tok (by decide +kernel)]
  simp only [num_data, parseGColl_name]
  rfl

theorem parseKey_top_idx (c : GColl) (x : Str) :
    parseKey (c.name ++ '/' :: (kIdx ++ '/' :: x)) = parseEntry (.top c) (kIdx ++ '/' :: x) := by
  simp only [parseKey, split_tok (gcoll_no_slash c)]
  rw [if_neg (by cases c <;> decide +kernel), split_tok (by decide +kernel)]
  simp only [num_idx, parseGColl_name]
  rfl

theorem append_no_slash {a b : Str} (ha : '/' ∉ a) (hb : '/' ∉ b) : '/' ∉ a ++ b := by
  simp [ha, hb]

theorem idSeq_no_slash : '/' ∉ idSeq := by decide +kernel

theorem parse_render (k : Key) (hk : k.WF) : parseKey k.render = some k := by
  cases k with
  | data ns id =>
    simp only [Key.render]
    cases ns with
    | top c => simp only [Ns.path]; rw [parseKey_top_data, parseEntry_data]
    | backups =>
      simp only [Ns.path, parseKey, split_tok (a := kSystem) (by decide +kernel)]
      rw [if_pos trivial]
      simp only [split_tok (a := kBackups) (by decide +kernel), parseEntry_data]
    | teams o =>
      simp only [Ns.path]
      rw [parseKey_org]
      simp only [split_tok (a := kTeams) (by decide +kernel), parseEntry_data]
    | proj p c => simp only [Ns.path]; rw [parseKey_proj, parseProj_coll _ _ _ ne_records, parseEntry_data]
  | idx ns ix s =>
    simp only [Key.render]
    cases ns with
    | top c => simp only [Ns.path]; rw [parseKey_top_idx, parseEntry_idx]
    | backups =>
      simp only [Ns.path, parseKey, split_tok (a := kSystem) (by decide +kernel)]
      rw [if_pos trivial]
      simp only [split_tok (a := kBackups) (by decide +kernel), parseEntry_idx]
    | teams o =>
      simp only [Ns.path]
      rw [parseKey_org]
      simp only [split_tok (a := kTeams) (by decide +kernel), parseEntry_idx]
    | proj p c => simp only [Ns.path]; rw [parseKey_proj, parseProj_coll _ _ _ ne_records, parseEntry_idx]
  | seq ns =>
    simp only [Key.render]
    cases ns with
    | top c => cases c <;> decide +kernel
    | backups => decide +kernel
    | teams o =>
      simp only [Ns.path]
      rw [parseKey_org, split_last (append_no_slash (by decide +kernel) (by decide +kernel))]
    | proj p c =>
      simp only [Ns.path]
      rw [parseKey_proj]
      simp only [parseProj, split_last (append_no_slash (pcoll_no_slash c) idSeq_no_slash), strip_seq]
      rw [if_neg (pcoll_special c).2.2.1, parsePColl_name]
      rfl
  | recSeq p =>
    simp only [Key.render]
    rw [parseKey_proj]
    simp only [parseProj, split_tok (a := kEvents) (by decide +kernel)]
    rw [if_neg (by decide +kernel), if_neg (by decide +kernel), if_neg (by decide +kernel), if_neg (by decide +kernel), if_neg (by decide +kernel), if_pos (by simp)]
  | orderSeq p sh =>
    simp only [Key.render]
    rw [parseKey_proj]
    simp only [parseProj, split_tok (a := kProperties) (by decide +kernel)]
    rw [if_neg (by decide +kernel), if_neg (by decide +kernel), if_neg (by decide +kernel), if_pos trivial]
    simp only [split_tok (a := kOrder) (by decide +kernel), strip_seq]
    rfl
  | dictKey p t d n =>
    simp only [Key.render, dictPath]
    rw [parseKey_proj]
    simp only [parseProj, split_tok (a := kDictinaries) (by decide +kernel)]
    rw [if_neg (by decide +kernel), if_pos trivial]
    simp only [parseDict, split_tok (a := kTables) (by decide +kernel), split_tok hk.1, split_tok hk.2,
      split_tok (a := kKeys) (by decide +kernel), num_decimal]
    rfl
  | dictVal p t d v =>
    simp only [Key.render, dictPath]
    rw [parseKey_proj]
    simp only [parseProj, split_tok (a := kDictinaries) (by decide +kernel)]
    rw [if_neg (by decide +kernel), if_pos trivial]
    simp only [parseDict, split_tok (a := kTables) (by decide +kernel), split_tok hk.1, split_tok hk.2,
      split_tok (a := kValues) (by decide +kernel)]
    rw [if_neg (by decide +kernel)]
  | dictSeq p t d =>
    simp only [Key.render, dictPath]
    rw [parseKey_proj]
    simp only [parseProj, split_tok (a := kDictinaries) (by decide +kernel)]
    rw [if_neg (by decide +kernel), if_pos trivial]
    simp only [parseDict, split_tok (a := kTables) (by decide +kernel), split_tok hk.1, split_tok hk.2,
      split_last idSeq_no_slash]
  | anon p g s =>
    simp only [Key.render, groupPath]
    rw [parseKey_proj]
    simp only [parseProj, split_tok (a := kGroups) (by decide +kernel)]
    rw [if_neg (by decide +kernel), if_neg (by decide +kernel), if_pos trivial]
    simp only [parseGroup, split_tok (decimal_no_slash g)]
    rw [if_neg (decimal_ne_names g)]
    simp only [num_decimal, split_tok (a := kAnonymous) (by decide +kernel)]
    rw [if_neg (by decide +kernel)]
    simp only [split_tok (a := kKeys) (by decide +kernel)]
    rw [if_pos trivial]
  | real p g s =>
    simp only [Key.render, groupPath]
    rw [parseKey_proj]
    simp only [parseProj, split_tok (a := kGroups) (by decide +kernel)]
    rw [if_neg (by decide +kernel), if_neg (by decide +kernel), if_pos trivial]
    simp only [parseGroup, split_tok (decimal_no_slash g)]
    rw [if_neg (decimal_ne_names g)]
    simp only [num_decimal, split_tok (a := kReal) (by decide +kernel)]
    rw [if_neg (by decide +kernel)]
    simp only [split_tok (a := kKeys) (by decide +kernel)]
    rw [if_neg (by decide +kernel)]
  | groupSeq p g =>
    simp only [Key.render, groupPath]
    rw [parseKey_proj]
    simp only [parseProj, split_tok (a := kGroups) (by decide +kernel)]
    rw [if_neg (by decide +kernel), if_neg (by decide +kernel), if_pos trivial]
    simp only [parseGroup, split_last (append_no_slash (decimal_no_slash g) idSeq_no_slash), strip_seq,
      Option.bind_some, num_decimal]
    rfl
  | groupRecSeq p g =>
    simp only [Key.render, groupPath]
    rw [parseKey_proj]
    simp only [parseProj, split_tok (a := kGroups) (by decide +kernel)]
    rw [if_neg (by decide +kernel), if_neg (by decide +kernel), if_pos trivial]
    simp only [parseGroup, split_tok (decimal_no_slash g)]
    rw [if_neg (decimal_ne_names g)]
    simp only [num_decimal, split_tok (a := kRecords) (by decide +kernel)]
    rw [if_pos trivial]
  | groupName p s =>
    simp only [Key.render]
    rw [parseKey_proj]
    simp only [parseProj, split_tok (a := kGroups) (by decide +kernel)]
    rw [if_neg (by decide +kernel), if_neg (by decide +kernel), if_pos trivial]
    simp only [parseGroup, split_tok (a := kNames) (by decide +kernel)]
    rw [if_pos trivial]
  | groupNamesSeq p =>
    simp only [Key.render]
    rw [parseKey_proj]
    simp only [parseProj, split_last (append_no_slash (a := kGroups) (by decide +kernel) idSeq_no_slash), strip_seq]
    rw [if_pos trivial]
  | session p u =>
    simp only [Key.render]
    rw [parseKey_proj]
    simp only [parseProj, split_tok (a := kSessions) (by decide +kernel)]
    rw [if_pos trivial, List.take_left' (by decide +kernel), if_pos rfl, List.drop_left' (by decide +kernel), num_decimal]
    rfl
  | bookmark p a s =>
    simp only [Key.render]
    rw [parseKey_proj]
    simp only [parseProj, split_tok (a := kBookmarks) (by decide +kernel)]
    rw [if_neg (by decide +kernel), if_neg (by decide +kernel), if_neg (by decide +kernel), if_neg (by decide +kernel), if_pos trivial]
    simp only [split_tok (a := kAccounts) (by decide +kernel), split_tok (decimal_no_slash a), num_decimal]
    rfl
  | config => decide +kernel

end OptiPrism.Meta
