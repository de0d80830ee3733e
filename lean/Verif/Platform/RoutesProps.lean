import Verif.Platform.RoutesBase

/-!
# C150: requests reach the handlers they are addressed to

The specification is the list of addresses of the API: for each handler a method and a path, with places for numbers and texts.
-/

namespace OptiPrism.Platform

open OptiPrism.Meta

/-! ## The addresses -/

inductive Place where
  | fix (s : String)
  | num
  | str
  deriving DecidableEq, Repr

open Place in
/-- Method and path for each handler. -/
def address : Handler → Meth × List Place
  | .track => (.post, [fix "api", fix "v1", fix "ingest", str, fix "track"])
  | .identify => (.post, [fix "api", fix "v1", fix "ingest", str, fix "identify"])
  | .orgCreate => (.post, [fix "api", fix "v1", fix "organizations"])
  | .orgList => (.get, [fix "api", fix "v1", fix "organizations"])
  | .orgGet => (.get, [fix "api", fix "v1", fix "organizations", num])
  | .orgUpdate => (.put, [fix "api", fix "v1", fix "organizations", num])
  | .orgDelete => (.delete, [fix "api", fix "v1", fix "organizations", num])
  | .projectCreate => (.post, [fix "api", fix "v1", fix "projects"])
  | .projectList => (.get, [fix "api", fix "v1", fix "projects"])
  | .projectGet => (.get, [fix "api", fix "v1", fix "projects", num])
  | .projectUpdate => (.put, [fix "api", fix "v1", fix "projects", num])
  | .projectDelete => (.delete, [fix "api", fix "v1", fix "projects", num])
  | .accountCreate => (.post, [fix "api", fix "v1", fix "accounts"])
  | .accountList => (.get, [fix "api", fix "v1", fix "accounts"])
  | .accountGet => (.get, [fix "api", fix "v1", fix "accounts", num])
  | .accountUpdate => (.put, [fix "api", fix "v1", fix "accounts", num])
  | .accountDelete => (.delete, [fix "api", fix "v1", fix "accounts", num])
  | .backupMake => (.post, [fix "api", fix "v1", fix "admin", fix "backups", fix "backup"])
  | .backupList => (.get, [fix "api", fix "v1", fix "admin", fix "backups"])
  | .backupGet => (.get, [fix "api", fix "v1", fix "admin", fix "backups", num])
  | .settingsSet => (.put, [fix "api", fix "v1", fix "admin", fix "settings"])
  | .settingsGet => (.get, [fix "api", fix "v1", fix "admin", fix "settings"])
  | .signUp => (.post, [fix "api", fix "v1", fix "auth", fix "signup"])
  | .logIn => (.post, [fix "api", fix "v1", fix "auth", fix "login"])
  | .refresh => (.post, [fix "api", fix "v1", fix "auth", fix "refresh-token"])
  | .switchOrg => (.post, [fix "api", fix "v1", fix "auth", fix "switch-organization", num])
  | .profile => (.get, [fix "api", fix "v1", fix "profile"])
  | .setName => (.put, [fix "api", fix "v1", fix "profile", fix "name"])
  | .changeEmail => (.put, [fix "api", fix "v1", fix "profile", fix "email"])
  | .changePassword => (.put, [fix "api", fix "v1", fix "profile", fix "password"])
  | .setPassword => (.put, [fix "api", fix "v1", fix "profile", fix "set-password"])
  | .setEmail => (.put, [fix "api", fix "v1", fix "profile", fix "set-email"])
  | .eventCreate => (.post, [fix "api", fix "v1", fix "projects", num, fix "schema", fix "events"])
  | .eventList => (.get, [fix "api", fix "v1", fix "projects", num, fix "schema", fix "events"])
  | .eventGet => (.get, [fix "api", fix "v1", fix "projects", num, fix "schema", fix "events", num])
  | .eventUpdate => (.put, [fix "api", fix "v1", fix "projects", num, fix "schema", fix "events", num])
  | .eventDelete => (.delete, [fix "api", fix "v1", fix "projects", num, fix "schema", fix "events", num])
  | .eventByName => (.get, [fix "api", fix "v1", fix "projects", num, fix "schema", fix "events", fix "name", str])
  | .eventAttach => (.post, [fix "api", fix "v1", fix "projects", num, fix "schema", fix "events", num, fix "properties", num])
  | .eventDetach => (.delete, [fix "api", fix "v1", fix "projects", num, fix "schema", fix "events", num, fix "properties", num])
  | .customCreate => (.post, [fix "api", fix "v1", fix "projects", num, fix "schema", fix "custom-events"])
  | .customList => (.get, [fix "api", fix "v1", fix "projects", num, fix "schema", fix "custom-events"])
  | .customGet => (.get, [fix "api", fix "v1", fix "projects", num, fix "schema", fix "custom-events", num])
  | .customUpdate => (.put, [fix "api", fix "v1", fix "projects", num, fix "schema", fix "custom-events", num])
  | .customDelete => (.delete, [fix "api", fix "v1", fix "projects", num, fix "schema", fix "custom-events", num])
  | .groupCreate => (.post, [fix "api", fix "v1", fix "projects", num, fix "groups"])
  | .groupList => (.get, [fix "api", fix "v1", fix "projects", num, fix "groups"])
  | .propValues => (.post, [fix "api", fix "v1", fix "projects", num, fix "property-values"])
  | .eventPropList => (.get, [fix "api", fix "v1", fix "projects", num, fix "schema", fix "event-properties"])
  | .eventPropGet => (.get, [fix "api", fix "v1", fix "projects", num, fix "schema", fix "event-properties", num])
  | .eventPropUpdate => (.put, [fix "api", fix "v1", fix "projects", num, fix "schema", fix "event-properties", num])
  | .eventPropDelete => (.delete, [fix "api", fix "v1", fix "projects", num, fix "schema", fix "event-properties", num])
  | .eventPropByName => (.get, [fix "api", fix "v1", fix "projects", num, fix "schema", fix "event-properties", fix "name", str])
  | .groupPropList => (.get, [fix "api", fix "v1", fix "projects", num, fix "schema", fix "group-properties", num])
  | .groupPropGet => (.get, [fix "api", fix "v1", fix "projects", num, fix "schema", fix "group-properties", num, num])
  | .groupPropUpdate => (.put, [fix "api", fix "v1", fix "projects", num, fix "schema", fix "group-properties", num, num])
  | .groupPropDelete => (.delete, [fix "api", fix "v1", fix "projects", num, fix "schema", fix "group-properties", num, num])
  | .groupPropByName => (.get, [fix "api", fix "v1", fix "projects", num, fix "schema", fix "group-properties", num, fix "name", str])
  | .dashboardCreate => (.post, [fix "api", fix "v1", fix "projects", num, fix "dashboards"])
  | .dashboardList => (.get, [fix "api", fix "v1", fix "projects", num, fix "dashboards"])
  | .dashboardGet => (.get, [fix "api", fix "v1", fix "projects", num, fix "dashboards", num])
  | .dashboardUpdate => (.put, [fix "api", fix "v1", fix "projects", num, fix "dashboards", num])
  | .dashboardDelete => (.delete, [fix "api", fix "v1", fix "projects", num, fix "dashboards", num])
  | .reportCreate => (.post, [fix "api", fix "v1", fix "projects", num, fix "reports"])
  | .reportList => (.get, [fix "api", fix "v1", fix "projects", num, fix "reports"])
  | .reportGet => (.get, [fix "api", fix "v1", fix "projects", num, fix "reports", num])
  | .reportUpdate => (.put, [fix "api", fix "v1", fix "projects", num, fix "reports", num])
  | .reportDelete => (.delete, [fix "api", fix "v1", fix "projects", num, fix "reports", num])
  | .bookmarkCreate => (.post, [fix "api", fix "v1", fix "projects", num, fix "bookmarks"])
  | .bookmarkGet => (.get, [fix "api", fix "v1", fix "projects", num, fix "bookmarks", str])
  | .eventRecord => (.get, [fix "api", fix "v1", fix "projects", num, fix "event-records", num])
  | .eventSearch => (.post, [fix "api", fix "v1", fix "projects", num, fix "event-records", fix "search"])
  | .segmentation => (.post, [fix "api", fix "v1", fix "projects", num, fix "queries", fix "event-segmentation"])
  | .funnel => (.post, [fix "api", fix "v1", fix "projects", num, fix "queries", fix "funnel"])
  | .groupRecord => (.get, [fix "api", fix "v1", fix "projects", num, fix "group-records", num, str])
  | .groupSearch => (.post, [fix "api", fix "v1", fix "projects", num, fix "group-records", fix "search"])

/-- The path is the one given, with these numbers and texts in its places. -/
inductive Spelled (D : Decode) : List Place → List Str → List Arg → Prop where
  | nil : Spelled D [] [] []
  | fix {t l p a} : Spelled D l p a → Spelled D (.fix t :: l) (t.toList :: p) a
  | num {s d n l p a} : s ≠ [] → D.run s = some d → parseU64 d = some n → Spelled D l p a → Spelled D (.num :: l) (s :: p) (.num n :: a)
  | str {s d l p a} : s ≠ [] → D.run s = some d → Spelled D l p a → Spelled D (.str :: l) (s :: p) (.str d :: a)

/-- The request is for this handler, with these arguments. -/
def Addressed (D : Decode) (h : Handler) (m : Meth) (p : List Str) (args : List Arg) : Prop :=
  (m = (address h).1 ∨ (address h).1 = .get ∧ m = .head) ∧ Spelled D (address h).2 p args

/-- The handlers that work without a token. -/
def openTo (h : Handler) : Prop := h = .signUp ∨ h = .logIn ∨ h = .track ∨ h = .identify

/-- The paths under which all routes made before are there once more. -/
inductive Copied : List Str → Prop where
  | custom {a} : a ≠ [] → Copied ["api".toList, "v1".toList, "projects".toList, a, "schema".toList, "custom-events".toList]
  | group {a g} : a ≠ [] → g ≠ [] → Copied ["api".toList, "v1".toList, "projects".toList, a, "schema".toList, "group-properties".toList, g]
  | both {a g b} : a ≠ [] → g ≠ [] → b ≠ [] → Copied ["api".toList, "v1".toList, "projects".toList, a, "schema".toList, "group-properties".toList, g,
      "api".toList, "v1".toList, "projects".toList, b, "schema".toList, "custom-events".toList]

/-! ## Patterns and addresses -/

def PKind.slot : PKind → Place
  | .num => .num
  | .str => .str

def slots : RoutePat → List PKind → Option (List Place)
  | [], [] => some []
  | .lit w :: q, ks => (slots q ks).map (.fix w.text :: ·)
  | .par _ :: q, k :: ks => (slots q ks).map (k.slot :: ·)
  | _, _ => none

theorem spelled_of {D : Decode} : ∀ {q : RoutePat} {ks : List PKind} {sl : List Place} {p ps ds : List Str} {as : List Arg}, slots q ks = some sl →
    takeParams q p = some ps → decodeAll D ps = some ds → readParts ks ds = some as → Spelled D sl p as
  | [], ks, sl, p, ps, ds, as, h, t, d, r => by
    cases ks with
    | cons k ks => simp [slots] at h
    | nil =>
      cases p with
      | cons s p => simp [takeParams] at t
      | nil =>
        simp only [slots, Option.some.injEq] at h
        simp only [takeParams, Option.some.injEq] at t
        subst h; subst t
        simp only [decodeAll, Option.some.injEq] at d
        subst d
        simp only [readParts, Option.some.injEq] at r
        subst r
        exact .nil
  | .lit w :: q, ks, sl, p, ps, ds, as, h, t, d, r => by
    simp only [slots, Option.map_eq_some_iff] at h
    obtain ⟨sl', h, rfl⟩ := h
    cases p with
    | nil => simp [takeParams] at t
    | cons s p =>
      simp only [takeParams] at t
      split at t
      · rename_i e
        subst e
        exact .fix (spelled_of h t d r)
      · cases t
  | .par _ :: q, ks, sl, p, ps, ds, as, h, t, d, r => by
    cases ks with
    | nil => simp [slots] at h
    | cons k ks =>
      simp only [slots, Option.map_eq_some_iff] at h
      obtain ⟨sl', h, rfl⟩ := h
      cases p with
      | nil => simp [takeParams] at t
      | cons s p =>
        simp only [takeParams] at t
        split at t
        · cases t
        · rename_i ne
          simp only [Option.map_eq_some_iff] at t
          obtain ⟨ps', t, rfl⟩ := t
          simp only [decodeAll, Option.bind_eq_some_iff, Option.map_eq_some_iff] at d
          obtain ⟨d1, hd1, ds', hd, rfl⟩ := d
          simp only [readParts, Option.bind_eq_some_iff, Option.map_eq_some_iff] at r
          obtain ⟨a, ha, as', hr, rfl⟩ := r
          have ih := spelled_of h t hd hr
          cases k with
          | num =>
            simp only [readPart, Option.map_eq_some_iff] at ha
            obtain ⟨n, hn, rfl⟩ := ha
            exact .num ne hd1 hn ih
          | str =>
            simp only [readPart, Option.some.injEq] at ha
            subst ha
            exact .str ne hd1 ih

theorem of_spelled {D : Decode} : ∀ {q : RoutePat} {ks : List PKind} {sl : List Place} {p : List Str} {as : List Arg}, slots q ks = some sl →
    Spelled D sl p as → ∃ ps ds, takeParams q p = some ps ∧ decodeAll D ps = some ds ∧ readParts ks ds = some as
  | [], ks, sl, p, as, h, s => by
    cases ks with
    | cons k ks => simp [slots] at h
    | nil =>
      simp only [slots, Option.some.injEq] at h
      subst h
      cases s
      exact ⟨[], [], rfl, rfl, rfl⟩
  | .lit w :: q, ks, sl, p, as, h, s => by
    simp only [slots, Option.map_eq_some_iff] at h
    obtain ⟨sl', h, rfl⟩ := h
    cases s with
    | fix s =>
      obtain ⟨ps, ds, t, d, r⟩ := of_spelled h s
      exact ⟨ps, ds, by simp only [takeParams]; exact (if_pos rfl).trans t, d, r⟩
  | .par _ :: q, ks, sl, p, as, h, s => by
    cases ks with
    | nil => simp [slots] at h
    | cons k ks =>
      simp only [slots, Option.map_eq_some_iff] at h
      obtain ⟨sl', h, rfl⟩ := h
      cases k with
      | num =>
        cases s with
        | @num s1 d1 n1 _ _ _ ne hd hn s =>
          obtain ⟨ps, ds, t, d, r⟩ := of_spelled h s
          exact ⟨s1 :: ps, d1 :: ds, by simp [takeParams, ne, t], by simp [decodeAll, hd, d], by simp [readParts, readPart, hn, r]⟩
      | str =>
        cases s with
        | @str s1 d1 _ _ _ ne hd s =>
          obtain ⟨ps, ds, t, d, r⟩ := of_spelled h s
          exact ⟨s1 :: ps, d1 :: ds, by simp [takeParams, ne, t], by simp [decodeAll, hd, d], by simp [readParts, readPart, r]⟩

/-! ## Rivals -/

/-- Whether a path for the first pattern, with numbers where they are asked for, can match the second. -/
def compat : RoutePat → List PKind → RoutePat → Bool
  | [], _, [] => true
  | .lit w :: q, ks, .lit w' :: q' => decide (w = w') && compat q ks q'
  | .lit _ :: q, ks, .par _ :: q' => compat q ks q'
  | .par _ :: q, _ :: ks, .par _ :: q' => compat q ks q'
  | .par _ :: q, k :: ks, .lit _ :: q' => decide (k = .str) && compat q ks q'
  | _, _, _ => false

theorem compat_of {D : Decode} : ∀ {q : RoutePat} {ks : List PKind} {p ps ds : List Str} {as : List Arg} {q' : RoutePat},
    takeParams q p = some ps → decodeAll D ps = some ds → readParts ks ds = some as → fits p q' = true → compat q ks q' = true
  | [], ks, p, ps, ds, as, q', t, d, r, f => by
    cases p with
    | cons s p => simp [takeParams] at t
    | nil => rw [fits_nil] at f; subst f; rfl
  | .lit w :: q, ks, p, ps, ds, as, q', t, d, r, f => by
    cases p with
    | nil => simp [takeParams] at t
    | cons s p =>
      simp only [takeParams] at t
      split at t
      · rename_i e
        cases q' with
        | nil => rw [fits_cons] at f; cases f
        | cons b q' =>
          cases b with
          | lit w' =>
            rw [fits_lit] at f
            have e' : w = w' := Word.str_inj (e.symm.trans f.1)
            simp only [compat, Bool.and_eq_true, decide_eq_true_eq]
            exact ⟨e', compat_of t d r f.2⟩
          | par _ =>
            rw [fits_par] at f
            simp only [compat]
            exact compat_of t d r f.2
      · cases t
  | .par _ :: q, ks, p, ps, ds, as, q', t, d, r, f => by
    cases p with
    | nil => simp [takeParams] at t
    | cons s p =>
      simp only [takeParams] at t
      split at t
      · cases t
      · simp only [Option.map_eq_some_iff] at t
        obtain ⟨ps', t, rfl⟩ := t
        simp only [decodeAll, Option.bind_eq_some_iff, Option.map_eq_some_iff] at d
        obtain ⟨d1, hd1, ds', hd, rfl⟩ := d
        cases ks with
        | nil => simp [readParts] at r
        | cons k ks =>
          simp only [readParts, Option.bind_eq_some_iff, Option.map_eq_some_iff] at r
          obtain ⟨a, ha, as', hr, rfl⟩ := r
          cases q' with
          | nil => rw [fits_cons] at f; cases f
          | cons b q' =>
            cases b with
            | par _ =>
              rw [fits_par] at f
              simp only [compat]
              exact compat_of t hd hr f.2
            | lit w =>
              rw [fits_lit] at f
              simp only [compat, Bool.and_eq_true, decide_eq_true_eq]
              refine ⟨?_, compat_of t hd hr f.2⟩
              cases k with
              | str => rfl
              | num =>
                rw [f.1, D.plain _ w.facts.2.1] at hd1
                cases hd1
                simp [readPart, w.facts.1] at ha

/-! ## The table and the addresses -/

def Handler.all : List Handler := [.track, .identify, .orgCreate, .orgGet, .orgList, .orgUpdate, .orgDelete, .projectCreate, .projectGet, .projectList,
  .projectUpdate, .projectDelete, .accountCreate, .accountGet, .accountList, .accountUpdate, .accountDelete, .backupMake, .backupGet, .backupList,
  .settingsSet, .settingsGet, .signUp, .logIn, .refresh, .switchOrg, .profile, .setName, .changeEmail, .changePassword, .setPassword, .setEmail,
  .eventCreate, .eventGet, .eventByName, .eventList, .eventUpdate, .eventDelete, .eventAttach, .eventDetach, .customCreate, .customGet, .customList,
  .customUpdate, .customDelete, .groupCreate, .groupList, .propValues, .eventPropGet, .eventPropByName, .eventPropList, .eventPropUpdate,
  .eventPropDelete, .groupPropGet, .groupPropByName, .groupPropList, .groupPropUpdate, .groupPropDelete, .dashboardCreate, .dashboardGet, .dashboardList,
  .dashboardUpdate, .dashboardDelete, .reportCreate, .reportGet, .reportList, .reportUpdate, .reportDelete, .bookmarkCreate, .bookmarkGet, .eventRecord,
  .eventSearch, .segmentation, .funnel, .groupRecord, .groupSearch]

theorem Handler.mem_all (h : Handler) : h ∈ Handler.all := by cases h <;> decide

/-- The first route to a handler. -/
def ownRoute (h : Handler) : Route := (routes.find? fun r => decide (r.handler = h)).getD ⟨.other, [], h⟩

def ownOk (h : Handler) : Bool :=
  decide (ownRoute h ∈ routes) && decide ((ownRoute h).handler = h) && decide ((ownRoute h).meth = (address h).1) &&
    decide (slots (ownRoute h).pattern h.paths.flatten = some (address h).2) &&
    routes.all fun r => !(compat (ownRoute h).pattern h.paths.flatten r.pattern && before r.pattern (ownRoute h).pattern)

set_option maxRecDepth 100000 in
theorem own_all : Handler.all.all ownOk = true := by decide +kernel

theorem own (h : Handler) : ownRoute h ∈ routes ∧ (ownRoute h).handler = h ∧ (ownRoute h).meth = (address h).1 ∧
    slots (ownRoute h).pattern h.paths.flatten = some (address h).2 ∧
    ∀ r ∈ routes, compat (ownRoute h).pattern h.paths.flatten r.pattern = true → before r.pattern (ownRoute h).pattern = false := by
  have t := own_all
  rw [List.all_eq_true] at t
  have t := t h h.mem_all
  simp only [ownOk, Bool.and_eq_true, decide_eq_true_eq, List.all_eq_true, Bool.not_eq_true', Bool.and_eq_false_iff] at t
  refine ⟨t.1.1.1.1, t.1.1.1.2, t.1.1.2, t.1.2, fun r hr c => ?_⟩
  rcases t.2 r hr with e | e
  · rw [c] at e; cases e
  · exact e

def copyPrefixes : List RoutePat := [customPrefix, groupPrefix, groupPrefix ++ customPrefix]

def routeOk (r : Route) : Bool :=
  (r.handler.paths.any fun ks => decide (ks.length ≠ parCount r.pattern)) || (decide (r = ownRoute r.handler) && decide (r.handler ≠ .eventByName)) ||
    (decide (r.handler.paths = []) && decide (r.meth = (ownRoute r.handler).meth) &&
      decide (r.pattern ∈ copyPrefixes.map (· ++ (ownRoute r.handler).pattern)))

set_option maxRecDepth 100000 in
theorem routes_ok : routes.all routeOk = true := by decide +kernel

theorem single_path (h : Handler) : h.paths = [] ∨ (∃ ks, h.paths = [ks]) ∨ h = .eventByName := by
  cases h <;> first | exact .inl rfl | exact .inr (.inl ⟨_, rfl⟩) | exact .inr (.inr rfl)

theorem order_eq {h : Handler} (n : h ≠ .groupPropGet) (l : List Arg) : h.order l = l := by
  unfold Handler.order
  split
  · exact absurd rfl n
  · rfl

theorem decode_length {D : Decode} : ∀ {ps ds : List Str}, decodeAll D ps = some ds → ds.length = ps.length
  | [], ds, h => by simp only [decodeAll, Option.some.injEq] at h; subst h; rfl
  | s :: ps, ds, h => by
    simp only [decodeAll, Option.bind_eq_some_iff, Option.map_eq_some_iff] at h
    obtain ⟨d, _, ds', h, rfl⟩ := h
    simp [decode_length h]

theorem read_length : ∀ {ks : List PKind} {ds : List Str} {as : List Arg}, readParts ks ds = some as → ks.length = ds.length
  | [], [], _, _ => rfl
  | [], _ :: _, _, h => by simp [readParts] at h
  | _ :: _, [], _, h => by simp [readParts] at h
  | k :: ks, d :: ds, as, h => by
    simp only [readParts, Option.bind_eq_some_iff, Option.map_eq_some_iff] at h
    obtain ⟨a, _, as', h, rfl⟩ := h
    simp [read_length h]

theorem slots_none : ∀ {q : RoutePat} {sl : List Place}, slots q [] = some sl → parCount q = 0
  | [], _, _ => rfl
  | .par _ :: _, _, h => by simp [slots] at h
  | .lit _ :: q, _, h => by
    simp only [slots, Option.map_eq_some_iff] at h
    obtain ⟨sl', h, _⟩ := h
    exact slots_none (q := q) h

/-- All extractors got as many parts as they ask for. -/
theorem extract_count {D : Decode} {ps : List Str} : ∀ {l : List (List PKind)} {as : List Arg}, extract D ps l = .ok as → ∀ ks ∈ l, ks.length = ps.length
  | [], _, _, _, h => by cases h
  | ks :: l, as, h, ks', m => by
    simp only [extract] at h
    split at h
    · cases h
    · rename_i ds hd
      split at h
      · cases h
      · rename_i n
        split at h
        · cases h
        · cases e : extract D ps l with
          | error x => rw [e] at h; cases h
          | ok b =>
            cases m with
            | head => rw [← decode_length hd]; simpa using n
            | tail _ m => exact extract_count e ks' m

theorem extract_one {D : Decode} {ps : List Str} {ks : List PKind} {as : List Arg} : extract D ps [ks] = .ok as ↔
    ∃ ds, decodeAll D ps = some ds ∧ readParts ks ds = some as := by
  constructor
  · intro h
    simp only [extract] at h
    split at h
    · cases h
    · rename_i ds hd
      split at h
      · cases h
      · split at h
        · cases h
        · rename_i b hb
          simp only [Except.map, List.append_nil, Except.ok.injEq] at h
          subst h
          exact ⟨ds, hd, hb⟩
  · rintro ⟨ds, hd, hr⟩
    simp only [extract, hd, hr]
    rw [if_neg (by simpa using read_length hr)]
    simp [Except.map]

theorem meth_route {m t : Meth} (ht : t ≠ .head) : t = m.route ↔ m = t ∨ t = .get ∧ m = .head := by
  cases m <;> cases t <;> simp_all [Meth.route]

theorem address_meth (h : Handler) : (address h).1 ≠ .head := by cases h <;> exact nofun

theorem openTo_iff (h : Handler) : h.needsToken = false ↔ openTo h := by cases h <;> simp [Handler.needsToken, openTo]

/-- The path of a pattern after a prefix. -/
theorem take_append : ∀ {a b : RoutePat} {p ps : List Str}, takeParams (a ++ b) p = some ps →
    ∃ p1 p2 ps2, p = p1 ++ p2 ∧ fits p1 a = true ∧ takeParams b p2 = some ps2
  | [], b, p, ps, h => ⟨[], p, ps, rfl, rfl, h⟩
  | .lit w :: a, b, p, ps, h => by
    cases p with
    | nil => simp [takeParams] at h
    | cons s p =>
      simp only [List.cons_append, takeParams] at h
      split at h
      · rename_i e
        obtain ⟨p1, p2, ps2, rfl, f, t⟩ := take_append h
        exact ⟨s :: p1, p2, ps2, rfl, fits_lit.2 ⟨e, f⟩, t⟩
      · cases h
  | .par _ :: a, b, p, ps, h => by
    cases p with
    | nil => simp [takeParams] at h
    | cons s p =>
      simp only [List.cons_append, takeParams] at h
      split at h
      · cases h
      · rename_i ne
        simp only [Option.map_eq_some_iff] at h
        obtain ⟨ps', h, rfl⟩ := h
        obtain ⟨p1, p2, ps2, rfl, f, t⟩ := take_append h
        exact ⟨s :: p1, p2, ps2, rfl, fits_par.2 ⟨ne, f⟩, t⟩

theorem fits_lit' {w : Word} {q : RoutePat} {p : List Str} : fits p (.lit w :: q) = true ↔ ∃ p', p = w.str :: p' ∧ fits p' q = true := by
  cases p with
  | nil => simp [fits_nil]
  | cons s p =>
    rw [fits_lit]
    constructor
    · rintro ⟨rfl, h⟩; exact ⟨p, rfl, h⟩
    · rintro ⟨p', e, h⟩; cases e; exact ⟨rfl, h⟩

theorem fits_par' {n : Param} {q : RoutePat} {p : List Str} : fits p (.par n :: q) = true ↔ ∃ s p', p = s :: p' ∧ s ≠ [] ∧ fits p' q = true := by
  cases p with
  | nil => simp [fits_nil]
  | cons s p =>
    rw [fits_par]
    constructor
    · rintro ⟨ne, h⟩; exact ⟨s, p, rfl, ne, h⟩
    · rintro ⟨s', p', e, ne, h⟩; cases e; exact ⟨ne, h⟩

theorem fits_nil' {p : List Str} : fits p [] = true ↔ p = [] := by
  cases p with
  | nil => simp [fits_nil]
  | cons s p => simp [fits_cons]

theorem copied_of {a : RoutePat} (m : a ∈ copyPrefixes) {p : List Str} (f : fits p a = true) : Copied p := by
  simp only [copyPrefixes, List.mem_cons, List.not_mem_nil, or_false] at m
  rcases m with rfl | rfl | rfl
  · simp only [customPrefix, fits_lit', fits_par', fits_nil'] at f
    obtain ⟨_, rfl, _, rfl, _, rfl, a, _, rfl, ha, _, rfl, _, rfl, rfl⟩ := f
    exact .custom ha
  · simp only [groupPrefix, fits_lit', fits_par', fits_nil'] at f
    obtain ⟨_, rfl, _, rfl, _, rfl, a, _, rfl, ha, _, rfl, _, rfl, g, _, rfl, hg, rfl⟩ := f
    exact .group ha hg
  · simp only [groupPrefix, customPrefix, List.cons_append, List.nil_append, fits_lit', fits_par', fits_nil'] at f
    obtain ⟨_, rfl, _, rfl, _, rfl, a, _, rfl, ha, _, rfl, _, rfl, g, _, rfl, hg, _, rfl, _, rfl, _, rfl, b, _, rfl, hb, _, rfl, _, rfl, rfl⟩ := f
    exact .both ha hg hb

theorem fits_some : ∀ q : RoutePat, ∃ p, fits p q = true
  | [] => ⟨[], rfl⟩
  | .lit v :: q => let ⟨p, f⟩ := fits_some q; ⟨v.str :: p, fits_lit.2 ⟨rfl, f⟩⟩
  | .par _ :: q => let ⟨p, f⟩ := fits_some q; ⟨['x'] :: p, fits_par.2 ⟨by simp, f⟩⟩

/-! ## The theorems -/

/-- **C150.** A request addressed to a handler reaches it, with the numbers and texts of its path, whatever they are, if it has a token or the handler
needs none. There are two exceptions, see below. -/
theorem C150_reach_partial {D : Decode} {token : Bool} {h : Handler} {m : Meth} {p : List Str} {args : List Arg} (n : h ≠ .eventByName)
    (g : h ≠ .groupPropGet) (a : Addressed D h m p args) (t : token = true ∨ openTo h) : dispatch D token m p = .run h args := by
  obtain ⟨mem, hh, hm, hs, first⟩ := own h
  obtain ⟨ps, ds, tp, hd, hr⟩ := of_spelled hs a.2
  refine dispatch_run.2 ⟨ownRoute h, ps, args, ⟨mem, ?_, ?_, fun r' hr' f => ?_⟩, hh, tp, fun nt => ?_, ?_, (order_eq g _).symm⟩
  · rw [hm]; exact (meth_route (address_meth h)).2 a.1
  · rw [fits, tp]; rfl
  · exact first r' hr' (compat_of tp hd hr f)
  · rcases t with t | t
    · exact t
    · rw [(openTo_iff h).2 t] at nt; cases nt
  · rcases single_path h with e | ⟨ks, e⟩ | e
    · rw [e] at hr ⊢
      simp only [List.flatten_nil] at hr
      cases ds with
      | nil => simp only [readParts, Option.some.injEq] at hr; subst hr; rfl
      | cons d ds => simp [readParts] at hr
    · rw [e] at hr ⊢
      simp only [List.flatten_cons, List.flatten_nil, List.append_nil] at hr
      exact extract_one.2 ⟨ds, hd, hr⟩
    · exact absurd e n

/-- A handler that runs was addressed by the request, or it is one that takes nothing from the path, and its address stands after one of the
prefixes. -/
theorem C150_only_partial {D : Decode} {token : Bool} {h : Handler} {m : Meth} {p : List Str} {args : List Arg} (e : dispatch D token m p = .run h args) :
    (∃ args', Addressed D h m p args' ∧ (h ≠ .groupPropGet → args = args')) ∨
    (args = [] ∧ ∃ pre p', p = pre ++ p' ∧ Copied pre ∧ Addressed D h m p' []) := by
  obtain ⟨r, ps, as, t, rfl, tp, _, x, rfl⟩ := dispatch_run.1 e
  obtain ⟨mem, hh, hm, hs, _⟩ := own r.handler
  have ok := routes_ok
  rw [List.all_eq_true] at ok
  have ok := ok r t.mem
  simp only [routeOk, Bool.or_eq_true, Bool.and_eq_true, List.any_eq_true, decide_eq_true_eq] at ok
  rcases ok with (⟨ks, mk, ne⟩ | ⟨o, ne⟩) | ⟨⟨np, me⟩, mp⟩
  · exact absurd ((extract_count x ks mk).trans (take_length tp)) ne
  · have mr := t.meth
    rw [o, hm] at mr
    refine .inl ⟨as, ⟨(meth_route (address_meth _)).1 mr, ?_⟩, fun g => order_eq g _⟩
    rw [← o] at hs
    rcases single_path r.handler with e' | ⟨ks, e'⟩ | e'
    · rw [e'] at hs x
      simp only [List.flatten_nil] at hs
      cases x
      have l : ps = [] :=
        List.eq_nil_of_length_eq_zero ((take_length tp).trans (slots_none hs))
      subst l
      exact spelled_of hs tp rfl rfl
    · rw [e'] at hs x
      simp only [List.flatten_cons, List.flatten_nil, List.append_nil] at hs
      obtain ⟨ds, hd, hr⟩ := extract_one.1 x
      exact spelled_of hs tp hd hr
    · exact absurd e' ne
  · obtain ⟨a, ma, ea⟩ := List.mem_map.1 mp
    have tp' := tp
    rw [← ea] at tp'
    obtain ⟨p1, p2, ps2, rfl, f, t2⟩ := take_append tp'
    have x' := x
    rw [np] at x' hs
    cases x'
    have g : r.handler ≠ .groupPropGet := fun c => by rw [c] at np; cases np
    refine .inr ⟨order_eq g _, p1, p2, rfl, copied_of ma f, ?_, ?_⟩
    · have mr := t.meth
      rw [me, hm] at mr
      exact (meth_route (address_meth _)).1 mr
    · simp only [List.flatten_nil] at hs
      have l : ps2 = [] := List.eq_nil_of_length_eq_zero ((take_length t2).trans (slots_none hs))
      subst l
      exact spelled_of hs t2 rfl rfl

/-- The address has a place for a number or a text. -/
def hasSlot (h : Handler) : Prop := Place.num ∈ (address h).2 ∨ Place.str ∈ (address h).2

theorem spelled_args {D : Decode} {l : List Place} {p : List Str} (s : Spelled D l p []) : Place.num ∉ l ∧ Place.str ∉ l := by
  generalize e : ([] : List Arg) = a at s
  induction s with
  | nil => simp
  | fix _ ih => simp [ih e]
  | num => cases e
  | str => cases e

/-- For the handlers that take something from the path it is exact: they run for the requests addressed to them and for no others. -/
theorem C150_exact {D : Decode} {token : Bool} {h : Handler} {m : Meth} {p : List Str} {args : List Arg} (s : hasSlot h) (n : h ≠ .eventByName)
    (g : h ≠ .groupPropGet) : dispatch D token m p = .run h args ↔ Addressed D h m p args ∧ (token = true ∨ openTo h) := by
  constructor
  · intro e
    refine ⟨?_, ?_⟩
    · rcases C150_only_partial e with ⟨args', a, q⟩ | ⟨_, _, _, _, _, a⟩
      · rw [q g]; exact a
      · exact absurd s (by have := spelled_args a.2; simp [hasSlot, this])
    · obtain ⟨r, _, _, _, rfl, _, nt, _⟩ := dispatch_run.1 e
      cases hn : r.handler.needsToken with
      | true => exact .inl (nt hn)
      | false => exact .inr ((openTo_iff _).1 hn)
  · rintro ⟨a, t⟩
    exact C150_reach_partial n g a t

/-- Without a valid token nothing runs but signing up, logging in, and the two calls of the ingester. -/
theorem C150_open {D : Decode} {m : Meth} {p : List Str} {h : Handler} {args : List Arg} (e : dispatch D false m p = .run h args) : openTo h := by
  obtain ⟨r, _, _, _, rfl, _, nt, _⟩ := dispatch_run.1 e
  cases hn : r.handler.needsToken with
  | true => cases nt hn
  | false => exact (openTo_iff _).1 hn

/-- No request is addressed to two handlers. -/
theorem C150_one {D : Decode} {m : Meth} {p : List Str} {h h' : Handler} {a a' : List Arg} (e : Addressed D h m p a) (e' : Addressed D h' m p a') : h = h' := by
  have key : ∀ (h : Handler) a, Addressed D h m p a → Takes p m (ownRoute h) := by
    intro h a ad
    obtain ⟨mem, _, hm, hs, first⟩ := own h
    obtain ⟨ps, ds, tp, hd, hr⟩ := of_spelled hs ad.2
    refine ⟨mem, ?_, by rw [fits, tp]; rfl, fun r' hr' f => first r' hr' (compat_of tp hd hr f)⟩
    rw [hm]; exact (meth_route (address_meth h)).2 ad.1
  have k := key h a e
  have k' := key h' a' e'
  have s := fits_cases k.fits k'.fits (k'.first _ k.mem k.fits) (k.first _ k'.mem k'.fits)
  have q := (table k.mem k'.mem s).2 (k.meth.trans k'.meth.symm)
  rw [← (own h).2.1, ← (own h').2.1, q]

set_option maxRecDepth 100000 in
theorem api_first : (routes.all fun r => decide (r.pattern.take 2 = [.lit .api, .lit .v1])) = true := by decide +kernel

/-- What is not under `/api/v1` is served from the files of the user interface, with and without a token. -/
theorem C150_files {D : Decode} {token : Bool} {m : Meth} {p : List Str} (h : p.take 2 ≠ ["api".toList, "v1".toList]) : dispatch D token m p = .ui := by
  have n : chosen routes p = none := by
    refine chosen_none fun r hr => ?_
    have a := api_first
    rw [List.all_eq_true] at a
    have a := a r hr
    simp only [decide_eq_true_eq] at a
    cases f : fits p r.pattern with
    | false => rfl
    | true =>
      rw [← List.take_append_drop 2 r.pattern, a] at f
      simp only [List.cons_append, List.nil_append, fits_lit'] at f
      obtain ⟨_, rfl, _, rfl, _⟩ := f
      exact absurd rfl h
  unfold dispatch
  rw [n]

/-- The router can be made: no two routes have one method and patterns that match the same paths, and patterns that do are written in one way (axum
panics otherwise). -/
theorem C150_builds {r r' : Route} (h : r ∈ routes) (h' : r' ∈ routes) (s : ∀ p, fits p r.pattern = fits p r'.pattern) :
    r.pattern = r'.pattern ∧ (r.meth = r'.meth → r = r') := by
  refine table h h' ?_
  have go : ∀ q q' : RoutePat, (∀ p, fits p q = fits p q') → sameShape q q' = true := by
    intro q
    induction q with
    | nil =>
      intro q' e
      have := e []
      rw [fits_nil.2 rfl] at this
      rw [fits_nil.1 this.symm]; rfl
    | cons b q ih =>
      intro q' e
      cases q' with
      | nil =>
        have := e []
        rw [fits_nil.2 rfl] at this
        cases fits_nil.1 this
      | cons b' q' =>
        cases b with
        | lit w =>
          cases b' with
          | lit w' =>
            obtain ⟨p, f⟩ := fits_some q
            have f1 : fits (w.str :: p) (.lit w :: q) = true := fits_lit.2 ⟨rfl, f⟩
            rw [e] at f1
            have ww := Word.str_inj (fits_lit.1 f1).1
            subst ww
            simp only [sameShape, decide_true, Bool.true_and]
            refine ih q' fun p => ?_
            have a := e (w.str :: p)
            rw [Bool.eq_iff_iff, fits_lit, fits_lit] at a
            rw [Bool.eq_iff_iff]
            simpa using a
          | par n =>
            exfalso
            obtain ⟨p, f⟩ := fits_some q'
            have f1 : fits (['%'] :: p) (.par n :: q') = true := fits_par.2 ⟨by simp, f⟩
            rw [← e] at f1
            exact w.facts.2.1 (by rw [← (fits_lit.1 f1).1]; simp)
        | par n =>
          cases b' with
          | lit w =>
            exfalso
            obtain ⟨p, f⟩ := fits_some q
            have f1 : fits (['%'] :: p) (.par n :: q) = true := fits_par.2 ⟨by simp, f⟩
            rw [e] at f1
            exact w.facts.2.1 (by rw [← (fits_lit.1 f1).1]; simp)
          | par _ =>
            simp only [sameShape]
            refine ih q' fun p => ?_
            have a := e (['x'] :: p)
            rw [Bool.eq_iff_iff, fits_par, fits_par] at a
            rw [Bool.eq_iff_iff]
            simpa using a
  exact go _ _ s

/-- No request ever reaches the handler that gets an event by its name (events.rs 38-47): it asks for the parts of the path twice, each time as if there
were one, and there are two. -/
theorem C150_name_violated : (∃ D m p args, Addressed D .eventByName m p args) ∧ ∀ D token m p args, dispatch D token m p ≠ .run .eventByName args := by
  refine ⟨⟨⟨some, fun _ _ => rfl⟩, .get, ["api".toList, "v1".toList, "projects".toList, "1".toList, "schema".toList, "events".toList, "name".toList,
    "Sign Up".toList], [.num 1, .str "Sign Up".toList], .inl rfl,
    .fix (.fix (.fix (.num (by decide) rfl (by decide +kernel) (.fix (.fix (.fix (.str (by decide) rfl .nil)))))))⟩, ?_⟩
  intro D token m p args e
  obtain ⟨r, ps, as, t, hh, tp, _, x, _⟩ := dispatch_run.1 e
  have ok := routes_ok
  rw [List.all_eq_true] at ok
  have ok := ok r t.mem
  simp only [routeOk, Bool.or_eq_true, Bool.and_eq_true, List.any_eq_true, decide_eq_true_eq] at ok
  rcases ok with (⟨ks, mk, ne⟩ | ⟨_, ne⟩) | ⟨⟨np, _⟩, _⟩
  · rw [hh] at mk
    exact absurd ((extract_count x ks mk).trans (take_length tp)) ne
  · exact ne hh
  · rw [hh] at np; cases np

/-- A request for a property of a group gets the property with the number of the group, of the group with the number of the property
(properties.rs 29-39). -/
theorem C150_group_violated {D : Decode} {m : Meth} {p : List Str} {i g k : Nat} (a : Addressed D .groupPropGet m p [.num i, .num g, .num k]) :
    dispatch D true m p = .run .groupPropGet [.num i, .num k, .num g] := by
  obtain ⟨mem, hh, hm, hs, first⟩ := own .groupPropGet
  obtain ⟨ps, ds, tp, hd, hr⟩ := of_spelled hs a.2
  refine dispatch_run.2 ⟨ownRoute .groupPropGet, ps, [.num i, .num g, .num k], ⟨mem, ?_, ?_, fun r' hr' f => ?_⟩, hh, tp, fun _ => rfl, ?_, rfl⟩
  · rw [hm]; exact (meth_route (address_meth _)).2 a.1
  · rw [fits, tp]; rfl
  · exact first r' hr' (compat_of tp hd hr f)
  · exact extract_one.2 ⟨ds, hd, hr⟩

/-! ## Requests -/

/-- Nothing to decode. -/
def exVerbatim : Decode := ⟨some, fun _ _ => rfl⟩

/-- Logging in, under the address of the custom events of a project. -/
def exNested : List Str := ["api".toList, "v1".toList, "projects".toList, "7".toList, "schema".toList, "custom-events".toList, "api".toList, "v1".toList,
  "auth".toList, "login".toList]

set_option maxRecDepth 100000 in
/-- Handlers run for requests not addressed to them: everything made before the routes of custom events is there again under their prefix
(custom_events.rs 66-68). -/
theorem C150_nested_violated : dispatch exVerbatim false .post exNested = .run .logIn [] ∧ ∀ h args, ¬ Addressed exVerbatim h .post exNested args := by
  have run : dispatch exVerbatim false .post exNested = .run .logIn [] := by decide +kernel
  refine ⟨run, fun h args a => ?_⟩
  have len : ∀ {l : List Place} {p : List Str} {as : List Arg}, Spelled exVerbatim l p as → l.length = p.length := by
    intro l p as s
    induction s with
    | nil => rfl
    | fix _ ih => simp [ih]
    | num _ _ _ _ ih => simp [ih]
    | str _ _ _ ih => simp [ih]
  have l := len a.2
  cases h <;> simp [address, exNested] at l

/-- Requests as in `C150_reach_partial` and `C150_exact`: a report of a project, with and without a token, and with `HEAD`. -/
def exReport : List Str := ["api".toList, "v1".toList, "projects".toList, "12".toList, "reports".toList, "3".toList]

example : Addressed exVerbatim .reportGet .get exReport [.num 12, .num 3] :=
  ⟨.inl rfl, .fix (.fix (.fix (.num (by decide) rfl (by decide +kernel) (.fix (.num (by decide) rfl (by decide +kernel) .nil)))))⟩

set_option maxRecDepth 100000 in
example : dispatch exVerbatim true .get exReport = .run .reportGet [.num 12, .num 3] ∧ dispatch exVerbatim true .head exReport = .run .reportGet [.num 12, .num 3] ∧
    dispatch exVerbatim false .get exReport = .unauthorized ∧ dispatch exVerbatim true .post exReport = .notAllowed ∧
    dispatch exVerbatim true .get (exReport.take 5 ++ ["x".toList]) = .badPath ∧ dispatch exVerbatim true .get (exReport.take 5 ++ [[]]) = .ui := by
  decide +kernel

/-- As in `C150_group_violated`. -/
def exGroupProp : List Str := ["api".toList, "v1".toList, "projects".toList, "1".toList, "schema".toList, "group-properties".toList, "2".toList, "5".toList]

example : Addressed exVerbatim .groupPropGet .get exGroupProp [.num 1, .num 2, .num 5] :=
  ⟨.inl rfl, .fix (.fix (.fix (.num (by decide) rfl (by decide +kernel) (.fix (.fix (.num (by decide) rfl (by decide +kernel)
    (.num (by decide) rfl (by decide +kernel) .nil)))))))⟩

set_option maxRecDepth 100000 in
example : dispatch exVerbatim true .get exGroupProp = .run .groupPropGet [.num 1, .num 5, .num 2] ∧
    dispatch exVerbatim true .get ["api".toList, "v1".toList, "projects".toList, "1".toList, "schema".toList, "events".toList, "name".toList,
      "Sign Up".toList] = .wrongNumber ∧ dispatch exVerbatim true .get ["index.html".toList] = .ui ∧
    dispatch exVerbatim false .post ["api".toList, "v1".toList, "ingest".toList, "abc".toList, "track".toList] = .run .track [.str "abc".toList] := by
  decide +kernel

end OptiPrism.Platform
