import Verif.Ingest.BodySpec
import Verif.Ingest.AcceptProps

/-!
# Property C144: requests of sources mean what their bodies say
-/

namespace OptiPrism.Ingest

open OptiPrism.Meta

variable {Q : Type} {S : Meta.Env Q} {T : Str → Bool} {n : Nat} {w : World} {C : Codec}

/-- Spec: the request meant by a body: what it says, with the address of the connection when it gives none and the time of the server when it gives none. -/
structure MeansTrack (b : TrackBody) (client : Str) (clock : Time) (req : Track) : Prop where
  userId : req.userId = b.userId
  anonId : req.anonId = b.anonId
  event : req.event = b.event
  time : (∀ t, b.time = some t → req.time = t) ∧ (b.time = none → req.time = clock)
  ip : (∀ x, b.context.ip = some x → req.ip = x) ∧ (b.context.ip = none → req.ip = client)
  agent : req.agent = b.context.agent
  campaign : req.campaign = b.context.campaign
  props : SameMap req.props b.props
  groups : SameMap req.groups b.groups

/-- Spec: the same for identify requests. -/
structure MeansIdentify (b : IdentifyBody) (clock : Time) (req : Identify) : Prop where
  group : req.group = b.group
  id : req.id = b.id
  time : (∀ t, b.time = some t → req.time = t) ∧ (b.time = none → req.time = clock)
  props : SameMap req.props b.props

theorem getD_spec {α : Type} (x : Option α) (d : α) : (∀ t, x = some t → x.getD d = t) ∧ (x = none → x.getD d = d) :=
  ⟨fun t h => by rw [h]; rfl, fun h => by rw [h]; rfl⟩

theorem means_track {b : TrackBody} {client : Str} {clock : Time} {props : Option (List (Str × PropValue))} {groups : Option (List (Str × Str))}
    (h1 : SameMap props b.props) (h2 : SameMap groups b.groups) :
    MeansTrack b client clock (TrackBody.request { b with props := props, groups := groups } client clock) :=
  ⟨rfl, rfl, rfl, getD_spec _ _, getD_spec _ _, rfl, rfl, h1, h2⟩

/-- What is read for a value: a string that reads as a date is taken for one. -/
def seen (C : Codec) : PropValue → PropValue
  | .string s =>
    match C.date s with
    | some t => .date t
    | none => .string s
  | v => v

theorem seen_reads {v : PropValue} {d : Doc} (h : IsValue C v d) : ReadsAs C (seen C v) d := by
  cases v with
  | string s =>
    cases hd : C.date s with
    | none =>
      have : seen C (.string s) = .string s := by simp [seen, hd]
      rw [this]
      exact ⟨h, fun s' e => by cases e; exact hd⟩
    | some t =>
      have : seen C (.string s) = .date t := by simp [seen, hd]
      rw [this]
      exact ⟨⟨s, h, hd⟩, fun s' e => by cases e⟩
  | _ => exact ⟨h, fun s e => by cases e⟩

theorem entries_seen {r : List (Str × PropValue)} {d : Doc} (h : Entries (IsValue C) r d) : Entries (ReadsAs C) (r.map fun x => (x.1, seen C x.2)) d := by
  obtain ⟨l, e, h1, h2, h3⟩ := h
  have hf : (r.map fun x => (x.1, seen C x.2)).map Prod.fst = r.map Prod.fst := by rw [List.map_map]; rfl
  refine ⟨l, e, by rw [hf]; exact h1, fun k v hk => ?_, fun m hm => ?_⟩
  · obtain ⟨x, hx, e⟩ := List.mem_map.mp hk
    cases e
    obtain ⟨a, y, b, h4, h5, h6⟩ := h2 x.1 x.2 hx
    exact ⟨a, y, b, h4, seen_reads h5, h6⟩
  · obtain ⟨h4, v, hv⟩ := h3 m hm
    rw [hf]
    exact ⟨h4, _, seen_reads hv⟩

theorem may_seen {names : List Str} {k : Str} {v : Option (List (Str × PropValue))} {d : Doc} (h : May names k (Entries (IsValue C)) v d) :
    May names k (Entries (ReadsAs C)) (v.map fun r => r.map fun x => (x.1, seen C x.2)) d := by
  cases v with
  | none => exact h
  | some r =>
    obtain ⟨x, h1, h2⟩ := h
    exact ⟨x, h1, entries_seen h2⟩

theorem seen_id {v : Option (List (Str × PropValue))} (h : ∀ k s, (k, .string s) ∈ v.getD [] → C.date s = none) :
    (v.map fun r => r.map fun x => (x.1, seen C x.2)) = v := by
  cases v with
  | none => rfl
  | some r =>
    show some _ = some r
    congr 1
    conv => rhs; rw [← List.map_id r]
    apply List.map_congr_left
    intro x hx
    obtain ⟨k, v⟩ := x
    cases v with
    | string s =>
      have : seen C (.string s) = .string s := by simp [seen, h k s hx]
      simp only [this, id]
    | _ => rfl

/-- C144 in full: a body that says `b` has the effect of the request it means, and is answered with 201 when this is accepted. -/
def C144_full : Prop := ∀ (C : Codec), C.Fair → ∀ (body : Str) (d : Doc) (b : TrackBody), C.parse body = some d → SaysTrack C (IsValue C) b d →
  ∀ (E : Env Track) (client : Str) (clock : Time) (token : Str) (a : App), ∃ req, MeansTrack b client clock req ∧
    postTrack C E client clock token body a = (statusOf 201 (a.step (.track E token req)).1, (a.step (.track E token req)).2)

/-- Every body, whatever its strings: read with `seen`. -/
theorem post_seen (hC : C.Fair) {body : Str} {d : Doc} {b : TrackBody} (hp : C.parse body = some d) (hs : SaysTrack C (IsValue C) b d) (E : Env Track)
    (client : Str) (clock : Time) (token : Str) (a : App) :
    ∃ req, MeansTrack { b with props := b.props.map fun r => r.map fun x => (x.1, seen C x.2) } client clock req ∧
    postTrack C E client clock token body a = (statusOf 201 (a.step (.track E token req)).1, (a.step (.track E token req)).2) := by
  obtain ⟨h1, h2, h3, h4, h5, h6, h7⟩ := hs
  obtain ⟨props, groups, hb, hq, hg⟩ := track_says hC (b := { b with props := b.props.map fun r => r.map fun x => (x.1, seen C x.2) })
    ⟨h1, h2, h3, h4, h5, may_seen h6, h7⟩
  refine ⟨_, means_track hq hg, ?_⟩
  unfold postTrack
  rw [hp, Option.bind_some, hb]

/-- C144 (partial): when no string among the values of the properties reads as a date. Missing: strings that do, which are taken for dates (below). -/
theorem C144_partial (hC : C.Fair) {body : Str} {d : Doc} {b : TrackBody} (hp : C.parse body = some d) (hs : SaysTrack C (IsValue C) b d)
    (hd : ∀ k s, (k, .string s) ∈ b.props.getD [] → C.date s = none) (E : Env Track) (client : Str) (clock : Time) (token : Str) (a : App) :
    ∃ req, MeansTrack b client clock req ∧
    postTrack C E client clock token body a = (statusOf 201 (a.step (.track E token req)).1, (a.step (.track E token req)).2) := by
  have := post_seen hC hp hs E client clock token a
  rw [seen_id hd] at this
  exact this

/-- Bodies that say no request are refused, and nothing changes. -/
theorem C144_refused (hC : C.Fair) {body : Str} (h : ∀ d b, C.parse body = some d → ¬ SaysTrack C (IsValue C) b d) (E : Env Track) (client : Str)
    (clock : Time) (token : Str) (a : App) : postTrack C E client clock token body a = (some 400, a) := by
  unfold postTrack
  cases hp : C.parse body with
  | none => rfl
  | some d =>
    rw [Option.bind_some]
    cases hb : trackBodyOf C d with
    | none => rfl
    | some b =>
      obtain ⟨h1, h2, h3, h4, h5, h6, h7⟩ := says_track hC hb
      refine absurd ⟨h1, h2, h3, h4, h5, ?_, h7⟩ (h d b hp)
      cases hbp : b.props with
      | none => rw [hbp] at h6; exact h6
      | some r =>
        rw [hbp] at h6
        obtain ⟨x, g1, l, g2, g3, g4, g5⟩ := h6
        refine ⟨x, g1, l, g2, g3, fun k v hk => ?_, fun m hm => ?_⟩
        · obtain ⟨a, y, b, e1, e2, e3⟩ := g4 k v hk
          exact ⟨a, y, b, e1, e2.1, e3⟩
        · obtain ⟨e1, v, e2⟩ := g5 m hm
          exact ⟨e1, v, e2.1⟩

/-- A request with a property whose value is `null`, a list or an object is refused as a whole. -/
theorem C144_null (hC : C.Fair) {body : Str} {l props : List (Str × Doc)} (hp : C.parse body = some (.obj l)) (hl : ("properties".toList, .obj props) ∈ l)
    {k : Str} {v : Doc} (hk : (k, v) ∈ props) (hv : ∀ x, ¬ IsValue C x v) (E : Env Track) (client : Str) (clock : Time) (token : Str) (a : App) :
    postTrack C E client clock token body a = (some 400, a) := by
  refine C144_refused hC (fun d b hd hs => ?_) E client clock token a
  rw [hp] at hd
  cases hd
  have one : ∀ x, Has trackFields "properties".toList x (.obj l) → x = some (.obj props) := by
    intro x hx
    cases x with
    | none => exact absurd rfl (hx _ hl)
    | some y =>
      obtain ⟨a, b, e, hn⟩ := hx
      rw [e] at hl
      rcases List.mem_append.mp hl with h | h
      · exact absurd rfl (hn _ (List.mem_append_left _ h))
      · rcases List.mem_cons.mp h with h | h
        · cases h; rfl
        · exact absurd rfl (hn _ (List.mem_append_right _ h))
  have h6 := hs.props
  cases hbp : b.props with
  | none =>
    rw [hbp] at h6
    rcases h6 with h | h
    · cases one _ h
    · cases one _ h
  | some r =>
    rw [hbp] at h6
    obtain ⟨x, g1, l', g2, g3, g4, g5⟩ := h6
    have := one _ g1
    cases this
    cases g2
    obtain ⟨-, y, hy⟩ := g5 _ hk
    exact hv y hy

/-- The same for identify requests (partial in the same way). -/
theorem C144_identify_partial (hC : C.Fair) {body : Str} {d : Doc} {b : IdentifyBody} (hp : C.parse body = some d) (hs : SaysIdentify C (IsValue C) b d)
    (hd : ∀ k s, (k, .string s) ∈ b.props.getD [] → C.date s = none) (sys : Str → Str) (now clock : Time) (token : Str) (a : App) :
    ∃ req, MeansIdentify b clock req ∧
    postIdentify C sys now clock token body a = (statusOf 204 (a.step (.identify sys now token req)).1, (a.step (.identify sys now token req)).2) := by
  obtain ⟨h1, h2, h3, h4, h5⟩ := hs
  have h5 := may_seen h5
  rw [seen_id hd] at h5
  obtain ⟨props, hb, hq⟩ := identify_says hC ⟨h1, h2, h3, h4, h5⟩
  refine ⟨IdentifyBody.request { b with props := props } clock, ⟨rfl, rfl, getD_spec _ _, hq⟩, ?_⟩
  unfold postIdentify
  rw [hp, Option.bind_some, hb]

theorem C144_identify_refused (hC : C.Fair) {body : Str} (h : ∀ d b, C.parse body = some d → ¬ SaysIdentify C (IsValue C) b d) (sys : Str → Str)
    (now clock : Time) (token : Str) (a : App) : postIdentify C sys now clock token body a = (some 400, a) := by
  unfold postIdentify
  cases hp : C.parse body with
  | none => rfl
  | some d =>
    rw [Option.bind_some]
    cases hb : identifyBodyOf C d with
    | none => rfl
    | some b =>
      obtain ⟨h1, h2, h3, h4, h5⟩ := says_identify hC hb
      refine absurd ⟨h1, h2, h3, h4, ?_⟩ (h d b hp)
      cases hbp : b.props with
      | none => rw [hbp] at h5; exact h5
      | some r =>
        rw [hbp] at h5
        obtain ⟨x, g1, l, g2, g3, g4, g5⟩ := h5
        refine ⟨x, g1, l, g2, g3, fun k v hk => ?_, fun m hm => ?_⟩
        · obtain ⟨a, y, b, e1, e2, e3⟩ := g4 k v hk
          exact ⟨a, y, b, e1, e2.1, e3⟩
        · obtain ⟨e1, v, e2⟩ := g5 m hm
          exact ⟨e1, v, e2.1⟩

theorem SameMap.perm {α : Type} : ∀ {x y : Option (List (Str × α))}, SameMap x y → (x.getD []).Perm (y.getD [])
  | none, none, _ => .refl _
  | some _, some _, h => h

theorem post_ok {E : Env Track} {token : Str} {req : Track} (h : (executeTrack E token req w).1 = .ok ()) :
    statusOf 201 ((⟨w, false, false⟩ : App).step (.track E token req)).1 = some 201 := by
  unfold App.step
  simp only [Bool.false_eq_true, if_false, h]
  rfl

theorem post_not {E : Env Track} {token : Str} {req : Track} (h : (executeTrack E token req w).1 ≠ .ok ()) :
    statusOf 201 ((⟨w, false, false⟩ : App).step (.track E token req)).1 ≠ some 201 := by
  unfold App.step
  simp only [Bool.false_eq_true, if_false]
  cases he : (executeTrack E token req w).1 with
  | ok u => exact absurd he h
  | error e =>
    unfold answerOf
    dsimp only
    cases e.isPanic with
    | true => simp [statusOf]
    | false =>
      simp only [Bool.false_eq_true, if_false, statusOf, ne_eq, Option.some.injEq]
      cases e with
      | metadata e => cases e <;> decide
      | _ => simp [Fail.status]

/-- In every state of the system a body that says a well-formed request without dates is answered with 201. -/
theorem C144_accepted_partial (hk : KeepsSys S.sys) (h : Life S T n w) (hC : C.Fair) {body : Str} {d : Doc} {b : TrackBody} (hp : C.parse body = some d)
    (hs : SaysTrack C (IsValue C) b d) (hd : ∀ k s, (k, .string s) ∈ b.props.getD [] → C.date s = none) (hdate : ∀ k t, (k, .date t) ∉ b.props.getD [])
    {D : Detect} {now clock : Time} {client token : Str} {project : Project} (ht : getByToken token w.kv = .ok project)
    (hn : n + 2 * (b.props.getD []).length + 3 * (b.groups.getD []).length + 27 < 2 ^ 61)
    (hf : ∀ req, MeansTrack b client clock req → TrackFine project.id w.kv D req) :
    (postTrack C (detectEnv D S.sys now) client clock token body ⟨w, false, false⟩).1 = some 201 := by
  obtain ⟨req, hm, e⟩ := C144_partial hC hp hs hd (detectEnv D S.sys now) client clock token ⟨w, false, false⟩
  rw [e]
  refine post_ok (C122_partial hk h ?_ ht (hf req hm) fun x hx => ?_).1
  · rw [hm.props.perm.length_eq, hm.groups.perm.length_eq]; exact hn
  · have := hm.props.perm.mem_iff.mp hx
    obtain ⟨k, v⟩ := x
    cases v with
    | date t => exact absurd this (hdate k t)
    | _ => rfl

/-- What goes wrong: in every state of the system a track request with a string among its values that reads as a date is not accepted, whatever
the property. -/
theorem C144_dates (hk : KeepsSys S.sys) (h : Life S T n w) (hC : C.Fair) {body : Str} {d : Doc} {b : TrackBody} (hp : C.parse body = some d)
    (hs : SaysTrack C (IsValue C) b d) {k s : Str} {t : Time} (hks : (k, .string s) ∈ b.props.getD []) (hst : C.date s = some t)
    (hone : b.userId = none ∨ b.anonId = none) {D : Detect} {now clock : Time} {client token : Str}
    (hn : n + 2 * (b.props.getD []).length + 3 * (b.groups.getD []).length + 27 < 2 ^ 61) :
    (postTrack C (detectEnv D S.sys now) client clock token body ⟨w, false, false⟩).1 ≠ some 201 := by
  obtain ⟨req, hm, e⟩ := post_seen hC hp hs (detectEnv D S.sys now) client clock token ⟨w, false, false⟩
  rw [e]
  have hprops : (req.props.getD []).Perm ((b.props.getD []).map fun x => (x.1, seen C x.2)) := by
    have := hm.props.perm
    cases hb : b.props with
    | none => rw [hb] at this; exact this
    | some r => rw [hb] at this; exact this
  refine post_not (C122_dates hk h ?_ ?_ (x := k) (t := t) (hprops.mem_iff.mpr (List.mem_map.mpr ⟨_, hks, ?_⟩)))
  · rcases hone with h | h
    · exact .inl (hm.userId.trans h)
    · exact .inr (hm.anonId.trans h)
  · rw [hprops.length_eq, List.length_map, hm.groups.perm.length_eq]; exact hn
  · simp [seen, hst]

/-! ## Examples -/

def exMembers (v : Doc) : List (Str × Doc) := [("userId".toList, .str "u".toList), ("type".toList, .str "track".toList), ("context".toList, .obj []),
  ("event".toList, .str "Sign Up".toList), ("groups".toList, .null), ("properties".toList, .obj [("signup".toList, v)])]

def exDay : Str := "2024-01-02T03:04:05Z".toList

/-- One date, no numbers; the texts of two bodies. -/
def exCodec : Codec where
  parse s := if s = "plain".toList then some (.obj (exMembers (.str "yes".toList))) else if s = "dated".toList then some (.obj (exMembers (.str exDay)))
    else if s = "null".toList then some (.obj (exMembers .null)) else none
  date s := if s = exDay then some ⟨5#64, 0⟩ else none
  num _ := none
  ip s := some s
  iter l := l

def exBodyOf (s : Str) : TrackBody := ⟨some "u".toList, none, none, ⟨none, none, none, none, none⟩, "Sign Up".toList, some [("signup".toList, .string s)], none⟩

theorem exFair : exCodec.Fair := fun _ _ => .refl _

theorem exSays (s : Str) : SaysTrack exCodec (IsValue exCodec) (exBodyOf s) (.obj (exMembers (.str s))) := by
  have hk : ∀ (v : Doc) (k : Str), k ∉ (["userId", "type", "context", "event", "groups", "properties"].map String.toList) → Has trackFields k none (.obj (exMembers v)) := by
    intro v k hk m hm e
    exact hk (by
      rw [← e]
      simp only [exMembers, List.mem_cons, List.not_mem_nil, or_false] at hm
      rcases hm with h | h | h | h | h | h <;> subst h <;> simp)
  have hc : ∀ k : Str, Has contextFields k none (.obj []) := fun k m hm => by cases hm
  have at' : ∀ (i : Nat) (k : Str) (d : Doc), (exMembers (.str s))[i]? = some (k, d) →
      (∀ m ∈ (exMembers (.str s)).take i ++ (exMembers (.str s)).drop (i + 1), m.1 ≠ k) → Has trackFields k (some d) (.obj (exMembers (.str s))) := by
    intro i k d h1 h2
    refine ⟨_, _, ?_, h2⟩
    obtain ⟨hi, e⟩ := List.getElem?_eq_some_iff.mp h1
    rw [← e, ← List.drop_eq_getElem_cons hi, List.take_append_drop]
  have ne : ∀ i < 6, ∀ m ∈ (exMembers (.str s)).take i ++ (exMembers (.str s)).drop (i + 1), m.1 ≠ ((exMembers (.str s)).map Prod.fst)[i]! := by
    intro i hi m hm
    have hall : ∀ i < 6, ∀ k ∈ ((exMembers (.str s)).map Prod.fst).take i ++ ((exMembers (.str s)).map Prod.fst).drop (i + 1), k ≠ ((exMembers (.str s)).map Prod.fst)[i]! := by
      show ∀ i < 6, ∀ k ∈ (["userId".toList, "type".toList, "context".toList, "event".toList, "groups".toList, "properties".toList]).take i ++
        (["userId".toList, "type".toList, "context".toList, "event".toList, "groups".toList, "properties".toList]).drop (i + 1), k ≠
        (["userId".toList, "type".toList, "context".toList, "event".toList, "groups".toList, "properties".toList])[i]!
      decide
    refine hall i hi m.1 ?_
    rw [← List.map_take, ← List.map_drop, ← List.map_append]
    exact List.mem_map.mpr ⟨m, hm, rfl⟩
  refine ⟨⟨_, at' 0 _ _ rfl (ne 0 (by decide)), rfl⟩, .inl (hk _ _ (by decide)), .inl (hk _ _ (by decide)),
    ⟨_, at' 2 _ _ rfl (ne 2 (by decide)), ⟨.inl (hc _), .inl (hc _), .inl (hc _), .inl (hc _), .inl (hc _)⟩⟩,
    ⟨_, at' 3 _ _ rfl (ne 3 (by decide)), rfl⟩,
    ⟨_, at' 5 _ _ rfl (ne 5 (by decide)), _, rfl, by simp, fun k v h => ?_, fun m hm => ?_⟩, .inr (at' 4 _ _ rfl (ne 4 (by decide)))⟩
  · cases List.mem_singleton.mp h
    exact ⟨[], _, [], rfl, rfl, fun m hm => by cases hm⟩
  · cases List.mem_singleton.mp hm
    exact ⟨by simp, .string s, rfl⟩

theorem exFine {w : World} {project : Project} (hprops : ∀ id r, (propsC project.id .event).getById id w.kv = .ok r → r.name ≠ "price".toList ∧ r.name ≠ "signup".toList)
    (hg : ∀ name g, Known project.id w.kv name g ↔ name = "user".toList ∧ g = ⟨0, "user".toList, "user".toList⟩) (s client : Str) (clock : Time) (req : Track)
    (hm : MeansTrack (exBodyOf s) client clock req) : TrackFine project.id w.kv exBlind req ∧ req.props.getD [] = [("signup".toList, .string s)] ∧ req.groups.getD [] = [] := by
  have h1 : req.props.getD [] = [("signup".toList, .string s)] := List.perm_singleton.mp hm.props.perm
  have h2 : req.groups.getD [] = [] := List.perm_nil.mp hm.groups.perm
  refine ⟨⟨.inl ⟨by rw [hm.userId]; rfl, hm.anonId⟩, by rw [h1]; simp, fun x hx id r hr hn => ?_, ⟨["user".toList], by decide, fun x g h => ?_, fun x hx => ?_⟩,
    by simp [exBlind]⟩, h1, h2⟩
  · rw [h1] at hx
    cases List.mem_singleton.mp hx
    exact absurd hn (hprops id r hr).2
  · rw [((hg x g).mp h).1]; simp
  · rw [h2] at hx; cases hx

/-- The hypotheses of `C144_accepted_partial` are met: the body `plain` is answered with 201. -/
example : ∃ w, Life exSysEnv exIsToken 75 w ∧
    (postTrack exCodec (detectEnv exBlind exSysEnv.sys ⟨8#64, 0⟩) "1.2.3.4".toList ⟨8#64, 0⟩ exToken "plain".toList ⟨w, false, false⟩).1 = some 201 := by
  obtain ⟨w, hL, project, hp, hprops, hg⟩ := exLife
  refine ⟨w, hL, C144_accepted_partial exKeeps hL exFair (d := .obj (exMembers (.str "yes".toList))) (by rfl) (exSays _) (fun k s h => ?_) (fun k t h => ?_) hp
    (by decide) fun req hm => (exFine hprops hg _ _ _ req hm).1⟩
  · cases List.mem_singleton.mp h
    decide +kernel
  · cases List.mem_singleton.mp h

/-- A property which is `null`: nothing of the request is stored. -/
example (E : Env Track) (client : Str) (clock : Time) (token : Str) (a : App) :
    postTrack exCodec E client clock token "null".toList a = (some 400, a) :=
  C144_null exFair (l := exMembers .null) (props := [("signup".toList, .null)]) (k := "signup".toList) (v := .null) (by rfl) (by simp [exMembers]) (List.mem_singleton.mpr rfl)
    (fun x h => by cases x <;> simp [IsValue, IsTime] at h) E client clock token a

theorem C144_violated : ¬ C144_full := by
  intro h
  obtain ⟨w, hL, project, hp, hprops, hg⟩ := exLife
  have hparse : exCodec.parse "dated".toList = some (.obj (exMembers (.str exDay))) := by rfl
  have h1 := C144_dates exKeeps hL exFair hparse (exSays exDay) (k := "signup".toList) (s := exDay) (t := ⟨5#64, 0⟩) (List.mem_singleton.mpr rfl) (by decide +kernel)
    (.inr rfl) (D := exBlind) (now := ⟨8#64, 0⟩) (clock := ⟨8#64, 0⟩) (client := []) (token := exToken) (by decide)
  obtain ⟨req, hm, e⟩ := h exCodec exFair _ _ _ hparse (exSays exDay) (detectEnv exBlind exSysEnv.sys ⟨8#64, 0⟩) [] ⟨8#64, 0⟩ exToken ⟨w, false, false⟩
  rw [e] at h1
  obtain ⟨hf, h2, h3⟩ := exFine hprops hg _ _ _ req hm
  refine h1 (post_ok (C122_partial exKeeps hL ?_ hp hf fun x hx => ?_).1)
  · rw [h2, h3]; decide
  · rw [h2] at hx; cases List.mem_singleton.mp hx; rfl

end OptiPrism.Ingest
