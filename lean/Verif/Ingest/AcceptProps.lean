import Verif.Ingest.AcceptDates
import Verif.Ingest.SetupProps

/-!
# Property C122: which requests are accepted
-/

namespace OptiPrism.Ingest

open OptiPrism.Meta
open OptiPrism.Storage (Bytes Value NamedValue Tbl InsertErr ColType Field Row KeyValue typeOk fromLE)

variable {Q : Type} {S : Meta.Env Q} {T : Str → Bool} {n : Nat} {w : World}

/-- Spec: a value is of the type of a property. -/
def Fitting (r : Property) : PropValue → Prop
  | .string _ => r.dataType = .string
  | .number m => r.dataType = .decimal ∨ (r.dataType = .int64 ∧ -(2 ^ 63 : Int) ≤ m.m.tdiv (10 ^ m.scale) ∧ m.m.tdiv (10 ^ m.scale) < 2 ^ 63)
  | .bool _ => r.dataType = .boolean
  | .date _ => r.dataType = .timestamp

theorem Fitting.suits {r : Property} {v : PropValue} (h : Fitting r v) (hd : v.isDate = false) : Suits r v := by
  cases v with
  | date t => cases hd
  | number m =>
    rcases h with h | ⟨h1, h2⟩
    · exact .inl h
    · refine .inr ⟨h1, ?_⟩
      unfold Num.toInt
      simp only [Nat.add_one_sub_one]
      rw [if_pos h2]
      rfl
  | _ => exact h

/-- Spec: the kinds of groups known and those sent are at most five. -/
def Room (p : Nat) (kv : Kv) (l : List Str) : Prop := ∃ ks : List Str, ks.length ≤ 5 ∧ (∀ x g, Known p kv x g → x ∈ ks) ∧ ∀ x ∈ l, x ∈ ks

theorem Room.groups {kv : Kv} {p : Nat} (h : KInv S T n kv) {l : List Str} (hr : Room p kv l) : ∃ ks, GroupRoom p ks kv ∧ ∀ x ∈ l, x ∈ ks := by
  obtain ⟨ks, h1, h2, h3⟩ := hr
  refine ⟨ks, ⟨h1, fun x b hb => ?_⟩, h3⟩
  obtain ⟨g, hg, -⟩ := (h.gn p).dec hb
  exact h2 x g ((known_iff (h.gn p) x g).mpr ⟨b, hb, hg⟩)

/-- Spec: a well-formed track request: a user or an anonymous id, distinct names of properties, values of the types of the properties that exist, room for the
groups, and an address that can be looked up. -/
structure TrackFine (p : Nat) (kv : Kv) (D : Detect) (req : Track) : Prop where
  user : (req.userId.isSome ∧ req.anonId = none) ∨ (req.userId = none ∧ req.anonId.isSome)
  names : ((req.props.getD []).map Prod.fst).Nodup
  fits : ∀ x ∈ req.props.getD [], ∀ id r, (propsC p .event).getById id kv = .ok r → r.name = x.1 → Fitting r x.2
  room : Room p kv ((req.groups.getD []).map Prod.fst)
  place : D.lookup req.ip ≠ .failed

/-- Spec: a well-formed identify request; `g` is the number the group has or gets. -/
structure IdentifyFine (p : Nat) (kv : Kv) (req : Identify) : Prop where
  names : ((req.props.getD []).map Prod.fst).Nodup
  fits : ∀ g kv', getOrCreateGroup p req.group req.group kv = .ok (g, kv') → ∀ x ∈ req.props.getD [], ∀ id r,
    (propsC p (.group g.id)).getById id kv = .ok r → r.name = x.1 → Fitting r x.2
  room : Room p kv [req.group]

/-- C122 in full for track requests. -/
def C122_full (S : Meta.Env Q) (T : Str → Bool) : Prop := ∀ (n : Nat) (w : World) (D : Detect) (now : Time) (token : Str) (req : Track) (project : Project),
  Life S T n w → n + 2 * (req.props.getD []).length + 3 * (req.groups.getD []).length + 27 < 2 ^ 61 → getByToken token w.kv = .ok project →
  TrackFine project.id w.kv D req → (executeTrack (detectEnv D S.sys now) token req w).1 = .ok ()

/-- C122 (partial): in every state of the system a well-formed track request without dates is accepted. Missing: dates, which are never accepted (below); states after
requests with both ids, identify requests with dates, deleted properties or deleted events. -/
theorem C122_partial (hk : KeepsSys S.sys) (h : Life S T n w) {D : Detect} {now : Time} {token : Str} {req : Track} {project : Project}
    (hn : n + 2 * (req.props.getD []).length + 3 * (req.groups.getD []).length + 27 < 2 ^ 61) (hp : getByToken token w.kv = .ok project)
    (hf : TrackFine project.id w.kv D req) (hd : ∀ x ∈ req.props.getD [], x.2.isDate = false) :
    (executeTrack (detectEnv D S.sys now) token req w).1 = .ok () ∧
    ((⟨w, false, false⟩ : App).step (.track (detectEnv D S.sys now) token req)).1 = some (.ok ()) := by
  have hL := h.inv hk (by omega)
  obtain ⟨ks, hks, hsub⟩ := hf.room.groups hL.inv.kv
  have key : (executeTrack (detectEnv D S.sys now) token req w).1 = .ok () := by
    refine (track_all hk hL (ks := ks) (fun g hg => hsub _ (List.mem_map.mpr ⟨g, hg, rfl⟩)) ?_ (by omega)).2.2 project hp
      ⟨?_, hf.names, hd, fun x hx id r hl hnm => ?_, hks, hf.place⟩
    · rcases hf.user with ⟨-, h⟩ | ⟨h, -⟩
      · exact .inr h
      · exact .inl h
    · rcases hf.user with ⟨h, -⟩ | ⟨-, h⟩
      · exact .inl h
      · exact .inr h
    · refine (hf.fits x hx id r ?_ hnm).suits (hd x hx)
      rw [getById_eq ((hL.inv.kv.prop (by omega) project.id .event).inv (props_ok _ _)), hl]
  refine ⟨key, ?_⟩
  unfold App.step
  simp only [Bool.false_eq_true, if_false]
  rw [key]
  rfl

/-- C122 (partial): in every state of the system a well-formed identify request without dates is accepted. -/
theorem C122_identify_partial (hk : KeepsSys S.sys) (h : Life S T n w) {now : Time} {token : Str} {req : Identify} {project : Project}
    (hn : n + 2 * (req.props.getD []).length + 4 < 2 ^ 61) (hp : getByToken token w.kv = .ok project) (hf : IdentifyFine project.id w.kv req)
    (hd : ∀ x ∈ req.props.getD [], x.2.isDate = false) :
    (executeIdentify S.sys now token req w).1 = .ok () ∧
    ((⟨w, false, false⟩ : App).step (.identify S.sys now token req)).1 = some (.ok ()) := by
  have hL := h.inv hk (by omega)
  obtain ⟨ks, hks, hsub⟩ := hf.room.groups hL.inv.kv
  have key : (executeIdentify S.sys now token req w).1 = .ok () := by
    refine (identify_all hk hL (ks := ks) (hsub _ (by simp)) hd (by omega)).2.2 project hp ⟨hf.names, fun g kv' hg x hx id r hl hnm => ?_, hks⟩
    refine (hf.fits g kv' hg x hx id r ?_ hnm).suits (hd x hx)
    rw [getById_eq ((hL.inv.kv.prop (by omega) project.id (.group g.id)).inv (props_ok _ _)), hl]
  refine ⟨key, ?_⟩
  unfold App.step
  simp only [Bool.false_eq_true, if_false]
  rw [key]
  rfl

/-- What goes wrong: a track request with a date among its properties is never accepted, whatever the property. -/
theorem C122_dates (hk : KeepsSys S.sys) (h : Life S T n w) {D : Detect} {now : Time} {token : Str} {req : Track} (hone : req.userId = none ∨ req.anonId = none)
    (hn : n + 2 * (req.props.getD []).length + 3 * (req.groups.getD []).length + 27 < 2 ^ 61) {x : Str} {t : Time} (hx : (x, .date t) ∈ req.props.getD []) :
    (executeTrack (detectEnv D S.sys now) token req w).1 ≠ .ok () :=
  track_date hk (h.inv hk (by omega)) hone hx rfl (by omega) ()

/-! Examples: a new project. -/

def exBlind : Detect := ⟨fun _ => { family := [], device := [], os := [] }, fun _ => .notFound⟩

/-- The first project. -/
theorem exLife : ∃ w, Life exSysEnv exIsToken 75 w ∧ ∃ project, getByToken exToken w.kv = .ok project ∧
    (∀ id r, (propsC project.id .event).getById id w.kv = .ok r → r.name ≠ "price".toList ∧ r.name ≠ "signup".toList) ∧
    ∀ name g, Known project.id w.kv name g ↔ name = "user".toList ∧ g = ⟨0, "user".toList, "user".toList⟩ := by
  have hL := Life.create (S := exSysEnv) (T := exIsToken) .start ⟨7#64, 0⟩ exProj exProj_ok.1 exProj_ok.2
  rcases C121_partial exKeeps (T := exIsToken) .start (by decide) ⟨7#64, 0⟩ exProj_ok.1 exProj_ok.2 with ⟨⟨id, r, h, -⟩, -⟩ | ⟨-, project, w', e, -, ⟨r, h1, h2, -⟩, -, -, h3, -, h4⟩
  · have : World.fresh.kv = [] := rfl
    rw [this] at h
    simp [Coll.getById, getK, Kv.get] at h
  · rw [e] at hL
    refine ⟨w', hL, r, h1, fun id q hq => ?_, by rw [h2]; exact h4⟩
    rw [h2] at hq
    obtain ⟨x, hx, -, -, hn, -⟩ := h3 .event id q hq
    have : ∀ x ∈ wanted, x.name.toList ≠ "price".toList ∧ x.name.toList ≠ "signup".toList := by decide +kernel
    rw [hn]
    exact this x hx

/-- The hypotheses of `C122_partial` are met. -/
example : ∃ w project, Life exSysEnv exIsToken 75 w ∧ getByToken exToken w.kv = .ok project ∧
    TrackFine project.id w.kv exBlind { exTrack (some "u".toList) none [("price".toList, .number ⟨5, 0⟩)] with groups := some [("org".toList, "acme".toList)] } := by
  obtain ⟨w, hL, project, hp, hprops, hg⟩ := exLife
  refine ⟨w, project, hL, hp, ⟨.inl ⟨rfl, rfl⟩, by decide, fun x hx id r hr hn => ?_, ⟨["user".toList, "org".toList], by decide, fun x g h => ?_, ?_⟩, by simp [exBlind]⟩⟩
  · simp only [exTrack, Option.getD_some, List.mem_singleton] at hx
    subst hx
    exact absurd hn (hprops id r hr).1
  · rw [((hg x g).mp h).1]; simp
  · intro x hx
    simp at hx
    simp [hx]

/-- The date of a new property is refused. -/
theorem C122_violated : ¬ C122_full exSysEnv exIsToken := by
  intro h
  obtain ⟨w, hL, project, hp, hprops, hg⟩ := exLife
  have hf : TrackFine project.id w.kv exBlind (exTrack (some "u".toList) none [("signup".toList, .date ⟨5#64, 0⟩)]) := by
    refine ⟨.inl ⟨rfl, rfl⟩, by decide, fun x hx id r hr hn => ?_, ⟨["user".toList], by decide, fun x g h => ?_, fun x hx => by cases hx⟩, by simp [exBlind]⟩
    · simp only [exTrack, Option.getD_some, List.mem_singleton] at hx
      subst hx
      exact absurd hn (hprops id r hr).2
    · rw [((hg x g).mp h).1]; simp
  exact C122_dates exKeeps hL (.inr rfl) (by decide) (t := ⟨5#64, 0⟩) (x := "signup".toList) (by simp [exTrack])
    (h 75 w exBlind ⟨8#64, 0⟩ exToken _ project hL (by decide) hp hf)

/-! The date of an identify request is stored with the group although the request is refused: requests that were accepted before are refused from then on. -/

def exCreatedAt : Property := { propReq (.group 0) kCreatedAt (.date ⟨0, 0⟩) with dataType := .timestamp, isSystem := true }
def exDateWorld : World := { exGroupWorld with kv := runReqs exSysEnv (exGroups ++ [.propCreate 1 (.group 0) ⟨0, 0⟩ exCreatedAt (.ok ())]) [] }
def exPlainUser : Identify := ⟨"user".toList, "u".toList, ⟨5#64, 0⟩, none⟩
def exDated : Identify := ⟨"user".toList, "u".toList, ⟨5#64, 0⟩, some [(kCreatedAt, .date ⟨5#64, 0⟩)]⟩

theorem C122_poisoned : (executeIdentify exSys ⟨8#64, 0⟩ exToken exPlainUser exDateWorld).1 = .ok () ∧
    (executeIdentify exSys ⟨8#64, 0⟩ exToken exDated exDateWorld).1 ≠ .ok () ∧
    (executeIdentify exSys ⟨9#64, 0⟩ exToken exPlainUser (executeIdentify exSys ⟨8#64, 0⟩ exToken exDated exDateWorld).2).1 ≠ .ok () := by decide +kernel

end OptiPrism.Ingest
