import Verif.Meta.EventNames
import Verif.Ingest.IngestProps

/-!
# C77: the column `event` decodes to the name of the event
-/

namespace OptiPrism.Ingest

open OptiPrism.Meta
open OptiPrism.Storage (Bytes Value NamedValue Tbl InsertErr ColType Field Row)

variable {Q : Type}

/-- C77 as stated: after any metadata history, the event row stored for an accepted track request holds in the column `event` a
number which the dictionary of the column decodes to the name of the event, now and after later ingestion. -/
def C77_full : Prop := ∀ (S : Meta.Env Unit) (E : Env Track) (token : Str) (req : Track) (w w' : World) (n : Nat), Hist S n w.kv → n < 2 ^ 61 → E.sys = S.sys →
  executeTrack E token req w = (.ok (), w') →
  ∃ project row k, getByToken token w.kv = .ok project ∧ w'.rows.getLast? = some (kEvents, row) ∧ k < 2 ^ 64 ∧ val row kEvent = i64 k ∧
    dictGetValue project.id kEvents kEvent k w'.kv = .ok req.event

theorem kEvent_ne_groupCol (g : Nat) : kEvent ≠ groupCol g := by
  intro h
  have h1 : kEvent.head? = (groupCol g).head? := by rw [h]
  have h2 : (groupCol g).head? = kGroup_.head? := by
    unfold groupCol
    rw [List.head?_append]
    have : kGroup_.head? = some 'g' := by decide +kernel
    rw [this]; rfl
  rw [h2] at h1
  revert h1
  decide +kernel

theorem resolve_keepsNames {p q : Nat} {r : Req Q} (h : ResolveReq p r) : r.KeepsNames q := by
  cases r <;> simp only [ResolveReq] at h <;> simp only [Req.KeepsNames]
  rintro ⟨-, -, e⟩
  obtain ⟨g, hg⟩ := h.2.2
  exact kEvent_ne_groupCol g (e.symm.trans hg)

theorem resolve_noPut {p q : Nat} {r : Req Q} (h : ResolveReq p r) : r.NoPut q kEvents kEvent := by
  have := resolve_keepsNames (q := q) h
  cases r <;> first | trivial | exact this

/-- The requests of ingestion which are not a conversion of a string for the column `event` itself are harmless. -/
theorem track_keepsNames {p q : Nat} {r : Req Q} (h : TrackReq p r) (hd : ∀ v, r ≠ .dictGet p kEvents kEvent v) : r.KeepsNames q := by
  rcases h with h | h | h
  · exact resolve_keepsNames h
  · cases r <;> simp only [SendReq] at h <;> simp only [Req.KeepsNames]
    rintro ⟨-, e1, e2⟩
    subst e1 e2
    exact hd _ (by rw [h.1])
  · subst h; trivial

theorem track_noPut {p q : Nat} {r : Req Q} (h : TrackReq p r) : r.NoPut q kEvents kEvent := by
  rcases h with h | h | h
  · exact resolve_noPut h
  · cases r <;> simp only [SendReq] at h <;> trivial
  · subst h; trivial

theorem identify_keepsNames {p q : Nat} {r : Req Q} (h : IdentifyReq p r) : r.KeepsNames q := by
  cases r <;> simp only [IdentifyReq] at h <;> simp only [Req.KeepsNames] <;> rintro ⟨-, e, -⟩
  · rw [h.2] at e
    revert e; unfold kEvents groupCol kGroup_; decide +kernel
  · obtain ⟨g, hg⟩ := h.2.1
    rw [hg] at e
    have h1 : (groupCol g).head? = kEvents.head? := by rw [e]
    have h2 : (groupCol g).head? = some 'g' := by
      unfold groupCol
      rw [List.head?_append]
      have : kGroup_.head? = some 'g' := by decide +kernel
      rw [this]; rfl
    rw [h2] at h1
    revert h1
    unfold kEvents
    decide +kernel

/-- The event a track request resolves to. -/
theorem resolveTrack_event {S : Meta.Env Q} {E : Env Track} (hs : E.sys = S.sys) {K : Nat} (hK : E.Bounded K) {p : Nat} (hp : p < 2 ^ 64) {req : Track} {w w1 : World}
    {r : Resolved} (h : resolveTrack E p req w = (.ok r, w1)) {n : Nat} (hr : Runs S (Req.KeepsNames p) [] n w.kv)
    (hn : n + ((req.props.getD []).length + 3 * (req.groups.getD []).length + 4) < 2 ^ 62) :
    getK w1.kv (.dictVal p kEvents kEvent req.event) = some (le64 r.event.id) ∧ r.event.id < 2 ^ 64 := by
  unfold resolveTrack at h
  obtain ⟨props, wa, h1, ha⟩ := bind_ok h
  obtain ⟨u, wb, h2, hb⟩ := bind_ok ha
  obtain ⟨groups, wc, h3, hc⟩ := bind_ok hb
  obtain ⟨ev, wd, h4, hd⟩ := bind_ok hc
  obtain ⟨_, we, h5, he⟩ := bind_ok hd
  obtain ⟨props', wf, h6, hf⟩ := bind_ok he
  cases hf
  clear ha hb hc hd he
  -- up to the event
  have r1 : ∃ m, m ≤ (req.props.getD []).length ∧ Runs S (ResolveReq p) w.kv m wa.kv := by
    have := (resolveProperties_follows (S := S) (P := ResolveReq p) (now := E.now) (ty := .event) hp (fun g hg => by cases hg) req.props (fun nvp => ⟨rfl, rfl, rfl⟩) w).1
    rw [← hs, h1] at this
    exact this
  have r2 : ∃ m, m ≤ 2 ∧ Runs S (ResolveReq p) wa.kv m wb.kv := by
    have := (resolveUser_follows (S := S) (p := p) req.userId req.anonId wa).1
    rw [h2] at this
    exact this
  have r3 : ∃ m, m ≤ (req.groups.getD []).length * 3 ∧ Runs S (ResolveReq p) wb.kv m wc.kv := by
    have := (resolveGroups_follows (S := S) (p := p) u.2 req.groups wb).1
    rw [h3] at this
    exact this
  obtain ⟨m1, hm1, r1⟩ := r1
  obtain ⟨m2, hm2, r2⟩ := r2
  obtain ⟨m3, hm3, r3⟩ := r3
  have hk : Runs S (Req.KeepsNames p) [] (n + (m1 + m2 + m3)) wc.kv := hr.trans (runs_mono (fun _ h => resolve_keepsNames h) ((r1.trans r2).trans r3))
  obtain ⟨hst, hdi, hin⟩ := runs_inStep hk (by omega)
  have hroom := (hist_events (by simpa using hk.hist .start) (by omega) p).room (events_ok p)
  obtain ⟨c1, c2⟩ := callRaw_ok h4
  obtain ⟨g1, g2⟩ := getOrCreateEvent_inStep hp (now := E.now) (r := eventReq req.event props) (by show 1 < 2 ^ 64; decide) hin hroom hdi hst
  have hd : getK wd.kv (.dictVal p kEvents kEvent req.event) = some (le64 ev.id) := by
    rw [c1] at g1 g2
    exact g1.name _ _ (g2 ev rfl)
  -- the event is not changed any more
  have hsame : Same (.dict p kEvents kEvent) wd.kv we.kv := by
    unfold attachProps at h5
    cases props with
    | none => cases h5; exact .refl _ _
    | some l =>
      obtain ⟨a, wx, h7, h8⟩ := bind_ok h5
      cases h8
      obtain ⟨d1, -⟩ := call_ok h7
      have := exec_same S (r := .eventTryAttach p ev.id (l.map fun pv => pv.1.id)) trivial (m := .dict p kEvents kEvent) (by simp [Req.mods]) wd.kv
      have e : (Req.eventTryAttach p ev.id (l.map fun pv => pv.1.id) : Req Q).exec S wd.kv = we.kv := by
        show (runCall (eventTryAttach p ev.id (l.map fun pv => pv.1.id)) wd.kv).2 = _
        simp only [runCall, d1]
      rwa [e] at this
  have hwf : w1 = we := by
    unfold transformed at h6
    split at h6
    · cases h6
    · cases h6; rfl
  have hlt : ev.id < 2 ^ 64 := by
    have hk2 : Hist S (0 + (n + (m1 + m2 + m3)) + 1) wd.kv := by
      have : Hist S (0 + (n + (m1 + m2 + m3))) wc.kv := hk.hist .start
      have h9 := this.step (.eventGetOrCreate p E.now (eventReq req.event props)) ⟨hp, by show 1 < 2 ^ 64; decide⟩
      have e : (Req.eventGetOrCreate p E.now (eventReq req.event props) : Req Q).exec S wc.kv = wd.kv := by
        show (getOrCreateEvent p E.now (eventReq req.event props) wc.kv).2 = _
        rw [c1]
      rwa [e] at h9
    have hre := hist_events hk2 (by omega) p
    have h10 := g2 ev (by rw [c1])
    rw [c1] at h10
    unfold nameAt at h10
    rw [Option.map_eq_some_iff] at h10
    obtain ⟨x, hx, -⟩ := h10
    have h11 := (Inv.live_id (hre.inv (events_ok p)) hx).2.2.1
    have h12 : lastId wd.kv (.proj p .events) + 1 < 2 ^ 64 := hre.room (events_ok p)
    have h13 : (eventsC p).ns = .proj p .events := rfl
    rw [h13] at h11
    omega
  refine ⟨?_, hlt⟩
  rw [hwf, hsame (.dictVal p kEvents kEvent req.event) kEvents_ok rfl]
  exact hd

/-- C77 (partial): after a history in which events of the project were neither deleted nor renamed and nothing but the creation of events has
written to the dictionary of the column `event`. Missing: the other histories. The later requests are arbitrary ones which do not overwrite
entries of that dictionary, in particular any ingestion (`track_noPut`, `identify_keepsNames`). -/
theorem C77_partial {S : Meta.Env Q} (hsys : ∀ n, '/' ∉ S.sys n) {E : Env Track} (hs : E.sys = S.sys) {K : Nat} (hK : E.Bounded K) {token : Str} {req : Track}
    {w w' : World} (h : executeTrack E token req w = (.ok (), w')) {rs : List Row} (ht : EventsTable (w.tbl kEvents) rs)
    (hc : ∀ n ∈ sysCols, String.ofList n ∈ (w.tbl kEvents).schema.map Field.name) {n m : Nat}
    (hr : ∀ project, getByToken token w.kv = .ok project → Runs S (Req.KeepsNames project.id) [] n w.kv)
    (hn : n + (2 * (req.props.getD []).length + 6 * (req.groups.getD []).length + K + 17) + m < 2 ^ 62) :
    ∃ project rs' row k, getByToken token w.kv = .ok project ∧ EventsTable (w'.tbl kEvents) (rs' ++ [row]) ∧
      cell (w'.tbl kEvents) row kEvent = some (i64 k) ∧
      ∀ kv', Runs S (Req.NoPut project.id kEvents kEvent) w'.kv m kv' → dictGetValue project.id kEvents kEvent k kv' = .ok req.event := by
  obtain ⟨project, r, w1, begins, row, e1, e2, ⟨fs, -, e3⟩, ⟨rec, e4⟩, -, -⟩ := C74_rows hK h ht hc
  have hp : project.id < 2 ^ 64 := by
    obtain ⟨b, hb⟩ := getBy_dec e1
    exact project_dec_lt hb
  obtain ⟨d1, d2⟩ := resolveTrack_event hs hK hp e2 (hr project e1) (by omega)
  refine ⟨project, _, row, r.event.id, e1, e3, e4.event, fun kv' hkv => ?_⟩
  -- the way from the resolved world
  have f1 : ∃ m1, m1 ≤ (req.props.getD []).length + 3 * (req.groups.getD []).length + 4 ∧ Runs S (ResolveReq project.id) w.kv m1 w1.kv := by
    have := (resolveTrack_follows (S := S) hs hK hp req w).1
    rw [e2] at this
    exact this
  have hpost : r.user < 2 ^ 64 ∧ (r.props.getD []).length ≤ (req.props.getD []).length + K := (resolveTrack_follows (S := S) hs hK hp req w).2 r w1 e2
  have f2 : ∃ m2, m2 ≤ (req.props.getD []).length + K + 9 ∧ Runs S (TrackReq project.id) w1.kv m2 w'.kv := by
    have hx : ((sendTrack E project.id req r).bind fun _ => (call (incrementEvents project.id)).bind fun _ => M.pure ()) w1 = (.ok (), w') := by
      have : executeTrack E token req w = ((resolveTrack E project.id req).bind fun r =>
        (sendTrack E project.id req r).bind fun _ => (call (incrementEvents project.id)).bind fun _ => M.pure ()) w := by
        simp [executeTrack, M.bind, read, callRaw, e1]
      rw [this] at h
      unfold M.bind at h
      rw [e2] at h
      exact h
    have hf : Follows S (TrackReq project.id) ((r.props.getD []).length + 8 + (1 + 0)) ((sendTrack E project.id req r).bind fun _ => (call (incrementEvents project.id)).bind fun _ => M.pure ()) (fun _ => True) :=
      Follows.bind ((sendTrack_follows hs hsys req r hpost.1).mono (fun _ h => .inr (.inl h)) (Nat.le_refl _) (fun _ h => h)) fun _ _ =>
        Follows.bind (Follows.call (P := TrackReq project.id) (Post := fun _ => True) (.projectIncrement project.id) (fun _ => rfl) trivial (.inr (.inr rfl)) (fun _ _ _ _ => trivial))
          fun _ _ => Follows.pure trivial
    obtain ⟨m2, hm2, hrun⟩ := (hf w1).1
    rw [hx] at hrun
    exact ⟨m2, by omega, hrun⟩
  obtain ⟨m1, hm1, f1⟩ := f1
  obtain ⟨m2, hm2, f2⟩ := f2
  have nop : ∀ {n kv kv'}, Runs S (Req.KeepsNames project.id) kv n kv' → Runs S (Req.NoPut project.id kEvents kEvent) kv n kv' := fun h =>
    runs_mono (fun r hp => by cases r <;> first | trivial | exact hp) h
  have hw : '/' ∉ kEvents ∧ '/' ∉ kEvent := kEvents_ok
  have all1 : Runs S (Req.NoPut project.id kEvents kEvent) [] (n + m1) w1.kv := (nop (hr project e1)).trans (runs_mono (fun _ h => resolve_noPut h) f1)
  obtain ⟨hi1, -, hl1⟩ := all1.dict hw (DInv.empty _ _ _) (by simp only [dictLast, getK, Kv.get]; simp; omega)
  have hl1' : dictLast project.id kEvents kEvent w1.kv ≤ n + m1 := by simpa [dictLast, getK, Kv.get] using hl1
  have rest : Runs S (Req.NoPut project.id kEvents kEvent) w1.kv (m2 + m) kv' := (runs_mono (fun _ h => track_noPut h) f2).trans hkv
  obtain ⟨hi2, hk2, -⟩ := rest.dict hw hi1 (by omega)
  obtain ⟨k, e5, -, hk, e6⟩ := hi2.val _ _ (hk2 _ _ d1)
  have hlt := hi2.lt
  have := le64_inj d2 (by omega) e5
  rw [dictGetValue, this, e6]
  simp only [ofUtf8_utf8]

/-- The hypotheses are met in the example project. -/
example : Runs exEnv (Req.KeepsNames 1) [] 2 exWorld.kv :=
  .step (.eventCreate 1 ⟨0, 0⟩ (eventReq kSessionBegin none)) (.step (.projectCreate ⟨0, 0⟩ exProj) .refl ⟨by decide, by decide, by decide⟩ trivial) ⟨by decide, by decide⟩ trivial

/-- The system property of the column `event` as platform/src/projects.rs 321-330 creates it. -/
def exEventProp : Property := { propReq .event kEvent (.string []) with isSystem := true, displayName := some "Event".toList, nullable := false, hidden := true }
def exEventPropReq : Req Unit := .propCreate 1 .event ⟨0, 0⟩ exEventProp (.ok ())
def exSysWorld : World := { exWorld with kv := exEventPropReq.exec exSysEnv (runReqs exSysEnv exSetup []) }
/-- A client property with the name of the system column. -/
def exNaughty : Track := exTrack (some "u".toList) none [(kEvent, .string "foo".toList)]
def exSell : Track := { exTrack (some "u".toList) none [] with event := "Sell".toList }
def exAfter : World := (executeTrack exSysIngest exToken exNaughty exSysWorld).2

theorem exAfter_hist : ∃ n, Hist exSysEnv n exAfter.kv ∧ n ≤ 100 := by
  have h0 : Hist exSysEnv 3 exSysWorld.kv := by
    refine Hist.step exEventPropReq (n := 2) (exSetup_hist exSysEnv) ⟨by decide, by decide, fun g hg => by cases hg⟩
  rcases executeTrack_follows (S := exSysEnv) (E := exSysIngest) (K := 0) rfl exSlash exBounded exToken exNaughty exSysWorld with ⟨e, h1, h2⟩ | ⟨project, m, h1, h2, h3⟩
  · exact ⟨3, by unfold exAfter; rw [h2]; exact h0, by omega⟩
  · refine ⟨_, h3.hist h0, ?_⟩
    have e1 : (exNaughty.props.getD []).length = 1 := rfl
    have e2 : (exNaughty.groups.getD []).length = 0 := rfl
    omega

/-- One client property named like the system column, then an ordinary new event: its rows are shown under the client's string. -/
theorem C77_violated : ¬ C77_full := by
  intro h
  obtain ⟨n, hn, hle⟩ := exAfter_hist
  have h1 : (executeTrack exSysIngest exToken exSell exAfter).1 = .ok () := by decide +kernel
  obtain ⟨project, row, k, e1, e2, e3, e4, e5⟩ := h exSysEnv exSysIngest exToken exSell exAfter _ n hn (by omega) rfl (Prod.ext h1 rfl)
  have hp : project.id = 1 := by
    have : (getByToken exToken exAfter.kv).toOption.map (·.id) = some 1 := by decide +kernel
    rw [e1] at this
    simpa [Except.toOption] using this
  have hv : ((executeTrack exSysIngest exToken exSell exAfter).2.rows.getLast?.map fun x => val x.2 kEvent) = some (i64 3) := by decide +kernel
  rw [e2] at hv
  simp only [Option.map_some, Option.some.injEq] at hv
  rw [e4] at hv
  have hk : k = 3 := by
    simp only [i64, Value.int64.injEq, Option.some.injEq] at hv
    have := congrArg BitVec.toNat hv
    rwa [BitVec.toNat_ofNat, BitVec.toNat_ofNat, Nat.mod_eq_of_lt e3] at this
  rw [hp, hk] at e5
  have h6 : dictGetValue 1 kEvents kEvent 3 (executeTrack exSysIngest exToken exSell exAfter).2.kv = .ok "foo".toList := by decide +kernel
  rw [h6] at e5
  revert e5
  decide +kernel

end OptiPrism.Ingest
