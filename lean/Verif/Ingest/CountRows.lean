import Verif.Ingest.NumbersProps
import Verif.Ingest.EventNameProps
import Verif.Meta.EventKept

/-!
# The rows of the events table and the accepted track requests

One row per accepted request, under the number of its event, besides the rows opening sessions.
-/

namespace OptiPrism.Ingest

open OptiPrism.Meta
open OptiPrism.Storage (Bytes Value NamedValue Tbl InsertErr ColType Field Row)

variable {Q α β : Type}

/-! ## Spec -/

/-- Spec: the track request among the acts that was answered with success, with the project of its token. -/
def Act.accepted (a : App) : Act Q → List (Nat × Track)
  | .http (.track E token req) =>
    match (a.step (.track E token req)).1, getByToken token a.world.kv with
    | some (.ok ()), .ok project => [(project.id, req)]
    | _, _ => []
  | _ => []

/-- Spec: the accepted track requests, in order. -/
def App.accepted (S : Meta.Env Q) (a : App) : List (Act Q) → List (Nat × Track)
  | [] => []
  | x :: l => x.accepted a ++ (a.act S x).accepted S l

/-- Spec: the act neither renames nor deletes an event of the project. -/
def Act.SparesEvents (p : Nat) : Act Q → Prop
  | .http _ => True
  | .admin r => r.SparesEvents p

/-! ## What is in the rows -/

structure Entry where
  id : Nat
  name : Str
  time : Value
  user : Nat
  req : Track

/-- Spec: the request names its user by this identity alone. -/
def Sole (req : Track) : Ext → Prop
  | .real s => req.userId = some s ∧ req.anonId = none
  | .anon s => req.userId = none ∧ req.anonId = some s

/-- The names of events and the numbers of users are kept. -/
def Held (p : Nat) (kv kv' : Kv) : Prop := Kept p kv kv' ∧ GKept p 0 kv kv'

theorem Held.refl (p : Nat) (kv : Kv) : Held p kv kv := ⟨.refl _ _, fun _ _ h => h⟩

theorem Held.trans {p : Nat} {a b c : Kv} (h : Held p a b) (h' : Held p b c) : Held p a c := ⟨h.1.trans h'.1, fun e n he => h'.2 e n (h.2 e n he)⟩

theorem runs_held {S : Meta.Env Q} {p n m : Nat} {kv kv' : Kv} (h : Hist S n kv) (hn : n + m < 2 ^ 62) (R : Runs S (Req.SparesEvents p) kv m kv') : Held p kv kv' :=
  ⟨runs_kept h hn R, (R.gkept p 0 (h.gshape p 0)).2⟩

theorem held_exec (S : Meta.Env Q) {p : Nat} {r : Req Q} (hr : r.Ok) (h1 : Mod.coll (.proj p .events) ∉ r.mods) (h2 : Mod.grp p 0 ∉ r.mods) (kv : Kv) : Held p kv (r.exec S kv) :=
  ⟨.of_eq fun j => (agree_names (Same.agree (exec_same S hr h1 kv))).2 j, fun e n he => by rw [gid_same (exec_same S hr h2 kv)]; exact he⟩

/-- What an entry says is in the store. -/
def Entry.In (e : Entry) (p : Nat) (kv : Kv) : Prop := nameAt p kv e.id = some e.name ∧ e.user < 2 ^ 64 ∧ ∀ x, Sole e.req x → gid p 0 kv x = some e.user

theorem Entry.In.held {e : Entry} {p : Nat} {kv kv' : Kv} (h : e.In p kv) (hk : Held p kv kv') : e.In p kv' :=
  ⟨hk.1 _ _ h.1, h.2.1, fun x hx => hk.2 _ _ (h.2.2 x hx)⟩

/-- The rows added for the project are those of the list, whose names and users are in the store; those which do not open a session are of the
accepted requests. -/
def Logs (p : Nat) (w w' : World) (acc : List (Nat × Track)) : Prop :=
  Held p w.kv w'.kv ∧ ∃ (new : List (Str × List NamedValue)) (L : List Entry), w'.rows = w.rows ++ new ∧
    (rowsOf kEvents p new).map (fun x => (val x.2 kEvent, val x.2 kCreatedAt, val x.2 (groupCol 0))) = L.map (fun e => (i64 e.id, e.time, i64 e.user)) ∧
    (∀ e ∈ L, e.In p w'.kv) ∧
    (L.filter fun e => e.name ≠ kSessionBegin).map (fun e => (e.name, e.time, e.req)) =
      (acc.filter fun x => x.1 = p ∧ x.2.event ≠ kSessionBegin).map (fun x => (x.2.event, .timestamp (some (millis x.2.time)), x.2))

theorem Logs.none {p : Nat} {w w' : World} (h : Held p w.kv w'.kv) (hr : w'.rows = w.rows) : Logs p w w' [] :=
  ⟨h, [], [], by rw [hr]; simp, rfl, by simp, rfl⟩

theorem Logs.trans {p : Nat} {w1 w2 w3 : World} {a b : List (Nat × Track)} (h : Logs p w1 w2 a) (h' : Logs p w2 w3 b) : Logs p w1 w3 (a ++ b) := by
  obtain ⟨k1, n1, L1, a1, a2, a3, a4⟩ := h
  obtain ⟨k2, n2, L2, b1, b2, b3, b4⟩ := h'
  refine ⟨k1.trans k2, n1 ++ n2, L1 ++ L2, by rw [b1, a1, List.append_assoc], ?_, fun e he => ?_, ?_⟩
  · unfold rowsOf at a2 b2 ⊢
    rw [List.filter_append, List.map_append, List.map_append, a2, b2]
  · rcases List.mem_append.mp he with he | he
    · exact (a3 e he).held k2
    · exact b3 e he
  · rw [List.filter_append, List.map_append, List.filter_append, List.map_append, a4, b4]

theorem i64_inj {a b : Nat} (ha : a < 2 ^ 64) (hb : b < 2 ^ 64) (h : i64 a = i64 b) : a = b := by
  have h1 : BitVec.ofNat 64 a = BitVec.ofNat 64 b := by simpa [i64] using h
  have h2 := congrArg BitVec.toNat h1
  simpa [Nat.mod_eq_of_lt ha, Nat.mod_eq_of_lt hb] using h2

/-- Rows of other projects or tables. -/
theorem Logs.other {p : Nat} {w w' : World} (h : Held p w.kv w'.kv) {new : List (Str × List NamedValue)} (hr : w'.rows = w.rows ++ new)
    (hn : ∀ x ∈ new, x.1 = kEvents → val x.2 kProjectId ≠ i64 p) : Logs p w w' [] := by
  refine ⟨h, new, [], hr, ?_, by simp, rfl⟩
  have : rowsOf kEvents p new = [] := by
    unfold rowsOf
    rw [List.filter_eq_nil_iff]
    intro x hx
    simp only [decide_eq_true_eq, not_and]
    exact hn x hx
  rw [this]; rfl

theorem track_spares {p q : Nat} {r : Req Q} (h : TrackReq p r) : r.SparesEvents q := by
  rcases h with h | h | h
  · cases r <;> simp only [ResolveReq] at h <;> trivial
  · cases r <;> simp only [SendReq] at h <;> trivial
  · subst h; trivial

theorem identify_spares {p q : Nat} {r : Req Q} (h : IdentifyReq p r) : r.SparesEvents q := by
  cases r <;> simp only [IdentifyReq] at h <;> trivial

/-! ## The event of the row -/

variable {S : Meta.Env Q}

/-- The number of the event a request resolves to carries its name. -/
theorem resolveTrack_named {E : Env Track} (hs : E.sys = S.sys) {p : Nat} (hp : p < 2 ^ 64) {req : Track} {w w1 : World}
    {r : Resolved} (h : resolveTrack E p req w = (.ok r, w1)) {n : Nat} (hh : Hist S n w.kv)
    (hn : n + ((req.props.getD []).length + 3 * (req.groups.getD []).length + 4) < 2 ^ 62) : nameAt p w1.kv r.event.id = some req.event := by
  unfold resolveTrack at h
  obtain ⟨props, wa, h1, ha⟩ := bind_ok h
  obtain ⟨u, wb, h2, hb⟩ := bind_ok ha
  obtain ⟨groups, wc, h3, hc⟩ := bind_ok hb
  obtain ⟨ev, wd, h4, hd⟩ := bind_ok hc
  obtain ⟨_, we, h5, he⟩ := bind_ok hd
  obtain ⟨props', wf, h6, hf⟩ := bind_ok he
  cases hf
  clear ha hb hc hd he
  rw [hs] at h1
  obtain ⟨m1, hm1, r1⟩ := (resolveProperties_follows (S := S) (P := ResolveReq p) (now := E.now) (ty := .event) hp (fun g hg => by cases hg) req.props (fun nvp => ⟨rfl, rfl, rfl⟩)).runs h1
  obtain ⟨m2, hm2, r2⟩ := (resolveUser_follows (S := S) (p := p) req.userId req.anonId).runs h2
  obtain ⟨m3, hm3, r3⟩ := (resolveGroups_follows (S := S) (p := p) u.2 req.groups).runs h3
  have hk : Hist S (n + (m1 + m2 + m3)) wc.kv := ((r1.trans r2).trans r3).hist hh
  have hre := hist_events hk (by omega) p
  obtain ⟨c1, -⟩ := callRaw_ok h4
  obtain ⟨-, g2⟩ := getOrCreateEvent_kept hp (now := E.now) (r := eventReq req.event props) (by show 1 < 2 ^ 64; decide) (hre.inv (events_ok p)) (hre.room (events_ok p))
  rw [c1] at g2
  have g3 : nameAt p wd.kv ev.id = some req.event := g2 ev rfl
  have hd : Hist S (n + (m1 + m2 + m3) + 1) wd.kv := by
    have h9 := hk.step (.eventGetOrCreate p E.now (eventReq req.event props)) ⟨hp, by show 1 < 2 ^ 64; decide⟩
    have e : (Req.eventGetOrCreate p E.now (eventReq req.event props) : Req Q).exec S wc.kv = wd.kv := by
      show (getOrCreateEvent p E.now (eventReq req.event props) wc.kv).2 = _
      rw [c1]
    rwa [e] at h9
  have hwf : w1 = we := by
    unfold transformed at h6
    split at h6
    · cases h6
    · cases h6; rfl
  rw [hwf]
  unfold attachProps at h5
  cases props with
  | none => cases h5; exact g3
  | some l =>
    obtain ⟨a, wx, h7, h8⟩ := bind_ok h5
    cases h8
    obtain ⟨d1, -⟩ := call_ok h7
    have hre' := hist_events hd (by omega) p
    have := exec_kept (E := S) (p := p) (r := .eventTryAttach p ev.id (l.map fun pv => pv.1.id)) trivial trivial (hre'.inv (events_ok p)) (hre'.room (events_ok p))
    have e : (Req.eventTryAttach p ev.id (l.map fun pv => pv.1.id) : Req Q).exec S wd.kv = we.kv := by
      show (runCall (eventTryAttach p ev.id (l.map fun pv => pv.1.id)) wd.kv).2 = _
      simp only [runCall, d1]
    rw [e] at this
    exact this _ _ g3

/-- The user of a request with one id. -/
theorem resolveUser_gid {p : Nat} {u a : Option Str} {w w1 : World} {x : Nat × Option GroupValues} (h : resolveUser p u a w = (.ok x, w1)) {n : Nat} (hh : Hist S n w.kv) :
    (∀ s, u = some s → a = none → gid p 0 w1.kv (.real s) = some x.1) ∧ (∀ s, u = none → a = some s → gid p 0 w1.kv (.anon s) = some x.1) := by
  have hs1 : ∀ kv, Hist S (n + 1) kv → GShape p 0 kv := fun kv hk => hk.gshape p 0
  refine ⟨fun s e1 e2 => ?_, fun s e1 e2 => ?_⟩
  · subst e1 e2
    obtain ⟨m, hm, R⟩ := (resolveUser_follows (S := S) (p := p) (some s) none).runs h
    exact (resolves_iff (R.gkept p 0 (hh.gshape p 0)).1 _ _).mp ((C78_partial (S := S) (n := n) (m := 0) hh).1 s h .refl)
  · subst e1 e2
    obtain ⟨m, hm, R⟩ := (resolveUser_follows (S := S) (p := p) none (some s)).runs h
    exact (resolves_iff (R.gkept p 0 (hh.gshape p 0)).1 _ _).mp ((C78_partial (S := S) (n := n) (m := 0) hh).2 s h .refl)

theorem resolveTrack_user {E : Env Track} (hs : E.sys = S.sys) {p : Nat} (hp : p < 2 ^ 64) {req : Track} {w w1 : World}
    {r : Resolved} (h : resolveTrack E p req w = (.ok r, w1)) {n : Nat} (hh : Hist S n w.kv) (x : Ext) (hx : Sole req x) : gid p 0 w1.kv x = some r.user := by
  unfold resolveTrack at h
  obtain ⟨props, wa, h1, ha⟩ := bind_ok h
  obtain ⟨u, wb, h2, hb⟩ := bind_ok ha
  obtain ⟨groups, wc, h3, hc⟩ := bind_ok hb
  obtain ⟨ev, wd, h4, hd⟩ := bind_ok hc
  obtain ⟨_, we, h5, he⟩ := bind_ok hd
  obtain ⟨props', wf, h6, hf⟩ := bind_ok he
  cases hf
  clear ha hb hc hd he
  rw [hs] at h1
  obtain ⟨m1, hm1, r1⟩ := (resolveProperties_follows (S := S) (P := ResolveReq p) (now := E.now) (ty := .event) hp (fun g hg => by cases hg) req.props (fun nvp => ⟨rfl, rfl, rfl⟩)).runs h1
  have hha := r1.hist hh
  have g0 : gid p 0 wb.kv x = some u.1 := by
    obtain ⟨q1, q2⟩ := resolveUser_gid h2 hha
    cases x with
    | real s => exact q1 s hx.1 hx.2
    | anon s => exact q2 s hx.1 hx.2
  obtain ⟨m2, hm2, r2⟩ := (resolveUser_follows (S := S) (p := p) req.userId req.anonId).runs h2
  obtain ⟨m3, hm3, r3⟩ := (resolveGroups_follows (S := S) (p := p) u.2 req.groups).runs h3
  have hsb := (r2.hist hha).gshape p 0
  obtain ⟨hsc, k3⟩ := r3.gkept p 0 hsb
  have g1 := k3 _ _ g0
  obtain ⟨c1, -⟩ := callRaw_ok h4
  have e : (Req.eventGetOrCreate p E.now (eventReq req.event props) : Req Q).exec S wc.kv = wd.kv := by
    show (getOrCreateEvent p E.now (eventReq req.event props) wc.kv).2 = _
    rw [c1]
  obtain ⟨hsd, k4⟩ := exec_gkept S (r := (.eventGetOrCreate p E.now (eventReq req.event props) : Req Q)) ⟨hp, by show 1 < 2 ^ 64; decide⟩ p 0 hsc
  rw [e] at hsd k4
  have g2 := k4 _ _ g1
  have hwf : w1 = we := by
    unfold transformed at h6
    split at h6
    · cases h6
    · cases h6; rfl
  rw [hwf]
  unfold attachProps at h5
  cases props with
  | none => cases h5; exact g2
  | some l =>
    obtain ⟨a, wx, h7, h8⟩ := bind_ok h5
    cases h8
    obtain ⟨d1, -⟩ := call_ok h7
    obtain ⟨-, k5⟩ := exec_gkept S (r := (.eventTryAttach p ev.id (l.map fun pv => pv.1.id) : Req Q)) trivial p 0 hsd
    have e : (Req.eventTryAttach p ev.id (l.map fun pv => pv.1.id) : Req Q).exec S wd.kv = we.kv := by
      show (runCall (eventTryAttach p ev.id (l.map fun pv => pv.1.id)) wd.kv).2 = _
      simp only [runCall, d1]
    rw [e] at k5
    exact k5 _ _ g2

/-- The columns of UTM properties, apart from a system column. -/
theorem utmCells_apart {col : Str} (hcol : (col.drop 1).head? ≠ some '_') (hsys : ∀ n, '/' ∉ S.sys n)
    (hutm : ∀ n ∈ ["UTM Source".toList, "UTM Medium".toList, "UTM Campaign".toList, "UTM Term".toList, "UTM Content".toList], S.sys n ≠ col)
    {p : Nat} {cm0 : Option Campaign} {w w' : World} {utm : List NamedValue} (e : utmCells S.sys p cm0 w = (.ok utm, w')) {n : Nat} (hh : Hist S n w.kv) (hn : n + 5 < 2 ^ 62) :
    ∀ v ∈ utm, v.name ≠ String.ofList col := by
  intro v hv
  cases hcm : cm0 with
  | none => rw [hcm] at e; cases e; cases hv
  | some cm =>
    rw [hcm] at e
    unfold utmCells at e
    obtain ⟨l1, a, l2, bs1, wa, wb, bs2, hl, j1, j2, -⟩ := each_mem e v hv
    obtain ⟨m, hm, R⟩ := (utm_follows hsys (p := p) l1).runs j1
    have hlen : l1.length ≤ 5 := by
      have : cm.pairs.length ≤ 5 := by unfold Campaign.pairs; cases cm.medium <;> cases cm.campaign <;> cases cm.term <;> cases cm.content <;> simp
      rw [hl] at this
      simp at this; omega
    obtain ⟨q, wq, i1, i2⟩ := bind_ok j2
    obtain ⟨i3, rfl⟩ := read_ok i1
    obtain ⟨gv, wg, i4, i5⟩ := bind_ok i2
    cases i5
    have hi := (hist_props (R.hist hh) (by omega) p .event).inv (props_ok p .event)
    rcases (getBy_eq hi (i := (.name, fun r => some r.name)) (by simp [propsC]) a.1 _).mp i3 with ⟨id, q', h1, h2, h3⟩ | ⟨-, h2⟩
    · cases h3
      have hqn : q.name = a.1 := Option.some.inj h2
      intro e
      have e' : q.columnName S.sys = col := String.ofList_injective e
      cases hsy : q.isSystem with
      | false => exact (columnName_col (sys := S.sys) hsy).ne hcol e'
      | true =>
        unfold Property.columnName at e'
        rw [if_pos hsy, hqn] at e'
        refine hutm a.1 ?_ e'
        have : (a.1, a.2) ∈ cm.pairs := by rw [hl]; simp
        have := (says_pairs cm a.1 a.2).mpr this
        unfold Campaign.Says at this
        simp only [List.mem_cons, List.not_mem_nil, or_false]
        rcases this with h | h | h | h | h <;> simp [h.1]
    · cases h2

/-! ## Sending -/

theorem bind_cases {x : M α} {f : α → M β} {w w' : World} {res : Except Fail β} (h : x.bind f w = (res, w')) :
    (∃ e, x w = (.error e, w') ∧ res = .error e) ∨ ∃ a w1, x w = (.ok a, w1) ∧ f a w1 = (res, w') := by
  unfold M.bind at h
  rcases hx : x w with ⟨e | a, w1⟩ <;> rw [hx] at h
  · injection h with h1 h2; subst h2; exact .inl ⟨e, rfl, h1.symm⟩
  · exact .inr ⟨a, w1, rfl, h⟩

/-- The UTM properties are not stored in the column `event`. -/
def UtmNotEvent (sys : Str → Str) : Prop :=
  ∀ n ∈ ["UTM Source".toList, "UTM Medium".toList, "UTM Campaign".toList, "UTM Term".toList, "UTM Content".toList], sys n ≠ "event".toList

theorem kEvent_eq : kEvent = "event".toList := by decide +kernel

/-- The row of a record number and a row opening a session. -/
theorem first_rows {E : Env Track} {p : Nat} {req : Track} {r : Resolved} {isNew : Bool} {utm cells : List NamedValue} {w w' : World} {res : Except Fail Unit}
    (h : (if isNew then
      (call (nextSeq (.recSeq p))).bind fun rec => (read ((eventsC p).getBy .name kSessionBegin)).bind fun ev =>
        insertRow kEvents (sessionRow p r.user rec ev.id req.time req.ip (groupCells r.groups) utm cells)
      else M.pure ()) w = (res, w')) :
    w'.rows = w.rows ∨ ∃ rec ev, (eventsC p).getBy .name kSessionBegin w'.kv = .ok ev ∧
      w'.rows = w.rows ++ [(kEvents, sessionRow p r.user rec ev.id req.time req.ip (groupCells r.groups) utm cells)] := by
  cases isNew with
  | false => cases h; exact .inl rfl
  | true =>
    rw [if_pos rfl] at h
    have q1 := NoTbl.call (nextSeq (.recSeq p)) w
    rcases bind_cases h with ⟨e, h1, -⟩ | ⟨rec, w1, h1, h2⟩
    · rw [h1] at q1; exact .inl q1.1
    · rw [h1] at q1
      rcases bind_cases h2 with ⟨e, h3, -⟩ | ⟨ev, w2, h3, h4⟩
      · have := NoTbl.read ((eventsC p).getBy .name kSessionBegin) w1
        rw [h3] at this
        exact .inl (this.1.trans q1.1)
      · obtain ⟨h5, rfl⟩ := read_ok h3
        unfold insertRow at h4
        split at h4
        · cases h4; exact .inl q1.1
        · cases h4
          right
          exact ⟨rec, ev, h5, by dsimp only; rw [q1.1]⟩

theorem sendTrack_logs {E : Env Track} (hs : E.sys = S.sys) (hsys : ∀ n, '/' ∉ S.sys n) (hutm : UtmNotEvent S.sys) {p : Nat} {req : Track} {r : Resolved} (hu : r.user < 2 ^ 64)
    {w w' : World} {res : Except Fail Unit} (h : sendTrack E p req r w = (res, w')) {n : Nat} (hh : Hist S n w.kv) (hn : n + ((r.props.getD []).length + 8) < 2 ^ 62)
    (hname : nameAt p w.kv r.event.id = some req.event) (hwho : ∀ x, Sole req x → gid p 0 w.kv x = some r.user) : Logs p w w' (if res = .ok () then [(p, req)] else []) := by
  have hkept : ∀ {B : Nat} {x : M Unit}, Follows S (SendReq p) B x (fun _ => True) → B ≤ (r.props.getD []).length + 8 → ∀ {v : World}, x w = (res, v) → Held p w.kv v.kv := by
    intro B x hf hB v hv
    obtain ⟨m, hm, R⟩ := hf.runs hv
    exact runs_held hh (by omega) (runs_mono (fun r hr => track_spares (.inr (.inl hr))) R)
  have hk : Held p w.kv w'.kv := hkept (sendTrack_follows hs hsys req r hu) (Nat.le_refl _) h
  clear hkept
  unfold sendTrack at h
  rw [hs] at h
  -- the parts that store nothing
  have q1 := NoTbl.call (setCurrentTime p r.user E.now) w
  rcases bind_cases h with ⟨e, h1, rfl⟩ | ⟨isNew, w1, h1, h2⟩
  · rw [h1] at q1; exact .none hk q1.1
  rw [h1] at q1
  have q2 := propCells_noTbl S.sys p kEvents (r.props.getD []) w1
  rcases bind_cases h2 with ⟨e, h3, rfl⟩ | ⟨props, w2, h3, h4⟩
  · rw [h3] at q2; exact .none hk (q2.1.trans q1.1)
  rw [h3] at q2
  have q3 := NoTbl.each (r.groups.getD []) (fun g => valueCells_noTbl S.sys p g.1 g.2.values) w2
  rcases bind_cases h4 with ⟨e, h5, rfl⟩ | ⟨gprops, w3, h5, h6⟩
  · rw [h5] at q3; exact .none hk (q3.1.trans (q2.1.trans q1.1))
  rw [h5] at q3
  have q4 := utmCells_noTbl S.sys p req.campaign w3
  rcases bind_cases h6 with ⟨e, h7, rfl⟩ | ⟨utm, w4, h7, h8⟩
  · rw [h7] at q4; exact .none hk (q4.1.trans (q3.1.trans (q2.1.trans q1.1)))
  rw [h7] at q4
  have hrows : w4.rows = w.rows := q4.1.trans (q3.1.trans (q2.1.trans q1.1))
  clear h h2 h4 h6
  -- the store on the way
  obtain ⟨m1, hm1, R1⟩ := (Follows.call (S := S) (P := SendReq p) (Post := fun _ => True) (.sessionSet p r.user E.now) (fun _ => rfl) hu rfl (fun _ _ _ _ => trivial)).runs h1
  obtain ⟨m2, hm2, R2⟩ := (propCells_follows (S := S) (p := p) hsys _).runs h3
  obtain ⟨m3, hm3, R3⟩ := (Follows.each (S := S) (P := SendReq p) (r.groups.getD []) fun g _ => valueCells_follows g.2.values).runs h5
  obtain ⟨m4, hm4, R4⟩ := (utmCells_follows (S := S) (p := p) hsys req.campaign).runs h7
  have hh3 : Hist S (n + (m1 + m2 + m3)) w3.kv := ((R1.trans R2).trans R3).hist hh
  have hm3' : m3 = 0 := by simpa using hm3
  have hne := utmCells_apart (S := S) (col := kEvent) (by decide +kernel) hsys (by rw [kEvent_eq]; exact hutm) h7 hh3 (by omega)
  have hh4 : Hist S (n + (m1 + m2 + m3) + m4) w4.kv := R4.hist hh3
  have hev : ∀ rec, val (eventRow p r.user rec r.event.id req.time (groupCells r.groups) (props ++ gprops.flatten)) kProjectId = i64 p ∧
      val (eventRow p r.user rec r.event.id req.time (groupCells r.groups) (props ++ gprops.flatten)) kEvent = i64 r.event.id ∧
      val (eventRow p r.user rec r.event.id req.time (groupCells r.groups) (props ++ gprops.flatten)) kCreatedAt = .timestamp (some (millis req.time)) ∧
      val (eventRow p r.user rec r.event.id req.time (groupCells r.groups) (props ++ gprops.flatten)) (groupCol 0) = i64 r.user := by
    intro rec
    have := eventRow_cells p r.user rec r.event.id req.time r.groups (props ++ gprops.flatten)
    exact ⟨Option.some.inj this.project, Option.some.inj this.event, Option.some.inj this.time, Option.some.inj this.user⟩
  have hse : ∀ rec ev, val (sessionRow p r.user rec ev req.time req.ip (groupCells r.groups) utm (props ++ gprops.flatten)) kProjectId = i64 p ∧
      val (sessionRow p r.user rec ev req.time req.ip (groupCells r.groups) utm (props ++ gprops.flatten)) kEvent = i64 ev ∧
      val (sessionRow p r.user rec ev req.time req.ip (groupCells r.groups) utm (props ++ gprops.flatten)) (groupCol 0) = i64 r.user := by
    intro rec ev
    have h0 : sessionRow p r.user rec ev req.time req.ip (groupCells r.groups) utm (props ++ gprops.flatten) = keyCells p r.user ++ (groupCells r.groups ++ (utm ++
      (nv kCreatedAt (.timestamp (some (secs req.time))) :: nv kEventId (i64 rec) :: nv kEvent (i64 ev) :: nv kIp (.string (some (utf8 req.ip))) :: (props ++ gprops.flatten)))) := by
      simp [sessionRow]
    rw [h0]
    exact ⟨(val_key p r.user _).1, by rw [val_key_skip _ _ _ (by decide +kernel) (ne_event 0), val_skip (groupCells_skip ne_event), val_skip hne, val_cons,
      if_neg (by decide +kernel), val_cons, if_neg (by decide +kernel), val_cons, if_pos rfl], (val_key p r.user _).2⟩
  -- the row that opens a session
  have firstStep : ∀ {w5 : World} {res1 : Except Fail Unit}, (if isNew then
      (call (nextSeq (.recSeq p))).bind fun rec => (read ((eventsC p).getBy .name kSessionBegin)).bind fun ev =>
        insertRow kEvents (sessionRow p r.user rec ev.id req.time req.ip (groupCells r.groups) utm (props ++ gprops.flatten))
      else M.pure ()) w4 = (res1, w5) → Logs p w w5 [] := by
    intro w5 res1 h9
    have F : Follows S (SendReq p) 1 (if isNew then
      (call (nextSeq (.recSeq p))).bind fun rec => (read ((eventsC p).getBy .name kSessionBegin)).bind fun ev =>
        insertRow kEvents (sessionRow p r.user rec ev.id req.time req.ip (groupCells r.groups) utm (props ++ gprops.flatten))
      else M.pure ()) (fun _ => True) := by
      cases isNew with
      | false => exact (Follows.pure trivial).mono (fun _ h => h) (by omega) fun _ h => h
      | true => exact Follows.bind (Follows.call (P := SendReq p) (Post := fun _ => True) (.eventRecord p) (fun _ => rfl) trivial rfl (fun _ _ _ _ => trivial)) (C := 0) fun _ _ =>
          Follows.bind (B := 0) (C := 0) (Follows.read (Post := fun _ => True) fun _ _ _ => trivial) fun _ _ => Follows.insertRow
    obtain ⟨m5, hm5, R5⟩ := F.runs h9
    have hk5 : Held p w4.kv w5.kv := runs_held hh4 (by omega) (runs_mono (fun r hr => track_spares (.inr (.inl hr))) R5)
    have hkw : Held p w.kv w5.kv := Held.trans (runs_held hh (by omega) (runs_mono (fun r hr => track_spares (.inr (.inl hr))) (((R1.trans R2).trans R3).trans R4))) hk5
    rcases first_rows (E := E) h9 with h10 | ⟨rec, ev, h10, h11⟩
    · exact .none hkw (h10.trans hrows)
    · have hre := hist_events (R5.hist hh4) (by omega) p
      refine ⟨hkw, _, [⟨ev.id, kSessionBegin, val (sessionRow p r.user rec ev.id req.time req.ip (groupCells r.groups) utm (props ++ gprops.flatten)) kCreatedAt, r.user, req⟩], by rw [h11, hrows], ?_, ?_, ?_⟩
      · have : rowsOf kEvents p [(kEvents, sessionRow p r.user rec ev.id req.time req.ip (groupCells r.groups) utm (props ++ gprops.flatten))] =
            [(kEvents, sessionRow p r.user rec ev.id req.time req.ip (groupCells r.groups) utm (props ++ gprops.flatten))] := by
          unfold rowsOf
          rw [List.filter_cons, if_pos (by simp [(hse rec ev.id).1])]
          rfl
        rw [this, List.map_cons, List.map_nil, List.map_cons, List.map_nil, (hse rec ev.id).2.1, (hse rec ev.id).2.2]
      · intro e he
        rw [List.mem_singleton.mp he]
        exact ⟨getBy_nameAt (hre.inv (events_ok p)) h10, hu, fun x hx => hkw.2 _ _ (hwho x hx)⟩
      · simp
  dsimp only at h8
  rcases bind_cases h8 with ⟨e, h9, rfl⟩ | ⟨_, w5, h9, h10⟩
  · exact firstStep h9
  have hlog := firstStep h9
  have q5 := NoTbl.call (nextSeq (.recSeq p)) w5
  rcases bind_cases h10 with ⟨e, h11, rfl⟩ | ⟨rec, w6, h11, h12⟩
  · rw [h11] at q5
    obtain ⟨-, new, L, a1, a2, a3, a4⟩ := hlog
    have hx : Held p w5.kv w'.kv := by
      have := held_exec S (p := p) (r := (.eventRecord p : Req Q)) trivial (by simp [Req.mods]) (by simp [Req.mods]) w5.kv
      have e2 : (Req.eventRecord p : Req Q).exec S w5.kv = w'.kv := by
        show (runCall (nextSeq (.recSeq p)) w5.kv).2 = _
        unfold call callRaw at h11
        split at h11 <;> rename_i h13 <;> rw [h13] <;> cases h11 <;> rfl
      rwa [e2] at this
    exact ⟨hk, new, L, by rw [q5.1, a1], a2, fun e he => (a3 e he).held hx, a4⟩
  · rw [h11] at q5
    have hx : Held p w5.kv w6.kv := by
      have := held_exec S (p := p) (r := (.eventRecord p : Req Q)) trivial (by simp [Req.mods]) (by simp [Req.mods]) w5.kv
      have e2 : (Req.eventRecord p : Req Q).exec S w5.kv = w6.kv := by
        show (runCall (nextSeq (.recSeq p)) w5.kv).2 = _
        simp only [runCall, (call_ok h11).1]
      rwa [e2] at this
    obtain ⟨-, new, L, a1, a2, a3, a4⟩ := hlog
    unfold insertRow at h12
    split at h12
    · cases h12
      exact ⟨hk, new, L, by rw [q5.1, a1], a2, fun e he => (a3 e he).held hx, a4⟩
    · cases h12
      rw [if_pos rfl]
      have hl : Logs p w w6 [] := ⟨hk, new, L, by rw [q5.1, a1], a2, fun e he => (a3 e he).held hx, a4⟩
      refine hl.trans (b := [(p, req)]) ⟨.refl _ _, _, [⟨r.event.id, req.event, .timestamp (some (millis req.time)), r.user, req⟩], rfl, ?_, ?_, ?_⟩
      · have : rowsOf kEvents p [(kEvents, eventRow p r.user rec r.event.id req.time (groupCells r.groups) (props ++ gprops.flatten))] =
            [(kEvents, eventRow p r.user rec r.event.id req.time (groupCells r.groups) (props ++ gprops.flatten))] := by
          unfold rowsOf
          rw [List.filter_cons, if_pos (by simp [(hev rec).1])]
          rfl
        rw [this, List.map_cons, List.map_nil, List.map_cons, List.map_nil, (hev rec).2.1, (hev rec).2.2.1, (hev rec).2.2.2]
      · intro e he
        rw [List.mem_singleton.mp he]
        exact ⟨hk.1 _ _ hname, hu, fun x hx => hk.2 _ _ (hwho x hx)⟩
      · by_cases hb : req.event = kSessionBegin <;> simp [hb]

/-! ## Whole requests -/

/-- The project of a token can be written to. -/
theorem increment_succeeds {kv kv' : Kv} (hp : ProjectsOk kv) {token : Str} {project : Project} (h : getByToken token kv = .ok project)
    (hs : Same (.coll (.top .projects)) kv kv') : ∃ x kv'', incrementEvents project.id kv' = .ok (x, kv'') := by
  have h1 : ∃ id, projectsC.getById id kv = .ok project := by
    unfold getByToken Coll.getBy at h
    split at h
    · cases h
    · exact ⟨_, h⟩
  obtain ⟨id, h1⟩ := h1
  have h2 : ∃ v, getK kv (.data (.top .projects) project.id) = some v ∧ Project.dec v = some project := by
    unfold Coll.getById at h1
    split at h1
    · cases h1
    · rename_i v hv
      split at h1
      · cases h1
      · rename_i r hr
        cases h1
        obtain ⟨r', e1, -, -, e2⟩ := hp id v hv
        have : r' = project := Option.some.inj (e1.symm.trans hr)
        subst this
        exact ⟨v, by rw [e2]; exact hv, hr⟩
  obtain ⟨v, h3, h4⟩ := h2
  have h5 : projectsC.getById project.id kv' = .ok project := by
    unfold Coll.getById
    have : getK kv' (.data projectsC.ns project.id) = some v := by rw [← h3]; exact hs (.data (.top .projects) project.id) trivial rfl
    rw [this]
    have h4' : projectsC.dec v = some project := h4
    simp only [h4']
  unfold incrementEvents Coll.update
  rw [h5]
  exact ⟨_, _, rfl⟩

/-- Events of one project do not depend on requests for others. -/
theorem executeTrack_logs {E : Env Track} (hs : E.sys = S.sys) (hsys : ∀ n, '/' ∉ S.sys n) (hutm : UtmNotEvent S.sys) {K : Nat} (hK : E.Bounded K) {p : Nat} (hp : p < 2 ^ 64)
    (token : Str) (req : Track) {w : World} {n : Nat} (hh : Hist S n w.kv) (hn : n + (2 * (req.props.getD []).length + 3 * (req.groups.getD []).length + K + 13) < 2 ^ 62) :
    Logs p w (executeTrack E token req w).2 (match (executeTrack E token req w).1, getByToken token w.kv with | .ok (), .ok project => [(project.id, req)] | _, _ => []) := by
  rcases executeTrack_follows (S := S) hs hsys hK token req w with ⟨e, h1, h2⟩ | ⟨project, m, h1, h2, h3⟩
  · rw [h1, h2]; exact .none (.refl _ _) rfl
  have hk : Held p w.kv (executeTrack E token req w).2.kv := runs_held hh (by omega) (runs_mono (fun r hr => track_spares hr) h3)
  have hpp : project.id < 2 ^ 64 := by
    obtain ⟨b, hb⟩ := getBy_dec h1
    exact project_dec_lt hb
  by_cases hpe : project.id = p
  · subst hpe
    have hex : executeTrack E token req w = ((resolveTrack E project.id req).bind fun r =>
        (sendTrack E project.id req r).bind fun _ => (call (incrementEvents project.id)).bind fun _ => M.pure ()) w := by
      simp [executeTrack, M.bind, read, callRaw, h1]
    rw [h1]
    rw [hex] at hk ⊢
    generalize hx : ((resolveTrack E project.id req).bind fun r =>
        (sendTrack E project.id req r).bind fun _ => (call (incrementEvents project.id)).bind fun _ => M.pure ()) w = out at hk ⊢
    obtain ⟨res, w'⟩ := out
    dsimp only at hk ⊢
    have q1 := resolveTrack_noRows E project.id req w
    rcases bind_cases hx with ⟨e, h4, rfl⟩ | ⟨r, w1, h4, h5⟩
    · rw [h4] at q1; exact .none hk q1
    rw [h4] at q1
    obtain ⟨m1, hm1, R1⟩ := (resolveTrack_follows (S := S) hs hK hpp req).runs h4
    obtain ⟨hu, hlen⟩ := (resolveTrack_follows (S := S) hs hK hpp req w).2 r w1 h4
    have hnm := resolveTrack_named hs hpp h4 hh (by omega)
    have hh1 : Hist S (n + m1) w1.kv := R1.hist hh
    have hwho := resolveTrack_user hs hpp h4 hh
    have hk1 : Held project.id w.kv w1.kv := runs_held hh (by omega) (runs_mono (fun r hr => track_spares (.inl hr)) R1)
    have hl1 : Logs project.id w w1 [] := .none hk1 q1
    rcases bind_cases h5 with ⟨e, h6, rfl⟩ | ⟨_, w2, h6, h7⟩
    · have := sendTrack_logs hs hsys hutm hu h6 hh1 (by omega) hnm hwho
      rw [if_neg (by simp)] at this
      exact hl1.trans this
    · have hl2 := sendTrack_logs hs hsys hutm hu h6 hh1 (by omega) hnm hwho
      rw [if_pos rfl] at hl2
      obtain ⟨m2, hm2, R2⟩ := (sendTrack_follows (S := S) hs hsys (p := project.id) req r hu).runs h6
      have hsame : Same (.coll (.top .projects)) w.kv w2.kv := by
        have a : Same (.coll (.top .projects)) w.kv w1.kv := runs_same (fun r hr => by cases r <;> simp only [ResolveReq] at hr <;> simp [Req.mods, PropType.coll, hr]) R1
        have b : Same (.coll (.top .projects)) w1.kv w2.kv := runs_same (fun r hr => by cases r <;> simp only [SendReq] at hr <;> simp [Req.mods]) R2
        exact a.trans b
      obtain ⟨x, kv'', e1⟩ := increment_succeeds (hist_projectsOk hh) h1 hsame
      have e2 : call (incrementEvents project.id) w2 = (.ok x, { w2 with kv := kv'' }) := by simp only [call, callRaw, runCall, e1]
      have e3 : (res, w') = (.ok (), { w2 with kv := kv'' }) := by
        rw [← h7]
        unfold M.bind
        rw [e2]
        rfl
      injection e3 with e4 e5
      subst e4 e5
      have hx2 : Held project.id w2.kv kv'' := by
        have := held_exec S (p := project.id) (r := (.projectIncrement project.id : Req Q)) trivial (by simp [Req.mods]) (by simp [Req.mods]) w2.kv
        have e2 : (Req.projectIncrement project.id : Req Q).exec S w2.kv = kv'' := by
          show (runCall (incrementEvents project.id) w2.kv).2 = _
          simp only [runCall, e1]
        rwa [e2] at this
      have hl3 : Logs project.id w2 { w2 with kv := kv'' } [] := .none hx2 rfl
      simpa using (hl1.trans hl2).trans hl3
  · obtain ⟨new, h4, h5⟩ := executeTrack_appends (E := E) (req := req) h1
    have := Logs.other hk h4 (fun x hx _ e => hpe (i64_inj hpp hp ((h5 x hx).symm.trans e)))
    obtain ⟨a, b, c, d1, d2, d3, d4⟩ := this
    refine ⟨a, b, c, d1, d2, d3, ?_⟩
    rw [d4, h1]
    cases (executeTrack E token req w).1 with
    | error e => rfl
    | ok u => simp [hpe]

theorem insertRow_appends {P : Str × List NamedValue → Prop} {t : Str} {vs : List NamedValue} (h : P (t, vs)) : Appends P (insertRow t vs) := by
  intro w
  unfold insertRow
  split
  · exact ⟨[], by simp, by simp⟩
  · exact ⟨[(t, vs)], rfl, by simpa using h⟩

theorem executeIdentify_tables (sys : Str → Str) (now : Time) (token : Str) (req : Identify) : Appends (fun x => x.1 ≠ kEvents) (executeIdentify sys now token req) :=
  (Appends.of_noRows (NoTbl.read _).noRows).bind fun _ => (Appends.of_noRows (NoTbl.call _).noRows).bind fun _ =>
  (Appends.of_noRows (resolveProperties_noRows _ _ _ _ _)).bind fun _ =>
  (Appends.of_noRows (NoTbl.each _ fun _ => (propertyToValue_noTbl _ _ _ _).bind fun _ => .pure _).noRows).bind fun _ =>
  (Appends.of_noRows (NoTbl.call _).noRows).bind fun _ => (Appends.of_noRows (NoTbl.call _).noRows).bind fun _ =>
  (Appends.of_noRows (NoTbl.call _).noRows).bind fun _ => (Appends.of_noRows (valueCells_noTbl _ _ _ _).noRows).bind fun _ =>
  insertRow_appends (fun e => kEvents_ne _ e)

theorem executeIdentify_logs (hsys : ∀ n, '/' ∉ S.sys n) {p : Nat} (now : Time) (token : Str) (req : Identify) {w : World} {n : Nat} (hh : Hist S n w.kv)
    (hn : n + (2 * (req.props.getD []).length + 4) < 2 ^ 62) : Logs p w (executeIdentify S.sys now token req w).2 [] := by
  obtain ⟨new, h1, h2⟩ := executeIdentify_tables S.sys now token req w
  refine .other ?_ h1 fun x hx e => absurd e (h2 x hx)
  rcases executeIdentify_follows (S := S) hsys now token req w with ⟨e, h1, h2⟩ | ⟨project, m, h1, h2, h3⟩
  · rw [h2]; exact .refl _ _
  · exact runs_held hh (by omega) (runs_mono (fun r hr => identify_spares hr) h3)

theorem act_logs (hsys : ∀ n, '/' ∉ S.sys n) (hutm : UtmNotEvent S.sys) {K : Nat} {p : Nat} (hp : p < 2 ^ 64) {x : Act Q} (hx : x.Fits S K) (hs : x.SparesEvents p) {a : App} {n : Nat}
    (h : Hist S n a.world.kv) (hn : n + x.cost K < 2 ^ 62) : (∃ m, m ≤ x.cost K ∧ Hist S (n + m) (a.act S x).world.kv) ∧ Logs p a.world (a.act S x).world (x.accepted a) := by
  cases x with
  | admin r =>
    have one : Runs S (Req.SparesEvents p) a.world.kv 1 (r.exec S a.world.kv) := .step r .refl hx hs
    exact ⟨⟨1, Nat.le_refl _, one.hist h⟩, .none (runs_held h hn one) rfl⟩
  | http r =>
    cases r with
    | track E token req =>
      have h1 : ∃ m, m ≤ (Act.http (.track E token req) : Act Q).cost K ∧ Hist S (n + m) (executeTrack E token req a.world).2.kv := by
        rcases executeTrack_follows (S := S) hx.1 hsys hx.2 token req a.world with ⟨e, h1, h2⟩ | ⟨project, m, h1, h2, h3⟩
        · exact ⟨0, Nat.zero_le _, by rw [h2]; exact h⟩
        · exact ⟨m, h2, h3.hist h⟩
      have h2 := executeTrack_logs hx.1 hsys hutm hx.2 hp token req h hn
      simp only [App.act, Act.accepted, App.step]
      split
      · exact ⟨⟨0, Nat.zero_le _, h⟩, .none (.refl _ _) rfl⟩
      · refine ⟨h1, ?_⟩
        dsimp only
        have e : (match answerOf (executeTrack E token req a.world).1, getByToken token a.world.kv with | some (.ok ()), .ok project => [(project.id, req)] | _, _ => []) =
            (match (executeTrack E token req a.world).1, getByToken token a.world.kv with | .ok (), .ok project => [(project.id, req)] | _, _ => []) := by
          cases (executeTrack E token req a.world).1 with
          | ok u => cases getByToken token a.world.kv <;> rfl
          | error e => unfold answerOf; cases hpan : e.isPanic <;> cases getByToken token a.world.kv <;> simp
        rw [e]
        exact h2
    | identify sys now token req =>
      have hx : sys = S.sys := hx
      subst hx
      have h1 : ∃ m, m ≤ (Act.http (.identify S.sys now token req) : Act Q).cost K ∧ Hist S (n + m) (executeIdentify S.sys now token req a.world).2.kv := by
        rcases executeIdentify_follows (S := S) hsys now token req a.world with ⟨e, h1, h2⟩ | ⟨project, m, h1, h2, h3⟩
        · exact ⟨0, Nat.zero_le _, by rw [h2]; exact h⟩
        · exact ⟨m, h2, h3.hist h⟩
      have h2 := executeIdentify_logs (S := S) hsys (p := p) now token req h hn
      simp only [App.act, Act.accepted, App.step]
      split
      · exact ⟨⟨0, Nat.zero_le _, h⟩, .none (.refl _ _) rfl⟩
      · exact ⟨h1, h2⟩

theorem acts_logs (hsys : ∀ n, '/' ∉ S.sys n) (hutm : UtmNotEvent S.sys) {K : Nat} {p : Nat} (hp : p < 2 ^ 64) (l : List (Act Q)) (hx : ∀ x ∈ l, x.Fits S K) (hs : ∀ x ∈ l, x.SparesEvents p)
    {a : App} {n : Nat} (h : Hist S n a.world.kv) (hn : n + (l.map (Act.cost K)).sum < 2 ^ 62) :
    (∃ m, m ≤ (l.map (Act.cost K)).sum ∧ Hist S (n + m) (a.acts S l).world.kv) ∧ Logs p a.world (a.acts S l).world (a.accepted S l) := by
  induction l generalizing a n with
  | nil => exact ⟨⟨0, Nat.le_refl _, h⟩, .none (.refl _ _) rfl⟩
  | cons x l ih =>
    simp only [List.map_cons, List.sum_cons] at hn ⊢
    obtain ⟨⟨m, hm, h1⟩, h2⟩ := act_logs hsys hutm hp (hx x (by simp)) (hs x (by simp)) h (by omega)
    obtain ⟨⟨m', hm', h3⟩, h4⟩ := ih (fun y hy => hx y (List.mem_cons_of_mem _ hy)) (fun y hy => hs y (List.mem_cons_of_mem _ hy)) h1 (by omega)
    exact ⟨⟨m + m', by omega, by rw [← Nat.add_assoc]; exact h3⟩, h2.trans h4⟩

/-- The rows of an event: one per accepted request, with its time and the number of its user. -/
theorem acts_users (hsys : ∀ n, '/' ∉ S.sys n) (hutm : UtmNotEvent S.sys) {K : Nat} {p : Nat} (hp : p < 2 ^ 64) (l : List (Act Q)) (hx : ∀ x ∈ l, x.Fits S K) (hs : ∀ x ∈ l, x.SparesEvents p)
    {a : App} {n : Nat} (h : Hist S n a.world.kv) (hr : a.world.rows = []) (hn : n + (l.map (Act.cost K)).sum < 2 ^ 62) {name : Str} (hb : name ≠ kSessionBegin) {id : Nat}
    (hid : nameAt p (a.acts S l).world.kv id = some name) :
    ∃ L : List (Nat × Track),
      ((rowsOf kEvents p (a.acts S l).world.rows).filter fun x => val x.2 kEvent = i64 id).map (fun x => (val x.2 kCreatedAt, val x.2 (groupCol 0))) =
        L.map (fun e => (.timestamp (some (millis e.2.time)), i64 e.1)) ∧
      L.map Prod.snd = ((a.accepted S l).filter fun x => x.1 = p ∧ x.2.event = name).map Prod.snd ∧
      ∀ e ∈ L, e.1 < 2 ^ 64 ∧ ∀ x, Sole e.2 x → gid p 0 (a.acts S l).world.kv x = some e.1 := by
  obtain ⟨⟨m, hm, hh⟩, -, new, L, h1, h2, h3, h4⟩ := acts_logs hsys hutm hp l hx hs h hn
  have hre := hist_events hh (by omega) p
  have hlt : ∀ j v, nameAt p (a.acts S l).world.kv j = some v → j < 2 ^ 64 := by
    intro j v hj
    unfold nameAt at hj
    rw [Option.map_eq_some_iff] at hj
    obtain ⟨y, hy, -⟩ := hj
    have h11 := (Inv.live_id (hre.inv (events_ok p)) hy).2.2.1
    have h12 : lastId (a.acts S l).world.kv (.proj p .events) + 1 < 2 ^ 64 := hre.room (events_ok p)
    have h13 : (eventsC p).ns = .proj p .events := rfl
    rw [h13] at h11
    omega
  rw [h1, hr, List.nil_append]
  -- rows with the number, and entries with the name
  have e1 : ((rowsOf kEvents p new).filter fun x => val x.2 kEvent = i64 id).map (fun x => (val x.2 kCreatedAt, val x.2 (groupCol 0))) =
      (((rowsOf kEvents p new).map (fun x => (val x.2 kEvent, val x.2 kCreatedAt, val x.2 (groupCol 0)))).filter fun y => y.1 = i64 id).map Prod.snd := by
    rw [List.filter_map, List.map_map]; rfl
  have e2 : ((L.map (fun e : Entry => (i64 e.id, e.time, i64 e.user))).filter fun y => y.1 = i64 id).map Prod.snd = (L.filter fun e => e.name = name).map (fun e => (e.time, i64 e.user)) := by
    rw [List.filter_map, List.map_map]
    have : (L.filter ((fun y : Value × Value × Value => decide (y.1 = i64 id)) ∘ fun e : Entry => (i64 e.id, e.time, i64 e.user))) = L.filter fun e => e.name = name := by
      refine List.filter_congr fun e he => ?_
      simp only [Function.comp, decide_eq_decide]
      constructor
      · intro h5
        have := i64_inj (hlt _ _ (h3 e he).1) (hlt _ _ hid) h5
        have h6 := (h3 e he).1
        rw [this, hid] at h6
        exact (Option.some.inj h6).symm
      · intro h5
        have h6 := (h3 e he).1
        rw [h5] at h6
        rw [nameAt_inj (hre.inv (events_ok p)) h6 hid]
    rw [this]; rfl
  have htime : ∀ e ∈ L, e.name = name → e.time = .timestamp (some (millis e.req.time)) := by
    intro e he hen
    have : (e.name, e.time, e.req) ∈ ((a.accepted S l).filter fun x => x.1 = p ∧ x.2.event ≠ kSessionBegin).map (fun x => (x.2.event, .timestamp (some (millis x.2.time)), x.2)) := by
      rw [← h4]
      exact List.mem_map.mpr ⟨e, List.mem_filter.mpr ⟨he, by simp [hen, hb]⟩, rfl⟩
    obtain ⟨x, -, hxe⟩ := List.mem_map.mp this
    have a1 := congrArg (fun y => y.2.1) hxe
    have a2 := congrArg (fun y => y.2.2) hxe
    dsimp only at a1 a2
    rw [← a1, ← a2]
  refine ⟨(L.filter fun e => e.name = name).map (fun e => (e.user, e.req)), ?_, ?_, ?_⟩
  · rw [e1, h2, e2, List.map_map]
    refine List.map_congr_left fun e he => ?_
    obtain ⟨h5, h6⟩ := List.mem_filter.mp he
    simp only [Function.comp, Prod.mk.injEq, and_true]
    exact htime e h5 (of_decide_eq_true h6)
  · have e3 : (L.filter fun e => e.name = name).map Entry.req = (((L.filter fun e => e.name ≠ kSessionBegin).map (fun e => (e.name, e.time, e.req))).filter fun y => y.1 = name).map (fun y => y.2.2) := by
      rw [List.filter_map, List.map_map, List.filter_filter]
      have : L.filter (fun e => e.name = name) = L.filter (fun a => (((fun y : Str × Value × Track => decide (y.1 = name)) ∘ fun e : Entry => (e.name, e.time, e.req)) a && decide (a.name ≠ kSessionBegin))) := by
        refine List.filter_congr fun e he => ?_
        simp only [Function.comp]
        by_cases h5 : e.name = name
        · simp [h5, hb]
        · simp [h5]
      rw [this]; rfl
    rw [List.map_map]
    show (L.filter fun e => e.name = name).map Entry.req = _
    rw [e3, h4, List.filter_map, List.map_map, List.filter_filter]
    have : (a.accepted S l).filter (fun x => (((fun y : Str × Value × Track => decide (y.1 = name)) ∘ fun x : Nat × Track => (x.2.event, .timestamp (some (millis x.2.time)), x.2)) x &&
        decide (x.1 = p ∧ x.2.event ≠ kSessionBegin))) = (a.accepted S l).filter fun x => x.1 = p ∧ x.2.event = name := by
      refine List.filter_congr fun x _ => ?_
      simp only [Function.comp]
      by_cases h5 : x.2.event = name
      · simp [h5, hb]
      · simp [h5]
    rw [this]; rfl
  · intro e he
    obtain ⟨e', he', rfl⟩ := List.mem_map.mp he
    exact (h3 e' (List.mem_filter.mp he').1).2

/-- The rows of an event: as many as accepted requests, with their times. -/
theorem acts_rows (hsys : ∀ n, '/' ∉ S.sys n) (hutm : UtmNotEvent S.sys) {K : Nat} {p : Nat} (hp : p < 2 ^ 64) (l : List (Act Q)) (hx : ∀ x ∈ l, x.Fits S K) (hs : ∀ x ∈ l, x.SparesEvents p)
    {a : App} {n : Nat} (h : Hist S n a.world.kv) (hr : a.world.rows = []) (hn : n + (l.map (Act.cost K)).sum < 2 ^ 62) {name : Str} (hb : name ≠ kSessionBegin) {id : Nat}
    (hid : nameAt p (a.acts S l).world.kv id = some name) :
    ((rowsOf kEvents p (a.acts S l).world.rows).filter fun x => val x.2 kEvent = i64 id).map (fun x => val x.2 kCreatedAt) =
      ((a.accepted S l).filter fun x => x.1 = p ∧ x.2.event = name).map fun x => .timestamp (some (millis x.2.time)) := by
  obtain ⟨L, h1, h2, -⟩ := acts_users hsys hutm hp l hx hs h hr hn hb hid
  have h3 := congrArg (List.map Prod.fst) h1
  have h4 := congrArg (List.map fun x : Track => Value.timestamp (some (millis x.time))) h2
  rw [List.map_map, List.map_map] at h3 h4
  exact h3.trans h4

end OptiPrism.Ingest
