import Verif.Ingest.AcceptSend

/-!
# Whole requests
-/

namespace OptiPrism.Ingest

open OptiPrism.Meta
open OptiPrism.Storage (Bytes Value NamedValue Tbl InsertErr ColType Field Row KeyValue typeOk fromLE)

variable {Q : Type} {S : Meta.Env Q} {T : Str → Bool} {n : Nat} {w : World} {ok : Prop}

theorem properties_goes (hw : WInv S T n w) {p : Nat} {ty : PropType} (now : Time) {l : Option (List (Str × PropValue))} (hn : n + (l.getD []).length + 1 < 2 ^ 62)
    (hp : p ≤ lastId w.kv (.top .projects)) (hp64 : p < 2 ^ 64) (hty : ∀ g, ty = .group g → g < 2 ^ 64) (hready : Ready p w.kv)
    (hnd : ok → ((l.getD []).map Prod.fst).Nodup) (hdate : ok → ∀ x ∈ l.getD [], x.2.isDate = false)
    (hsuit : ok → ∀ x ∈ l.getD [], ∀ id r, (propsC p ty).live w.kv id = some r → r.name = x.1 → Suits r x.2) :
    Goes S T n w (l.getD []).length ok (resolveProperties S.sys now p ty l)
      (fun bs w' => (∀ b ∈ bs.getD [], ∃ a ∈ l.getD [], b.2 = a.2 ∧ PropFor ok p ty b w'.kv) ∧ (bs.getD []).length = (l.getD []).length ∧
        SameNames p w.kv w'.kv) := by
  cases l with
  | none => exact Goes.pure hw ⟨by simp, rfl, .refl _ _⟩
  | some l =>
    exact Goes.bind (C := 0) (resolveProps_goes hw now hn hp hp64 hty hready hnd hdate hsuit) fun bs w1 hw1 hn1 h => Goes.pure hw1 h

/-- What a track request must be to be accepted. -/
structure TrackOk (p : Nat) (kv : Kv) (D : Detect) (ks : List Str) (req : Track) : Prop where
  user : req.userId.isSome ∨ req.anonId.isSome
  names : ((req.props.getD []).map Prod.fst).Nodup
  dates : ∀ x ∈ req.props.getD [], x.2.isDate = false
  suits : ∀ x ∈ req.props.getD [], ∀ id r, (propsC p .event).live kv id = some r → r.name = x.1 → Suits r x.2
  room : GroupRoom p ks kv
  place : D.lookup req.ip ≠ .failed

theorem resolveTrack_goes (hw : WInv S T n w) {p : Nat} (hp : p ≤ lastId w.kv (.top .projects)) (hp64 : p < 2 ^ 64) (hr : Ready p w.kv) {D : Detect} {now : Time}
    {req : Track} {ks : List Str} (hks : ∀ g ∈ req.groups.getD [], g.1 ∈ ks) (hone : req.userId = none ∨ req.anonId = none) (hok : ok → TrackOk p w.kv D ks req)
    (hn : n + (req.props.getD []).length + 3 * (req.groups.getD []).length + 8 < 2 ^ 62) :
    Goes S T n w ((req.props.getD []).length + 3 * (req.groups.getD []).length + 4) ok (resolveTrack (detectEnv D S.sys now) p req)
      (fun r w' => r.user < 2 ^ 64 ∧ (∀ b ∈ r.props.getD [], PropFor ok p .event b w'.kv) ∧ (∀ g ∈ r.groups.getD [], GroupFit p w'.kv g) ∧
        (r.props.getD []).length ≤ (req.props.getD []).length + 14) := by
  unfold resolveTrack
  refine (Goes.bind (B := (req.props.getD []).length) (C := 3 * (req.groups.getD []).length + 4)
    (properties_goes hw now (by omega) hp hp64 (fun g e => by cases e) hr (fun h => (hok h).names) (fun h => (hok h).dates) (fun h => (hok h).suits))
    fun props w1 hw1 hn1 hprops => ?_).mono (by omega) fun _ _ _ _ h => h
  have hp1 := Nat.le_trans hp hn1.1.projects
  refine (Goes.bind (B := 2) (C := 3 * (req.groups.getD []).length + 2) (user_goes hw1 (by omega) hp1 hone fun h => (hok h).user) fun u w2 hw2 hn2 hu => ?_).mono (by omega) fun _ _ _ _ h => h
  have hp2 := Nat.le_trans hp1 hn2.1.projects
  have hroom : ok → GroupRoom p ks w2.kv := fun h => (hprops.2.2.trans hu.2.2).room (hok h).room
  refine (Goes.bind (B := 3 * (req.groups.getD []).length) (C := 2) (groups_goes hw2 hp2 hroom hu.2.1 (by omega) hks) fun groups w3 hw3 hn3 hgr => ?_).mono (by omega) fun _ _ _ _ h => h
  have hp3 := Nat.le_trans hp2 hn3.1.projects
  refine Goes.bind (B := 1) (C := 1) (event_goes hw3 (by omega) hp3 hp64 (show 1 < 2 ^ 64 by decide) rfl) fun ev w4 hw4 hn4 hev => ?_
  have hp4 := Nat.le_trans hp3 hn4.1.projects
  refine Goes.bind (B := 1) (C := 0) (attach_goes hw4 (by omega) hp4 hev.1 props) fun _ w5 hw5 hn5 _ => ?_
  have hext : Ext w1.kv w5.kv := ((hn2.1.trans hn3.1).trans hn4.1).trans hn5.1
  refine Goes.bind (B := 0) (C := 0) (transformed_goes hw5 (by omega) ((hr.ext hn1.1).ext hext) (fun h => (hok h).place) (props := props) fun b hb => ?_)
    fun props' w6 hw6 hn6 h6 => Goes.pure hw6 ⟨hu.1, ?_, fun g hg => ?_, ?_⟩
  · obtain ⟨a, -, -, h⟩ := hprops.1 b hb
    exact h.ext hext
  · rw [h6.1]; exact h6.2.1
  · rw [h6.1]; exact ((hgr g hg).ext hn4.1).ext hn5.1
  · have := h6.2.2
    have := hprops.2.1
    dsimp only
    omega

/-- The number of the last project is changed by new projects only. -/
theorem last_kept {n : Nat} {kv : Kv} (h : KInv S T n kv) (hn : n < 2 ^ 62) {r : Req Q} (hr : r.Ok) (hs : r.Sep T) (hc : ∀ now q, r ≠ .projectCreate now q) :
    lastId (r.exec S kv) (.top .projects) = lastId kv (.top .projects) := by
  obtain ⟨hi, hle⟩ := h.pinv hn
  by_cases hm : Mod.coll (.top .projects) ∈ r.mods
  · have same : ∀ {α : Type} {c : Call α} {e : Err}, c kv = .error e → lastId (runCall c kv).2 (.top .projects) = lastId kv (.top .projects) := by
      intro α c e h; rw [runCall, h]
    have done : ∀ {α : Type} {c : Call α} {r : α} {kv' : Kv}, c kv = .ok (r, kv') → lastId kv' (.top .projects) = lastId kv (.top .projects) →
        lastId (runCall c kv).2 (.top .projects) = lastId kv (.top .projects) := by
      intro α c r kv' h h1; rw [runCall, h]; exact h1
    cases r <;> simp [Req.mods] at hm
    case projectCreate now req => exact absurd rfl (hc now req)
    case projectUpdate id now q =>
      show lastId (runCall (projectUpdate id now q) kv).2 _ = _
      cases hl : projectsC.live kv id with
      | none => exact same (update_missing hi hl _ _)
      | some r =>
        rcases projectUpdate_spec hi (q := q) (t := q.apply now) hl rfl rfl rfl (apply_sep (hi.live hl).2.2.2 hr hs) with ⟨-, e⟩ | ⟨-, kv', e, h1, h2⟩
        · exact same e
        · exact done e (by omega)
    case projectIncrement id =>
      show lastId (runCall (incrementEvents id) kv).2 _ = _
      cases hl : projectsC.live kv id with
      | none => exact same (update_missing hi hl _ _)
      | some r =>
        have hv := (hi.live hl).2.2.2
        rcases projectUpdate_spec hi (q := { updatedBy := 0 }) (t := fun r => { r with eventsCount := (r.eventsCount + 1) % 2 ^ 64 }) hl rfl rfl rfl
          ⟨⟨hv.1.head, hv.1.org, hv.1.dur, Nat.mod_lt _ (Nat.two_pow_pos 64)⟩, hv.2⟩ with ⟨-, e⟩ | ⟨-, kv', e, h1, h2⟩
        · exact same e
        · exact done e (by omega)
    case projectDelete id =>
      show lastId (runCall (projectsC.delete id) kv).2 _ = _
      cases hl : projectsC.live kv id with
      | none => exact same (e := .notFound) (by unfold Coll.delete; rw [getById_none hi hl])
      | some r =>
        obtain ⟨kv', e, h1, h2, -⟩ := projectDelete_spec hi hl
        exact done e (by omega)
  · exact (exec_agree S hr hm kv).last

/-- Every project has what `init_project` made. -/
structure LInv (S : Meta.Env Q) (T : Str → Bool) (n : Nat) (w : World) : Prop where
  inv : WInv S T n w
  ready : ∀ p, 0 < p → p ≤ lastId w.kv (.top .projects) → Ready p w.kv

theorem LInv.next {m : Nat} {w' : World} (h : LInv S T n w) (hw : WInv S T m w') (he : Ext w.kv w'.kv) (hl : lastId w'.kv (.top .projects) = lastId w.kv (.top .projects)) :
    LInv S T m w' := ⟨hw, fun p h0 hp => (h.ready p h0 (by omega)).ext he⟩

theorem token_project {kv : Kv} (h : KInv S T n kv) (hn : n < 2 ^ 62) {token : Str} {project : Project} (e : getByToken token kv = .ok project) :
    projectsC.live kv project.id = some project ∧ 0 < project.id ∧ project.id ≤ lastId kv (.top .projects) := by
  obtain ⟨hi, -⟩ := h.pinv hn
  obtain ⟨⟨id, h1⟩, -⟩ := (getBy_idx hi token project).mp e
  rw [hi.getById] at h1
  cases hl : projectsC.live kv id with
  | none => rw [hl] at h1; cases h1
  | some r =>
    rw [hl] at h1
    cases h1
    obtain ⟨rfl, h2, h3, -⟩ := hi.live hl
    exact ⟨hl, h2, h3⟩

theorem track_all (hk : KeepsSys S.sys) (hw : LInv S T n w) {D : Detect} {now : Time} {token : Str} {req : Track} {ks : List Str} (hks : ∀ g ∈ req.groups.getD [], g.1 ∈ ks)
    (hone : req.userId = none ∨ req.anonId = none) (hn : n + 2 * (req.props.getD []).length + 3 * (req.groups.getD []).length + 40 < 2 ^ 62) :
    LInv S T (n + (2 * (req.props.getD []).length + 3 * (req.groups.getD []).length + 27)) (executeTrack (detectEnv D S.sys now) token req w).2 ∧
    Ext w.kv (executeTrack (detectEnv D S.sys now) token req w).2.kv ∧
    ∀ project, getByToken token w.kv = .ok project → TrackOk project.id w.kv D ks req → (executeTrack (detectEnv D S.sys now) token req w).1 = .ok () := by
  cases hp : getByToken token w.kv with
  | error e =>
    have he : executeTrack (detectEnv D S.sys now) token req w = (.error (.metadata e), w) := by
      unfold executeTrack M.bind read callRaw
      simp only [hp]
    rw [he]
    exact ⟨⟨hw.inv.mono (by omega), hw.ready⟩, .refl _, fun p h => by cases h⟩
  | ok project =>
    obtain ⟨hlive, h0, hle⟩ := token_project hw.inv.kv (by omega) hp
    have hlt := (hw.inv.kv.pinv (by omega)).1.lt
    have hgo := Goes.bind (n := n) (w := w) (ok := TrackOk project.id w.kv D ks req) (B := (req.props.getD []).length + 3 * (req.groups.getD []).length + 4)
      (C := (req.props.getD []).length + 22)
      (resolveTrack_goes hw.inv (now := now) hle (by omega) (hw.ready _ h0 hle) hks hone id (by omega))
      (R := fun _ _ => True) (f := sendTrack (detectEnv D S.sys now) project.id req) fun r w1 hw1 hn1 hr => by
        exact (sendTrack_goes hk hw1 (Nat.le_trans hle hn1.1.projects) ((hw.ready _ h0 hle).ext hn1.1) rfl hr.1 hr.2.1 hr.2.2.1 (by have := hr.2.2.2; omega)).mono
          (by have := hr.2.2.2; omega) fun _ _ _ _ h => h
    have e : executeTrack (detectEnv D S.sys now) token req w =
        (((resolveTrack (detectEnv D S.sys now) project.id req).bind (sendTrack (detectEnv D S.sys now) project.id req)).bind fun _ =>
          (call (incrementEvents project.id)).bind fun _ => M.pure ()) w := by
      unfold executeTrack
      conv => lhs; unfold M.bind
      unfold read callRaw
      simp only [hp]
      unfold M.bind
      cases h1 : resolveTrack (detectEnv D S.sys now) project.id req w with
      | mk a b => cases a <;> rfl
    rw [e]
    generalize (resolveTrack (detectEnv D S.sys now) project.id req).bind (sendTrack (detectEnv D S.sys now) project.id req) = x at hgo
    obtain ⟨g1, g2, g3, -⟩ := hgo
    unfold M.bind
    cases hx : x w with
    | mk a w1 =>
      rw [hx] at g1 g2 g3
      dsimp only at g1 g2 g3
      have hL := hw.next (m := n + (2 * (req.props.getD []).length + 3 * (req.groups.getD []).length + 26)) (g1.mono (by omega)) g2.1 g2.2.last
      cases a with
      | error f =>
        refine ⟨⟨hL.inv.mono (by omega), hL.ready⟩, g2.1, fun p h hok => ?_⟩
        cases h
        obtain ⟨_, h⟩ := g3 hok
        cases h
      | ok u =>
        obtain ⟨hw2, he2⟩ := hL.inv.benign (by omega) (r := .projectIncrement project.id) trivial ⟨by simp [Req.mods, modProject], trivial, trivial⟩
        have hl2 := last_kept hL.inv.kv (by omega) (r := .projectIncrement project.id) trivial trivial (by intro _ _ h; cases h)
        have hL2 := hL.next hw2 he2 hl2
        have hlive1 : projectsC.live w1.kv project.id = some project := by rw [g2.2.live (c := projectsC)]; exact hlive
        have hg : projectsC.getById project.id w1.kv = .ok project := by
          rw [(hL.inv.kv.pinv (by omega)).1.getById, hlive1]
        obtain ⟨y, kv2, ey⟩ : ∃ y kv2, incrementEvents project.id w1.kv = .ok (y, kv2) := by
          unfold incrementEvents Coll.update
          rw [hg]
          exact ⟨_, _, rfl⟩
        have ekv : (Req.projectIncrement project.id : Req Q).exec S w1.kv = kv2 := by
          show (runCall (incrementEvents project.id) w1.kv).2 = kv2
          unfold runCall; rw [ey]
        rw [ekv] at hL2 he2
        dsimp only
        have ecall : (call (incrementEvents project.id) w1) = (.ok y, { w1 with kv := kv2 }) := by
          unfold call callRaw runCall
          rw [ey]
        rw [ecall]
        exact ⟨⟨hL2.inv.mono (by omega), hL2.ready⟩, g2.1.trans he2, fun _ _ _ => rfl⟩

/-- What an identify request must be to be accepted. -/
structure IdentifyOk (p : Nat) (kv : Kv) (ks : List Str) (req : Identify) : Prop where
  names : ((req.props.getD []).map Prod.fst).Nodup
  suits : ∀ g kv', getOrCreateGroup p req.group req.group kv = .ok (g, kv') → ∀ x ∈ req.props.getD [], ∀ id r,
    (propsC p (.group g.id)).live kv id = some r → r.name = x.1 → Suits r x.2
  room : GroupRoom p ks kv

theorem groupValues_goes (hk : KeepsSys S.sys) (hw : WInv S T n w) {p g : Nat} (hp : p ≤ lastId w.kv (.top .projects)) {l : List (Property × PropValue)}
    (hl : ∀ b ∈ l, PropFor ok p (.group g) b w.kv) (hd : ∀ b ∈ l, b.2.isDate = false) (hn : n + l.length + 1 < 2 ^ 62) :
    Goes S T n w l.length ok (each (fun pv => (propertyToValue S.sys p (groupCol 0) pv).bind fun v => M.pure (⟨pv.1.id, v⟩ : PropVal)) l)
      (fun vs w' => (∀ v ∈ vs, v.propertyId < 2 ^ 64) ∧ ValsFit p g w'.kv vs ∧ ∀ v ∈ vs, v.value.Present) := by
  have h := Goes.each (S := S) (T := T) (n := n) (w := w) (ok := ok) (B := 1)
    (f := fun pv => (propertyToValue S.sys p (groupCol 0) pv).bind fun v => M.pure (⟨pv.1.id, v⟩ : PropVal)) (K := 2 ^ 62 - 2)
    (J := fun _ => True) (R := fun _ v kv => v.propertyId < 2 ^ 64 ∧ ValsFit p g kv [v] ∧ v.value.Present) (fun a b kv kv' h hnr => ⟨h.1, h.2.1.ext hnr.1, h.2.2⟩) l (by omega)
    (fun a ha m w' hm hw' hnr _ => by
      have hf := (hl a ha).ext hnr.1
      refine Goes.bind (B := 1) (C := 0) (value_goes hk hw' (by omega) (Nat.le_trans hp hnr.1.projects) (slash_groupCol 0) hf.ruled hf.suits) fun v w1 hw1 hn1 hv =>
        Goes.pure hw1 ⟨trivial, hf.id64, ?_, (hv (hd a ha)).2⟩
      obtain ⟨r, h1, h2⟩ := (hf.ext hn1.1).live
      intro x hx
      rw [List.mem_singleton.mp hx]
      exact ⟨r, h1, (hv (hd a ha)).1.same h2⟩) hw trivial
  refine h.mono (by omega) fun vs w' _ _ hP => ⟨fun v hv => ?_, fun v hv => ?_, fun v hv => ?_⟩
  · obtain ⟨_, -, h⟩ := hP.2.1 v hv
    exact h.1
  · obtain ⟨_, -, h⟩ := hP.2.1 v hv
    exact h.2.1 v (by simp)
  · obtain ⟨_, -, h⟩ := hP.2.1 v hv
    exact h.2.2

theorem identify_goes (hk : KeepsSys S.sys) (hw : WInv S T n w) {p : Nat} (hp : p ≤ lastId w.kv (.top .projects)) (hp64 : p < 2 ^ 64) (hr : Ready p w.kv) {now : Time}
    {req : Identify} {ks : List Str} (hks : req.group ∈ ks) (hd : ∀ x ∈ req.props.getD [], x.2.isDate = false) (hok : ok → IdentifyOk p w.kv ks req)
    (hn : n + 2 * (req.props.getD []).length + 8 < 2 ^ 62) :
    Goes S T n w (2 * (req.props.getD []).length + 4) ok (
      (call (getOrCreateGroup p req.group req.group)).bind fun grp =>
      (resolveProperties S.sys now p (.group grp.id) req.props).bind fun props =>
      (each (fun pv => (propertyToValue S.sys p (groupCol 0) pv).bind fun v => M.pure (⟨pv.1.id, v⟩ : PropVal)) (props.getD [])).bind fun vals =>
      (call (groupCreateOrUpdate p grp.id req.id vals)).bind fun gv =>
      (call (dictCreateKey p (groupCol grp.id) kId gv.id req.id)).bind fun _ =>
      sendIdentify S.sys p grp.id req.time gv) (fun _ _ => True) := by
  have hslash : '/' ∉ kId := by decide +kernel
  have q := groupName_goes (ok := ok) hw (by omega) hp (fun h => (hok h).room) hks req.group
  have q' : Goes S T n w 1 ok (call (getOrCreateGroup p req.group req.group)) (fun g w' => g.id < 5 ∧ (∃ kv', getOrCreateGroup p req.group req.group w.kv = .ok (g, kv')) ∧
      ∀ m, m ∉ [Mod.grpNames p] → Same m w.kv w'.kv) := ⟨q.inv, q.near, q.good, fun a ha => by
    obtain ⟨-, -, h3, -, -, h6⟩ := q.post a ha
    refine ⟨h3, ?_, h6⟩
    unfold call callRaw runCall at ha
    cases hc : getOrCreateGroup p req.group req.group w.kv with
    | error e => rw [hc] at ha; cases ha
    | ok v =>
      rw [hc] at ha
      cases ha
      exact ⟨v.2, rfl⟩⟩
  refine (Goes.bind (B := 1) (C := 2 * (req.props.getD []).length + 3) q' fun grp w1 hw1 hn1 ⟨hg5, ⟨kv', hgrp⟩, hsame⟩ => ?_).mono (by omega) fun _ _ _ _ h => h
  have hp1 := Nat.le_trans hp hn1.1.projects
  refine (Goes.bind (B := (req.props.getD []).length) (C := (req.props.getD []).length + 3)
    (properties_goes hw1 now (by omega) hp1 hp64 (fun g e => by cases e; omega) (hr.ext hn1.1) (fun h => (hok h).names) (fun _ => hd) (fun h x hx id r hl hnm => ?_))
    fun props w2 hw2 hn2 hprops => ?_).mono (by omega) fun _ _ _ _ h => h
  · have e := (hsame (.coll (.proj p (PropType.group grp.id).coll)) (by simp)).agree.live (c := propsC p (.group grp.id)) id
    rw [e] at hl
    exact (hok h).suits grp kv' hgrp x hx id r hl hnm
  have hp2 := Nat.le_trans hp1 hn2.1.projects
  have hlen := hprops.2.1
  refine (Goes.bind (B := (props.getD []).length) (C := 3) (groupValues_goes (g := grp.id) hk hw2 hp2 (fun b hb => ?_) (fun b hb => ?_) (by omega))
    fun vals w3 hw3 hn3 hv => ?_).mono (by omega) fun _ _ _ _ h => h
  · obtain ⟨_, -, -, h⟩ := hprops.1 b hb
    exact h
  · obtain ⟨a, ha, e, -⟩ := hprops.1 b hb
    rw [e]
    exact hd a ha
  have hp3 := Nat.le_trans hp2 hn3.1.projects
  refine Goes.bind (B := 1) (C := 2) (groupUpdate_goes hw3 (by omega) hp3 grp.id req.id hv.1 hv.2.1 hv.2.2) fun gv w4 hw4 hn4 hgv => ?_
  have hp4 := Nat.le_trans hp3 hn4.1.projects
  refine Goes.bind (B := 1) (C := 1) (dictPut_goes hw4 (by omega) hp4 ⟨slash_groupCol grp.id, hslash⟩ hgv.1 req.id) fun _ w5 hw5 hn5 _ => ?_
  have hp5 := Nat.le_trans hp4 hn5.1.projects
  unfold sendIdentify
  refine Goes.bind (B := 1) (C := 0) (groupRecord_goes hw5 (by omega) hp5 grp.id) fun version w6 hw6 hn6 _ => ?_
  have hext : Ext w.kv w6.kv := ((((hn1.1.trans hn2.1).trans hn3.1).trans hn4.1).trans hn5.1).trans hn6.1
  refine Goes.bind (B := 0) (C := 0) (valueCells_goes hw6 (by omega) ((hgv.2.1.ext hn5.1).ext hn6.1)) fun cells w7 hw7 hn7 hc => ?_
  have hr7 := (hr.ext hext).ext hn7.1
  refine (Goes.insert hk hw7 key_cols.2 fun _ v hv' => ?_).mono (by omega) fun _ _ _ _ _ => trivial
  have hv' : v ∈ nv kProjectId (i64 p) :: nv kId (i64 gv.id) :: nv kVersion (i64 version) :: nv kCreatedAt (.timestamp (some (millis req.time))) :: cells := hv'
  simp only [List.mem_cons] at hv'
  rcases hv' with rfl | rfl | rfl | rfl | hv'
  · exact groupCell hk hw7 hr7 hg5 (ct := .int64) (by simp) rfl
  · exact groupCell hk hw7 hr7 hg5 (ct := .int64) (by simp) rfl
  · exact groupCell hk hw7 hr7 hg5 (ct := .int64) (by simp) rfl
  · exact groupCell hk hw7 hr7 hg5 (ct := .timestamp) (by simp) rfl
  · exact (hc.2 v hv').group hw7

theorem identify_all (hk : KeepsSys S.sys) (hw : LInv S T n w) {now : Time} {token : Str} {req : Identify} {ks : List Str} (hks : req.group ∈ ks)
    (hd : ∀ x ∈ req.props.getD [], x.2.isDate = false) (hn : n + 2 * (req.props.getD []).length + 8 < 2 ^ 62) :
    LInv S T (n + (2 * (req.props.getD []).length + 4)) (executeIdentify S.sys now token req w).2 ∧
    Ext w.kv (executeIdentify S.sys now token req w).2.kv ∧
    ∀ project, getByToken token w.kv = .ok project → IdentifyOk project.id w.kv ks req → (executeIdentify S.sys now token req w).1 = .ok () := by
  cases hp : getByToken token w.kv with
  | error e =>
    have he : executeIdentify S.sys now token req w = (.error (.metadata e), w) := by
      unfold executeIdentify M.bind read callRaw
      simp only [hp]
    rw [he]
    exact ⟨⟨hw.inv.mono (by omega), hw.ready⟩, .refl _, fun p h => by cases h⟩
  | ok project =>
    obtain ⟨hlive, h0, hle⟩ := token_project hw.inv.kv (by omega) hp
    have hlt := (hw.inv.kv.pinv (by omega)).1.lt
    have hgo := identify_goes (ok := IdentifyOk project.id w.kv ks req) hk hw.inv (now := now) hle (by omega) (hw.ready _ h0 hle) hks hd id hn
    unfold executeIdentify
    unfold M.bind read callRaw
    simp only [hp]
    refine ⟨hw.next hgo.inv hgo.near.1 hgo.near.2.last, hgo.near.1, fun p h hok => ?_⟩
    cases h
    obtain ⟨a, ha⟩ := hgo.good hok
    exact ha

/-! ## The states of the system -/

/-- The worlds of a system that starts empty: projects are created, track requests (not with both ids) and identify requests (without
dates) are executed, and metadata requests run that neither add or remove properties, remove or rename events, nor
change the type of a property. `n` bounds the requests made to the metadata store. -/
inductive Life (S : Meta.Env Q) (T : Str → Bool) : Nat → World → Prop
  | start : Life S T 0 World.fresh
  | create {n : Nat} {w : World} (h : Life S T n w) (now : Time) (req : Project) (hr : (Req.projectCreate (Q := Q) now req).Ok)
      (ht : T req.name = false ∧ T req.token = true) : Life S T (n + 75) (createProject S.sys now req w).2
  | track {n : Nat} {w : World} (h : Life S T n w) (D : Detect) (now : Time) (token : Str) (req : Track) (hone : req.userId = none ∨ req.anonId = none) :
      Life S T (n + (2 * (req.props.getD []).length + 3 * (req.groups.getD []).length + 27)) (executeTrack (detectEnv D S.sys now) token req w).2
  | identify {n : Nat} {w : World} (h : Life S T n w) (now : Time) (token : Str) (req : Identify) (hd : ∀ x ∈ req.props.getD [], x.2.isDate = false) :
      Life S T (n + (2 * (req.props.getD []).length + 4)) (executeIdentify S.sys now token req w).2
  | admin {n : Nat} {w : World} (h : Life S T n w) (r : Req Q) (hr : r.Ok) (hb : Benign T w.kv r) (hc : ∀ now q, r ≠ .projectCreate now q) :
      Life S T (n + 1) { w with kv := r.exec S w.kv }

theorem Life.inv (hk : KeepsSys S.sys) (h : Life S T n w) : n < 2 ^ 61 → LInv S T n w := by
  induction h with
  | start =>
    have h0 : lastId World.fresh.kv (.top .projects) = 0 := by decide +kernel
    exact fun _ => ⟨.start, fun p h1 hp => by omega⟩
  | @create n0 w0 h now req hr ht ih =>
    intro hn
    have hi := ih (by omega)
    rcases createProject_spec hi.inv (by omega) now hr ht with ⟨-, e⟩ | ⟨-, w', e, h1, h2, h3, h4, -⟩
    · rw [e]; exact ⟨hi.inv.mono (by omega), hi.ready⟩
    · rw [e]
      refine ⟨h1, fun p h0 hp => ?_⟩
      dsimp only at hp ⊢
      by_cases hc : p ≤ lastId w0.kv (.top .projects)
      · exact (hi.ready p h0 hc).ext h2
      · have : p = lastId w0.kv (.top .projects) + 1 := by omega
        rw [this]
        exact h4.ready
  | track h D now token req hone ih =>
    intro hn
    exact (track_all hk (ih (by omega)) (ks := (req.groups.getD []).map Prod.fst) (fun g hg => List.mem_map.mpr ⟨g, hg, rfl⟩) hone (by omega)).1
  | identify h now token req hd ih =>
    intro hn
    exact (identify_all hk (ih (by omega)) (ks := [req.group]) (by simp) hd (by omega)).1
  | admin h r hr hb hc ih =>
    intro hn
    have hi := ih (by omega)
    obtain ⟨h1, h2⟩ := hi.inv.benign (by omega) hr hb
    exact hi.next h1 h2 (last_kept hi.inv.kv (by omega) hr hb.2.1 hc)

end OptiPrism.Ingest
