import Verif.Ingest.SetupInv
import Verif.Meta.ProjectsProps
import Verif.Meta.AttachProps

/-!
# What creating a project leaves, continued
-/

namespace OptiPrism.Ingest

open OptiPrism.Meta
open OptiPrism.Storage (Bytes Value NamedValue Tbl InsertErr ColType Field Row KeyValue typeOk fromLE)

variable {Q : Type} {S : Meta.Env Q} {T : Str → Bool} {n : Nat} {w : World} {ok : Prop}

theorem projectCreate_live {kv kv' : Kv} (h : PInv T kv) (hl : lastId kv (.top .projects) + 1 < 2 ^ 64) {now : Time} {req a : Project}
    (hr : req.createdBy < 2 ^ 64 ∧ req.orgId < 2 ^ 64 ∧ req.sessionDuration < 2 ^ 64) (e : projectCreate now req kv = .ok (a, kv')) (j : Nat) :
    projectsC.live kv' j = if j = lastId kv (.top .projects) + 1 then some (projMk now req j).norm else projectsC.live kv j := by
  have hns : nextSeq (.seq (.top .projects)) kv = .ok (lastId kv (.top .projects) + 1, putK kv (.seq (.top .projects)) (le64 (lastId kv (.top .projects) + 1))) :=
    nextSeq_eq h.base hl
  unfold projectCreate Coll.create at e
  split at e
  · cases e
  · rw [show projectsC.ns = .top .projects from rfl, hns] at e
    generalize hid : lastId kv (.top .projects) + 1 = id at *
    have ek : insertIndex [some (projIdx req.name), some (projIdx req.token)] id
        (putK (putK kv (.seq (.top .projects)) (le64 id)) (.data (.top .projects) id) (projMk now req id).enc) = kv' := congrArg Prod.snd (Except.ok.inj e)
    rw [← ek]
    unfold Coll.live
    rw [show projectsC.ns = .top .projects from rfl]
    simp only [insertIndex, projIdx]
    rw [getK_putK _ (wf_idx _ _ _) (wf_data _ _), if_neg (by intro e; cases e), getK_putK _ (wf_idx _ _ _) (wf_data _ _), if_neg (by intro e; cases e),
      getK_putK _ (wf_data _ _) (wf_data _ _), getK_putK _ (wf_seq _) (wf_data _ _)]
    by_cases hj : j = id
    · subst hj
      rw [if_pos rfl, if_pos rfl]
      exact Project.dec_enc (projMk now req j) ⟨⟨hl, hr.1, optOk_none⟩, hr.2.1, hr.2.2, Nat.two_pow_pos 64⟩
    · rw [if_neg (by intro e; cases e; exact hj rfl), if_neg (by intro e; cases e), if_neg hj]

theorem event_only {kv : Kv} (hi : (eventsC p).Inv Event.Valid kv) (hl : lastId kv (.proj p .events) + 1 < 2 ^ 64) (hp : p < 2 ^ 64) {now : Time} {r : Event}
    (hb : r.createdBy < 2 ^ 64) {j : Nat} {v : Str} (h : nameAt p (getOrCreateEvent p now r kv).2 j = some v) : nameAt p kv j = some v ∨ v = r.name := by
  unfold getOrCreateEvent at h
  split at h
  · exact .inl h
  · unfold createEvent at h
    obtain ⟨h1, h2, h3⟩ := eventCreate_ok (now := now) hp hb
    rcases create_spec (events_ok p) hi hl h1 h2 h3 with ⟨-, e⟩ | ⟨-, kv1, e, -, -, hlive⟩
    · rw [show eventCreate p now r kv = _ from e] at h
      exact .inl h
    · rw [show eventCreate p now r kv = _ from e] at h
      dsimp only at h
      have : nameAt p kv1 j = some v := by
        rw [← h]
        split
        · rfl
        · rename_i kv2 e2
          symm
          unfold nameAt
          congr 1
          exact ((dict_touches kEvents_ok _ kv1 _ kv2 e2).same (m := .coll (.proj p .events)) (by intro k hk; rw [List.mem_singleton.mp hk]; simp)).agree.live (c := eventsC p) j
      unfold nameAt at this ⊢
      rw [hlive] at this
      split at this
      · cases this; exact .inr rfl
      · exact .inl this
  · exact .inl h

/-- The events of the project are named exactly by `l`. -/
def EventsExact (p : Nat) (l : List Str) (kv : Kv) : Prop := (∀ v ∈ l, ∃ id, nameAt p kv id = some v) ∧ ∀ id v, nameAt p kv id = some v → v ∈ l

theorem EventsExact.same {p : Nat} {l : List Str} {kv kv' : Kv} (h : EventsExact p l kv) (hs : Same (.coll (.proj p .events)) kv kv') : EventsExact p l kv' := by
  have e : ∀ id, nameAt p kv' id = nameAt p kv id := fun id => by
    unfold nameAt; rw [show (eventsC p).live kv' id = _ from hs.agree.live (c := eventsC p) id]
  exact ⟨fun v hv => by obtain ⟨id, h1⟩ := h.1 v hv; exact ⟨id, by rw [e]; exact h1⟩, fun id v hv => h.2 id v (by rw [← e]; exact hv)⟩

theorem setupEvents_goes (hw : WInv S T n w) {p : Nat} (hp : p ≤ lastId w.kv (.top .projects)) (hp64 : p < 2 ^ 64) (now : Time) {done : List Str} (l : List Str)
    (hn : n + l.length < 2 ^ 62) (hx : EventsExact p done w.kv) :
    Goes S T n w l.length ok (each (setupEvent now p) l) (fun _ w' => EventsExact p (done ++ l) w'.kv ∧
      ∀ m, m ∉ [Mod.coll (.proj p .events), .dict p kEvents kEvent] → Same m w.kv w'.kv) := by
  induction l generalizing n w done with
  | nil =>
    have h : Goes S T n w 0 ok (M.pure ([] : List Event)) (fun _ w' => EventsExact p (done ++ []) w'.kv ∧
      ∀ m, m ∉ [Mod.coll (.proj p .events), .dict p kEvents kEvent] → Same m w.kv w'.kv) := Goes.pure hw ⟨by simpa using hx, fun m _ => .refl _ _⟩
    exact h
  | cons x l ih =>
    rw [List.length_cons] at hn
    have hev := hw.kv.event (by omega) p
    have hone : Goes S T n w 1 ok (setupEvent now p x) (fun _ w' => EventsExact p (done ++ [x]) w'.kv ∧
        ∀ m, m ∉ [Mod.coll (.proj p .events), .dict p kEvents kEvent] → Same m w.kv w'.kv) := by
      have hg : Goes S T n w 1 ok (setupEvent now p x) (fun ev w' => nameAt p w'.kv ev.id = some x ∧
          ∀ m, m ∉ [Mod.coll (.proj p .events), .dict p kEvents kEvent] → Same m w.kv w'.kv) :=
        event_goes (r := setupEventReq x) hw (by omega) hp hp64 (show 0 < 2 ^ 64 by decide) rfl
      refine ⟨hg.inv, hg.near, hg.good, fun a ha => ⟨⟨fun v hv => ?_, fun id v hv => ?_⟩, (hg.post a ha).2⟩⟩
      · rcases List.mem_append.mp hv with hv | hv
        · obtain ⟨id, h1⟩ := hx.1 v hv
          exact ⟨id, hg.near.1.events p id v h1⟩
        · rw [List.mem_singleton] at hv
          subst hv
          exact ⟨a.id, (hg.post a ha).1⟩
      · have hkv : (setupEvent now p x w).2.kv = (getOrCreateEvent p now (setupEventReq x) w.kv).2 := by
          unfold setupEvent callRaw
          split <;> rename_i e <;> rw [e]
        rw [hkv] at hv
        rcases event_only (hev.inv (events_ok p)) (hev.room (events_ok p)) hp64 (show (setupEventReq x).createdBy < 2 ^ 64 from (show 0 < 2 ^ 64 by decide)) hv with h | h
        · exact List.mem_append.mpr (.inl (hx.2 id v h))
        · exact List.mem_append.mpr (.inr (List.mem_singleton.mpr h))
    refine (Goes.bind hone (C := l.length + 0)
      (R := fun _ w' => EventsExact p (done ++ x :: l) w'.kv ∧ ∀ m, m ∉ [Mod.coll (.proj p .events), .dict p kEvents kEvent] → Same m w.kv w'.kv)
      fun a w1 hw1 hn1 ⟨hx1, hs1⟩ => ?_).mono (by simp; omega) fun _ _ _ _ h => h
    refine Goes.bind (ih hw1 (Nat.le_trans hp hn1.1.projects) (by omega) hx1) fun bs w2 hw2 hn2 ⟨hx2, hs2⟩ => Goes.pure hw2 ⟨?_, fun m hm => (hs1 m hm).trans (hs2 m hm)⟩
    rw [List.append_assoc] at hx2
    exact hx2

theorem PropType.coll_ne_events (ty : PropType) : ty.coll ≠ .events := by cases ty <;> simp [PropType.coll]

theorem Exact.same {p : Nat} {l : List SetupProp} {kv kv' : Kv} (h : Exact p l kv) (hs : ∀ m, PropMod p m → Same m kv kv') : Exact p l kv' := by
  have e : ∀ ty id, (propsC p ty).live kv' id = (propsC p ty).live kv id := fun ty id => (hs _ (.inl ⟨ty, rfl⟩)).agree.live (c := propsC p ty) id
  exact ⟨fun i x hi => by rw [show (propsC p x.typ).live kv' = (propsC p x.typ).live kv from funext (e x.typ)]; exact h.made i x hi,
    fun ty id r hr => h.only ty id r (by rw [← e]; exact hr),
    fun dt sh hsh => by rw [orders_same (hs _ (.inr (.inl rfl))) (shortName_ok hsh)]; exact h.next dt sh hsh⟩

/-- All properties of a new project, in the order of their creation. -/
def allSetup : List SetupProp := setupSystem ++ (setupUser ++ setupGroups)

theorem setup_ok : sidesAll [] setupSystem = true ∧ sidesAll setupSystem (setupUser ++ setupGroups) = true := by
  constructor <;> decide +kernel

/-- What a new project holds. -/
structure Born (p : Nat) (kv : Kv) : Prop where
  props : Exact p allSetup kv
  events : EventsExact p setupEvents kv
  user : Known p kv kUser ⟨0, kUser, kUser⟩
  groups : ∀ y b, getK kv (.groupName p y) = some b → y = kUser

theorem initProject_goes (hw : WInv S T n w) (hn : n + 70 < 2 ^ 62) {p : Nat} (hp : p ≤ lastId w.kv (.top .projects)) (hp64 : p < 2 ^ 64) (now : Time)
    (h1 : Exact p [] w.kv) (h2 : EventsExact p [] w.kv) (h3 : ∀ y, getK w.kv (.groupName p y) = none) (h4 : gnCount p w.kv = 0) :
    Goes S T n w 68 ok (initProject S.sys now p) (fun _ w' => Born p w'.kv) := by
  have l1 : setupSystem.length = 10 := by decide +kernel
  have l2 : (setupUser ++ setupGroups).length = 52 := by decide +kernel
  have nm : ∀ m, m ∈ [Mod.coll (.proj p .events), .dict p kEvents kEvent] → ¬ PropMod p m := by
    intro m hm hc
    simp only [List.mem_cons, List.not_mem_nil, or_false] at hm
    rcases hm with rfl | rfl
    · rcases hc with ⟨ty, e⟩ | e | e
      · injection e with e; injection e with _ e; exact PropType.coll_ne_events ty e.symm
      · cases e
      · cases e
    · rcases hc with ⟨ty, e⟩ | e | e <;> cases e
  have np : ¬ PropMod p (.grpNames p) := by rintro (⟨ty, e⟩ | e | e) <;> cases e
  unfold initProject
  have q1 := setupProps_goes (ok := ok) hw hp hp64 now (done := []) setupSystem (by omega) setup_ok.1 h1
  rw [l1] at q1
  refine Goes.bind (B := 10) (C := 58) (R := fun _ w' => Born p w'.kv) q1 fun _ w1 hw1 hn1 ⟨x1, s1⟩ => ?_
  have hp1 := Nat.le_trans hp hn1.1.projects
  refine Goes.bind (B := 5) (C := 53) (R := fun _ w' => Born p w'.kv) (setupEvents_goes (ok := ok) hw1 hp1 hp64 now (done := []) setupEvents (by simp [setupEvents]; omega)
    (h2.same (s1 _ (nm _ (by simp))))) fun _ w2 hw2 hn2 ⟨x2, s2⟩ => ?_
  have hp2 := Nat.le_trans hp1 hn2.1.projects
  have q3 := setupProps_goes (ok := ok) hw2 hp2 hp64 now (done := setupSystem) (setupUser ++ setupGroups) (by omega) setup_ok.2
    (x1.same fun m hm => s2 m fun hc => nm m hc hm)
  rw [l2] at q3
  refine Goes.bind (B := 52) (C := 1) (R := fun _ w' => Born p w'.kv) q3 fun _ w3 hw3 hn3 ⟨x3, s3⟩ => ?_
  have hp3 := Nat.le_trans hp2 hn3.1.projects
  have hsame : Same (.grpNames p) w.kv w3.kv := ((s1 _ np).trans (s2 _ (by simp))).trans (s3 _ np)
  have hk3 : ∀ y, getK w3.kv (.groupName p y) = none := fun y => (hsame (.groupName p y) trivial rfl).trans (h3 y)
  have hc3 : gnCount p w3.kv = 0 := by
    rw [← h4]; unfold gnCount; rw [hsame (.groupNamesSeq p) trivial rfl]
  refine Goes.bind (B := 1) (C := 0) (R := fun _ w' => Born p w'.kv) (groupName_goes (ok := ok) hw3 (by omega) hp3 (ks := [kUser]) (x := kUser)
    (fun _ => ⟨by simp, fun y b hb => by rw [hk3] at hb; cases hb⟩) (by simp) kUser)
    fun g w4 hw4 hn4 ⟨_, g1, _, g2, g3, g4⟩ => Goes.pure hw4 ⟨?_, ?_, ?_, ?_⟩
  · exact x3.same fun m hm => g4 m fun hc => by rw [List.mem_singleton] at hc; subst hc; exact np hm
  · exact (x2.same (s3 _ (nm _ (by simp)))).same (g4 _ (by simp))
  · have := g3 (hk3 kUser)
    rw [hc3] at this
    rw [← this]; exact g1
  · intro y b hb
    rcases g2 y b hb with h | h
    · exact h
    · rw [hk3] at h; cases h

/-- Whether a name or token is in use. -/
def ProjTaken (kv : Kv) (req : Project) : Prop :=
  ∃ j, req.name ∈ keysAt (projectsC.live kv) j ∨ req.token ∈ keysAt (projectsC.live kv) j

theorem each_dict_goes (hw : WInv S T n w) {p : Nat} (hp : p ≤ lastId w.kv (.top .projects)) (hp64 : p < 2 ^ 64) (v : Str) (l : List Nat) (hn : n + l.length < 2 ^ 62)
    (hc : '/' ∉ kProjectId) :
    Goes S T n w l.length ok (each (fun g => call (dictCreateKey p (groupCol g) kProjectId p v)) l) (fun _ w' => ∀ m, (∀ t d, m ≠ Mod.dict p t d) → Same m w.kv w'.kv) := by
  induction l generalizing n w with
  | nil =>
    have h : Goes S T n w 0 ok (M.pure ([] : List Unit)) (fun _ w' => ∀ m, (∀ t d, m ≠ Mod.dict p t d) → Same m w.kv w'.kv) := Goes.pure hw fun m _ => .refl _ _
    exact h
  | cons g l ih =>
    rw [List.length_cons] at hn
    refine (Goes.bind (dictPut_goes (ok := ok) hw (by omega) hp ⟨slash_groupCol g, hc⟩ hp64 v) (C := l.length + 0)
      (R := fun _ w' => ∀ m, (∀ t d, m ≠ Mod.dict p t d) → Same m w.kv w'.kv) fun a w1 hw1 hn1 hs1 => ?_).mono (by simp; omega) fun _ _ _ _ h => h
    refine Goes.bind (ih hw1 (Nat.le_trans hp hn1.1.projects) (by omega)) fun bs w2 hw2 hn2 hs2 => Goes.pure hw2 fun m hm => (hs1 m ?_).trans (hs2 m hm)
    rw [List.mem_singleton]
    exact hm _ _

theorem createProject_spec (hw : WInv S T n w) (hn : n + 100 < 2 ^ 62) (now : Time) {req : Project} (hr : (Req.projectCreate (Q := Q) now req).Ok)
    (ht : T req.name = false ∧ T req.token = true) :
    (ProjTaken w.kv req ∧ createProject S.sys now req w = (.error (.metadata .alreadyExists), w)) ∨
    (¬ ProjTaken w.kv req ∧ ∃ w', createProject S.sys now req w = (.ok (projMk now req (lastId w.kv (.top .projects) + 1)), w') ∧ WInv S T (n + 75) w' ∧
      Ext w.kv w'.kv ∧ lastId w'.kv (.top .projects) = lastId w.kv (.top .projects) + 1 ∧ Born (lastId w.kv (.top .projects) + 1) w'.kv ∧
      ∀ j, projectsC.live w'.kv j = if j = lastId w.kv (.top .projects) + 1 then some (projMk now req j).norm else projectsC.live w.kv j) := by
  obtain ⟨hpi, hle⟩ := hw.kv.pinv (by omega)
  rcases projectCreate_spec hpi (by omega) (now := now) hr ht.1 ht.2 with ⟨h1, e⟩ | ⟨h1, kv', e, hpi', hlast⟩
  · refine .inl ⟨h1, ?_⟩
    show M.bind _ _ _ = _
    unfold M.bind call callRaw runCall
    rw [e]
  · refine .inr ⟨fun ⟨j, hj⟩ => h1 j hj, ?_⟩
    obtain ⟨hw1, hext1⟩ := hw.benign (by omega) (r := .projectCreate now req) hr ⟨by simp [Req.mods, modProject], ht, trivial⟩
    have ekv : Req.exec S (.projectCreate now req) w.kv = kv' := by
      show (runCall (projectCreate now req) w.kv).2 = kv'
      unfold runCall; rw [e]
    have hsame : ∀ m, m ∉ (Req.projectCreate (Q := Q) now req).mods → Same m w.kv kv' := fun m hm => ekv ▸ exec_same S (r := .projectCreate now req) hr hm w.kv
    rw [ekv] at hw1 hext1
    have hlive := projectCreate_live hpi (by omega) hr e
    generalize hp : lastId w.kv (.top .projects) + 1 = p at *
    have hfresh : ∀ k : Key, k.WF → modProject k.mod = some p → getK kv' k = none := by
      intro k hk hm
      have hne : k.mod ∉ (Req.projectCreate (Q := Q) now req).mods := by
        intro hc
        simp only [Req.mods, List.mem_singleton] at hc
        rw [hc] at hm
        cases hm
      rw [hsame _ hne k hk rfl]
      exact hw.kv.fresh p (by omega) k hk hm
    have hkv : kProjectId = "project_id".toList := by unfold kProjectId; rfl
    have hc : '/' ∉ kProjectId := by rw [hkv]; decide
    have hp1 : p ≤ lastId ({ w with kv := kv' } : World).kv (.top .projects) := by dsimp only; omega
    have hg : Goes S T (n + 1) { w with kv := kv' } 74 True
        ((call (dictCreateKey p kEvents kProjectId p req.name)).bind fun _ =>
          (each (fun g => call (dictCreateKey p (groupCol g) kProjectId p req.name)) (List.range 5)).bind fun _ =>
          (initProject S.sys now p).bind fun _ => M.pure (projMk now req p)) (fun a w' => a = projMk now req p ∧ Born p w'.kv) := by
      refine Goes.bind (B := 1) (C := 73) (dictPut_goes hw1 (by omega) hp1 ⟨kEvents_ok.1, hc⟩ (by omega) _) fun _ w2 hw2 hn2 hs2 => ?_
      have hp2 := Nat.le_trans hp1 hn2.1.projects
      refine Goes.bind (B := 5) (C := 68) (each_dict_goes hw2 hp2 (by omega) req.name (List.range 5) (by simp; omega) hc) fun _ w3 hw3 hn3 hs3 => ?_
      have hp3 := Nat.le_trans hp2 hn3.1.projects
      have hk : ∀ k : Key, k.WF → modProject k.mod = some p → (∀ t d, k.mod ≠ .dict p t d) → getK w3.kv k = none := by
        intro k hk hm hd
        rw [(hs3 k.mod hd) k hk rfl, (hs2 k.mod (by rw [List.mem_singleton]; exact hd _ _)) k hk rfl]
        exact hfresh k hk hm
      have hlv : ∀ ty id, (propsC p ty).live w3.kv id = none := by
        intro ty id
        unfold Coll.live
        rw [show getK w3.kv (.data (propsC p ty).ns id) = none from hk (.data (.proj p ty.coll) id) (wf_data _ _) rfl (by intro t d e; cases e)]
        rfl
      refine Goes.bind (B := 68) (C := 0) (initProject_goes hw3 (by omega) hp3 (by omega) now ⟨fun i x hi => by simp at hi, fun ty id r hr => ?_, fun dt sh hsh => ?_⟩
        ⟨by simp, fun id v hv => ?_⟩ (fun y => ?_) ?_) fun _ w4 hw4 hn4 hb => Goes.pure hw4 ⟨rfl, hb⟩
      · rw [hlv] at hr; cases hr
      · unfold nextOrder
        rw [hk (.orderSeq p sh) (shortName_ok hsh) rfl (by intro t d e; cases e)]
        rfl
      · unfold nameAt Coll.live at hv
        rw [show getK w3.kv (.data (eventsC p).ns id) = none from hk (.data (.proj p .events) id) (wf_data _ _) rfl (by intro t d e; cases e)] at hv
        cases hv
      · exact hk (.groupName p y) trivial rfl (by intro t d e; cases e)
      · unfold gnCount
        rw [hk (.groupNamesSeq p) trivial rfl (by intro t d e; cases e)]
    have ec : createProject S.sys now req w = ((call (dictCreateKey p kEvents kProjectId p req.name)).bind fun _ =>
          (each (fun g => call (dictCreateKey p (groupCol g) kProjectId p req.name)) (List.range 5)).bind fun _ =>
          (initProject S.sys now p).bind fun _ => M.pure (projMk now req p)) { w with kv := kv' } := by
      show M.bind (call (projectCreate now req)) _ w = _
      have : call (projectCreate now req) w = (.ok (projMk now req p), { w with kv := kv' }) := by
        unfold call callRaw runCall
        rw [e]
      unfold M.bind
      rw [this]
      rfl
    rw [ec]
    obtain ⟨a, ha⟩ := hg.good trivial
    obtain ⟨rfl, hb⟩ := hg.post a ha
    refine ⟨_, Prod.ext ha rfl, hg.inv, hext1.trans hg.near.1, ?_, hb, fun j => ?_⟩
    · exact (hg.near.2.last).trans hlast
    · exact (AgreeOn.live (c := projectsC) hg.near.2 j).trans (hlive j)

end OptiPrism.Ingest
