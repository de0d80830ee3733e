import Verif.Meta.PropCache
import Verif.Meta.UpdateProps
import Verif.Meta.Members

/-!
# C124: The caches of properties agree with the store
-/

namespace OptiPrism.Meta

variable {Q : Type}

/-! ## Records as they are kept -/

theorem Property.encO_norm (r : Property) : r.norm.encO = r.encO := by
  unfold Property.encO
  show r.dataType.num.map _ = r.dataType.num.map _
  congr 1
  funext dt
  have : r.norm.fields dt = r.fields dt := by
    unfold Property.fields Property.norm
    simp only [normList_getD]
    congr 1
    simp only [putTime, putOptTime, Time.trunc, Option.map_map]
    rfl
  rw [this]

theorem PropUpd.apply_norm (q : PropUpd) (now : Time) (r : Property) : (q.apply now r.norm).norm = (q.apply now r).norm := by
  unfold PropUpd.apply Property.norm
  simp only [Time.trunc_trunc]
  congr 1
  cases q.tags <;> simp

theorem PropUpd.encO_apply (q : PropUpd) (now : Time) (r : Property) : (q.apply now r.norm).encO = (q.apply now r).encO := by
  rw [← Property.encO_norm, q.apply_norm, Property.encO_norm]

/-- The caches agree with the store: an entry is the record of its identifier or name, but for what the store does not keep. -/
structure Coherent (c : Caches) (kv : Kv) : Prop where
  byId : ∀ ty p id r, c.byId ty p id = some r → (propsC p ty).live kv id = some r.norm
  byName : ∀ ty p n r, c.byName ty p n = some r → (propsC p ty).live kv r.id = some r.norm ∧ r.name = n

theorem Coherent.evict {c c' : Caches} {kv : Kv} (h : Coherent c kv) (he : c.Evict c') : Coherent c' kv :=
  ⟨fun ty p id r e => h.byId ty p id r (he.1 ty p id r e), fun ty p n r e => h.byName ty p n r (he.2 ty p n r e)⟩

theorem Coherent.same {c : Caches} {kv kv' : Kv} (h : Coherent c kv) (he : ∀ p ty id, (propsC p ty).live kv' id = (propsC p ty).live kv id) :
    Coherent c kv' :=
  ⟨fun ty p id r e => by rw [he]; exact h.byId ty p id r e, fun ty p n r e => by rw [he]; exact h.byName ty p n r e⟩

/-- A record is put into both caches and becomes the record of its identifier. -/
theorem Coherent.put {c : Caches} {kv kv' : Kv} (h : Coherent c kv) {p : Nat} {ty : PropType} {r : Property}
    (hne : ∀ p' ty', ¬ (ty' = ty ∧ p' = p) → ∀ j, (propsC p' ty').live kv' j = (propsC p' ty').live kv j)
    (hl : ∀ j, (propsC p ty).live kv' j = if j = r.id then some r.norm else (propsC p ty).live kv j)
    (hn : ∀ x, (propsC p ty).live kv r.id = some x → x.name = r.name) : Coherent (c.put p ty r) kv' := by
  constructor
  · intro ty' p' id x e
    simp only [Caches.put] at e
    split at e
    · rename_i hc
      obtain ⟨rfl, rfl, rfl⟩ := hc
      cases e
      rw [hl, if_pos rfl]
    · rename_i hc
      have h1 := h.byId _ _ _ _ e
      by_cases hk : ty' = ty ∧ p' = p
      · obtain ⟨rfl, rfl⟩ := hk
        rw [hl, if_neg fun e => hc ⟨rfl, rfl, e⟩]
        exact h1
      · rw [hne _ _ hk]
        exact h1
  · intro ty' p' n x e
    simp only [Caches.put] at e
    split at e
    · rename_i hc
      obtain ⟨rfl, rfl, rfl⟩ := hc
      cases e
      rw [hl, if_pos rfl]
      exact ⟨rfl, rfl⟩
    · rename_i hc
      obtain ⟨h1, h2⟩ := h.byName _ _ _ _ e
      refine ⟨?_, h2⟩
      by_cases hk : ty' = ty ∧ p' = p
      · obtain ⟨rfl, rfl⟩ := hk
        rw [hl]
        split
        · rename_i hid
          rw [hid] at h1
          have : x.norm.name = r.name := hn _ h1
          exact absurd ⟨rfl, rfl, h2.symm.trans this⟩ hc
        · exact h1
      · rw [hne _ _ hk]
        exact h1

theorem Coherent.pop {c : Caches} {kv kv' : Kv} (h : Coherent c kv) {p : Nat} {ty : PropType} {r : Property}
    (hne : ∀ p' ty', ¬ (ty' = ty ∧ p' = p) → ∀ j, (propsC p' ty').live kv' j = (propsC p' ty').live kv j)
    (hl : ∀ j, j ≠ r.id → (propsC p ty).live kv' j = (propsC p ty).live kv j)
    (hn : ∀ x, (propsC p ty).live kv r.id = some x → x.name = r.name) : Coherent (c.pop p ty r) kv' := by
  constructor
  · intro ty' p' id x e
    simp only [Caches.pop] at e
    split at e
    · cases e
    · rename_i hc
      have h1 := h.byId _ _ _ _ e
      by_cases hk : ty' = ty ∧ p' = p
      · obtain ⟨rfl, rfl⟩ := hk
        rw [hl _ fun e => hc ⟨rfl, rfl, e⟩]
        exact h1
      · rw [hne _ _ hk]
        exact h1
  · intro ty' p' n x e
    simp only [Caches.pop] at e
    split at e
    · cases e
    · rename_i hc
      obtain ⟨h1, h2⟩ := h.byName _ _ _ _ e
      refine ⟨?_, h2⟩
      by_cases hk : ty' = ty ∧ p' = p
      · obtain ⟨rfl, rfl⟩ := hk
        rw [hl _ ?_]
        · exact h1
        · intro hid
          rw [hid] at h1
          have : x.norm.name = r.name := hn _ h1
          exact hc ⟨rfl, rfl, h2.symm.trans this⟩
      · rw [hne _ _ hk]
        exact h1

/-! ## Reading -/

theorem map_norm_stored {kv : Kv} {p : Nat} {ty : PropType} (h : Reach (propsC p ty) Property.Valid kv) (id : Nat) :
    ((propsC p ty).getById id kv).map Property.norm = (propsC p ty).getById id kv := by
  rw [getById_eq (h.inv (props_ok p ty))]
  cases e : (propsC p ty).live kv id with
  | none => rfl
  | some r => exact congrArg Except.ok (h.fixed (props_ok p ty) Property.norm_norm e)

theorem cGetById_eq {c : Caches} {kv : Kv} (h : Coherent c kv) {p : Nat} {ty : PropType} (hr : Reach (propsC p ty) Property.Valid kv) (id : Nat) :
    (cGetById c p ty id kv).map Property.norm = (propsC p ty).getById id kv := by
  unfold cGetById
  cases e : c.byId ty p id with
  | none => exact map_norm_stored hr id
  | some r =>
    rw [getById_eq (hr.inv (props_ok p ty)), h.byId _ _ _ _ e]
    rfl

theorem cGetByName_eq {c : Caches} {kv : Kv} (h : Coherent c kv) {p : Nat} {ty : PropType} (hr : Reach (propsC p ty) Property.Valid kv) (n : Str) :
    (cGetByName c p ty n kv).map Property.norm = (propsC p ty).getBy .name n kv := by
  unfold cGetByName
  cases e : c.byName ty p n with
  | none =>
    unfold Coll.getBy
    show Except.map _ (match getIndex (.idx (.proj p ty.coll) .name n) kv with | .error e => _ | .ok id => _) =
      match getIndex (.idx (.proj p ty.coll) .name n) kv with | .error e => _ | .ok id => _
    cases getIndex (.idx (.proj p ty.coll) .name n) kv with
    | error e => rfl
    | ok id => exact cGetById_eq h hr id
  | some r =>
    obtain ⟨h1, h2⟩ := h.byName _ _ _ _ e
    symm
    rw [getBy_eq (hr.inv (props_ok p ty)) (i := (.name, fun r => some r.name)) (by simp [propsC])]
    exact .inl ⟨r.id, r.norm, h1, congrArg some h2, rfl⟩

/-! ## Writing -/

theorem cCreate_eq (sys : Str → Str) (p : Nat) (ty : PropType) (now : Time) (req : Property) (f : Except Err Unit) (s : Caches × Kv) :
    ((cCreate sys p ty now req f s).1, (cCreate sys p ty now req f s).2.2) = runCall (propCreate sys p ty now req f) s.2 := by
  unfold cCreate runCall propCreate
  dsimp only
  by_cases hc : clashInsert [some (.idx (.proj p ty.coll) .name req.name), req.displayName.map (.idx (.proj p ty.coll) .displayName)] s.2 = true
  · simp only [hc, if_true]
  · simp only [hc]
    cases nextSeq (.seq (.proj p ty.coll)) s.2 with
    | error e => rfl
    | ok a =>
      cases req.dataType.shortName with
      | none => rfl
      | some sh =>
        dsimp only
        cases nextZeroSeq (.orderSeq p sh) a.2 with
        | error e => rfl
        | ok b =>
          dsimp only
          generalize Property.encO _ = o
          cases o with
          | none => rfl
          | some b => cases f <;> rfl

theorem cCreate_cache {sys : Str → Str} {p : Nat} {ty : PropType} {now : Time} {req : Property} {f : Except Err Unit} {s : Caches × Kv}
    (hf : f = .ok () ∧ req.dataType.num.isSome) :
    (∃ e, cCreate sys p ty now req f s = (.error e, s)) ∨
    (∃ r kv', cCreate sys p ty now req f s = (.ok r, s.1.put p ty r, kv')) := by
  obtain ⟨rfl, hn⟩ := hf
  unfold cCreate
  dsimp only
  split
  · exact .inl ⟨_, rfl⟩
  · split
    · exact .inl ⟨_, rfl⟩
    · split
      · exact .inl ⟨_, rfl⟩
      · split
        · exact .inl ⟨_, rfl⟩
        · split
          · rename_i hb
            simp only [Property.encO, Option.map_eq_none_iff] at hb
            rw [hb] at hn
            cases hn
          · exact .inr ⟨_, _, rfl⟩

/-- Creating does not fail after the record has been put into the caches. -/
def Settles : Req Q → Prop
  | .propCreate _ _ _ r f | .propGetOrCreate _ _ _ r f => f = .ok () ∧ r.dataType.num.isSome
  | _ => True

theorem other_live {E : Env Q} {r : Req Q} (hr : r.Ok) (kv : Kv) {p : Nat} {ty : PropType} (hm : Mod.coll (.proj p ty.coll) ∉ r.mods) (j : Nat) :
    (propsC p ty).live (r.exec E kv) j = (propsC p ty).live kv j :=
  AgreeOn.live (c := propsC p ty) (exec_agree E hr hm kv) j

theorem create_coherent {E : Env Q} {c : Caches} {kv : Kv} (h : Coherent c kv) {p : Nat} {ty : PropType} {now : Time} {req : Property}
    {f : Except Err Unit} (hre : Reach (propsC p ty) Property.Valid kv) (hr : (Req.propCreate (Q := Q) p ty now req f).Ok)
    (hs : Settles (Req.propCreate (Q := Q) p ty now req f)) :
    Coherent (cCreate E.sys p ty now req f (c, kv)).2.1 (cCreate E.sys p ty now req f (c, kv)).2.2 := by
  have hne := fun p' ty' (hk : ¬ (ty' = ty ∧ p' = p)) j => other_live (E := E) hr kv (p := p') (ty := ty') (by
    simp only [Req.mods, List.mem_cons, Mod.coll.injEq, Ns.proj.injEq, reduceCtorEq, List.not_mem_nil, or_false, false_or, not_or, not_and]
    exact ⟨fun e1 e2 => hk ⟨PropType.coll_inj e2, e1⟩, fun _ => propType_coll_ne ty'⟩) j
  have heq := cCreate_eq E.sys p ty now req f (c, kv)
  have hkv : (cCreate E.sys p ty now req f (c, kv)).2.2 = (Req.propCreate p ty now req f : Req Q).exec E kv := congrArg Prod.snd heq
  rw [hkv]
  rcases cCreate_cache (sys := E.sys) (p := p) (ty := ty) (now := now) (req := req) (s := (c, kv)) hs with ⟨e, he⟩ | ⟨r, kv', he⟩
  · rw [he] at hkv ⊢
    rw [← hkv]
    exact h
  · rw [he] at heq hkv ⊢
    have hc : runCall (propCreate E.sys p ty now req f) kv = (.ok r, kv') := heq.symm
    have hc' : propCreate E.sys p ty now req f kv = .ok (r, kv') := by
      unfold runCall at hc
      split at hc
      · rename_i a kv1 e
        cases hc
        exact e
      · cases hc
    obtain ⟨o, kv1, ho, hn, e1, hag⟩ := propCreate_inv hc'
    obtain ⟨hr1, hr2, -, hr4⟩ := create_done (props_ok p ty) (hre.inv (props_ok p ty)) (hre.room (props_ok p ty))
      (propCreate_ok ho hr.1 hr.2.1 hr.2.2 hn) e1
    have hid : r.id = lastId kv (propsC p ty).ns + 1 := by rw [hr1]; rfl
    refine h.put hne ?_ ?_
    · intro j
      rw [← hkv]
      show (propsC p ty).live kv' j = _
      rw [AgreeOn.live (c := propsC p ty) hag, hr4, hid]
      split
      · rename_i hj
        rw [hr1, hj]
      · rfl
    · intro x hx
      rw [hid, hr2] at hx
      cases hx

theorem exec_coherent {E : Env Q} {n : Nat} {c : Caches} {kv : Kv} (hh : Hist E n kv) (hn : n < 2 ^ 62) (h : Coherent c kv) {r : Req Q} (hr : r.Ok)
    (hs : Settles r) : (cExec E r (c, kv)).2 = r.exec E kv ∧ Coherent (cExec E r (c, kv)).1 (r.exec E kv) := by
  have hother : (∀ p (ty : PropType), Mod.coll (.proj p ty.coll) ∉ r.mods) → Coherent c (r.exec E kv) := fun hm =>
    h.same fun p ty id => other_live hr kv (hm p ty) id
  have hne : ∀ ty : PropType, ty.coll ≠ .events ∧ ty.coll ≠ .customEvents ∧ ty.coll ≠ .dashboards ∧ ty.coll ≠ .reports ∧ ty.coll ≠ .global := by
    intro ty; cases ty <;> simp [PropType.coll]
  cases r
  case propCreate p ty now req f =>
    have hkv : (cExec E (.propCreate p ty now req f) (c, kv)).2 = (Req.propCreate p ty now req f : Req Q).exec E kv :=
      congrArg Prod.snd (cCreate_eq E.sys p ty now req f (c, kv))
    refine ⟨hkv, ?_⟩
    rw [← hkv]
    exact create_coherent h (hist_props hh hn p ty) hr hs
  case propGetOrCreate p ty now req f =>
    have hre := hist_props hh hn p ty
    have hg := cGetByName_eq h hre req.name
    have he : (Req.propGetOrCreate p ty now req f : Req Q).exec E kv = (runCall (propGetOrCreate E.sys p ty now req f) kv).2 := rfl
    rw [he]
    show (cGetOrCreate E.sys p ty now req f (c, kv)).2.2 = _ ∧ Coherent (cGetOrCreate E.sys p ty now req f (c, kv)).2.1 _
    unfold cGetOrCreate
    dsimp only
    cases e : cGetByName c p ty req.name kv with
    | ok r =>
      rw [e] at hg
      unfold runCall propGetOrCreate
      rw [← hg]
      exact ⟨rfl, h⟩
    | error e' =>
      rw [e] at hg
      unfold runCall propGetOrCreate
      rw [← hg]
      cases e' <;> first
        | exact ⟨rfl, h⟩
        | (have hkv := congrArg Prod.snd (cCreate_eq E.sys p ty now req f (c, kv))
           refine ⟨hkv, ?_⟩
           have := create_coherent (E := E) h hre (now := now) (req := req) (f := f) hr hs
           dsimp only at hkv
           rw [hkv] at this
           exact this)
  case propUpdate p ty id now q =>
    have hre := hist_props hh hn p ty
    have hg := cGetById_eq h hre id
    have hoth := fun p' ty' (hk : ¬ (ty' = ty ∧ p' = p)) j => other_live (E := E) hr kv (p := p') (ty := ty') (by
      simp only [Req.mods, List.mem_cons, Mod.coll.injEq, Ns.proj.injEq, List.not_mem_nil, or_false, not_and]
      exact fun e1 e2 => hk ⟨PropType.coll_inj e2, e1⟩) j
    have he : (Req.propUpdate p ty id now q : Req Q).exec E kv = (runCall (propUpdate p ty id now q) kv).2 := rfl
    show (cUpdate p ty id now q (c, kv)).2.2 = _ ∧ Coherent (cUpdate p ty id now q (c, kv)).2.1 _
    unfold cUpdate
    dsimp only
    cases e : cGetById c p ty id kv with
    | error e' =>
      rw [e] at hg
      rw [he]
      unfold runCall propUpdate Coll.update
      rw [← hg]
      exact ⟨rfl, h⟩
    | ok r =>
      rw [e] at hg
      have hlive : (propsC p ty).live kv id = some r.norm := by
        rw [getById_eq (hre.inv (props_ok p ty))] at hg
        cases hl : (propsC p ty).live kv id with
        | none => rw [hl] at hg; cases hg
        | some x => rw [hl] at hg; injection hg with hg; rw [hg]
      have hid : r.id = id := (Inv.live_id (hre.inv (props_ok p ty)) hlive).1
      have hpairs : q.pairs p ty r.norm = q.pairs p ty r := rfl
      have hval := (Inv.live_id (hre.inv (props_ok p ty)) hlive).2.2.2
      obtain ⟨b, hb⟩ : ∃ b, (q.apply now r).encO = some b := by
        have hv := (propUpdate_ok (p := p) (ty := ty) (id := id) (now := now) (q := q) hr).2.2.1 _ hval
        exact Option.isSome_iff_exists.mp (by rw [Property.encO, Option.isSome_map]; exact hv.enc)
      dsimp only
      by_cases hcl : clashUpdate (q.pairs p ty r) kv = true
      · rw [if_pos hcl, he]
        unfold runCall propUpdate Coll.update
        rw [← hg]
        dsimp only [Except.map]
        rw [hpairs, if_pos hcl]
        exact ⟨rfl, h⟩
      · rw [if_neg hcl, hb]
        dsimp only
        have hu : propUpdate p ty id now q kv = .ok (q.apply now r.norm, updateIndex (q.pairs p ty r) id
            (putK kv (.data (.proj p ty.coll) (q.apply now r).id) b)) := by
          unfold propUpdate Coll.update
          rw [← hg]
          dsimp only [Except.map]
          rw [hpairs, if_neg hcl]
          have : (propsC p ty).enc (q.apply now r.norm) = b := by
            show ((q.apply now r.norm).encO).getD [] = b
            rw [q.encO_apply, hb]; rfl
          rw [this]
          rfl
        have hx : (Req.propUpdate p ty id now q : Req Q).exec E kv = updateIndex (q.pairs p ty r) id
            (putK kv (.data (.proj p ty.coll) (q.apply now r).id) b) := by
          rw [he]; unfold runCall; rw [hu]
        rw [hx] at hoth ⊢
        refine ⟨rfl, ?_⟩
        obtain ⟨x, hx1, -, -, hx4⟩ := update_done (props_ok p ty) (hre.inv (props_ok p ty)) (propUpdate_ok (Q := Q) hr) hu
        rw [hlive] at hx1
        cases hx1
        have hid' : (q.apply now r).id = id := hid
        refine h.put hoth ?_ ?_
        · intro j
          rw [hx4, hid', q.apply_norm]
        · intro x hx
          rw [hid', hlive] at hx
          cases hx
          rfl
  case propDelete p ty id =>
    have hre := hist_props hh hn p ty
    have hg := cGetById_eq h hre id
    have hoth := fun p' ty' (hk : ¬ (ty' = ty ∧ p' = p)) j => other_live (E := E) hr kv (p := p') (ty := ty') (by
      simp only [Req.mods, List.mem_cons, Mod.coll.injEq, Ns.proj.injEq, List.not_mem_nil, or_false, not_and]
      exact fun e1 e2 => hk ⟨PropType.coll_inj e2, e1⟩) j
    have he : (Req.propDelete p ty id : Req Q).exec E kv = (runCall ((propsC p ty).delete id) kv).2 := rfl
    show (cDelete p ty id (c, kv)).2.2 = _ ∧ Coherent (cDelete p ty id (c, kv)).2.1 _
    unfold cDelete
    dsimp only
    rcases delete_spec (props_ok p ty) (hre.inv (props_ok p ty)) id with ⟨h1, h2⟩ | ⟨r0, kv', h1, h2, -, -, h3⟩
    · cases e : cGetById c p ty id kv with
      | error e' => rw [he]; unfold runCall; rw [h2]; exact ⟨rfl, h⟩
      | ok r =>
        rw [e, getById_eq (hre.inv (props_ok p ty)), h1] at hg
        cases hg
    · cases e : cGetById c p ty id kv with
      | error e' =>
        rw [e, getById_eq (hre.inv (props_ok p ty)), h1] at hg
        cases hg
      | ok r =>
        rw [e, getById_eq (hre.inv (props_ok p ty)), h1] at hg
        injection hg with hg
        subst hg
        have hid : r.id = id := (Inv.live_id (hre.inv (props_ok p ty)) h1).1
        have hk : kv' = deleteIndex (keysOf (.proj p ty.coll) (propsC p ty).ixs r) (delK kv (.data (.proj p ty.coll) id)) := by
          unfold Coll.delete at h2
          rw [getById_eq (hre.inv (props_ok p ty)), h1] at h2
          injection h2 with h2
          injection h2 with _ h2
          exact h2.symm
        have hx : (Req.propDelete p ty id : Req Q).exec E kv = kv' := by rw [he]; unfold runCall; rw [h2]
        dsimp only
        rw [hx] at hoth ⊢
        refine ⟨hk.symm, h.pop hoth ?_ ?_⟩
        · intro j hj
          rw [h3, if_neg (by rw [← hid]; exact hj)]
        · intro x hx
          rw [hid, h1] at hx
          cases hx
          rfl
  all_goals
    refine ⟨rfl, hother ?_⟩
    intro p ty
    obtain ⟨h1, h2, h3, h4, h5⟩ := hne ty
    simp [Req.mods, h1, h2, h3, h4, h5]

/-! ## Histories -/

/-- The states of the metadata with the caches: requests, one after the other, and evictions. -/
inductive CacheHist (E : Env Q) : Nat → Caches → Kv → Prop
  | start : CacheHist E 0 .empty []
  | step {n : Nat} {c : Caches} {kv : Kv} (r : Req Q) : CacheHist E n c kv → r.Ok → Settles r →
      CacheHist E (n + 1) (cExec E r (c, kv)).1 (cExec E r (c, kv)).2
  | evict {n : Nat} {c c' : Caches} {kv : Kv} : CacheHist E n c kv → c.Evict c' → CacheHist E n c' kv

theorem CacheHist.both {E : Env Q} {n : Nat} {c : Caches} {kv : Kv} (h : CacheHist E n c kv) (hn : n < 2 ^ 62) : Hist E n kv ∧ Coherent c kv := by
  induction h with
  | start => exact ⟨.start, ⟨(fun _ _ _ _ e => nomatch e), (fun _ _ _ _ e => nomatch e)⟩⟩
  | step r _ hr hs ih =>
    obtain ⟨h1, h2⟩ := ih (by omega)
    obtain ⟨h3, h4⟩ := exec_coherent h1 (by omega) h2 hr hs
    rw [h3]
    exact ⟨h1.step r hr, h4⟩
  | evict _ he ih => exact ⟨(ih hn).1, (ih hn).2.evict he⟩

/-- C124 (partial): whatever has been requested, and whatever has been evicted, the store is one that the same requests reach without
caches, and reading a property by identifier or name answers what the store holds, but for the fractions of seconds and the
difference between no tags and an empty list of tags, which the store does not keep. Missing: creations that fail after the
record has been put into the caches (`Settles`). -/
theorem C124_partial {E : Env Q} {n : Nat} {c : Caches} {kv : Kv} (h : CacheHist E n c kv) (hn : n < 2 ^ 62) :
    Hist E n kv ∧ ∀ p ty, (∀ id, (cGetById c p ty id kv).map Property.norm = (propsC p ty).getById id kv) ∧
      ∀ name, (cGetByName c p ty name kv).map Property.norm = (propsC p ty).getBy .name name kv := by
  obtain ⟨h1, h2⟩ := h.both hn
  exact ⟨h1, fun p ty => ⟨cGetById_eq h2 (hist_props h1 hn p ty), cGetByName_eq h2 (hist_props h1 hn p ty)⟩⟩

/-- Every request does to the store what it does without caches. -/
theorem C124_requests_partial {E : Env Q} {n : Nat} {c : Caches} {kv : Kv} (h : CacheHist E n c kv) (hn : n < 2 ^ 62) (r : Req Q) (hr : r.Ok)
    (hs : Settles r) : (cExec E r (c, kv)).2 = r.exec E kv := by
  obtain ⟨h1, h2⟩ := h.both hn
  exact (exec_coherent h1 hn h2 hr hs).1

/-- The answers of the requests about properties are those without caches, creating exactly, the others but for what the store does
not keep. -/
theorem C124_answers_partial {E : Env Q} {n : Nat} {c : Caches} {kv : Kv} (h : CacheHist E n c kv) (hn : n < 2 ^ 62) (p : Nat) (ty : PropType)
    (now : Time) (id : Nat) :
    (∀ req f, (cCreate E.sys p ty now req f (c, kv)).1 = (runCall (propCreate E.sys p ty now req f) kv).1) ∧
    (∀ req f, (cGetOrCreate E.sys p ty now req f (c, kv)).1.map Property.norm =
      (runCall (propGetOrCreate E.sys p ty now req f) kv).1.map Property.norm) ∧
    (∀ q, (Req.propUpdate (Q := Q) p ty id now q).Ok → (cUpdate p ty id now q (c, kv)).1.map Property.norm =
      (runCall (propUpdate p ty id now q) kv).1.map Property.norm) ∧
    (cDelete p ty id (c, kv)).1.map Property.norm = (runCall ((propsC p ty).delete id) kv).1.map Property.norm := by
  obtain ⟨h1, h2⟩ := h.both hn
  have hre := hist_props h1 hn p ty
  refine ⟨fun req f => congrArg Prod.fst (cCreate_eq E.sys p ty now req f (c, kv)), fun req f => ?_, fun q hr => ?_, ?_⟩
  · have hg := cGetByName_eq h2 hre req.name
    unfold cGetOrCreate runCall propGetOrCreate
    dsimp only
    rw [← hg]
    cases e : cGetByName c p ty req.name kv with
    | ok r => exact congrArg Except.ok (Property.norm_norm r).symm
    | error e' =>
      cases e' <;> first
        | rfl
        | exact congrArg (Except.map Property.norm) (congrArg Prod.fst (cCreate_eq E.sys p ty now req f (c, kv)))
  · have hg := cGetById_eq h2 hre id
    unfold cUpdate runCall propUpdate Coll.update
    dsimp only
    rw [← hg]
    cases e : cGetById c p ty id kv with
    | error e' => rfl
    | ok r =>
      rw [e] at hg
      have hlive : (propsC p ty).live kv id = some r.norm := by
        rw [getById_eq (hre.inv (props_ok p ty))] at hg
        cases hl : (propsC p ty).live kv id with
        | none => rw [hl] at hg; cases hg
        | some x => rw [hl] at hg; injection hg with hg; rw [hg]
      have hval := (Inv.live_id (hre.inv (props_ok p ty)) hlive).2.2.2
      obtain ⟨b, hb⟩ : ∃ b, (q.apply now r).encO = some b := by
        have hv := (propUpdate_ok (p := p) (ty := ty) (id := id) (now := now) (q := q) hr).2.2.1 _ hval
        exact Option.isSome_iff_exists.mp (by rw [Property.encO, Option.isSome_map]; exact hv.enc)
      have hpairs : q.pairs p ty r.norm = q.pairs p ty r := rfl
      dsimp only [Except.map]
      rw [hpairs]
      by_cases hcl : clashUpdate (q.pairs p ty r) kv = true
      · simp only [hcl, if_true]
      · simp only [hcl, hb]
        exact congrArg Except.ok (q.apply_norm now r).symm
  · have hg := cGetById_eq h2 hre id
    unfold cDelete runCall Coll.delete
    dsimp only
    rw [← hg]
    cases e : cGetById c p ty id kv with
    | error e' => rfl
    | ok r => exact congrArg Except.ok (Property.norm_norm r).symm

/-! ## Where they do not -/

def exNamed (name : Str) : Property :=
  ⟨0, ⟨0, 0⟩, 1, none, none, 0, none, name, none, none, 0, .event, .string, .enabled, false, true, false, false, false, none⟩

def exSnake : Str → Str := fun x => x

/-- C124 fails, creating: the table refuses the column, the transaction is dropped and the request refused, but the property stays in
the caches: it is found by name and by identifier although the store has none. The next property created gets the same identifier and the
same column, and creating the first one again, as every event that carries it does, succeeds without creating anything: the values
of both go to one column. -/
theorem C124_phantom_violated :
    let s1 := cCreate exSnake 1 .event ⟨7, 0⟩ (exNamed ['a']) (.error .internal) (.empty, [])
    let s2 := cCreate exSnake 1 .event ⟨8, 0⟩ (exNamed ['b']) (.ok ()) s1.2
    let s3 := cGetOrCreate exSnake 1 .event ⟨9, 0⟩ (exNamed ['a']) (.ok ()) s2.2
    s1.1.toOption = none ∧ s1.2.2 = [] ∧
    ((cGetByName s1.2.1 1 .event ['a'] s1.2.2).toOption.map Property.name) = some ['a'] ∧
    ((propsC 1 .event).getBy .name ['a'] s1.2.2).toOption = none ∧
    s3.2.2 = s2.2.2 ∧
    s2.1.toOption.map Property.name = some ['b'] ∧ s3.1.toOption.map Property.name = some ['a'] ∧
    s2.1.toOption.map Property.id = s3.1.toOption.map Property.id ∧
    s2.1.toOption.map (Property.columnName exSnake) = s3.1.toOption.map (Property.columnName exSnake) := by
  refine ⟨?_, ?_, ?_, ?_, ?_, ?_, ?_, ?_, ?_⟩ <;> decide +kernel

/-- C124 fails, times: the time of creation changes when the property is evicted. -/
theorem C124_time_violated :
    let s := cCreate exSnake 1 .event ⟨7, 5⟩ (exNamed ['a']) (.ok ()) (.empty, [])
    (cGetById s.2.1 1 .event 1 s.2.2).toOption.map Property.createdAt = some ⟨7, 5⟩ ∧
    (cGetById .empty 1 .event 1 s.2.2).toOption.map Property.createdAt = some ⟨7, 0⟩ := by
  constructor <;> decide +kernel

/-- C124 as wanted: also after refused creations, and exactly. -/
def C124_full (E : Env Q) : Prop := ∀ (rs : List (Req Q)), (∀ r ∈ rs, r.Ok) → ∀ p ty name,
  let s := rs.foldl (fun s r => cExec E r s) (Caches.empty, [])
  cGetByName s.1 p ty name s.2 = (propsC p ty).getBy .name name s.2

/-- A state with a cached, an evicted and an updated property. -/
example (bc : Bincode Unit) : ∃ c kv, CacheHist ⟨bc, exSnake⟩ 3 c kv ∧ (c.byId .event 1 2).isSome ∧
    (c.byName .event 1 ['b']).isNone ∧ ((propsC 1 .event).getBy .name ['b'] kv).toOption.isSome := by
  refine ⟨_, _, (((CacheHist.start.step (.propCreate 1 .event ⟨8, 3⟩ (exNamed ['b']) (.ok ())) ?_ ?_).evict (c' := .empty) ?_).step
    (.propCreate 1 .event ⟨7, 5⟩ (exNamed ['a']) (.ok ())) ?_ ?_).step (.propUpdate 1 .event 2 ⟨9, 1⟩ ⟨3, none, some (some ['A']), none, none, none, none, none, none, none, none, none, none⟩) ?_ trivial,
    ?_, ?_, ?_⟩
  · exact ⟨by decide, by decide, fun g h => nomatch h⟩
  · exact ⟨rfl, rfl⟩
  · exact ⟨(fun _ _ _ _ e => nomatch e), (fun _ _ _ _ e => nomatch e)⟩
  · exact ⟨by decide, by decide, fun g h => nomatch h⟩
  · exact ⟨rfl, rfl⟩
  · exact ⟨by decide, (fun g h => nomatch h), (fun g h => nomatch h)⟩
  · simp only [cExec]; decide +kernel
  · simp only [cExec]; decide +kernel
  · simp only [cExec]; decide +kernel

end OptiPrism.Meta
