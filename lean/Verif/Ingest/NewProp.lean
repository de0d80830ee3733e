import Verif.Ingest.Worlds

/-!
# Creating properties
-/

namespace OptiPrism.Ingest

open OptiPrism.Meta
open OptiPrism.Storage (Bytes Value NamedValue Tbl InsertErr ColType Field Row typeOk validate fromLE fromLE_toLE)

variable {Q : Type} {S : Meta.Env Q} {T : Str → Bool}

theorem encO_isSome {r : Property} (h : r.dataType.num.isSome) : ∃ b, r.encO = some b := by
  obtain ⟨x, hx⟩ := Option.isSome_iff_exists.mp h
  exact ⟨_, by rw [Property.encO, hx]; rfl⟩

theorem nextZeroSeq_succeeds {k : Key} {kv : Kv} (h : ∀ v, getK kv k = some v → v.length = 8) : ∃ o kv', nextZeroSeq k kv = .ok (o, kv') := by
  unfold nextZeroSeq
  cases hg : getK kv k with
  | none => exact ⟨_, _, rfl⟩
  | some v =>
    dsimp only
    rw [show readU64 v = .ok (fromLE v) by unfold readU64; rw [if_pos (h v hg)]]
    exact ⟨_, _, rfl⟩

/-- A property with a new name is created. -/
theorem propCreate_succeeds {sys : Str → Str} {p : Nat} {ty : PropType} {now : Time} {req : Property} {n : Nat} {kv : Kv}
    (hr : Reach (propsC p ty) Property.Valid kv) (ho : OrderInv p n kv) {sh : Str} (hsh : req.dataType.shortName = some sh) (hnum : req.dataType.num.isSome)
    (hname : ∀ id r, (propsC p ty).live kv id = some r → r.name ≠ req.name)
    (hdisp : ∀ d, req.displayName = some d → ∀ id r, (propsC p ty).live kv id = some r → r.displayName ≠ some d) :
    ∃ a kv', propCreate sys p ty now req (.ok ()) kv = .ok (a, kv') := by
  have hi := hr.inv (props_ok p ty)
  unfold propCreate
  dsimp only
  rw [if_neg]
  · rw [show nextSeq (.seq (.proj p ty.coll)) kv = _ from nextSeq_eq hi (hr.room (props_ok p ty))]
    dsimp only
    rw [hsh]
    dsimp only
    obtain ⟨o, kv2, e⟩ := nextZeroSeq_succeeds (k := .orderSeq p sh) (kv := putK kv (.seq (propsC p ty).ns) (le64 (lastId kv (propsC p ty).ns + 1))) (by
      intro v hv
      rw [getK_putK _ (wf_seq _) (show (Key.orderSeq p sh).WF from shortName_ok hsh), if_neg (by intro h; cases h)] at hv
      exact ho.len sh v (shortName_ok hsh) hv)
    rw [e]
    dsimp only
    split
    · rename_i hb
      obtain ⟨b, hb'⟩ := encO_isSome (r := { req with id := lastId kv (propsC p ty).ns + 1, createdAt := now, updatedAt := none, updatedBy := none, projectId := p, order := o }) hnum
      rw [hb'] at hb
      cases hb
    · exact ⟨_, _, rfl⟩
  · intro hc
    have hc : clashInsert (keysOf (propsC p ty).ns (propsC p ty).ixs req) kv = true := hc
    rw [clashInsert_iff hi req] at hc
    obtain ⟨i, hm, x, id, r', h1, h2, h3⟩ := hc
    simp only [propsC, List.mem_cons, List.not_mem_nil, or_false] at hm
    rcases hm with rfl | rfl
    · cases h1; exact hname id r' h2 (Option.some.inj h3)
    · exact hdisp x h1 id r' h2 h3

theorem getBy_name {n : Nat} {kv : Kv} (h : KInv S T n kv) (hn : n < 2 ^ 62) (p : Nat) (ty : PropType) (x : Str) :
    (∃ id r, (propsC p ty).live kv id = some r ∧ r.name = x ∧ (propsC p ty).getBy .name x kv = .ok r) ∨
    ((∀ id r, (propsC p ty).live kv id = some r → r.name ≠ x) ∧ (propsC p ty).getBy .name x kv = .error .notFound) := by
  have hi := (h.prop hn p ty).inv (props_ok p ty)
  rcases (getBy_eq hi (i := (.name, fun r => some r.name)) (by simp [propsC]) x _).mp rfl with ⟨id, r, h1, h2, h3⟩ | ⟨h1, h2⟩
  · exact .inl ⟨id, r, h1, Option.some.inj h2, h3⟩
  · exact .inr ⟨fun id r hl e => h1 id r hl (congrArg some e), h2⟩

/-- The record of a name is the one that is live. -/
theorem name_live {n : Nat} {kv : Kv} (h : KInv S T n kv) (hn : n < 2 ^ 62) {p : Nat} {ty : PropType} {id : Nat} {r : Property}
    (hl : (propsC p ty).live kv id = some r) : (propsC p ty).getBy .name r.name kv = .ok r := by
  have hi := (h.prop hn p ty).inv (props_ok p ty)
  exact (getBy_eq hi (i := (.name, fun r => some r.name)) (by simp [propsC]) r.name _).mpr (.inl ⟨id, r, hl, rfl, rfl⟩)

/-- The step that adds a property. -/
theorem KInv.newProp {n : Nat} {kv : Kv} (h : KInv S T n kv) (hn : n + 1 < 2 ^ 62) {p : Nat} {ty : PropType} {now : Time} {req : Property}
    (hp : p ≤ lastId kv (.top .projects)) (hok : (Req.propGetOrCreate (Q := Q) p ty now req (.ok ())).Ok) (hty : req.typ = ty) {sh : Str}
    (hsh : req.dataType.shortName = some sh) (hnum : req.dataType.num.isSome)
    (hname : ∀ id r, (propsC p ty).live kv id = some r → r.name ≠ req.name)
    (hdisp : ∀ d, req.displayName = some d → ∀ id r, (propsC p ty).live kv id = some r → r.displayName ≠ some d)
    (hruled : ∀ id, Ruled (propMk p now req (nextOrder p sh kv) id)) :
    ∃ id kv', propGetOrCreate S.sys p ty now req (.ok ()) kv = .ok (propMk p now req (nextOrder p sh kv) id, kv') ∧
      (propsC p ty).live kv id = none ∧
      (∀ ty' j, (propsC p ty').live kv' j = if ty' = ty ∧ j = id then some (propMk p now req (nextOrder p sh kv) id).norm else (propsC p ty').live kv j) ∧
      (∀ sh', '/' ∉ sh' → nextOrder p sh' kv' = if sh' = sh then nextOrder p sh kv + 1 else nextOrder p sh' kv) ∧
      (∀ m, m ∉ [Mod.coll (.proj p ty.coll), .order p, .coll (.proj p .global)] → Same m kv kv') ∧
      KInv S T (n + 1) kv' ∧ Ext kv kv' := by
  have hr := h.prop (by omega) p ty
  have ho := h.orderInv (by omega) p
  obtain ⟨a, kv', e⟩ := propCreate_succeeds (sys := S.sys) (now := now) hr ho hsh hnum hname hdisp
  have eg : propGetOrCreate S.sys p ty now req (.ok ()) kv = .ok (a, kv') := by
    unfold propGetOrCreate
    rcases getBy_name h (by omega) p ty req.name with ⟨id, r, h1, h2, h3⟩ | ⟨h1, h2⟩
    · exact absurd h2 (hname id r h1)
    · rw [h2]; exact e
  obtain ⟨sh', o, kv1, hsh', hol, -, eo, es, eother, ec, hag⟩ := propCreate_order e
  cases hsh.symm.trans hsh'
  have hw := shortName_ok hsh
  obtain ⟨ea, hnone, -, hlive⟩ := create_done (props_ok p ty) (hr.inv (props_ok p ty)) (hr.room (props_ok p ty)) (propCreate_ok hol hok.1 hok.2.1 hok.2.2 hnum) ec
  have eo' : o = nextOrder p sh kv := by
    have hle := ho.le sh hw
    unfold nextOrder at hle ⊢
    cases hv : getK kv (.orderSeq p sh) with
    | none => rw [hv] at eo; exact eo
    | some v =>
      rw [hv] at eo hle
      rw [eo]
      exact Nat.mod_eq_of_lt (by simp only at hle; omega)
  subst ea
  subst eo'
  have hex : (Req.propGetOrCreate (Q := Q) p ty now req (.ok ())).exec S kv = kv' := run_ok eg
  have hsame : ∀ m, m ∉ (Req.propGetOrCreate (Q := Q) p ty now req (.ok ())).mods → Same m kv kv' := by
    intro m hm; have := exec_same S hok hm kv; rwa [hex] at this
  have hoth : ∀ p' ty', ¬ (p' = p ∧ ty' = ty) → ∀ j, (propsC p' ty').live kv' j = (propsC p' ty').live kv j := by
    intro p' ty' hne j
    refine (hsame (.coll (.proj p' ty'.coll)) ?_).agree.live (c := propsC p' ty') j
    simp only [Req.mods, List.mem_cons, List.not_mem_nil, or_false, Mod.coll.injEq, Ns.proj.injEq, reduceCtorEq, propType_coll_ne, false_or, and_false]
    exact fun ⟨h1, h2⟩ => hne ⟨h1, PropType.coll_inj h2⟩
  have hlive' : ∀ ty' j, (propsC p ty').live kv' j = if ty' = ty ∧ j = lastId kv (propsC p ty).ns + 1 then
      some (propMk p now req (nextOrder p sh kv) (lastId kv (propsC p ty).ns + 1)).norm else (propsC p ty').live kv j := by
    intro ty' j
    by_cases ht : ty' = ty
    · subst ht
      rw [hag.live (c := propsC p ty'), hlive]
      by_cases hj : j = lastId kv (propsC p ty').ns + 1
      · rw [if_pos hj, if_pos ⟨rfl, hj⟩, hj]
      · rw [if_neg hj, if_neg (fun h => hj h.2)]
    · rw [hoth p ty' (fun h => ht h.2), if_neg (fun h => ht h.1)]
  have hnext : ∀ sh', '/' ∉ sh' → nextOrder p sh' kv' = if sh' = sh then nextOrder p sh kv + 1 else nextOrder p sh' kv := by
    intro s hs
    split
    · rename_i he
      subst he
      conv => lhs; unfold nextOrder
      rw [es]
      generalize nextOrder p s kv = o at hol ⊢
      show fromLE (le64 o) + 1 = o + 1
      unfold le64
      rw [fromLE_toLE _ _ (by omega)]
    · rename_i hne; unfold nextOrder; rw [eother s hs hne]
  have hlast : lastId kv' (.top .projects) = lastId kv (.top .projects) :=
    (hsame (.coll (.top .projects)) (by simp [Req.mods])).agree.last
  have hext : Ext kv kv' := by
    refine ⟨fun p' ty' id r hl => ⟨r, ?_, .refl r⟩, fun p' => ?_, fun p' => ?_, fun p' sh' hs => ?_, by omega⟩
    · by_cases hc : p' = p ∧ ty' = ty
      · obtain ⟨rfl, rfl⟩ := hc
        rw [hlive', if_neg]
        · exact hl
        · rintro ⟨-, rfl⟩; rw [hnone] at hl; cases hl
      · rw [hoth p' ty' hc]; exact hl
    · have := h.event (by omega) p'
      have := exec_kept (E := S) (p := p') hok (by trivial) (this.inv (events_ok p')) (this.room (events_ok p'))
      rwa [hex] at this
    · have := (exec_gn S hok (h.gn p')).2
      rwa [hex] at this
    · by_cases hpp : p' = p
      · subst hpp
        rw [hnext sh' hs]
        split
        · rename_i he; subst he; omega
        · omega
      · rw [orders_same (hsame (.order p') (by simp [Req.mods, hpp])) hs]; exact Nat.le_refl _
  obtain ⟨m, hm, hruns⟩ := h.runs
  refine ⟨_, kv', eg, hnone, hlive', hnext, fun m hm => hsame m hm, ⟨⟨m + 1, by omega, ?_⟩, fun p' ty' id r hl => ?_, fun p' g s b gv hg hd => ?_, ?_, fun p' hp' k hk hm' => ?_⟩, hext⟩
  · rw [← hex]
    exact Runs.snoc hruns hok ⟨trivial, fun _ _ => trivial, trivial⟩
  · by_cases hc : p' = p ∧ ty' = ty
    · obtain ⟨rfl, rfl⟩ := hc
      rw [hlive'] at hl
      split at hl
      · cases hl
        exact ⟨(SameProp.norm _).ruled (hruled _), hty⟩
      · exact h.ruled _ _ _ _ hl
    · rw [hoth p' ty' hc] at hl; exact h.ruled _ _ _ _ hl
  · rw [hsame (.grp p' g) (by simp [Req.mods]) (.real p' g s) trivial rfl] at hg
    exact (h.vals p' g s b gv hg hd).ext hext
  · rw [← hex]; exact exec_u64 hok h.u64
  · rw [hsame k.mod ?_ k hk rfl]
    · exact h.fresh p' (by omega) k hk hm'
    · simp only [Req.mods, List.mem_cons, List.not_mem_nil, or_false]
      rintro (h | h | h) <;> rw [h] at hm' <;> cases hm' <;> omega

end OptiPrism.Ingest
