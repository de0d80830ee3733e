import Verif.Ingest.WorldInv

/-!
# Creating properties in worlds
-/

namespace OptiPrism.Ingest

open OptiPrism.Meta
open OptiPrism.Storage (Bytes Value NamedValue Tbl InsertErr ColType Field Row KeyValue typeOk)

variable {Q : Type} {S : Meta.Env Q} {T : Str → Bool}

/-- What `setupProp` and `resolveProperty` have in common. -/
def makeProp (sys : Str → Str) (now : Time) (p : Nat) (ty : PropType) (req : Property) : M Property := fun w =>
  match call (propGetOrCreate sys p ty now req (.ok ())) w with
  | (.error e, w') => (.error e, w')
  | (.ok r, w') => (.ok r, match (propsC p ty).getBy .name req.name w.kv with | .ok _ => w' | .error _ => addColumns sys r w')

theorem setupProp_make (sys : Str → Str) (now : Time) (p : Nat) (x : SetupProp) : setupProp sys now p x = makeProp sys now p x.typ x.req := rfl

theorem resolveProperty_make (sys : Str → Str) (now : Time) (p : Nat) (ty : PropType) (x : Str × PropValue) :
    resolveProperty sys now p ty x = (makeProp sys now p ty (propReq ty x.1 x.2)).bind fun r => M.pure (r, x.2) := by
  funext w
  unfold resolveProperty makeProp M.bind M.pure
  dsimp only
  cases h : call (propGetOrCreate sys p ty now (propReq ty x.1 x.2) (.ok ())) w with
  | mk a b => cases a <;> rfl

/-- What a new property leaves. -/
structure NewProp (sys : Str → Str) (p : Nat) (ty : PropType) (now : Time) (req : Property) (sh : Str) (w : World) (a : Property) (w' : World) (id : Nat) : Prop where
  eq : a = propMk p now req (nextOrder p sh w.kv) id
  free : ∀ id r, (propsC p ty).live w.kv id = some r → r.name ≠ req.name
  unused : (propsC p ty).live w.kv id = none
  live : ∀ ty' j, (propsC p ty').live w'.kv j = if ty' = ty ∧ j = id then some a.norm else (propsC p ty').live w.kv j
  next : ∀ sh', '/' ∉ sh' → nextOrder p sh' w'.kv = if sh' = sh then nextOrder p sh w.kv + 1 else nextOrder p sh' w.kv
  rest : ∀ m, m ∉ [Mod.coll (.proj p ty.coll), .order p, .coll (.proj p .global)] → Same m w.kv w'.kv

theorem makeProp_goes {n : Nat} {w : World} {ok : Prop} (hw : WInv S T n w) (hn : n + 1 < 2 ^ 62) {p : Nat} {ty : PropType} {now : Time} {req : Property}
    (hp : p ≤ lastId w.kv (.top .projects)) (hok : (Req.propGetOrCreate (Q := Q) p ty now req (.ok ())).Ok) (hty : req.typ = ty) {sh : Str}
    (hsh : req.dataType.shortName = some sh) (hnum : req.dataType.num.isSome)
    (hdisp : ∀ d, req.displayName = some d → ∀ id r, (propsC p ty).live w.kv id = some r → r.displayName ≠ some d)
    (hruled : ∀ id, Ruled (propMk p now req (nextOrder p sh w.kv) id)) :
    Goes S T n w 1 ok (makeProp S.sys now p ty req) (fun a w' =>
      (w' = w ∧ ∃ id, (propsC p ty).live w.kv id = some a ∧ a.name = req.name) ∨ ∃ id, NewProp S.sys p ty now req sh w a w' id) := by
  rcases getBy_name hw.kv (by omega) p ty req.name with ⟨id, r, h1, h2, h3⟩ | ⟨h1, h2⟩
  · have e : makeProp S.sys now p ty req w = (.ok r, w) := by
      unfold makeProp call callRaw runCall propGetOrCreate
      rw [h3]
    exact ⟨by rw [e]; exact hw.mono (by omega), by rw [e]; exact .refl _, fun _ => ⟨r, by rw [e]⟩, fun a ha => by
      rw [e] at ha ⊢; cases ha; exact .inl ⟨rfl, id, h1, h2⟩⟩
  · obtain ⟨id, kv', e1, g1, g2, g3, g4, g5, g6⟩ := hw.kv.newProp hn hp hok hty hsh hnum h1 hdisp hruled
    have hr := hruled id
    generalize ha : propMk p now req (nextOrder p sh w.kv) id = a at e1 g2 hr
    have e : makeProp S.sys now p ty req w = (.ok a, addColumns S.sys a { w with kv := kv' }) := by
      unfold makeProp call callRaw runCall
      rw [e1, h2]
    have hkv : (addColumns S.sys a { w with kv := kv' }).kv = kv' := addColumns_kv ..
    refine ⟨?_, ?_, fun _ => ⟨a, by rw [e]⟩, fun b hb => ?_⟩
    · rw [e]
      refine ⟨by rw [hkv]; exact g5, fun t => addColumns_tab (w := { w with kv := kv' }) hw.tabs hr t, fun p' ty' j r hl => ?_⟩
      rw [hkv] at hl
      dsimp only
      by_cases hc : p' = p
      · subst hc
        rw [g2] at hl
        split at hl
        · rename_i he
          obtain ⟨rfl, rfl⟩ := he
          cases hl
          have := addColumns_new (sys := S.sys) (w := { w with kv := kv' }) hr
          refine ⟨this.1.same (.norm _), fun g hg => (this.2 g ?_).same (.norm _)⟩
          rw [← ha]; exact hty.trans hg
        · obtain ⟨c1, c2⟩ := hw.cols _ _ _ _ hl
          exact ⟨addColumns_old c1, fun g hg => addColumns_old (c2 g hg)⟩
      · have : (propsC p' ty').live kv' j = (propsC p' ty').live w.kv j :=
          (g4 (.coll (.proj p' ty'.coll)) (by simp [hc])).agree.live (c := propsC p' ty') j
        rw [this] at hl
        obtain ⟨c1, c2⟩ := hw.cols _ _ _ _ hl
        exact ⟨addColumns_old c1, fun g hg => addColumns_old (c2 g hg)⟩
    · rw [e]
      dsimp only
      rw [hkv]
      exact ⟨g6, (g4 _ (by simp)).agree⟩
    · rw [e] at hb ⊢
      cases hb
      refine .inr ⟨id, ⟨ha.symm, h1, g1, ?_, ?_, ?_⟩⟩
      · dsimp only; rw [hkv]; exact g2
      · dsimp only; rw [hkv]; exact g3
      · dsimp only; rw [hkv]; exact g4

end OptiPrism.Ingest
