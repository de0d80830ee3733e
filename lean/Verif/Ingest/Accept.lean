import Verif.Ingest.SetupProject
import Verif.Ingest.TransformProps

/-!
# Accepted requests

The parts of the executors on worlds made by creating projects and ingesting.
-/

namespace OptiPrism.Ingest

open OptiPrism.Meta
open OptiPrism.Storage (Bytes Value NamedValue Tbl InsertErr ColType Field Row KeyValue typeOk fromLE)

variable {Q : Type} {S : Meta.Env Q} {T : Str → Bool} {n : Nat} {w : World} {ok : Prop}

def PropValue.isDate : PropValue → Bool
  | .date _ => true
  | _ => false

/-- Spec: the value is of the type of the property. -/
def Suits (r : Property) : PropValue → Prop
  | .string _ => r.dataType = .string
  | .number n => r.dataType = .decimal ∨ (r.dataType = .int64 ∧ (n.toInt 64).isSome)
  | .bool _ => r.dataType = .boolean
  | .date _ => False

theorem Suits.not_date {r : Property} {v : PropValue} (h : Suits r v) : v.isDate = false := by cases v <;> simp_all [Suits, PropValue.isDate]

theorem Suits.same {r r' : Property} {v : PropValue} (h : Suits r v) (hs : SameProp r r') : Suits r' v := by
  cases v <;> simp_all [Suits, hs.dt]

/-- What setup leaves and ingestion keeps. -/
structure Ready (p : Nat) (kv : Kv) : Prop where
  props : ∀ x ∈ allSetup, ∃ id r, (propsC p x.typ).live kv id = some r ∧ r.name = x.name ∧ r.dataType = x.dt ∧ r.isSystem = x.system ∧ r.dictType = x.dict
  order : ∀ sh, DType.string.shortName = some sh → 39 ≤ nextOrder p sh kv
  session : ∃ id, nameAt p kv id = some kSessionBegin

theorem Ready.ext {p : Nat} {kv kv' : Kv} (h : Ready p kv) (he : Ext kv kv') : Ready p kv' := by
  refine ⟨fun x hx => ?_, fun sh hsh => Nat.le_trans (h.order sh hsh) (he.orders p sh (shortName_ok hsh)), ?_⟩
  · obtain ⟨id, r, h1, h2, h3, h4, h5⟩ := h.props x hx
    obtain ⟨r', g1, g2⟩ := he.props p x.typ id r h1
    exact ⟨id, r', g1, g2.name.trans h2, g2.dt.trans h3, g2.sys.trans h4, g2.dictType.trans h5⟩
  · obtain ⟨id, h1⟩ := h.session
    exact ⟨id, he.events p id _ h1⟩

theorem Born.ready {p : Nat} {kv : Kv} (h : Born p kv) : Ready p kv where
  props x hx := by
    obtain ⟨i, hi⟩ := List.getElem?_of_mem hx
    obtain ⟨id, r, h1, h2, -⟩ := h.props.made i x hi
    exact ⟨id, r, h1, h2.name, h2.dt, h2.system, h2.dict⟩
  order sh hsh := by
    rw [h.props.next .string sh hsh]
    decide +kernel
  session := h.events.1 _ (by simp [setupEvents])

/-- A cell of a system column of the events. -/
theorem sysCell (hk : KeepsSys S.sys) (hw : WInv S T n w) {p : Nat} (hr : Ready p w.kv) {x : SetupProp} (hx : x ∈ setupSystem) {v : Value} {ct : ColType}
    (hc : sysTypes.lookup x.name = some ct) (hv : typeOk v ct = true) : CellFits S.sys (w.tbl kEvents) (nv x.name v) := by
  obtain ⟨id, r, h1, h2, -, h4, -⟩ := hr.props x (List.mem_append.mpr (.inl hx))
  have hsys : x.system = true := by
    have : ∀ y ∈ setupSystem, y.system = true := by decide +kernel
    exact this x hx
  rw [hsys] at h4
  refine ⟨r, ?_, (hw.cols _ _ _ _ h1).1, ct, ?_, hv⟩
  · show String.ofList x.name = _
    unfold Property.columnName
    rw [h4, if_pos rfl, h2, hk _ (lookup_mem (by rw [hc]; rfl))]
  · unfold rule
    rw [h4, if_pos rfl, h2, hc]

theorem column_ok {sys : Str → Str} (hk : KeepsSys sys) {r : Property} (h : Ruled r) : '/' ∉ r.columnName sys := by
  by_cases hs : r.isSystem
  · have hm : r.name ∈ sysTypes.map Prod.fst := lookup_mem (by have := h.some; unfold rule at this; rwa [if_pos hs] at this)
    unfold Property.columnName
    rw [if_pos hs, hk _ hm]
    have : ∀ x ∈ sysTypes.map Prod.fst, '/' ∉ x := by decide +kernel
    exact this _ hm
  · have := slash_columnName (sys := fun _ => []) (by simp) r
    unfold Property.columnName at this ⊢
    rwa [if_neg hs] at this ⊢

theorem value_goes (hk : KeepsSys S.sys) (hw : WInv S T n w) (hn : n + 1 < 2 ^ 62) {p : Nat} (hp : p ≤ lastId w.kv (.top .projects)) {t : Str} (ht : '/' ∉ t) {r : Property}
    {v : PropValue} (hr : Ruled r) (hs : ok → Suits r v) :
    Goes S T n w 1 ok (propertyToValue S.sys p t (r, v)) (fun gv _ => v.isDate = false → Typed (toStore gv) r ∧ gv.Present) := by
  unfold propertyToValue
  dsimp only
  cases hd : r.isDictionary with
  | true =>
    rw [if_pos rfl]
    have hdt := hr.text hd
    cases v with
    | string s =>
      refine Goes.bind (B := 1) (C := 0) (dictGet_goes hw hn hp ⟨ht, column_ok hk hr⟩ s) fun id w1 hw1 _ _ => ?_
      have hsome := hr.dict
      rw [hd] at hsome
      obtain ⟨dt, hdt⟩ := Option.isSome_iff_exists.mp hsome.symm
      rw [hdt]
      refine Goes.pure hw1 fun _ => ?_
      have hcol := hr.col
      unfold colType at hcol
      rw [hdt] at hcol
      cases dt <;> exact ⟨⟨_, hcol.symm, rfl⟩, by simp [dictCell, GValue.Present]⟩
    | _ => exact (Goes.fail hw fun hok => by have := hs hok; simp [Suits, hdt] at this).mono (by omega) fun _ _ _ _ h => h
  | false =>
    rw [if_neg (by simp)]
    refine (Goes.except hw (fun hok => ?_) fun gv e => ?_).mono (C := 1) (by omega) fun _ _ _ _ h => h
    · have := hs hok
      cases v with
      | string s => have : r.dataType = .string := this; rw [this]; exact ⟨_, rfl⟩
      | bool b => have : r.dataType = .boolean := this; rw [this]; exact ⟨_, rfl⟩
      | date t => exact this.elim
      | number m =>
        rcases this with e | ⟨e, h2⟩
        · rw [e]; exact ⟨_, rfl⟩
        · obtain ⟨i, hi⟩ := Option.isSome_iff_exists.mp h2
          rw [e]
          refine ⟨.int64 (some i), ?_⟩
          show unwrapInt _ _ = _
          unfold unwrapInt
          rw [hi]
    · intro hdate
      have hnone : r.dictType = none := by
        have := hr.dict
        rw [hd] at this
        exact Option.isSome_eq_false_iff.mp this.symm |> Option.isNone_iff_eq_none.mp
      have hcol := hr.col
      unfold colType at hcol
      rw [hnone] at hcol
      dsimp only at hcol
      unfold plainCell unwrapInt at e
      generalize r.dataType = dt at e hcol
      split at e
      case h_8 => cases hdate
      case h_9 => cases e
      all_goals first
        | (cases e; exact ⟨⟨_, hcol.symm, rfl⟩, by simp [GValue.Present]⟩)
        | (split at e
           · cases e
           · cases e; exact ⟨⟨_, hcol.symm, rfl⟩, by simp [GValue.Present]⟩)

theorem nodup_key {α β : Type} {l : List (α × β)} (h : (l.map Prod.fst).Nodup) {x y : α × β} (hx : x ∈ l) (hy : y ∈ l) (e : x.1 = y.1) : x = y := by
  induction l with
  | nil => cases hx
  | cons a l ih =>
    rw [List.map_cons, List.nodup_cons] at h
    rcases List.mem_cons.mp hx with h1 | h1 <;> rcases List.mem_cons.mp hy with h2 | h2
    · rw [h1, h2]
    · exact (h.1 (List.mem_map.mpr ⟨y, h2, by rw [← e, h1]⟩)).elim
    · exact (h.1 (List.mem_map.mpr ⟨x, h1, by rw [e, h2]⟩)).elim
    · exact ih h.2 h1 h2

/-- A resolved property: the one stored, with a value that suits it if all goes well. -/
structure PropFor (ok : Prop) (p : Nat) (ty : PropType) (b : Property × PropValue) (kv : Kv) : Prop where
  live : ∃ r, (propsC p ty).live kv b.1.id = some r ∧ SameProp b.1 r
  ruled : Ruled b.1
  suits : ok → Suits b.1 b.2
  id64 : b.1.id < 2 ^ 64

theorem PropFor.ext {p : Nat} {ty : PropType} {b : Property × PropValue} {kv kv' : Kv} (h : PropFor ok p ty b kv) (he : Ext kv kv') : PropFor ok p ty b kv' := by
  obtain ⟨r, h1, h2⟩ := h.live
  obtain ⟨r', g1, g2⟩ := he.props _ _ _ _ h1
  exact ⟨⟨r', g1, h2.trans g2⟩, h.ruled, h.suits, h.id64⟩

theorem PropFor.of_live {n : Nat} {kv : Kv} (hw : KInv S T n kv) (hn : n < 2 ^ 62) {p : Nat} {ty : PropType} {id : Nat} {r : Property} (hl : (propsC p ty).live kv id = some r)
    {v : PropValue} (hs : ok → Suits r v) : PropFor ok p ty (r, v) kv := by
  obtain ⟨e, -, h3, -⟩ := Inv.live_id ((hw.prop hn p ty).inv (props_ok p ty)) hl
  have e : r.id = id := e
  have hlt := (hw.prop hn p ty).room (props_ok p ty)
  exact ⟨⟨r, by dsimp only; rw [e]; exact hl, .refl r⟩, (hw.ruled _ _ _ _ hl).1, hs, by
    show r.id < _
    rw [e]
    exact Nat.lt_of_le_of_lt h3 (by omega)⟩

theorem propReq_ruled {p : Nat} {ty : PropType} {now : Time} {x : Str} {v : PropValue} {o id : Nat} (ho : (propReq ty x v).dataType = .string → 39 ≤ o) :
    Ruled (propMk p now (propReq ty x v) o id) := by
  cases v with
  | string s =>
    have := ho rfl
    have hr : rule (propMk p now (propReq ty x (.string s)) o id) = some .int64 := by
      show (if (28 ≤ o ∧ o < 39) then _ else _) = _
      rw [if_neg (by omega)]
    exact ⟨by rw [hr]; rfl, by rw [hr]; rfl, rfl, fun _ => rfl⟩
  | _ => exact ⟨rfl, rfl, rfl, fun h => by cases h⟩

theorem propReq_suits {p : Nat} {ty : PropType} {now : Time} {x : Str} {v : PropValue} {o id : Nat} (hv : v.isDate = false) :
    Suits (propMk p now (propReq ty x v) o id) v := by
  cases v with
  | date t => cases hv
  | number m => exact .inl rfl
  | _ => rfl

/-- The names of the groups of a project are as they were. -/
def SameNames (p : Nat) (kv kv' : Kv) : Prop := ∀ x, getK kv' (.groupName p x) = getK kv (.groupName p x)

theorem SameNames.refl (p : Nat) (kv : Kv) : SameNames p kv kv := fun _ => rfl

theorem SameNames.trans {p : Nat} {a b c : Kv} (h : SameNames p a b) (h' : SameNames p b c) : SameNames p a c := fun x => (h' x).trans (h x)

theorem SameNames.of {p : Nat} {kv kv' : Kv} (h : Same (.grpNames p) kv kv') : SameNames p kv kv' := fun x => h (.groupName p x) trivial rfl

theorem SameNames.room {p : Nat} {kv kv' : Kv} (h : SameNames p kv kv') {ks : List Str} (hr : GroupRoom p ks kv) : GroupRoom p ks kv' :=
  ⟨hr.1, fun x b hb => hr.2 x b (by rw [← h x]; exact hb)⟩

theorem resolveProps_goes (hw : WInv S T n w) {p : Nat} {ty : PropType} (now : Time) {l : List (Str × PropValue)} (hn : n + l.length + 1 < 2 ^ 62)
    (hp : p ≤ lastId w.kv (.top .projects)) (hp64 : p < 2 ^ 64) (hty : ∀ g, ty = .group g → g < 2 ^ 64) (hready : Ready p w.kv)
    (hnd : ok → (l.map Prod.fst).Nodup) (hdate : ok → ∀ x ∈ l, x.2.isDate = false)
    (hsuit : ok → ∀ x ∈ l, ∀ id r, (propsC p ty).live w.kv id = some r → r.name = x.1 → Suits r x.2) :
    Goes S T n w l.length ok (each (resolveProperty S.sys now p ty) l)
      (fun bs w' => (∀ b ∈ bs, ∃ a ∈ l, b.2 = a.2 ∧ PropFor ok p ty b w'.kv) ∧ bs.length = l.length ∧ SameNames p w.kv w'.kv) := by
  have hg := Goes.each (S := S) (T := T) (n := n) (w := w) (ok := ok) (B := 1) (f := resolveProperty S.sys now p ty) (K := 2 ^ 62 - 2)
    (J := fun w' => SameNames p w.kv w'.kv ∧ (ok → ∀ x ∈ l, ∀ id r, (propsC p ty).live w'.kv id = some r → r.name = x.1 → Suits r x.2))
    (R := fun a b kv => b.2 = a.2 ∧ PropFor ok p ty b kv) (fun a b kv kv' h hnr => ⟨h.1, h.2.ext hnr.1⟩) l (by omega) (fun a ha m w' hm hw' hnr hJ => ?_) hw ⟨.refl _ _, hsuit⟩
  · rw [Nat.mul_one] at hg
    exact hg.mono (Nat.le_refl _) fun bs w' _ _ h => ⟨h.2.1, h.2.2, h.1.1⟩
  · rw [resolveProperty_make]
    have hready' := hready.ext hnr.1
    obtain ⟨sh, hsh⟩ : ∃ sh, (propReq ty a.1 a.2).dataType.shortName = some sh := by
      rcases a with ⟨x, v⟩
      cases v <;> exact ⟨_, rfl⟩
    have hnum : (propReq ty a.1 a.2).dataType.num.isSome := by
      rcases a with ⟨x, v⟩
      cases v <;> rfl
    refine Goes.bind (B := 1) (C := 0) (makeProp_goes (S := S) (T := T) (p := p) (ty := ty) (now := now) (req := propReq ty a.1 a.2) (sh := sh) hw' (by omega) (Nat.le_trans hp hnr.1.projects) ⟨hp64, show 1 < 2 ^ 64 by decide, hty⟩ rfl hsh hnum
      (fun d hd => by cases hd) fun id => propReq_ruled fun hdt => ?_) fun r w1 hw1 hnr1 hP => Goes.pure hw1 ?_
    · rw [hdt] at hsh
      exact hready'.order sh hsh
    · rcases hP with ⟨rfl, id, hl, hname⟩ | ⟨id, hN⟩
      · exact ⟨hJ, rfl, PropFor.of_live hw'.kv (by omega) hl fun hok => hJ.2 hok a ha id r hl hname⟩
      · have hlive := hN.live ty id
        rw [if_pos ⟨rfl, rfl⟩] at hlive
        refine ⟨⟨hJ.1.trans (.of (hN.rest _ (by simp))), fun hok x hx j q hq hname => ?_⟩, rfl, ⟨⟨r.norm, ?_, .norm r⟩, ?_, fun hok => ?_, ?_⟩⟩
        · rw [hN.live] at hq
          split at hq
          · cases hq
            have hxa : x = a := by
              have hxn : x.1 = a.1 := by rw [← hname, hN.eq]; rfl
              exact nodup_key (hnd hok) hx ha hxn
            subst hxa
            refine Suits.same ?_ (.norm r)
            rw [hN.eq]
            exact propReq_suits (hdate hok _ hx)
          · exact hJ.2 hok x hx j q hq hname
        · show (propsC p ty).live w1.kv r.id = _
          have : r.id = id := by rw [hN.eq]; rfl
          rw [this]; exact hlive
        · rw [hN.eq]
          exact propReq_ruled fun hdt => by rw [hdt] at hsh; exact hready'.order sh hsh
        · rw [hN.eq]
          exact propReq_suits (hdate hok _ ha)
        · show r.id < _
          have : r.id = id := by rw [hN.eq]; rfl
          rw [this]
          have hi := Inv.live_id ((hw1.kv.prop (by omega) p ty).inv (props_ok p ty)) hlive
          have hlt := (hw1.kv.prop (by omega) p ty).room (props_ok p ty)
          exact Nat.lt_of_le_of_lt hi.2.2.1 (by omega)

end OptiPrism.Ingest
