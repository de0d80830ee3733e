import Verif.Meta.Members

/-!
# Table columns of properties
-/

namespace OptiPrism.Meta

open OptiPrism.Storage (Bytes toLE fromLE fromLE_toLE toLE_length)

variable {Q : Type}

theorem sep_inj {α : Type} {x : α} {a b c d : List α} (ha : x ∉ a) (hc : x ∉ c) (h : a ++ x :: b = c ++ x :: d) : a = c ∧ b = d := by
  induction a generalizing c with
  | nil =>
    cases c with
    | nil => injection h with _ h; exact ⟨rfl, h⟩
    | cons y c => injection h with h _; subst h; simp at hc
  | cons y a ih =>
    cases c with
    | nil => injection h with h _; subst h; simp at ha
    | cons z c =>
      injection h with h1 h2
      subst h1
      obtain ⟨rfl, rfl⟩ := ih (fun e => ha (by simp [e])) (fun e => hc (by simp [e])) h2
      exact ⟨rfl, rfl⟩

theorem sep_last_inj {α : Type} {x : α} {a b c d : List α} (hb : x ∉ b) (hd : x ∉ d) (h : a ++ x :: b = c ++ x :: d) : a = c ∧ b = d := by
  have := congrArg List.reverse h
  simp only [List.reverse_append, List.reverse_cons, List.append_assoc, List.singleton_append] at this
  obtain ⟨h1, h2⟩ := sep_inj (by simpa using hb) (by simpa using hd) this
  exact ⟨List.reverse_inj.mp h2, List.reverse_inj.mp h1⟩

theorem under_decimal (n : Nat) : '_' ∉ decimal n := fun h => by
  have := decimal_digits n '_' h
  revert this; decide

/-- The column of a property that is not a system property determines data type and order number. -/
theorem columnName_inj {sys : Str → Str} {r r' : Property} (h : r.isSystem = false) (h' : r'.isSystem = false)
    (e : r.columnName sys = r'.columnName sys) : r.dataType.shortName.getD [] = r'.dataType.shortName.getD [] ∧ r.order = r'.order := by
  unfold Property.columnName at e
  rw [if_neg (by simp [h]), if_neg (by simp [h'])] at e
  cases ht : r.typ <;> cases ht' : r'.typ <;> rw [ht, ht'] at e <;> dsimp only at e
  · injection e with _ e
    injection e with _ e
    obtain ⟨h1, h2⟩ := sep_last_inj (under_decimal _) (under_decimal _) e
    exact ⟨h1, decimal_inj h2⟩
  · injection e with e _; exact absurd e (by decide)
  · injection e with e _; exact absurd e (by decide)
  · injection e with _ e
    injection e with _ e
    obtain ⟨-, h1⟩ := sep_inj (under_decimal _) (under_decimal _) e
    obtain ⟨h1, h2⟩ := sep_last_inj (under_decimal _) (under_decimal _) h1
    exact ⟨h1, decimal_inj h2⟩

/-- The next number of the order sequence of a data type. -/
def nextOrder (p : Nat) (sh : Str) (kv : Kv) : Nat :=
  match getK kv (.orderSeq p sh) with
  | none => 0
  | some v => fromLE v + 1

/-- Data type and order number identify a live property of the project, whatever its type. -/
structure OrderInv (p : Nat) (n : Nat) (kv : Kv) : Prop where
  len : ∀ sh v, '/' ∉ sh → getK kv (.orderSeq p sh) = some v → v.length = 8
  le : ∀ sh, '/' ∉ sh → nextOrder p sh kv ≤ n
  lt : ∀ ty id r, (propsC p ty).live kv id = some r → ∃ sh, r.dataType.shortName = some sh ∧ r.order < nextOrder p sh kv
  inj : ∀ ty id r ty' id' r', (propsC p ty).live kv id = some r → (propsC p ty').live kv id' = some r' →
    r.dataType = r'.dataType → r.order = r'.order → ty = ty' ∧ id = id'

/-- Nothing new: every live property was live before with the same data type and order. -/
theorem OrderInv.shrink {p n : Nat} {kv kv' : Kv} (h : OrderInv p n kv) (hs : ∀ sh, '/' ∉ sh → getK kv' (.orderSeq p sh) = getK kv (.orderSeq p sh))
    (hl : ∀ ty id r', (propsC p ty).live kv' id = some r' → ∃ r, (propsC p ty).live kv id = some r ∧ r.order = r'.order ∧ r.dataType = r'.dataType) :
    OrderInv p (n + 1) kv' := by
  have hn : ∀ sh, '/' ∉ sh → nextOrder p sh kv' = nextOrder p sh kv := by
    intro sh hw; unfold nextOrder; rw [hs sh hw]
  refine ⟨fun sh v hw hv => h.len sh v hw (by rw [← hs sh hw]; exact hv), fun sh hw => by rw [hn sh hw]; have := h.le sh hw; omega, ?_, ?_⟩
  · intro ty id r' hr
    obtain ⟨r, h1, h2, h3⟩ := hl ty id r' hr
    obtain ⟨sh, h4, h5⟩ := h.lt ty id r h1
    exact ⟨sh, by rw [← h3]; exact h4, by rw [hn sh (shortName_ok h4), ← h2]; exact h5⟩
  · intro ty id r' ty' id' r1' hr hr1 e1 e2
    obtain ⟨r, h1, h2, h3⟩ := hl ty id r' hr
    obtain ⟨r1, g1, g2, g3⟩ := hl ty' id' r1' hr1
    exact h.inj ty id r ty' id' r1 h1 g1 (by rw [h3, g3, e1]) (by rw [h2, g2, e2])

theorem shortName_inj {a b : DType} {s : Str} (ha : a.shortName = some s) (hb : b.shortName = some s) : a = b := by
  have key : ∀ l : List DType, ∀ x ∈ l, ∀ y ∈ l, (∀ c ∈ l, ∀ d ∈ l, c.shortName = d.shortName → c = d) → x.shortName = some s → y.shortName = some s → x = y :=
    fun l x hx y hy h e1 e2 => h x hx y hy (e1.trans e2.symm)
  have all : ∀ c : DType, c.shortName = some s → c ∈ [DType.string, .int8, .int16, .int32, .int64, .decimal, .boolean, .timestamp, .list .string, .list .int8, .list .int16,
      .list .int32, .list .int64, .list .decimal, .list .boolean, .list .timestamp] := by
    intro c hc
    cases c with
    | list d => cases d <;> first | (simp; done) | (simp [DType.shortName] at hc)
    | _ => simp
  exact key _ a (all a ha) b (all b hb) (by decide +kernel) ha hb

theorem nextZeroSeq_ok {k : Key} {kv kv' : Kv} {o : Nat} (h : nextZeroSeq k kv = .ok (o, kv')) :
    (∀ v, getK kv k = some v → v.length = 8) ∧ o = (match getK kv k with | none => 0 | some v => (fromLE v + 1) % 2 ^ 64) ∧ kv' = putK kv k (le64 o) := by
  unfold nextZeroSeq at h
  cases hg : getK kv k with
  | none =>
    rw [hg] at h
    cases h
    exact ⟨by simp, rfl, rfl⟩
  | some v =>
    rw [hg] at h
    dsimp only at h
    unfold readU64 at h
    by_cases hl : v.length = 8
    · rw [if_pos hl] at h
      cases h
      exact ⟨fun w hw => by injection hw with hw; rw [← hw]; exact hl, rfl, rfl⟩
    · rw [if_neg hl] at h; cases h

theorem getK_insertIndex_other {k : Key} (hk : k.WF) (keys : List (Option Key)) (hw : ∀ k', some k' ∈ keys → k'.WF ∧ k ≠ k') (id : Nat) (kv : Kv) :
    getK (insertIndex keys id kv) k = getK kv k := by
  induction keys generalizing kv with
  | nil => rfl
  | cons x xs ih =>
    cases x with
    | none => exact ih (fun k' h => hw k' (List.mem_cons_of_mem _ h)) kv
    | some x =>
      obtain ⟨h1, h2⟩ := hw x (List.mem_cons_self ..)
      show getK (insertIndex xs id (putK kv x (le64 id))) k = _
      rw [ih (fun k' h => hw k' (List.mem_cons_of_mem _ h)), getK_putK _ h1 hk, if_neg h2]

/-- `propCreate_inv` with the order number and what becomes of the order sequences. -/
theorem propCreate_order {sys : Str → Str} {p : Nat} {ty : PropType} {now : Time} {req : Property} {f : Except Err Unit} {kv kv' : Kv}
    {a : Property} (e : propCreate sys p ty now req f kv = .ok (a, kv')) :
    ∃ sh order kv1, req.dataType.shortName = some sh ∧ order < 2 ^ 64 ∧ req.dataType.num.isSome ∧
      order = (match getK kv (.orderSeq p sh) with | none => 0 | some v => (fromLE v + 1) % 2 ^ 64) ∧
      getK kv' (.orderSeq p sh) = some (le64 order) ∧ (∀ sh', '/' ∉ sh' → sh' ≠ sh → getK kv' (.orderSeq p sh') = getK kv (.orderSeq p sh')) ∧
      (propsC p ty).create (propKeys p ty req) (propMk p now req order) kv = .ok (a, kv1) ∧ AgreeOn (.proj p ty.coll) kv1 kv' := by
  have e0 := e
  unfold propCreate at e
  dsimp only at e
  split at e
  · cases e
  · split at e
    · cases e
    · rename_i id kv1 h1
      split at e
      · cases e
      · rename_i sh hsh
        split at e
        · cases e
        · rename_i o kv2 h2
          split at e
          · cases e
          · rename_i b hb
            split at e
            · cases e
            · injection e with e
              injection e with ea ekv
              obtain ⟨o', kv1', g1, g2, g3, g4⟩ := propCreate_inv e0
              have ho : o' = o := by
                have hcr := g3
                unfold Coll.create at hcr
                split at hcr
                · cases hcr
                · split at hcr
                  · cases hcr
                  · injection hcr with hcr
                    injection hcr with hcr _
                    have := hcr.trans ea.symm
                    exact congrArg Property.order this
              subst ho
              have hwo : (Key.orderSeq p sh).WF := shortName_ok hsh
              have same1 : ∀ sh', '/' ∉ sh' → getK kv1 (.orderSeq p sh') = getK kv (.orderSeq p sh') := by
                intro sh' hw
                unfold nextSeq at h1
                split at h1
                · cases h1
                  rw [getK_putK _ (wf_seq _) (show (Key.orderSeq p sh').WF from hw), if_neg (by intro h; cases h)]
                · split at h1
                  · cases h1
                  · cases h1
                    rw [getK_putK _ (wf_seq _) (show (Key.orderSeq p sh').WF from hw), if_neg (by intro h; cases h)]
              have same2 : ∀ sh', '/' ∉ sh' → getK kv' (.orderSeq p sh') = getK kv2 (.orderSeq p sh') := by
                intro sh' hw
                have hw' : (Key.orderSeq p sh').WF := hw
                rw [← ekv, getK_insertIndex_other hw', getK_putK _ (wf_data _ _) hw', if_neg (by intro h; cases h)]
                intro k' hk
                simp only [List.mem_append, List.mem_cons, List.not_mem_nil, or_false, Option.some.injEq] at hk
                rcases hk with (rfl | hk) | rfl
                · exact ⟨trivial, by intro h; cases h⟩
                · obtain ⟨s, -, rfl⟩ := Option.map_eq_some_iff.mp hk.symm
                  exact ⟨trivial, by intro h; cases h⟩
                · exact ⟨trivial, by unfold columnIdx; intro h; cases h⟩
              obtain ⟨-, n2, n3⟩ := nextZeroSeq_ok h2
              refine ⟨sh, o', kv1', hsh, g1, g2, ?_, ?_, ?_, g3, g4⟩
              · rw [n2, same1 sh hwo]
              · rw [same2 sh hwo, n3, getK_putK _ hwo hwo, if_pos rfl]
              · intro sh' hw hne
                rw [same2 sh' hw, n3, getK_putK _ hwo (show (Key.orderSeq p sh').WF from hw), if_neg (by intro h; injection h with _ h; exact hne h), same1 sh' hw]

/-- Histories in which no update changes the type, the data type or the system flag of a property: the requests
the platform sends, platform/src/properties.rs 110-119. -/
def Req.keepsColumns : Req Q → Prop
  | .propUpdate _ _ _ _ q => q.typ = none ∧ q.dataType = none ∧ q.isSystem = none
  | _ => True

inductive CHist (E : Env Q) : Nat → Kv → Prop
  | start : CHist E 0 []
  | step {n : Nat} {kv : Kv} (r : Req Q) : CHist E n kv → r.Ok → r.keepsColumns → CHist E (n + 1) (r.exec E kv)

theorem CHist.hist {E : Env Q} {n : Nat} {kv : Kv} (h : CHist E n kv) : Hist E n kv := by
  induction h with
  | start => exact .start
  | step r _ hr _ ih => exact ih.step r hr

theorem orderInv_start (p : Nat) : OrderInv p 0 [] := by
  have hg : ∀ k, getK [] k = none := fun _ => rfl
  have hl : ∀ ty id, (propsC p ty).live [] id = none := fun _ _ => rfl
  refine ⟨fun sh v _ h => (by rw [hg] at h; cases h), fun sh _ => (by unfold nextOrder; rw [hg]; exact Nat.le_refl 0), ?_, ?_⟩
  · intro ty id r h; rw [hl] at h; cases h
  · intro ty id r _ _ _ h; rw [hl] at h; cases h

theorem OrderInv.create {sys : Str → Str} {p : Nat} {ty : PropType} {now : Time} {req : Property} {f : Except Err Unit} {n : Nat} {kv kv' : Kv}
    {a : Property} (h : OrderInv p n kv) (hn : n < 2 ^ 62) (hr : Reach (propsC p ty) Property.Valid kv) (hp : p < 2 ^ 64)
    (hb : req.createdBy < 2 ^ 64) (hg : ∀ g, req.typ = .group g → g < 2 ^ 64)
    (e : propCreate sys p ty now req f kv = .ok (a, kv')) (hoth : ∀ ty', ty' ≠ ty → AgreeOn (.proj p ty'.coll) kv kv') :
    OrderInv p (n + 1) kv' := by
  obtain ⟨sh, o, kv1, hsh, ho, hnum, eo, es, eother, ec, hag⟩ := propCreate_order e
  have hw := shortName_ok hsh
  obtain ⟨-, hnone, -, hlive⟩ := create_done (props_ok p ty) (hr.inv (props_ok p ty)) (hr.room (props_ok p ty)) (propCreate_ok ho hp hb hg hnum) ec
  have eo' : o = nextOrder p sh kv := by
    have hle := h.le sh hw
    unfold nextOrder at hle ⊢
    cases hv : getK kv (.orderSeq p sh) with
    | none => rw [hv] at eo; exact eo
    | some v =>
      rw [hv] at eo hle
      rw [eo]
      exact Nat.mod_eq_of_lt (by simp only at hle; omega)
  have hnext : nextOrder p sh kv' = o + 1 := by
    unfold nextOrder; rw [es]
    show fromLE (le64 o) + 1 = o + 1
    unfold le64
    rw [fromLE_toLE _ _ (by omega)]
  have hnext' : ∀ s, '/' ∉ s → s ≠ sh → nextOrder p s kv' = nextOrder p s kv := by
    intro s hs hne; unfold nextOrder; rw [eother s hs hne]
  -- the live records
  have hl : ∀ ty' id r, (propsC p ty').live kv' id = some r →
      (∃ r0, (propsC p ty').live kv id = some r0 ∧ r0 = r) ∨ (ty' = ty ∧ id = lastId kv (propsC p ty).ns + 1 ∧ r.dataType = req.dataType ∧ r.order = o) := by
    intro ty' id r hq
    by_cases ht : ty' = ty
    · subst ht
      rw [hag.live (c := propsC p ty'), hlive] at hq
      split at hq
      · rename_i hid
        injection hq with hq
        exact .inr ⟨rfl, hid, by rw [← hq]; rfl, by rw [← hq]; rfl⟩
      · exact .inl ⟨r, hq, rfl⟩
    · rw [(hoth ty' ht).live (c := propsC p ty')] at hq
      exact .inl ⟨r, hq, rfl⟩
  have old : ∀ ty' id r, (propsC p ty').live kv id = some r → r.dataType = req.dataType → r.order < o := by
    intro ty' id r hr hd
    obtain ⟨s, h1, h2⟩ := h.lt ty' id r hr
    rw [hd, hsh] at h1
    cases h1
    rw [eo']; exact h2
  refine ⟨?_, ?_, ?_, ?_⟩
  · intro s v hs hv
    by_cases hss : s = sh
    · subst hss; rw [es] at hv; injection hv with hv; rw [← hv]; exact toLE_length 8 _
    · rw [eother s hs hss] at hv; exact h.len s v hs hv
  · intro s hs
    by_cases hss : s = sh
    · subst hss; rw [hnext, eo']; have := h.le s hs; omega
    · rw [hnext' s hs hss]; have := h.le s hs; omega
  · intro ty' id r hr
    rcases hl ty' id r hr with ⟨r0, h0, rfl⟩ | ⟨-, -, hd, hor⟩
    · obtain ⟨s, h1, h2⟩ := h.lt ty' id r0 h0
      refine ⟨s, h1, ?_⟩
      by_cases hss : s = sh
      · subst hss; rw [hnext, eo']; omega
      · rw [hnext' s (shortName_ok h1) hss]; exact h2
    · exact ⟨sh, by rw [hd]; exact hsh, by rw [hnext, hor]; omega⟩
  · intro ty1 id1 r1 ty2 id2 r2 h1 h2 ed eor
    rcases hl _ _ _ h1 with ⟨_, g1, rfl⟩ | ⟨t1, i1, d1, o1⟩ <;> rcases hl _ _ _ h2 with ⟨_, g2, rfl⟩ | ⟨t2, i2, d2, o2⟩
    · exact h.inj _ _ _ _ _ _ g1 g2 ed eor
    · have := old _ _ _ g1 (by rw [ed, d2]); omega
    · have := old _ _ _ g2 (by rw [← ed, d1]); omega
    · exact ⟨t1.trans t2.symm, i1.trans i2.symm⟩

theorem CHist.order {E : Env Q} {n : Nat} {kv : Kv} (h : CHist E n kv) (hn : n < 2 ^ 62) (p : Nat) : OrderInv p n kv := by
  induction h with
  | start => exact orderInv_start p
  | @step n kv r hh hr hk ih =>
    have hi := ih (by omega)
    have hreach := fun ty => hist_props hh.hist (show n < 2 ^ 62 by omega) p ty
    -- the order sequences, unless the request creates a property of the project
    have seqSame : Mod.order p ∉ r.mods → ∀ sh, '/' ∉ sh → getK (r.exec E kv) (.orderSeq p sh) = getK kv (.orderSeq p sh) :=
      fun hm sh hs => exec_same E hr hm kv _ (show (Key.orderSeq p sh).WF from hs) rfl
    have liveSame : ∀ ty, Mod.coll (.proj p ty.coll) ∉ r.mods → ∀ id, (propsC p ty).live (r.exec E kv) id = (propsC p ty).live kv id :=
      fun ty hm id => (exec_agree E hr hm kv).live (c := propsC p ty) id
    by_cases hm : Mod.order p ∈ r.mods
    · cases r <;> simp only [Req.mods, List.mem_cons, List.not_mem_nil, or_false, reduceCtorEq, or_self, false_or, Mod.order.injEq] at hm
      case propCreate p' ty now q f =>
        subst hm
        show OrderInv p (n + 1) (runCall (Meta.propCreate E.sys p ty now q f) kv).2
        unfold runCall
        split
        · rename_i a kv' e
          refine hi.create (by omega) (hreach ty) hr.1 hr.2.1 hr.2.2 e fun ty' hne => ?_
          have := exec_agree E hr (ns := .proj p ty'.coll) (by
            simp only [Req.mods, List.mem_cons, List.not_mem_nil, or_false, Mod.coll.injEq, Ns.proj.injEq, true_and, reduceCtorEq, propType_coll_ne, false_or]
            exact fun e => hne (PropType.coll_inj e)) kv
          have e2 : (Req.propCreate (Q := Q) p ty now q f).exec E kv = kv' := run_ok e
          rwa [e2] at this
        · exact hi.shrink (fun _ _ => rfl) fun _ _ r h => ⟨r, h, rfl, rfl⟩
      case propGetOrCreate p' ty now q f =>
        subst hm
        show OrderInv p (n + 1) (runCall (Meta.propGetOrCreate E.sys p ty now q f) kv).2
        have hag : ∀ ty', ty' ≠ ty → AgreeOn (.proj p ty'.coll) kv ((Req.propGetOrCreate (Q := Q) p ty now q f).exec E kv) := fun ty' hne => exec_agree E hr (by
            simp only [Req.mods, List.mem_cons, List.not_mem_nil, or_false, Mod.coll.injEq, Ns.proj.injEq, true_and, reduceCtorEq, propType_coll_ne, false_or]
            exact fun e => hne (PropType.coll_inj e)) kv
        have stay : OrderInv p (n + 1) kv := hi.shrink (fun _ _ => rfl) fun _ _ r h => ⟨r, h, rfl, rfl⟩
        unfold runCall
        split
        · rename_i a kv' e
          have e2 : (Req.propGetOrCreate (Q := Q) p ty now q f).exec E kv = kv' := run_ok e
          rw [e2] at hag
          unfold Meta.propGetOrCreate at e
          split at e
          · cases e; exact stay
          · exact hi.create (by omega) (hreach ty) hr.1 hr.2.1 hr.2.2 e hag
          · cases e
        · exact stay
    · refine hi.shrink (seqSame hm) fun ty id r' hl => ?_
      by_cases hc : Mod.coll (.proj p ty.coll) ∈ r.mods
      · have hne : ty.coll ≠ .events ∧ ty.coll ≠ .customEvents ∧ ty.coll ≠ .dashboards ∧ ty.coll ≠ .reports ∧ ty.coll ≠ .global := by
          cases ty <;> simp [PropType.coll]
        obtain ⟨h1, h2, h3, h4, h5⟩ := hne
        cases r <;> simp only [Req.mods, List.mem_cons, List.not_mem_nil, or_false, Mod.coll.injEq, reduceCtorEq, Ns.proj.injEq, or_self,
          false_or, h1, h2, h3, h4, h5, and_false] at hc
        case propCreate p' ty' now q f => exact absurd (by simp [Req.mods, hc.1]) hm
        case propGetOrCreate p' ty' now q f => exact absurd (by simp [Req.mods, hc.1]) hm
        case propUpdate p' ty' id' now q =>
          obtain ⟨rfl, hc⟩ := hc
          cases PropType.coll_inj hc
          obtain ⟨k1, k2, k3⟩ := hk
          have hl : (propsC p ty).live (runCall (Meta.propUpdate p ty id' now q) kv).2 id = some r' := hl
          unfold runCall at hl
          split at hl
          · rename_i a kv' e
            obtain ⟨r, g1, -, -, g4⟩ := update_done (props_ok p ty) ((hreach ty).inv (props_ok p ty)) (propUpdate_ok hr) e
            rw [g4] at hl
            split at hl
            · rename_i hid
              injection hl with hl
              refine ⟨r, by rw [hid]; exact g1, ?_, ?_⟩
              · rw [← hl]; rfl
              · rw [← hl]; simp [Property.norm, PropUpd.apply, k2]
            · exact ⟨r', hl, rfl, rfl⟩
          · exact ⟨r', hl, rfl, rfl⟩
        case propDelete p' ty' id' =>
          obtain ⟨rfl, hc⟩ := hc
          cases PropType.coll_inj hc
          have hl : (propsC p ty).live (runCall ((propsC p ty).delete id') kv).2 id = some r' := hl
          rcases delete_spec (props_ok p ty) ((hreach ty).inv (props_ok p ty)) id' with ⟨-, e⟩ | ⟨r, kv', -, e, -, -, g⟩
          · unfold runCall at hl; rw [e] at hl; exact ⟨r', hl, rfl, rfl⟩
          · rw [run_ok e, g] at hl
            split at hl
            · cases hl
            · exact ⟨r', hl, rfl, rfl⟩
      · rw [liveSame ty hc] at hl
        exact ⟨r', hl, rfl, rfl⟩

end OptiPrism.Meta
