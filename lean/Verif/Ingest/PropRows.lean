import Verif.Ingest.TrackProps
import Verif.Ingest.ValueProps
import Verif.Meta.ColumnsProps
import Verif.Meta.UpdateProps

/-!
# From the properties of a track request to the cells of its row
-/

namespace OptiPrism.Ingest

open OptiPrism.Meta
open OptiPrism.Storage (Bytes Value NamedValue Tbl InsertErr ColType Field Row)

variable {Q α β : Type}

/-! ## Loops -/

theorem each_split {f : α → M β} {l1 l2 : List α} {a : α} {bs : List β} {w w' : World} (h : each f (l1 ++ a :: l2) w = (.ok bs, w')) :
    ∃ bs1 b bs2 wa wb, each f l1 w = (.ok bs1, wa) ∧ f a wa = (.ok b, wb) ∧ each f l2 wb = (.ok bs2, w') ∧ bs = bs1 ++ b :: bs2 := by
  induction l1 generalizing w bs with
  | nil =>
    obtain ⟨b, wb, h1, h2⟩ := bind_ok h
    obtain ⟨bs2, wc, h3, h4⟩ := bind_ok h2
    cases h4
    exact ⟨[], b, bs2, w, wb, rfl, h1, h3, rfl⟩
  | cons x l1 ih =>
    obtain ⟨b, wb, h1, h2⟩ := bind_ok h
    obtain ⟨bs2, wc, h3, h4⟩ := bind_ok h2
    cases h4
    obtain ⟨cs1, c, cs2, wd, we, g1, g2, g3, rfl⟩ := ih h3
    refine ⟨b :: cs1, c, cs2, wd, we, ?_, g2, g3, rfl⟩
    simp only [each, M.bind, h1, g1, M.pure]

theorem each_mem {f : α → M β} {l : List α} {bs : List β} {w w' : World} (h : each f l w = (.ok bs, w')) :
    ∀ b ∈ bs, ∃ l1 a l2 bs1 wa wb bs2, l = l1 ++ a :: l2 ∧ each f l1 w = (.ok bs1, wa) ∧ f a wa = (.ok b, wb) ∧ each f l2 wb = (.ok bs2, w') := by
  induction l generalizing w bs with
  | nil => cases h; intro b hb; cases hb
  | cons x l ih =>
    obtain ⟨c, wb, h1, h2⟩ := bind_ok h
    obtain ⟨cs, wc, h3, h4⟩ := bind_ok h2
    cases h4
    intro b hb
    rcases List.mem_cons.mp hb with rfl | hb
    · exact ⟨[], x, l, [], w, wb, cs, rfl, rfl, h1, h3⟩
    · obtain ⟨l1, a, l2, bs1, wd, we, bs2, rfl, g1, g2, g3⟩ := ih h3 b hb
      refine ⟨x :: l1, a, l2, c :: bs1, wd, we, bs2, rfl, ?_, g2, g3⟩
      simp only [each, M.bind, h1, g1, M.pure]

/-- The names of the cells are the columns of the properties. -/
theorem propCells_name {sys : Str → Str} {p : Nat} {t : Str} {l : List (Property × PropValue)} {cs : List NamedValue} {w w' : World}
    (h : propCells sys p t l w = (.ok cs, w')) : ∀ c ∈ cs, ∃ pv ∈ l, c.name = String.ofList (pv.1.columnName sys) := by
  intro c hc
  obtain ⟨l1, a, l2, bs1, wa, wb, bs2, rfl, -, h1, -⟩ := each_mem h c hc
  obtain ⟨v, wc, h2, h3⟩ := bind_ok h1
  cases h3
  exact ⟨a, by simp, rfl⟩

/-! ## Requests that leave the columns and their dictionaries alone -/

/-- No update of the type, data type or system flag of a property, and no key written into the dictionary of a column of the events table
other than those of the users and groups. -/
def Plain (p : Nat) (r : Req Q) : Prop := r.keepsColumns ∧ ∀ d, (∀ g, d ≠ groupCol g) → r.NoPut p kEvents d

theorem resolve_plain {p q : Nat} {r : Req Q} (h : ResolveReq p r) : Plain q r := by
  cases r <;> simp only [ResolveReq] at h <;> refine ⟨trivial, fun d hd => ?_⟩ <;> simp only [Req.NoPut]
  rintro ⟨-, -, e⟩
  obtain ⟨g, hg⟩ := h.2.2
  exact hd g (e.symm.trans hg)

theorem send_plain {p q : Nat} {r : Req Q} (h : SendReq p r) : Plain q r := by
  cases r <;> simp only [SendReq] at h <;> exact ⟨trivial, fun d hd => trivial⟩

/-- The requests of any track request are such requests. -/
theorem track_plain {p q : Nat} {r : Req Q} (h : TrackReq p r) : Plain q r := by
  rcases h with h | h | h
  · exact resolve_plain h
  · exact send_plain h
  · subst h; exact ⟨trivial, fun d hd => trivial⟩

/-- So are those of any identify request. -/
theorem identify_plain {p q : Nat} {r : Req Q} (h : IdentifyReq p r) : Plain q r := by
  cases r <;> simp only [IdentifyReq] at h <;> refine ⟨trivial, fun d hd => ?_⟩ <;> simp only [Req.NoPut]
  rintro ⟨-, e, -⟩
  obtain ⟨g, hg⟩ := h.2.1
  exact kEvents_ne g (hg.symm.trans e)

theorem plain_chist {S : Meta.Env Q} {p n : Nat} {kv : Kv} (h : Runs S (Plain p) [] n kv) : CHist S n kv := by
  induction h with
  | refl => exact .start
  | step r _ hr hp ih => exact ih.step r hr hp.1

theorem plain_noPut {S : Meta.Env Q} {p n : Nat} {kv kv' : Kv} (h : Runs S (Plain p) kv n kv') {d : Str} (hd : ∀ g, d ≠ groupCol g) :
    Runs S (Req.NoPut p kEvents d) kv n kv' := runs_mono (fun _ h => h.2 d hd) h

/-! ## A property keeps its record -/

/-- Looking up or creating a property leaves the other properties as they are. -/
theorem propGet_live {sys : Str → Str} {p : Nat} {ty : PropType} {now : Time} {req : Property} {f : Except Err Unit} {kv kv' : Kv} {a : Property}
    (hr : Reach (propsC p ty) Property.Valid kv) (hp : p < 2 ^ 64) (hb : req.createdBy < 2 ^ 64) (hg : ∀ g, req.typ = .group g → g < 2 ^ 64)
    (e : propGetOrCreate sys p ty now req f kv = .ok (a, kv')) :
    (∀ id x, (propsC p ty).live kv id = some x → (propsC p ty).live kv' id = some x) ∧
      ∃ id q, (propsC p ty).live kv' id = some q ∧ q.name = req.name ∧ a.norm = q.norm ∧
        (kv' = kv ∧ a = q ∨ ∃ o, a = propMk p now req o id ∧ q = a.norm) := by
  have hi := hr.inv (props_ok p ty)
  unfold propGetOrCreate at e
  split at e
  · rename_i r e1
    cases e
    rcases (getBy_eq hi (i := (.name, fun r => some r.name)) (by simp [propsC]) req.name _).mp e1 with ⟨id, q, h1, h2, h3⟩ | ⟨-, h2⟩
    · cases h3
      exact ⟨fun id x h => h, id, _, h1, Option.some.inj h2, rfl, .inl ⟨rfl, rfl⟩⟩
    · cases h2
  · obtain ⟨sh, o, kv1, hsh, ho, hnum, eo, es, eother, ec, hag⟩ := propCreate_order e
    obtain ⟨h1, hnone, -, hlive⟩ := create_done (props_ok p ty) hi (hr.room (props_ok p ty)) (propCreate_ok ho hp hb hg hnum) ec
    refine ⟨fun id x h => ?_, lastId kv (propsC p ty).ns + 1, a.norm, ?_, ?_, ?_, .inr ⟨o, h1, rfl⟩⟩
    · rw [hag.live (c := propsC p ty), hlive]
      split
      · rename_i hid; rw [hid, hnone] at h; cases h
      · exact h
    · rw [hag.live (c := propsC p ty), hlive, if_pos rfl, h1]
    · rw [h1]; rfl
    · rw [Property.norm_norm]
  · cases e

theorem track_live {S : Meta.Env Q} {p m : Nat} {kv kv' : Kv} (h : Runs S (TrackReq p) kv m kv') {n : Nat} (hh : Hist S n kv) (hn : n + m < 2 ^ 62)
    {id : Nat} {x : Property} (hl : (propsC p .event).live kv id = some x) : (propsC p .event).live kv' id = some x := by
  induction h with
  | refl => exact hl
  | @step m kv1 r hr ho hp ih =>
    have hl1 := ih (by omega)
    have hreach := hist_props (hr.hist hh) (by omega) p .event
    have same : Mod.coll (.proj p (PropType.event).coll) ∉ r.mods → (propsC p .event).live (r.exec S kv1) id = some x := by
      intro hm
      rw [(exec_agree S ho hm kv1).live (c := propsC p .event)]
      exact hl1
    rcases hp with hp | hp | hp
    · cases r <;> simp only [ResolveReq] at hp
      case propGetOrCreate q ty now req f =>
        obtain ⟨rfl, rfl, ht⟩ := hp
        show (propsC q .event).live (runCall (propGetOrCreate S.sys q .event now req f) kv1).2 id = some x
        unfold runCall
        split
        · rename_i a kv2 e
          exact (propGet_live hreach ho.1 ho.2.1 ho.2.2 e).1 _ _ hl1
        · exact hl1
      all_goals exact same (by simp [Req.mods, PropType.coll])
    · cases r <;> simp only [SendReq] at hp <;> exact same (by simp [Req.mods])
    · subst hp; exact same (by simp [Req.mods])

end OptiPrism.Ingest
