import Verif.Meta.Sessions

/-!
# Listing a collection
-/

namespace OptiPrism.Meta

open OptiPrism.Storage (Bytes)

variable {Q : Type}

theorem mem_list_entries {ns : Ns} {kv : Kv} (hc : Clean kv) (e : Str × Bytes) :
    e ∈ entries ns.listPrefix kv ↔ ∃ id v, e = ((Key.data ns id).render, v) ∧ getK kv (.data ns id) = some v := by
  unfold entries
  rw [List.mem_filter]
  constructor
  · rintro ⟨h1, h2⟩
    obtain ⟨k, hw, hk⟩ := hc.keys e h1
    rw [hk, List.isPrefixOf_iff_prefix] at h2
    obtain ⟨id, rfl⟩ := C28_listing_isolated hw h2
    refine ⟨id, e.2, by rw [← hk], ?_⟩
    refine (hc.mem_iff _ _).mp ?_
    rw [← hk]; exact h1
  · rintro ⟨u, v, rfl, h⟩
    refine ⟨(hc.mem_iff _ _).mpr h, ?_⟩
    rw [List.isPrefixOf_iff_prefix]
    exact C28_listing_complete ns u

/-- What `list` returns, as a multiset: for each entry of the collection, its record. -/
theorem readAll_map {α : Type} {dec : Bytes → Option α} {l : List (Str × Bytes)} {as : List α} (h : readAll dec l = .ok as) :
    l.map (fun e => dec e.2) = as.map some := by
  induction l generalizing as with
  | nil => injection h with h; subst h; rfl
  | cons e l ih =>
    unfold readAll at h
    cases hd : dec e.2 with
    | none => rw [hd] at h; cases h
    | some a =>
      rw [hd] at h
      dsimp only at h
      cases hr : readAll dec l with
      | error x => rw [hr] at h; cases h
      | ok as' =>
        rw [hr] at h
        injection h with h
        subst h
        simp [hd, ih hr]

theorem list_spec {R : Type} {c : Coll R} {Valid : R → Prop} {kv : Kv} (hc : Clean kv) (h : c.Inv Valid kv) :
    ∃ l, c.list kv = .ok l ∧ (∀ r, r ∈ l ↔ ∃ id, c.live kv id = some r) ∧ (l.map c.id).Nodup := by
  obtain ⟨l, h1, h2⟩ := readAll_ok (dec := c.dec) (entries c.ns.listPrefix kv) (by
    intro e he
    obtain ⟨u, v, rfl, hv⟩ := (mem_list_entries hc e).mp he
    obtain ⟨s, hs, -⟩ := h.data u v hv
    exact ⟨s, hs⟩)
  have live : ∀ id v, getK kv (.data c.ns id) = some v → c.live kv id = c.dec v := by
    intro id v hv; unfold Coll.live; rw [hv]; rfl
  refine ⟨l, h1, fun r => ?_, ?_⟩
  · rw [h2]
    constructor
    · rintro ⟨e, he, hs⟩
      obtain ⟨u, v, rfl, hv⟩ := (mem_list_entries hc e).mp he
      exact ⟨u, by rw [live u v hv]; exact hs⟩
    · rintro ⟨u, hs⟩
      cases hv : getK kv (.data c.ns u) with
      | none => unfold Coll.live at hs; rw [hv] at hs; cases hs
      | some v =>
        rw [live u v hv] at hs
        exact ⟨_, (mem_list_entries hc _).mpr ⟨u, v, rfl, hv⟩, hs⟩
  · -- the identifiers are determined by the keys, which are distinct
    have hn : ((entries c.ns.listPrefix kv).map (·.1)).Nodup := List.Pairwise.sublist (List.filter_sublist.map _) hc.nodup
    have hk : ∀ e ∈ entries c.ns.listPrefix kv, ∃ r, c.dec e.2 = some r ∧ e.1 = (Key.data c.ns (c.id r)).render := by
      intro e he
      obtain ⟨u, v, rfl, hv⟩ := (mem_list_entries hc e).mp he
      obtain ⟨r, hr, hid, -⟩ := h.data u v hv
      exact ⟨r, hr, by rw [hid]⟩
    have hm := readAll_map h1
    generalize entries c.ns.listPrefix kv = es at hn hk hm
    clear h1 h2
    induction es generalizing l with
    | nil => cases l with
      | nil => simp
      | cons _ _ => cases hm
    | cons e es ih =>
      cases l with
      | nil => cases hm
      | cons a l =>
        rw [List.map_cons, List.map_cons] at hm
        injection hm with hm1 hm2
        rw [List.map_cons, List.nodup_cons] at hn
        rw [List.map_cons, List.nodup_cons]
        refine ⟨?_, ih l hn.2 (fun e he => hk e (List.mem_cons_of_mem _ he)) hm2⟩
        intro hmem
        obtain ⟨b, hb, hbe⟩ := List.mem_map.mp hmem
        have : some b ∈ es.map fun e => c.dec e.2 := by rw [hm2]; exact List.mem_map.mpr ⟨b, hb, rfl⟩
        obtain ⟨e', he', hd'⟩ := List.mem_map.mp this
        obtain ⟨r, hr, hre⟩ := hk e (List.mem_cons_self ..)
        obtain ⟨r', hr', hre'⟩ := hk e' (List.mem_cons_of_mem _ he')
        rw [hm1] at hr
        injection hr with hr
        rw [hd'] at hr'
        injection hr' with hr'
        subst hr hr'
        exact hn.1 (List.mem_map.mpr ⟨e', he', by rw [hre, hre', hbe]⟩)

end OptiPrism.Meta
