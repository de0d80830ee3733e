import Verif.Ingest.PropRowsProps
import Verif.Ingest.IngestProps
import Verif.Meta.GroupTypesProps

/-!
# The stored values of groups, and the rows made of them
-/

namespace OptiPrism.Ingest

open OptiPrism.Meta
open OptiPrism.Storage (Bytes Value NamedValue Tbl InsertErr ColType Field Row)

variable {Q : Type}

/-! ## Requests -/

/-- No update of the type, data type or system flag of a property, and no key written into the dictionary of a property's column of the
table of the first kind of groups. -/
def GPlain (p : Nat) (r : Req Q) : Prop := r.keepsColumns ∧ ∀ d, PropCol d → r.NoPut p (groupCol 0) d

theorem kId_col : ¬ PropCol kId := by unfold PropCol; decide +kernel

theorem identify_gplain {p q : Nat} {r : Req Q} (h : IdentifyReq p r) : GPlain q r := by
  cases r <;> simp only [IdentifyReq] at h <;> refine ⟨trivial, fun d hd => ?_⟩ <;> simp only [Req.NoPut]
  rintro ⟨-, -, e⟩
  exact kId_col (h.2.2 ▸ e ▸ hd)

theorem track_gplain {p q : Nat} {r : Req Q} (h : TrackReq p r) : GPlain q r := by
  rcases h with h | h | h
  · cases r <;> simp only [ResolveReq] at h <;> refine ⟨trivial, fun d hd => ?_⟩ <;> simp only [Req.NoPut]
    rintro ⟨-, e, -⟩
    exact kEvents_ne 0 (e.symm.trans h.2.1)
  · cases r <;> simp only [SendReq] at h <;> exact ⟨trivial, fun d hd => trivial⟩
  · subst h; exact ⟨trivial, fun d hd => trivial⟩

theorem gplain_chist {S : Meta.Env Q} {p n : Nat} {kv : Kv} (h : Runs S (GPlain p) [] n kv) : CHist S n kv := by
  induction h with
  | refl => exact .start
  | step r _ hr hp ih => exact ih.step r hr hp.1

theorem coll_inj {a b : PropType} (h : a.coll = b.coll) : a = b := by
  cases a <;> cases b <;> simp_all [PropType.coll]

/-- A property keeps its record through requests that only look up or create properties. -/
theorem props_live {S : Meta.Env Q} {P : Req Q → Prop} {p : Nat} {ty : PropType}
    (hP : ∀ r : Req Q, P r → (∃ q ty' now req f, r = .propGetOrCreate q ty' now req f) ∨ Mod.coll (.proj p ty.coll) ∉ r.mods)
    {m : Nat} {kv kv' : Kv} (h : Runs S P kv m kv') {n : Nat} (hh : Hist S n kv) (hn : n + m < 2 ^ 62)
    {id : Nat} {x : Property} (hl : (propsC p ty).live kv id = some x) : (propsC p ty).live kv' id = some x := by
  induction h with
  | refl => exact hl
  | @step m kv1 r hr ho hp ih =>
    have hl1 := ih (by omega)
    have hreach := hist_props (hr.hist hh) (by omega) p ty
    have same : Mod.coll (.proj p ty.coll) ∉ r.mods → (propsC p ty).live (r.exec S kv1) id = some x := by
      intro hm
      rw [(exec_agree S ho hm kv1).live (c := propsC p ty)]
      exact hl1
    rcases hP r hp with ⟨q, ty', now, req, f, rfl⟩ | hm
    · by_cases hq : q = p ∧ ty' = ty
      · obtain ⟨rfl, rfl⟩ := hq
        show (propsC q ty').live (runCall (propGetOrCreate S.sys q ty' now req f) kv1).2 id = some x
        unfold runCall
        split
        · rename_i a kv2 e
          exact (propGet_live hreach ho.1 ho.2.1 ho.2.2 e).1 _ _ hl1
        · exact hl1
      · refine same ?_
        simp only [Req.mods, List.mem_cons, List.not_mem_nil, or_false, not_or]
        refine ⟨?_, by simp, ?_⟩
        · intro e
          injection e with e
          injection e with e1 e2
          exact hq ⟨e1.symm, coll_inj e2.symm⟩
        · intro e
          injection e with e
          injection e with e1 e2
          cases ty <;> cases e2
    · exact same hm

theorem identify_props {p p' : Nat} {ty : PropType} (r : Req Q) (h : IdentifyReq p' r) :
    (∃ q ty' now req f, r = .propGetOrCreate q ty' now req f) ∨ Mod.coll (.proj p ty.coll) ∉ r.mods := by
  cases r <;> simp only [IdentifyReq] at h
  case propGetOrCreate => exact .inl ⟨_, _, _, _, _, rfl⟩
  all_goals exact .inr (by simp [Req.mods])

theorem track_props {p p' g : Nat} (r : Req Q) (h : TrackReq p' r) :
    (∃ q ty' now req f, r = .propGetOrCreate q ty' now req f) ∨ Mod.coll (.proj p (PropType.group g).coll) ∉ r.mods := by
  rcases h with h | h | h
  · cases r <;> simp only [ResolveReq] at h
    case propGetOrCreate => exact .inl ⟨_, _, _, _, _, rfl⟩
    all_goals exact .inr (by simp [Req.mods, PropType.coll])
  · cases r <;> simp only [SendReq] at h <;> exact .inr (by simp [Req.mods])
  · subst h; exact .inr (by simp [Req.mods])

/-! ## Cells of stored values -/

/-- The stored values are of properties which, if system properties, have columns unlike those of other properties. -/
def SysApart (sys : Str → Str) (p g : Nat) (kv : Kv) (vals : List PropVal) : Prop :=
  ∀ v ∈ vals, ∀ q, (propsC p (.group g)).getById v.propertyId kv = .ok q → q.isSystem = true → ¬ PropCol (sys q.name)

theorem valueCells_cons {sys : Str → Str} {p g : Nat} {v : PropVal} {vals : List PropVal} {cells : List NamedValue} {w w' : World}
    (h : valueCells sys p g (v :: vals) w = (.ok cells, w')) : ∃ q rest, (propsC p (.group g)).getById v.propertyId w.kv = .ok q ∧
      valueCells sys p g vals w = (.ok rest, w') ∧ cells = nv (q.columnName sys) (toStore v.value) :: rest := by
  obtain ⟨c, wa, h1, h2⟩ := bind_ok h
  obtain ⟨rest, wb, h3, h4⟩ := bind_ok h2
  obtain ⟨q, wc, h5, h6⟩ := bind_ok h1
  obtain ⟨h7, rfl⟩ := read_ok h5
  cases h6
  cases h4
  exact ⟨q, rest, h7, h3, rfl⟩

theorem valueCells_world {sys : Str → Str} {p g : Nat} {vals : List PropVal} {cells : List NamedValue} {w w' : World}
    (h : valueCells sys p g vals w = (.ok cells, w')) : w' = w := by
  induction vals generalizing cells with
  | nil => cases h; rfl
  | cons v vals ih =>
    obtain ⟨q, rest, -, h2, -⟩ := valueCells_cons h
    exact ih h2

theorem valueCells_name {sys : Str → Str} {p g : Nat} {vals : List PropVal} {cells : List NamedValue} {w w' : World}
    (h : valueCells sys p g vals w = (.ok cells, w')) : ∀ c ∈ cells, ∃ v ∈ vals, ∃ q, (propsC p (.group g)).getById v.propertyId w.kv = .ok q ∧
      c.name = String.ofList (q.columnName sys) := by
  induction vals generalizing cells with
  | nil => cases h; intro c hc; cases hc
  | cons v vals ih =>
    obtain ⟨q, rest, h1, h2, rfl⟩ := valueCells_cons h
    intro c hc
    rcases List.mem_cons.mp hc with rfl | hc
    · exact ⟨v, by simp, q, h1, rfl⟩
    · obtain ⟨v', hv', q', h3⟩ := ih h2 c hc
      exact ⟨v', by simp [hv'], q', h3⟩

theorem valueOf_mem {l : List PropVal} {i : Nat} {x : GValue} (h : valueOf l i = some x) : ∃ v ∈ l, v.propertyId = i ∧ v.value = x := by
  unfold valueOf at h
  rw [Option.map_eq_some_iff] at h
  obtain ⟨v, h1, h2⟩ := h
  exact ⟨v, List.mem_of_find?_eq_some h1, by simpa using List.find?_some h1, h2⟩

/-- The column of a property not written by the cells of other properties of the kind. -/
theorem sysApart_ne {S : Meta.Env Q} {n : Nat} {kv : Kv} (hc : CHist S n kv) (hn : n < 2 ^ 62) {p g : Nat} {ty : PropType} {i j : Nat} {q q' : Property}
    (h1 : (propsC p ty).getById i kv = .ok q) (hq : q.isSystem = false) (h2 : (propsC p (.group g)).getById j kv = .ok q')
    (hs : q'.isSystem = true → ¬ PropCol (S.sys q'.name)) (hne : ¬ (ty = .group g ∧ i = j)) : q'.columnName S.sys ≠ q.columnName S.sys := by
  intro e
  cases hsy : q'.isSystem with
  | true =>
    have e2 : q'.columnName S.sys = S.sys q'.name := by unfold Property.columnName; rw [if_pos hsy]
    have := hs hsy
    rw [← e2, e] at this
    exact this (columnName_col hq)
  | false =>
    have := C40_partial hc hn h2 h1 hsy hq e
    exact hne ⟨this.1.symm, this.2.symm⟩

theorem valueCells_val {S : Meta.Env Q} {n : Nat} {w w' : World} (hc : CHist S n w.kv) (hn : n < 2 ^ 62) {p g : Nat} {vals : List PropVal} {cells : List NamedValue}
    (h : valueCells S.sys p g vals w = (.ok cells, w')) {i : Nat} {x : GValue} (hv : valueOf vals i = some x) :
    ∃ q, (propsC p (.group g)).getById i w.kv = .ok q ∧
      (q.isSystem = false → SysApart S.sys p g w.kv vals → ∀ rest, val (cells ++ rest) (q.columnName S.sys) = toStore x) := by
  induction vals generalizing cells with
  | nil => cases hv
  | cons v vals ih =>
    obtain ⟨q0, rest0, h1, h2, rfl⟩ := valueCells_cons h
    rw [valueOf_cons] at hv
    by_cases hi : v.propertyId = i
    · rw [if_pos hi] at hv
      cases hv
      subst hi
      exact ⟨q0, h1, fun _ _ rest => by rw [List.cons_append, val_cons, if_pos rfl]⟩
    · rw [if_neg hi] at hv
      obtain ⟨q, h3, h4⟩ := ih h2 hv
      refine ⟨q, h3, fun hq hs rest => ?_⟩
      rw [List.cons_append, val_cons, if_neg (sysApart_ne hc hn h3 hq h1 (hs v (by simp) q0 h1) fun e => hi e.2.symm)]
      exact h4 hq (fun v' hv' => hs v' (by simp [hv'])) rest

/-! ## Values through other requests -/

theorem hasValues_same {p g : Nat} {a b : Kv} (h : Same (.grp p g) a b) (ha : GShape p g a) (hb : GShape p g b) (s : Str) (vs : List PropVal) :
    HasValues p g b s vs ↔ HasValues p g a s vs := by
  rw [hasValues_iff ha, hasValues_iff hb, h (.real p g s) trivial rfl]

end OptiPrism.Ingest
