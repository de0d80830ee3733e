import Verif.Ingest.Hist
import Verif.Storage.InsertProps

/-!
# What ingestion writes to the tables
-/

namespace OptiPrism.Ingest

open OptiPrism.Meta
open OptiPrism.Storage (Bytes Value NamedValue Tbl InsertErr ColType Field Row)

variable {α β : Type}

theorem bind_ok {x : M α} {f : α → M β} {w w' : World} {b : β} (h : x.bind f w = (.ok b, w')) : ∃ a w1, x w = (.ok a, w1) ∧ f a w1 = (.ok b, w') := by
  unfold M.bind at h
  rcases hx : x w with ⟨_ | a, w1⟩ <;> rw [hx] at h
  · cases h
  · exact ⟨a, w1, rfl, h⟩

/-- Inserts nothing. -/
def NoRows (x : M α) : Prop := ∀ w, (x w).2.rows = w.rows

/-- Leaves the tables alone. -/
def NoTbl (x : M α) : Prop := ∀ w, (x w).2.rows = w.rows ∧ (x w).2.tbl = w.tbl

theorem NoTbl.noRows {x : M α} (h : NoTbl x) : NoRows x := fun w => (h w).1

theorem NoRows.bind {x : M α} {f : α → M β} (hx : NoRows x) (hf : ∀ a, NoRows (f a)) : NoRows (x.bind f) := by
  intro w
  have h1 := hx w
  unfold M.bind
  rcases hx' : x w with ⟨_ | a, w1⟩ <;> rw [hx'] at h1
  · exact h1
  · exact (hf a w1).trans h1

theorem NoTbl.bind {x : M α} {f : α → M β} (hx : NoTbl x) (hf : ∀ a, NoTbl (f a)) : NoTbl (x.bind f) := by
  intro w
  have h1 := hx w
  unfold M.bind
  rcases hx' : x w with ⟨_ | a, w1⟩ <;> rw [hx'] at h1
  · exact h1
  · exact ⟨(hf a w1).1.trans h1.1, (hf a w1).2.trans h1.2⟩

theorem NoTbl.pure (a : α) : NoTbl (M.pure a) := fun _ => ⟨rfl, rfl⟩
theorem NoTbl.fail (e : Fail) : NoTbl (fail e : M α) := fun _ => ⟨rfl, rfl⟩
theorem NoTbl.ofExcept (e : Except Fail α) : NoTbl (ofExcept e) := fun _ => ⟨rfl, rfl⟩
theorem NoTbl.callRaw (f : Kv → Except Err α × Kv) : NoTbl (callRaw f) := by
  intro w
  unfold Ingest.callRaw
  split <;> exact ⟨rfl, rfl⟩
theorem NoTbl.call (c : Call α) : NoTbl (call c) := NoTbl.callRaw _
theorem NoTbl.read (f : Kv → Except Err α) : NoTbl (read f) := NoTbl.callRaw _

theorem NoTbl.each {f : α → M β} (l : List α) (h : ∀ a, NoTbl (f a)) : NoTbl (each f l) := by
  induction l with
  | nil => exact .pure _
  | cons a l ih => exact (h a).bind fun b => ih.bind fun bs => .pure _

theorem NoRows.each {f : α → M β} (l : List α) (h : ∀ a, NoRows (f a)) : NoRows (each f l) := by
  induction l with
  | nil => exact (NoTbl.pure _).noRows
  | cons a l ih => exact (h a).bind fun b => ih.bind fun bs => (NoTbl.pure _).noRows

theorem addColumns_rows (sys : Str → Str) (r : Property) (w : World) : (addColumns sys r w).rows = w.rows := by
  unfold addColumns addColumn
  repeat' (first | rfl | split)
  all_goals (dsimp only; repeat' (first | rfl | split))

theorem resolveProperty_noRows (sys : Str → Str) (now : Time) (p : Nat) (ty : PropType) (nvp : Str × PropValue) : NoRows (resolveProperty sys now p ty nvp) := by
  intro w
  unfold resolveProperty
  have := (NoTbl.call (propGetOrCreate sys p ty now (propReq ty nvp.1 nvp.2) (.ok ()))) w
  rcases hx : call (propGetOrCreate sys p ty now (propReq ty nvp.1 nvp.2) (.ok ())) w with ⟨_ | a, w1⟩ <;> rw [hx] at this
  · exact this.1
  · dsimp only at this ⊢
    split
    · exact this.1
    · rw [addColumns_rows]; exact this.1

theorem resolveProperties_noRows (sys : Str → Str) (now : Time) (p : Nat) (ty : PropType) (props : Option (List (Str × PropValue))) :
    NoRows (resolveProperties sys now p ty props) := by
  cases props with
  | none => exact (NoTbl.pure _).noRows
  | some l => exact (NoRows.each l (resolveProperty_noRows sys now p ty)).bind fun _ => (NoTbl.pure _).noRows

theorem resolveUser_noTbl (p : Nat) (u a : Option Str) : NoTbl (resolveUser p u a) := by
  cases u <;> cases a <;> unfold resolveUser <;> dsimp only
  · exact .fail _
  · exact (NoTbl.call _).bind fun _ => (NoTbl.call _).bind fun _ => .pure _
  · exact (NoTbl.call _).bind fun _ => (NoTbl.call _).bind fun _ => .pure _
  · exact (NoTbl.callRaw _).bind fun _ => .pure _

theorem resolveGroups_noTbl (p : Nat) (user : Option GroupValues) (groups : Option (List (Str × Str))) : NoTbl (resolveGroups p user groups) := by
  cases groups with
  | none => exact .pure _
  | some l => exact (NoTbl.each l fun g => (NoTbl.call _).bind fun _ => (NoTbl.call _).bind fun _ => (NoTbl.call _).bind fun _ => .pure _).bind fun _ => .pure _

theorem attachProps_noTbl (p ev : Nat) (props : Option (List (Property × PropValue))) : NoTbl (attachProps p ev props) := by
  cases props with
  | none => exact .pure _
  | some l => exact (NoTbl.call _).bind fun _ => .pure _

theorem transformed_noTbl (E : Env Track) (p : Nat) (req : Track) (props : Option (List (Property × PropValue))) : NoTbl (transformed E p req props) := by
  intro w
  unfold transformed
  split <;> exact ⟨rfl, rfl⟩

theorem resolveTrack_noRows (E : Env Track) (p : Nat) (req : Track) : NoRows (resolveTrack E p req) :=
  (resolveProperties_noRows _ _ _ _ _).bind fun _ => ((resolveUser_noTbl _ _ _).bind fun _ => (resolveGroups_noTbl _ _ _).bind fun _ =>
    (NoTbl.callRaw _).bind fun _ => (attachProps_noTbl _ _ _).bind fun _ => (transformed_noTbl _ _ _ _).bind fun _ => .pure _).noRows

theorem propertyToValue_noTbl (sys : Str → Str) (p : Nat) (t : Str) (pv : Property × PropValue) : NoTbl (propertyToValue sys p t pv) := by
  unfold propertyToValue
  split
  · split
    · refine (NoTbl.call _).bind fun _ => ?_
      split
      · exact .fail _
      · exact .pure _
    · exact .fail _
  · exact .ofExcept _

theorem propCells_noTbl (sys : Str → Str) (p : Nat) (t : Str) (props : List (Property × PropValue)) : NoTbl (propCells sys p t props) :=
  .each _ fun _ => (propertyToValue_noTbl _ _ _ _).bind fun _ => .pure _

theorem valueCells_noTbl (sys : Str → Str) (p g : Nat) (vals : List PropVal) : NoTbl (valueCells sys p g vals) :=
  .each _ fun _ => (NoTbl.read _).bind fun _ => .pure _

theorem utmCells_noTbl (sys : Str → Str) (p : Nat) (c : Option Campaign) : NoTbl (utmCells sys p c) := by
  cases c with
  | none => exact .pure _
  | some c => exact .each _ fun _ => (NoTbl.read _).bind fun _ => (propertyToValue_noTbl _ _ _ _).bind fun _ => .pure _

/-- An accepted insert, seen from outside. -/
theorem insertRow_ok {t : Str} {vs : List NamedValue} {w w' : World} (h : insertRow t vs w = (.ok (), w')) :
    ∃ t', (w.tbl t).insert vs = .ok t' ∧ w'.tbl = (fun n => if n = t then t' else w.tbl n) ∧ w'.rows = w.rows ++ [(t, vs)] ∧ w'.kv = w.kv := by
  unfold insertRow at h
  split at h
  · cases h
  · rename_i t' ht
    cases h
    exact ⟨t', ht, rfl, rfl, rfl⟩

theorem call_ok {c : Call α} {w w' : World} {a : α} (h : call c w = (.ok a, w')) : c w.kv = .ok (a, w'.kv) ∧ w' = { w with kv := w'.kv } := by
  unfold call callRaw runCall at h
  cases hc : c w.kv with
  | error e => rw [hc] at h; cases h
  | ok x =>
    rw [hc] at h
    cases h
    exact ⟨rfl, rfl⟩

theorem callRaw_ok {f : Kv → Except Err α × Kv} {w w' : World} {a : α} (h : callRaw f w = (.ok a, w')) : f w.kv = (.ok a, w'.kv) ∧ w' = { w with kv := w'.kv } := by
  unfold callRaw at h
  rcases hc : f w.kv with ⟨_ | x, kv⟩
  · rw [hc] at h; cases h
  · rw [hc] at h
    cases h
    exact ⟨rfl, rfl⟩

theorem read_ok {f : Kv → Except Err α} {w w' : World} {a : α} (h : read f w = (.ok a, w')) : f w.kv = .ok a ∧ w' = w := by
  obtain ⟨h1, h2⟩ := callRaw_ok h
  injection h1 with h1 h3
  refine ⟨h1, ?_⟩
  rw [h2, ← h3]

/-- The cells of the properties, and the cells of the campaign, of a request sent from `w`; `kv2` is the store when the event's record
number is drawn. -/
structure CellsOf (E : Env Track) (p : Nat) (req : Track) (r : Resolved) (w : World) (isNew : Bool) (cells utm : List NamedValue) (kv2 : Kv) : Prop where
  nocamp : req.campaign = none → utm = []
  made : ∃ w1 w2 w3 w4 props gprops, call (setCurrentTime p r.user E.now) w = (.ok isNew, w1) ∧
    propCells E.sys p kEvents (r.props.getD []) w1 = (.ok props, w2) ∧
    each (fun g => valueCells E.sys p g.1 g.2.values) (r.groups.getD []) w2 = (.ok gprops, w3) ∧
    utmCells E.sys p req.campaign w3 = (.ok utm, w4) ∧ cells = props ++ gprops.flatten ∧
    if isNew then ∃ rec1, nextSeq (.recSeq p) w4.kv = .ok (rec1, kv2) else kv2 = w4.kv

theorem sendTrack_ok {E : Env Track} {p : Nat} {req : Track} {r : Resolved} {w w' : World} (h : sendTrack E p req r w = (.ok (), w')) :
    ∃ isNew kv1 cells utm rec kv2 kv3 t', setCurrentTime p r.user E.now w.kv = .ok (isNew, kv1) ∧
      nextSeq (.recSeq p) kv2 = .ok (rec, kv3) ∧ w'.kv = kv3 ∧ CellsOf E p req r w isNew cells utm kv2 ∧
      (if isNew then ∃ rec1 ev t1, (∃ kv4, nextSeq (.recSeq p) kv4 = .ok (rec1, kv2)) ∧ (eventsC p).getBy .name kSessionBegin kv2 = .ok ev ∧
        (w.tbl kEvents).insert (sessionRow p r.user rec1 ev.id req.time req.ip (groupCells r.groups) utm cells) = .ok t1 ∧
        t1.insert (eventRow p r.user rec r.event.id req.time (groupCells r.groups) cells) = .ok t' ∧
        w'.rows = w.rows ++ [(kEvents, sessionRow p r.user rec1 ev.id req.time req.ip (groupCells r.groups) utm cells),
          (kEvents, eventRow p r.user rec r.event.id req.time (groupCells r.groups) cells)]
      else (w.tbl kEvents).insert (eventRow p r.user rec r.event.id req.time (groupCells r.groups) cells) = .ok t' ∧
        w'.rows = w.rows ++ [(kEvents, eventRow p r.user rec r.event.id req.time (groupCells r.groups) cells)]) ∧
      w'.tbl = fun n => if n = kEvents then t' else w.tbl n := by
  unfold sendTrack at h
  obtain ⟨isNew, w1, h1, h⟩ := bind_ok h
  obtain ⟨props, w2, h2, h⟩ := bind_ok h
  obtain ⟨gprops, w3, h3, h⟩ := bind_ok h
  obtain ⟨utm, w4, h4, h⟩ := bind_ok h
  obtain ⟨_, w5, h5, h⟩ := bind_ok h
  obtain ⟨rec, w6, h6, h⟩ := bind_ok h
  obtain ⟨e1, f1⟩ := call_ok h1
  have q2 := propCells_noTbl E.sys p kEvents (r.props.getD []) w1
  have q3 := NoTbl.each (r.groups.getD []) (fun g => valueCells_noTbl E.sys p g.1 g.2.values) w2
  have q4 := utmCells_noTbl E.sys p req.campaign w3
  rw [h2] at q2; rw [h3] at q3; rw [h4] at q4
  obtain ⟨e6, f6⟩ := call_ok h6
  obtain ⟨t', e7, g7, r7, k7⟩ := insertRow_ok h
  have hrows4 : w4.rows = w.rows := by rw [q4.1, q3.1, q2.1, f1]
  have htbl4 : w4.tbl = w.tbl := by rw [q4.2, q3.2, q2.2, f1]
  refine ⟨isNew, w1.kv, props ++ gprops.flatten, utm, rec, w5.kv, w6.kv, t', e1, e6, k7, ⟨fun hc => ?_, w1, w2, w3, w4, props, gprops, h1, h2, h3, h4, rfl, ?_⟩, ?_⟩
  · rw [hc] at h4; cases h4; rfl
  · cases isNew with
    | false => rw [if_neg (by simp)] at h5 ⊢; cases h5; rfl
    | true =>
      rw [if_pos rfl] at h5 ⊢
      obtain ⟨rec1, w8, h8, ha⟩ := bind_ok h5
      obtain ⟨ev, w9, h9, hb⟩ := bind_ok ha
      obtain ⟨-, rfl⟩ := read_ok h9
      obtain ⟨-, -, -, -, k10⟩ := insertRow_ok hb
      exact ⟨rec1, by rw [k10]; exact (call_ok h8).1⟩
  cases isNew with
  | false =>
    rw [if_neg (by simp)] at h5
    cases h5
    rw [if_neg (by simp)]
    rw [f6] at e7 r7 g7
    dsimp only at e7 r7 g7
    rw [htbl4] at e7 g7
    rw [hrows4] at r7
    exact ⟨⟨e7, r7⟩, g7⟩
  | true =>
    rw [if_pos rfl] at h5
    rw [if_pos rfl]
    obtain ⟨rec1, w8, h8, h5⟩ := bind_ok h5
    obtain ⟨ev, w9, h9, h5⟩ := bind_ok h5
    obtain ⟨e8, f8⟩ := call_ok h8
    obtain ⟨e9, f9⟩ := read_ok h9
    obtain ⟨t1, e10, g10, r10, k10⟩ := insertRow_ok h5
    subst f9
    rw [f8] at e10 g10 r10
    dsimp only at e10 g10 r10
    rw [htbl4] at e10 g10
    rw [hrows4] at r10
    rw [f6] at e7 r7 g7
    dsimp only at e7 r7 g7
    rw [g10] at e7 g7
    rw [r10] at r7
    simp only [if_true] at e7
    rw [k10]
    refine ⟨⟨rec1, ev, t1, ⟨_, e8⟩, e9, e10, e7, ?_⟩, ?_⟩
    · rw [r7]; simp
    · rw [g7]; funext n; by_cases hn : n = kEvents <;> simp [hn]

end OptiPrism.Ingest
