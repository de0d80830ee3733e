import Verif.Ingest.AcceptAll
import Verif.Ingest.IngestProps

/-!
# Dates are refused
-/

namespace OptiPrism.Ingest

open OptiPrism.Meta
open OptiPrism.Storage (Bytes Value NamedValue Tbl InsertErr ColType Field Row KeyValue typeOk fromLE)

variable {Q : Type} {S : Meta.Env Q} {T : Str → Bool} {n : Nat} {w : World}

/-- A cell whose column is of another type. -/
def BadCell (sys : Str → Str) (p : Nat) (kv : Kv) (c : NamedValue) : Prop :=
  ∃ ty id r, (propsC p ty).live kv id = some r ∧ c.name = String.ofList (r.columnName sys) ∧ ∃ dt, rule r = some dt ∧ typeOk c.value dt = false

theorem BadCell.ext {sys : Str → Str} {p : Nat} {kv kv' : Kv} {c : NamedValue} (h : BadCell sys p kv c) (he : Ext kv kv') : BadCell sys p kv' c := by
  obtain ⟨ty, id, r, h1, h2, dt, h3, h4⟩ := h
  obtain ⟨r', g1, g2⟩ := he.props _ _ _ _ h1
  exact ⟨ty, id, r', g1, by rw [h2, g2.column], dt, by rw [g2.rule]; exact h3, h4⟩

theorem validate_bad {sys : Str → Str} (hk : KeepsSys sys) {t : Tbl} (h : TabInv sys t) {vs : List NamedValue} {v : NamedValue} (hv : v ∈ vs) {r : Property}
    (hn : v.name = String.ofList (r.columnName sys)) {dt : ColType} (hr : rule r = some dt) (ht : typeOk v.value dt = false) : Storage.validate t.schema vs ≠ none := by
  induction vs with
  | nil => cases hv
  | cons a vs ih =>
    unfold Storage.validate
    cases hf : t.schema.find? (fun f => f.name == a.name) with
    | none => simp
    | some f =>
      dsimp only
      rcases List.mem_cons.mp hv with rfl | hv
      · have hm := List.mem_of_find?_eq_some hf
        have hfn := List.find?_some hf
        have e := h.dt hk hm (r := r) (by rw [hr]; rfl) (by rw [← hn]; simpa using hfn)
        rw [hr] at e
        cases e
        rw [ht]
        simp
      · split
        · exact ih hv
        · simp

theorem Goes.insert_bad (hk : KeepsSys S.sys) (hw : WInv S T n w) {t : Str} {a b : Str} {x y : Nat} {vs : List NamedValue} (hab : a ≠ b) {p : Nat} {c : NamedValue}
    (hc : c ∈ vs) (hb : BadCell S.sys p w.kv c) {P : Unit → World → Prop} :
    Goes S T n w 0 False (insertRow t (nv a (i64 x) :: nv b (i64 y) :: vs)) P := by
  have h := Goes.insert (ok := False) (t := t) (x := x) (y := y) (vs := vs) hk hw hab (fun h => h.elim)
  refine ⟨h.inv, h.near, fun h => h.elim, fun u e => ?_⟩
  obtain ⟨ty, id, r, h1, h2, dt, h3, h4⟩ := hb
  have hv := validate_bad hk (hw.tabs t) (vs := nv a (i64 x) :: nv b (i64 y) :: vs) (by simp [hc]) h2 h3 h4
  unfold insertRow Tbl.insert at e
  cases hval : Storage.validate (w.tbl t).schema (nv a (i64 x) :: nv b (i64 y) :: vs) with
  | none => exact absurd hval hv
  | some err => rw [hval] at e; cases e

theorem each_made {α β : Type} {f : α → M β} {l : List α} {w w' : World} {bs : List β} (h : each f l w = (.ok bs, w')) :
    ∀ a ∈ l, ∃ b ∈ bs, ∃ w1 w2, f a w1 = (.ok b, w2) := by
  induction l generalizing w bs with
  | nil => intro a ha; cases ha
  | cons x l ih =>
    intro a ha
    unfold each M.bind at h
    cases h1 : f x w with
    | mk y w1 =>
      rw [h1] at h
      cases y with
      | error e => cases h
      | ok b =>
        dsimp only at h
        cases h2 : each f l w1 with
        | mk z w2 =>
          rw [h2] at h
          cases z with
          | error e => cases h
          | ok bs' =>
            cases h
            rcases List.mem_cons.mp ha with rfl | ha
            · exact ⟨b, by simp, _, _, h1⟩
            · obtain ⟨b', hb', h3⟩ := ih h2 a ha
              exact ⟨b', by simp [hb'], h3⟩

/-- A date is stored as seconds, if at all, and then for a timestamp. -/
theorem date_cell {sys : Str → Str} {p : Nat} {t : Str} {r : Property} (hr : Ruled r) {v : PropValue} (hv : v.isDate = true) {w w' : World} {gv : GValue}
    (h : propertyToValue sys p t (r, v) w = (.ok gv, w')) : ∃ dt, rule r = some dt ∧ typeOk (toStore gv) dt = false := by
  cases v with
  | date d =>
    unfold propertyToValue at h
    dsimp only at h
    cases hd : r.isDictionary with
    | true => rw [if_pos hd] at h; cases h
    | false =>
      rw [if_neg (by simp [hd])] at h
      have hnone : r.dictType = none := by
        have := hr.dict
        rw [hd] at this
        exact Option.isSome_eq_false_iff.mp this.symm |> Option.isNone_iff_eq_none.mp
      have hcol := hr.col
      unfold colType at hcol
      rw [hnone] at hcol
      dsimp only at hcol
      unfold ofExcept plainCell at h
      generalize r.dataType = dt at h hcol
      cases dt <;> simp at h
      obtain ⟨h, -⟩ := h
      subst h
      exact ⟨.timestamp, hcol.symm, rfl⟩
  | _ => cases hv

theorem propCells_bad (hk : KeepsSys S.sys) (hw : WInv S T n w) {p : Nat} (hp : p ≤ lastId w.kv (.top .projects)) {l : List (Property × PropValue)}
    (hl : ∀ b ∈ l, PropFor False p .event b w.kv) (hn : n + l.length + 1 < 2 ^ 62) {b : Property × PropValue} (hb : b ∈ l) (hd : b.2.isDate = true) :
    Goes S T n w l.length False (propCells S.sys p kEvents l) (fun cs w' => ∃ c ∈ cs, BadCell S.sys p w'.kv c) := by
  have h := propCells_goes hk hw hp hl hn
  refine ⟨h.inv, h.near, fun h => h.elim, fun cs e => ?_⟩
  have e' : propCells S.sys p kEvents l w = (.ok cs, (propCells S.sys p kEvents l w).2) := Prod.ext e rfl
  obtain ⟨c, hc, w1, w2, h1⟩ := each_made (f := fun pv => (propertyToValue S.sys p kEvents pv).bind fun v => M.pure (nv (pv.1.columnName S.sys) (toStore v))) e' b hb
  refine ⟨c, hc, ?_⟩
  obtain ⟨r, g1, g2⟩ := ((hl b hb).ext h.near.1).live
  unfold M.bind at h1
  cases h2 : propertyToValue S.sys p kEvents b w1 with
  | mk y w3 =>
    rw [h2] at h1
    cases y with
    | error x => cases h1
    | ok gv =>
      cases h1
      obtain ⟨dt, h3, h4⟩ := date_cell (hl b hb).ruled hd (v := b.2) h2
      exact ⟨.event, _, r, g1, by show String.ofList _ = _; rw [g2.column], dt, by rw [g2.rule]; exact h3, h4⟩

theorem sendTrack_bad (hk : KeepsSys S.sys) (hw : WInv S T n w) {p : Nat} (hp : p ≤ lastId w.kv (.top .projects)) (hr : Ready p w.kv) {E : Env Track} (hE : E.sys = S.sys)
    {req : Track} {r : Resolved} (hu : r.user < 2 ^ 64) (hl : ∀ b ∈ r.props.getD [], PropFor False p .event b w.kv) (hg : ∀ g ∈ r.groups.getD [], GroupFit p w.kv g)
    (hn : n + (r.props.getD []).length + 10 < 2 ^ 62) {b : Property × PropValue} (hb : b ∈ r.props.getD []) (hd : b.2.isDate = true) :
    Goes S T n w ((r.props.getD []).length + 8) False (sendTrack E p req r) (fun _ _ => False) := by
  unfold sendTrack
  rw [hE]
  refine (Goes.bind (B := 1) (C := (r.props.getD []).length + 7) (session_goes hw (by omega) hp hu E.now) fun isNew w1 hw1 hn1 _ => ?_).mono (by omega) fun _ _ _ _ h => h
  have hp1 := Nat.le_trans hp hn1.1.projects
  refine Goes.bind (B := (r.props.getD []).length) (C := 7) (propCells_bad hk hw1 hp1 (fun b hb => (hl b hb).ext hn1.1) (by omega) hb hd) fun props w2 hw2 hn2 ⟨c, hc, hbad⟩ => ?_
  have hp2 := Nat.le_trans hp1 hn2.1.projects
  refine (Goes.bind (B := 0) (C := 7) (groupValueCells_goes hw2 (by omega) (fun g h => ((hg g h).ext hn1.1).ext hn2.1)) fun gprops w3 hw3 hn3 _ => ?_).mono (by omega) fun _ _ _ _ h => h
  have hp3 := Nat.le_trans hp2 hn3.1.projects
  have hr3 := ((hr.ext hn1.1).ext hn2.1).ext hn3.1
  refine Goes.bind (B := 5) (C := 2) (utmCells_goes hk hw3 hp3 hr3 req.campaign (by omega)) fun utm w4 hw4 hn4 _ => ?_
  have hp4 := Nat.le_trans hp3 hn4.1.projects
  have hr4 := hr3.ext hn4.1
  have hbad4 := (hbad.ext hn3.1).ext hn4.1
  have hc' : c ∈ props ++ gprops.flatten := List.mem_append.mpr (.inl hc)
  generalize props ++ gprops.flatten = cells at hc'
  refine Goes.bind (B := 1) (C := 1) (P := fun _ _ => True) ?_ fun _ w5 hw5 hn5 _ => ?_
  · cases isNew with
    | false => exact (Goes.pure hw4 trivial).mono (by omega) fun _ _ _ _ h => h
    | true =>
      refine Goes.bind (B := 1) (C := 0) (record_goes hw4 (by omega) hp4) fun rec w5 hw5 hn5 _ => ?_
      refine Goes.bind (B := 0) (C := 0) (P := fun _ w6 => w6 = w5) (Goes.read hw5 (fun h => h.elim) fun _ _ => rfl) fun ev w6 hw6 hn6 e => ?_
      subst e
      refine Goes.insert_bad hk hw6 key_cols.1 (c := c) ?_ (hbad4.ext hn5.1)
      exact List.mem_append.mpr (.inr hc')
  · refine Goes.bind (B := 1) (C := 0) (record_goes hw5 (by omega) (Nat.le_trans hp4 hn5.1.projects)) fun rec w6 hw6 hn6 _ => ?_
    refine Goes.insert_bad hk hw6 key_cols.1 (c := c) ?_ ((hbad4.ext hn5.1).ext hn6.1)
    exact List.mem_append.mpr (.inr hc')

theorem resolveProperty_value {sys : Str → Str} {now : Time} {p : Nat} {ty : PropType} {a : Str × PropValue} {b : Property × PropValue} {w w' : World}
    (h : resolveProperty sys now p ty a w = (.ok b, w')) : b.2 = a.2 := by
  unfold resolveProperty at h
  split at h
  · cases h
  · cases h; rfl

theorem resolveTrack_bad (hw : WInv S T n w) {p : Nat} (hp : p ≤ lastId w.kv (.top .projects)) (hp64 : p < 2 ^ 64) (hr : Ready p w.kv) {D : Detect} {now : Time}
    {req : Track} (hone : req.userId = none ∨ req.anonId = none) {x : Str × PropValue} (hx : x ∈ req.props.getD []) (hd : x.2.isDate = true)
    (hn : n + (req.props.getD []).length + 3 * (req.groups.getD []).length + 8 < 2 ^ 62) :
    Goes S T n w ((req.props.getD []).length + 3 * (req.groups.getD []).length + 4) False (resolveTrack (detectEnv D S.sys now) p req)
      (fun r w' => r.user < 2 ^ 64 ∧ (∀ b ∈ r.props.getD [], PropFor False p .event b w'.kv) ∧ (∀ g ∈ r.groups.getD [], GroupFit p w'.kv g) ∧
        (r.props.getD []).length ≤ (req.props.getD []).length + 14 ∧ ∃ b ∈ r.props.getD [], b.2.isDate = true) := by
  have q := resolveTrack_goes (ok := False) hw (D := D) (now := now) hp hp64 hr (ks := (req.groups.getD []).map Prod.fst) (fun g hg => List.mem_map.mpr ⟨g, hg, rfl⟩) hone
    (fun h => h.elim) hn
  refine ⟨q.inv, q.near, fun h => h.elim, fun r e => ?_⟩
  obtain ⟨h1, h2, h3, h4⟩ := q.post r e
  refine ⟨h1, h2, h3, h4, ?_⟩
  have e' : resolveTrack (detectEnv D S.sys now) p req w = (.ok r, (resolveTrack (detectEnv D S.sys now) p req w).2) := Prod.ext e rfl
  generalize (resolveTrack (detectEnv D S.sys now) p req w).2 = w' at e'
  unfold resolveTrack at e'
  obtain ⟨props, wa, e1, ha⟩ := bind_ok e'
  obtain ⟨u, wb, e2, hb⟩ := bind_ok ha
  obtain ⟨groups, wc, e3, hc⟩ := bind_ok hb
  obtain ⟨ev, wd, e4, hd'⟩ := bind_ok hc
  obtain ⟨_, we, e5, he⟩ := bind_ok hd'
  obtain ⟨props', wf, e6, hf⟩ := bind_ok he
  cases hf
  have hprops : ∃ b ∈ props.getD [], b.2.isDate = true := by
    cases hreq : req.props with
    | none => rw [hreq] at hx; cases hx
    | some l =>
      rw [hreq] at hx e1
      unfold resolveProperties at e1
      dsimp only at e1
      obtain ⟨bs, wg, e7, hg⟩ := bind_ok e1
      cases hg
      obtain ⟨b, hb', w1, w2, e8⟩ := each_made e7 x hx
      exact ⟨b, hb', by rw [resolveProperty_value e8]; exact hd⟩
  unfold transformed at e6
  split at e6
  · cases e6
  · rename_i l' hl'
    obtain ⟨more, rfl, -⟩ := transform_found hl'
    simp only [Prod.mk.injEq, Except.ok.injEq] at e6
    obtain ⟨e6, -⟩ := e6
    subst e6
    obtain ⟨b, hb', hbd⟩ := hprops
    dsimp only
    split
    · exact ⟨b, hb', hbd⟩
    · exact ⟨b, by simp [hb'], hbd⟩

theorem track_date (hk : KeepsSys S.sys) (hw : LInv S T n w) {D : Detect} {now : Time} {token : Str} {req : Track} (hone : req.userId = none ∨ req.anonId = none)
    {x : Str × PropValue} (hx : x ∈ req.props.getD []) (hd : x.2.isDate = true)
    (hn : n + 2 * (req.props.getD []).length + 3 * (req.groups.getD []).length + 40 < 2 ^ 62) (u : Unit) :
    (executeTrack (detectEnv D S.sys now) token req w).1 ≠ .ok u := by
  intro hu
  have e' : executeTrack (detectEnv D S.sys now) token req w = (.ok u, (executeTrack (detectEnv D S.sys now) token req w).2) := Prod.ext hu rfl
  generalize (executeTrack (detectEnv D S.sys now) token req w).2 = w' at e'
  unfold executeTrack at e'
  obtain ⟨project, wa, e1, ha⟩ := bind_ok e'
  obtain ⟨r, wb, e2, hb⟩ := bind_ok ha
  obtain ⟨_, wc, e3, hc⟩ := bind_ok hb
  have hp : getByToken token w.kv = .ok project ∧ wa = w := by
    unfold read callRaw at e1
    dsimp only at e1
    cases h : getByToken token w.kv with
    | error e => rw [h] at e1; cases e1
    | ok q => rw [h] at e1; cases e1; exact ⟨rfl, rfl⟩
  obtain ⟨hp, rfl⟩ := hp
  obtain ⟨-, h0, hle⟩ := token_project hw.inv.kv (by omega) hp
  have hlt := (hw.inv.kv.pinv (by omega)).1.lt
  have hgo := Goes.bind (n := n) (w := wa) (ok := False) (B := (req.props.getD []).length + 3 * (req.groups.getD []).length + 4)
    (C := (req.props.getD []).length + 22)
    (resolveTrack_bad hw.inv (D := D) (now := now) hle (by omega) (hw.ready _ h0 hle) hone hx hd (by omega))
    (R := fun _ _ => False) (f := sendTrack (detectEnv D S.sys now) project.id req) fun r w1 hw1 hn1 hr => by
      obtain ⟨h1, h2, h3, h4, b, hb, hbd⟩ := hr
      exact (sendTrack_bad hk hw1 (Nat.le_trans hle hn1.1.projects) ((hw.ready _ h0 hle).ext hn1.1) rfl h1 h2 h3 (by omega) hb hbd).mono
        (by omega) fun _ _ _ _ h => h
  refine hgo.post () ?_
  unfold M.bind
  rw [e2]
  dsimp only
  rw [e3]

end OptiPrism.Ingest
