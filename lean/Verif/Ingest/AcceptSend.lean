import Verif.Ingest.AcceptTrack

/-!
# Rows that the tables take
-/

namespace OptiPrism.Ingest

open OptiPrism.Meta
open OptiPrism.Storage (Bytes Value NamedValue Tbl InsertErr ColType Field Row KeyValue typeOk fromLE)

variable {Q : Type} {S : Meta.Env Q} {T : Str → Bool} {n : Nat} {w : World} {ok : Prop}

/-- A cell of a stored property. -/
def CellOf (sys : Str → Str) (p : Nat) (ty : PropType) (kv : Kv) (c : NamedValue) : Prop :=
  ∃ id r, (propsC p ty).live kv id = some r ∧ c.name = String.ofList (r.columnName sys) ∧ Typed c.value r

theorem CellOf.ext {sys : Str → Str} {p : Nat} {ty : PropType} {kv kv' : Kv} {c : NamedValue} (h : CellOf sys p ty kv c) (he : Ext kv kv') : CellOf sys p ty kv' c := by
  obtain ⟨id, r, h1, h2, h3⟩ := h
  obtain ⟨r', g1, g2⟩ := he.props _ _ _ _ h1
  exact ⟨id, r', g1, by rw [h2, g2.column], h3.same g2⟩

theorem CellOf.event {p : Nat} {ty : PropType} (hw : WInv S T n w) {c : NamedValue} (h : CellOf S.sys p ty w.kv c) : CellFits S.sys (w.tbl kEvents) c := by
  obtain ⟨id, r, h1, h2, h3⟩ := h
  exact ⟨r, h2, (hw.cols _ _ _ _ h1).1, h3⟩

theorem CellOf.group {p g : Nat} (hw : WInv S T n w) {c : NamedValue} (h : CellOf S.sys p (.group g) w.kv c) : CellFits S.sys (w.tbl (groupCol g)) c := by
  obtain ⟨id, r, h1, h2, h3⟩ := h
  exact ⟨r, h2, (hw.cols _ _ _ _ h1).2 g rfl, h3⟩

/-- The columns every event has. -/
theorem eventCell (hk : KeepsSys S.sys) (hw : WInv S T n w) {p : Nat} (hr : Ready p w.kv) {x : Str} {ct : ColType} (hx : (x, ct) ∈ sysTypes.take 10) {v : Value}
    (hv : typeOk v ct = true) : CellFits S.sys (w.tbl kEvents) (nv x v) := by
  have h : ∀ y ∈ sysTypes.take 10, ∃ z ∈ setupSystem, z.name = y.1 ∧ sysTypes.lookup z.name = some y.2 := by decide +kernel
  obtain ⟨z, hz, e, hl⟩ := h _ hx
  have := sysCell hk hw hr hz hl hv
  rwa [e] at this

/-- The columns every group table has. -/
theorem groupCell (hk : KeepsSys S.sys) (hw : WInv S T n w) {p : Nat} (hr : Ready p w.kv) {g : Nat} (hg : g < 5) {x : Str} {ct : ColType}
    (hx : (x, ct) ∈ [(kProjectId, ColType.int64), (kId, .int64), (kVersion, .int64), (kCreatedAt, .timestamp)]) {v : Value}
    (hv : typeOk v ct = true) : CellFits S.sys (w.tbl (groupCol g)) (nv x v) := by
  have h : ∀ g < 5, ∀ y ∈ [(kProjectId, ColType.int64), (kId, .int64), (kVersion, .int64), (kCreatedAt, .timestamp)],
      ∃ z ∈ allSetup, z.typ = .group g ∧ z.system = true ∧ z.name = y.1 ∧ sysTypes.lookup z.name = some y.2 := by decide +kernel
  obtain ⟨z, hz, e, hs, hn, hl⟩ := h g hg _ hx
  obtain ⟨id, r, h1, h2, -, h4, -⟩ := hr.props z hz
  rw [hs] at h4
  rw [e] at h1
  refine ⟨r, ?_, (hw.cols _ _ _ _ h1).2 g rfl, ct, ?_, hv⟩
  · show String.ofList x = _
    unfold Property.columnName
    rw [h4, if_pos rfl, h2, hk _ (lookup_mem (by rw [hl]; rfl)), hn]
  · unfold rule
    rw [h4, if_pos rfl, h2, hl]

theorem propCells_goes (hk : KeepsSys S.sys) (hw : WInv S T n w) {p : Nat} (hp : p ≤ lastId w.kv (.top .projects)) {l : List (Property × PropValue)}
    (hl : ∀ b ∈ l, PropFor ok p .event b w.kv) (hn : n + l.length + 1 < 2 ^ 62) :
    Goes S T n w l.length ok (propCells S.sys p kEvents l) (fun cs w' => ok → ∀ c ∈ cs, CellOf S.sys p .event w'.kv c) := by
  have h := Goes.each (S := S) (T := T) (n := n) (w := w) (ok := ok) (B := 1)
    (f := fun pv => (propertyToValue S.sys p kEvents pv).bind fun v => M.pure (nv (pv.1.columnName S.sys) (toStore v))) (K := 2 ^ 62 - 2)
    (J := fun _ => True) (R := fun _ c kv => ok → CellOf S.sys p .event kv c) (fun a b kv kv' h hnr hok => (h hok).ext hnr.1) l (by omega)
    (fun a ha m w' hm hw' hnr _ => by
      have hf := (hl a ha).ext hnr.1
      refine Goes.bind (B := 1) (C := 0) (value_goes hk hw' (by omega) (Nat.le_trans hp hnr.1.projects) slash_kEvents hf.ruled hf.suits) fun v w1 hw1 hn1 hv =>
        Goes.pure hw1 ⟨trivial, fun hok => ?_⟩
      have hv := (hv (hf.suits hok).not_date).1
      obtain ⟨r, h1, h2⟩ := (hf.ext hn1.1).live
      exact ⟨_, r, h1, by show String.ofList _ = _; rw [h2.column], hv.same h2⟩) hw trivial
  unfold propCells
  refine h.mono (by omega) fun cs w' _ _ hP hok c hc => ?_
  obtain ⟨_, -, h⟩ := hP.2.1 c hc
  exact h hok

theorem valueCells_goes (hw : WInv S T n w) (hn : n < 2 ^ 62) {p g : Nat} {vs : List PropVal} (hv : ValsFit p g w.kv vs) :
    Goes S T n w 0 ok (valueCells S.sys p g vs) (fun cs w' => w'.kv = w.kv ∧ ∀ c ∈ cs, CellOf S.sys p (.group g) w'.kv c) := by
  have h := Goes.each (S := S) (T := T) (n := n) (w := w) (ok := ok) (B := 0)
    (f := fun v => (read ((propsC p (.group g)).getById v.propertyId)).bind fun r => M.pure (nv (r.columnName S.sys) (toStore v.value))) (K := n)
    (J := fun w' => w'.kv = w.kv) (R := fun _ c kv => CellOf S.sys p (.group g) kv c) (fun a b kv kv' h hnr => h.ext hnr.1) vs (by omega)
    (fun a ha m w' hm hw' hnr hJ => by
      obtain ⟨r, h1, h2⟩ := hv.ext hnr.1 a ha
      have e : (propsC p (.group g)).getById a.propertyId w'.kv = .ok r := by
        rw [getById_eq ((hw'.kv.prop (by omega) p (.group g)).inv (props_ok p _)), h1]
      refine Goes.bind (B := 0) (C := 0) (P := fun q w1 => q = r ∧ w1 = w') (Goes.read hw' (fun _ => ⟨r, e⟩) fun q hq => ⟨by rw [e] at hq; cases hq; rfl, rfl⟩)
        fun q w1 hw1 hn1 hq => Goes.pure hw1 ⟨by rw [hq.2]; exact hJ, ?_⟩
      obtain ⟨rfl, rfl⟩ := hq
      exact ⟨_, q, h1, rfl, h2⟩) hw rfl
  refine h.mono (by omega) fun cs w' _ _ hP => ⟨hP.1, fun c hc => ?_⟩
  obtain ⟨_, -, h⟩ := hP.2.1 c hc
  exact h

theorem groupValueCells_goes (hw : WInv S T n w) (hn : n < 2 ^ 62) {p : Nat} {gs : List (Nat × GroupValues)} (hg : ∀ g ∈ gs, GroupFit p w.kv g) :
    Goes S T n w 0 ok (each (fun g => valueCells S.sys p g.1 g.2.values) gs) (fun cs w' => ∀ c ∈ cs.flatten, ∃ ty, CellOf S.sys p ty w'.kv c) := by
  have h := Goes.each (S := S) (T := T) (n := n) (w := w) (ok := ok) (B := 0) (f := fun g => valueCells S.sys p g.1 g.2.values) (K := n)
    (J := fun _ => True) (R := fun _ cs kv => ∀ c ∈ cs, ∃ ty, CellOf S.sys p ty kv c)
    (fun a b kv kv' h hnr c hc => by obtain ⟨ty, h⟩ := h c hc; exact ⟨ty, h.ext hnr.1⟩) gs (by omega)
    (fun a ha m w' hm hw' hnr _ => by
      have hf := (hg a ha).ext hnr.1
      have q := valueCells_goes (ok := ok) hw' (by omega) hf.2
      exact q.mono (Nat.le_refl _) fun cs w1 _ _ h => ⟨trivial, fun c hc => ⟨.group a.1, h.2 c hc⟩⟩)
    hw trivial
  refine h.mono (by omega) fun cs w' _ _ hP c hc => ?_
  obtain ⟨l, hl, hc⟩ := List.mem_flatten.mp hc
  obtain ⟨_, -, h⟩ := hP.2.1 l hl
  exact h c hc

theorem Campaign.pairs_names (c : Campaign) : (∀ x ∈ c.pairs, x.1 ∈ dictNames) ∧ c.pairs.length ≤ 5 := by
  obtain ⟨s, m, ca, t, co⟩ := c
  have h1 : ∀ {k : Str} {o : Option Str} {x : Str × Str}, x ∈ (o.map fun v => (k, v)).toList → x.1 = k := by
    intro k o x hx
    cases o <;> simp at hx
    rw [hx]
  have h2 : ∀ {k : Str} {o : Option Str}, (o.map fun v => (k, v)).toList.length ≤ 1 := by intro k o; cases o <;> simp
  constructor
  · intro x hx
    unfold Campaign.pairs at hx
    simp only [List.mem_cons, List.mem_append] at hx
    unfold dictNames
    rcases hx with rfl | ((hx | hx) | hx) | hx
    · simp
    all_goals rw [h1 hx]; simp
  · unfold Campaign.pairs
    simp only [List.length_cons, List.length_append]
    have a := @h2 kUtmMedium m
    have b := @h2 kUtmCampaign ca
    have c := @h2 kUtmTerm t
    have d := @h2 kUtmContent co
    omega

theorem utmCells_goes (hk : KeepsSys S.sys) (hw : WInv S T n w) {p : Nat} (hp : p ≤ lastId w.kv (.top .projects)) (hr : Ready p w.kv) (c : Option Campaign)
    (hn : n + 7 < 2 ^ 62) : Goes S T n w 5 ok (utmCells S.sys p c) (fun cs w' => ok → ∀ c ∈ cs, CellOf S.sys p .event w'.kv c) := by
  cases c with
  | none => exact (Goes.pure hw (by simp)).mono (by omega) fun _ _ _ _ h => h
  | some c =>
    have hl := c.pairs_names
    have h := Goes.each (S := S) (T := T) (n := n) (w := w) (ok := ok) (B := 1)
      (f := fun nvp => (read ((propsC p .event).getBy .name nvp.1)).bind fun r =>
        (propertyToValue S.sys p kEvents (r, .string nvp.2)).bind fun v => M.pure (nv (r.columnName S.sys) (toStore v))) (K := 2 ^ 62 - 2)
      (J := fun _ => True) (R := fun _ c kv => ok → CellOf S.sys p .event kv c) (fun a b kv kv' h hnr hok => (h hok).ext hnr.1) c.pairs (by omega)
      (fun a ha m w' hm hw' hnr _ => by
        obtain ⟨id, r, h1, h2, h3⟩ := (hr.ext hnr.1).text hw'.kv (by omega) (hl.1 a ha)
        refine Goes.bind (B := 0) (C := 1) (P := fun q w1 => q = r ∧ w1 = w') (Goes.read hw' (fun _ => ⟨r, h3⟩) fun q hq => ⟨by rw [h3] at hq; cases hq; rfl, rfl⟩)
          fun q w1 hw1 hn1 hq => ?_
        obtain ⟨rfl, rfl⟩ := hq
        have hs : Suits q (.string a.2) := h2
        refine Goes.bind (B := 1) (C := 0) (value_goes hk hw' (by omega) (Nat.le_trans hp hnr.1.projects) slash_kEvents (hw'.kv.ruled _ _ _ _ h1).1 fun _ => hs) fun v w2 hw2 hn2 hv =>
          Goes.pure hw2 ⟨trivial, fun hok => ?_⟩
        have hc : CellOf S.sys p .event w1.kv (nv (q.columnName S.sys) (toStore v)) := ⟨id, q, h1, rfl, (hv rfl).1⟩
        exact hc.ext hn2.1) hw trivial
    unfold utmCells
    refine h.mono (by omega) fun cs w' _ _ hP hok c hc => ?_
    obtain ⟨_, -, h⟩ := hP.2.1 c hc
    exact h hok

theorem groupCells_fit (hk : KeepsSys S.sys) (hw : WInv S T n w) {p : Nat} (hr : Ready p w.kv) {gs : Option (List (Nat × GroupValues))} (hg : ∀ g ∈ gs.getD [], g.1 < 5) :
    ∀ c ∈ groupCells gs, CellFits S.sys (w.tbl kEvents) c := by
  have h5 : ∀ g < 5, (groupCol g, ColType.int64) ∈ sysTypes.take 10 := by decide +kernel
  intro c hc
  unfold groupCells at hc
  have hrest : ∀ g ∈ [1, 2, 3, 4], CellFits S.sys (w.tbl kEvents) (nv (groupCol g) (.int64 none)) := by
    intro g hg
    refine eventCell hk hw hr (h5 g ?_) rfl
    simp at hg
    omega
  cases gs with
  | none =>
    obtain ⟨g, hg, rfl⟩ := List.mem_map.mp hc
    exact hrest g hg
  | some l =>
    rcases List.mem_append.mp hc with hc | hc
    · obtain ⟨g, hgl, rfl⟩ := List.mem_map.mp hc
      exact eventCell hk hw hr (h5 _ (hg g hgl)) rfl
    · obtain ⟨g, hgl, rfl⟩ := List.mem_map.mp hc
      exact hrest g (List.mem_filter.mp hgl).1

theorem key_cols : kProjectId ≠ groupCol 0 ∧ kProjectId ≠ kId := by decide +kernel

theorem session_event {kv : Kv} (hk : KInv S T n kv) (hn : n < 2 ^ 62) {p : Nat} (hr : Ready p kv) : ∃ ev, (eventsC p).getBy .name kSessionBegin kv = .ok ev := by
  obtain ⟨id, h⟩ := hr.session
  unfold nameAt at h
  obtain ⟨ev, h1, h2⟩ := Option.map_eq_some_iff.mp h
  have hi := (hk.event hn p).inv (events_ok p)
  exact ⟨ev, (getBy_eq hi (i := (.name, fun r => some r.name)) (by simp [eventsC]) kSessionBegin _).mpr (.inl ⟨id, ev, h1, congrArg some h2, rfl⟩)⟩

theorem sendTrack_goes (hk : KeepsSys S.sys) (hw : WInv S T n w) {p : Nat} (hp : p ≤ lastId w.kv (.top .projects)) (hr : Ready p w.kv) {E : Env Track} (hE : E.sys = S.sys)
    {req : Track} {r : Resolved} (hu : r.user < 2 ^ 64) (hl : ∀ b ∈ r.props.getD [], PropFor ok p .event b w.kv) (hg : ∀ g ∈ r.groups.getD [], GroupFit p w.kv g)
    (hn : n + (r.props.getD []).length + 10 < 2 ^ 62) :
    Goes S T n w ((r.props.getD []).length + 8) ok (sendTrack E p req r) (fun _ _ => True) := by
  unfold sendTrack
  rw [hE]
  have h5 : (groupCol 0, ColType.int64) ∈ sysTypes.take 10 ∧ (kProjectId, ColType.int64) ∈ sysTypes.take 10 ∧ (kCreatedAt, ColType.timestamp) ∈ sysTypes.take 10 ∧
    (kEventId, ColType.int64) ∈ sysTypes.take 10 ∧ (kEvent, ColType.int64) ∈ sysTypes.take 10 ∧ (kIp, ColType.string) ∈ sysTypes.take 10 := by decide +kernel
  refine (Goes.bind (B := 1) (C := (r.props.getD []).length + 7) (session_goes hw (by omega) hp hu E.now) fun isNew w1 hw1 hn1 _ => ?_).mono (by omega) fun _ _ _ _ h => h
  have hp1 := Nat.le_trans hp hn1.1.projects
  refine Goes.bind (B := (r.props.getD []).length) (C := 7) (propCells_goes hk hw1 hp1 (fun b hb => (hl b hb).ext hn1.1) (by omega)) fun props w2 hw2 hn2 hprops => ?_
  have hp2 := Nat.le_trans hp1 hn2.1.projects
  refine (Goes.bind (B := 0) (C := 7) (groupValueCells_goes hw2 (by omega) (fun g h => ((hg g h).ext hn1.1).ext hn2.1)) fun gprops w3 hw3 hn3 hgp => ?_).mono (by omega) fun _ _ _ _ h => h
  have hp3 := Nat.le_trans hp2 hn3.1.projects
  have hr3 := ((hr.ext hn1.1).ext hn2.1).ext hn3.1
  refine Goes.bind (B := 5) (C := 2) (utmCells_goes hk hw3 hp3 hr3 req.campaign (by omega)) fun utm w4 hw4 hn4 hutm => ?_
  have hp4 := Nat.le_trans hp3 hn4.1.projects
  have hr4 := hr3.ext hn4.1
  have hcells : ok → ∀ c ∈ props ++ gprops.flatten, ∃ ty, CellOf S.sys p ty w4.kv c := by
    intro hok c hc
    rcases List.mem_append.mp hc with hc | hc
    · exact ⟨_, ((hprops hok c hc).ext hn3.1).ext hn4.1⟩
    · obtain ⟨ty, h⟩ := hgp c hc
      exact ⟨ty, h.ext hn4.1⟩
  have hrow : ok → ∀ (m : Nat) (w5 : World), WInv S T m w5 → Ext w4.kv w5.kv → ∀ (a : Nat) (b : Time) (c : Nat) (ip : Str),
      (∀ v ∈ sessionRow p r.user a c b ip (groupCells r.groups) utm (props ++ gprops.flatten), CellFits S.sys (w5.tbl kEvents) v) ∧
      (∀ v ∈ eventRow p r.user a c b (groupCells r.groups) (props ++ gprops.flatten), CellFits S.sys (w5.tbl kEvents) v) := by
    intro hok m w5 hw5 hx a b c ip
    have hr5 := hr4.ext hx
    have hgc := groupCells_fit hk hw5 hr5 (gs := r.groups) fun g h => (hg g h).1
    have hkey : ∀ v ∈ keyCells p r.user, CellFits S.sys (w5.tbl kEvents) v := by
      intro v hv
      simp only [keyCells, List.mem_cons, List.not_mem_nil, or_false] at hv
      rcases hv with rfl | rfl
      · exact eventCell hk hw5 hr5 h5.2.1 rfl
      · exact eventCell hk hw5 hr5 h5.1 rfl
    have hcs : ∀ v ∈ props ++ gprops.flatten, CellFits S.sys (w5.tbl kEvents) v := fun v hv => by
      obtain ⟨ty, h⟩ := hcells hok v hv
      exact (h.ext hx).event hw5
    have hut : ∀ v ∈ utm, CellFits S.sys (w5.tbl kEvents) v := fun v hv => ((hutm hok v hv).ext hx).event hw5
    constructor
    · intro v hv
      generalize hcc : props ++ gprops.flatten = cells at *
      simp only [sessionRow, List.mem_append, or_assoc, List.mem_cons, List.not_mem_nil, false_or] at hv
      rcases hv with hv | hv | hv | rfl | rfl | rfl | rfl | hv
      · exact hkey v hv
      · exact hgc v hv
      · exact hut v hv
      · exact eventCell hk hw5 hr5 h5.2.2.1 rfl
      · exact eventCell hk hw5 hr5 h5.2.2.2.1 rfl
      · exact eventCell hk hw5 hr5 h5.2.2.2.2.1 rfl
      · exact eventCell hk hw5 hr5 h5.2.2.2.2.2 rfl
      · exact hcs v hv
    · intro v hv
      generalize hcc : props ++ gprops.flatten = cells at *
      simp only [eventRow, List.mem_append, or_assoc, List.mem_cons, List.not_mem_nil, false_or] at hv
      rcases hv with hv | hv | rfl | rfl | rfl | hv
      · exact hkey v hv
      · exact hgc v hv
      · exact eventCell hk hw5 hr5 h5.2.2.1 rfl
      · exact eventCell hk hw5 hr5 h5.2.2.2.1 rfl
      · exact eventCell hk hw5 hr5 h5.2.2.2.2.1 rfl
      · exact hcs v hv
  refine Goes.bind (B := 1) (C := 1) (P := fun _ _ => True) ?_ fun _ w5 hw5 hn5 _ => ?_
  · cases isNew with
    | false => exact (Goes.pure hw4 trivial).mono (by omega) fun _ _ _ _ h => h
    | true =>
      refine Goes.bind (B := 1) (C := 0) (record_goes hw4 (by omega) hp4) fun rec w5 hw5 hn5 _ => ?_
      refine Goes.bind (B := 0) (C := 0) (P := fun _ w6 => w6 = w5) (Goes.read hw5 (fun _ => session_event hw5.kv (by omega) (hr4.ext hn5.1)) fun _ _ => rfl) fun ev w6 hw6 hn6 e => ?_
      subst e
      exact (Goes.insert hk hw6 key_cols.1 fun hok => (hrow hok _ _ hw6 hn5.1 rec req.time ev.id req.ip).1).mono (by omega) fun _ _ _ _ _ => trivial
  · refine Goes.bind (B := 1) (C := 0) (record_goes hw5 (by omega) (Nat.le_trans hp4 hn5.1.projects)) fun rec w6 hw6 hn6 _ => ?_
    exact (Goes.insert hk hw6 key_cols.1 fun hok => (hrow hok _ _ hw6 (hn5.1.trans hn6.1) rec req.time r.event.id req.ip).2).mono (by omega) fun _ _ _ _ _ => trivial

end OptiPrism.Ingest
