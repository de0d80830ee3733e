import Verif.Ingest.GroupRows

/-!
# C111: an accepted identify request stores the current values of its group
-/

namespace OptiPrism.Ingest

open OptiPrism.Meta
open OptiPrism.Storage (Bytes Value NamedValue Tbl InsertErr ColType Field Row)

variable {Q : Type}

theorem run_one {S : Meta.Env Q} {P : Req Q → Prop} {α : Type} {c : Call α} {a : α} {kv kv' : Kv} (r : Req Q) (hc : r.exec S kv = (runCall c kv).2) (ho : r.Ok) (hp : P r)
    (e : c kv = .ok (a, kv')) : Runs S P kv 1 kv' := by
  have : r.exec S kv = kv' := by rw [hc]; simp only [runCall, e]
  rw [← this]
  exact .step _ .refl ho hp

/-- The requests of an identify request other than that of the values of the group. -/
def Quiet (p : Nat) (r : Req Q) : Prop := IdentifyReq p r ∧ ∀ p' g, Mod.grp p' g ∉ r.mods

theorem quiet_same {S : Meta.Env Q} {p m : Nat} {kv kv' : Kv} (h : Runs S (Quiet p) kv m kv') (p' g : Nat) : Same (.grp p' g) kv kv' :=
  runs_same (fun _ hr hm => hr.2 _ _ hm) h

/-- The property of the request under a name, and that it is still there later. -/
theorem group_resolved_at {S : Meta.Env Q} {p g : Nat} (hp : p < 2 ^ 64) (hg : g < 2 ^ 64) {now : Time} {x : Str × PropValue} {b : Property × PropValue} {wb wc : World}
    (h2 : resolveProperty S.sys now p (.group g) x wb = (.ok b, wc)) {n m : Nat} (hh : Hist S n wb.kv) {kv' : Kv} (hr : Runs S (IdentifyReq p) wc.kv m kv')
    (hn : n + 1 + m < 2 ^ 62) : ∃ q, b.2 = x.2 ∧ (propsC p (.group g)).live kv' b.1.id = some q ∧ q.name = x.1 ∧ b.1.norm = q.norm := by
  obtain ⟨e1, e2⟩ := resolveProperty_ok h2
  have ho : (Req.propGetOrCreate p (.group g) now (propReq (.group g) x.1 x.2) (.ok ()) : Req Q).Ok := ⟨hp, by show 1 < 2 ^ 64; decide, by intro g' hg'; cases hg'; exact hg⟩
  obtain ⟨-, id, q, g1, g2, g3, -⟩ := propGet_live (hist_props hh (by omega) p (.group g)) ho.1 ho.2.1 ho.2.2 e2
  have one : Runs S (IdentifyReq p) wb.kv 1 wc.kv := run_one _ rfl ho ⟨rfl, g, rfl, rfl⟩ e2
  have hh2 : Hist S (n + 1) wc.kv := one.hist hh
  have hid : b.1.id = id := by
    have h1 : b.1.id = q.id := by simpa [Property.norm] using congrArg Property.id g3
    rw [h1]
    exact (Inv.live_id ((hist_props hh2 (by omega) p (.group g)).inv (props_ok p (.group g))) g1).1
  rw [hid]
  exact ⟨q, e1, props_live identify_props hr hh2 (by omega) g1, g2, g3⟩

theorem group_resolve_follows {S : Meta.Env Q} {p g : Nat} (hp : p < 2 ^ 64) (hg : g < 2 ^ 64) (now : Time) (l : List (Str × PropValue)) :
    Follows S (Quiet p) l.length (each (resolveProperty S.sys now p (.group g)) l) (fun bs => bs.length = l.length ∧ ∀ b ∈ bs, b.1.id < 2 ^ 64) :=
  (Follows.each l fun nvp _ => resolveProperty_follows (S := S) (P := Quiet p) (now := now) hp (ty := .group g) (fun g' hg' => by cases hg'; exact hg) nvp ⟨⟨rfl, g, rfl, rfl⟩, by simp [Req.mods]⟩).mono
    (fun _ h => h) (by simp) fun _ h => h

theorem group_resolved_names {S : Meta.Env Q} {p g : Nat} (hp : p < 2 ^ 64) (hg : g < 2 ^ 64) {now : Time} {l : List (Str × PropValue)} {bs : List (Property × PropValue)} {w wa : World}
    (h : each (resolveProperty S.sys now p (.group g)) l w = (.ok bs, wa)) {n m : Nat} (hh : Hist S n w.kv) {kv' : Kv} (hr : Runs S (IdentifyReq p) wa.kv m kv')
    (hn : n + l.length + m < 2 ^ 62) : bs.map (fun b => ((propsC p (.group g)).live kv' b.1.id).map Property.name) = l.map (fun x => some x.1) := by
  induction l generalizing w bs n with
  | nil => cases h; rfl
  | cons x l ih =>
    obtain ⟨b, wb, h1, h2⟩ := bind_ok h
    obtain ⟨bs', wc, h3, h4⟩ := bind_ok h2
    cases h4
    simp only [List.length_cons] at hn
    obtain ⟨m1, hm1, r1⟩ := (group_resolve_follows hp hg now [x]).runs (w := w) (w' := wb) (a := .ok [b]) (by
      show (resolveProperty S.sys now p (.group g) x).bind _ w = _
      simp only [M.bind, h1, each, M.pure])
    obtain ⟨m3, hm3, r3⟩ := (group_resolve_follows hp hg now l).runs h3
    simp only [List.length_cons, List.length_nil] at hm1
    obtain ⟨q, -, hq, hqn, -⟩ := group_resolved_at hp hg h1 hh ((runs_mono (fun _ h => h.1) r3).trans hr) (by omega)
    rw [List.map_cons, List.map_cons, ih h3 (r1.hist hh) (by omega), hq, Option.map_some, hqn]

/-- The conversion of the values of an identify request, executor.rs 303-315. -/
theorem group_values_ids {sys : Str → Str} {p : Nat} {t : Str} {l : List (Property × PropValue)} {vals : List PropVal} {w w' : World}
    (h : each (fun pv => (propertyToValue sys p t pv).bind fun v => M.pure (⟨pv.1.id, v⟩ : PropVal)) l w = (.ok vals, w')) :
    vals.map PropVal.propertyId = l.map fun b => b.1.id := by
  induction l generalizing w vals with
  | nil => cases h; rfl
  | cons x l ih =>
    obtain ⟨b, wb, h1, h2⟩ := bind_ok h
    obtain ⟨bs', wc, h3, h4⟩ := bind_ok h2
    obtain ⟨c, wd, h5, h6⟩ := bind_ok h1
    cases h4
    cases h6
    rw [List.map_cons, List.map_cons, ih h3]

theorem group_values_follows {S : Meta.Env Q} (hsys : ∀ n, '/' ∉ S.sys n) {p : Nat} (l : List (Property × PropValue)) :
    Follows S (Quiet p) l.length (each (fun pv => (propertyToValue S.sys p (groupCol 0) pv).bind fun v => M.pure (⟨pv.1.id, v⟩ : PropVal)) l) (fun _ => True) :=
  (Follows.each (S := S) (P := Quiet p) (B := 1) (Post := fun _ => True) l fun pv _ =>
    Follows.bind (propertyToValue_follows (slash_groupCol 0) hsys _ fun _ _ => ⟨⟨rfl, rfl⟩, by simp [Req.mods]⟩) fun _ _ => Follows.pure trivial).mono (fun _ h => h) (by simp) fun _ _ => trivial

theorem valueOf_mid {l1 l2 : List PropVal} {v : PropVal} (h : ((l1 ++ v :: l2).map PropVal.propertyId).Nodup) : valueOf (l1 ++ v :: l2) v.propertyId = some v.value := by
  rw [valueOf_append]
  have : valueOf l1 v.propertyId = none := by
    cases e : valueOf l1 v.propertyId with
    | none => rfl
    | some x =>
      obtain ⟨v', h1, h2, -⟩ := valueOf_mem e
      rw [List.map_append, List.nodup_append] at h
      exact absurd h2 (h.2.2 _ (List.mem_map.mpr ⟨v', h1, rfl⟩) _ (by simp))
  rw [this, Option.none_or, valueOf_cons, if_pos rfl]

/-- The parts of an accepted identify request. -/
theorem identify_parts {sys : Str → Str} {now : Time} {token : Str} {req : Identify} {w w' : World} (h : executeIdentify sys now token req w = (.ok (), w')) :
    ∃ (project : Project) (grp : Group) (l : List (Property × PropValue)) (vals : List PropVal) (gv : GroupValues) (version : Nat) (cells : List NamedValue)
      (w1 w2 w3 w4 w5 w6 : World), getByToken token w.kv = .ok project ∧
      getOrCreateGroup project.id req.group req.group w.kv = .ok (grp, w1.kv) ∧
      each (resolveProperty sys now project.id (.group grp.id)) (req.props.getD []) w1 = (.ok l, w2) ∧
      each (fun pv => (propertyToValue sys project.id (groupCol 0) pv).bind fun v => M.pure (⟨pv.1.id, v⟩ : PropVal)) l w2 = (.ok vals, w3) ∧
      groupCreateOrUpdate project.id grp.id req.id vals w3.kv = .ok (gv, w4.kv) ∧
      (dictCreateKey project.id (groupCol grp.id) kId gv.id req.id w4.kv).map Prod.snd = .ok w5.kv ∧
      nextSeq (.groupRecSeq project.id grp.id) w5.kv = .ok (version, w6.kv) ∧
      valueCells sys project.id grp.id gv.values w6 = (.ok cells, w6) ∧ w'.kv = w6.kv ∧
      w'.rows = w.rows ++ [(groupCol grp.id, [nv kProjectId (i64 project.id), nv kId (i64 gv.id), nv kVersion (i64 version),
        nv kCreatedAt (.timestamp (some (millis req.time)))] ++ cells)] := by
  unfold executeIdentify at h
  obtain ⟨project, w0, h0, k0⟩ := bind_ok h
  obtain ⟨h0, rfl⟩ := read_ok h0
  obtain ⟨grp, w1, h1, k1⟩ := bind_ok k0
  obtain ⟨h1, e1⟩ := call_ok h1
  obtain ⟨props, w2, h2, k2⟩ := bind_ok k1
  obtain ⟨vals, w3, h3, k3⟩ := bind_ok k2
  obtain ⟨gv, w4, h4, k4⟩ := bind_ok k3
  obtain ⟨h4, e4⟩ := call_ok h4
  obtain ⟨u, w5, h5, k5⟩ := bind_ok k4
  obtain ⟨h5, e5⟩ := call_ok h5
  unfold sendIdentify at k5
  obtain ⟨version, w6, h6, k6⟩ := bind_ok k5
  obtain ⟨h6, e6⟩ := call_ok h6
  obtain ⟨cells, w7, h7, k7⟩ := bind_ok k6
  have e7 := valueCells_world h7
  subst e7
  obtain ⟨t', -, -, h8, h9⟩ := insertRow_ok k7
  have hl : each (resolveProperty sys now project.id (.group grp.id)) (req.props.getD []) w1 = (.ok (props.getD []), w2) := by
    unfold resolveProperties at h2
    cases hp : req.props with
    | none => rw [hp] at h2; cases h2; rfl
    | some l =>
      rw [hp] at h2
      obtain ⟨l', w', h2, h2'⟩ := bind_ok h2
      cases h2'
      exact h2
  refine ⟨project, grp, props.getD [], vals, gv, version, cells, w1, w2, w3, w4, w5, w7, h0, h1, hl, h3, h4, by rw [h5]; rfl, h6, h7, h9, ?_⟩
  have r2 : w2.rows = w1.rows := by
    have := NoRows.each (req.props.getD []) (fun x => resolveProperty_noRows sys now project.id (.group grp.id) x) w1
    rwa [hl] at this
  have r3 : w3.rows = w2.rows := by
    have := (NoTbl.each (props.getD []) fun pv => (propertyToValue_noTbl sys project.id (groupCol 0) pv).bind fun v => NoTbl.pure (⟨pv.1.id, v⟩ : PropVal)).noRows w2
    rwa [h3] at this
  rw [h8, e6, e5, e4]
  show w3.rows ++ _ = _
  rw [r3, r2, e1]

/-- C111 (partial). After any history in which no update changes the type, data type or system flag of a property, and nothing but
ingestion writes keys of the properties of the first kind of groups: an accepted identify request whose properties have distinct names
* adds one row, to the table of the kind of groups it names, with the project, the group's number and the time of the request;
* leaves the group with the values it had, overwritten by those of the request;
* the row has the current value of each of the group's properties in its column, not only of those of the request;
* the cell of each property of the request reads, then and later, as the value sent.
Missing: the last for strings of other kinds of groups than the first, whose keys are in the wrong dictionary (C48); system properties;
the other histories. -/
theorem C111_partial {S : Meta.Env Q} (hsys : ∀ n, '/' ∉ S.sys n) {now : Time} {token : Str} {req : Identify} {w w' : World}
    (h : executeIdentify S.sys now token req w = (.ok (), w')) {n m : Nat} (hr : ∀ project, getByToken token w.kv = .ok project → Runs S (GPlain project.id) [] n w.kv)
    (hn : n + (2 * (req.props.getD []).length + 4) + m < 2 ^ 62) (hnd : ((req.props.getD []).map Prod.fst).Nodup) :
    ∃ project grp num vals row, getByToken token w.kv = .ok project ∧ Known project.id w'.kv req.group grp ∧
      Resolves project.id grp.id w'.kv (.real req.id) num ∧ HasValues project.id grp.id w'.kv req.id vals ∧
      w'.rows = w.rows ++ [(groupCol grp.id, row)] ∧ val row kProjectId = i64 project.id ∧ val row kId = i64 num ∧
      val row kCreatedAt = .timestamp (some (millis req.time)) ∧
      (∀ i x, valueOf vals i = some x → ∃ q, (propsC project.id (.group grp.id)).getById i w'.kv = .ok q ∧
        (q.isSystem = false → SysApart S.sys project.id grp.id w'.kv vals → val row (q.columnName S.sys) = toStore x)) ∧
      (∀ name v, (name, v) ∈ req.props.getD [] → ∃ q x, (propsC project.id (.group grp.id)).getBy .name name w'.kv = .ok q ∧ valueOf vals q.id = some x ∧
        ∀ kv', Runs S (GPlain project.id) w'.kv m kv' → q.isSystem = false → (q.isDictionary = true → grp.id = 0) →
          Reads S.sys project.id (groupCol grp.id) kv' q (toStore x) v) ∧
      (∀ old, HasValues project.id grp.id w.kv req.id old → ∀ i,
        (∀ name v q, (name, v) ∈ req.props.getD [] → (propsC project.id (.group grp.id)).getBy .name name w'.kv = .ok q → q.id ≠ i) → valueOf vals i = valueOf old i) := by
  obtain ⟨project, grp, l, vs, gv, version, cells, w1, w2, w3, w4, w5, w6, h0, h1, h2, h3, h4, h5, h6, h7, hkv, hrows⟩ := identify_parts h
  have hpl : project.id < 2 ^ 64 := by
    obtain ⟨b, hb⟩ := getBy_dec h0
    exact project_dec_lt hb
  have hgl : grp.id < 2 ^ 64 := getOrCreateGroup_lt h1
  have R0 := hr project h0
  have hh : Hist S n w.kv := by simpa using R0.hist .start
  have R1 : Runs S (Quiet project.id) w.kv 1 w1.kv := run_one (.groupName project.id req.group req.group) rfl trivial ⟨rfl, by simp [Req.mods]⟩ h1
  obtain ⟨m2, hm2, R2⟩ := (group_resolve_follows (S := S) hpl hgl now _).runs h2
  obtain ⟨m3, hm3, R3⟩ := (group_values_follows hsys (p := project.id) l).runs h3
  have hh3 : Hist S (n + 1 + m2 + m3) w3.kv := R3.hist (R2.hist (R1.hist hh))
  have hvids := group_values_ids h3
  have hlen : l.length = (req.props.getD []).length ∧ ∀ b ∈ l, b.1.id < 2 ^ 64 := ((group_resolve_follows (S := S) hpl hgl now _) w1).2 l w2 h2
  obtain ⟨hlen, hlt⟩ := hlen
  have hvl : ∀ v ∈ vs, v.propertyId < 2 ^ 64 := by
    intro v hv
    have : v.propertyId ∈ l.map fun b => b.1.id := by rw [← hvids]; exact List.mem_map.mpr ⟨v, hv, rfl⟩
    obtain ⟨b, hb, e⟩ := List.mem_map.mp this
    rw [← e]; exact hlt b hb
  have R4 : Runs S (IdentifyReq project.id) w3.kv 1 w4.kv := run_one (.groupUpdate project.id grp.id req.id vs) rfl hvl rfl h4
  obtain ⟨hgs, hgid, hgvl⟩ := groupUpdate_step hvl (hh3.gshape project.id grp.id) h4
  have R5 : Runs S (Quiet project.id) w4.kv 1 w5.kv := by
    cases e : dictCreateKey project.id (groupCol grp.id) kId gv.id req.id w4.kv with
    | error x => rw [e] at h5; cases h5
    | ok x =>
      obtain ⟨u, kv5⟩ := x
      rw [e] at h5
      have : kv5 = w5.kv := by simpa [Except.map] using h5
      subst this
      exact run_one (.dictPut project.id (groupCol grp.id) kId gv.id req.id) rfl ⟨⟨slash_groupCol _, slash_kId⟩, hgvl⟩ ⟨⟨rfl, ⟨_, rfl⟩, rfl⟩, by simp [Req.mods]⟩ e
  have R6 : Runs S (Quiet project.id) w5.kv 1 w'.kv := by
    rw [hkv]
    exact run_one (.groupRecord project.id grp.id) rfl trivial ⟨rfl, by simp [Req.mods]⟩ h6
  have toI : ∀ {a b : Kv} {k : Nat}, Runs S (Quiet project.id) a k b → Runs S (IdentifyReq project.id) a k b := fun h => runs_mono (fun _ h => h.1) h
  have toG : ∀ {a b : Kv} {k : Nat}, Runs S (IdentifyReq project.id) a k b → Runs S (GPlain project.id) a k b := fun h => runs_mono (fun _ h => identify_gplain h) h
  have T2 : Runs S (IdentifyReq project.id) w2.kv (m3 + (1 + (1 + 1))) w'.kv := (toI R3).trans (R4.trans (toI (R5.trans R6)))
  have hend : Runs S (GPlain project.id) [] (n + (1 + (m2 + (m3 + (1 + (1 + 1)))))) w'.kv := R0.trans (toG ((toI R1).trans ((toI R2).trans T2)))
  have hh1 : Hist S (n + 1) w1.kv := R1.hist hh
  have hnames := group_resolved_names hpl hgl h2 hh1 T2 (by omega)
  have hinv := (hist_props (gplain_chist hend).hist (by omega) project.id (.group grp.id)).inv (props_ok project.id (.group grp.id))
  have idsnd : (vs.map PropVal.propertyId).Nodup := by
    rw [hvids]
    have h8 : (l.map (fun b => ((propsC project.id (.group grp.id)).live w'.kv b.1.id).map Property.name)).Nodup := by
      rw [hnames]
      have := List.Pairwise.map (S := fun a b : Option Str => a ≠ b) some (fun a b (h : a ≠ b) e => h (Option.some.inj e)) hnd
      rw [List.map_map] at this
      exact this
    have h9 := List.Pairwise.of_map (R := fun a b : Property × PropValue => a.1.id ≠ b.1.id) _ (fun a b h e => h (by rw [e])) h8
    exact List.Pairwise.map _ (fun a b h => h) h9
  have named : ∀ x ∈ req.props.getD [], ∀ q, (propsC project.id (.group grp.id)).live w'.kv q.id = some q → q.name = x.1 →
      (propsC project.id (.group grp.id)).getBy .name x.1 w'.kv = .ok q := fun x _ q hq hqn =>
    (getBy_eq hinv (i := (.name, fun r => some r.name)) (by simp [propsC]) x.1 _).mpr (.inl ⟨q.id, q, hq, congrArg some hqn, rfl⟩)
  obtain ⟨u1, u2, u3, -⟩ := C90_update hh3 hvl idsnd h4
  have sh4 : GShape project.id grp.id w4.kv := hgs.shape (hh3.gshape _ _)
  have S46 := quiet_same (R5.trans R6) project.id grp.id
  have sh6 : GShape project.id grp.id w'.kv := (gplain_chist hend).hist.gshape _ _
  have S03 := quiet_same ((R1.trans R2).trans R3) project.id grp.id
  have over : ∀ i x, valueOf vs i = some x → valueOf gv.values i = some x := by
    intro i x hx
    by_cases ho : ∃ old, HasValues project.id grp.id w3.kv req.id old
    · obtain ⟨old, ho⟩ := ho
      rw [u2 old ho, hx, Option.some_or]
    · rw [u3 fun old h => ho ⟨old, h⟩]; exact hx
  refine ⟨project, grp, gv.id, gv.values, _, h0, ?_, ?_, (hasValues_same S46 sh4 sh6 _ _).mpr u1, hrows, ?_, ?_, ?_, ?_, ?_, ?_⟩
  · exact (C89_permanent (runs_mono (fun _ _ => trivial) R0) h1 (runs_mono (fun _ _ => trivial) ((toI R2).trans T2))).1
  · rw [resolves_iff sh6]
    exact ((R5.trans R6).gkept project.id grp.id sh4).2 _ _ hgid
  · rw [List.cons_append, val_cons, if_pos rfl]
  · rw [List.cons_append, val_cons, if_neg (by decide +kernel), List.cons_append, val_cons, if_pos rfl]
  · rw [List.cons_append, val_cons, if_neg (by decide +kernel), List.cons_append, val_cons, if_neg (by decide +kernel), List.cons_append, val_cons, if_neg (by decide +kernel),
      List.cons_append, val_cons, if_pos rfl]
  · intro i x hx
    rw [hkv] at hend ⊢
    obtain ⟨q, k1, k2⟩ := valueCells_val (gplain_chist hend) (by omega) h7 hx
    refine ⟨q, k1, fun hq hs => ?_⟩
    have hc := columnName_col (sys := S.sys) hq
    have := k2 hq hs []
    rw [List.append_nil] at this
    rw [List.cons_append, val_cons, if_neg (hc.ne (by decide +kernel)).symm, List.cons_append, val_cons, if_neg (hc.ne (by decide +kernel)).symm, List.cons_append, val_cons,
      if_neg (hc.ne (by decide +kernel)).symm, List.cons_append, val_cons, if_neg (hc.ne (by decide +kernel)).symm, List.nil_append, this]
  · intro name v hmem
    obtain ⟨l1, l2, hsplit⟩ := List.append_of_mem hmem
    have hlen2 : (req.props.getD []).length = l1.length + (l2.length + 1) := by rw [hsplit]; simp
    rw [hsplit] at h2
    obtain ⟨bs1, b, bs2, wx, wy, g1, g2, g3, rfl⟩ := each_split h2
    obtain ⟨mx, hmx, Rx⟩ := (group_resolve_follows (S := S) hpl hgl now _).runs g1
    obtain ⟨my, hmy, Ry⟩ := (group_resolve_follows (S := S) hpl hgl now _).runs g3
    obtain ⟨q, hb2, hq, hqn, hbq⟩ := group_resolved_at hpl hgl g2 (Rx.hist hh1) ((toI Ry).trans T2) (by omega)
    obtain ⟨vs1, c, vs2, wu, wv, k1, k2, k3, rfl⟩ := each_split h3
    obtain ⟨c', wv', k4, k5⟩ := bind_ok k2
    cases k5
    have hqid : q.id = b.1.id := (Inv.live_id hinv hq).1
    obtain ⟨ba, bv⟩ := b
    dsimp only at hb2 hbq k4 hq hqid
    subst hb2
    refine ⟨q, c', named _ hmem q (by rw [hqid]; exact hq) hqn, ?_, fun kv' hkv' hqs hqd => ?_⟩
    · rw [hqid]; exact over _ _ (valueOf_mid (v := ⟨ba.id, c'⟩) idsnd)
    · have hcol := columnName_col (sys := S.sys) hqs
      have colEq : ba.columnName S.sys = q.columnName S.sys := by
        have : ba.norm.columnName S.sys = q.norm.columnName S.sys := by rw [hbq]
        exact this
      obtain ⟨mu, hmu, Ru⟩ := (group_values_follows hsys (p := project.id) bs1).runs k1
      obtain ⟨mv, hmv, Rv⟩ := (group_values_follows hsys (p := project.id) bs2).runs k3
      have noPut : ∀ {a b : Kv} {k : Nat}, Runs S (GPlain project.id) a k b → Runs S (Req.NoPut project.id (groupCol 0) (ba.columnName S.sys)) a k b :=
        fun h => runs_mono (fun _ h => h.2 _ (colEq ▸ hcol)) h
      have before := noPut (R0.trans (toG (toI ((R1.trans R2).trans Ru))))
      have after := noPut ((toG ((toI Rv).trans (R4.trans (toI (R5.trans R6))))).trans hkv')
      have hl' : bs1.length + (bs2.length + 1) = (req.props.getD []).length := by rw [← hlen]; simp
      have := (cell_reads hsys (slash_groupCol 0) before k4 _ kv' (by omega) after).norm hbq
      cases hd : q.isDictionary with
      | true => rw [hqd hd]; exact this
      | false =>
        unfold Reads at this ⊢
        rw [hd] at this ⊢
        exact this
  · intro old ho i hi
    rw [u2 old ((hasValues_same S03 (hh.gshape _ _) (hh3.gshape _ _) _ _).mpr ho)]
    cases e : valueOf vs i with
    | none => rfl
    | some x =>
      exfalso
      obtain ⟨v, hv, hvi, -⟩ := valueOf_mem e
      have : v.propertyId ∈ l.map fun b => b.1.id := by rw [← hvids]; exact List.mem_map.mpr ⟨v, hv, rfl⟩
      obtain ⟨b, hb, e2⟩ := List.mem_map.mp this
      have h8 : ((propsC project.id (.group grp.id)).live w'.kv b.1.id).map Property.name ∈ (req.props.getD []).map (fun x => some x.1) := by
        rw [← hnames]; exact List.mem_map.mpr ⟨b, hb, rfl⟩
      obtain ⟨x, hx, e3⟩ := List.mem_map.mp h8
      cases hq : (propsC project.id (.group grp.id)).live w'.kv b.1.id with
      | none => rw [hq] at e3; cases e3
      | some q =>
        rw [hq] at e3
        have hqn : q.name = x.1 := by simpa using e3.symm
        have hqid : q.id = b.1.id := (Inv.live_id hinv hq).1
        exact hi x.1 x.2 q hx (named x hx q (by rw [hqid]; exact hq) hqn) (by rw [hqid, e2, hvi])

/-- C111 as stated: in the row of an accepted identify request each property sent reads as the value sent. -/
def C111_full : Prop := ∀ (now : Time) (token : Str) (req : Identify) (w w' : World) (n : Nat), Hist exEnv n w.kv → n < 2 ^ 61 →
  executeIdentify exEnv.sys now token req w = (.ok (), w') → ((req.props.getD []).map Prod.fst).Nodup →
  ∃ project grp row, getByToken token w.kv = .ok project ∧ Known project.id w'.kv req.group grp ∧ w'.rows.getLast? = some (groupCol grp.id, row) ∧
    ∀ name v, (name, v) ∈ req.props.getD [] → ∃ q, (propsC project.id (.group grp.id)).getBy .name name w'.kv = .ok q ∧
      Reads exEnv.sys project.id (groupCol grp.id) w'.kv q (val row (q.columnName exEnv.sys)) v

theorem exGroup_plain : Runs exEnv (GPlain 1) [] 4 exGroupWorld.kv :=
  .step (.groupName 1 "org".toList "org".toList) (.step (.groupName 1 "user".toList "user".toList)
    (.step (.eventCreate 1 ⟨0, 0⟩ (eventReq kSessionBegin none)) (.step (.projectCreate ⟨0, 0⟩ exProj) .refl ⟨by decide, by decide, by decide⟩ ⟨trivial, fun _ _ => trivial⟩)
      ⟨by decide, by decide⟩ ⟨trivial, fun _ _ => trivial⟩) trivial ⟨trivial, fun _ _ => trivial⟩) trivial ⟨trivial, fun _ _ => trivial⟩

/-- The string of a property of the second kind of groups is not in the dictionary of the group's table. -/
theorem C111_violated : ¬ C111_full := by
  intro h
  have hh : Hist exEnv 4 exGroupWorld.kv := by simpa using exGroup_plain.hist .start
  have h1 : (executeIdentify id ⟨5#64, 0⟩ exToken (exIdentify "org".toList) exGroupWorld).1 = .ok () := by decide +kernel
  obtain ⟨project, grp, row, hp, -, hl, hq⟩ := h ⟨5#64, 0⟩ exToken (exIdentify "org".toList) exGroupWorld _ 4 hh (by decide) (Prod.ext h1 rfl) (by decide)
  have hp1 : project.id = 1 := by
    have : ((getByToken exToken exGroupWorld.kv).toOption.map (·.id)) = some 1 := by decide +kernel
    rw [hp] at this
    simpa [Except.toOption] using this
  have hg1 : grp.id = 1 := by
    have : (executeIdentify id ⟨5#64, 0⟩ exToken (exIdentify "org".toList) exGroupWorld).2.rows.getLast?.map Prod.fst = some (groupCol 1) := by decide +kernel
    have e : (executeIdentify id ⟨5#64, 0⟩ exToken (exIdentify "org".toList) exGroupWorld).2.rows.getLast? = some (groupCol grp.id, row) := hl
    rw [e] at this
    exact groupCol_inj.mp (Option.some.inj this)
  obtain ⟨q, hq1, hq2⟩ := hq "plan".toList (.string "gold".toList) (by decide)
  rw [hp1, hg1] at hq1 hq2
  have h4 : ((propsC 1 (.group 1)).getBy .name "plan".toList (executeIdentify id ⟨5#64, 0⟩ exToken (exIdentify "org".toList) exGroupWorld).2.kv).toOption.map
      (fun r => (r.isDictionary, r.columnName id)) = some (true, "g_1_str_0".toList) := by decide +kernel
  have e : (propsC 1 (.group 1)).getBy .name "plan".toList (executeIdentify id ⟨5#64, 0⟩ exToken (exIdentify "org".toList) exGroupWorld).2.kv = .ok q := hq1
  rw [e] at h4
  simp only [Except.toOption, Option.map_some, Option.some.injEq, Prod.mk.injEq] at h4
  unfold Reads at hq2
  dsimp only at hq2
  rw [if_pos h4.1] at hq2
  obtain ⟨dt, k, -, hk, -⟩ := hq2
  have e2 : q.columnName exEnv.sys = "g_1_str_0".toList := h4.2
  rw [e2] at hk
  have h5 : dictGetKey 1 (groupCol 1) "g_1_str_0".toList "gold".toList (executeIdentify id ⟨5#64, 0⟩ exToken (exIdentify "org".toList) exGroupWorld).2.kv = .error .notFound := by
    decide +kernel
  have e3 : dictGetKey 1 (groupCol 1) "g_1_str_0".toList "gold".toList (executeIdentify id ⟨5#64, 0⟩ exToken (exIdentify "org".toList) exGroupWorld).2.kv = .ok k := hk
  rw [h5] at e3
  cases e3

/-- The hypotheses of C111 are met: the example request is accepted for both kinds of groups. The row of a second request, with another
property, has the value of the first too. -/
def exMore : Identify := ⟨"user".toList, "acme".toList, ⟨6#64, 0⟩, some [("seats".toList, .bool true)]⟩

example : (getByToken exToken exGroupWorld.kv).toOption.map (·.id) = some 1 ∧ (executeIdentify id ⟨5#64, 0⟩ exToken (exIdentify "user".toList) exGroupWorld).1 = .ok () ∧
    (executeIdentify id ⟨6#64, 0⟩ exToken exMore (executeIdentify id ⟨5#64, 0⟩ exToken (exIdentify "user".toList) exGroupWorld).2).1 = .ok () ∧
    (executeIdentify id ⟨6#64, 0⟩ exToken exMore (executeIdentify id ⟨5#64, 0⟩ exToken (exIdentify "user".toList) exGroupWorld).2).2.rows.map
      (fun x => (val x.2 "g_0_str_0".toList, val x.2 "g_0_b_0".toList)) = [(i64 1, .null), (i64 1, .boolean (some true))] := by
  decide +kernel

end OptiPrism.Ingest
