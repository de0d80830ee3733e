import Verif.Ingest.GroupEvents

/-!
# C112: event rows carry the values of their groups
-/

namespace OptiPrism.Ingest

open OptiPrism.Meta
open OptiPrism.Storage (Bytes Value NamedValue Tbl InsertErr ColType Field Row)

variable {Q : Type}

/-- The transformers keep the client's properties, and add event properties of the project. -/
def Env.Looks (E : Env Track) : Prop := ∀ kv p req l l', E.transform kv p req l = .ok l' → ∀ x ∈ l', x ∈ l ∨ ∃ id, (propsC p .event).getById id kv = .ok x.1

/-- The columns of the system properties of a project are unlike those of its other properties. -/
def SystemApart (sys : Str → Str) (p : Nat) (kv : Kv) : Prop :=
  ∀ ty id q, (propsC p ty).getById id kv = .ok q → q.isSystem = true → ¬ PropCol (sys q.name)

/-- Spec: a row has, in the column of each property of a kind of groups that has a value, that value. -/
def Carries (sys : Str → Str) (p g : Nat) (kv : Kv) (vals : List PropVal) (row : List NamedValue) : Prop :=
  ∀ i x, valueOf vals i = some x → ∃ q, (propsC p (.group g)).getById i kv = .ok q ∧ (q.isSystem = false → val row (q.columnName sys) = toStore x)

/-- The parts of resolving a track request. -/
theorem resolveTrack_parts {E : Env Track} {p : Nat} {req : Track} {w w1 : World} {r : Resolved} (h : resolveTrack E p req w = (.ok r, w1)) :
    ∃ (l : List (Property × PropValue)) (u : Nat × Option GroupValues) (wa wb wc wd we : World), each (resolveProperty E.sys E.now p .event) (req.props.getD []) w = (.ok l, wa) ∧
      resolveUser p req.userId req.anonId wa = (.ok u, wb) ∧ resolveGroups p u.2 req.groups wb = (.ok r.groups, wc) ∧
      (∃ q, callRaw (getOrCreateEvent p E.now (eventReq req.event q)) wc = (.ok r.event, wd)) ∧ (∃ q, attachProps p r.event.id q wd = (.ok (), we)) ∧ w1 = we ∧ r.user = u.1 ∧
      (∀ x ∈ r.props.getD [], x ∈ l ∨ ∃ l0 l', E.transform we.kv p req l0 = .ok l' ∧ x ∈ l' ∧ ∀ y ∈ l0, y ∈ l) := by
  unfold resolveTrack at h
  obtain ⟨props, wa, h1, ha⟩ := bind_ok h
  obtain ⟨u, wb, h2, hb⟩ := bind_ok ha
  obtain ⟨groups, wc, h3, hc⟩ := bind_ok hb
  obtain ⟨ev, wd, h4, hd⟩ := bind_ok hc
  obtain ⟨⟨⟩, we, h5, he⟩ := bind_ok hd
  obtain ⟨props', wf, h6, hf⟩ := bind_ok he
  cases hf
  have hl : each (resolveProperty E.sys E.now p .event) (req.props.getD []) w = (.ok (props.getD []), wa) := by
    unfold resolveProperties at h1
    cases hp : req.props with
    | none => rw [hp] at h1; cases h1; rfl
    | some l =>
      rw [hp] at h1
      obtain ⟨l', w', h1, h1'⟩ := bind_ok h1
      cases h1'
      exact h1
  unfold transformed at h6
  split at h6
  · cases h6
  · rename_i l' ht
    cases h6
    refine ⟨props.getD [], u, wa, wb, wc, wd, _, hl, h2, h3, ⟨_, h4⟩, ⟨_, h5⟩, rfl, rfl, fun x hx => ?_⟩
    dsimp only at hx
    split at hx
    · exact .inl hx
    · exact .inr ⟨_, _, ht, hx, fun y hy => hy⟩

/-- The cells of the groups of a row: those of the first entry of a kind. -/
theorem groupProps_val {S : Meta.Env Q} {n : Nat} {w w' : World} (hc : CHist S n w.kv) (hn : n < 2 ^ 62) {p : Nat} (hs : SystemApart S.sys p w.kv)
    {g : Nat} {gv : GroupValues} {l1 l2 : List (Nat × GroupValues)} (hl : ∀ e ∈ l1, e.1 ≠ g) {gprops : List (List NamedValue)}
    (h : each (fun g => valueCells S.sys p g.1 g.2.values) (l1 ++ (g, gv) :: l2) w = (.ok gprops, w')) {i : Nat} {x : GValue} (hv : valueOf gv.values i = some x) :
    ∃ q, (propsC p (.group g)).getById i w.kv = .ok q ∧ (q.isSystem = false → val gprops.flatten (q.columnName S.sys) = toStore x) := by
  have apart : ∀ g' vals, SysApart S.sys p g' w.kv vals := fun g' vals v _ q hq => hs _ _ q hq
  obtain ⟨cs1, c, cs2, wa, wb, k1, k2, k3, rfl⟩ := each_split h
  have e1 : wa = w := by
    clear h k2 k3 hl
    induction l1 generalizing cs1 with
    | nil => cases k1; rfl
    | cons e l ih =>
      obtain ⟨c, wc, j1, j2⟩ := bind_ok k1
      obtain ⟨cs, wd, j3, j4⟩ := bind_ok j2
      cases j4
      rw [valueCells_world j1] at j3
      exact ih _ j3
  subst e1
  obtain ⟨q, h1, h2⟩ := valueCells_val hc hn k2 hv
  refine ⟨q, h1, fun hq => ?_⟩
  rw [List.flatten_append, List.flatten_cons, val_skip, h2 hq (apart _ _)]
  intro v hv' e
  obtain ⟨cell, hcell, hvc⟩ := List.mem_flatten.mp hv'
  obtain ⟨l3, a, l4, bs1, wx, wy, bs2, rfl, j1, j2, j3⟩ := each_mem k1 cell hcell
  have e2 : wx = wa := by
    have := (valueCells_world j2)
    clear j2 j3 hl h k1
    induction l3 generalizing bs1 with
    | nil => cases j1; rfl
    | cons e l ih =>
      obtain ⟨c, wc, i1, i2⟩ := bind_ok j1
      obtain ⟨cs, wd, i3, i4⟩ := bind_ok i2
      cases i4
      rw [valueCells_world i1] at i3
      exact ih _ i3
  subst e2
  obtain ⟨v', -, q', hq', hn'⟩ := valueCells_name j2 v hvc
  refine sysApart_ne hc hn h1 hq hq' (hs _ _ q' hq') (fun e => ?_) (String.ofList_injective (hn'.symm.trans e))
  have e3 := e.1
  injection e3 with e3
  exact hl a (by simp) e3.symm

theorem getById_live {S : Meta.Env Q} {n : Nat} {kv : Kv} (h : Hist S n kv) (hn : n < 2 ^ 62) (p : Nat) (ty : PropType) (id : Nat) (q : Property) :
    (propsC p ty).getById id kv = .ok q ↔ (propsC p ty).live kv id = some q := by
  rw [getById_eq ((hist_props h hn p ty).inv (props_ok p ty))]
  cases (propsC p ty).live kv id <;> simp

theorem find_first {l1 l2 : List (Nat × GroupValues)} {g : Nat} {gv : GroupValues} (h : ∀ e ∈ l1, e.1 ≠ g) :
    (l1 ++ (g, gv) :: l2).find? (fun x => x.1 == g) = some (g, gv) := by
  rw [List.find?_append]
  have : l1.find? (fun x => x.1 == g) = none := by
    rw [List.find?_eq_none]
    intro e he
    simpa using h e he
  rw [this]
  simp

/-- C112 (partial). After any history in which no update changes the type, data type or system flag of a property: the row of an accepted
event whose groups have distinct names has, for each of its groups, the number of the group in the column of its kind, and the current value
of each of the group's properties in its column; and, if the request has groups and the user id alone, likewise for the properties of the
user. Missing: the properties of the user of any other request (see `C112_violated`); a group of the kind of the users next to a user;
system properties. -/
theorem C112_partial {S : Meta.Env Q} (hsys : ∀ n, '/' ∉ S.sys n) {E : Env Track} (hs : E.sys = S.sys) {K : Nat} (hK : E.Bounded K) (hL : E.Looks) {token : Str} {req : Track}
    {w w' : World} (h : executeTrack E token req w = (.ok (), w')) {n : Nat} (hr : Runs S Req.keepsColumns [] n w.kv)
    (hn : n + (2 * (req.props.getD []).length + 6 * (req.groups.getD []).length + K + 20) < 2 ^ 62) (hnd : ((req.groups.getD []).map Prod.fst).Nodup)
    (hap : ∀ project, getByToken token w.kv = .ok project → SystemApart S.sys project.id w'.kv) :
    ∃ project row, getByToken token w.kv = .ok project ∧ w'.rows.getLast? = some (kEvents, row) ∧
      (∀ name s, (name, s) ∈ req.groups.getD [] → ∃ grp num vals, Known project.id w'.kv name grp ∧ Resolves project.id grp.id w'.kv (.real s) num ∧
        HasValues project.id grp.id w'.kv s vals ∧ (grp.id ≠ 0 → val row (groupCol grp.id) = i64 num) ∧
        (grp.id ≠ 0 ∨ req.userId = none ∨ req.anonId ≠ none → Carries S.sys project.id grp.id w'.kv vals row)) ∧
      (∀ u, req.userId = some u → req.anonId = none → req.groups ≠ none → ∃ num vals, Resolves project.id 0 w'.kv (.real u) num ∧
        HasValues project.id 0 w'.kv u vals ∧ val row (groupCol 0) = i64 num ∧ Carries S.sys project.id 0 w'.kv vals row) := by
  unfold executeTrack at h
  obtain ⟨project, w0, h0, k0⟩ := bind_ok h
  obtain ⟨h0, rfl⟩ := read_ok h0
  obtain ⟨r, w1, h1, k1⟩ := bind_ok k0
  obtain ⟨⟨⟩, w2, h2, k2⟩ := bind_ok k1
  obtain ⟨pr, w3, h3, k3⟩ := bind_ok k2
  cases k3
  obtain ⟨h3, e3⟩ := call_ok h3
  have hpl : project.id < 2 ^ 64 := by
    obtain ⟨b, hb⟩ := getBy_dec h0
    exact project_dec_lt hb
  have hpost : r.user < 2 ^ 64 ∧ (r.props.getD []).length ≤ (req.props.getD []).length + K := (resolveTrack_follows (S := S) hs hK hpl req w0).2 r w1 h1
  obtain ⟨l, u, wa, wb, wc, wd, we, p1, p2, p3, ⟨evp, p4⟩, ⟨atp, p5⟩, rfl, pu, p6⟩ := resolveTrack_parts h1
  obtain ⟨isNew, kv1, cells, utm, rec, kv2, kv3, t', s1, s2, s3, ⟨-, wA, wB, w4, w5, props, gprops, c1, c2, c3, c4, c5, c6⟩, s5, s6⟩ := sendTrack_ok h2
  rw [hs] at p1 c2 c3 c4
  have hlast : w'.rows.getLast? = some (kEvents, eventRow project.id r.user rec r.event.id req.time (groupCells r.groups) cells) := by
    rw [e3]
    cases isNew with
    | false => rw [if_neg (by simp)] at s5; rw [s5.2]; simp
    | true =>
      rw [if_pos rfl] at s5
      obtain ⟨_, _, _, _, _, _, _, e⟩ := s5
      rw [e]; simp
  -- the requests
  let P : Req Q → Prop := fun r => TrackReq project.id r ∧ Calm r
  have toT : ∀ {a b : Kv} {k : Nat}, Runs S P a k b → Runs S (TrackReq project.id) a k b := fun h => runs_mono (fun _ h => h.1) h
  have toK : ∀ {a b : Kv} {k : Nat}, Runs S (TrackReq project.id) a k b → Runs S Req.keepsColumns a k b := fun h => runs_mono (fun _ h => (track_plain (q := 0) h).1) h
  have toR : ∀ {a b : Kv} {k : Nat}, Runs S (ResolveReq project.id) a k b → Runs S (TrackReq project.id) a k b := fun h => runs_mono (fun _ h => .inl h) h
  have toA : ∀ {P : Req Q → Prop} {a b : Kv} {k : Nat}, Runs S P a k b → Runs S (fun _ => True) a k b := fun h => runs_mono (fun _ _ => trivial) h
  have fromC : ∀ {a b : Kv} {k : Nat}, Runs S (CalmResolve project.id) a k b → Runs S P a k b := fun h => runs_mono (fun _ h => ⟨.inl h.1, h.2⟩) h
  have fromS : ∀ {a b : Kv} {k : Nat}, Runs S (SendReq project.id) a k b → Runs S P a k b := fun h => runs_mono (fun _ h => ⟨.inr (.inl h), send_calm h⟩) h
  obtain ⟨ma, hma, Ra⟩ := (resolve_follows hpl E.now _).runs p1
  obtain ⟨mb, hmb, Rb⟩ := (resolveUser_follows (S := S) req.userId req.anonId).runs p2
  obtain ⟨md, hmd, Rd⟩ := (Follows.callRaw (S := S) (P := CalmResolve project.id) (Post := fun _ => True) (.eventGetOrCreate project.id E.now (eventReq req.event evp)) (fun _ => rfl)
    ⟨hpl, by show 1 < 2 ^ 64; decide⟩ ⟨rfl, trivial⟩ (fun _ _ _ => trivial)).runs p4
  have Re : ∃ m, m ≤ 1 ∧ Runs S (CalmResolve project.id) wd.kv m w1.kv := by
    cases atp with
    | none => cases p5; exact ⟨0, by omega, .refl⟩
    | some la =>
      obtain ⟨_, wx, q1, q2⟩ := bind_ok p5
      cases q2
      exact ⟨1, Nat.le_refl _, run_one (.eventTryAttach project.id r.event.id (la.map fun pv => pv.1.id)) rfl trivial ⟨rfl, trivial⟩ (call_ok q1).1⟩
  obtain ⟨me, hme, Re⟩ := Re
  have R1 : Runs S (SendReq project.id) w1.kv 1 wA.kv := run_one (.sessionSet project.id r.user E.now) rfl hpost.1 rfl (call_ok c1).1
  obtain ⟨mB, hmB, R2⟩ := (propCells_follows hsys (p := project.id) (r.props.getD [])).runs c2
  obtain ⟨m3, hm3, R3⟩ := (Follows.each (S := S) (P := SendReq project.id) (r.groups.getD []) fun g _ => valueCells_follows g.2.values).runs c3
  obtain ⟨m4, hm4, R4⟩ := (utmCells_follows (S := S) (p := project.id) hsys req.campaign).runs c4
  have seq : ∀ {a b : Kv} {k : Nat}, nextSeq (.recSeq project.id) a = .ok (k, b) → Runs S (SendReq project.id) a 1 b := fun e => run_one (.eventRecord project.id) rfl trivial rfl e
  have R5 : ∃ m, m ≤ 1 ∧ Runs S (SendReq project.id) w5.kv m kv2 := by
    cases isNew with
    | false => rw [if_neg (by simp)] at c6; rw [c6]; exact ⟨0, by omega, .refl⟩
    | true =>
      rw [if_pos rfl] at c6
      obtain ⟨rec1, c6⟩ := c6
      exact ⟨1, by omega, seq c6⟩
  obtain ⟨m5, hm5, R5⟩ := R5
  have R6 : Runs S (SendReq project.id) kv2 1 w2.kv := by rw [s3]; exact seq s2
  have R7 : Runs S P w2.kv 1 w'.kv := run_one (.projectIncrement project.id) rfl trivial ⟨.inr (.inr rfl), trivial⟩ h3
  have TB : Runs S P wB.kv (m3 + m4 + m5 + 1 + 1) w'.kv := (fromS (((R3.trans R4).trans R5).trans R6)).trans R7
  have T1 : Runs S P w1.kv (1 + mB + (m3 + m4 + m5 + 1 + 1)) w'.kv := (fromS (R1.trans R2)).trans TB
  have Tc : Runs S P wc.kv (md + me + (1 + mB + (m3 + m4 + m5 + 1 + 1))) w'.kv := (fromC (Rd.trans Re)).trans T1
  have hRc : ∃ m, m ≤ 3 * (req.groups.getD []).length ∧ Runs S (CalmResolve project.id) wb.kv m wc.kv := by
    unfold resolveGroups at p3
    cases hg : req.groups with
    | none =>
      rw [hg] at p3
      injection p3 with _ p3
      exact ⟨0, by omega, p3 ▸ .refl⟩
    | some lg =>
      rw [hg] at p3
      obtain ⟨rg, wx, q1, q2⟩ := bind_ok p3
      injection q2 with _ q2
      subst q2
      obtain ⟨m, hm, R⟩ := (resolveGroups_calm (S := S) lg).runs q1
      exact ⟨m, by simp only [Option.getD_some]; omega, R⟩
  obtain ⟨mc, hmc, Rc⟩ := hRc
  have Kc : Runs S Req.keepsColumns [] (n + (ma + mb + mc)) wc.kv := hr.trans (toK ((toR (Ra.trans Rb)).trans (toT (fromC Rc))))
  have KB : Runs S Req.keepsColumns [] (n + (ma + mb + mc) + (md + me + (1 + mB))) wB.kv := Kc.trans (toK (toT ((fromC (Rd.trans Re)).trans (fromS (R1.trans R2)))))
  have Kend : Runs S Req.keepsColumns [] (n + (ma + mb + mc) + (md + me + (1 + mB + (m3 + m4 + m5 + 1 + 1)))) w'.kv := Kc.trans (toK (toT Tc))
  have chist : ∀ {k : Nat} {kv : Kv}, Runs S Req.keepsColumns [] k kv → CHist S k kv := by
    intro k kv h
    induction h with
    | refl => exact .start
    | step r _ hr hp ih => exact ih.step r hr hp
  have z3 : (r.groups.getD []).length * 0 = 0 := by simp
  have hh : Hist S n w0.kv := by simpa using hr.hist .start
  have hB := (chist KB).hist
  have hE := (chist Kend).hist
  have hlenE : n + (ma + mb + mc) + (md + me + (1 + mB + (m3 + m4 + m5 + 1 + 1))) < 2 ^ 62 := by omega
  -- properties of the row converted are properties at the end
  have later : ∀ ty id q, (propsC project.id ty).getById id wB.kv = .ok q → (propsC project.id ty).getById id w'.kv = .ok q := by
    intro ty id q hq
    rw [getById_live hB (by omega)] at hq
    rw [getById_live hE hlenE]
    cases ty with
    | event => exact track_live (toT TB) hB (by omega) hq
    | group g => exact props_live track_props (toT TB) hB (by omega) hq
  have hapE := hap project h0
  have hapB : SystemApart S.sys project.id wB.kv := fun ty id q hq => hapE ty id q (later ty id q hq)
  have evcol : ∀ pv ∈ r.props.getD [], ∃ id q, (propsC project.id .event).getById id w'.kv = .ok q ∧ pv.1.columnName S.sys = q.columnName S.sys := by
    intro pv hpv
    have old : pv ∈ l → ∃ id q, (propsC project.id .event).getById id w'.kv = .ok q ∧ pv.1.columnName S.sys = q.columnName S.sys := by
      intro hl
      obtain ⟨x, hx, id, q, -, hq, -, hnorm⟩ := resolved_live hpl p1 hh ((toR Rb).trans ((toT (fromC Rc)).trans (toT Tc))) (by omega) pv hl
      refine ⟨id, q, (getById_live hE hlenE _ _ _ _).mpr hq, ?_⟩
      have : pv.1.norm.columnName S.sys = q.norm.columnName S.sys := by rw [hnorm]
      exact this
    rcases p6 pv hpv with hl | ⟨l0, l', ht, hx, hsub⟩
    · exact old hl
    · rcases hL _ _ _ _ _ ht pv hx with hl | ⟨id, hid⟩
      · exact old (hsub pv hl)
      · have h1' : Hist S (n + (ma + mb + mc) + (md + me)) w1.kv := by simpa using (Kc.trans (toK (toT (fromC (Rd.trans Re))))).hist .start
        rw [getById_live h1' (by omega)] at hid
        exact ⟨id, pv.1, (getById_live hE hlenE _ _ _ _).mpr (track_live (toT T1) h1' (by omega) hid), rfl⟩
  have carry : ∀ g gv l1 l2, r.groups.getD [] = l1 ++ (g, gv) :: l2 → (∀ e ∈ l1, e.1 ≠ g) →
      Carries S.sys project.id g w'.kv gv.values (eventRow project.id r.user rec r.event.id req.time (groupCells r.groups) cells) := by
    intro g gv l1 l2 hsplit hfirst i x hv
    have c3' := c3
    rw [hsplit] at c3'
    obtain ⟨q, hq, hq2⟩ := groupProps_val (chist KB) (by omega) hapB hfirst c3' hv
    refine ⟨q, later _ _ _ hq, fun hns => ?_⟩
    have hcol := columnName_col (sys := S.sys) hns
    have hother : ∀ x ∈ props, x.name ≠ String.ofList (q.columnName S.sys) := by
      intro x hx e
      obtain ⟨pv, hpv, hpn⟩ := propCells_name c2 x hx
      obtain ⟨id', q', hq', hcol'⟩ := evcol pv hpv
      have ecol : q'.columnName S.sys = q.columnName S.sys := by
        rw [← hcol']
        exact String.ofList_injective (hpn.symm.trans e)
      cases hsy : q'.isSystem with
      | true =>
        have e2 : q'.columnName S.sys = S.sys q'.name := by unfold Property.columnName; rw [if_pos hsy]
        have := hapE _ _ q' hq' hsy
        rw [← e2, ecol] at this
        exact this hcol
      | false =>
        have := (C40_partial (chist Kend) hlenE hq' (later _ _ _ hq) hsy hns ecol).1
        cases this
    have hvs : eventRow project.id r.user rec r.event.id req.time (groupCells r.groups) cells = keyCells project.id r.user ++ (groupCells r.groups ++
        (nv kCreatedAt (.timestamp (some (millis req.time))) :: nv kEventId (i64 rec) :: nv kEvent (i64 r.event.id) :: (props ++ gprops.flatten))) := by
      rw [c5]; simp [eventRow]
    rw [hvs, val_key_skip _ _ _ (hcol.ne (by decide +kernel)).symm (hcol.ne (groupCol_col 0)).symm, val_skip (groupCells_skip fun g => (hcol.ne (groupCol_col g)).symm),
      val_cons, if_neg (hcol.ne (by decide +kernel)).symm, val_cons, if_neg (hcol.ne (by decide +kernel)).symm, val_cons, if_neg (hcol.ne (by decide +kernel)).symm,
      val_skip hother, hq2 hns]
  have hcells := eventRow_cells project.id r.user rec r.event.id req.time r.groups cells
  refine ⟨project, _, h0, hlast, fun name s hmem => ?_, fun uid hu1 hu2 hg => ?_⟩
  · -- a group of the request
    cases hg : req.groups with
    | none => rw [hg] at hmem; cases hmem
    | some lg =>
      rw [hg, Option.getD_some] at hmem
      rw [hg, Option.getD_some] at hnd
      unfold resolveGroups at p3
      rw [hg] at p3
      obtain ⟨rg, wx, q1, q2⟩ := bind_ok p3
      have hrg : r.groups = some ((u.2.map fun g => (0, g)).toList ++ rg) ∧ wx = wc := by
        injection q2 with q2 q3
        injection q2 with q2
        exact ⟨q2.symm, q3⟩
      obtain ⟨hrg, rfl⟩ := hrg
      obtain ⟨l1, l2, hsplit⟩ := List.append_of_mem hmem
      rw [hsplit] at q1 hnd
      obtain ⟨bs1, e, bs2, wy, wz, j1, j2, j3, rfl⟩ := each_split q1
      obtain ⟨my, hmy, Ry⟩ := (resolveGroups_calm (S := S) (p := project.id) l1).runs j1
      obtain ⟨mz, hmz, Rz⟩ := (resolveGroups_calm (S := S) (p := project.id) l2).runs j3
      have Ky : Runs S (fun _ => True) [] (n + (ma + mb + my)) wy.kv := (toA hr).trans ((toA (Ra.trans Rb)).trans (toA Ry))
      obtain ⟨grp, he, hk, hres, hvals⟩ := resolveGroup_at j2 Ky (P := P) (fun _ h => h.2) ((fromC Rz).trans Tc)
      obtain ⟨e1, gv⟩ := e
      dsimp only at he hres hvals
      subst he
      have hfirst : ∀ e ∈ bs1, e.1 ≠ grp.id := by
        intro e' he' hx
        obtain ⟨l3, a, l4, cs1, wp, wq, cs2, rfl, i1, i2, i3⟩ := each_mem j1 e' he'
        obtain ⟨mp, hmp, Rp⟩ := (resolveGroups_calm (S := S) (p := project.id) l3).runs i1
        obtain ⟨mq, hmq, Rq⟩ := (resolveGroups_calm (S := S) (p := project.id) l4).runs i3
        obtain ⟨mr, hmr, Rr⟩ := (resolveGroup_calm (S := S) (p := project.id) (name, s)).runs j2
        have Kp : Runs S (fun _ => True) [] (n + (ma + mb + mp)) wp.kv := (toA hr).trans ((toA (Ra.trans Rb)).trans (toA Rp))
        obtain ⟨grp', he2, hk', -⟩ := resolveGroup_at i2 Kp (P := P) (fun _ h => h.2) ((fromC (Rq.trans (Rr.trans Rz))).trans Tc)
        have := C89_injective (toA Kend) hk' hk (he2.symm.trans hx)
        rw [List.map_append, List.nodup_append] at hnd
        exact hnd.2.2 a.1 (List.mem_map.mpr ⟨a, by simp, rfl⟩) name (by simp) this
      have whole : ∀ pre, (∀ e ∈ pre, e.1 ≠ grp.id) → r.groups = some (pre ++ (bs1 ++ (grp.id, gv) :: bs2)) →
          (∀ e ∈ pre ++ bs1, e.1 ≠ grp.id) ∧ r.groups.getD [] = (pre ++ bs1) ++ (grp.id, gv) :: bs2 := by
        intro pre hpre e
        refine ⟨fun e he => ?_, by rw [e]; simp⟩
        rcases List.mem_append.mp he with he | he
        · exact hpre e he
        · exact hfirst e he
      refine ⟨grp, gv.id, gv.values, hk, hres, hvals, fun hne => ?_, fun hor => ?_⟩
      · have hlt : grp.id < 5 := by
          obtain ⟨mr, hmr, Rr⟩ := (resolveGroup_calm (S := S) (p := project.id) (name, s)).runs j2
          unfold resolveGroup at j2
          obtain ⟨grp2, wg, i1, i2⟩ := bind_ok j2
          obtain ⟨v2, wh, i3, i4⟩ := bind_ok i2
          obtain ⟨_, wi, i5, i6⟩ := bind_ok i4
          have hid : grp2.id = grp.id := by
            injection i6 with i6
            injection i6 with i6
            injection i6
          rw [← hid]
          exact (C89_permanent (m := 0) Ky (call_ok i1).1 .refl).2.2
        have hmem' : grp.id ∈ [1, 2, 3, 4] := by simp; omega
        have hv := hcells.group grp.id hmem'
        have := whole _ (fun e he => by
          rcases hu : u.2 with _ | x
          · rw [hu] at he; cases he
          · rw [hu] at he
            simp at he
            rw [he]; exact fun e => hne e.symm) hrg
        unfold groupVal at hv
        rw [this.2, find_first this.1] at hv
        injection hv
      · have := whole (u.2.map fun g => (0, g)).toList (fun e he hx => by
          rcases hu : u.2 with _ | x
          · rw [hu] at he; cases he
          · rw [hu] at he
            simp at he
            rw [he] at hx
            rcases hor with hor | hor | hor
            · exact hor hx.symm
            · rw [hor] at p2
              cases ha : req.anonId with
              | none => rw [ha] at p2; cases p2
              | some a =>
                rw [ha] at p2
                obtain ⟨_, _, _, i2⟩ := bind_ok p2
                obtain ⟨_, _, _, i4⟩ := bind_ok i2
                cases i4
                cases hu
            · cases ha : req.anonId with
              | none => exact hor ha
              | some a =>
                rw [ha] at p2
                cases hui : req.userId with
                | none =>
                  rw [hui] at p2
                  obtain ⟨_, _, _, i2⟩ := bind_ok p2
                  obtain ⟨_, _, _, i4⟩ := bind_ok i2
                  cases i4
                  cases hu
                | some ui =>
                  rw [hui] at p2
                  obtain ⟨_, _, _, i2⟩ := bind_ok p2
                  cases i2
                  cases hu) hrg
        exact carry grp.id gv _ bs2 this.2 this.1
  · -- the user
    cases hgr : req.groups with
    | none => exact absurd hgr hg
    | some lg =>
      unfold resolveGroups at p3
      rw [hgr] at p3
      obtain ⟨rg, wx, q1, q2⟩ := bind_ok p3
      have hrg : r.groups = some ((u.2.map fun g => (0, g)).toList ++ rg) := by
        injection q2 with q2 q3
        injection q2 with q2
        exact q2.symm
      rw [hu1, hu2] at p2
      have Ka : Runs S (fun _ => True) [] (n + ma) wa.kv := (toA hr).trans (toA Ra)
      obtain ⟨gv, rfl, hres, hvals⟩ := resolveUser_at p2 Ka (P := P) (fun _ h => h.2) ((fromC Rc).trans Tc)
      refine ⟨gv.id, gv.values, hres, hvals, ?_, ?_⟩
      · exact (Option.some.inj hcells.user).trans (congrArg i64 pu)
      · exact carry 0 gv [] rg (by rw [hrg]; rfl) (fun _ h => by cases h)

/-- C112 as stated: the row of every accepted event of a user has the current value of each property of the user. -/
def C112_full : Prop := ∀ (token : Str) (req : Track) (w w' : World) (n : Nat), Runs exSysEnv Req.keepsColumns [] n w.kv → n < 2 ^ 61 →
  executeTrack exSysIngest token req w = (.ok (), w') → ∀ u, req.userId = some u →
  ∃ project row, getByToken token w.kv = .ok project ∧ w'.rows.getLast? = some (kEvents, row) ∧
    ∀ vals, HasValues project.id 0 w'.kv u vals → Carries exSysEnv.sys project.id 0 w'.kv vals row

/-- The example project after an identify request of the user. -/
def exSysGroupWorld : World := ⟨runReqs exSysEnv exGroups [], exGroupWorld.tbl, []⟩
def exUserWorld : World := (executeIdentify exSysEnv.sys ⟨5#64, 0⟩ exToken (exIdentify "user".toList) exSysGroupWorld).2
def exBuy (gs : Option (List (Str × Str))) : Track := { exTrack (some "acme".toList) none [] with groups := gs }

theorem exSysGroupWorld_runs : Runs exSysEnv Req.keepsColumns [] 4 exSysGroupWorld.kv :=
  .step (.groupName 1 "org".toList "org".toList) (.step (.groupName 1 "user".toList "user".toList)
    (.step (.eventCreate 1 ⟨0, 0⟩ (eventReq kSessionBegin none)) (.step (.projectCreate ⟨0, 0⟩ exProj) .refl ⟨by decide, by decide, by decide⟩ trivial)
      ⟨by decide, by decide⟩ trivial) trivial trivial) trivial trivial

theorem exUserWorld_runs : ∃ m, m ≤ 10 ∧ Runs exSysEnv Req.keepsColumns [] m exUserWorld.kv := by
  rcases executeIdentify_follows exSlash ⟨5#64, 0⟩ exToken (exIdentify "user".toList) exSysGroupWorld with ⟨e, he, -⟩ | ⟨project, m, -, hm, hr⟩
  · have : (getByToken exToken exSysGroupWorld.kv).toOption.map (·.id) = some 1 := by decide +kernel
    rw [he] at this
    cases this
  · refine ⟨4 + m, ?_, exSysGroupWorld_runs.trans (runs_mono (fun _ h => (identify_plain (q := 0) h).1) hr)⟩
    have : 2 * ((exIdentify "user".toList).props.getD []).length + 4 = 6 := by decide
    omega

/-- The row of an event sent without groups lacks the user's property. -/
theorem C112_violated : ¬ C112_full := by
  intro h
  obtain ⟨m, hm, hr⟩ := exUserWorld_runs
  have h1 : (executeTrack exSysIngest exToken (exBuy none) exUserWorld).1 = .ok () := by decide +kernel
  obtain ⟨project, row, hp, hl, hq⟩ := h exToken (exBuy none) exUserWorld _ m hr (by omega) (Prod.ext h1 rfl) "acme".toList rfl
  have hp1 : project.id = 1 := by
    have : ((getByToken exToken exUserWorld.kv).toOption.map (·.id)) = some 1 := by decide +kernel
    rw [hp] at this
    simpa [Except.toOption] using this
  rw [hp1] at hq
  have hend : ∃ k, Hist exSysEnv k (executeTrack exSysIngest exToken (exBuy none) exUserWorld).2.kv := by
    rcases executeTrack_follows (S := exSysEnv) (E := exSysIngest) rfl exSlash (K := 0) (fun _ _ _ _ _ e => by cases e; exact Nat.le_refl _) exToken (exBuy none) exUserWorld with ⟨e, he, -⟩ | ⟨pr, m2, -, -, hr2⟩
    · have e2 : getByToken exToken exUserWorld.kv = .ok project := hp
      rw [e2] at he; cases he
    · exact ⟨m + m2, by simpa using (hr.trans (runs_mono (fun _ h => (track_plain (q := 0) h).1) hr2)).hist .start⟩
  obtain ⟨k, hend⟩ := hend
  have hv : (((getK (executeTrack exSysIngest exToken (exBuy none) exUserWorld).2.kv (.real 1 0 "acme".toList)).bind GroupValues.dec).bind fun r => valueOf r.values 1) = some (.int64 1#64) := by
    decide +kernel
  cases hb : getK (executeTrack exSysIngest exToken (exBuy none) exUserWorld).2.kv (.real 1 0 "acme".toList) with
  | none => rw [hb] at hv; cases hv
  | some b =>
    rw [hb, Option.bind_some] at hv
    cases hd : GroupValues.dec b with
    | none => rw [hd] at hv; cases hv
    | some gv =>
      rw [hd, Option.bind_some] at hv
      obtain ⟨q, hq1, hq2⟩ := hq gv.values ((hasValues_iff (hend.gshape 1 0) _ _).mpr ⟨b, gv, hb, hd, rfl⟩) 1 _ hv
      have h4 : ((propsC 1 (.group 0)).getById 1 (executeTrack exSysIngest exToken (exBuy none) exUserWorld).2.kv).toOption.map
          (fun r => (r.isSystem, r.columnName exSysEnv.sys)) = some (false, "g_0_str_0".toList) := by decide +kernel
      rw [hq1] at h4
      simp only [Except.toOption, Option.map_some, Option.some.injEq, Prod.mk.injEq] at h4
      have h5 := hq2 h4.1
      rw [h4.2] at h5
      have h6 : (executeTrack exSysIngest exToken (exBuy none) exUserWorld).2.rows.getLast?.map (fun x => val x.2 "g_0_str_0".toList) = some .null := by decide +kernel
      rw [hl, Option.map_some, h5] at h6
      cases h6

/-- A database without system properties has them apart. -/
theorem systemApart_none (sys : Str → Str) (p : Nat) {kv : Kv} (h : ∀ e ∈ kv, ((Property.dec e.2).map Property.isSystem).getD false = false) : SystemApart sys p kv := by
  intro ty id q hq hs
  unfold Coll.getById getK Kv.get at hq
  cases hf : kv.find? (fun e => e.1 = (Key.data (propsC p ty).ns id).render) with
  | none => rw [hf] at hq; cases hq
  | some e =>
    rw [hf] at hq
    have hd := h e (List.mem_of_find?_eq_some hf)
    cases he : Property.dec e.2 with
    | none => simp only [Option.map_some, propsC, he] at hq; cases hq
    | some q' =>
      simp only [Option.map_some, propsC, he] at hq
      cases hq
      rw [he] at hd
      simp [hs] at hd

/-- The hypotheses of C112 are met: with groups, even none of them, the row has it. -/
example : (∃ m, m ≤ 10 ∧ Runs exSysEnv Req.keepsColumns [] m exUserWorld.kv) ∧ exSysIngest.Bounded 0 ∧ exSysIngest.Looks ∧
    SystemApart exSysEnv.sys 1 (executeTrack exSysIngest exToken (exBuy (some [("org".toList, "x".toList)])) exUserWorld).2.kv ∧ (executeTrack exSysIngest exToken (exBuy (some [])) exUserWorld).1 = .ok () ∧
    (executeTrack exSysIngest exToken (exBuy (some [("org".toList, "x".toList)])) exUserWorld).1 = .ok () ∧
    (executeTrack exSysIngest exToken (exBuy (some [("org".toList, "x".toList)])) exUserWorld).2.rows.map
      (fun x => (val x.2 "g_0_str_0".toList, val x.2 (groupCol 0), val x.2 (groupCol 1))) =
      [(i64 1, .null, .null), (i64 1, i64 1, i64 1), (i64 1, i64 1, i64 1)] := by
  exact ⟨exUserWorld_runs, fun _ _ _ _ _ e => by cases e; exact Nat.le_refl _, fun _ _ _ _ _ e _ hx => by cases e; exact .inl hx, systemApart_none _ _ (by decide +kernel), by decide +kernel⟩

end OptiPrism.Ingest
