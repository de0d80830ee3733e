import Verif.Ingest.PropRows
import Verif.Ingest.EventNameProps

/-!
# C109: the properties of an accepted event are stored in their own columns
-/

namespace OptiPrism.Ingest

open OptiPrism.Meta
open OptiPrism.Storage (Bytes Value NamedValue Tbl InsertErr ColType Field Row supplied)

variable {Q : Type}

/-- Spec: the dictionary key a stored cell holds. -/
def storedKey : Value → Option Nat
  | .int8 (some v) => some (v.signExtend 64).toNat
  | .int16 (some v) => some (v.signExtend 64).toNat
  | .int32 (some v) => some (v.signExtend 64).toNat
  | .int64 (some v) => some (v.signExtend 64).toNat
  | _ => none

/-- Spec: the integer a stored cell holds. -/
def storedInt : Value → Option Int
  | .int8 (some v) => some v.toInt
  | .int16 (some v) => some v.toInt
  | .int32 (some v) => some v.toInt
  | .int64 (some v) => some v.toInt
  | _ => none

/-- Spec: what a stored cell `c` of the table `t` in the column of the property `q` reads as.
* A boolean, and a string of a property without dictionary, is the cell itself.
* A string of a property with dictionary has a key, which reads as the string; the cell holds the key as far as the type of the dictionary
has room for it.
* For a number of an integer property, the cell holds the integer part; for one of a decimal property, the digits (see C44 for the point). -/
def Reads (sys : Str → Str) (p : Nat) (t : Str) (kv : Kv) (q : Property) (c : Value) : PropValue → Prop
  | .bool b => c = .boolean (some b)
  | .string s => if q.isDictionary then
      ∃ dt k, q.dictType = some dt ∧ dictGetKey p t (q.columnName sys) s kv = .ok k ∧ dictGetValue p t (q.columnName sys) k kv = .ok s ∧
        (k < dictRoom dt → storedKey c = some k)
    else c = .string (some (utf8 s))
  | .number n => (∃ x, c = .decimal (some x) ∧ q.dataType = .decimal ∧ (n.Ok → x.toInt = n.m)) ∨
      intWidth q.dataType ≠ none ∧ storedInt c = some (n.m.tdiv (10 ^ n.scale))
  | .date d => c = .int64 (some d.sec)

theorem storedKey_dictCell (dt : DictType) (k : Nat) : storedKey (toStore (dictCell dt k)) = cellKey (dictCell dt k) := by
  cases dt <;> rfl

theorem unwrapInt_ok {w : Nat} {f : BitVec w → GValue} {n : Num} {c : GValue} (h : unwrapInt f n = .ok c) : ∃ v, n.toInt w = some v ∧ c = f v := by
  unfold unwrapInt at h
  split at h
  · cases h
  · cases h; exact ⟨_, by assumption, rfl⟩

/-- A converted value reads as the value, then and later. -/
theorem cell_reads {S : Meta.Env Q} (hsys : ∀ n, '/' ∉ S.sys n) {p n : Nat} {t : Str} (hts : '/' ∉ t) {q : Property} {v : PropValue} {c : GValue} {w w1 : World}
    (h0 : Runs S (Req.NoPut p t (q.columnName S.sys)) [] n w.kv) (e : propertyToValue S.sys p t (q, v) w = (.ok c, w1)) :
    ∀ m kv', n + 1 + m < 2 ^ 62 → Runs S (Req.NoPut p t (q.columnName S.sys)) w1.kv m kv' → Reads S.sys p t kv' q (toStore c) v := by
  intro m kv' hn hr
  unfold propertyToValue at e
  dsimp only at e
  split at e
  · rename_i hd
    cases v with
    | bool b => cases e
    | number x => cases e
    | date t => cases e
    | string s =>
      dsimp only at e
      obtain ⟨k, w2, e1, e2⟩ := bind_ok e
      obtain ⟨e3, -⟩ := call_ok e1
      cases hdt : q.dictType with
      | none => rw [hdt] at e2; cases e2
      | some dt =>
        rw [hdt] at e2
        cases e2
        have hw : '/' ∉ t ∧ '/' ∉ q.columnName S.sys := ⟨hts, slash_columnName hsys q⟩
        obtain ⟨k', kv1, e4, hs⟩ := C29_stable hw h0 (m := m) (by omega) s
        rw [e3] at e4
        cases e4
        obtain ⟨-, g1, g2⟩ := hs kv' hr
        have hok : (Req.dictGet p t (q.columnName S.sys) s : Req Q).exec S w.kv = w1.kv := by
          show (runCall (dictGetOrCreate p t (q.columnName S.sys) s) w.kv).2 = w1.kv
          simp only [runCall, e3]
        have hr1 : Runs S (Req.NoPut p t (q.columnName S.sys)) [] (n + 1) w1.kv := by
          rw [← hok]
          exact .step _ h0 hw trivial
        have hk63 : k < 2 ^ 63 := by
          obtain ⟨hi, -, hl⟩ := (hr1.trans hr).dict hw (DInv.empty p t _) (by simp only [dictLast, getK, Kv.get]; simp; omega)
          have hl' : dictLast p t (q.columnName S.sys) kv' ≤ n + 1 + m := by simpa [dictLast, getK, Kv.get] using hl
          obtain ⟨h4, h5⟩ := (getKey_iff hi s k).mp g1
          obtain ⟨k', e', -, h6, -⟩ := hi.val s _ h4
          have := le64_inj h5 (by omega) e'
          omega
        unfold Reads
        dsimp only
        rw [if_pos hd]
        refine ⟨dt, k, hdt, g1, g2, fun hk => ?_⟩
        rw [storedKey_dictCell]
        exact (cellKey_dictCell dt k hk63).mpr hk
  · rename_i hd
    have e1 : plainCell q.dataType v = .ok c := by injection e
    unfold Reads
    cases v with
    | bool b => cases hq : q.dataType <;> rw [hq] at e1 <;> cases e1; rfl
    | string s => dsimp only; rw [if_neg hd]; cases hq : q.dataType <;> rw [hq] at e1 <;> cases e1; rfl
    | date t => cases hq : q.dataType <;> rw [hq] at e1 <;> cases e1; rfl
    | number x =>
      dsimp only
      cases hq : q.dataType <;> rw [hq] at e1 <;> try (cases e1; done)
      case decimal => cases e1; exact .inl ⟨_, rfl, rfl, fun ho => toInt_ofInt ho.lo ho.hi⟩
      all_goals
        obtain ⟨b, hb, rfl⟩ := unwrapInt_ok e1
        exact .inr ⟨by simp [intWidth], congrArg some (toInt_some (by decide) hb).1⟩

theorem Reads.norm {sys : Str → Str} {p : Nat} {t : Str} {kv : Kv} {a q : Property} {c : Value} {v : PropValue} (h : Reads sys p t kv a c v) (e : a.norm = q.norm) :
    Reads sys p t kv q c v := by
  have e1 : a.columnName sys = q.columnName sys := by
    have : a.norm.columnName sys = q.norm.columnName sys := by rw [e]
    exact this
  have e2 : a.isDictionary = q.isDictionary := by simpa [Property.norm] using congrArg Property.isDictionary e
  have e3 : a.dictType = q.dictType := by simpa [Property.norm] using congrArg Property.dictType e
  have e4 : a.dataType = q.dataType := by simpa [Property.norm] using congrArg Property.dataType e
  unfold Reads at h ⊢
  rw [← e1, ← e2, ← e3, ← e4]
  exact h

/-! ## Columns -/

/-- The names of property columns have an underscore in the second place. -/
def PropCol (c : Str) : Prop := (c.drop 1).head? = some '_'

theorem columnName_col {sys : Str → Str} {q : Property} (h : q.isSystem = false) : PropCol (q.columnName sys) := by
  unfold PropCol Property.columnName
  rw [if_neg (by simp [h])]
  split <;> rfl

theorem PropCol.ne {c d : Str} (h : PropCol c) (hd : (d.drop 1).head? ≠ some '_') : c ≠ d := fun e => hd (e ▸ h)

theorem groupCol_col (g : Nat) : ((groupCol g).drop 1).head? ≠ some '_' := by
  have h1 : (kGroup_.drop 1).head? = some 'r' := by decide +kernel
  unfold groupCol
  cases hk : kGroup_ with
  | nil => rw [hk] at h1; cases h1
  | cons a l =>
    rw [hk] at h1
    cases l with
    | nil => cases h1
    | cons b l =>
      simp only [List.drop_succ_cons, List.drop_zero, List.head?_cons, Option.some.injEq] at h1
      subst h1
      simp

/-! ## Resolving -/

/-- The transformers append to the client's properties. -/
def Env.Appends (E : Env Track) : Prop := ∀ kv p req l l', E.transform kv p req l = .ok l' → ∃ more, l' = l ++ more

theorem resolveProperty_ok {sys : Str → Str} {now : Time} {p : Nat} {ty : PropType} {nvp : Str × PropValue} {a : Property × PropValue} {w w1 : World}
    (h : resolveProperty sys now p ty nvp w = (.ok a, w1)) : a.2 = nvp.2 ∧ propGetOrCreate sys p ty now (propReq ty nvp.1 nvp.2) (.ok ()) w.kv = .ok (a.1, w1.kv) := by
  unfold resolveProperty at h
  rcases hx : call (propGetOrCreate sys p ty now (propReq ty nvp.1 nvp.2) (.ok ())) w with ⟨_ | x, w2⟩ <;> rw [hx] at h
  · cases h
  · obtain ⟨h1, -⟩ := call_ok hx
    have hkv : ∀ r (w : World), (addColumns sys r w).kv = w.kv := by
      intro r w
      unfold addColumns addColumn
      repeat' (first | rfl | split)
      all_goals (dsimp only; repeat' (first | rfl | split))
    dsimp only at h
    injection h with h2 h3
    injection h2 with h2
    subst h2
    refine ⟨rfl, ?_⟩
    have : w1.kv = w2.kv := by
      rw [← h3]
      split
      · rfl
      · exact hkv _ _
    rw [this]; exact h1

/-- The resolved properties: those of the client in order, then those of the transformers. -/
theorem resolveTrack_props {E : Env Track} (hA : E.Appends) {p : Nat} {req : Track} {w w1 : World} {r : Resolved} (h : resolveTrack E p req w = (.ok r, w1)) :
    ∃ wa l more, each (resolveProperty E.sys E.now p .event) (req.props.getD []) w = (.ok l, wa) ∧ r.props.getD [] = l ++ more ∧
      ((resolveUser p req.userId req.anonId).bind fun u => (resolveGroups p u.2 req.groups).bind fun groups =>
        (callRaw (getOrCreateEvent p E.now (eventReq req.event (req.props.map fun _ => l)))).bind fun ev =>
        (attachProps p ev.id (req.props.map fun _ => l)).bind fun _ =>
        (transformed E p req (req.props.map fun _ => l)).bind fun props' => M.pure (⟨u.1, ev, props', groups⟩ : Resolved)) wa = (.ok r, w1) := by
  unfold resolveTrack at h
  obtain ⟨props, wa, h1, ha⟩ := bind_ok h
  have key : ∀ l, props.getD [] = l → ∃ more, r.props.getD [] = l ++ more := by
    intro l hl
    obtain ⟨u, wb, -, hb⟩ := bind_ok ha
    obtain ⟨groups, wc, -, hc⟩ := bind_ok hb
    obtain ⟨ev, wd, -, hd⟩ := bind_ok hc
    obtain ⟨_, we, -, he⟩ := bind_ok hd
    obtain ⟨props', wf, h6, hf⟩ := bind_ok he
    cases hf
    unfold transformed at h6
    split at h6
    · cases h6
    · rename_i l' ht
      cases h6
      obtain ⟨more, hm⟩ := hA _ _ _ _ _ ht
      dsimp only
      split
      · rename_i hem
        rw [hm] at hem
        exact ⟨[], by rw [hl, List.append_nil]⟩
      · exact ⟨more, by rw [Option.getD_some, hm, hl]⟩
  cases hp : req.props with
  | none =>
    rw [hp] at h1
    cases h1
    obtain ⟨more, hm⟩ := key [] rfl
    exact ⟨_, [], more, rfl, hm, ha⟩
  | some l0 =>
    rw [hp] at h1
    obtain ⟨l, wb, h2, h3⟩ := bind_ok h1
    cases h3
    obtain ⟨more, hm⟩ := key l rfl
    exact ⟨wa, l, more, h2, hm, ha⟩

theorem Follows.runs {S : Meta.Env Q} {P : Req Q → Prop} {B : Nat} {α : Type} {x : M α} {Post : α → Prop} (h : Follows S P B x Post) {w w' : World} {a : Except Fail α}
    (e : x w = (a, w')) : ∃ m, m ≤ B ∧ Runs S P w.kv m w'.kv := by
  have := (h w).1
  rwa [e] at this

theorem resolveRest_follows {S : Meta.Env Q} (E : Env Track) {p : Nat} (hp : p < 2 ^ 64) (req : Track) (props : Option (List (Property × PropValue))) :
    Follows S (ResolveReq p) (3 * (req.groups.getD []).length + 4) ((resolveUser p req.userId req.anonId).bind fun u => (resolveGroups p u.2 req.groups).bind fun groups =>
        (callRaw (getOrCreateEvent p E.now (eventReq req.event props))).bind fun ev => (attachProps p ev.id props).bind fun _ =>
        (transformed E p req props).bind fun props' => M.pure (⟨u.1, ev, props', groups⟩ : Resolved)) (fun _ => True) := by
  refine Follows.mono (Follows.bind (resolveUser_follows req.userId req.anonId) (fun u hu =>
    Follows.bind (resolveGroups_follows u.2 req.groups) (fun groups _ =>
    Follows.bind (Follows.callRaw (P := ResolveReq p) (Post := fun _ => True) (.eventGetOrCreate p E.now (eventReq req.event props)) (fun _ => rfl) ⟨hp, by show 1 < 2 ^ 64; decide⟩ rfl (fun _ _ _ => trivial)) (fun ev _ =>
    Follows.bind (B := 1) (Post := fun _ => True) ?_ (fun _ _ =>
    Follows.bind (B := 0) (Post := fun _ => True) ?_ (fun props' h' => Follows.pure trivial)))))) (fun _ h => h) ?_ (fun _ h => h)
  · cases props with
    | none => exact (Follows.pure trivial).mono (fun _ h => h) (by omega) (fun _ h => h)
    | some l =>
      exact Follows.bind (C := 0) (Post' := fun _ => True) (Follows.call (P := ResolveReq p) (Post := fun _ => True) (.eventTryAttach p ev.id (l.map fun pv => pv.1.id)) (fun _ => rfl) trivial rfl (fun _ _ _ _ => trivial))
        fun _ _ => Follows.pure trivial
  · intro w
    unfold transformed
    split <;> exact ⟨⟨0, Nat.le_refl _, .refl⟩, fun _ _ _ => trivial⟩
  · omega

theorem propCells_follows {S : Meta.Env Q} (hsys : ∀ n, '/' ∉ S.sys n) {p : Nat} (l : List (Property × PropValue)) :
    Follows S (SendReq p) l.length (propCells S.sys p kEvents l) (fun _ => True) := by
  have := Follows.each (S := S) (P := SendReq p) (B := 1) (Post := fun _ => True)
    (f := fun pv => (propertyToValue S.sys p kEvents pv).bind fun v => M.pure (nv (pv.1.columnName S.sys) (toStore v))) l
    (fun pv _ => Follows.bind (propertyToValue_follows slash_kEvents hsys _ fun _ _ => ⟨rfl, rfl⟩) fun _ _ => Follows.pure trivial)
  exact this.mono (fun _ h => h) (by simp) fun _ _ => trivial

/-- From the resolved request to the end. -/
theorem send_runs {S : Meta.Env Q} (hsys : ∀ n, '/' ∉ S.sys n) {E : Env Track} (hs : E.sys = S.sys) {p : Nat} {req : Track} {r : Resolved} {w1 w2 w' : World} (hu : r.user < 2 ^ 64)
    (h2 : sendTrack E p req r w1 = (.ok (), w2)) {pr : Project} (h3 : incrementEvents p w2.kv = .ok (pr, w'.kv)) :
    ∃ m, m ≤ (r.props.getD []).length + 9 ∧ Runs S (TrackReq p) w1.kv m w'.kv := by
  obtain ⟨m, hm, hr⟩ := (sendTrack_follows hs hsys (p := p) req r hu).runs h2
  refine ⟨m + 1, by omega, ?_⟩
  have e : (Req.projectIncrement p : Req Q).exec S w2.kv = w'.kv := by
    show (runCall (incrementEvents p) w2.kv).2 = _
    simp only [runCall, h3]
  rw [← e]
  exact .step _ (runs_mono (fun _ h => .inr (.inl h)) hr) trivial (.inr (.inr rfl))

theorem resolve_follows {S : Meta.Env Q} {p : Nat} (hp : p < 2 ^ 64) (now : Time) (l : List (Str × PropValue)) :
    Follows S (ResolveReq p) l.length (each (resolveProperty S.sys now p .event) l) (fun _ => True) :=
  (Follows.each l fun nvp _ => resolveProperty_follows (S := S) (P := ResolveReq p) (now := now) hp (ty := .event) (fun g hg => by cases hg) nvp ⟨rfl, rfl, rfl⟩).mono
    (fun _ h => h) (by simp) fun _ _ => trivial

/-- The property of the request under a name, and that it is still there later. -/
theorem resolved_at {S : Meta.Env Q} {p : Nat} (hp : p < 2 ^ 64) {now : Time} {x : Str × PropValue} {b : Property × PropValue} {wb wc : World}
    (h2 : resolveProperty S.sys now p .event x wb = (.ok b, wc)) {n m : Nat} (hh : Hist S n wb.kv) {kv' : Kv} (hr : Runs S (TrackReq p) wc.kv m kv')
    (hn : n + 1 + m < 2 ^ 62) : ∃ id q, b.2 = x.2 ∧ (propsC p .event).live kv' id = some q ∧ q.name = x.1 ∧ b.1.norm = q.norm := by
  obtain ⟨e1, e2⟩ := resolveProperty_ok h2
  obtain ⟨-, id, q, g1, g2, g3, -⟩ := propGet_live (hist_props hh (by omega) p .event) hp (by show 1 < 2 ^ 64; decide) (by intro g hg; cases hg) e2
  have hh2 : Hist S (n + 1) wc.kv := by
    have e : (Req.propGetOrCreate p .event now (propReq .event x.1 x.2) (.ok ()) : Req Q).exec S wb.kv = wc.kv := by
      show (runCall (propGetOrCreate S.sys p .event now (propReq .event x.1 x.2) (.ok ())) wb.kv).2 = _
      simp only [runCall, e2]
    rw [← e]
    exact hh.step _ ⟨hp, by show 1 < 2 ^ 64; decide, by intro g hg; cases hg⟩
  exact ⟨id, q, e1, track_live hr hh2 (by omega) g1, g2, g3⟩

theorem resolved_live {S : Meta.Env Q} {p : Nat} (hp : p < 2 ^ 64) {now : Time} {l : List (Str × PropValue)} {bs : List (Property × PropValue)} {w wa : World}
    (h : each (resolveProperty S.sys now p .event) l w = (.ok bs, wa)) {n m : Nat} (hh : Hist S n w.kv) {kv' : Kv} (hr : Runs S (TrackReq p) wa.kv m kv')
    (hn : n + l.length + m < 2 ^ 62) : ∀ b ∈ bs, ∃ x ∈ l, ∃ id q, b.2 = x.2 ∧ (propsC p .event).live kv' id = some q ∧ q.name = x.1 ∧ b.1.norm = q.norm := by
  intro b hb
  obtain ⟨l1, x, l2, bs1, wb, wc, bs2, rfl, h1, h2, h3⟩ := each_mem h b hb
  obtain ⟨m1, hm1, r1⟩ := (resolve_follows hp now l1).runs h1
  obtain ⟨m3, hm3, r3⟩ := (resolve_follows hp now l2).runs h3
  simp only [List.length_append, List.length_cons] at hn
  obtain ⟨id, q, hq⟩ := resolved_at hp h2 (r1.hist hh) ((runs_mono (fun _ h => .inl h) r3).trans hr) (by omega)
  exact ⟨x, by simp, id, q, hq⟩

/-- C109 as stated: whatever the history, every property of an accepted event reads in the stored row as the value sent. -/
def C109_full : Prop := ∀ (S : Meta.Env Unit) (E : Env Track) (token : Str) (req : Track) (w w' : World) (n : Nat), Hist S n w.kv → n < 2 ^ 61 → E.sys = S.sys →
  E.Appends → executeTrack E token req w = (.ok (), w') → ((req.props.getD []).map Prod.fst).Nodup →
  ∃ project row, getByToken token w.kv = .ok project ∧ w'.rows.getLast? = some (kEvents, row) ∧ ∀ name v, (name, v) ∈ req.props.getD [] →
    ∃ q, (propsC project.id .event).getBy .name name w'.kv = .ok q ∧ Reads S.sys project.id kEvents w'.kv q (val row (q.columnName S.sys)) v

/-- C109 (partial). After any history in which no update changes the type, data type or system flag of a property and nothing but ingestion
writes keys of the users' and groups' columns: an accepted request whose properties have distinct names leaves each of them in the row of
the event, in the column of the property of that name, and the cell reads as the value sent, at the end of the request and after any later
such requests. Missing: properties with the name of a system property, and system properties of the request whose column looks like that of
another property; the other histories. -/
theorem C109_partial {S : Meta.Env Q} (hsys : ∀ n, '/' ∉ S.sys n) {E : Env Track} (hs : E.sys = S.sys) {K : Nat} (hK : E.Bounded K) (hA : E.Appends) {token : Str} {req : Track}
    {w w' : World} (h : executeTrack E token req w = (.ok (), w')) {rs : List Row} (ht : EventsTable (w.tbl kEvents) rs)
    (hc : ∀ n ∈ sysCols, String.ofList n ∈ (w.tbl kEvents).schema.map Field.name) {n m : Nat}
    (hr : ∀ project, getByToken token w.kv = .ok project → Runs S (Plain project.id) [] n w.kv)
    (hn : n + (2 * (req.props.getD []).length + 6 * (req.groups.getD []).length + K + 20) + m < 2 ^ 62) (hnd : ((req.props.getD []).map Prod.fst).Nodup) :
    ∃ project rs' row, getByToken token w.kv = .ok project ∧ EventsTable (w'.tbl kEvents) (rs' ++ [row]) ∧
      ∀ name v, (name, v) ∈ req.props.getD [] → ∃ q, (propsC project.id .event).getBy .name name w'.kv = .ok q ∧
        (q.isSystem = false →
          (∀ x ∈ req.props.getD [], ∀ r, (propsC project.id .event).getBy .name x.1 w'.kv = .ok r → r.isSystem = true → ¬ PropCol (S.sys r.name)) →
          ∃ c, cell (w'.tbl kEvents) row (q.columnName S.sys) = some c ∧
            ∀ kv', Runs S (Plain project.id) w'.kv m kv' → Reads S.sys project.id kEvents kv' q c v) := by
  obtain ⟨project, r, w1, w2, begins, row, hp, hres, ⟨⟨fs, -, htab⟩, -, -, -⟩, ⟨isNew, cells, utm, rec, kv2, hcells, hseq, hsch, hrow, ⟨t, t', hts, hins⟩, -⟩, hsend, pr, hinc⟩ :=
    track_rows hK h ht hc
  have hpl : project.id < 2 ^ 64 := by
    obtain ⟨b, hb⟩ := getBy_dec hp
    exact project_dec_lt hb
  have hpost : r.user < 2 ^ 64 ∧ (r.props.getD []).length ≤ (req.props.getD []).length + K := (resolveTrack_follows (S := S) hs hK hpl req w).2 r w1 hres
  obtain ⟨wa, l, more, hl, hprops, hrest⟩ := resolveTrack_props hA hres
  obtain ⟨-, wA, wB, w3, w4, props, gprops, c1, c2, c3, c4, c5, c6⟩ := hcells
  rw [hs] at hl c2 c3 c4
  have R0 := hr project hp
  have hh : Hist S n w.kv := by simpa using R0.hist .start
  obtain ⟨ma, hma, Ra⟩ := (resolve_follows hpl E.now _).runs hl
  obtain ⟨mb, hmb, Rb⟩ := (resolveRest_follows (S := S) E hpl req _).runs hrest
  obtain ⟨ms, hms, Rs⟩ := send_runs hsys hs hpost.1 hsend hinc
  have Rres : Runs S (ResolveReq project.id) w.kv (ma + mb) w1.kv := Ra.trans Rb
  have Rtail : Runs S (TrackReq project.id) wa.kv (mb + ms) w'.kv := (runs_mono (fun _ h => .inl h) Rb).trans Rs
  have hend : Runs S (Plain project.id) [] (n + (ma + mb + ms)) w'.kv :=
    R0.trans ((runs_mono (fun _ h => resolve_plain h) Rres).trans (runs_mono (fun _ h => track_plain h) Rs))
  have hinv := (hist_props (plain_chist hend).hist (by omega) project.id .event).inv (props_ok project.id .event)
  have live_get : ∀ id q, (propsC project.id .event).live w'.kv id = some q → (propsC project.id .event).getById id w'.kv = .ok q := by
    intro id q hq
    rw [getById_eq hinv, hq]
  refine ⟨project, _, row, hp, htab, fun name v hmem => ?_⟩
  obtain ⟨l1, l2, hsplit⟩ := List.append_of_mem hmem
  rw [hsplit] at hl
  have hlen : (req.props.getD []).length = l1.length + (l2.length + 1) := by rw [hsplit]; simp
  obtain ⟨bs1, b, bs2, wx, wy, g1, g2, g3, rfl⟩ := each_split hl
  obtain ⟨mx, hmx, Rx⟩ := (resolve_follows hpl E.now _).runs g1
  obtain ⟨my, hmy, Ry⟩ := (resolve_follows hpl E.now _).runs g3
  obtain ⟨id, q, hb2, hq, hqn, hbq⟩ := resolved_at hpl g2 (Rx.hist hh) ((runs_mono (fun _ h => .inl h) Ry).trans Rtail) (by omega)
  have hget : (propsC project.id .event).getBy .name name w'.kv = .ok q :=
    (getBy_eq hinv (i := (.name, fun r => some r.name)) (by simp [propsC]) name _).mpr (.inl ⟨id, q, hq, congrArg some hqn, rfl⟩)
  refine ⟨q, hget, fun hnsys hsyscol => ?_⟩
  have hcol := columnName_col (sys := S.sys) hnsys
  have colEq : ∀ {a q : Property}, a.norm = q.norm → a.columnName S.sys = q.columnName S.sys := by
    intro a q e
    have : a.norm.columnName S.sys = q.norm.columnName S.sys := by rw [e]
    exact this
  -- the cell
  rw [hprops, show bs1 ++ b :: bs2 ++ more = bs1 ++ b :: (bs2 ++ more) by simp] at c2
  obtain ⟨cs1, c, cs2, wu, wv, k1, k2, k3, rfl⟩ := each_split c2
  obtain ⟨gv, wv', k4, k5⟩ := bind_ok k2
  cases k5
  obtain ⟨ba, bv⟩ := b
  dsimp only at hb2 hbq k4
  subst hb2
  -- the earlier cells have other names
  have hother : ∀ x ∈ cs1, x.name ≠ String.ofList (q.columnName S.sys) := by
    intro x hx e
    obtain ⟨pv, hpv, hpn⟩ := propCells_name k1 x hx
    have RxTail : Runs S (TrackReq project.id) wx.kv (1 + my + (mb + ms)) w'.kv := by
      have one : Runs S (ResolveReq project.id) wx.kv 1 wy.kv := by
        have e : (Req.propGetOrCreate project.id .event E.now (propReq .event name bv) (.ok ()) : Req Q).exec S wx.kv = wy.kv := by
          show (runCall (propGetOrCreate S.sys project.id .event E.now (propReq .event name bv) (.ok ())) wx.kv).2 = _
          simp only [runCall, (resolveProperty_ok g2).2]
        rw [← e]
        exact .step _ .refl ⟨hpl, by show 1 < 2 ^ 64; decide, by intro g hg; cases hg⟩ ⟨rfl, rfl, rfl⟩
      exact (runs_mono (fun _ h => .inl h) (one.trans Ry)).trans Rtail
    obtain ⟨y, hy, id', q', -, hq', hqn', hbq'⟩ := resolved_live hpl g1 hh RxTail (by omega) pv hpv
    have ecol : q'.columnName S.sys = q.columnName S.sys := by
      rw [← colEq hbq']
      exact String.ofList_injective (hpn.symm.trans e)
    have hyne : y.1 ≠ name := by
      rw [hsplit, List.map_append, List.nodup_append] at hnd
      exact fun e => hnd.2.2 y.1 (List.mem_map.mpr ⟨y, hy, rfl⟩) name (by simp) e
    cases hsy : q'.isSystem with
    | true =>
      have hget' : (propsC project.id .event).getBy .name y.1 w'.kv = .ok q' :=
        (getBy_eq hinv (i := (.name, fun r => some r.name)) (by simp [propsC]) y.1 _).mpr (.inl ⟨id', q', hq', congrArg some hqn', rfl⟩)
      have := hsyscol y (by rw [hsplit]; simp [hy]) q' hget' hsy
      have e2 : q'.columnName S.sys = S.sys q'.name := by unfold Property.columnName; rw [if_pos hsy]
      rw [← e2, ecol] at this
      exact this hcol
    | false =>
      have hid := (C40_partial (plain_chist hend) (by omega) (live_get id' q' hq') (live_get id q hq) hsy hnsys ecol).2
      rw [hid, hq] at hq'
      cases hq'
      exact hyne (hqn'.symm.trans hqn)
  -- the row
  have hvs : eventRow project.id r.user rec r.event.id req.time (groupCells r.groups) cells = keyCells project.id r.user ++ (groupCells r.groups ++
      (nv kCreatedAt (.timestamp (some (millis req.time))) :: nv kEventId (i64 rec) :: nv kEvent (i64 r.event.id) :: (cs1 ++
        nv (q.columnName S.sys) (toStore gv) :: (cs2 ++ gprops.flatten)))) := by
    rw [c5, colEq hbq]; simp [eventRow]
  have hval : val (eventRow project.id r.user rec r.event.id req.time (groupCells r.groups) cells) (q.columnName S.sys) = toStore gv := by
    rw [hvs, val_key_skip _ _ _ (hcol.ne (by decide +kernel)).symm (hcol.ne (groupCol_col 0)).symm, val_skip (groupCells_skip fun g => (hcol.ne (groupCol_col g)).symm),
      val_cons, if_neg (hcol.ne (by decide +kernel)).symm, val_cons, if_neg (hcol.ne (by decide +kernel)).symm, val_cons, if_neg (hcol.ne (by decide +kernel)).symm,
      val_skip hother, val_cons, if_pos rfl]
  have hin : String.ofList (q.columnName S.sys) ∈ (w'.tbl kEvents).schema.map Field.name := by
    have hnod := htab.nodup
    rw [hsch, ← hts] at hnod
    obtain ⟨g, hg, hgn, -⟩ := (Storage.C07_insert_validates t hnod _).1 t' hins (nv (q.columnName S.sys) (toStore gv)) (by rw [hvs]; simp)
    rw [hsch, ← hts]
    exact List.mem_map.mpr ⟨g, hg, hgn⟩
  refine ⟨toStore gv, by rw [hrow, cell_map _ _ _ hin, hval], fun kv' hkv => ?_⟩
  -- before and after the conversion
  have hpv : Runs S (SendReq project.id) w1.kv 1 wA.kv := by
    have e : (Req.sessionSet project.id r.user E.now : Req Q).exec S w1.kv = wA.kv := by
      show (runCall (setCurrentTime project.id r.user E.now) w1.kv).2 = _
      simp only [runCall, (call_ok c1).1]
    rw [← e]
    exact .step _ .refl hpost.1 rfl
  obtain ⟨mu, hmu, Ru⟩ := (propCells_follows hsys (p := project.id) bs1).runs k1
  obtain ⟨mv, hmv, Rv⟩ := (propCells_follows hsys (p := project.id) (bs2 ++ more)).runs k3
  obtain ⟨m3, hm3, R3⟩ := (Follows.each (S := S) (P := SendReq project.id) (r.groups.getD []) fun g _ => valueCells_follows g.2.values).runs c3
  obtain ⟨m4, hm4, R4⟩ := (utmCells_follows (S := S) (p := project.id) hsys req.campaign).runs c4
  have seq : ∀ {a b : Kv} {k : Nat}, nextSeq (.recSeq project.id) a = .ok (k, b) → Runs S (SendReq project.id) a 1 b := by
    intro a b k e
    have e1 : (Req.eventRecord project.id : Req Q).exec S a = b := by
      show (runCall (nextSeq (.recSeq project.id)) a).2 = _
      simp only [runCall, e]
    rw [← e1]
    exact .step _ .refl trivial rfl
  have R5 : ∃ m, m ≤ 1 ∧ Runs S (SendReq project.id) w4.kv m kv2 := by
    cases isNew with
    | false => rw [if_neg (by simp)] at c6; rw [c6]; exact ⟨0, by omega, .refl⟩
    | true =>
      rw [if_pos rfl] at c6
      obtain ⟨rec1, c6⟩ := c6
      exact ⟨1, by omega, seq c6⟩
  obtain ⟨m5, hm5, R5⟩ := R5
  have R7 : Runs S (TrackReq project.id) w2.kv 1 w'.kv := by
    have e : (Req.projectIncrement project.id : Req Q).exec S w2.kv = w'.kv := by
      show (runCall (incrementEvents project.id) w2.kv).2 = _
      simp only [runCall, hinc]
    rw [← e]
    exact .step _ .refl trivial (.inr (.inr rfl))
  have before : Runs S (Plain project.id) [] (n + (ma + mb + (1 + mu))) wu.kv :=
    R0.trans ((runs_mono (fun _ h => resolve_plain h) Rres).trans (runs_mono (fun _ h => send_plain h) (hpv.trans Ru)))
  have after : Runs S (Plain project.id) wv.kv (mv + m3 + m4 + m5 + 1 + 1 + m) kv' :=
    ((runs_mono (fun _ h => send_plain h) ((((Rv.trans R3).trans R4).trans R5).trans (seq hseq))).trans (runs_mono (fun _ h => track_plain h) R7)).trans hkv
  have hlen2 : bs1.length + (bs2.length + 1) + more.length = (r.props.getD []).length := by rw [hprops]; simp; omega
  have hlm : (bs2 ++ more).length = bs2.length + more.length := by simp
  have h0 : (r.groups.getD []).length * 0 = 0 := by simp
  have hng : ∀ g, ba.columnName S.sys ≠ groupCol g := fun g => by rw [colEq hbq]; exact hcol.ne (groupCol_col g)
  exact (cell_reads hsys slash_kEvents (plain_noPut before hng) k4 _ kv' (by omega) (plain_noPut after hng)).norm hbq

theorem exAppends : exIngest.Appends := by
  intro kv p req l l' h
  cases h
  exact ⟨[], by simp⟩

/-- The hypotheses are met: properties of three kinds, sent to the example project. -/
def exKinds : Track := exTrack (some "u".toList) none [("x".toList, .bool true), ("s".toList, .string "hello".toList), ("n".toList, .number ⟨15, 1⟩)]

theorem exPlain : Runs exEnv (Plain 1) [] 2 exWorld.kv :=
  .step (.eventCreate 1 ⟨0, 0⟩ (eventReq kSessionBegin none)) (.step (.projectCreate ⟨0, 0⟩ exProj) .refl ⟨by decide, by decide, by decide⟩ ⟨trivial, fun _ _ => trivial⟩)
    ⟨by decide, by decide⟩ ⟨trivial, fun _ _ => trivial⟩

example : (executeTrack exIngest exToken exKinds exWorld).1 = .ok () ∧ ((exKinds.props.getD []).map Prod.fst).Nodup ∧
    (getByToken exToken exWorld.kv).toOption.map (·.id) = some 1 ∧
    ((propsC 1 .event).getBy .name "s".toList (executeTrack exIngest exToken exKinds exWorld).2.kv).toOption.map (fun q => (q.isSystem, q.columnName id)) = some (false, "e_str_0".toList) := by
  decide +kernel

/-- A client property with the name of the system property `event` is not stored: its column holds the number of the event. -/
theorem C109_violated : ¬ C109_full := by
  intro h
  have h1 : (executeTrack exSysIngest exToken exNaughty exSysWorld).1 = .ok () := by decide +kernel
  have h0 : Hist exSysEnv 3 exSysWorld.kv :=
    Hist.step exEventPropReq (n := 2) (exSetup_hist exSysEnv) ⟨by decide, by decide, fun g hg => by cases hg⟩
  obtain ⟨project, row, e1, e2, e3⟩ := h exSysEnv exSysIngest exToken exNaughty exSysWorld _ 3 h0 (by decide) rfl exAppends (Prod.ext h1 rfl) (by decide +kernel)
  have hp : project.id = 1 := by
    have : (getByToken exToken exSysWorld.kv).toOption.map (·.id) = some 1 := by decide +kernel
    rw [e1] at this
    simpa [Except.toOption] using this
  rw [hp] at e3
  obtain ⟨q, e4, e5⟩ := e3 kEvent (.string "foo".toList) (by simp [exNaughty, exTrack])
  have hq : ((propsC 1 .event).getBy .name kEvent (executeTrack exSysIngest exToken exNaughty exSysWorld).2.kv).toOption.map
      (fun q => (q.isDictionary, q.dictType, q.columnName exSysEnv.sys)) = some (true, some .int64, kEvent) := by decide +kernel
  rw [e4] at hq
  simp only [Except.toOption, Option.map_some, Option.some.injEq, Prod.mk.injEq] at hq
  obtain ⟨q1, q2, q3⟩ := hq
  unfold Reads at e5
  dsimp only at e5
  rw [if_pos q1, q3, q2] at e5
  obtain ⟨dt, k, hdt, g1, -, g2⟩ := e5
  cases hdt
  have hv : ((executeTrack exSysIngest exToken exNaughty exSysWorld).2.rows.getLast?.map fun x => storedKey (val x.2 kEvent)) = some (some 2) := by decide +kernel
  rw [e2] at hv
  simp only [Option.map_some, Option.some.injEq] at hv
  have hk : dictGetKey 1 kEvents kEvent "foo".toList (executeTrack exSysIngest exToken exNaughty exSysWorld).2.kv = .ok 3 := by decide +kernel
  rw [hk] at g1
  cases g1
  have := g2 (by decide)
  rw [hv] at this
  cases this

/-- Spec: the record of a property nobody has declared before. -/
structure Declares (name : Str) (v : PropValue) (p : Nat) (q : Property) : Prop where
  name : q.name = name
  project : q.projectId = p
  typ : q.typ = .event
  enabled : q.status = .enabled
  shown : q.hidden = false
  client : q.isSystem = false
  optional : q.nullable = true
  single : q.isArray = false
  text : ∀ s, v = .string s → q.dataType = .string ∧ q.isDictionary = true ∧ q.dictType = some .int64
  num : ∀ x, v = .number x → q.dataType = .decimal ∧ q.isDictionary = false ∧ q.dictType = none
  bool : ∀ b, v = .bool b → q.dataType = .boolean ∧ q.isDictionary = false ∧ q.dictType = none

/-- Spec: the type of the column for a kind of value (dates cannot be declared). -/
def kindType : PropValue → Storage.ColType
  | .string _ => .int64
  | .number _ => .decimal
  | .bool _ => .boolean
  | .date _ => .timestamp

/-- C109 for names not seen before: the property declared is an optional, visible event property of the project of the kind of its value;
its column, if it is not in the events table already, is added, optional and of a type that fits the kind. -/
theorem C109_declared {S : Meta.Env Q} {now : Time} {p : Nat} (hp : p < 2 ^ 64) {name : Str} {v : PropValue} (hv : ∀ d, v ≠ .date d) {w w1 : World} {b : Property × PropValue} {n : Nat}
    (hh : Hist S n w.kv) (hn : n + 1 < 2 ^ 62) (hnew : (propsC p .event).getBy .name name w.kv = .error .notFound)
    (h : resolveProperty S.sys now p .event (name, v) w = (.ok b, w1)) :
    ∃ q, (propsC p .event).getBy .name name w1.kv = .ok q ∧ Declares name v p q ∧
      (String.ofList (q.columnName S.sys) ∉ (w.tbl kEvents).schema.map Field.name → ∃ f ∈ (w1.tbl kEvents).schema, f.name = String.ofList (q.columnName S.sys) ∧ f.nullable = true ∧
        f.dt = kindType v) := by
  obtain ⟨-, e2⟩ := resolveProperty_ok h
  have hh2 : Hist S (n + 1) w1.kv := by
    have e : (Req.propGetOrCreate p .event now (propReq .event name v) (.ok ()) : Req Q).exec S w.kv = w1.kv := by
      show (runCall (propGetOrCreate S.sys p .event now (propReq .event name v) (.ok ())) w.kv).2 = _
      simp only [runCall, e2]
    rw [← e]
    exact hh.step _ ⟨hp, by show 1 < 2 ^ 64; decide, by intro g hg; cases hg⟩
  obtain ⟨-, id, q, g1, g2, g3, g4⟩ := propGet_live (hist_props hh (by omega) p .event) hp (by show 1 < 2 ^ 64; decide) (by intro g hg; cases hg) e2
  have hget : (propsC p .event).getBy .name name w1.kv = .ok q :=
    (getBy_eq ((hist_props hh2 hn p .event).inv (props_ok p .event)) (i := (.name, fun r => some r.name)) (by simp [propsC]) name _).mpr
      (.inl ⟨id, q, g1, congrArg some g2, rfl⟩)
  rcases g4 with ⟨ek, -⟩ | ⟨o, ha, hq⟩
  · rw [ek, hnew] at hget; cases hget
  · refine ⟨q, hget, ?_, fun hcol => ?_⟩
    · subst hq
      rw [ha]
      refine ⟨rfl, rfl, rfl, rfl, rfl, rfl, rfl, rfl, ?_, ?_, ?_⟩
      · rintro s rfl; exact ⟨rfl, rfl, rfl⟩
      · rintro x rfl; exact ⟨rfl, rfl, rfl⟩
      · rintro x rfl; exact ⟨rfl, rfl, rfl⟩
    · have ecol : q.columnName S.sys = b.1.columnName S.sys := by rw [hq]; rfl
      rw [ecol] at hcol ⊢
      unfold resolveProperty at h
      rcases hx : call (propGetOrCreate S.sys p .event now (propReq .event name v) (.ok ())) w with ⟨_ | x, w2⟩ <;> rw [hx] at h
      · cases h
      · dsimp only at h
        rw [hnew] at h
        dsimp only at h
        injection h with h2 h3
        injection h2 with h2
        subst h2
        dsimp only at ha hcol ⊢
        have htbl : w2.tbl = w.tbl := by rw [(call_ok hx).2]
        have hct : colType x = some (kindType v) := by
          rw [ha]
          cases v with
          | date d => exact absurd rfl (hv d)
          | string s => rfl
          | number s => rfl
          | bool s => rfl
        have htyp : x.typ = .event := by rw [ha]; rfl
        have hnul : x.nullable = true := by rw [ha]; rfl
        rw [← h3]
        unfold addColumns
        simp only [hct, htyp]
        unfold addColumn
        rw [htbl]
        obtain ⟨t', ht'⟩ := (Storage.addField_some_iff (w.tbl kEvents) ⟨String.ofList (x.columnName S.sys), kindType v, x.nullable⟩).mpr hcol
        rw [ht']
        dsimp only
        rw [if_pos rfl]
        have hsch : t'.schema = (w.tbl kEvents).schema ++ [⟨String.ofList (x.columnName S.sys), kindType v, x.nullable⟩] := by
          unfold Storage.Tbl.addField at ht'
          split at ht'
          · cases ht'
          · cases ht'; rfl
        refine ⟨⟨String.ofList (x.columnName S.sys), kindType v, x.nullable⟩, by rw [hsch]; simp, rfl, hnul, rfl⟩

example : (propsC 1 .event).getBy .name "x".toList exWorld.kv = .error .notFound ∧
    (resolveProperty id ⟨0, 0⟩ 1 .event ("x".toList, .bool true) exWorld).1.toOption.isSome := by decide +kernel

/-! ## The campaign -/

/-- Spec: the names under which a campaign is reported. -/
def Campaign.Says (c : Campaign) (name v : Str) : Prop :=
  name = "UTM Source".toList ∧ v = c.source ∨ name = "UTM Medium".toList ∧ c.medium = some v ∨ name = "UTM Campaign".toList ∧ c.campaign = some v ∨
    name = "UTM Term".toList ∧ c.term = some v ∨ name = "UTM Content".toList ∧ c.content = some v

theorem utm_names : kUtmSource = "UTM Source".toList ∧ kUtmMedium = "UTM Medium".toList ∧ kUtmCampaign = "UTM Campaign".toList ∧ kUtmTerm = "UTM Term".toList ∧
    kUtmContent = "UTM Content".toList := by decide +kernel

theorem says_pairs (c : Campaign) (name v : Str) : c.Says name v ↔ (name, v) ∈ c.pairs := by
  obtain ⟨e1, e2, e3, e4, e5⟩ := utm_names
  unfold Campaign.Says Campaign.pairs
  rw [← e1, ← e2, ← e3, ← e4, ← e5]
  simp only [List.mem_cons, List.mem_append, Option.mem_toList, Option.map_eq_some_iff, Prod.mk.injEq]
  constructor
  · rintro (⟨rfl, rfl⟩ | ⟨rfl, h⟩ | ⟨rfl, h⟩ | ⟨rfl, h⟩ | ⟨rfl, h⟩)
    · exact .inl ⟨rfl, rfl⟩
    · exact .inr (.inl (.inl (.inl ⟨v, h, rfl, rfl⟩)))
    · exact .inr (.inl (.inl (.inr ⟨v, h, rfl, rfl⟩)))
    · exact .inr (.inl (.inr ⟨v, h, rfl, rfl⟩))
    · exact .inr (.inr ⟨v, h, rfl, rfl⟩)
  · rintro (⟨rfl, rfl⟩ | ((⟨x, h, rfl, rfl⟩ | ⟨x, h, rfl, rfl⟩) | ⟨x, h, rfl, rfl⟩) | ⟨x, h, rfl, rfl⟩)
    · exact .inl ⟨rfl, rfl⟩
    · exact .inr (.inl ⟨rfl, h⟩)
    · exact .inr (.inr (.inl ⟨rfl, h⟩))
    · exact .inr (.inr (.inr (.inl ⟨rfl, h⟩)))
    · exact .inr (.inr (.inr (.inr ⟨rfl, h⟩)))

theorem pairs_nodup (c : Campaign) : (c.pairs.map Prod.fst).Nodup := by
  have key : ∀ a b c d : Bool, (kUtmSource :: ((if a then [kUtmMedium] else []) ++ (if b then [kUtmCampaign] else []) ++ (if c then [kUtmTerm] else []) ++
      (if d then [kUtmContent] else []))).Nodup := by decide +kernel
  have e : c.pairs.map Prod.fst = kUtmSource :: ((if c.medium.isSome then [kUtmMedium] else []) ++ (if c.campaign.isSome then [kUtmCampaign] else []) ++
      (if c.term.isSome then [kUtmTerm] else []) ++ (if c.content.isSome then [kUtmContent] else [])) := by
    unfold Campaign.pairs
    cases c.medium <;> cases c.campaign <;> cases c.term <;> cases c.content <;> rfl
  rw [e]
  exact key _ _ _ _

theorem utm_follows {S : Meta.Env Q} (hsys : ∀ n, '/' ∉ S.sys n) {p : Nat} (l : List (Str × Str)) :
    Follows S (SendReq p) l.length (each (fun nvp => (read ((propsC p .event).getBy .name nvp.1)).bind fun r =>
      (propertyToValue S.sys p kEvents (r, .string nvp.2)).bind fun v => M.pure (nv (r.columnName S.sys) (toStore v))) l) (fun _ => True) := by
  have := Follows.each (S := S) (P := SendReq p) (B := 1) (Post := fun _ => True) (f := fun nvp => (read ((propsC p .event).getBy .name nvp.1)).bind fun r =>
    (propertyToValue S.sys p kEvents (r, .string nvp.2)).bind fun v => M.pure (nv (r.columnName S.sys) (toStore v))) l
    (fun pv _ => Follows.bind (Follows.read (Post := fun _ => True) fun _ _ _ => trivial) fun _ _ =>
      Follows.bind (propertyToValue_follows slash_kEvents hsys _ fun _ _ => ⟨rfl, rfl⟩) fun _ _ => Follows.pure trivial)
  exact this.mono (fun _ h => h) (by simp) fun _ _ => trivial

/-- C109 for campaigns: in the row that opens a session, each part of the campaign is in the column of its UTM property and reads as sent,
if that column is neither a key or group column nor that of another UTM property. -/
theorem C109_campaign {S : Meta.Env Q} (hsys : ∀ n, '/' ∉ S.sys n) {E : Env Track} (hs : E.sys = S.sys) {K : Nat} (hK : E.Bounded K) {token : Str} {req : Track}
    {w w' : World} (h : executeTrack E token req w = (.ok (), w')) {rs : List Row} (ht : EventsTable (w.tbl kEvents) rs)
    (hc : ∀ n ∈ sysCols, String.ofList n ∈ (w.tbl kEvents).schema.map Field.name) {n m : Nat}
    (hr : ∀ project, getByToken token w.kv = .ok project → Runs S (Plain project.id) [] n w.kv)
    (hn : n + (2 * (req.props.getD []).length + 6 * (req.groups.getD []).length + K + 20) + m < 2 ^ 62) :
    ∃ project rs' begins row r w1, getByToken token w.kv = .ok project ∧ EventsTable (w'.tbl kEvents) (rs' ++ begins ++ [row]) ∧
      resolveTrack E project.id req w = (.ok r, w1) ∧ (begins.length = if getK w.kv (.session project.id r.user) = none then 1 else 0) ∧
      ∀ b ∈ begins, ∀ c, req.campaign = some c → ∀ name v, c.Says name v → ∃ q, (propsC project.id .event).getBy .name name w'.kv = .ok q ∧
        (q.columnName S.sys ≠ kProjectId → (∀ g, q.columnName S.sys ≠ groupCol g) →
          (∀ name' v', c.Says name' v' → name' ≠ name → ∀ r, (propsC project.id .event).getBy .name name' w'.kv = .ok r → r.columnName S.sys ≠ q.columnName S.sys) →
          ∃ x, cell (w'.tbl kEvents) b (q.columnName S.sys) = some x ∧
            ∀ kv', Runs S (Plain project.id) w'.kv m kv' → Reads S.sys project.id kEvents kv' q x (.string v)) := by
  obtain ⟨project, r, w1, w2, begins, row, hp, hres, ⟨⟨fs, -, htab⟩, -, hopen, -⟩, ⟨isNew, cells, utm, rec, kv2, hcells, hseq, hsch, -, -, hbeg⟩, hsend, pr, hinc⟩ :=
    track_rows hK h ht hc
  have hpl : project.id < 2 ^ 64 := by
    obtain ⟨b, hb⟩ := getBy_dec hp
    exact project_dec_lt hb
  have hpost : r.user < 2 ^ 64 ∧ (r.props.getD []).length ≤ (req.props.getD []).length + K := (resolveTrack_follows (S := S) hs hK hpl req w).2 r w1 hres
  obtain ⟨-, wA, wB, w3, w4, props, gprops, c1, c2, c3, c4, c5, c6⟩ := hcells
  rw [hs] at c2 c3 c4
  have R0 := hr project hp
  obtain ⟨ma, hma, Ra⟩ := (resolveTrack_follows (S := S) hs hK hpl req).runs hres
  have hpv : Runs S (SendReq project.id) w1.kv 1 wA.kv := by
    have e : (Req.sessionSet project.id r.user E.now : Req Q).exec S w1.kv = wA.kv := by
      show (runCall (setCurrentTime project.id r.user E.now) w1.kv).2 = _
      simp only [runCall, (call_ok c1).1]
    rw [← e]
    exact .step _ .refl hpost.1 rfl
  obtain ⟨mu, hmu, Ru⟩ := (propCells_follows hsys (p := project.id) _).runs c2
  obtain ⟨m3, hm3, R3⟩ := (Follows.each (S := S) (P := SendReq project.id) (r.groups.getD []) fun g _ => valueCells_follows g.2.values).runs c3
  have seq : ∀ {a b : Kv} {k : Nat}, nextSeq (.recSeq project.id) a = .ok (k, b) → Runs S (SendReq project.id) a 1 b := by
    intro a b k e
    have e1 : (Req.eventRecord project.id : Req Q).exec S a = b := by
      show (runCall (nextSeq (.recSeq project.id)) a).2 = _
      simp only [runCall, e]
    rw [← e1]
    exact .step _ .refl trivial rfl
  have R5 : ∃ m, m ≤ 1 ∧ Runs S (SendReq project.id) w4.kv m kv2 := by
    cases isNew with
    | false => rw [if_neg (by simp)] at c6; rw [c6]; exact ⟨0, by omega, .refl⟩
    | true =>
      rw [if_pos rfl] at c6
      obtain ⟨rec1, c6⟩ := c6
      exact ⟨1, by omega, seq c6⟩
  obtain ⟨m5, hm5, R5⟩ := R5
  have R7 : Runs S (TrackReq project.id) w2.kv 1 w'.kv := by
    have e : (Req.projectIncrement project.id : Req Q).exec S w2.kv = w'.kv := by
      show (runCall (incrementEvents project.id) w2.kv).2 = _
      simp only [runCall, hinc]
    rw [← e]
    exact .step _ .refl trivial (.inr (.inr rfl))
  have before : Runs S (Plain project.id) [] (n + (ma + (1 + mu + m3))) w3.kv :=
    R0.trans ((runs_mono (fun _ h => resolve_plain h) Ra).trans (runs_mono (fun _ h => send_plain h) ((hpv.trans Ru).trans R3)))
  have rest : Runs S (TrackReq project.id) w4.kv (m5 + 1 + 1) w'.kv := (runs_mono (fun _ h => .inr (.inl h)) (R5.trans (seq hseq))).trans R7
  have h0 : (r.groups.getD []).length * 0 = 0 := by simp
  refine ⟨project, _, begins, row, r, w1, hp, htab, hres, hopen, fun b hb c hcm name v hsay => ?_⟩
  obtain ⟨rec1, ev, -, hbrow, t', hbins⟩ := hbeg b hb
  rw [hcm] at c4
  have hmem := (says_pairs c name v).mp hsay
  obtain ⟨l1, l2, hsplit⟩ := List.append_of_mem hmem
  have hlen : l1.length + l2.length + 1 ≤ 5 := by
    have : c.pairs.length ≤ 5 := by unfold Campaign.pairs; cases c.medium <;> cases c.campaign <;> cases c.term <;> cases c.content <;> simp
    rw [hsplit] at this
    simp at this; omega
  unfold utmCells at c4
  dsimp only at c4
  rw [hsplit] at c4
  have part := fun l => utm_follows (S := S) hsys (p := project.id) l
  -- the property a part of the campaign is stored under, at the end of the request
  have found : ∀ {k : Nat} {wu : World} {nm : Str} {q : Property} {j : Nat}, Runs S (Plain project.id) [] k wu.kv → (propsC project.id .event).getBy .name nm wu.kv = .ok q →
      Runs S (TrackReq project.id) wu.kv j w'.kv → k + j < 2 ^ 62 → (propsC project.id .event).getBy .name nm w'.kv = .ok q := by
    intro k wu nm q j hk hq hj hlt
    have hh := (plain_chist hk).hist
    have hi := (hist_props hh (by omega) project.id .event).inv (props_ok project.id .event)
    have hi' := (hist_props (hj.hist hh) (by omega) project.id .event).inv (props_ok project.id .event)
    rcases (getBy_eq hi (i := (.name, fun r => some r.name)) (by simp [propsC]) nm _).mp hq with ⟨id, q', h1, h2, h3⟩ | ⟨-, h2⟩
    · cases h3
      exact (getBy_eq hi' (i := (.name, fun r => some r.name)) (by simp [propsC]) nm _).mpr (.inl ⟨id, q, track_live hj hh (by omega) h1, h2, rfl⟩)
    · cases h2
  obtain ⟨cs1, x, cs2, wu, wv, k1, k2, k3, rfl⟩ := each_split c4
  obtain ⟨mu1, hmu1, Ru1⟩ := (part l1).runs k1
  obtain ⟨mu3, hmu3, Ru3⟩ := (part l2).runs k3
  obtain ⟨mu2, hmu2, Ru2⟩ := (part [(name, v)]).runs (a := .ok [x]) (w := wu) (w' := wv) (by simp only [each, M.bind] at k2 ⊢; rw [k2]; rfl)
  obtain ⟨q, wq, q1, q2⟩ := bind_ok k2
  obtain ⟨q3, rfl⟩ := read_ok q1
  obtain ⟨gv, wg, q4, q5⟩ := bind_ok q2
  cases q5
  have Bu : Runs S (Plain project.id) [] (n + (ma + (1 + mu + m3)) + mu1) wq.kv := before.trans (runs_mono (fun _ h => send_plain h) Ru1)
  have Tu : Runs S (TrackReq project.id) wq.kv (mu2 + mu3 + (m5 + 1 + 1)) w'.kv := (runs_mono (fun _ h => .inr (.inl h)) (Ru2.trans Ru3)).trans rest
  have hl1 : [(name, v)].length = 1 := rfl
  refine ⟨q, found Bu q3 Tu (by omega), fun hne hng hdist => ?_⟩
  have hother : ∀ y ∈ cs1, y.name ≠ String.ofList (q.columnName S.sys) := by
    intro y hy e
    obtain ⟨la, a, lb, bs1, wa, wb, bs2, hl, j1, j2, j3⟩ := each_mem k1 y hy
    obtain ⟨mj1, hmj1, Rj1⟩ := (part la).runs j1
    obtain ⟨mj3, hmj3, Rj3⟩ := (part lb).runs j3
    obtain ⟨mj2, hmj2, Rj2⟩ := (part [a]).runs (a := .ok [y]) (w := wa) (w' := wb) (by simp only [each, M.bind] at j2 ⊢; rw [j2]; rfl)
    obtain ⟨q', wq', i1, i2⟩ := bind_ok j2
    obtain ⟨i3, rfl⟩ := read_ok i1
    obtain ⟨gv', wg', i4, i5⟩ := bind_ok i2
    cases i5
    have hlen' : la.length + lb.length + 1 = l1.length := by rw [hl]; simp; omega
    have hla : [a].length = 1 := rfl
    have Bj : Runs S (Plain project.id) [] (n + (ma + (1 + mu + m3)) + mj1) wq'.kv := before.trans (runs_mono (fun _ h => send_plain h) Rj1)
    have Tj : Runs S (TrackReq project.id) wq'.kv (mj2 + mj3 + (mu2 + mu3 + (m5 + 1 + 1))) w'.kv := (runs_mono (fun _ h => .inr (.inl h)) (Rj2.trans Rj3)).trans Tu
    have hamem : a ∈ l1 := by rw [hl]; simp
    refine hdist a.1 a.2 ((says_pairs c a.1 a.2).mpr (by rw [hsplit]; simp [hamem])) ?_ q' (found Bj i3 Tj (by omega)) (String.ofList_injective e)
    have hnd := pairs_nodup c
    rw [hsplit, List.map_append, List.nodup_append] at hnd
    exact hnd.2.2 a.1 (List.mem_map.mpr ⟨a, hamem, rfl⟩) name (by simp)
  have hvs : sessionRow project.id r.user rec1 ev.id req.time req.ip (groupCells r.groups) (cs1 ++ nv (q.columnName S.sys) (toStore gv) :: cs2) cells =
      keyCells project.id r.user ++ (groupCells r.groups ++ (cs1 ++ nv (q.columnName S.sys) (toStore gv) :: (cs2 ++ ([nv kCreatedAt (.timestamp (some (secs req.time))),
        nv kEventId (i64 rec1), nv kEvent (i64 ev.id), nv kIp (.string (some (utf8 req.ip)))] ++ cells)))) := by
    simp [sessionRow]
  have hval : val (sessionRow project.id r.user rec1 ev.id req.time req.ip (groupCells r.groups) (cs1 ++ nv (q.columnName S.sys) (toStore gv) :: cs2) cells)
      (q.columnName S.sys) = toStore gv := by
    rw [hvs, val_key_skip _ _ _ hne.symm (hng 0).symm, val_skip (groupCells_skip fun g => (hng g).symm), val_skip hother, val_cons, if_pos rfl]
  have hin : String.ofList (q.columnName S.sys) ∈ (w'.tbl kEvents).schema.map Field.name := by
    have hnod := htab.nodup
    rw [hsch] at hnod
    obtain ⟨g, hg, hgn, -⟩ := (Storage.C07_insert_validates _ hnod _).1 t' hbins (nv (q.columnName S.sys) (toStore gv)) (by rw [hvs]; simp)
    rw [hsch]
    exact List.mem_map.mpr ⟨g, hg, hgn⟩
  refine ⟨toStore gv, by rw [hbrow, cell_map _ _ _ hin, hval], fun kv' hkv => ?_⟩
  have after : Runs S (Plain project.id) wv.kv (mu3 + (m5 + 1 + 1) + m) kv' :=
    ((runs_mono (fun _ h => send_plain h) Ru3).trans (runs_mono (fun _ h => track_plain h) rest)).trans hkv
  exact cell_reads hsys slash_kEvents (plain_noPut Bu hng) q4 _ kv' (by omega) (plain_noPut after hng)

/-- The hypotheses are met: the system properties for the source and medium, and a request with a campaign that opens a session. -/
def exUtmReq (name : Str) : Req Unit := .propCreate 1 .event ⟨0, 0⟩ { propReq .event name (.string []) with isSystem := true } (.ok ())
def exUtmWorld : World :=
  { kv := runReqs exSysEnv (exSetup ++ [exUtmReq kUtmSource, exUtmReq kUtmMedium]) []
    tbl := fun n => if n = kEvents then exTbl (exSchema ++ [⟨String.ofList (exSys kUtmSource), .int64, true⟩, ⟨String.ofList (exSys kUtmMedium), .int64, true⟩]) else exTbl []
    rows := [] }
def exVisit : Track := { exTrack (some "u".toList) none [] with campaign := some { source := "google".toList, medium := some "cpc".toList } }

example : (executeTrack exSysIngest exToken exVisit exUtmWorld).1 = .ok () ∧
    (∀ n ∈ sysCols, String.ofList n ∈ (exUtmWorld.tbl kEvents).schema.map Field.name) ∧
    ((executeTrack exSysIngest exToken exVisit exUtmWorld).2.rows.map fun x => (storedKey (val x.2 (exSys kUtmSource)), storedKey (val x.2 (exSys kUtmMedium)))) =
      [(some 1, some 1), (none, none)] ∧
    exSys kUtmSource ≠ exSys kUtmMedium ∧ exSys kUtmSource ≠ kProjectId ∧
    dictGetValue 1 kEvents (exSys kUtmMedium) 1 (executeTrack exSysIngest exToken exVisit exUtmWorld).2.kv = .ok "cpc".toList := by
  decide +kernel

end OptiPrism.Ingest
