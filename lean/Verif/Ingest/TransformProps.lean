import Verif.Ingest.Transform
import Verif.Ingest.GroupEventsProps

/-!
# C115: what the user agent and the address tell is stored with the event
-/

namespace OptiPrism.Ingest

open OptiPrism.Meta
open OptiPrism.Storage (Bytes Value NamedValue Tbl InsertErr ColType Field Row supplied)

variable {Q : Type}

/-! ## Spec -/

/-- Spec: the name of the system with its version, as far as the parts of the version are known. -/
def osWithVersion (a : Agent) : Str :=
  let vs := ([a.osMajor, a.osMinor, a.osPatch, a.osPatchMinor].takeWhile Option.isSome).filterMap id
  if vs.isEmpty then a.os else a.os ++ " ".toList ++ List.intercalate ".".toList vs

/-- Spec: what a user agent tells, by the names of the properties. -/
def Agent.Says (a : Agent) (name v : Str) : Prop :=
  name = "Client Family".toList ∧ v = a.family ∨ name = "Client Version Major".toList ∧ a.major = some v ∨ name = "Client Version Minor".toList ∧ a.minor = some v ∨
    name = "Device Family".toList ∧ v = a.device ∨ name = "Device Brand".toList ∧ a.brand = some v ∨ name = "Device Model".toList ∧ a.model = some v ∨
    name = "OS".toList ∧ v = a.os ∨ name = "OS Family".toList ∧ v = osWithVersion a ∨ name = "OS Version Major".toList ∧ a.osMajor = some v ∨
    name = "OS Version Minor".toList ∧ a.osMinor = some v ∨ name = "OS Version Patch".toList ∧ a.osPatch = some v ∨
    name = "OS Version Patch Minor".toList ∧ a.osPatchMinor = some v

/-- Spec: what an address tells. -/
def Place.Says (x : Place) (name v : Str) : Prop := name = "Country".toList ∧ x.country = some v ∨ name = "City".toList ∧ x.city = some v

/-- Spec: what is detected for a request. -/
def Detects (D : Detect) (req : Track) (name v : Str) : Prop :=
  (∃ s, req.agent = some s ∧ (D.parse s).Says name v) ∨ ∃ x, D.lookup req.ip = .found x ∧ x.Says name v

/-! ## The lists -/

theorem osText_eq (a : Agent) : a.osText = osWithVersion a := by
  unfold Agent.osText osWithVersion
  have e1 : " ".toList = [' '] := rfl
  have e2 : ".".toList = ['.'] := rfl
  rw [e1, e2]
  cases a.osMajor <;> cases a.osMinor <;> cases a.osPatch <;> cases a.osPatchMinor <;> simp [List.takeWhile, List.intercalate, List.intersperse]

theorem detect_names : kClientFamily = "Client Family".toList ∧ kClientMajor = "Client Version Major".toList ∧ kClientMinor = "Client Version Minor".toList ∧
    kDeviceFamily = "Device Family".toList ∧ kDeviceBrand = "Device Brand".toList ∧ kDeviceModel = "Device Model".toList ∧ kOs = "OS".toList ∧
    kOsFamily = "OS Family".toList ∧ kOsMajor = "OS Version Major".toList ∧ kOsMinor = "OS Version Minor".toList ∧ kOsPatch = "OS Version Patch".toList ∧
    kOsPatchMinor = "OS Version Patch Minor".toList ∧ kCountry = "Country".toList ∧ kCity = "City".toList := by decide +kernel

theorem opt_pair {k : Str} {o : Option Str} {name v : Str} : (name, v) ∈ (o.map fun v => (k, v)).toList ↔ name = k ∧ o = some v := by
  cases o <;> simp
  exact fun _ => eq_comm

theorem agent_says (a : Agent) (name v : Str) : a.Says name v ↔ (name, v) ∈ a.pairs := by
  obtain ⟨e1, e2, e3, e4, e5, e6, e7, e8, e9, e10, e11, e12, -, -⟩ := detect_names
  unfold Agent.Says Agent.pairs
  rw [← e1, ← e2, ← e3, ← e4, ← e5, ← e6, ← e7, ← e8, ← e9, ← e10, ← e11, ← e12]
  simp only [List.mem_cons, List.mem_append, opt_pair, Prod.mk.injEq, osText_eq]

theorem place_says (x : Place) (name v : Str) : x.Says name v ↔ (name, v) ∈ x.pairs := by
  obtain ⟨-, -, -, -, -, -, -, -, -, -, -, -, e1, e2⟩ := detect_names
  unfold Place.Says Place.pairs
  rw [← e1, ← e2]
  simp only [List.mem_append, opt_pair]

/-- All that is detected, in order. -/
def found (D : Detect) (req : Track) : List (Str × Str) :=
  (match req.agent with | none => [] | some s => (D.parse s).pairs) ++ (match D.lookup req.ip with | .found x => x.pairs | _ => [])

theorem detects_found (D : Detect) (req : Track) (name v : Str) : Detects D req name v ↔ (name, v) ∈ found D req := by
  unfold Detects found
  rw [List.mem_append]
  cases req.agent with
  | none =>
    cases D.lookup req.ip with
    | found x => simp [place_says]
    | notFound => simp
    | failed => simp
  | some s =>
    cases D.lookup req.ip with
    | found x => simp [place_says, agent_says]
    | notFound => simp [agent_says]
    | failed => simp [agent_says]

theorem found_nodup (D : Detect) (req : Track) : ((found D req).map Prod.fst).Nodup := by
  have key : ∀ z a b c d e f g h i j : Bool, ((if z then kClientFamily :: ((if a then [kClientMajor] else []) ++ ((if b then [kClientMinor] else []) ++
      (kDeviceFamily :: ((if c then [kDeviceBrand] else []) ++ ((if d then [kDeviceModel] else []) ++ (kOs :: kOsFamily :: ((if e then [kOsMajor] else []) ++
        ((if f then [kOsMinor] else []) ++ ((if g then [kOsPatch] else []) ++ (if h then [kOsPatchMinor] else [])))))))))) else []) ++
      ((if i then [kCountry] else []) ++ (if j then [kCity] else []))).Nodup := by decide +kernel
  have opt : ∀ (k : Str) (o : Option Str), ((o.map fun v => (k, v)).toList).map Prod.fst = if o.isSome then [k] else [] := by
    intro k o; cases o <;> rfl
  have ha : ∀ a : Agent, a.pairs.map Prod.fst = kClientFamily :: ((if a.major.isSome then [kClientMajor] else []) ++ ((if a.minor.isSome then [kClientMinor] else []) ++
      (kDeviceFamily :: ((if a.brand.isSome then [kDeviceBrand] else []) ++ ((if a.model.isSome then [kDeviceModel] else []) ++ (kOs :: kOsFamily :: ((if a.osMajor.isSome then [kOsMajor] else []) ++
        ((if a.osMinor.isSome then [kOsMinor] else []) ++ ((if a.osPatch.isSome then [kOsPatch] else []) ++ (if a.osPatchMinor.isSome then [kOsPatchMinor] else [])))))))))) := by
    intro a
    simp only [Agent.pairs, List.map_cons, List.map_append, opt]
  have hp : ∀ x : Place, x.pairs.map Prod.fst = (if x.country.isSome then [kCountry] else []) ++ (if x.city.isSome then [kCity] else []) := by
    intro x
    simp only [Place.pairs, List.map_append, opt]
  unfold found
  rw [List.map_append]
  cases req.agent with
  | none =>
    cases D.lookup req.ip with
    | found x => simp only [hp]; exact key false false false false false false false false false x.country.isSome x.city.isSome
    | notFound => exact key false false false false false false false false false false false
    | failed => exact key false false false false false false false false false false false
  | some s =>
    cases D.lookup req.ip with
    | found x => simp only [ha, hp]; exact key true _ _ _ _ _ _ _ _ _ _
    | notFound => simp only [ha]; exact key true _ _ _ _ _ _ _ _ false false
    | failed => simp only [ha]; exact key true _ _ _ _ _ _ _ _ false false

theorem found_length (D : Detect) (req : Track) : (found D req).length ≤ 14 := by
  have opt : ∀ (k : Str) (o : Option Str), ((o.map fun v => (k, v)).toList).length ≤ 1 := by
    intro k o; cases o <;> simp
  have ha : ∀ a : Agent, a.pairs.length ≤ 12 := by
    intro a
    simp only [Agent.pairs, List.length_cons, List.length_append]
    have := opt kClientMajor a.major; have := opt kClientMinor a.minor; have := opt kDeviceBrand a.brand; have := opt kDeviceModel a.model
    have := opt kOsMajor a.osMajor; have := opt kOsMinor a.osMinor; have := opt kOsPatch a.osPatch; have := opt kOsPatchMinor a.osPatchMinor
    omega
  have hp : ∀ x : Place, x.pairs.length ≤ 2 := by
    intro x
    simp only [Place.pairs, List.length_append]
    have := opt kCountry x.country; have := opt kCity x.city
    omega
  unfold found
  rw [List.length_append]
  cases req.agent with
  | none =>
    cases D.lookup req.ip with
    | found x => have := hp x; simp; omega
    | notFound => simp
    | failed => simp
  | some s =>
    have := ha (D.parse s)
    cases D.lookup req.ip with
    | found x => have := hp x; simp; omega
    | notFound => simp; omega
    | failed => simp; omega

/-! ## The transformers -/

/-- Properties under the names of a list, with its values. -/
inductive Named (kv : Kv) (p : Nat) : List (Str × Str) → List (Property × PropValue) → Prop where
  | nil : Named kv p [] []
  | cons {x r q l} : (propsC p .event).getBy .name x.1 kv = .ok q → Named kv p r l → Named kv p (x :: r) ((q, .string x.2) :: l)

theorem Named.append {kv : Kv} {p : Nat} {a b : List (Str × Str)} {l m : List (Property × PropValue)} (h : Named kv p a l) (h' : Named kv p b m) :
    Named kv p (a ++ b) (l ++ m) := by
  induction h with
  | nil => exact h'
  | cons hq _ ih => exact .cons hq ih

theorem Named.length {kv : Kv} {p : Nat} {a : List (Str × Str)} {l : List (Property × PropValue)} (h : Named kv p a l) : l.length = a.length := by
  induction h with
  | nil => rfl
  | cons _ _ ih => simp [ih]

theorem Named.mem {kv : Kv} {p : Nat} {a : List (Str × Str)} {l : List (Property × PropValue)} (h : Named kv p a l) :
    ∀ y ∈ l, ∃ x ∈ a, (propsC p .event).getBy .name x.1 kv = .ok y.1 ∧ y.2 = .string x.2 := by
  induction h with
  | nil => intro y hy; cases hy
  | cons hq _ ih =>
    intro y hy
    rcases List.mem_cons.mp hy with rfl | hy
    · exact ⟨_, List.mem_cons_self, hq, rfl⟩
    · obtain ⟨x, hx, h⟩ := ih y hy
      exact ⟨x, List.mem_cons_of_mem _ hx, h⟩

theorem Named.split {kv : Kv} {p : Nat} {a1 a2 : List (Str × Str)} {x : Str × Str} {l : List (Property × PropValue)} (h : Named kv p (a1 ++ x :: a2) l) :
    ∃ l1 q l2, l = l1 ++ (q, .string x.2) :: l2 ∧ Named kv p a1 l1 ∧ (propsC p .event).getBy .name x.1 kv = .ok q := by
  induction a1 generalizing l with
  | nil =>
    cases h with
    | cons hq h => exact ⟨[], _, _, rfl, .nil, hq⟩
  | cons y a1 ih =>
    cases h with
    | cons hq h =>
      obtain ⟨l1, q, l2, rfl, h1, h2⟩ := ih h
      exact ⟨_ :: l1, q, l2, rfl, .cons hq h1, h2⟩

theorem addFound_ok {kv : Kv} {p : Nat} {a : List (Str × Str)} {l l' : List (Property × PropValue)} (h : addFound kv p a l = .ok l') :
    ∃ more, l' = l ++ more ∧ Named kv p a more := by
  induction a generalizing l with
  | nil => cases h; exact ⟨[], by simp, .nil⟩
  | cons x a ih =>
    unfold addFound at h
    split at h
    · cases h
    · rename_i q hq
      obtain ⟨more, rfl, hm⟩ := ih h
      exact ⟨(q, .string x.2) :: more, by simp, .cons hq hm⟩

/-- The transformers append the properties detected. -/
theorem transform_found {D : Detect} {sys : Str → Str} {now : Time} {kv : Kv} {p : Nat} {req : Track} {l l' : List (Property × PropValue)}
    (h : (detectEnv D sys now).transform kv p req l = .ok l') : ∃ more, l' = l ++ more ∧ Named kv p (found D req) more := by
  unfold detectEnv at h
  dsimp only at h
  split at h
  · cases h
  · rename_i l1 h1
    have u : ∃ more, l1 = l ++ more ∧ Named kv p (match req.agent with | none => [] | some s => (D.parse s).pairs) more := by
      unfold userAgent at h1
      split at h1
      · cases h1; exact ⟨[], by simp, by simp only [*]; exact .nil⟩
      · obtain ⟨m, e, hm⟩ := addFound_ok h1
        exact ⟨m, e, by simp only [*]⟩
    have g : ∃ more, l' = l1 ++ more ∧ Named kv p (match D.lookup req.ip with | .found x => x.pairs | _ => []) more := by
      unfold geo at h
      split at h
      · cases h; exact ⟨[], by simp, by simp only [*]; exact .nil⟩
      · cases h
      · obtain ⟨m, e, hm⟩ := addFound_ok h
        exact ⟨m, e, by simp only [*]⟩
    obtain ⟨m1, rfl, n1⟩ := u
    obtain ⟨m2, rfl, n2⟩ := g
    exact ⟨m1 ++ m2, by simp, n1.append n2⟩

theorem detect_bounded (D : Detect) (sys : Str → Str) (now : Time) : (detectEnv D sys now).Bounded 14 := by
  intro kv p req l l' h
  obtain ⟨more, rfl, hm⟩ := transform_found h
  have := found_length D req
  rw [List.length_append, hm.length]; omega

theorem detect_appends (D : Detect) (sys : Str → Str) (now : Time) : (detectEnv D sys now).Appends := by
  intro kv p req l l' h
  obtain ⟨more, rfl, -⟩ := transform_found h
  exact ⟨more, rfl⟩

theorem detect_looks (D : Detect) (sys : Str → Str) (now : Time) : (detectEnv D sys now).Looks := by
  intro kv p req l l' h x hx
  obtain ⟨more, rfl, hm⟩ := transform_found h
  rcases List.mem_append.mp hx with hx | hx
  · exact .inl hx
  · obtain ⟨y, -, hy, -⟩ := hm.mem x hx
    unfold Coll.getBy at hy
    split at hy
    · cases hy
    · exact .inr ⟨_, hy⟩

/-! ## The row of the event -/

theorem each_valueCells_world {sys : Str → Str} {p : Nat} {l : List (Nat × GroupValues)} {cs : List (List NamedValue)} {w w' : World}
    (h : each (fun g => valueCells sys p g.1 g.2.values) l w = (.ok cs, w')) : w' = w := by
  induction l generalizing cs with
  | nil => cases h; rfl
  | cons e l ih =>
    obtain ⟨c, wc, j1, j2⟩ := bind_ok h
    obtain ⟨cs, wd, j3, j4⟩ := bind_ok j2
    cases j4
    rw [valueCells_world j1] at j3
    exact ih j3

/-- The properties of the request resolved with the transformers. -/
theorem resolveTrack_found {D : Detect} {sys : Str → Str} {now : Time} {p : Nat} {req : Track} {w w1 : World} {r : Resolved}
    (h : resolveTrack (detectEnv D sys now) p req w = (.ok r, w1)) : ∃ wa l more, each (resolveProperty sys now p .event) (req.props.getD []) w = (.ok l, wa) ∧
      r.props.getD [] = l ++ more ∧ Named w1.kv p (found D req) more ∧
      ((resolveUser p req.userId req.anonId).bind fun u => (resolveGroups p u.2 req.groups).bind fun groups =>
        (callRaw (getOrCreateEvent p now (eventReq req.event (req.props.map fun _ => l)))).bind fun ev =>
        (attachProps p ev.id (req.props.map fun _ => l)).bind fun _ =>
        (transformed (detectEnv D sys now) p req (req.props.map fun _ => l)).bind fun props' => M.pure (⟨u.1, ev, props', groups⟩ : Resolved)) wa = (.ok r, w1) := by
  obtain ⟨wa, l, more, h1, h2, h3⟩ := resolveTrack_props (detect_appends D sys now) h
  refine ⟨wa, l, more, h1, h2, ?_, h3⟩
  obtain ⟨u, wb, -, hb⟩ := bind_ok h3
  obtain ⟨groups, wc, -, hc⟩ := bind_ok hb
  obtain ⟨ev, wd, -, hd⟩ := bind_ok hc
  obtain ⟨_, we, -, he⟩ := bind_ok hd
  obtain ⟨props', wf, h6, hf⟩ := bind_ok he
  cases hf
  unfold transformed at h6
  split at h6
  · cases h6
  · rename_i l' ht
    cases h6
    have e : (req.props.map fun _ => l).getD [] = l := by
      cases hp : req.props with
      | some _ => rfl
      | none => rw [hp] at h1; cases h1; rfl
    rw [e] at ht
    obtain ⟨more', rfl, hm⟩ := transform_found ht
    dsimp only at h2
    split at h2
    · rename_i hem
      have : l = [] ∧ more' = [] := by simpa using hem
      rw [e, this.1] at h2
      simp only [List.nil_append] at h2
      rw [← h2, ← this.2]; exact hm
    · rw [Option.getD_some] at h2
      rw [← List.append_cancel_left h2]; exact hm

/-- The cells of the row of an accepted event: of the properties resolved, and of the other columns of properties. -/
theorem row_cells {S : Meta.Env Q} (hsys : ∀ n, '/' ∉ S.sys n) {E : Env Track} (hs : E.sys = S.sys) {K : Nat} (hK : E.Bounded K) {token : Str} {req : Track}
    {w w' : World} (h : executeTrack E token req w = (.ok (), w')) {rs : List Row} (ht : EventsTable (w.tbl kEvents) rs)
    (hc : ∀ n ∈ sysCols, String.ofList n ∈ (w.tbl kEvents).schema.map Field.name) {n m : Nat}
    (hr : ∀ project, getByToken token w.kv = .ok project → Runs S (Plain project.id) [] n w.kv)
    (hn : n + (2 * (req.props.getD []).length + 6 * (req.groups.getD []).length + K + 20) + m < 2 ^ 62) :
    ∃ project rs' row r w1 n1 m1, getByToken token w.kv = .ok project ∧ EventsTable (w'.tbl kEvents) (rs' ++ [row]) ∧ project.id < 2 ^ 64 ∧
      resolveTrack E project.id req w = (.ok r, w1) ∧ Runs S (Plain project.id) [] n1 w1.kv ∧ Runs S (TrackReq project.id) w1.kv m1 w'.kv ∧ n1 + m1 < 2 ^ 62 ∧
      m1 ≤ (req.props.getD []).length + K + 9 ∧ (∀ pre b post q, r.props.getD [] = pre ++ b :: post → b.1.norm = q.norm → q.isSystem = false → (∀ x ∈ pre, x.1.columnName S.sys ≠ q.columnName S.sys) →
        ∃ c, cell (w'.tbl kEvents) row (q.columnName S.sys) = some c ∧
          ∀ kv', Runs S (Plain project.id) w'.kv m kv' → Reads S.sys project.id kEvents kv' q c b.2) ∧
      (∀ col, PropCol col → (∀ x ∈ r.props.getD [], x.1.columnName S.sys ≠ col) →
        (∀ g id q, (propsC project.id (.group g)).getById id w'.kv = .ok q → q.columnName S.sys ≠ col) → ∀ c, cell (w'.tbl kEvents) row col = some c → c = .null) := by
  obtain ⟨project, r, w1, w2, begins, row, hp, hres, ⟨⟨fs, -, htab⟩, -, -, -⟩, ⟨isNew, cells, utm, rec, kv2, hcells, hseq, hsch, hrow, ⟨t, t', hts, hins⟩, -⟩, hsend, pr, hinc⟩ :=
    track_rows hK h ht hc
  have hpl : project.id < 2 ^ 64 := by
    obtain ⟨b, hb⟩ := getBy_dec hp
    exact project_dec_lt hb
  have hpost : r.user < 2 ^ 64 ∧ (r.props.getD []).length ≤ (req.props.getD []).length + K := (resolveTrack_follows (S := S) hs hK hpl req w).2 r w1 hres
  obtain ⟨-, wA, wB, w3, w4, props, gprops, c1, c2, c3, c4, c5, c6⟩ := hcells
  rw [hs] at c2 c3 c4
  have R0 := hr project hp
  obtain ⟨ma, hma, Ra⟩ := (resolveTrack_follows (S := S) hs hK hpl req).runs hres
  obtain ⟨ms, hms, Rs⟩ := send_runs hsys hs hpost.1 hsend hinc
  have Rw1 : Runs S (Plain project.id) [] (n + ma) w1.kv := R0.trans (runs_mono (fun _ h => resolve_plain h) Ra)
  have R1 : Runs S (SendReq project.id) w1.kv 1 wA.kv := run_one (.sessionSet project.id r.user E.now) rfl hpost.1 rfl (call_ok c1).1
  obtain ⟨mB, hmB, RB⟩ := (propCells_follows hsys (p := project.id) _).runs c2
  obtain ⟨m3, hm3, R3⟩ := (Follows.each (S := S) (P := SendReq project.id) (r.groups.getD []) fun g _ => valueCells_follows g.2.values).runs c3
  obtain ⟨m4, hm4, R4⟩ := (utmCells_follows (S := S) (p := project.id) hsys req.campaign).runs c4
  have seq : ∀ {a b : Kv} {k : Nat}, nextSeq (.recSeq project.id) a = .ok (k, b) → Runs S (SendReq project.id) a 1 b := fun e => run_one (.eventRecord project.id) rfl trivial rfl e
  have R5 : ∃ m, m ≤ 1 ∧ Runs S (SendReq project.id) w4.kv m kv2 := by
    cases isNew with
    | false => rw [if_neg (by simp)] at c6; rw [c6]; exact ⟨0, by omega, .refl⟩
    | true =>
      rw [if_pos rfl] at c6
      obtain ⟨rec1, c6⟩ := c6
      exact ⟨1, by omega, seq c6⟩
  obtain ⟨m5, hm5, R5⟩ := R5
  have R7 : Runs S (TrackReq project.id) w2.kv 1 w'.kv := run_one (.projectIncrement project.id) rfl trivial (.inr (.inr rfl)) hinc
  have h0 : (r.groups.getD []).length * 0 = 0 := by simp
  refine ⟨project, _, row, r, w1, n + ma, ms, hp, htab, hpl, hres, Rw1, Rs, by omega, by omega, ?_, ?_⟩
  · intro pre b post q hprops hbq hnsys hpre
    have hcol := columnName_col (sys := S.sys) hnsys
    have hbcol : b.1.columnName S.sys = q.columnName S.sys := by
      have : b.1.norm.columnName S.sys = q.norm.columnName S.sys := by rw [hbq]
      exact this
    rw [hprops] at c2
    obtain ⟨cs1, c, cs2, wu, wv, k1, k2, k3, rfl⟩ := each_split c2
    obtain ⟨gv, wv', k4, k5⟩ := bind_ok k2
    cases k5
    have hother : ∀ x ∈ cs1, x.name ≠ String.ofList (q.columnName S.sys) := by
      intro x hx e
      obtain ⟨pv, hpv, hpn⟩ := propCells_name k1 x hx
      exact hpre pv hpv (String.ofList_injective (hpn.symm.trans e))
    have hvs : eventRow project.id r.user rec r.event.id req.time (groupCells r.groups) cells = keyCells project.id r.user ++ (groupCells r.groups ++
        (nv kCreatedAt (.timestamp (some (millis req.time))) :: nv kEventId (i64 rec) :: nv kEvent (i64 r.event.id) :: (cs1 ++
          nv (q.columnName S.sys) (toStore gv) :: (cs2 ++ gprops.flatten)))) := by
      rw [c5, hbcol]; simp [eventRow]
    have hval : val (eventRow project.id r.user rec r.event.id req.time (groupCells r.groups) cells) (q.columnName S.sys) = toStore gv := by
      rw [hvs, val_key_skip _ _ _ (hcol.ne (by decide +kernel)).symm (hcol.ne (groupCol_col 0)).symm, val_skip (groupCells_skip fun g => (hcol.ne (groupCol_col g)).symm),
        val_cons, if_neg (hcol.ne (by decide +kernel)).symm, val_cons, if_neg (hcol.ne (by decide +kernel)).symm, val_cons, if_neg (hcol.ne (by decide +kernel)).symm,
        val_skip hother, val_cons, if_pos rfl]
    have hin : String.ofList (q.columnName S.sys) ∈ (w'.tbl kEvents).schema.map Field.name := by
      have hnod := htab.nodup
      rw [hsch, ← hts] at hnod
      obtain ⟨g, hg, hgn, -⟩ := (Storage.C07_insert_validates t hnod _).1 t' hins (nv (q.columnName S.sys) (toStore gv)) (by rw [hvs]; simp)
      rw [hsch, ← hts]
      exact List.mem_map.mpr ⟨g, hg, hgn⟩
    refine ⟨toStore gv, by rw [hrow, cell_map _ _ _ hin, hval], fun kv' hkv => ?_⟩
    obtain ⟨mu, hmu, Ru⟩ := (propCells_follows hsys (p := project.id) pre).runs k1
    obtain ⟨mv, hmv, Rv⟩ := (propCells_follows hsys (p := project.id) post).runs k3
    have before : Runs S (Plain project.id) [] (n + ma + (1 + mu)) wu.kv := Rw1.trans (runs_mono (fun _ h => send_plain h) (R1.trans Ru))
    have after : Runs S (Plain project.id) wv.kv (mv + m3 + m4 + m5 + 1 + 1 + m) kv' :=
      ((runs_mono (fun _ h => send_plain h) ((((Rv.trans R3).trans R4).trans R5).trans (seq hseq))).trans (runs_mono (fun _ h => track_plain h) R7)).trans hkv
    have hlen2 : pre.length + (post.length + 1) = (r.props.getD []).length := by rw [hprops]; simp
    have hng : ∀ g, b.1.columnName S.sys ≠ groupCol g := fun g => by rw [hbcol]; exact hcol.ne (groupCol_col g)
    exact (cell_reads hsys slash_kEvents (plain_noPut before hng) k4 _ kv' (by omega) (plain_noPut after hng)).norm hbq
  · intro col hcol hprops hgroups c hcell
    have KB : Runs S (Plain project.id) [] (n + ma + (1 + mB)) wB.kv := Rw1.trans (runs_mono (fun _ h => send_plain h) (R1.trans RB))
    have TB : Runs S (TrackReq project.id) wB.kv (m3 + m4 + m5 + 1 + 1) w'.kv := (runs_mono (fun _ h => .inr (.inl h)) (((R3.trans R4).trans R5).trans (seq hseq))).trans R7
    have hB := (plain_chist KB).hist
    have hE := TB.hist hB
    have later : ∀ g id q, (propsC project.id (.group g)).getById id wB.kv = .ok q → (propsC project.id (.group g)).getById id w'.kv = .ok q := by
      intro g id q hq
      rw [getById_live hB (by omega)] at hq
      rw [getById_live hE (by omega)]
      exact props_live track_props TB hB (by omega) hq
    have hin : String.ofList col ∈ (w'.tbl kEvents).schema.map Field.name := by
      obtain ⟨x, hx, -⟩ := Option.map_eq_some_iff.mp hcell
      have h1 := List.find?_some hx
      obtain ⟨h2, -⟩ := List.of_mem_zip (List.mem_of_find?_eq_some hx : (x.1, x.2) ∈ _)
      exact List.mem_map.mpr ⟨_, h2, by simpa using h1⟩
    rw [hrow, cell_map _ _ _ hin] at hcell
    have hp1 : ∀ x ∈ props, x.name ≠ String.ofList col := by
      intro x hx e
      obtain ⟨pv, hpv, hpn⟩ := propCells_name c2 x hx
      exact hprops pv hpv (String.ofList_injective (hpn.symm.trans e))
    have hp2 : ∀ x ∈ gprops.flatten, x.name ≠ String.ofList col := by
      intro x hx e
      obtain ⟨cs, hcs, hxc⟩ := List.mem_flatten.mp hx
      obtain ⟨l1, a, l2, bs1, wa, wb, bs2, -, j1, j2, -⟩ := each_mem c3 cs hcs
      have ew : wa = wB := each_valueCells_world j1
      rw [ew] at j2
      obtain ⟨v, -, q, hq, hqn⟩ := valueCells_name j2 x hxc
      exact hgroups a.1 _ q (later _ _ _ hq) (String.ofList_injective (hqn.symm.trans e))
    have hval : val (eventRow project.id r.user rec r.event.id req.time (groupCells r.groups) cells) col = .null := by
      have e : eventRow project.id r.user rec r.event.id req.time (groupCells r.groups) cells = keyCells project.id r.user ++ (groupCells r.groups ++
        (nv kCreatedAt (.timestamp (some (millis req.time))) :: nv kEventId (i64 rec) :: nv kEvent (i64 r.event.id) :: (props ++ (gprops.flatten ++ [])))) := by
        rw [c5]; simp [eventRow]
      rw [e, val_key_skip _ _ _ (hcol.ne (by decide +kernel)).symm (hcol.ne (groupCol_col 0)).symm, val_skip (groupCells_skip fun g => (hcol.ne (groupCol_col g)).symm),
        val_cons, if_neg (hcol.ne (by decide +kernel)).symm, val_cons, if_neg (hcol.ne (by decide +kernel)).symm, val_cons, if_neg (hcol.ne (by decide +kernel)).symm,
        val_skip hp1, val_skip hp2]
      rfl
    rw [hval] at hcell
    cases hcell
    rfl

theorem getBy_live {S : Meta.Env Q} {n : Nat} {kv : Kv} (h : Hist S n kv) (hn : n < 2 ^ 62) {p : Nat} {name : Str} {q : Property} :
    (propsC p .event).getBy .name name kv = .ok q ↔ ∃ id, (propsC p .event).live kv id = some q ∧ q.name = name := by
  have hi := (hist_props h hn p .event).inv (props_ok p .event)
  rw [getBy_eq hi (i := (.name, fun r => some r.name)) (by simp [propsC]) name _]
  constructor
  · rintro (⟨id, r, h1, h2, h3⟩ | ⟨-, h⟩)
    · cases h3
      exact ⟨id, h1, Option.some.inj h2⟩
    · cases h
  · rintro ⟨id, h1, h2⟩
    exact .inl ⟨id, q, h1, congrArg some h2, rfl⟩

/-- The properties of the row at the end of the request: those of the client, then those detected. -/
theorem resolved_end {S : Meta.Env Q} {D : Detect} {now : Time} {p : Nat} (hp : p < 2 ^ 64) {req : Track} {w w1 w' : World} {r : Resolved}
    (h : resolveTrack (detectEnv D S.sys now) p req w = (.ok r, w1)) {n n1 m : Nat} (h0 : Runs S (Plain p) [] n w.kv) (h1 : Runs S (Plain p) [] n1 w1.kv)
    (hr : Runs S (TrackReq p) w1.kv m w'.kv) (hn : n + (req.props.getD []).length + (3 * (req.groups.getD []).length + 4) + m < 2 ^ 62) (hn1 : n1 + m < 2 ^ 62) :
    ∃ l more, r.props.getD [] = l ++ more ∧ Named w'.kv p (found D req) more ∧
      ∀ b ∈ l, ∃ x ∈ req.props.getD [], ∃ q, (propsC p .event).getBy .name x.1 w'.kv = .ok q ∧ b.1.norm = q.norm := by
  obtain ⟨wa, l, more, e1, e2, e3, e4⟩ := resolveTrack_found h
  obtain ⟨ma, hma, Ra⟩ := (resolve_follows (S := S) hp now _).runs e1
  obtain ⟨mb, hmb, Rb⟩ := (resolveRest_follows (S := S) (detectEnv D S.sys now) hp req _).runs e4
  have hh : Hist S n w.kv := (plain_chist h0).hist
  have hh1 := (plain_chist h1).hist
  have hE := hr.hist hh1
  refine ⟨l, more, e2, ?_, fun b hb => ?_⟩
  · have keep : ∀ name q, (propsC p .event).getBy .name name w1.kv = .ok q → (propsC p .event).getBy .name name w'.kv = .ok q := by
      intro name q hq
      obtain ⟨id, g1, g2⟩ := (getBy_live hh1 (by omega)).mp hq
      exact (getBy_live hE hn1).mpr ⟨id, track_live hr hh1 (by omega) g1, g2⟩
    clear e2 e4
    generalize found D req = fl at e3
    induction e3 with
    | nil => exact .nil
    | cons hq _ ih => exact .cons (keep _ _ hq) ih
  · have T : Runs S (TrackReq p) wa.kv (mb + m) w'.kv := (runs_mono (fun _ h => .inl h) Rb).trans hr
    obtain ⟨x, hx, id, q, -, g1, g2, g3⟩ := resolved_live hp e1 hh T (by omega) b hb
    exact ⟨x, hx, q, (getBy_live hE hn1).mpr ⟨id, g1, g2⟩, g3⟩

/-! ## The claims -/

/-- C115 (partial). In the row of an accepted event, everything that is detected and whose name the client has not used is in the column of
the property of that name, and reads as detected, at the end of the request and after later requests; and the column of a property that was
neither sent nor detected is empty. Missing: a missing property makes the request refused (`C115_violated`); properties marked as system
properties; histories that change the type, data type or system flag of properties. -/
theorem C115_partial {S : Meta.Env Q} (hsys : ∀ n, '/' ∉ S.sys n) {D : Detect} {now : Time} {token : Str} {req : Track}
    {w w' : World} (h : executeTrack (detectEnv D S.sys now) token req w = (.ok (), w')) {rs : List Row} (ht : EventsTable (w.tbl kEvents) rs)
    (hc : ∀ n ∈ sysCols, String.ofList n ∈ (w.tbl kEvents).schema.map Field.name) {n m : Nat}
    (hr : ∀ project, getByToken token w.kv = .ok project → Runs S (Plain project.id) [] n w.kv)
    (hn : n + (2 * (req.props.getD []).length + 6 * (req.groups.getD []).length + 14 + 20) + m < 2 ^ 62)
    (hap : ∀ project, getByToken token w.kv = .ok project → SystemApart S.sys project.id w'.kv) :
    ∃ project rs' row, getByToken token w.kv = .ok project ∧ EventsTable (w'.tbl kEvents) (rs' ++ [row]) ∧
      (∀ name v, Detects D req name v → ∃ q, (propsC project.id .event).getBy .name name w'.kv = .ok q ∧
        (q.isSystem = false → (∀ x ∈ req.props.getD [], x.1 ≠ name) → ∃ c, cell (w'.tbl kEvents) row (q.columnName S.sys) = some c ∧
          ∀ kv', Runs S (Plain project.id) w'.kv m kv' → Reads S.sys project.id kEvents kv' q c (.string v))) ∧
      (∀ name q, (propsC project.id .event).getBy .name name w'.kv = .ok q → q.isSystem = false → (∀ x ∈ req.props.getD [], x.1 ≠ name) →
        (∀ v, ¬ Detects D req name v) → ∀ c, cell (w'.tbl kEvents) row (q.columnName S.sys) = some c → c = .null) := by
  obtain ⟨project, rs', row, r, w1, n1, m1, hp, htab, hpl, hres, H1, T1, hlt, hm1, hcell, hnull⟩ := row_cells hsys rfl (detect_bounded D S.sys now) h ht hc hr hn
  have R0 := hr project hp
  obtain ⟨l, more, e1, e2, e3⟩ := resolved_end hpl hres R0 H1 T1 (by omega) hlt
  have hC := plain_chist (H1.trans (runs_mono (fun _ h => track_plain h) T1))
  have hE := hC.hist
  have hsa := hap project hp
  -- a property in the column of another one
  have same : ∀ ty id q id' q', (propsC project.id .event).live w'.kv id = some q → q.isSystem = false → (propsC project.id ty).getById id' w'.kv = .ok q' →
      q'.columnName S.sys = q.columnName S.sys → ty = .event ∧ id' = id := by
    intro ty id q id' q' hq hqs hq' e
    have hg : (propsC project.id .event).getById id w'.kv = .ok q := by rw [getById_live hE hlt]; exact hq
    cases hs' : q'.isSystem with
    | true =>
      have := hsa ty id' q' hq' hs'
      rw [show S.sys q'.name = q'.columnName S.sys by unfold Property.columnName; rw [if_pos hs'], e] at this
      exact absurd (columnName_col hqs) this
    | false => exact C40_partial hC hlt hq' hg hs' hqs e
  have named : ∀ {name name' : Str} {q q' : Property}, (propsC project.id .event).getBy .name name w'.kv = .ok q → q.isSystem = false →
      (propsC project.id .event).getBy .name name' w'.kv = .ok q' → q'.columnName S.sys = q.columnName S.sys → name' = name := by
    intro name name' q q' hq hqs hq' e
    obtain ⟨id, g1, g2⟩ := (getBy_live hE hlt).mp hq
    obtain ⟨id', g1', g2'⟩ := (getBy_live hE hlt).mp hq'
    obtain ⟨-, rfl⟩ := same .event id q id' q' g1 hqs (by rw [getById_live hE hlt]; exact g1') e
    rw [g1] at g1'
    cases g1'
    exact g2'.symm.trans g2
  have colEq : ∀ {a q : Property}, a.norm = q.norm → a.columnName S.sys = q.columnName S.sys := by
    intro a q e
    have : a.norm.columnName S.sys = q.norm.columnName S.sys := by rw [e]
    exact this
  refine ⟨project, rs', row, hp, htab, fun name v hd => ?_, fun name q hq hqs hcl hdet => ?_⟩
  · obtain ⟨f1, f2, hf⟩ := List.append_of_mem ((detects_found D req name v).mp hd)
    have hnd := found_nodup D req
    rw [hf] at e2 hnd
    obtain ⟨m1, q, m2, rfl, k1, k2⟩ := e2.split
    refine ⟨q, k2, fun hqs hcl => hcell (l ++ m1) (q, .string v) m2 q (by rw [e1]; simp) rfl hqs fun x hx e => ?_⟩
    rcases List.mem_append.mp hx with hx | hx
    · obtain ⟨y, hy, q', g1, g2⟩ := e3 x hx
      exact hcl y hy (named k2 hqs g1 ((colEq g2).symm.trans e))
    · obtain ⟨y, hy, g1, -⟩ := k1.mem x hx
      rw [List.map_append, List.nodup_append] at hnd
      exact hnd.2.2 y.1 (List.mem_map.mpr ⟨y, hy, rfl⟩) name (by simp) (named k2 hqs g1 e)
  · refine hnull _ (columnName_col hqs) (fun x hx e => ?_) (fun g id q' hq' e => ?_)
    · rw [e1] at hx
      rcases List.mem_append.mp hx with hx | hx
      · obtain ⟨y, hy, q', g1, g2⟩ := e3 x hx
        exact hcl y hy (named hq hqs g1 ((colEq g2).symm.trans e))
      · obtain ⟨y, hy, g1, -⟩ := e2.mem x hx
        have := named hq hqs g1 e
        exact hdet y.2 ((detects_found D req name y.2).mpr (this ▸ hy))
    · obtain ⟨id0, g1, -⟩ := (getBy_live hE hlt).mp hq
      obtain ⟨h, -⟩ := same (.group g) id0 q id q' g1 hqs hq' e
      cases h

/-- C115 for what the client sends: what is detected does not take its place. -/
theorem C115_client {S : Meta.Env Q} (hsys : ∀ n, '/' ∉ S.sys n) {D : Detect} {now : Time} {token : Str} {req : Track}
    {w w' : World} (h : executeTrack (detectEnv D S.sys now) token req w = (.ok (), w')) {rs : List Row} (ht : EventsTable (w.tbl kEvents) rs)
    (hc : ∀ n ∈ sysCols, String.ofList n ∈ (w.tbl kEvents).schema.map Field.name) {n m : Nat}
    (hr : ∀ project, getByToken token w.kv = .ok project → Runs S (Plain project.id) [] n w.kv)
    (hn : n + (2 * (req.props.getD []).length + 6 * (req.groups.getD []).length + 14 + 20) + m < 2 ^ 62) (hnd : ((req.props.getD []).map Prod.fst).Nodup)
    (hap : ∀ project, getByToken token w.kv = .ok project → SystemApart S.sys project.id w'.kv) :
    ∃ project rs' row, getByToken token w.kv = .ok project ∧ EventsTable (w'.tbl kEvents) (rs' ++ [row]) ∧
      ∀ name v, (name, v) ∈ req.props.getD [] → ∃ q, (propsC project.id .event).getBy .name name w'.kv = .ok q ∧
        (q.isSystem = false → ∃ c, cell (w'.tbl kEvents) row (q.columnName S.sys) = some c ∧
          ∀ kv', Runs S (Plain project.id) w'.kv m kv' → Reads S.sys project.id kEvents kv' q c v) := by
  obtain ⟨project, rs', row, hp, htab, hall⟩ := C109_partial hsys rfl (detect_bounded D S.sys now) (detect_appends D S.sys now) h ht hc hr hn hnd
  refine ⟨project, rs', row, hp, htab, fun name v hm => ?_⟩
  obtain ⟨q, hq, hcell⟩ := hall name v hm
  refine ⟨q, hq, fun hqs => hcell hqs fun x _ r hr hrs => ?_⟩
  obtain ⟨id, hid⟩ : ∃ id, (propsC project.id .event).getById id w'.kv = .ok r := by
    unfold Coll.getBy at hr
    split at hr
    · cases hr
    · exact ⟨_, hr⟩
  exact hap project hp .event id r hid hrs

/-! ## An example, and requests refused -/

/-- The properties as `init_project` makes them (/repo/src/platform/src/projects.rs 348-383). -/
def exDetected (name : Str) : Req Unit := .propGetOrCreate 1 .event ⟨0, 0⟩ { propReq .event name (.string []) with createdBy := 0 } (.ok ())
def exDetectSetup : List (Req Unit) :=
  exSetup ++ [exDetected kClientFamily, exDetected kDeviceFamily, exDetected kOs, exDetected kOsFamily, exDetected kOsMajor, exDetected kCountry, exDetected kCity]
def exDetectTbl : Tbl := exTbl (exSchema ++ (["e_str_0", "e_str_1", "e_str_2", "e_str_3", "e_str_4", "e_str_5", "e_str_6"].map fun n => ⟨n, .int64, true⟩))
def exDetectWorld : World := { kv := runReqs exSysEnv exDetectSetup [], tbl := fun n => if n = kEvents then exDetectTbl else exTbl [], rows := [] }
def exDetect : Detect where
  parse _ := { family := "Firefox".toList, device := "Mac".toList, os := "Mac OS X".toList, osMajor := some "10".toList }
  lookup a := if a = "1.2.3.4".toList then .found { country := some "Spain".toList } else .notFound
def exAgentReq : Track := { exTrack (some "u".toList) none [] with agent := some "Mozilla/5.0".toList, ip := "1.2.3.4".toList }

theorem exDetect_plain : Runs exSysEnv (Plain 1) [] 9 exDetectWorld.kv := by
  have step : ∀ {n kv} (name : Str), Runs exSysEnv (Plain 1) [] n kv → Runs exSysEnv (Plain 1) [] (n + 1) ((exDetected name).exec exSysEnv kv) := fun name h =>
    .step (exDetected name) h ⟨by decide, by show 0 < 2 ^ 64; decide, by intro g hg; cases hg⟩ ⟨trivial, fun _ _ => trivial⟩
  exact step _ (step _ (step _ (step _ (step _ (step _ (step _
    (.step (.eventCreate 1 ⟨0, 0⟩ (eventReq kSessionBegin none)) (.step (.projectCreate ⟨0, 0⟩ exProj) .refl ⟨by decide, by decide, by decide⟩ ⟨trivial, fun _ _ => trivial⟩)
      ⟨by decide, by decide⟩ ⟨trivial, fun _ _ => trivial⟩)))))))

/-- The request is accepted; the row of the event has a key for each value detected, nothing for the city, and the country reads as such. -/
example : (executeTrack (detectEnv exDetect exSys ⟨5#64, 0⟩) exToken exAgentReq exDetectWorld).1 = .ok () ∧
    (∀ n ∈ sysCols, String.ofList n ∈ (exDetectWorld.tbl kEvents).schema.map Field.name) ∧
    ((executeTrack (detectEnv exDetect exSys ⟨5#64, 0⟩) exToken exAgentReq exDetectWorld).2.rows.getLast?.map fun x =>
      ["e_str_0", "e_str_3", "e_str_4", "e_str_5", "e_str_6"].map fun n => storedKey (val x.2 n.toList)) = some [some 1, some 1, some 1, some 1, none] ∧
    dictGetValue 1 kEvents "e_str_5".toList 1 (executeTrack (detectEnv exDetect exSys ⟨5#64, 0⟩) exToken exAgentReq exDetectWorld).2.kv = .ok "Spain".toList ∧
    dictGetValue 1 kEvents "e_str_3".toList 1 (executeTrack (detectEnv exDetect exSys ⟨5#64, 0⟩) exToken exAgentReq exDetectWorld).2.kv = .ok "Mac OS X 10".toList := by
  decide +kernel

example : Detects exDetect exAgentReq "Country".toList "Spain".toList ∧ Detects exDetect exAgentReq "OS Family".toList "Mac OS X 10".toList :=
  ⟨(detects_found _ _ _ _).mpr (by decide +kernel), (detects_found _ _ _ _).mpr (by decide +kernel)⟩

/-- C115 as stated, as for acceptance: a request that is accepted when nothing is detected is accepted with what is detected, unless the
database of addresses cannot be read. -/
def C115_full : Prop := ∀ (S : Meta.Env Unit) (D : Detect) (now : Time) (token : Str) (req : Track) (w : World) (n : Nat), Hist S n w.kv → n < 2 ^ 61 →
  D.lookup req.ip ≠ .failed →
  (executeTrack (detectEnv { D with lookup := fun _ => .notFound } S.sys now) token { req with agent := none } w).1 = .ok () →
  (executeTrack (detectEnv D S.sys now) token req w).1 = .ok ()

/-- After one of the properties is deleted (here the country, by its number), events from addresses with a country are refused. -/
theorem C115_violated : ¬ C115_full := by
  intro h
  have := h exSysEnv exDetect ⟨5#64, 0⟩ exToken exAgentReq { exDetectWorld with kv := (Req.propDelete 1 .event 6 : Req Unit).exec exSysEnv exDetectWorld.kv } 10
    ((plain_chist exDetect_plain).hist.step (.propDelete 1 .event 6) trivial) (by decide) (by decide +kernel) (by decide +kernel)
  revert this
  decide +kernel

end OptiPrism.Ingest
