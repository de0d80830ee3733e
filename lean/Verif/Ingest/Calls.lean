import Verif.Ingest.MakeProp
import Verif.Meta.RecordsProps

/-!
# The metadata calls of ingestion
-/

namespace OptiPrism.Ingest

open OptiPrism.Meta
open OptiPrism.Storage (Bytes Value NamedValue Tbl InsertErr ColType Field Row KeyValue typeOk fromLE)

variable {Q : Type} {S : Meta.Env Q} {T : Str → Bool} {n : Nat} {w : World} {ok : Prop}

theorem nextSeq_succeeds {k : Key} {kv : Kv} (h : ∀ b, getK kv k = some b → b.length = 8) : ∃ m kv', nextSeq k kv = .ok (m, kv') := by
  unfold nextSeq
  cases hg : getK kv k with
  | none => exact ⟨_, _, rfl⟩
  | some v =>
    dsimp only
    rw [show readU64 v = .ok (fromLE v) by unfold readU64; rw [if_pos (h v hg)]]
    exact ⟨_, _, rfl⟩

theorem dict_succeeds {kv : Kv} (h : ReadsU64 kv) {p : Nat} {t d : Str} (hw : '/' ∉ t ∧ '/' ∉ d) (v : Str) : ∃ m kv', dictGetOrCreate p t d v kv = .ok (m, kv') := by
  unfold dictGetOrCreate
  cases hg : getK kv (.dictVal p t d v) with
  | some b =>
    dsimp only
    rw [show readU64 b = .ok (fromLE b) by unfold readU64; rw [if_pos (h _ b (show (Key.dictVal p t d v).WF from hw) trivial hg)]]
    exact ⟨_, _, rfl⟩
  | none =>
    dsimp only
    obtain ⟨m, kv', e⟩ := nextSeq_succeeds (k := .dictSeq p t d) fun b hb => h _ b (show (Key.dictSeq p t d).WF from hw) trivial hb
    rw [e]
    exact ⟨_, _, rfl⟩

theorem dictPut_goes (hw : WInv S T n w) (hn : n + 1 < 2 ^ 62) {p : Nat} (hp : p ≤ lastId w.kv (.top .projects)) {t d : Str} (hs : '/' ∉ t ∧ '/' ∉ d) {x : Nat}
    (hx : x < 2 ^ 64) (v : Str) : Goes S T n w 1 ok (call (dictCreateKey p t d x v)) (fun _ w' => ∀ m, m ∉ [Mod.dict p t d] → Same m w.kv w'.kv) :=
  Goes.call hw hn (.dictPut p t d x v) rfl ⟨hs, hx⟩
    ⟨fun m hm q hq => by rw [List.mem_singleton.mp hm] at hq; cases hq; exact hp, trivial, trivial⟩ (by simp [Req.mods]) (fun _ => ⟨_, _, rfl⟩) fun _ _ _ h => h

theorem dictGet_goes (hw : WInv S T n w) (hn : n + 1 < 2 ^ 62) {p : Nat} (hp : p ≤ lastId w.kv (.top .projects)) {t d : Str} (hs : '/' ∉ t ∧ '/' ∉ d) (v : Str) :
    Goes S T n w 1 ok (call (dictGetOrCreate p t d v)) (fun _ _ => True) :=
  Goes.call hw hn (.dictGet p t d v) rfl hs
    ⟨fun m hm q hq => by rw [List.mem_singleton.mp hm] at hq; cases hq; exact hp, trivial, trivial⟩ (by simp [Req.mods]) (fun _ => dict_succeeds hw.kv.u64 hs v)
    fun _ _ _ _ => trivial

theorem event_succeeds {kv : Kv} (hk : KInv S T n kv) (hn : n < 2 ^ 62) {p : Nat} (hp : p < 2 ^ 64) {now : Time} {r : Event} (hb : r.createdBy < 2 ^ 64)
    (hd : r.displayName = none) : ∃ ev, (getOrCreateEvent p now r kv).1 = .ok ev := by
  have hr := hk.event hn p
  have hi := hr.inv (events_ok p)
  unfold getOrCreateEvent
  rcases (getBy_eq hi (i := (.name, fun e => some e.name)) (by simp [eventsC]) r.name _).mp rfl with ⟨id, x, -, -, e⟩ | ⟨hno, e⟩
  · rw [show (eventsC p).getBy .name r.name kv = .ok x from e]; exact ⟨_, rfl⟩
  · rw [show (eventsC p).getBy .name r.name kv = .error .notFound from e]
    dsimp only
    obtain ⟨h1, h2, h3⟩ := eventCreate_ok (now := now) hp hb
    unfold createEvent
    rcases create_spec (events_ok p) hi (hr.room (events_ok p)) h1 h2 h3 with ⟨⟨i, hm, x, id, r', g1, g2, g3⟩, -⟩ | ⟨-, kv1, e1, -⟩
    · exfalso
      simp only [eventsC, List.mem_cons, List.not_mem_nil, or_false] at hm
      rcases hm with rfl | rfl
      · have g1 : some r.name = some x := g1
        exact hno id r' g2 (g3.trans g1.symm)
      · have g1 : r.displayName = some x := g1
        rw [hd] at g1; cases g1
    · rw [show eventCreate p now r kv = _ from e1]
      dsimp only
      have hu : ReadsU64 kv1 := by
        intro k b hw hu hg
        refine hk.u64 k b hw hu ?_
        rw [← hg]
        symm
        refine ((eventCreate_touches p now r) kv _ kv1 e1).same (m := k.mod) ?_ k hw rfl
        intro k' hk' e'
        simp at hk'
        rw [hk'] at e'
        cases k <;> simp [Key.IsU64, Key.mod] at hu e'
      obtain ⟨m, kv', e2⟩ := dict_succeeds hu kEvents_ok (p := p) (eventMk p now r (lastId kv (eventsC p).ns + 1)).name
      rw [e2]
      exact ⟨_, rfl⟩

theorem event_goes (hw : WInv S T n w) (hn : n + 1 < 2 ^ 62) {p : Nat} (hp : p ≤ lastId w.kv (.top .projects)) (hp64 : p < 2 ^ 64) {now : Time} {r : Event}
    (hb : r.createdBy < 2 ^ 64) (hd : r.displayName = none) :
    Goes S T n w 1 ok (callRaw (getOrCreateEvent p now r)) (fun ev w' => nameAt p w'.kv ev.id = some r.name ∧
      ∀ m, m ∉ [Mod.coll (.proj p .events), .dict p kEvents kEvent] → Same m w.kv w'.kv) := by
  have hr := hw.kv.event (by omega) p
  exact Goes.raw hw hn (.eventGetOrCreate p now r) rfl ⟨hp64, hb⟩
    ⟨fun m hm q hq => by
      simp only [Req.mods, List.mem_cons, List.not_mem_nil, or_false] at hm
      rcases hm with rfl | rfl <;> cases hq <;> exact hp, trivial, trivial⟩ (by simp [Req.mods]) (fun _ => event_succeeds hw.kv (by omega) hp64 hb hd)
    fun ev he hs => ⟨(getOrCreateEvent_kept hp64 hb (hr.inv (events_ok p)) (hr.room (events_ok p))).2 ev he, hs⟩

/-- The names in use for groups are among `ks`, as is `x`. -/
def GroupRoom (p : Nat) (ks : List Str) (kv : Kv) : Prop := ks.length ≤ 5 ∧ ∀ x b, getK kv (.groupName p x) = some b → x ∈ ks

theorem nodup_length {α : Type} {l m : List α} (h : l.Nodup) (hs : ∀ x ∈ l, x ∈ m) : l.length ≤ m.length := by
  classical
  induction l generalizing m with
  | nil => simp
  | cons a l ih =>
    rw [List.nodup_cons] at h
    have ha := hs a (by simp)
    have := ih (m := m.erase a) h.2 fun x hx => by
      rw [List.mem_erase_of_ne]
      · exact hs x (by simp [hx])
      · rintro rfl; exact h.1 hx
    rw [List.length_erase_of_mem ha] at this
    have : 0 < m.length := List.length_pos_of_mem ha
    simp; omega

/-- Numbers below `n`, each with a value in `m`, different ones with different values. -/
theorem count_le {α : Type} (f : Nat → Option α) {m : List α} (k : Nat) (h : ∀ i, i < k → ∃ x ∈ m, f i = some x)
    (hi : ∀ i j x, i < k → j < k → f i = some x → f j = some x → i = j) : k ≤ m.length := by
  suffices ∀ k' ≤ k, ∃ l : List α, l.Nodup ∧ l.length = k' ∧ ∀ x ∈ l, x ∈ m ∧ ∃ i, i < k' ∧ f i = some x by
    obtain ⟨l, h1, h2, h3⟩ := this k (Nat.le_refl _)
    rw [← h2]
    exact nodup_length h1 fun x hx => (h3 x hx).1
  intro k' hk
  induction k' with
  | zero => exact ⟨[], by simp, rfl, by simp⟩
  | succ k' ih =>
    obtain ⟨l, h1, h2, h3⟩ := ih (by omega)
    obtain ⟨x, hx, hf⟩ := h k' (by omega)
    refine ⟨x :: l, List.nodup_cons.mpr ⟨fun hm => ?_, h1⟩, by simp [h2], fun y hy => ?_⟩
    · obtain ⟨-, i, hi1, hi2⟩ := h3 x hm
      have := hi i k' x (by omega) (by omega) hi2 hf
      omega
    · rcases List.mem_cons.mp hy with rfl | hy
      · exact ⟨hx, k', by omega, hf⟩
      · obtain ⟨g1, i, g2, g3⟩ := h3 y hy
        exact ⟨g1, i, by omega, g3⟩

theorem gn_room {p : Nat} {kv : Kv} (h : GnInv p kv) {ks : List Str} (hk : GroupRoom p ks kv) {x : Str} (hx : x ∈ ks) (hno : getK kv (.groupName p x) = none) :
    gnCount p kv < 5 := by
  classical
  have hall := h.all
  have hle : gnCount p kv ≤ (ks.erase x).length := by
    refine count_le (fun i => if hi : i < gnCount p kv then some (hall i hi).choose else none) (gnCount p kv) (fun i hi => ?_) fun i j y hi hj h1 h2 => ?_
    · obtain ⟨g, hg, -⟩ := (hall i hi).choose_spec
      refine ⟨(hall i hi).choose, ?_, by simp only [hi, dif_pos]⟩
      rw [List.mem_erase_of_ne]
      · exact hk.2 _ _ hg
      · intro e; rw [e, hno] at hg; cases hg
    · simp only [hi, hj, dif_pos, Option.some.injEq] at h1 h2
      obtain ⟨g, hg, e1, -⟩ := (hall i hi).choose_spec
      obtain ⟨g', hg', e2, -⟩ := (hall j hj).choose_spec
      rw [h1] at hg
      rw [h2, hg] at hg'
      obtain ⟨a, ha, hae, -⟩ := h.dec hg
      have heq : Group.enc g = Group.enc g' := Option.some.inj hg'
      obtain ⟨a', ha', -⟩ := h.dec (hg.trans hg')
      have := congrArg Group.dec heq
      rw [← e1, ← e2]
      have i1 : Group.dec (Group.enc g) = some g := Group.dec_enc g ⟨show g.id < 2 ^ 64 by rw [e1]; have := h.le; omega⟩
      have i2 : Group.dec (Group.enc g') = some g' := Group.dec_enc g' ⟨show g'.id < 2 ^ 64 by rw [e2]; have := h.le; omega⟩
      rw [i1, i2] at this
      cases this
      rfl
  rw [List.length_erase_of_mem hx] at hle
  have := hk.1
  have : 0 < ks.length := List.length_pos_of_mem hx
  omega

/-- A call that only touches modules of one project. -/
theorem mods_le {kv : Kv} {p : Nat} (hp : p ≤ lastId kv (.top .projects)) {l : List Mod} (h : ∀ m ∈ l, modProject m = none ∨ modProject m = some p) :
    ∀ m ∈ l, ∀ q, modProject m = some q → q ≤ lastId kv (.top .projects) := by
  intro m hm q hq
  rcases h m hm with e | e <;> rw [e] at hq <;> cases hq
  exact hp

theorem groupName_goes (hw : WInv S T n w) (hn : n + 1 < 2 ^ 62) {p : Nat} (hp : p ≤ lastId w.kv (.top .projects)) {ks : List Str} (hk : ok → GroupRoom p ks w.kv)
    {x : Str} (hx : x ∈ ks) (d : Str) :
    Goes S T n w 1 ok (call (getOrCreateGroup p x d)) (fun g w' => (ok → GroupRoom p ks w'.kv) ∧ Known p w'.kv x g ∧ g.id < 5 ∧
      (∀ y b, getK w'.kv (.groupName p y) = some b → y = x ∨ getK w.kv (.groupName p y) = some b) ∧
      (getK w.kv (.groupName p x) = none → g = ⟨gnCount p w.kv, x, d⟩) ∧
      ∀ m, m ∉ [Mod.grpNames p] → Same m w.kv w'.kv) := by
  have hg := hw.kv.gn p
  refine Goes.call hw hn (.groupName p x d) rfl trivial ⟨mods_le hp (by simp [Req.mods, modProject]), trivial, trivial⟩ (by simp [Req.mods]) (fun hok => ?_)
    fun g kv' e hs => ?_
  · cases hv : getK w.kv (.groupName p x) with
    | some b =>
      obtain ⟨g, hd, -⟩ := hg.dec hv
      exact ⟨g, w.kv, (known_iff hg x g).mpr ⟨b, hv, hd⟩ d⟩
    | none =>
      have := gn_room hg (hk hok) hx hv
      rcases gn_new hg hv d with ⟨h5, -⟩ | ⟨-, kv', e, -⟩
      · omega
      · exact ⟨_, _, e⟩
  · cases hv : getK w.kv (.groupName p x) with
    | some b =>
      obtain ⟨g', hd, -, -, hlt⟩ := hg.dec hv
      have hkn := (known_iff hg x g').mpr ⟨b, hv, hd⟩
      rw [hkn d] at e
      cases e
      have := hg.le
      exact ⟨hk, hkn, by omega, fun y b h => .inr h, (by simp), hs⟩
    | none =>
      rcases gn_new hg hv d with ⟨-, e'⟩ | ⟨h5, kv1, e', g1, g2, g3, g4⟩
      · rw [e'] at e; cases e
      · rw [e'] at e
        cases e
        refine ⟨fun hok => ⟨(hk hok).1, fun y b hb => ?_⟩, (known_iff g1 x _).mpr ⟨_, g3, Group.dec_enc _ ⟨by show gnCount p w.kv < 2 ^ 64; omega⟩⟩, h5, fun y b hb => ?_,
          fun _ => rfl, hs⟩
        · by_cases hy : y = x
          · subst hy; exact hx
          · dsimp only at hb; rw [g4 y hy] at hb; exact (hk hok).2 y b hb
        · by_cases hy : y = x
          · exact .inl hy
          · dsimp only at hb; rw [g4 y hy] at hb; exact .inr hb

theorem GValue.dec_present {b : Bytes} {v : GValue} (h : GValue.dec b = some v) : v.Present := by
  unfold GValue.dec at h
  simp only [Option.bind_eq_bind, Option.bind_eq_some_iff] at h
  obtain ⟨fs, -, f, -, h⟩ := h
  split at h
  case h_8 => split at h <;> cases h; simp [GValue.Present]
  case h_9 => obtain ⟨s, -, rfl⟩ := Option.map_eq_some_iff.mp h; simp [GValue.Present]
  all_goals first | (cases h; done) | (cases h; simp [GValue.Present])

theorem mapM_mem {α β : Type} {f : α → Option β} {l : List α} {r : List β} (h : l.mapM f = some r) : ∀ b ∈ r, ∃ a ∈ l, f a = some b := by
  induction l generalizing r with
  | nil => cases h; simp
  | cons a l ih =>
    rw [List.mapM_cons] at h
    simp only [Option.bind_eq_bind, Option.pure_def, Option.bind_eq_some_iff] at h
    obtain ⟨b, hb, bs', hbs, e⟩ := h
    cases e
    intro c hc
    rcases List.mem_cons.mp hc with rfl | hc
    · exact ⟨a, by simp, hb⟩
    · obtain ⟨a', h1, h2⟩ := ih hbs c hc
      exact ⟨a', by simp [h1], h2⟩

theorem dec_present {b : Bytes} {r : GroupValues} (h : GroupValues.dec b = some r) : ∀ v ∈ r.values, v.value.Present := by
  unfold GroupValues.dec at h
  simp only [Option.bind_eq_bind, Option.pure_def, Option.bind_eq_some_iff] at h
  obtain ⟨fs, -, i, -, vs, hvs, e⟩ := h
  cases e
  unfold rdMsgs at hvs
  simp only [Option.bind_eq_bind, Option.bind_eq_some_iff] at hvs
  obtain ⟨l, -, hl⟩ := hvs
  intro v hv
  obtain ⟨b', -, hb'⟩ := mapM_mem hl v hv
  unfold PropVal.dec at hb'
  simp only [Option.bind_eq_bind, Option.pure_def, Option.bind_eq_some_iff] at hb'
  obtain ⟨_, -, _, -, _, -, _, -, _, hd, e⟩ := hb'
  cases e
  exact GValue.dec_present hd

theorem groupGet_goes (hw : WInv S T n w) (hn : n + 1 < 2 ^ 62) {p : Nat} (hp : p ≤ lastId w.kv (.top .projects)) (g : Nat) (s : Str) :
    Goes S T n w 1 ok (call (groupGetOrCreate p g s [])) (fun gv w' => gv.id < 2 ^ 64 ∧ ValsFit p g w'.kv gv.values ∧ ∀ m, m ∉ [Mod.grp p g] → Same m w.kv w'.kv) := by
  obtain ⟨h1, h2, h3⟩ := hw.kv.ginv (by omega) p g
  refine Goes.call hw hn (.groupGet p g s []) rfl (by intro v hv; cases hv) ⟨mods_le hp (by simp [Req.mods, modProject]), trivial, rfl⟩ (by simp [Req.mods]) (fun _ => ?_)
    fun gv kv' e hs => ⟨(groupGet_step (by intro v hv; cases hv) h1 e).2.2, ?_, hs⟩
  · unfold groupGetOrCreate
    cases hv : getK w.kv (.real p g s) with
    | some b =>
      obtain ⟨r, hr, -⟩ := h1.2 s b hv
      dsimp only
      unfold gvRead
      rw [hr]
      exact ⟨_, _, rfl⟩
    | none =>
      dsimp only
      rw [gNext h2 (by omega)]
      dsimp only
      cases he : GroupValues.enc ⟨gSeq p g w.kv + 1, []⟩ with
      | none => exact absurd he ((C41_group_values_writable _).mpr (by intro v hv; cases hv))
      | some b => exact ⟨_, _, rfl⟩
  · dsimp only
    unfold groupGetOrCreate at e
    cases hv : getK w.kv (.real p g s) with
    | some b =>
      obtain ⟨r, hr, -⟩ := h1.2 s b hv
      rw [hv] at e
      dsimp only at e
      unfold gvRead at e
      rw [hr] at e
      cases e
      exact hw.kv.vals p g s b _ hv hr
    | none =>
      rw [hv] at e
      dsimp only at e
      rw [gNext h2 (by omega)] at e
      dsimp only at e
      split at e
      · cases e
      · cases e
        intro v hv; cases hv

theorem groupUpdate_goes (hw : WInv S T n w) (hn : n + 1 < 2 ^ 62) {p : Nat} (hp : p ≤ lastId w.kv (.top .projects)) (g : Nat) (s : Str) {vs : List PropVal}
    (h64 : ∀ v ∈ vs, v.propertyId < 2 ^ 64) (hf : ValsFit p g w.kv vs) (hpr : ∀ v ∈ vs, v.value.Present) :
    Goes S T n w 1 ok (call (groupCreateOrUpdate p g s vs)) (fun gv w' => gv.id < 2 ^ 64 ∧ ValsFit p g w'.kv gv.values ∧ ∀ m, m ∉ [Mod.grp p g] → Same m w.kv w'.kv) := by
  obtain ⟨h1, h2, h3⟩ := hw.kv.ginv (by omega) p g
  have hgoes : Goes S T n w 1 ok (call (groupCreateOrUpdate p g s vs))
      (fun gv w' => gv.id < 2 ^ 64 ∧ ValsFit p g w.kv gv.values ∧ ∀ m, m ∉ [Mod.grp p g] → Same m w.kv w'.kv) := by
    refine Goes.call hw hn (.groupUpdate p g s vs) rfl h64 ⟨mods_le hp (by simp [Req.mods, modProject]), trivial, hf⟩ (by simp [Req.mods]) (fun _ => ?_)
      fun gv kv' e hs => ⟨(groupUpdate_step h64 h1 e).2.2, ?_, hs⟩
    · unfold groupCreateOrUpdate
      cases hv : getK w.kv (.real p g s) with
      | some b =>
        obtain ⟨r, hr, -⟩ := h1.2 s b hv
        dsimp only
        unfold gvRead
        rw [hr]
        dsimp only
        cases he : GroupValues.enc ⟨r.id, mergeValues r.values vs⟩ with
        | none =>
          refine absurd he ((C41_group_values_writable _).mpr fun v hv => ?_)
          rcases mergeValues_mem hv with hv | hv
          · exact dec_present hr v hv
          · exact hpr v hv
        | some b => exact ⟨_, _, rfl⟩
      | none =>
        dsimp only
        rw [gNext h2 (by omega)]
        dsimp only
        cases he : GroupValues.enc ⟨gSeq p g w.kv + 1, vs⟩ with
        | none => exact absurd he ((C41_group_values_writable _).mpr hpr)
        | some b => exact ⟨_, _, rfl⟩
    · unfold groupCreateOrUpdate at e
      cases hv : getK w.kv (.real p g s) with
      | some b =>
        obtain ⟨r, hr, -⟩ := h1.2 s b hv
        rw [hv] at e
        dsimp only at e
        unfold gvRead at e
        rw [hr] at e
        dsimp only at e
        split at e
        · cases e
        · cases e
          intro v hv'
          rcases mergeValues_mem hv' with hv' | hv'
          · exact hw.kv.vals p g s b _ hv hr v hv'
          · exact hf v hv'
      | none =>
        rw [hv] at e
        dsimp only at e
        rw [gNext h2 (by omega)] at e
        dsimp only at e
        split at e
        · cases e
        · cases e
          exact hf
  exact hgoes.mono (Nat.le_refl _) fun gv w' _ hn' ⟨a, b, c⟩ => ⟨a, b.ext hn'.1, c⟩

theorem anon_goes (hw : WInv S T n w) (hn : n + 1 < 2 ^ 62) {p : Nat} (hp : p ≤ lastId w.kv (.top .projects)) (g : Nat) (s : Str) :
    Goes S T n w 1 ok (call (anonymousId p g s)) (fun u w' => u < 2 ^ 64 ∧ ∀ m, m ∉ [Mod.grp p g] → Same m w.kv w'.kv) := by
  obtain ⟨h1, h2, h3⟩ := hw.kv.ginv (by omega) p g
  refine Goes.call hw hn (.anonymous p g s) rfl trivial ⟨mods_le hp (by simp [Req.mods, modProject]), trivial, trivial⟩ (by simp [Req.mods]) (fun _ => ?_)
    fun u kv' e hs => ⟨(anon_step e).2.2, hs⟩
  unfold anonymousId
  cases hv : getK w.kv (.anon p g s) with
  | some b =>
    obtain ⟨m, rfl, -⟩ := h1.1 s b hv
    dsimp only
    rw [show readU64 (le64 m) = .ok (fromLE (le64 m)) by unfold readU64; rw [if_pos (le64_length m)]]
    exact ⟨_, _, rfl⟩
  | none =>
    dsimp only
    rw [gNext h2 (by omega)]
    exact ⟨_, _, rfl⟩

theorem session_goes (hw : WInv S T n w) (hn : n + 1 < 2 ^ 62) {p : Nat} (hp : p ≤ lastId w.kv (.top .projects)) {u : Nat} (hu : u < 2 ^ 64) (t : Time) :
    Goes S T n w 1 ok (call (setCurrentTime p u t)) (fun _ _ => True) := by
  refine Goes.call hw hn (.sessionSet p u t) rfl hu ⟨mods_le hp (by simp [Req.mods, modProject]), trivial, trivial⟩ (by simp [Req.mods]) (fun _ => ?_) fun _ _ _ _ => trivial
  obtain ⟨kv', e, -⟩ := setCurrentTime_spec (hw.kv.sinv p) hu (t := t)
  exact ⟨_, _, e⟩

theorem record_goes (hw : WInv S T n w) (hn : n + 1 < 2 ^ 62) {p : Nat} (hp : p ≤ lastId w.kv (.top .projects)) :
    Goes S T n w 1 ok (call (nextSeq (.recSeq p))) (fun _ _ => True) :=
  Goes.call hw hn (.eventRecord p) rfl trivial ⟨mods_le hp (by simp [Req.mods, modProject]), trivial, trivial⟩ (by simp [Req.mods])
    (fun _ => nextSeq_succeeds fun b hb => hw.kv.u64 (.recSeq p) b trivial trivial hb) fun _ _ _ _ => trivial

theorem groupRecord_goes (hw : WInv S T n w) (hn : n + 1 < 2 ^ 62) {p : Nat} (hp : p ≤ lastId w.kv (.top .projects)) (g : Nat) :
    Goes S T n w 1 ok (call (nextSeq (.groupRecSeq p g))) (fun _ _ => True) :=
  Goes.call hw hn (.groupRecord p g) rfl trivial ⟨mods_le hp (by simp [Req.mods, modProject]), trivial, trivial⟩ (by simp [Req.mods])
    (fun _ => nextSeq_succeeds fun b hb => hw.kv.u64 (.groupRecSeq p g) b trivial trivial hb) fun _ _ _ _ => trivial

end OptiPrism.Ingest
