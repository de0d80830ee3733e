import Verif.Meta.ListingProps
import Verif.Meta.RecordsProps

/-!
# Stores that differ in what is to be kept secret

Password hashes of accounts, passwords of backups, and the passwords and keys in the settings. `Twin` relates two stores with the same keys
whose values are the same but for these; this file shows that the calls of the metadata, run on twins, answer alike and leave twins.
-/

namespace OptiPrism.Meta

open OptiPrism.Storage (Bytes)

variable {R α β : Type}

/-- An account without its password hash. -/
def Account.mask (a : Account) : Account := { a with passwordHash := [] }

/-- A backup without its password. -/
def Backup.mask (b : Backup) : Backup := { b with password := none }

/-- Of a secret text, only whether there is any. -/
def veil (s : Str) : Str := if s.isEmpty then [] else ['*']

/-- The settings without the passwords and the keys of the backup provider; of those that are checked, whether they are there remains. -/
def Settings.mask (s : Settings) : Settings :=
  { s with adminPassword := [], encryptionPassword := veil s.encryptionPassword, s3SecretKey := veil s.s3SecretKey, gcpKey := veil s.gcpKey }

/-- The same record, or two that can be written and look the same. -/
def Akin (Valid : R → Prop) (mask : R → R) (r r' : R) : Prop := r = r' ∨ (Valid r ∧ Valid r' ∧ mask r = mask r')

theorem Akin.refl {Valid : R → Prop} {mask : R → R} (r : R) : Akin Valid mask r r := Or.inl rfl

theorem Akin.eq {Valid : R → Prop} {mask : R → R} {r r' : R} (h : Akin Valid mask r r') : mask r = mask r' := by
  rcases h with rfl | ⟨-, -, h⟩
  · rfl
  · exact h

abbrev AkinA := Akin Account.Valid Account.mask
abbrev AkinB := Akin Backup.Valid Backup.mask
abbrev AkinS := Akin (fun _ : Settings => True) Settings.mask

/-- Two values that may stand at a key of twins. -/
inductive SameBytes : Str → Bytes → Bytes → Prop
  | same {k : Str} {v : Bytes} : SameBytes k v v
  | account (id : Nat) {a a' : Account} : AkinA a a' → SameBytes (Key.data (.top .accounts) id).render a.enc a'.enc
  | backup (id : Nat) {b b' : Backup} : AkinB b b' → SameBytes (Key.data .backups id).render b.enc b'.enc
  | settings {s s' : Settings} : AkinS s s' → SameBytes Key.config.render s.enc s'.enc

/-- Two stores that differ in secrets only. -/
inductive Twin : Kv → Kv → Prop
  | nil : Twin [] []
  | cons {k : Str} {v v' : Bytes} {kv kv' : Kv} : SameBytes k v v' → Twin kv kv' → Twin ((k, v) :: kv) ((k, v') :: kv')

theorem Twin.refl : ∀ kv, Twin kv kv
  | [] => .nil
  | (_, _) :: kv => .cons .same (Twin.refl kv)

/-! ## Access -/

inductive OptRel (T : α → β → Prop) : Option α → Option β → Prop
  | none : OptRel T none none
  | some {a : α} {b : β} : T a b → OptRel T (some a) (some b)

inductive ExRel (T : α → β → Prop) : Except Err α → Except Err β → Prop
  | error (e : Err) : ExRel T (.error e) (.error e)
  | ok {a : α} {b : β} : T a b → ExRel T (.ok a) (.ok b)

theorem OptRel.refl (x : Option α) : OptRel Eq x x := by cases x <;> constructor; rfl

theorem ExRel.refl (x : Except Err α) : ExRel Eq x x := by cases x <;> constructor; rfl

theorem OptRel.eq {x y : Option α} (h : OptRel Eq x y) : x = y := by cases h with | none => rfl | some h => rw [h]

theorem ExRel.eq {x y : Except Err α} (h : ExRel Eq x y) : x = y := by cases h with | error => rfl | ok h => rw [h]

theorem Twin.get {kv kv' : Kv} (h : Twin kv kv') (k : Str) : OptRel (SameBytes k) (kv.get k) (kv'.get k) := by
  induction h with
  | nil => exact .none
  | @cons k0 v v' kv kv' hs _ ih =>
    unfold Kv.get at *
    by_cases e : k0 = k
    · subst e; simpa using OptRel.some hs
    · simpa [e] using ih

theorem Twin.filter {kv kv' : Kv} (h : Twin kv kv') (p : Str → Bool) :
    Twin (kv.filter fun e => p e.1) (kv'.filter fun e => p e.1) := by
  induction h with
  | nil => exact .nil
  | @cons k v v' kv kv' hs _ ih =>
    simp only [List.filter_cons]
    split
    · exact .cons hs ih
    · exact ih

theorem Twin.del {kv kv' : Kv} (h : Twin kv kv') (k : Str) : Twin (kv.del k) (kv'.del k) := h.filter fun x => decide (x ≠ k)

theorem Twin.put {kv kv' : Kv} (h : Twin kv kv') {k : Str} {v v' : Bytes} (hv : SameBytes k v v') : Twin (kv.put k v) (kv'.put k v') :=
  .cons hv (h.del k)

theorem Twin.getK {kv kv' : Kv} (h : Twin kv kv') (k : Key) : OptRel (SameBytes k.render) (getK kv k) (getK kv' k) := h.get _

theorem Twin.putK {kv kv' : Kv} (h : Twin kv kv') (k : Key) (v : Bytes) : Twin (putK kv k v) (putK kv' k v) := h.put .same

theorem Twin.delK {kv kv' : Kv} (h : Twin kv kv') (k : Key) : Twin (delK kv k) (delK kv' k) := h.del _

/-- A key at which nothing secret is kept. -/
def Key.Open (k : Key) : Prop := ∀ v v', SameBytes k.render v v' → v = v'

theorem Twin.getK_open {kv kv' : Kv} (h : Twin kv kv') {k : Key} (hk : k.Open) : Meta.getK kv k = Meta.getK kv' k := by
  have := h.getK k
  revert this
  generalize Meta.getK kv k = x
  generalize Meta.getK kv' k = y
  intro this
  cases this with
  | none => rfl
  | some hs => rw [hk _ _ hs]

theorem Twin.isSome {kv kv' : Kv} (h : Twin kv kv') (k : Key) : (Meta.getK kv k).isSome = (Meta.getK kv' k).isSome := by
  have := h.getK k
  cases e : Meta.getK kv k <;> cases e' : Meta.getK kv' k <;> rw [e, e'] at this <;> first | rfl | cases this

theorem open_wf {k : Key} (h : k.WF) (ha : ∀ id, k ≠ .data (.top .accounts) id) (hb : ∀ id, k ≠ .data .backups id) (hc : k ≠ .config) : k.Open := by
  intro v v' hs
  generalize e : k.render = s at hs
  cases hs with
  | same => rfl
  | account id _ => exact absurd (C28_keys_distinct h (wf_data _ _) e) (ha id)
  | backup id _ => exact absurd (C28_keys_distinct h (wf_data _ _) e) (hb id)
  | settings _ => exact absurd (C28_keys_distinct (k' := Key.config) h trivial e) hc

theorem open_seq (ns : Ns) : (Key.seq ns).Open := open_wf trivial (fun _ => by simp) (fun _ => by simp) (by simp)
theorem open_idx (ns : Ns) (ix : Ix) (s : Str) : (Key.idx ns ix s).Open := open_wf trivial (fun _ => by simp) (fun _ => by simp) (by simp)

/-- The first letter of a key with secrets. -/
theorem SameBytes.first {k : Str} {v v' : Bytes} (h : SameBytes k v v') : v = v' ∨ k.head? = some 'a' ∨ k.head? = some 's' ∨ k.head? = some 'c' := by
  cases h with
  | same => exact Or.inl rfl
  | account id _ => exact Or.inr (Or.inl (by simp [Key.render, Ns.path, GColl.name, kAccounts]))
  | backup id _ => exact Or.inr (Or.inr (Or.inl (by simp [Key.render, Ns.path, kSystem])))
  | settings _ => exact Or.inr (Or.inr (Or.inr (by simp [Key.render, kConfig])))

/-- A text with which only open keys begin. -/
def OpenPrefix (s : Str) : Prop := s.head? = some 'p' ∨ s.head? = some 'o'

theorem OpenPrefix.bytes {s k : Str} (h : OpenPrefix s) (hp : s.isPrefixOf k = true) {v v' : Bytes} (hs : SameBytes k v v') : v = v' := by
  obtain ⟨t, rfl⟩ := List.isPrefixOf_iff_prefix.mp hp
  cases s with
  | nil => rcases h with h | h <;> cases h
  | cons c s =>
    rcases hs.first with e | e | e | e
    · exact e
    · rcases h with h | h <;> simp at h e <;> rw [h] at e <;> exact absurd e (by decide)
    · rcases h with h | h <;> simp at h e <;> rw [h] at e <;> exact absurd e (by decide)
    · rcases h with h | h <;> simp at h e <;> rw [h] at e <;> exact absurd e (by decide)

theorem OpenPrefix.key {k : Key} (h : OpenPrefix k.render) : k.Open := fun _ _ hs => h.bytes (by simp) hs

theorem projPath_open (p : Nat) (r : Str) : OpenPrefix (projPath p r) := Or.inl (by simp [projPath, kProjects])
theorem orgPath_open (p : Nat) (r : Str) : OpenPrefix (orgPath p r) := Or.inr (by simp [orgPath, kOrganizations])

theorem open_recSeq (p : Nat) : (Key.recSeq p).Open := OpenPrefix.key (projPath_open _ _)
theorem open_orderSeq (p : Nat) (s : Str) : (Key.orderSeq p s).Open := OpenPrefix.key (projPath_open _ _)
theorem open_dictKey (p : Nat) (t d : Str) (n : Nat) : (Key.dictKey p t d n).Open := OpenPrefix.key (projPath_open _ _)
theorem open_dictVal (p : Nat) (t d v : Str) : (Key.dictVal p t d v).Open := OpenPrefix.key (projPath_open _ _)
theorem open_dictSeq (p : Nat) (t d : Str) : (Key.dictSeq p t d).Open := OpenPrefix.key (projPath_open _ _)
theorem open_anon (p g : Nat) (s : Str) : (Key.anon p g s).Open := OpenPrefix.key (projPath_open _ _)
theorem open_real (p g : Nat) (s : Str) : (Key.real p g s).Open := OpenPrefix.key (projPath_open _ _)
theorem open_groupSeq (p g : Nat) : (Key.groupSeq p g).Open := OpenPrefix.key (projPath_open _ _)
theorem open_groupRecSeq (p g : Nat) : (Key.groupRecSeq p g).Open := OpenPrefix.key (projPath_open _ _)
theorem open_groupName (p : Nat) (s : Str) : (Key.groupName p s).Open := OpenPrefix.key (projPath_open _ _)
theorem open_groupNamesSeq (p : Nat) : (Key.groupNamesSeq p).Open := OpenPrefix.key (projPath_open _ _)
theorem open_session (p u : Nat) : (Key.session p u).Open := OpenPrefix.key (projPath_open _ _)
theorem open_bookmark (p a : Nat) (s : Str) : (Key.bookmark p a s).Open := OpenPrefix.key (projPath_open _ _)

/-! ## Calls -/

/-- Outcomes of a call on twins. -/
inductive Alike (T : α → β → Prop) : Except Err (α × Kv) → Except Err (β × Kv) → Prop
  | error (e : Err) : Alike T (.error e) (.error e)
  | ok {a : α} {b : β} {kv kv' : Kv} : T a b → Twin kv kv' → Alike T (.ok (a, kv)) (.ok (b, kv'))

/-- A call that answers alike on twins and leaves twins. -/
def Blind (T : α → β → Prop) (f : Call α) (g : Call β) : Prop := ∀ kv kv', Twin kv kv' → Alike T (f kv) (g kv')

/-- Answer and store of calls that may have written before they failed. -/
def Both (T : α → β → Prop) (x : Except Err α × Kv) (y : Except Err β × Kv) : Prop := ExRel T x.1 y.1 ∧ Twin x.2 y.2

theorem Blind.run {T : α → β → Prop} {f : Call α} {g : Call β} (h : Blind T f g) {kv kv' : Kv} (ht : Twin kv kv') :
    Both T (runCall f kv) (runCall g kv') := by
  unfold runCall
  have := h kv kv' ht
  revert this
  generalize f kv = x
  generalize g kv' = y
  intro this
  cases this with
  | error e => exact ⟨.error e, ht⟩
  | ok hT ht' => exact ⟨.ok hT, ht'⟩

theorem Blind.ret (a : α) : Blind Eq (Call.ret a) (Call.ret a) := fun _ _ h => .ok rfl h

theorem Blind.then {γ δ : Type} {T : α → β → Prop} {S : γ → δ → Prop} {f : Call α} {g : Call β} {f' : α → Call γ} {g' : β → Call δ}
    (h : Blind T f g) (h' : ∀ a b, T a b → Blind S (f' a) (g' b)) : Blind S (f.then f') (g.then g') := by
  intro kv kv' ht
  unfold Call.then
  have := h kv kv' ht
  revert this
  generalize f kv = x
  generalize g kv' = y
  intro this
  cases this with
  | error e => exact .error e
  | ok hT ht' => exact h' _ _ hT _ _ ht'

theorem nextSeq_blind {k : Key} (hk : k.Open) : Blind Eq (nextSeq k) (nextSeq k) := by
  intro kv kv' h
  unfold nextSeq
  rw [h.getK_open hk]
  cases getK kv' k with
  | none => exact .ok rfl (h.putK _ _)
  | some v =>
    dsimp only
    cases readU64 v with
    | error e => exact .error e
    | ok n => exact .ok rfl (h.putK _ _)

theorem nextZeroSeq_blind {k : Key} (hk : k.Open) : Blind Eq (nextZeroSeq k) (nextZeroSeq k) := by
  intro kv kv' h
  unfold nextZeroSeq
  rw [h.getK_open hk]
  cases getK kv' k with
  | none => exact .ok rfl (h.putK _ _)
  | some v =>
    dsimp only
    cases readU64 v with
    | error e => exact .error e
    | ok n => exact .ok rfl (h.putK _ _)

theorem Twin.clashInsert {kv kv' : Kv} (h : Twin kv kv') (keys : List (Option Key)) : Meta.clashInsert keys kv = Meta.clashInsert keys kv' := by
  unfold Meta.clashInsert
  refine congrArg keys.any (funext fun k => ?_)
  cases k with
  | none => rfl
  | some k => exact h.isSome k

theorem Twin.clashUpdate {kv kv' : Kv} (h : Twin kv kv') (ps : List (Option Key × Option Key)) :
    Meta.clashUpdate ps kv = Meta.clashUpdate ps kv' := by
  unfold Meta.clashUpdate
  refine congrArg ps.any (funext fun p => ?_)
  obtain ⟨k, q⟩ := p
  cases k with
  | none => rfl
  | some k => dsimp only; rw [h.isSome k]

theorem Twin.updateIndex {kv kv' : Kv} (h : Twin kv kv') (ps : List (Option Key × Option Key)) (id : Nat) :
    Twin (Meta.updateIndex ps id kv) (Meta.updateIndex ps id kv') := by
  induction ps generalizing kv kv' with
  | nil => exact h
  | cons p ps ih =>
    obtain ⟨k, q⟩ := p
    unfold Meta.updateIndex
    apply ih
    have h1 : Twin (if k ≠ q then (match q with | none => kv | some p => Meta.delK kv p) else kv)
        (if k ≠ q then (match q with | none => kv' | some p => Meta.delK kv' p) else kv') := by
      split
      · cases q with
        | none => exact h
        | some p => exact h.delK p
      · exact h
    cases k with
    | none => exact h1
    | some k => exact h1.putK _ _

theorem Twin.insertIndex {kv kv' : Kv} (h : Twin kv kv') (ks : List (Option Key)) (id : Nat) :
    Twin (Meta.insertIndex ks id kv) (Meta.insertIndex ks id kv') := by
  rw [insertIndex_eq, insertIndex_eq]; exact h.updateIndex _ _

theorem Twin.deleteIndex {kv kv' : Kv} (h : Twin kv kv') (ks : List (Option Key)) :
    Twin (Meta.deleteIndex ks kv) (Meta.deleteIndex ks kv') := by
  rw [deleteIndex_eq _ 0, deleteIndex_eq _ 0]; exact h.updateIndex _ _

theorem Twin.getIndex {kv kv' : Kv} (h : Twin kv kv') {k : Key} (hk : k.Open) : Meta.getIndex k kv = Meta.getIndex k kv' := by
  unfold Meta.getIndex; rw [h.getK_open hk]

/-! ## Collections -/

/-- What twins have at the entries of a collection. -/
structure CollTwin (c : Coll R) (T : R → R → Prop) : Prop where
  refl : ∀ r, T r r
  read : ∀ {k : Str} {v v' : Bytes}, c.ns.listPrefix.isPrefixOf k = true → SameBytes k v v' → OptRel T (c.dec v) (c.dec v')
  write : ∀ {r r' : R}, T r r' → c.id r = c.id r' ∧ SameBytes (Key.data c.ns (c.id r)).render (c.enc r) (c.enc r')
  keys : ∀ {r r' : R}, T r r' → keysOf c.ns c.ixs r = keysOf c.ns c.ixs r'

theorem data_prefix (ns : Ns) (id : Nat) : ns.listPrefix.isPrefixOf (Key.data ns id).render = true := by
  rw [List.isPrefixOf_iff_prefix]
  cases ns <;> simp [Ns.listPrefix, Key.render, Ns.path, projPath, orgPath]

theorem collTwin_open {c : Coll R} (h : OpenPrefix c.ns.listPrefix) : CollTwin c Eq where
  refl _ := rfl
  read hp hs := by rw [h.bytes hp hs]; exact .refl _
  write e := by subst e; exact ⟨rfl, .same⟩
  keys e := by rw [e]

theorem teams_open (o : Nat) : OpenPrefix (Ns.teams o).listPrefix := orgPath_open _ _
theorem proj_open (p : Nat) (c : PColl) : OpenPrefix (Ns.proj p c).listPrefix := projPath_open _ _
theorem orgs_open : OpenPrefix (Ns.top .organizations).listPrefix := Or.inr (by simp [Ns.listPrefix, Ns.path, GColl.name, kOrganizations])
theorem projects_open : OpenPrefix (Ns.top .projects).listPrefix := Or.inl (by simp [Ns.listPrefix, Ns.path, GColl.name, kProjects])

theorem accounts_twin : CollTwin accountsC AkinA where
  refl := Akin.refl
  read := by
    intro k v v' hp hs
    cases hs with
    | same => cases accountsC.dec v with
      | none => exact .none
      | some r => exact .some (.refl r)
    | account id h =>
      rcases h with rfl | ⟨h1, h2, h3⟩
      · cases accountsC.dec _ with
        | none => exact .none
        | some r => exact .some (.refl r)
      · show OptRel AkinA (Account.dec _) (Account.dec _)
        rw [Account.dec_enc _ h1, Account.dec_enc _ h2]
        refine .some (Or.inr ⟨accounts_ok.valid_norm _ h1, accounts_ok.valid_norm _ h2, ?_⟩)
        exact congrArg Account.norm h3
    | backup id _ => exact absurd hp (by simp [accountsC, Ns.listPrefix, Key.render, Ns.path, GColl.name, kAccounts, kSystem, List.isPrefixOf])
    | settings _ => exact absurd hp (by simp [accountsC, Ns.listPrefix, Key.render, Ns.path, GColl.name, kAccounts, kConfig])
  write := by
    intro r r' h
    exact ⟨(congrArg Account.id h.eq :), .account _ h⟩
  keys := by
    intro r r' h
    have : r.email = r'.email := (congrArg Account.email h.eq :)
    simp [keysOf, accountsC, this]

theorem backups_twin : CollTwin backupsC AkinB where
  refl := Akin.refl
  read := by
    intro k v v' hp hs
    cases hs with
    | same => cases backupsC.dec v with
      | none => exact .none
      | some r => exact .some (.refl r)
    | backup id h =>
      rcases h with rfl | ⟨h1, h2, h3⟩
      · cases backupsC.dec _ with
        | none => exact .none
        | some r => exact .some (.refl r)
      · show OptRel AkinB (Backup.dec _) (Backup.dec _)
        rw [Backup.dec_enc _ h1, Backup.dec_enc _ h2]
        exact .some (Or.inr ⟨backups_ok.valid_norm _ h1, backups_ok.valid_norm _ h2, congrArg Backup.norm h3⟩)
    | account id _ => exact absurd hp (by simp [backupsC, Ns.listPrefix, Key.render, Ns.path, GColl.name, kAccounts, kSystem, List.isPrefixOf])
    | settings _ => exact absurd hp (by simp [backupsC, Ns.listPrefix, Key.render, Ns.path, kBackups, kConfig, kSystem, List.isPrefixOf])
  write := by
    intro r r' h
    exact ⟨(congrArg Backup.id h.eq :), .backup _ h⟩
  keys := by intro r r' h; rfl

theorem CollTwin.getById {c : Coll R} {T : R → R → Prop} (C : CollTwin c T) {kv kv' : Kv} (h : Twin kv kv') (id : Nat) :
    ExRel T (c.getById id kv) (c.getById id kv') := by
  unfold Coll.getById
  have := h.getK (.data c.ns id)
  revert this
  generalize getK kv (.data c.ns id) = x
  generalize getK kv' (.data c.ns id) = y
  intro this
  cases this with
  | none => exact .error _
  | some hs =>
    dsimp only
    have := C.read (data_prefix _ _) hs
    revert this
    generalize c.dec _ = x
    generalize c.dec _ = y
    intro this
    cases this with
    | none => exact .error _
    | some hT => exact .ok hT

theorem CollTwin.getBy {c : Coll R} {T : R → R → Prop} (C : CollTwin c T) {kv kv' : Kv} (h : Twin kv kv') (ix : Ix) (s : Str) :
    ExRel T (c.getBy ix s kv) (c.getBy ix s kv') := by
  unfold Coll.getBy
  rw [h.getIndex (open_idx _ _ _)]
  cases Meta.getIndex (.idx c.ns ix s) kv' with
  | error e => exact .error e
  | ok id => exact C.getById h id

theorem nextSeq_small {k : Key} {kv kv' : Kv} {n : Nat} (h : nextSeq k kv = .ok (n, kv')) : n < 2 ^ 64 := by
  unfold nextSeq at h
  split at h
  · cases h; decide
  · split at h
    · cases h
    · cases h; exact Nat.mod_lt _ (by decide)

theorem CollTwin.create {c : Coll R} {T : R → R → Prop} (C : CollTwin c T) (keys : List (Option Key)) {mk mk' : Nat → R}
    (hm : ∀ id, id < 2 ^ 64 → T (mk id) (mk' id)) : Blind T (c.create keys mk) (c.create keys mk') := by
  intro kv kv' h
  unfold Coll.create
  rw [h.clashInsert]
  split
  · exact .error _
  · have := nextSeq_blind (open_seq c.ns) kv kv' h
    have hlt := fun n kv'' => nextSeq_small (k := .seq c.ns) (kv := kv) (n := n) (kv' := kv'')
    revert this hlt
    generalize nextSeq (.seq c.ns) kv = x
    generalize nextSeq (.seq c.ns) kv' = y
    intro this hlt
    cases this with
    | error e => exact .error e
    | ok e ht =>
      subst e
      have hm := hm _ (hlt _ _ rfl)
      obtain ⟨e, hs⟩ := C.write hm
      refine .ok hm ?_
      rw [← e]
      exact Twin.insertIndex (ht.put hs) _ _

theorem CollTwin.update {c : Coll R} {T : R → R → Prop} (C : CollTwin c T) (id : Nat) {pairs pairs' : R → List (Option Key × Option Key)}
    {f f' : R → Except Err R} (hp : ∀ r r', T r r' → pairs r = pairs' r') (hf : ∀ r r', T r r' → ExRel T (f r) (f' r')) :
    Blind T (c.update id pairs f) (c.update id pairs' f') := by
  intro kv kv' h
  unfold Coll.update
  have := C.getById h id
  revert this
  generalize c.getById id kv = x
  generalize c.getById id kv' = y
  intro this
  cases this with
  | error e => exact .error e
  | @ok r r' hT =>
    dsimp only
    rw [h.clashUpdate, hp r r' hT]
    split
    · exact .error _
    · have := hf r r' hT
      revert this
      generalize f r = x
      generalize f' r' = y
      intro this
      cases this with
      | error e => exact .error e
      | ok hT' =>
        obtain ⟨e, hs⟩ := C.write hT'
        refine .ok hT' ?_
        rw [← e]
        exact Twin.updateIndex (h.put hs) _ _

theorem CollTwin.delete {c : Coll R} {T : R → R → Prop} (C : CollTwin c T) (id : Nat) : Blind T (c.delete id) (c.delete id) := by
  intro kv kv' h
  unfold Coll.delete
  have := C.getById h id
  revert this
  generalize c.getById id kv = x
  generalize c.getById id kv' = y
  intro this
  cases this with
  | error e => exact .error e
  | ok hT =>
    refine .ok hT ?_
    rw [C.keys hT]
    exact Twin.deleteIndex (h.delK _) _

/-- Lists whose members are related one by one. -/
inductive Pairwise2 (T : α → β → Prop) : List α → List β → Prop
  | nil : Pairwise2 T [] []
  | cons {a : α} {b : β} {l : List α} {l' : List β} : T a b → Pairwise2 T l l' → Pairwise2 T (a :: l) (b :: l')

theorem Pairwise2.map {γ : Type} {T : α → β → Prop} {l : List α} {l' : List β} (h : Pairwise2 T l l') {f : α → γ} {g : β → γ}
    (hf : ∀ a b, T a b → f a = g b) : l.map f = l'.map g := by
  induction h with
  | nil => rfl
  | cons hT _ ih => rw [List.map_cons, List.map_cons, hf _ _ hT, ih]

theorem Pairwise2.eq {l l' : List α} (h : Pairwise2 Eq l l') : l = l' := by simpa using h.map (f := id) (g := id) fun _ _ e => e

theorem Twin.readAll {T : α → α → Prop} {dec : Bytes → Option α} {pre : Str}
    (hr : ∀ {k : Str} {v v' : Bytes}, pre.isPrefixOf k = true → SameBytes k v v' → OptRel T (dec v) (dec v')) {kv kv' : Kv} (h : Twin kv kv') :
    ExRel (Pairwise2 T) (Meta.readAll dec (entries pre kv)) (Meta.readAll dec (entries pre kv')) := by
  induction h with
  | nil => exact .ok .nil
  | @cons k v v' kv kv' hs _ ih =>
    unfold entries at ih ⊢
    simp only [List.filter_cons]
    split
    · next hp =>
      unfold Meta.readAll
      have := hr hp hs
      revert this
      generalize dec v = x
      generalize dec v' = y
      intro this
      cases this with
      | none => exact .error _
      | some hT =>
        dsimp only
        revert ih
        generalize Meta.readAll dec (List.filter _ kv) = x
        generalize Meta.readAll dec (List.filter _ kv') = y
        intro ih
        cases ih with
        | error e => exact .error e
        | ok h2 => exact .ok (.cons hT h2)
    · exact ih

theorem CollTwin.list {c : Coll R} {T : R → R → Prop} (C : CollTwin c T) {kv kv' : Kv} (h : Twin kv kv') :
    ExRel (Pairwise2 T) (c.list kv) (c.list kv') := h.readAll C.read

theorem Twin.readAll_open {dec : Bytes → Option α} {pre : Str} (hp : OpenPrefix pre) {kv kv' : Kv} (h : Twin kv kv') :
    Meta.readAll dec (entries pre kv) = Meta.readAll dec (entries pre kv') := by
  have := h.readAll (T := Eq) (dec := dec) (pre := pre) fun h1 h2 => by rw [hp.bytes h1 h2]; exact .refl _
  revert this
  generalize Meta.readAll dec (entries pre kv) = x
  generalize Meta.readAll dec (entries pre kv') = y
  intro this
  cases this with
  | error e => rfl
  | ok h => rw [h.eq]

/-! ## Settings -/

theorem Twin.loadSettings {kv kv' : Kv} (h : Twin kv kv') : ExRel AkinS (Meta.loadSettings kv) (Meta.loadSettings kv') := by
  unfold Meta.loadSettings
  have := h.getK .config
  revert this
  generalize Meta.getK kv .config = x
  generalize Meta.getK kv' .config = y
  intro this
  cases this with
  | none => exact .error _
  | @some v v' hs =>
    dsimp only
    have : OptRel AkinS (Settings.dec v) (Settings.dec v') := by
      generalize e : Key.config.render = k at hs
      cases hs with
      | same => cases Settings.dec v with
        | none => exact .none
        | some r => exact .some (.refl r)
      | account id _ => exact absurd (C28_keys_distinct (k := Key.config) trivial (wf_data _ _) e) (by simp)
      | backup id _ => exact absurd (C28_keys_distinct (k := Key.config) trivial (wf_data _ _) e) (by simp)
      | settings h =>
        rw [Settings.dec_enc, Settings.dec_enc]
        exact .some (Or.inr ⟨trivial, trivial, congrArg Settings.norm h.eq⟩)
    revert this
    generalize Settings.dec v = x
    generalize Settings.dec v' = y
    intro this
    cases this with
    | none => exact .error _
    | some h => exact .ok h

theorem veil_isEmpty (s : Str) : (veil s).isEmpty = s.isEmpty := by unfold veil; split <;> simp_all

theorem validate_mask (s : Settings) : s.mask.validate = s.validate := by
  simp only [Settings.validate, Settings.mask, veil_isEmpty]

theorem saveSettings_blind {s s' : Settings} (h : AkinS s s') : Blind Eq (saveSettings s) (saveSettings s') := by
  intro kv kv' ht
  unfold saveSettings
  rw [← validate_mask s, ← validate_mask s', h.eq]
  cases s'.mask.validate with
  | error e => exact .error e
  | ok u => exact .ok rfl (ht.put (.settings h))

end OptiPrism.Meta
