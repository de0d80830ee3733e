import Verif.Meta.Dicts

/-!
# Organization membership, read off the records of both sides
-/

namespace OptiPrism.Meta

variable {Q : Type}

theorem update_done {R : Type} {c : Coll R} {norm : R → R} {Valid : R → Prop} (ok : c.Ok norm Valid) {kv kv' : Kv}
    (h : c.Inv Valid kv) {id : Nat} {pairs : R → List (Option Key × Option Key)} {f : R → Except Err R} {t : R → R}
    (ho : (Op.update id pairs f t).Ok c Valid) {r' : R} (e : c.update id pairs f kv = .ok (r', kv')) :
    ∃ r, c.live kv id = some r ∧ f r = .ok (t r) ∧ c.Inv Valid kv' ∧
      ∀ j, c.live kv' j = if j = id then some (norm (t r)) else c.live kv j := by
  obtain ⟨ho1, ho2, ho3, sel, hs, hsn, hp, hrest⟩ := ho
  rcases update_spec ok h hs hsn ho1 hp hrest ho2 ho3 (id := id) with ⟨-, e'⟩ | ⟨r, hl, ⟨-, e'⟩ | ⟨-, ⟨x, -, e'⟩ | ⟨hf, kv1, e', h1, h2, h3⟩⟩⟩
  · rw [e'] at e; cases e
  · rw [e'] at e; cases e
  · rw [e'] at e; cases e
  · rw [e'] at e
    injection e with e
    injection e with e1 e2
    subst e2
    exact ⟨r, hl, hf, h1, h3⟩

theorem create_done {R : Type} {c : Coll R} {norm : R → R} {Valid : R → Prop} (ok : c.Ok norm Valid) {kv kv' : Kv}
    (h : c.Inv Valid kv) (hl : lastId kv c.ns + 1 < 2 ^ 64) {keys : List (Option Key)} {mk : Nat → R}
    (ho : (Op.create keys mk).Ok c Valid) {r' : R} (e : c.create keys mk kv = .ok (r', kv')) :
    r' = mk (lastId kv c.ns + 1) ∧ c.live kv (lastId kv c.ns + 1) = none ∧ c.Inv Valid kv' ∧
      ∀ j, c.live kv' j = if j = lastId kv c.ns + 1 then some (norm (mk j)) else c.live kv j := by
  obtain ⟨hk, hid, hv⟩ := ho
  rcases create_spec ok h hl hk hid hv with ⟨-, e'⟩ | ⟨-, kv1, e', h1, -, h3⟩
  · rw [e'] at e; cases e
  · rw [e'] at e
    injection e with e
    injection e with e1 e2
    subst e2
    refine ⟨e1.symm, ?_, h1, h3⟩
    cases hv : c.live kv (lastId kv c.ns + 1) with
    | none => rfl
    | some r => have := (Inv.live_id h hv).2.2.1; omega

/-- The members the organization's record lists. -/
def memList (kv : Kv) (o : Nat) : List (Nat × OrgRole) :=
  match orgsC.live kv o with
  | none => []
  | some org => org.members

/-- The organizations the account's record lists. -/
def orgList (kv : Kv) (a : Nat) : List (Nat × OrgRole) :=
  match accountsC.live kv a with
  | none => []
  | some acc => acc.organizations.getD []

/-- `l'` is `l` with the entry of `m` set to `ρ`. -/
def Edit (m : Nat) (ρ : Option OrgRole) (l l' : List (Nat × OrgRole)) : Prop :=
  (∀ x r, (x, r) ∈ l' ↔ (x ≠ m ∧ (x, r) ∈ l) ∨ (x = m ∧ ρ = some r)) ∧ (l'.map (·.1)).Nodup

theorem inOrg_iff {o : Nat} {l : List (Nat × OrgRole)} : inOrg o l = true ↔ o ∈ l.map (·.1) := by
  simp [inOrg]

theorem edit_add {m : Nat} {role : OrgRole} {l : List (Nat × OrgRole)} (hn : (l.map (·.1)).Nodup) (hm : inOrg m l = false) :
    Edit m (some role) l (l ++ [(m, role)]) := by
  have hm' : m ∉ l.map (·.1) := fun h => by rw [inOrg_iff.mpr h] at hm; cases hm
  refine ⟨fun x r => ?_, ?_⟩
  · rw [List.mem_append, List.mem_singleton]
    constructor
    · rintro (h | h)
      · exact .inl ⟨fun e => hm' (List.mem_map.mpr ⟨(x, r), h, e⟩), h⟩
      · cases h; exact .inr ⟨rfl, rfl⟩
    · rintro (⟨-, h⟩ | ⟨rfl, h⟩)
      · exact .inl h
      · injection h with h; subst h; exact .inr rfl
  · rw [List.map_append, List.nodup_append]
    refine ⟨hn, by simp, ?_⟩
    intro a ha b hb
    simp at hb
    subst hb
    exact fun e => hm' (e ▸ ha)

theorem edit_remove {m : Nat} {l : List (Nat × OrgRole)} (hn : (l.map (·.1)).Nodup) :
    Edit m none l (l.filter fun x => x.1 ≠ m) := by
  refine ⟨fun x r => ?_, ?_⟩
  · simp [List.mem_filter, and_comm]
  · exact List.Nodup.sublist (List.Sublist.map _ List.filter_sublist) hn

theorem setRole_ids {m : Nat} {role : OrgRole} (l : List (Nat × OrgRole)) : (setRole m role l).map (·.1) = l.map (·.1) := by
  induction l with
  | nil => rfl
  | cons x l ih =>
    unfold setRole
    split
    · rfl
    · simp [ih]

theorem edit_set {m : Nat} {role : OrgRole} {l : List (Nat × OrgRole)} (hn : (l.map (·.1)).Nodup) (hm : inOrg m l = true) :
    Edit m (some role) l (setRole m role l) := by
  refine ⟨?_, by rw [setRole_ids]; exact hn⟩
  have hm := inOrg_iff.mp hm
  induction l with
  | nil => cases hm
  | cons y l ih =>
    rw [List.map_cons, List.nodup_cons] at hn
    intro x r
    unfold setRole
    split
    · rename_i e
      rw [List.mem_cons]
      constructor
      · rintro (h | h)
        · cases h; exact .inr ⟨e, rfl⟩
        · exact .inl ⟨fun e' => hn.1 (by rw [e, ← e']; exact List.mem_map.mpr ⟨(x, r), h, rfl⟩), List.mem_cons_of_mem _ h⟩
      · rintro (⟨h1, h2⟩ | ⟨rfl, h⟩)
        · rcases List.mem_cons.mp h2 with h | h
          · exact absurd (by rw [← h] at e; exact e) h1
          · exact .inr h
        · injection h with h; subst h; exact .inl (by rw [e])
    · rename_i e
      have hm' : m ∈ l.map (·.1) := by
        rcases List.mem_cons.mp hm with h | h
        · exact absurd h.symm e
        · exact h
      rw [List.mem_cons, ih hn.2 (inOrg_iff.mpr hm') hm' x r]
      constructor
      · rintro (h | ⟨h1, h2⟩ | h)
        · refine .inl ⟨?_, by rw [h]; exact List.mem_cons_self ..⟩
          intro e'; apply e; rw [← h]; exact e'
        · exact .inl ⟨h1, List.mem_cons_of_mem _ h2⟩
        · exact .inr h
      · rintro (⟨h1, h2⟩ | h)
        · rcases List.mem_cons.mp h2 with h | h
          · exact .inl h
          · exact .inr (.inl ⟨h1, h⟩)
        · exact .inr (.inr h)

/-- What one request does to the two sides. -/
inductive MStep (kv kv' : Kv) : Prop
  | same : (∀ o, memList kv' o = memList kv o) → (∀ a, orgList kv' a = orgList kv a) → MStep kv kv'
  | pair (o m : Nat) (ρ : Option OrgRole) :
      Edit m ρ (memList kv o) (memList kv' o) → (∀ x, x ≠ o → memList kv' x = memList kv x) →
      Edit o ρ (orgList kv m) (orgList kv' m) → (∀ x, x ≠ m → orgList kv' x = orgList kv x) → MStep kv kv'

theorem MStep.of_eq {kv kv' kv2 : Kv} (e : kv' = kv2) (h : MStep kv kv2) : MStep kv kv' := by rw [e]; exact h

/-- Both sides agree, and neither lists anything twice. -/
structure MInv (kv : Kv) : Prop where
  sym : ∀ o a r, (a, r) ∈ memList kv o ↔ (o, r) ∈ orgList kv a
  mem_nodup : ∀ o, ((memList kv o).map (·.1)).Nodup
  org_nodup : ∀ a, ((orgList kv a).map (·.1)).Nodup

theorem MInv.step {kv kv' : Kv} (h : MInv kv) (hs : MStep kv kv') : MInv kv' := by
  cases hs with
  | same h1 h2 => exact ⟨by intro o a r; rw [h1, h2]; exact h.sym o a r, by intro o; rw [h1]; exact h.mem_nodup o, by intro a; rw [h2]; exact h.org_nodup a⟩
  | pair o m ρ h1 h2 h3 h4 =>
    refine ⟨?_, ?_, ?_⟩
    · intro o' a r
      by_cases ho : o' = o
      · subst ho
        rw [h1.1]
        by_cases ha : a = m
        · subst ha
          rw [h3.1]
          simp
        · rw [h4 a ha, ← h.sym]
          simp [ha]
      · rw [h2 o' ho]
        by_cases ha : a = m
        · subst ha
          rw [h3.1, ← h.sym]
          simp [ho]
        · rw [h4 a ha]; exact h.sym o' a r
    · intro x
      by_cases hx : x = o
      · subst hx; exact h1.2
      · rw [h2 x hx]; exact h.mem_nodup x
    · intro x
      by_cases hx : x = m
      · subst hx; exact h3.2
      · rw [h4 x hx]; exact h.org_nodup x

/-- What the requests must not do for the two sides to stay in step: set an account's list directly, or
delete a record that still has entries. -/
def Req.KeepsMembers (kv : Kv) : Req Q → Prop
  | .accountCreate _ r => r.organizations.getD [] = []
  | .accountUpdate _ _ q => q.organizations = none
  | .accountDelete id => orgList kv id = []
  | .orgDelete id => memList kv id = []
  | _ => True

theorem memList_agree {kv kv' : Kv} (h : AgreeOn (.top .organizations) kv kv') (o : Nat) : memList kv' o = memList kv o := by
  unfold memList; rw [AgreeOn.live (c := orgsC) h]

theorem orgList_agree {kv kv' : Kv} (h : AgreeOn (.top .accounts) kv kv') (a : Nat) : orgList kv' a = orgList kv a := by
  unfold orgList; rw [AgreeOn.live (c := accountsC) h]

/-- The account side of a change of one membership. -/
theorem orgList_set {kv kv' : Kv} (hi : accountsC.Inv Account.Valid kv) {m : Nat} {f : Account → Except Err Account}
    {g : List (Nat × OrgRole) → List (Nat × OrgRole)}
    (ho : (Op.update m (fun _ => []) f fun a => { a with organizations := some (g (a.organizations.getD [])) }).Ok accountsC Account.Valid)
    {x : Account} (e : accountsC.update m (fun _ => []) f kv = .ok (x, kv')) :
    (∃ a, f a = .ok { a with organizations := some (g (a.organizations.getD [])) } ∧ a.organizations.getD [] = orgList kv m) ∧
    orgList kv' m = g (orgList kv m) ∧ ∀ x, x ≠ m → orgList kv' x = orgList kv x := by
  obtain ⟨a, h1, h2, -, h4⟩ := update_done accounts_ok hi ho e
  have hm : a.organizations.getD [] = orgList kv m := by unfold orgList; rw [h1]
  refine ⟨⟨a, h2, hm⟩, ?_, ?_⟩
  · conv => lhs; unfold orgList
    rw [h4 m, if_pos rfl]
    show (normList (some (g (a.organizations.getD [])))).getD [] = _
    rw [normList_getD, hm]
    rfl
  · intro x hx
    unfold orgList
    rw [h4 x, if_neg hx]

theorem memList_set {kv kv' : Kv} (hi : orgsC.Inv Org.Valid kv) {o : Nat} {f : Org → Except Err Org}
    {g : List (Nat × OrgRole) → List (Nat × OrgRole)}
    (ho : (Op.update o (fun _ => []) f fun a => { a with members := g a.members }).Ok orgsC Org.Valid)
    {x : Org} (e : orgsC.update o (fun _ => []) f kv = .ok (x, kv')) :
    (∃ a, f a = .ok { a with members := g a.members } ∧ a.members = memList kv o) ∧
    memList kv' o = g (memList kv o) ∧ ∀ x, x ≠ o → memList kv' x = memList kv x := by
  obtain ⟨a, h1, h2, -, h4⟩ := update_done orgs_ok hi ho e
  have hm : a.members = memList kv o := by unfold memList; rw [h1]
  refine ⟨⟨a, h2, hm⟩, ?_, ?_⟩
  · conv => lhs; unfold memList
    rw [h4 o, if_pos rfl]
    show g a.members = _
    rw [hm]
  · intro x hx
    unfold memList
    rw [h4 x, if_neg hx]

theorem addM_ok {o m : Nat} {role : OrgRole} (hm : m < 2 ^ 64) :
    (Op.update o (fun _ => []) (fun r : Org => if inOrg m r.members then Except.error Err.alreadyExists else .ok { r with members := r.members ++ [(m, role)] })
      fun a => { a with members := a.members ++ [(m, role)] }).Ok orgsC Org.Valid := by
  refine membersSet_ok (g := fun l => l ++ [(m, role)]) ?_ ?_
  · intro a a' e
    try dsimp only at e
    split at e
    · cases e
    · injection e with e; exact e.symm
  · intro l hl x hx
    rcases List.mem_append.mp hx with h | h
    · exact hl x h
    · simp at h; subst h; exact hm

theorem removeM_ok {o m : Nat} :
    (Op.update o (fun _ => []) (fun r : Org => if inOrg m r.members then .ok { r with members := r.members.filter fun x => x.1 ≠ m } else Except.error Err.notFound)
      fun a => { a with members := a.members.filter fun x => x.1 ≠ m }).Ok orgsC Org.Valid := by
  refine membersSet_ok (g := fun l => l.filter fun x => x.1 ≠ m) ?_ ?_
  · intro a a' e
    try dsimp only at e
    split at e
    · injection e with e; exact e.symm
    · cases e
  · exact fun l hl x hx => hl x (List.mem_filter.mp hx).1

theorem changeM_ok {o m : Nat} {role : OrgRole} :
    (Op.update o (fun _ => []) (fun r : Org => if inOrg m r.members then .ok { r with members := setRole m role r.members } else Except.error Err.notFound)
      fun a => { a with members := setRole m role a.members }).Ok orgsC Org.Valid := by
  refine membersSet_ok (g := setRole m role) ?_ ?_
  · intro a a' e
    try dsimp only at e
    split at e
    · injection e with e; exact e.symm
    · cases e
  · intro l hl x hx
    obtain ⟨r, hr⟩ := setRole_mem hx
    exact hl (x.1, r) hr

theorem exec_mstep (E : Env Q) {r : Req Q} (hr : r.Ok) {kv : Kv} (ha : accountsC.Inv Account.Valid kv) (ho : orgsC.Inv Org.Valid kv)
    (hla : lastId kv (.top .accounts) + 1 < 2 ^ 64) (hlo : lastId kv (.top .organizations) + 1 < 2 ^ 64)
    (hi : MInv kv) (hk : r.KeepsMembers kv) : MStep kv (r.exec E kv) := by
  have orgs : Mod.coll (.top .organizations) ∉ r.mods → ∀ o, memList (r.exec E kv) o = memList kv o :=
    fun hm => memList_agree (exec_agree E hr hm kv)
  have accs : Mod.coll (.top .accounts) ∉ r.mods → ∀ o, orgList (r.exec E kv) o = orgList kv o :=
    fun hm => orgList_agree (exec_agree E hr hm kv)
  have same : ∀ kv', kv' = kv → MStep kv kv' := fun kv' e => by subst e; exact .same (fun _ => rfl) fun _ => rfl
  by_cases hm : Mod.coll (.top .accounts) ∈ r.mods ∨ Mod.coll (.top .organizations) ∈ r.mods
  case neg => exact .same (orgs fun h => hm (.inr h)) (accs fun h => hm (.inl h))
  case pos =>
    cases r <;> simp only [Req.mods, List.mem_cons, List.not_mem_nil, or_false, Mod.coll.injEq, reduceCtorEq, Ns.top.injEq, or_self, and_true, and_false] at hm
    case accountCreate now r =>
      refine .same (orgs (by simp [Req.mods])) ?_
      show ∀ a, orgList (runCall (Meta.accountCreate now r) kv).2 a = orgList kv a
      unfold runCall
      split
      · rename_i x kv' e
        obtain ⟨-, h2, -, h4⟩ := create_done accounts_ok ha hla (accountCreate_ok hr) e
        intro a
        unfold orgList
        rw [h4 a]
        by_cases hn : a = lastId kv accountsC.ns + 1
        · rw [if_pos hn, hn, h2]
          show (normList r.organizations).getD [] = []
          rw [normList_getD]; exact hk
        · rw [if_neg hn]
      · exact fun _ => rfl
    case accountUpdate id now q =>
      refine .same (orgs (by simp [Req.mods])) ?_
      show ∀ a, orgList (runCall (Meta.accountUpdate id now q) kv).2 a = orgList kv a
      unfold runCall
      split
      · rename_i x kv' e
        obtain ⟨a0, h1, -, -, h4⟩ := update_done accounts_ok ha (accountUpdate_ok hr) e
        intro a
        unfold orgList
        rw [h4 a]
        by_cases hn : a = id
        · rw [if_pos hn, hn, h1]
          show (normList (q.organizations.getD a0.organizations)).getD [] = _
          rw [normList_getD, hk]; rfl
        · rw [if_neg hn]
      · exact fun _ => rfl
    case accountDelete id =>
      refine .same (orgs (by simp [Req.mods])) ?_
      show ∀ a, orgList (runCall (accountsC.delete id) kv).2 a = orgList kv a
      unfold runCall
      rcases delete_spec accounts_ok ha id with ⟨-, e⟩ | ⟨r, kv', hl, e, -, -, h4⟩
      · rw [e]; exact fun _ => rfl
      · rw [e]
        intro a
        by_cases hn : a = id
        · subst hn
          rw [show orgList kv a = [] from hk]
          unfold orgList
          rw [h4 a, if_pos rfl]
        · unfold orgList; rw [h4 a, if_neg hn]
    case orgUpdate id now b name =>
      refine .same ?_ (accs (by simp [Req.mods]))
      show ∀ a, memList (runCall (Meta.orgUpdate id now b name) kv).2 a = memList kv a
      unfold runCall
      split
      · rename_i x kv' e
        obtain ⟨a0, h1, -, -, h4⟩ := update_done orgs_ok ho (orgUpdate_ok hr) e
        intro a
        unfold memList
        rw [h4 a]
        by_cases hn : a = id
        · rw [if_pos hn, hn, h1]; rfl
        · rw [if_neg hn]
      · exact fun _ => rfl
    case orgDelete id =>
      refine .same ?_ (accs (by simp [Req.mods]))
      show ∀ a, memList (runCall (orgsC.delete id) kv).2 a = memList kv a
      unfold runCall
      rcases delete_spec orgs_ok ho id with ⟨-, e⟩ | ⟨r, kv', hl, e, -, -, h4⟩
      · rw [e]; exact fun _ => rfl
      · rw [e]
        intro a
        by_cases hn : a = id
        · subst hn
          rw [show memList kv a = [] from hk]
          unfold memList
          rw [h4 a, if_pos rfl]
        · unfold memList; rw [h4 a, if_neg hn]
    case orgCreate now b name =>
      rcases then_run (orgsC.create [some (.idx (.top .organizations) .name name)] fun id =>
        ({ id := id, createdAt := now, createdBy := b, updatedAt := none, updatedBy := none, name := name,
           members := [(b, .owner)] } : Org)) (fun org => addOrganization b org.id .owner) kv with e | ⟨x, kv1, y, kv2, h1, h2, e⟩
      · exact same _ e
      · have hco : (Op.create [some (.idx (.top .organizations) .name name)] (fun id =>
          ({ id := id, createdAt := now, createdBy := b, updatedAt := none, updatedBy := none, name := name,
             members := [(b, .owner)] } : Org))).Ok orgsC Org.Valid :=
          ⟨fun _ => rfl, fun _ => rfl, fun id hid => ⟨⟨hid, hr, optOk_none⟩, by intro m hm; rw [List.mem_singleton.mp hm]; exact hr⟩⟩
        obtain ⟨hx, hnone, -, hlive⟩ := create_done orgs_ok ho hlo hco h1
        have hag := orgs_only (create_touches (c := orgsC) fun k hk => keys_one hk) h1
        have hag2 := accounts_only (accountSet_touches _ _) h2
        have hid := create_id_lt (fun _ => rfl) h1
        obtain ⟨⟨a, hf, hfa⟩, h3, h4⟩ := orgList_set (g := fun l => l ++ [(orgsC.id x, .owner)]) (AgreeOn.inv (c := accountsC) hag ha) (addOrg_ok (m := b) (o := orgsC.id x) (role := .owner) hid) h2
        have hxid : orgsC.id x = lastId kv (.top .organizations) + 1 := by rw [hx]; rfl
        refine MStep.of_eq e ?_
        have hz : memList kv (orgsC.id x) = [] := by unfold memList; rw [hxid]; rw [show orgsC.live kv (lastId kv (.top .organizations) + 1) = none from hnone]
        refine .pair (orgsC.id x) b (some .owner) ?_ ?_ ?_ ?_
        · rw [memList_agree hag2]
          have : memList kv1 (orgsC.id x) = [] ++ [(b, .owner)] := by
            unfold memList
            rw [hlive, if_pos (show orgsC.id x = lastId kv orgsC.ns + 1 from hxid)]
            rfl
          rw [this, hz]
          exact edit_add (by simp) rfl
        · intro j hj
          rw [memList_agree hag2]
          unfold memList
          rw [hlive j, if_neg (show ¬ j = lastId kv orgsC.ns + 1 by rw [hxid] at hj; exact hj)]
        · rw [h3, orgList_agree hag]
          refine edit_add (hi.org_nodup b) ?_
          try dsimp only at hf
          split at hf
          · cases hf
          · rename_i hno
            rw [hfa, orgList_agree hag] at hno
            exact Bool.eq_false_iff.mpr hno
        · intro j hj
          rw [h4 j hj, orgList_agree hag]
    case addMember o m role =>
      rcases then_run (orgsC.update o (fun _ => []) fun r =>
        if inOrg m r.members then .error .alreadyExists else .ok { r with members := r.members ++ [(m, role)] })
        (fun _ => addOrganization m o role) kv with e | ⟨x, kv1, y, kv2, h1, h2, e⟩
      · exact same _ e
      · have hag := orgs_only (update_touches (c := orgsC) fun _ => pairs_nil _) h1
        have hag2 := accounts_only (accountSet_touches _ _) h2
        obtain ⟨⟨a, hf, hfa⟩, h3, h4⟩ := orgList_set (g := fun l => l ++ [(o, role)]) (AgreeOn.inv (c := accountsC) hag ha) (addOrg_ok (m := m) (o := o) (role := role) hr.1) h2
        obtain ⟨⟨a', hf', hfa'⟩, h5, h6⟩ := memList_set (g := fun l => l ++ [(m, role)]) ho (addM_ok hr.2) h1
        refine MStep.of_eq e ?_
        refine .pair o m (some role) ?_ (fun j hj => by rw [memList_agree hag2, h6 j hj]) ?_ (fun j hj => by rw [h4 j hj, orgList_agree hag])
        · rw [memList_agree hag2, h5]
          refine edit_add (hi.mem_nodup o) ?_
          try dsimp only at hf'
          split at hf'
          · cases hf'
          · rename_i hno
            rw [hfa'] at hno
            exact Bool.eq_false_iff.mpr hno
        · rw [h3, orgList_agree hag]
          refine edit_add (hi.org_nodup m) ?_
          try dsimp only at hf
          split at hf
          · cases hf
          · rename_i hno
            rw [hfa, orgList_agree hag] at hno
            exact Bool.eq_false_iff.mpr hno
    case removeMember o m =>
      rcases then_run (orgsC.update o (fun _ => []) fun r =>
        if inOrg m r.members then .ok { r with members := r.members.filter fun x => x.1 ≠ m } else .error .notFound)
        (fun _ => removeOrganization m o) kv with e | ⟨x, kv1, y, kv2, h1, h2, e⟩
      · exact same _ e
      · have hag := orgs_only (update_touches (c := orgsC) fun _ => pairs_nil _) h1
        have hag2 := accounts_only (accountSet_touches _ _) h2
        obtain ⟨-, h3, h4⟩ := orgList_set (g := fun l => l.filter fun m => m.1 ≠ o) (AgreeOn.inv (c := accountsC) hag ha) (removeOrg_ok (m := m) (o := o)) h2
        obtain ⟨-, h5, h6⟩ := memList_set (g := fun l => l.filter fun x => x.1 ≠ m) ho (removeM_ok (o := o) (m := m)) h1
        refine MStep.of_eq e ?_
        refine .pair o m none ?_ (fun j hj => by rw [memList_agree hag2, h6 j hj]) ?_ (fun j hj => by rw [h4 j hj, orgList_agree hag])
        · rw [memList_agree hag2, h5]; exact edit_remove (hi.mem_nodup o)
        · rw [h3, orgList_agree hag]; exact edit_remove (hi.org_nodup m)
    case changeMemberRole o m role =>
      rcases then_run (orgsC.update o (fun _ => []) fun r =>
        if inOrg m r.members then .ok { r with members := setRole m role r.members } else .error .notFound)
        (fun _ => changeOrganizationRole m o role) kv with e | ⟨x, kv1, y, kv2, h1, h2, e⟩
      · exact same _ e
      · have hag := orgs_only (update_touches (c := orgsC) fun _ => pairs_nil _) h1
        have hag2 := accounts_only (accountSet_touches _ _) h2
        obtain ⟨⟨a, hf, hfa⟩, h3, h4⟩ := orgList_set (g := setRole o role) (AgreeOn.inv (c := accountsC) hag ha) (changeOrg_ok (m := m) (o := o) (role := role)) h2
        obtain ⟨⟨a', hf', hfa'⟩, h5, h6⟩ := memList_set (g := setRole m role) ho (changeM_ok (o := o) (m := m) (role := role)) h1
        refine MStep.of_eq e ?_
        refine .pair o m (some role) ?_ (fun j hj => by rw [memList_agree hag2, h6 j hj]) ?_ (fun j hj => by rw [h4 j hj, orgList_agree hag])
        · rw [memList_agree hag2, h5]
          refine edit_set (hi.mem_nodup o) ?_
          try dsimp only at hf'
          split at hf'
          · rename_i hno
            rw [hfa'] at hno
            exact hno
          · cases hf'
        · rw [h3, orgList_agree hag]
          refine edit_set (hi.org_nodup m) ?_
          try dsimp only at hf
          split at hf
          · rename_i hno
            rw [hfa, orgList_agree hag] at hno
            exact hno
          · cases hf

end OptiPrism.Meta
