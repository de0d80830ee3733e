import Verif.Meta.Members
import Verif.Meta.SystemProps

/-!
# C34: organization membership is symmetric

The statement is about the live records of both collections only.
-/

namespace OptiPrism.Meta

variable {Q : Type}

/-- An account is listed by an organization with role `r` iff it lists the organization with role `r`. -/
def Symmetric (kv : Kv) : Prop :=
  ∀ o a r, (∃ org, orgsC.live kv o = some org ∧ (a, r) ∈ org.members) ↔
    ∃ acc, accountsC.live kv a = some acc ∧ (o, r) ∈ acc.organizations.getD []

/-- A history of requests that never set an account's list of organizations directly and never delete an
account that is a member or an organization that has members. -/
inductive MHist (E : Env Q) : Nat → Kv → Prop
  | start : MHist E 0 []
  | step {n : Nat} {kv : Kv} (r : Req Q) : MHist E n kv → r.Ok → r.KeepsMembers kv → MHist E (n + 1) (r.exec E kv)

theorem MHist.hist {E : Env Q} {n : Nat} {kv : Kv} (h : MHist E n kv) : Hist E n kv := by
  induction h with
  | start => exact .start
  | step r _ hr _ ih => exact ih.step r hr

theorem mem_memList {kv : Kv} {o a : Nat} {r : OrgRole} :
    (a, r) ∈ memList kv o ↔ ∃ org, orgsC.live kv o = some org ∧ (a, r) ∈ org.members := by
  unfold memList
  cases orgsC.live kv o <;> simp

theorem mem_orgList {kv : Kv} {o a : Nat} {r : OrgRole} :
    (o, r) ∈ orgList kv a ↔ ∃ acc, accountsC.live kv a = some acc ∧ (o, r) ∈ acc.organizations.getD [] := by
  unfold orgList
  cases accountsC.live kv a <;> simp

theorem MHist.inv {E : Env Q} {n : Nat} {kv : Kv} (h : MHist E n kv) (hn : n < 2 ^ 62) : MInv kv := by
  induction h with
  | start =>
    have h1 : ∀ o, memList [] o = [] := fun o => by simp [memList, Coll.live, getK, Kv.get]
    have h2 : ∀ o, orgList [] o = [] := fun o => by simp [orgList, Coll.live, getK, Kv.get]
    exact ⟨by simp [h1, h2], by simp [h1], by simp [h2]⟩
  | @step n kv r h hr hk ih =>
    have ha := hist_accounts h.hist (by omega)
    have ho := hist_orgs h.hist (by omega)
    have hi := ih (by omega)
    exact hi.step (exec_mstep E hr (ha.inv accounts_ok) (ho.inv orgs_ok) (ha.room accounts_ok) (ho.room orgs_ok) hi hk)

/-- C34, for histories in which membership is changed through the organization (`create`, `add_member`,
`remove_member`, `change_member_role`; all other requests are free, see `MHist`). Missing: the direct changes,
which break it (`C34_create_violated`, `C34_delete_account_violated`, `C34_delete_org_violated`). -/
theorem C34_partial {E : Env Q} {n : Nat} {kv : Kv} (h : MHist E n kv) (hn : n < 2 ^ 62) : Symmetric kv := by
  intro o a r
  rw [← mem_memList, ← mem_orgList]
  exact (h.inv hn).sym o a r

/-- C34: in those histories an account has at most one role in an organization, on either side. -/
theorem C34_one_role_partial {E : Env Q} {n : Nat} {kv : Kv} (h : MHist E n kv) (hn : n < 2 ^ 62) {o a : Nat} {r r' : OrgRole}
    {org : Org} (ho : orgsC.live kv o = some org) (h1 : (a, r) ∈ org.members) (h2 : (a, r') ∈ org.members) : r = r' := by
  have := (h.inv hn).mem_nodup o
  unfold memList at this
  rw [ho] at this
  dsimp only at this
  generalize org.members = l at h1 h2 this
  induction l with
  | nil => cases h1
  | cons x l ih =>
    rw [List.map_cons, List.nodup_cons] at this
    rcases List.mem_cons.mp h1 with e1 | e1 <;> rcases List.mem_cons.mp h2 with e2 | e2
    · rw [← e1] at e2; injection e2 with _ e; exact e.symm
    · exact absurd (List.mem_map.mpr ⟨_, e2, by rw [← e1]⟩) this.1
    · exact absurd (List.mem_map.mpr ⟨_, e1, by rw [← e2]⟩) this.1
    · exact ih e1 e2 this.2

/-! ## Concrete histories -/

def exAcc (email : Str) (orgs : Option (List (Nat × OrgRole))) : Account :=
  ⟨0, ⟨0, 0⟩, 1, none, none, [], email, none, none, false, false, orgs, none, none⟩

/-- Two accounts; account 1 creates organization 1 and account 2 joins it. -/
def exOrg : List (Req Unit) :=
  [.accountCreate ⟨0, 0⟩ (exAcc "a".toList none), .accountCreate ⟨0, 0⟩ (exAcc "b".toList none),
   .orgCreate ⟨0, 0⟩ 1 "org".toList, .addMember 1 2 .member]

theorem exOrg_ok : ∀ r ∈ exOrg, r.Ok := by
  intro r hr
  simp only [exOrg, List.mem_cons, List.not_mem_nil, or_false] at hr
  have hA : ∀ s, (Req.accountCreate (Q := Unit) ⟨0, 0⟩ (exAcc s none)).Ok := fun s =>
    ⟨by show (1 : Nat) < 2 ^ 64; decide, by simp [exAcc], by simp [exAcc], by simp [exAcc]⟩
  rcases hr with rfl | rfl | rfl | rfl
  · exact hA _
  · exact hA _
  · show (1 : Nat) < 2 ^ 64; decide
  · exact ⟨by decide, by decide⟩

theorem exOrg_hist : MHist exEnv 4 (runReqs exEnv exOrg []) :=
  .step (.addMember 1 2 .member)
    (.step (.orgCreate ⟨0, 0⟩ 1 "org".toList)
      (.step (.accountCreate ⟨0, 0⟩ (exAcc "b".toList none))
        (.step (.accountCreate ⟨0, 0⟩ (exAcc "a".toList none)) .start (exOrg_ok _ (by simp [exOrg])) rfl)
        (exOrg_ok _ (by simp [exOrg])) rfl)
      (exOrg_ok _ (by simp [exOrg])) trivial)
    (exOrg_ok _ (by simp [exOrg])) trivial

example : MHist exEnv 4 (runReqs exEnv exOrg []) ∧
    memList (runReqs exEnv exOrg []) 1 = [(1, .owner), (2, .member)] ∧ orgList (runReqs exEnv exOrg []) 2 = [(1, .member)] :=
  ⟨exOrg_hist, by decide +kernel, by decide +kernel⟩

def exGhost : Req Unit := .accountCreate ⟨0, 0⟩ (exAcc "c".toList (some [(1, .member)]))
def exDelAcc : Req Unit := .accountDelete 2
def exDelOrg : Req Unit := .orgDelete 1

theorem not_symmetric {kv : Kv} {o a : Nat} {r : OrgRole} (h : ¬ ((a, r) ∈ memList kv o ↔ (o, r) ∈ orgList kv a)) : ¬ Symmetric kv := by
  intro hs
  have := hs o a r
  rw [← mem_memList, ← mem_orgList] at this
  exact h this

/-- C34 does not hold as stated: an account can be created with organizations that do not list it (as the
platform's accounts endpoint and the bootstrap code, cmd/src/lib.rs 521-533, do). -/
theorem C34_create_violated : ∃ kv, Hist exEnv 5 kv ∧ ¬ Symmetric kv := by
  refine ⟨runReqs exEnv (exOrg ++ [exGhost]) [], Hist.of_run exEnv (exOrg ++ [exGhost]) ?_,
    not_symmetric (o := 1) (a := 3) (r := .member) (by decide +kernel)⟩
  intro r hr
  rcases List.mem_append.mp hr with h | h
  · exact exOrg_ok r h
  · rw [List.mem_singleton.mp h]
    exact ⟨by decide, by simp [exAcc], by simp [exAcc], by simp [exAcc]⟩

/-- ... deleting an account leaves it in its organizations ... -/
theorem C34_delete_account_violated : ∃ kv, Hist exEnv 5 kv ∧ ¬ Symmetric kv ∧ memList kv 1 = [(1, .owner), (2, .member)] ∧
    accountsC.live kv 2 = none := by
  refine ⟨runReqs exEnv (exOrg ++ [exDelAcc]) [], Hist.of_run exEnv (exOrg ++ [exDelAcc]) ?_,
    not_symmetric (o := 1) (a := 2) (r := .member) (by decide +kernel), by decide +kernel, by decide +kernel⟩
  intro r hr
  rcases List.mem_append.mp hr with h | h
  · exact exOrg_ok r h
  · rw [List.mem_singleton.mp h]; trivial

/-- ... and deleting an organization leaves it in its members' accounts. -/
theorem C34_delete_org_violated : ∃ kv, Hist exEnv 5 kv ∧ ¬ Symmetric kv ∧ orgList kv 2 = [(1, .member)] ∧ orgsC.live kv 1 = none := by
  refine ⟨runReqs exEnv (exOrg ++ [exDelOrg]) [], Hist.of_run exEnv (exOrg ++ [exDelOrg]) ?_,
    not_symmetric (o := 1) (a := 2) (r := .member) (by decide +kernel), by decide +kernel, by decide +kernel⟩
  intro r hr
  rcases List.mem_append.mp hr with h | h
  · exact exOrg_ok r h
  · rw [List.mem_singleton.mp h]; trivial

end OptiPrism.Meta
