import Verif.Meta.Keys

/-!
# C28: keys of different projects, collections and entities are different
-/

namespace OptiPrism.Meta

/-- C28, first half: a key text determines the project, the collection, the kind and the entity it
was made for. For all names without slashes in table, dictionary and type names (other strings are
arbitrary). -/
theorem C28_keys_distinct {k k' : Key} (h : k.WF) (h' : k'.WF) (e : k.render = k'.render) : k = k' := by
  have h1 := parse_render k h
  rw [e, parse_render k' h'] at h1
  injection h1 with h1
  exact h1.symm

/-- The project a key belongs to. -/
def Key.project : Key → Option Nat
  | .data (.proj p _) _ => some p
  | .idx (.proj p _) _ _ => some p
  | .seq (.proj p _) => some p
  | .recSeq p => some p
  | .orderSeq p _ => some p
  | .dictKey p _ _ _ => some p
  | .dictVal p _ _ _ => some p
  | .dictSeq p _ _ => some p
  | .anon p _ _ => some p
  | .real p _ _ => some p
  | .groupSeq p _ => some p
  | .groupRecSeq p _ => some p
  | .groupName p _ => some p
  | .groupNamesSeq p => some p
  | .session p _ => some p
  | .bookmark p _ _ => some p
  | _ => none

/-- Keys of different projects are different texts. -/
theorem C28_projects_isolated {k k' : Key} (h : k.WF) (h' : k'.WF) (hp : k.project ≠ k'.project) : k.render ≠ k'.render :=
  fun e => hp (by rw [C28_keys_distinct h h' e])

theorem parseEntry_list {ns : Ns} {x : Str} {k : Key} (h : parseEntry ns (kData ++ x) = some k) : ∃ id, k = .data ns id := by
  simp only [parseEntry, split_append (a := kData) (by decide +kernel)] at h
  cases hx : (splitFirst x).2 with
  | none => rw [hx] at h; simp at h
  | some y =>
    rw [hx] at h
    dsimp only at h
    split at h
    · obtain ⟨id, -, rfl⟩ := Option.map_eq_some_iff.mp h
      exact ⟨id, rfl⟩
    · split at h
      · rename_i h2
        have := congrArg (List.take 1) h2
        rw [List.take_append_of_le_length (by decide +kernel)] at this
        exact absurd this (by decide +kernel)
      · simp at h

theorem num_none_of {c : Char} (h : digitVal? c = none) (x : Str) : num (c :: x) = none := by
  simp [num, digitsVal?, h]

theorem ns_eq_top {c : GColl} {x : Str} {k : Key} (h : parseKey (c.name ++ '/' :: (kData ++ x)) = some k) :
    ∃ id, k = .data (.top c) id := by
  simp only [parseKey, split_tok (gcoll_no_slash c)] at h
  rw [if_neg (by cases c <;> decide +kernel)] at h
  have hn : num (splitFirst (kData ++ x)).1 = none := by
    rw [split_append (a := kData) (by decide +kernel)]
    rw [show kData = 'd' :: "ata".toList by decide +kernel]
    simp only [List.cons_append]
    exact num_none_of (by decide +kernel) _
  rw [hn] at h
  simp only [parseGColl_name, Option.bind_some] at h
  exact parseEntry_list h

/-- C28, second half: listing a collection by its prefix meets only entries of that collection. -/
theorem C28_listing_isolated {ns : Ns} {k : Key} (hk : k.WF) (h : ns.listPrefix <+: k.render) : ∃ id, k = .data ns id := by
  obtain ⟨r, hr⟩ := h
  have hp := parse_render k hk
  rw [← hr] at hp
  clear hr
  unfold Ns.listPrefix at hp
  cases ns with
  | top c =>
    have e : Ns.path (.top c) ('/' :: kData) ++ r = c.name ++ '/' :: (kData ++ r) := by simp [Ns.path]
    rw [e] at hp
    exact ns_eq_top hp
  | backups =>
    have e : Ns.path .backups ('/' :: kData) ++ r = kSystem ++ '/' :: (kBackups ++ '/' :: (kData ++ r)) := by
      simp [Ns.path]
    rw [e] at hp
    simp only [parseKey, split_tok (a := kSystem) (by decide +kernel)] at hp
    rw [if_pos trivial] at hp
    simp only [split_tok (a := kBackups) (by decide +kernel)] at hp
    exact parseEntry_list hp
  | teams o =>
    have e : Ns.path (.teams o) ('/' :: kData) ++ r = orgPath o (kTeams ++ '/' :: (kData ++ r)) := by
      simp [Ns.path, orgPath]
    rw [e, parseKey_org] at hp
    simp only [split_tok (a := kTeams) (by decide +kernel)] at hp
    exact parseEntry_list hp
  | proj p c =>
    have e : Ns.path (.proj p c) ('/' :: kData) ++ r = projPath p (c.name ++ '/' :: (kData ++ r)) := by
      simp [Ns.path, projPath]
    rw [e, parseKey_proj, parseProj_coll] at hp
    · exact parseEntry_list hp
    · intro h
      have := congrArg (List.take 1) h
      rw [List.take_append_of_le_length (by decide +kernel)] at this
      exact absurd this (by decide +kernel)

/-- The converse: every entry of the collection is met. -/
theorem C28_listing_complete (ns : Ns) (id : Nat) : ns.listPrefix <+: (Key.data ns id).render := by
  refine ⟨'/' :: decimal id, ?_⟩
  cases ns <;> simp [Ns.listPrefix, Ns.path, Key.render, projPath, orgPath]

/-- The prefix of sessions.rs 51, 111. -/
def sessionPrefix (p : Nat) : Str := projPath p (kSessions ++ '/' :: kData)

/-- Listing the sessions of a project meets exactly its sessions. -/
theorem C28_sessions_isolated {p : Nat} {k : Key} (hk : k.WF) (h : sessionPrefix p <+: k.render) : ∃ u, k = .session p u := by
  obtain ⟨r, hr⟩ := h
  have hp := parse_render k hk
  have e : sessionPrefix p ++ r = projPath p (kSessions ++ '/' :: (kData ++ r)) := by simp [sessionPrefix, projPath]
  rw [← hr, e, parseKey_proj] at hp
  simp only [parseProj, split_tok (a := kSessions) (by decide +kernel)] at hp
  rw [if_pos trivial, List.take_left' (by decide +kernel), if_pos rfl] at hp
  obtain ⟨u, -, rfl⟩ := Option.map_eq_some_iff.mp hp
  exact ⟨u, rfl⟩

/-- The prefix of groups.rs 193. -/
def groupNamesPrefix (p : Nat) : Str := projPath p (kGroups ++ '/' :: kNames)

/-- Listing the group types of a project meets only group names. -/
theorem C28_group_names_isolated {p : Nat} {k : Key} (hk : k.WF) (h : groupNamesPrefix p <+: k.render) :
    ∃ s, k = .groupName p s := by
  obtain ⟨r, hr⟩ := h
  have hp := parse_render k hk
  have e : groupNamesPrefix p ++ r = projPath p (kGroups ++ '/' :: (kNames ++ r)) := by simp [groupNamesPrefix, projPath]
  rw [← hr, e, parseKey_proj] at hp
  simp only [parseProj, split_tok (a := kGroups) (by decide +kernel)] at hp
  rw [if_neg (by decide +kernel), if_neg (by decide +kernel), if_pos trivial] at hp
  simp only [parseGroup, split_append (a := kNames) (by decide +kernel)] at hp
  have hc : ∀ y : Str, num (kNames ++ y) = none := by
    intro y
    rw [show kNames = 'n' :: "ames".toList by decide +kernel]
    exact num_none_of (by decide +kernel) _
  cases hx : (splitFirst r).2 with
  | none =>
    rw [hx] at hp
    dsimp only at hp
    obtain ⟨g, hg, rfl⟩ := Option.map_eq_some_iff.mp hp
    obtain ⟨w, hw, hn⟩ := Option.bind_eq_some_iff.mp hg
    -- the text before `id_seq` starts with 'n' or is too short
    exfalso
    unfold stripSeq at hw
    split at hw
    · rename_i hd
      injection hw with hw
      by_cases hl : 6 < (kNames ++ (splitFirst r).1).length
      · rw [show kNames = 'n' :: "ames".toList by decide +kernel] at hw hl
        have : ∃ z, w = 'n' :: z := by
          obtain ⟨m, hm⟩ : ∃ m, (('n' :: "ames".toList) ++ (splitFirst r).1).length - 6 = m + 1 :=
            ⟨_, (Nat.sub_one_add_one (by omega)).symm⟩
          rw [hm] at hw
          exact ⟨_, hw.symm⟩
        obtain ⟨z, rfl⟩ := this
        rw [num_none_of (by decide +kernel)] at hn
        simp at hn
      · have : (kNames ++ (splitFirst r).1).length - 6 = 0 := by omega
        rw [this] at hw
        subst hw
        simp [num] at hn
    · simp at hw
  | some y =>
    rw [hx] at hp
    dsimp only at hp
    rw [hc] at hp
    split at hp
    · injection hp with hp
      exact ⟨y, hp.symm⟩
    · simp at hp

/-- The hypothesis on slashes is needed: two different dictionaries whose names contain slashes share
keys. -/
theorem C28_slashes_collide : ∃ t d t' d' : Str, (t, d) ≠ (t', d') ∧
    (Key.dictSeq 1 t d).render = (Key.dictSeq 1 t' d').render :=
  ⟨['a', '/', 'b'], ['c'], ['a'], ['b', '/', 'c'], by decide, by decide +kernel⟩

example : (Key.data (.proj 1 .events) 11).render ≠ (Key.data (.proj 11 .events) 1).render :=
  C28_projects_isolated trivial trivial (by decide)

example : (Key.idx (.proj 1 (.groupProps 2)) .name "a/data/b".toList).render ≠ (Key.data (.proj 1 (.groupProps 2)) 7).render :=
  fun h => nomatch C28_keys_distinct (k := .idx _ _ _) (k' := .data _ _) trivial trivial h

end OptiPrism.Meta
