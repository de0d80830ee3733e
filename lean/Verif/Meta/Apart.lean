import Verif.Meta.TwinCalls

/-!
# Everything but one project

`hide p` is the store without the keys of the project `p`, `only p` has just these. This file shows that the calls of the metadata for other
projects, and those for no project, neither read nor write the keys of `p`: run on two stores that are the same outside `p`, they give the same
answer, leave stores that are the same outside `p`, and leave what is in `p` as it was.
-/

namespace OptiPrism.Meta

open OptiPrism.Storage (Bytes)

variable {R α β Q : Type}

/-- The keys of a project: `project_ns`, metadata/src/lib.rs 94-96, and all of projects/<id>/. -/
def inProject (p : Nat) (k : Str) : Bool := (projPath p []).isPrefixOf k

/-- The store without the project. -/
def hide (p : Nat) (kv : Kv) : Kv := kv.filter fun e => !inProject p e.1

/-- The project alone. -/
def only (p : Nat) (kv : Kv) : Kv := kv.filter fun e => inProject p e.1

/-! ## Which keys these are -/

theorem inProject_iff {p : Nat} {s : Str} : inProject p s = true ↔ ∃ t, s = projPath p t := by
  unfold inProject
  rw [List.isPrefixOf_iff_prefix]
  constructor
  · rintro ⟨t, rfl⟩
    exact ⟨t, by simp [projPath]⟩
  · rintro ⟨t, rfl⟩
    exact ⟨t, by simp [projPath]⟩

theorem projPath_split (p : Nat) (t : Str) : splitFirst (projPath p t) = (kProjects, some (decimal p ++ '/' :: t)) :=
  split_tok (a := kProjects) (by decide +kernel) _

/-- A text with another first word. -/
theorem word_off {p : Nat} {a x : Str} (ha : '/' ∉ a) (hne : a ≠ kProjects) : inProject p (a ++ '/' :: x) = false := by
  rw [Bool.eq_false_iff]
  intro h
  obtain ⟨t, e⟩ := inProject_iff.1 h
  have := congrArg splitFirst e
  rw [split_tok ha, projPath_split] at this
  exact hne (Prod.mk.inj this).1

/-- A text without a slash. -/
theorem noSlash_off {p : Nat} {a : Str} (ha : '/' ∉ a) : inProject p a = false := by
  rw [Bool.eq_false_iff]
  intro h
  obtain ⟨t, e⟩ := inProject_iff.1 h
  have := congrArg splitFirst e
  rw [split_last ha, projPath_split] at this
  cases (Prod.mk.inj this).2

theorem projPath_other {p q : Nat} (h : q ≠ p) (t : Str) : inProject p (projPath q t) = false := by
  rw [Bool.eq_false_iff]
  intro hp
  obtain ⟨t', e⟩ := inProject_iff.1 hp
  have := congrArg splitFirst e
  rw [projPath_split, projPath_split] at this
  have := Option.some.inj (Prod.mk.inj this).2
  have := congrArg splitFirst this
  rw [split_tok (decimal_no_slash q), split_tok (decimal_no_slash p)] at this
  have := congrArg num (Prod.mk.inj this).1
  rw [num_decimal, num_decimal] at this
  exact h (Option.some.inj this)

theorem projPath_own (p : Nat) (t : Str) : inProject p (projPath p t) = true := inProject_iff.2 ⟨t, rfl⟩

theorem projPath_inProject (p q : Nat) (t : Str) : inProject p (projPath q t) = decide (q = p) := by
  by_cases h : q = p
  · subst h; simp [projPath_own]
  · simp [projPath_other h, h]

theorem isDigit_val {c : Char} (h : IsDigit c) (hc : digitVal? c = none) : False := by
  unfold IsDigit at h
  unfold digitVal? at hc
  simp_all

/-- Where a project begins, a digit follows. -/
theorem letter_off {p : Nat} {c : Char} {x : Str} (hc : digitVal? c = none) : inProject p (kProjects ++ '/' :: c :: x) = false := by
  rw [Bool.eq_false_iff]
  intro h
  obtain ⟨t, e⟩ := inProject_iff.1 h
  have := congrArg splitFirst e
  rw [split_tok (by decide +kernel), projPath_split] at this
  have := Option.some.inj (Prod.mk.inj this).2
  cases hd : decimal p with
  | nil => exact decimal_ne_nil p hd
  | cons d ds =>
    rw [hd] at this
    have hc' := (List.cons.inj this).1
    have : d ∈ decimal p := by rw [hd]; simp
    have := decimal_digits p d this
    rw [← hc'] at this
    exact isDigit_val this hc

/-- The project of a namespace. -/
def Ns.proj? : Ns → Option Nat
  | .proj p _ => some p
  | _ => none

/-- The project of a key. -/
def Key.proj? : Key → Option Nat
  | .data ns _ | .idx ns _ _ | .seq ns => ns.proj?
  | .recSeq p | .orderSeq p _ | .dictKey p _ _ _ | .dictVal p _ _ _ | .dictSeq p _ _ | .anon p _ _ | .real p _ _ | .groupSeq p _
  | .groupRecSeq p _ | .groupName p _ | .groupNamesSeq p | .session p _ | .bookmark p _ _ => some p
  | .config => none

theorem path_off {p : Nat} {ns : Ns} (h : ns.proj? ≠ some p) {c : Char} (hc : digitVal? c = none) (x : Str) : inProject p (ns.path ('/' :: c :: x)) = false := by
  cases ns with
  | top g =>
    cases g with
    | accounts => exact word_off (by decide +kernel) (by decide +kernel)
    | organizations => exact word_off (by decide +kernel) (by decide +kernel)
    | projects => exact letter_off hc
  | backups => exact word_off (a := kSystem) (by decide +kernel) (by decide +kernel)
  | teams o => exact word_off (a := kOrganizations) (by decide +kernel) (by decide +kernel)
  | proj q g => exact projPath_other (fun e => h (by rw [e]; rfl)) _

theorem kData_cons : ∃ c x, kData = c :: x ∧ digitVal? c = none := ⟨'d', "ata".toList, by decide +kernel, by decide +kernel⟩
theorem kIdx_cons : ∃ c x, kIdx = c :: x ∧ digitVal? c = none := ⟨'i', "dx".toList, by decide +kernel, by decide +kernel⟩

/-- The keys under which the store keeps a project are those with its number. -/
theorem inProject_render (p : Nat) (k : Key) : inProject p k.render = decide (k.proj? = some p) := by
  have own : ∀ q t, inProject p (projPath q t) = decide (some q = some p) := fun q t => by rw [projPath_inProject]; simp
  have coll : ∀ (ns : Ns) c x, digitVal? c = none → inProject p (ns.path ('/' :: c :: x)) = decide (ns.proj? = some p) := by
    intro ns c x hc
    by_cases h : ns.proj? = some p
    · cases ns with
      | proj q g => exact own _ _
      | _ => cases h
    · rw [path_off h hc]; simp [h]
  cases k with
  | data ns id => obtain ⟨c, x, e, hc⟩ := kData_cons; simp only [Key.render, Key.proj?, e]; exact coll ns c _ hc
  | idx ns ix s => obtain ⟨c, x, e, hc⟩ := kIdx_cons; simp only [Key.render, Key.proj?, e]; exact coll ns c _ hc
  | seq ns =>
    simp only [Key.render, Key.proj?]
    cases ns with
    | top g => cases g <;> exact noSlash_off (by decide +kernel)
    | backups => exact word_off (a := kSystem) (by decide +kernel) (by decide +kernel)
    | teams o => exact word_off (a := kOrganizations) (by decide +kernel) (by decide +kernel)
    | proj q g => exact own _ _
  | config => exact noSlash_off (by decide +kernel)
  | _ => exact own _ _

theorem key_off {p : Nat} {k : Key} (h : k.proj? ≠ some p) : inProject p k.render = false := by rw [inProject_render]; simp [h]

/-! ## Reading and writing beside the project -/

theorem get_hide {p : Nat} {k : Str} (h : inProject p k = false) (kv : Kv) : Kv.get (hide p kv) k = kv.get k := by
  unfold hide Kv.get
  rw [List.find?_filter]
  congr 1
  congr 1
  funext e
  by_cases he : e.1 = k
  · simp [he, h]
  · simp [he]

/-- Two stores that are the same outside the project; what they have in it. -/
structure Sides (p : Nat) (o o' : Kv) (kv kv' : Kv) : Prop where
  same : hide p kv = hide p kv'
  left : only p kv = o
  right : only p kv' = o'

section
variable {p : Nat} {o o' kv kv' : Kv}

theorem Sides.get (h : Sides p o o' kv kv') {k : Str} (hk : inProject p k = false) : kv.get k = kv'.get k := by
  rw [← get_hide hk kv, h.same, get_hide hk]

theorem Sides.getK (h : Sides p o o' kv kv') {k : Key} (hk : k.proj? ≠ some p) : Meta.getK kv k = Meta.getK kv' k := h.get (key_off hk)

theorem only_del {k : Str} (hk : inProject p k = false) (kv : Kv) : only p (kv.del k) = only p kv := by
  unfold only Kv.del
  rw [List.filter_filter]
  refine List.filter_congr fun e _ => ?_
  by_cases he : e.1 = k
  · simp [he, hk]
  · simp [he]

theorem hide_del (k : Str) (kv : Kv) : hide p (kv.del k) = Kv.del (hide p kv) k := by
  unfold hide Kv.del
  rw [List.filter_filter, List.filter_filter]
  exact List.filter_congr fun e _ => Bool.and_comm _ _

theorem Sides.del (h : Sides p o o' kv kv') {k : Str} (hk : inProject p k = false) : Sides p o o' (kv.del k) (kv'.del k) :=
  ⟨by rw [hide_del, hide_del, h.same], by rw [only_del hk, h.left], by rw [only_del hk, h.right]⟩

theorem Sides.put (h : Sides p o o' kv kv') {k : Str} (hk : inProject p k = false) (v : Bytes) : Sides p o o' (kv.put k v) (kv'.put k v) := by
  have hd := h.del hk
  refine ⟨?_, ?_, ?_⟩
  · show ((k, v) :: kv.del k).filter _ = ((k, v) :: kv'.del k).filter _
    rw [List.filter_cons, List.filter_cons]
    simp only [hk]
    exact congrArg (List.cons (k, v)) hd.same
  · show ((k, v) :: kv.del k).filter _ = _
    rw [List.filter_cons]
    simp only [hk]
    exact hd.left
  · show ((k, v) :: kv'.del k).filter _ = _
    rw [List.filter_cons]
    simp only [hk]
    exact hd.right

theorem Sides.putK (h : Sides p o o' kv kv') {k : Key} (hk : k.proj? ≠ some p) (v : Bytes) : Sides p o o' (Meta.putK kv k v) (Meta.putK kv' k v) :=
  h.put (key_off hk) v

theorem Sides.delK (h : Sides p o o' kv kv') {k : Key} (hk : k.proj? ≠ some p) : Sides p o o' (Meta.delK kv k) (Meta.delK kv' k) := h.del (key_off hk)

/-- A prefix under which the project has nothing. -/
def PrefixOff (p : Nat) (pre : Str) : Prop := ∀ t, inProject p (pre ++ t) = false

theorem entries_hide {pre : Str} (hp : PrefixOff p pre) (kv : Kv) : entries pre (hide p kv) = entries pre kv := by
  unfold entries hide
  rw [List.filter_filter]
  refine List.filter_congr fun e _ => ?_
  cases h : pre.isPrefixOf e.1 with
  | false => rfl
  | true =>
    obtain ⟨t, ht⟩ := List.isPrefixOf_iff_prefix.mp h
    rw [← ht, hp t]
    rfl

theorem Sides.entries (h : Sides p o o' kv kv') {pre : Str} (hp : PrefixOff p pre) : Meta.entries pre kv = Meta.entries pre kv' := by
  rw [← entries_hide hp kv, h.same, entries_hide hp]

theorem projPath_prefix {q : Nat} (h : q ≠ p) (x : Str) : PrefixOff p (projPath q x) := fun t => by
  rw [show projPath q x ++ t = projPath q (x ++ t) by simp [projPath]]
  exact projPath_other h _

theorem list_prefix {ns : Ns} (h : ns.proj? ≠ some p) : PrefixOff p ns.listPrefix := fun t => by
  obtain ⟨c, x, e, hc⟩ := kData_cons
  have : ns.listPrefix ++ t = ns.path ('/' :: c :: (x ++ t)) := by
    unfold Ns.listPrefix
    rw [e]
    cases ns <;> simp [Ns.path, projPath, orgPath]
  rw [this]
  exact path_off h hc _

end

/-! ## Calls -/

/-- Outcomes on both sides. -/
inductive Beside (p : Nat) (o o' : Kv) : Except Err (α × Kv) → Except Err (α × Kv) → Prop
  | error (e : Err) : Beside p o o' (.error e) (.error e)
  | ok {a : α} {kv kv' : Kv} : Sides p o o' kv kv' → Beside p o o' (.ok (a, kv)) (.ok (a, kv'))

/-- A call that neither reads nor writes the project. -/
def Aloof (p : Nat) (f : Call α) : Prop := ∀ o o' kv kv', Sides p o o' kv kv' → Beside p o o' (f kv) (f kv')

/-- Answer and store. -/
def Level (p : Nat) (o o' : Kv) (x y : α × Kv) : Prop := x.1 = y.1 ∧ Sides p o o' x.2 y.2

section
variable {p : Nat} {o o' kv kv' : Kv}

theorem Aloof.run {f : Call α} (hf : Aloof p f) (h : Sides p o o' kv kv') : Level p o o' (runCall f kv) (runCall f kv') := by
  unfold runCall
  have := hf o o' kv kv' h
  revert this
  generalize f kv = x
  generalize f kv' = y
  intro this
  cases this with
  | error e => exact ⟨rfl, h⟩
  | ok hs => exact ⟨rfl, hs⟩

theorem Aloof.ret (a : α) : Aloof p (Call.ret a) := fun _ _ _ _ h => .ok h

theorem Aloof.then {f : Call α} {g : α → Call β} (hf : Aloof p f) (hg : ∀ a, Aloof p (g a)) : Aloof p (f.then g) := by
  intro o o' kv kv' h
  unfold Call.then
  have := hf o o' kv kv' h
  revert this
  generalize f kv = x
  generalize f kv' = y
  intro this
  cases this with
  | error e => exact .error e
  | ok hs => exact hg _ _ _ _ _ hs

theorem nextSeq_aloof {k : Key} (hk : k.proj? ≠ some p) : Aloof p (nextSeq k) := by
  intro o o' kv kv' h
  unfold nextSeq
  rw [h.getK hk]
  split
  · exact .ok (h.putK hk _)
  · split
    · exact .error _
    · exact .ok (h.putK hk _)

theorem nextZeroSeq_aloof {k : Key} (hk : k.proj? ≠ some p) : Aloof p (nextZeroSeq k) := by
  intro o o' kv kv' h
  unfold nextZeroSeq
  rw [h.getK hk]
  split
  · exact .ok (h.putK hk _)
  · split
    · exact .error _
    · exact .ok (h.putK hk _)

theorem Sides.clashInsert (h : Sides p o o' kv kv') {keys : List (Option Key)} (hk : ∀ k, some k ∈ keys → k.proj? ≠ some p) :
    Meta.clashInsert keys kv = Meta.clashInsert keys kv' := by
  unfold Meta.clashInsert
  induction keys with
  | nil => rfl
  | cons k ks ih =>
    simp only [List.any_cons]
    rw [ih fun k hk' => hk k (by simp [hk'])]
    cases k with
    | none => rfl
    | some k => dsimp only; rw [h.getK (hk k (by simp))]

/-- Pairs of keys outside the project. -/
def PairsOff (p : Nat) (l : List (Option Key × Option Key)) : Prop := ∀ x ∈ l, (∀ k, x.1 = some k → k.proj? ≠ some p) ∧ ∀ k, x.2 = some k → k.proj? ≠ some p

theorem Sides.clashUpdate (h : Sides p o o' kv kv') {ps : List (Option Key × Option Key)} (hk : PairsOff p ps) :
    Meta.clashUpdate ps kv = Meta.clashUpdate ps kv' := by
  unfold Meta.clashUpdate
  induction ps with
  | nil => rfl
  | cons x ps ih =>
    obtain ⟨k, q⟩ := x
    simp only [List.any_cons]
    rw [ih fun x hx => hk x (by simp [hx])]
    cases k with
    | none => rfl
    | some k => dsimp only; rw [h.getK ((hk (some k, q) (by simp)).1 k rfl)]

theorem Sides.updateIndex (h : Sides p o o' kv kv') {ps : List (Option Key × Option Key)} (hk : PairsOff p ps) (id : Nat) :
    Sides p o o' (Meta.updateIndex ps id kv) (Meta.updateIndex ps id kv') := by
  induction ps generalizing kv kv' with
  | nil => exact h
  | cons x ps ih =>
    obtain ⟨k, q⟩ := x
    unfold Meta.updateIndex
    refine ih ?_ fun x hx => hk x (by simp [hx])
    cases k with
    | none =>
      cases q with
      | none => exact h
      | some q => exact h.delK ((hk (none, some q) (by simp)).2 q rfl)
    | some k =>
      refine Sides.putK ?_ ((hk (some k, q) (by simp)).1 k rfl) _
      cases q with
      | none => exact h
      | some q =>
        show Sides p o o' (if _ then _ else _) (if _ then _ else _)
        split
        · exact h.delK ((hk (some k, some q) (by simp)).2 q rfl)
        · exact h

theorem Sides.insertIndex (h : Sides p o o' kv kv') {ks : List (Option Key)} (hk : ∀ k, some k ∈ ks → k.proj? ≠ some p) (id : Nat) :
    Sides p o o' (Meta.insertIndex ks id kv) (Meta.insertIndex ks id kv') := by
  rw [insertIndex_eq, insertIndex_eq]
  refine h.updateIndex (fun x hx => ?_) _
  obtain ⟨k, hm, rfl⟩ := List.mem_map.mp hx
  exact ⟨fun k' e => hk k' (by rw [← show k = some k' from e]; exact hm), fun _ e => by cases e⟩

theorem Sides.deleteIndex (h : Sides p o o' kv kv') {ks : List (Option Key)} (hk : ∀ k, some k ∈ ks → k.proj? ≠ some p) :
    Sides p o o' (Meta.deleteIndex ks kv) (Meta.deleteIndex ks kv') := by
  rw [deleteIndex_eq _ 0, deleteIndex_eq _ 0]
  refine h.updateIndex (fun x hx => ?_) _
  obtain ⟨k, hm, rfl⟩ := List.mem_map.mp hx
  exact ⟨fun _ e => (by cases e), fun k' e => hk k' (by rw [← show k = some k' from e]; exact hm)⟩

/-! ## Collections -/

variable {c : Coll R}

theorem Sides.getById (h : Sides p o o' kv kv') (hc : c.ns.proj? ≠ some p) (id : Nat) : c.getById id kv = c.getById id kv' := by
  unfold Coll.getById
  rw [h.getK (k := .data c.ns id) hc]

theorem Sides.getBy (h : Sides p o o' kv kv') (hc : c.ns.proj? ≠ some p) (ix : Ix) (s : Str) : c.getBy ix s kv = c.getBy ix s kv' := by
  unfold Coll.getBy getIndex
  rw [h.getK (k := .idx c.ns ix s) hc]
  simp only [h.getById hc]

theorem Sides.list (h : Sides p o o' kv kv') (hc : c.ns.proj? ≠ some p) : c.list kv = c.list kv' := by
  unfold Coll.list
  rw [h.entries (list_prefix hc)]

theorem create_aloof (hc : c.ns.proj? ≠ some p) {keys : List (Option Key)} (hk : ∀ k, some k ∈ keys → k.proj? ≠ some p) (mk : Nat → R) :
    Aloof p (c.create keys mk) := by
  intro o o' kv kv' h
  unfold Coll.create
  rw [h.clashInsert hk]
  split
  · exact .error _
  · have := nextSeq_aloof (k := .seq c.ns) hc o o' kv kv' h
    revert this
    generalize nextSeq _ kv = x
    generalize nextSeq _ kv' = y
    intro this
    cases this with
    | error e => exact .error e
    | ok hs => exact .ok (Sides.insertIndex (hs.putK (k := .data c.ns _) hc _) hk _)

theorem update_aloof (hc : c.ns.proj? ≠ some p) {id : Nat} {ps : R → List (Option Key × Option Key)} (hk : ∀ r, PairsOff p (ps r)) (f : R → Except Err R) :
    Aloof p (c.update id ps f) := by
  intro o o' kv kv' h
  unfold Coll.update
  rw [h.getById hc]
  split
  · exact .error _
  · rw [h.clashUpdate (hk _)]
    split
    · exact .error _
    · split
      · exact .error _
      · exact .ok (Sides.updateIndex (h.putK (k := .data c.ns _) hc _) (hk _) _)

theorem keysOf_off (hc : c.ns.proj? ≠ some p) (r : R) : ∀ k, some k ∈ keysOf c.ns c.ixs r → k.proj? ≠ some p := by
  intro k hk
  obtain ⟨ix, s, rfl⟩ := keysOf_idx hk
  exact hc

theorem delete_aloof (hc : c.ns.proj? ≠ some p) (id : Nat) : Aloof p (c.delete id) := by
  intro o o' kv kv' h
  unfold Coll.delete
  rw [h.getById hc]
  split
  · exact .error _
  · exact .ok (Sides.deleteIndex (h.delK (k := .data c.ns _) hc) (keysOf_off hc _))

/-! ## Accounts, organizations, projects, backups, settings -/

theorem noPairs : PairsOff p [] := fun _ h => by cases h

theorem update_plain (hc : c.ns.proj? ≠ some p) {id : Nat} (f : R → Except Err R) : Aloof p (c.update id (fun _ => []) f) :=
  update_aloof hc (fun _ => noPairs) f

theorem offPair {a b : Option Key} (ha : ∀ k, a = some k → k.proj? ≠ some p) (hb : ∀ k, b = some k → k.proj? ≠ some p) : PairsOff p [(a, b)] := by
  intro x hx
  rw [List.mem_singleton] at hx
  subst hx
  exact ⟨ha, hb⟩

theorem pairs_append {a b : List (Option Key × Option Key)} (ha : PairsOff p a) (hb : PairsOff p b) : PairsOff p (a ++ b) := by
  intro x hx
  rcases List.mem_append.mp hx with hx | hx
  · exact ha x hx
  · exact hb x hx

theorem some_off {k : Key} (h : k.proj? ≠ some p) : ∀ k', some k = some k' → k'.proj? ≠ some p := fun _ e => by cases e; exact h

theorem map_off {f : Str → Key} (h : ∀ s, (f s).proj? ≠ some p) (a : Option Str) : ∀ k, a.map f = some k → k.proj? ≠ some p := by
  intro k e
  obtain ⟨s, -, rfl⟩ := Option.map_eq_some_iff.mp e
  exact h s

theorem offKey {k : Key} (h : k.proj? ≠ some p) : ∀ k', some k' ∈ [some k] → k'.proj? ≠ some p := by
  intro k' hk
  rw [List.mem_singleton] at hk
  cases hk
  exact h

theorem accountCreate_aloof {now : Time} {r : Account} : Aloof p (accountCreate now r) := create_aloof (by nofun) (offKey (by nofun)) _

theorem accountUpdate_aloof {id : Nat} {now : Time} {q : AccountUpd} : Aloof p (accountUpdate id now q) := by
  refine update_aloof (by nofun) (fun r => ?_) _
  split
  · exact noPairs
  · exact offPair (some_off (by nofun)) (some_off (by nofun))

theorem orgCreate_aloof {now : Time} {b : Nat} {name : Str} : Aloof p (orgCreate now b name) :=
  Aloof.then (create_aloof (by nofun) (offKey (by nofun)) _) fun _ => Aloof.then (update_plain (by nofun) _) fun _ => .ret _

theorem orgUpdate_aloof {id b : Nat} {now : Time} {name : Option Str} : Aloof p (orgUpdate id now b name) := by
  refine update_aloof (by nofun) (fun r => ?_) _
  split
  · exact noPairs
  · exact offPair (some_off (by nofun)) (some_off (by nofun))

theorem projectUpdate_aloof {id : Nat} {now : Time} {q : ProjectUpd} : Aloof p (projectUpdate id now q) := by
  refine update_aloof (by nofun) (fun r => ?_) _
  unfold ProjectUpd.pairs
  refine pairs_append ?_ ?_
  · split
    · exact noPairs
    · exact offPair (some_off (by nofun)) (some_off (by nofun))
  · split
    · exact noPairs
    · exact offPair (some_off (by nofun)) (some_off (by nofun))

theorem backupCreate_aloof {now : Time} {r : Backup} : Aloof p (backupCreate now r) := by
  intro o o' kv kv' h
  unfold backupCreate
  dsimp only
  have hc : Aloof p (backupsC.create [] fun id => { r with id := id, createdAt := now, updatedAt := none }) := create_aloof (by nofun) (fun _ h => by cases h) _
  rw [h.list (c := backupsC) (by nofun)]
  split
  · split
    · exact .error _
    · split
      · exact .error _
      · exact hc _ _ _ _ h
  · exact hc _ _ _ _ h

theorem Sides.loadSettings (h : Sides p o o' kv kv') : Meta.loadSettings kv = Meta.loadSettings kv' := by
  unfold Meta.loadSettings
  rw [h.getK (k := .config) (by nofun)]

theorem saveSettings_aloof {s : Settings} : Aloof p (saveSettings s) := by
  intro o o' kv kv' h
  unfold saveSettings
  split
  · exact .error _
  · exact .ok (h.putK (k := .config) (by nofun) _)

/-! ## Other projects -/

variable {q : Nat}

theorem proj_off (h : q ≠ p) (g : PColl) : (Ns.proj q g).proj? ≠ some p := fun e => h (Option.some.inj e)

theorem validateEvents_beside (hq : q ≠ p) {max : Nat} (h : Sides p o o' kv kv') : ∀ fuel level refs ids,
    validateEvents q max kv fuel level refs ids = validateEvents q max kv' fuel level refs ids := by
  intro fuel
  induction fuel with
  | zero => intros; rfl
  | succ f ih =>
    intro level refs ids
    unfold validateEvents
    split
    · rfl
    · congr 1
      funext ids r
      cases r with
      | regularName n => dsimp only; rw [h.getBy (c := eventsC q) (proj_off hq _)]
      | regular id => dsimp only; rw [h.getById (c := eventsC q) (proj_off hq _)]
      | custom id => dsimp only; rw [h.getById (c := customC q) (proj_off hq _)]; simp only [ih]

theorem customCreate_aloof (hq : q ≠ p) {now : Time} {r : CustomEvent} : Aloof p (customCreate q now r) := by
  intro o o' kv kv' h
  unfold customCreate validate
  split
  · exact .error _
  · rw [validateEvents_beside hq h]
    split
    · exact .error _
    · exact create_aloof (proj_off hq _) (offKey (k := .idx (.proj q .customEvents) .name r.name) (proj_off hq .customEvents)) _ _ _ _ _ h

theorem customUpdate_aloof (hq : q ≠ p) {id : Nat} {now : Time} {u : CustomUpd} : Aloof p (customUpdate q id now u) := by
  intro o o' kv kv' h
  unfold customUpdate
  have : u.check q now kv = u.check q now kv' := by
    funext r
    unfold CustomUpd.check validate
    split
    · rfl
    · rw [validateEvents_beside hq h]
  rw [this]
  refine update_aloof (proj_off hq _) (fun r => ?_) _ _ _ _ _ h
  unfold CustomUpd.pairs
  split
  · exact noPairs
  · exact offPair (some_off (proj_off hq .customEvents)) (some_off (proj_off hq .customEvents))

theorem dictGetOrCreate_aloof (hq : q ≠ p) {t d v : Str} : Aloof p (dictGetOrCreate q t d v) := by
  have k : some q ≠ some p := fun e => hq (Option.some.inj e)
  intro o o' kv kv' h
  unfold dictGetOrCreate
  rw [h.getK (k := .dictVal q t d v) k]
  split
  · split
    · exact .error _
    · exact .ok h
  · have := nextSeq_aloof (k := .dictSeq q t d) k o o' kv kv' h
    revert this
    generalize nextSeq _ kv = x
    generalize nextSeq _ kv' = y
    intro this
    cases this with
    | error e => exact .error e
    | ok hs => exact .ok ((hs.putK (k := .dictKey q t d _) k _).putK (k := .dictVal q t d v) k _)

theorem dictCreateKey_aloof (hq : q ≠ p) {n : Nat} {t d v : Str} : Aloof p (dictCreateKey q t d n v) := by
  have k : some q ≠ some p := fun e => hq (Option.some.inj e)
  exact fun _ _ _ _ h => .ok ((h.putK (k := .dictKey q t d _) k _).putK (k := .dictVal q t d v) k _)

theorem createEvent_level (hq : q ≠ p) {now : Time} {r : Event} (h : Sides p o o' kv kv') :
    Level p o o' (createEvent q now r kv) (createEvent q now r kv') := by
  unfold createEvent
  have : Aloof p (eventCreate q now r) := by
    refine create_aloof (proj_off hq _) (fun k hk => ?_) _
    rcases List.mem_cons.mp hk with e | hk
    · cases e; exact proj_off hq .events
    · rw [List.mem_singleton] at hk
      exact map_off (f := .idx (.proj q .events) .displayName) (fun _ => proj_off hq .events) _ k hk.symm
  have := this o o' kv kv' h
  revert this
  generalize eventCreate q now r kv = x
  generalize eventCreate q now r kv' = y
  intro this
  cases this with
  | error e => exact ⟨rfl, h⟩
  | @ok ev _ _ hs =>
    dsimp only
    have := dictGetOrCreate_aloof hq (t := kEvents) (d := kEvent) (v := ev.name) _ _ _ _ hs
    revert this
    generalize dictGetOrCreate q kEvents kEvent _ _ = x
    generalize dictGetOrCreate q kEvents kEvent _ _ = y
    intro this
    cases this with
    | error e => exact ⟨rfl, hs⟩
    | ok hs => exact ⟨rfl, hs⟩

theorem eventUpdate_aloof (hq : q ≠ p) {id : Nat} {now : Time} {u : EventUpd} : Aloof p (eventUpdate q id now u) := by
  refine update_aloof (proj_off hq _) (fun r => ?_) _
  unfold EventUpd.pairs
  refine pairs_append ?_ ?_
  · split
    · exact noPairs
    · exact offPair (some_off (proj_off hq .events)) (some_off (proj_off hq .events))
  · split
    · exact noPairs
    · exact offPair (map_off (f := .idx (.proj q .events) .displayName) (fun _ => proj_off hq .events) _) (map_off (f := .idx (.proj q .events) .displayName) (fun _ => proj_off hq .events) _)

theorem getOrCreateGroup_aloof (hq : q ≠ p) {n d : Str} : Aloof p (getOrCreateGroup q n d) := by
  have k : some q ≠ some p := fun e => hq (Option.some.inj e)
  intro o o' kv kv' h
  unfold getOrCreateGroup
  rw [h.getK (k := .groupName q n) k]
  split
  · split
    · exact .error _
    · exact .ok h
  · have := nextZeroSeq_aloof (k := .groupNamesSeq q) k o o' kv kv' h
    revert this
    generalize nextZeroSeq _ kv = x
    generalize nextZeroSeq _ kv' = y
    intro this
    cases this with
    | error e => exact .error e
    | ok hs =>
      dsimp only
      split
      · exact .error _
      · exact .ok (hs.putK (k := .groupName q n) k _)

theorem bookmarkCreate_aloof (hq : q ≠ p) {bc : Bincode Q} {r : Bookmark Q} : Aloof p (bookmarkCreate bc q r) :=
  fun _ _ _ _ h => .ok (h.putK (k := .bookmark q _ _) (fun e => hq (Option.some.inj e)) _)

theorem bookmarkGet_beside (hq : q ≠ p) {bc : Bincode Q} {a : Nat} {id : Str} (h : Sides p o o' kv kv') : bookmarkGet bc q a id kv = bookmarkGet bc q a id kv' := by
  unfold bookmarkGet; rw [h.getK (k := .bookmark q a id) fun e => hq (Option.some.inj e)]

theorem propUpdate_aloof (hq : q ≠ p) {ty : PropType} {id : Nat} {now : Time} {u : PropUpd} : Aloof p (propUpdate q ty id now u) := by
  refine update_aloof (proj_off hq _) (fun r => ?_) _
  unfold PropUpd.pairs
  split
  · exact noPairs
  · exact offPair (map_off (f := .idx (.proj q ty.coll) .displayName) (fun _ => proj_off hq ty.coll) _) (map_off (f := .idx (.proj q ty.coll) .displayName) (fun _ => proj_off hq ty.coll) _)

end

end OptiPrism.Meta
