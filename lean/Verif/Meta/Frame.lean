import Verif.Meta.Modules

/-!
# Which keys a call may change

Every key belongs to one part (`Mod`) of the metadata store; every call touches few of them. This is what
lets the histories of one module contain arbitrary calls of the others.
-/

namespace OptiPrism.Meta

open OptiPrism.Storage (Bytes)

variable {R : Type}

/-- The parts of the store. -/
inductive Mod where
  | coll (ns : Ns)
  | evRec (p : Nat)
  | order (p : Nat)
  | dict (p : Nat) (t d : Str)
  | grp (p g : Nat)
  | grpRec (p g : Nat)
  | grpNames (p : Nat)
  | sess (p : Nat)
  | bm (p a : Nat)
  | config
  deriving DecidableEq

def Key.mod : Key → Mod
  | .data ns _ => .coll ns
  | .idx ns _ _ => .coll ns
  | .seq ns => .coll ns
  | .recSeq p => .evRec p
  | .orderSeq p _ => .order p
  | .dictKey p t d _ => .dict p t d
  | .dictVal p t d _ => .dict p t d
  | .dictSeq p t d => .dict p t d
  | .anon p g _ => .grp p g
  | .real p g _ => .grp p g
  | .groupSeq p g => .grp p g
  | .groupRecSeq p g => .grpRec p g
  | .groupName p _ => .grpNames p
  | .groupNamesSeq p => .grpNames p
  | .session p _ => .sess p
  | .bookmark p a _ => .bm p a
  | .config => .config

/-- Nothing changed in this part. -/
def Same (m : Mod) (kv kv' : Kv) : Prop := ∀ k : Key, k.WF → k.mod = m → getK kv' k = getK kv k

theorem Same.refl (m : Mod) (kv : Kv) : Same m kv kv := fun _ _ _ => rfl

theorem Same.trans {m : Mod} {a b c : Kv} (h : Same m a b) (h' : Same m b c) : Same m a c :=
  fun k hw hk => (h' k hw hk).trans (h k hw hk)

theorem Same.agree {ns : Ns} {a b : Kv} (h : Same (.coll ns) a b) : AgreeOn ns a b := by
  intro k hk
  have hw : k.WF := by cases k <;> first | trivial | simp [Key.coll] at hk
  exact h k hw (by cases k <;> simp_all [Key.coll, Key.mod])

theorem same_putK {m : Mod} (kv : Kv) {k : Key} (hk : k.WF) (h : k.mod ≠ m) (v : Bytes) : Same m kv (putK kv k v) := by
  intro k' hw hm
  rw [getK_putK _ hk hw, if_neg]
  rintro rfl
  exact h hm

theorem same_delK {m : Mod} (kv : Kv) {k : Key} (hk : k.WF) (h : k.mod ≠ m) : Same m kv (delK kv k) := by
  intro k' hw hm
  rw [getK_delK _ hk hw, if_neg]
  rintro rfl
  exact h hm

/-- Reached by writing and deleting keys with property `P`. -/
inductive Steps (P : Key → Prop) (kv : Kv) : Kv → Prop
  | refl : Steps P kv kv
  | put {kv1 : Kv} {k : Key} (v : Bytes) : Steps P kv kv1 → k.WF → P k → Steps P kv (putK kv1 k v)
  | del {kv1 : Kv} {k : Key} : Steps P kv kv1 → k.WF → P k → Steps P kv (delK kv1 k)

theorem Steps.trans {P : Key → Prop} {a b c : Kv} (h : Steps P a b) (h' : Steps P b c) : Steps P a c := by
  induction h' with
  | refl => exact h
  | put v _ hw hp ih => exact ih.put v hw hp
  | del _ hw hp ih => exact ih.del hw hp

theorem Steps.mono {P P' : Key → Prop} {a b : Kv} (h : Steps P a b) (hs : ∀ k, P k → P' k) : Steps P' a b := by
  induction h with
  | refl => exact .refl
  | put v _ hw hp ih => exact ih.put v hw (hs _ hp)
  | del _ hw hp ih => exact ih.del hw (hs _ hp)

theorem Steps.same {P : Key → Prop} {a b : Kv} (h : Steps P a b) {m : Mod} (hm : ∀ k, P k → k.mod ≠ m) : Same m a b := by
  induction h with
  | refl => exact Same.refl m a
  | put v _ hw hp ih => exact ih.trans (same_putK _ hw (hm _ hp) v)
  | del _ hw hp ih => exact ih.trans (same_delK _ hw (hm _ hp))

/-- Every entry is under a well formed key, and no key occurs twice. -/
structure Clean (kv : Kv) : Prop where
  keys : ∀ e ∈ kv, ∃ k : Key, k.WF ∧ e.1 = k.render
  nodup : (kv.map (·.1)).Nodup

theorem clean_empty : Clean [] := ⟨by simp, by simp⟩

theorem Clean.del {kv : Kv} (h : Clean kv) (k : Key) : Clean (delK kv k) := by
  refine ⟨fun e he => h.keys e (List.mem_filter.mp he).1, ?_⟩
  exact List.Pairwise.sublist (List.filter_sublist.map _) h.nodup

theorem Clean.put {kv : Kv} (h : Clean kv) {k : Key} (hk : k.WF) (v : Bytes) : Clean (putK kv k v) := by
  have hd := h.del k
  refine ⟨?_, ?_⟩
  · intro e he
    rcases List.mem_cons.mp he with rfl | he
    · exact ⟨k, hk, rfl⟩
    · exact hd.keys e he
  · show ((k.render, v) :: Kv.del kv k.render).map (·.1) |>.Nodup
    rw [List.map_cons, List.nodup_cons]
    refine ⟨?_, hd.nodup⟩
    intro hm
    obtain ⟨e, he, e1⟩ := List.mem_map.mp hm
    have := (List.mem_filter.mp he).2
    simp [e1] at this

theorem Steps.clean {P : Key → Prop} {a b : Kv} (h : Steps P a b) (hc : Clean a) : Clean b := by
  induction h with
  | refl => exact hc
  | put v _ hw _ ih => exact ih.put hw v
  | del _ _ _ ih => exact ih.del _

/-- In a clean store an entry is what reading its key gives. -/
theorem Clean.mem_iff {kv : Kv} (h : Clean kv) (k : Str) (v : Bytes) : (k, v) ∈ kv ↔ kv.get k = some v := by
  have hn := h.nodup
  clear h
  unfold Kv.get
  induction kv with
  | nil => simp
  | cons e kv ih =>
    simp only [List.map_cons, List.nodup_cons] at hn
    obtain ⟨ek, ev⟩ := e
    simp only [List.mem_cons, Prod.mk.injEq, List.find?_cons]
    by_cases hk : ek = k
    · subst hk
      simp only [true_and, decide_true, Option.map_some, Option.some.injEq]
      constructor
      · rintro (e | e)
        · exact e.symm
        · exact absurd (List.mem_map.mpr ⟨_, e, rfl⟩) hn.1
      · rintro e; exact .inl e.symm
    · simp only [hk, decide_false]
      have := ih hn.2
      simp only [Ne.symm hk, false_and, false_or]
      exact this

/-- All index keys of a list of pairs have the property. -/
def PairsIn (P : Key → Prop) (l : List (Option Key × Option Key)) : Prop :=
  ∀ p ∈ l, (∀ k, p.1 = some k → k.WF ∧ P k) ∧ ∀ k, p.2 = some k → k.WF ∧ P k

theorem updateIndex_steps {P : Key → Prop} (l : List (Option Key × Option Key)) (h : PairsIn P l) (id : Nat) (kv : Kv) :
    Steps P kv (updateIndex l id kv) := by
  induction l generalizing kv with
  | nil => exact .refl
  | cons p l ih =>
    obtain ⟨a, b⟩ := p
    have hp := h (a, b) (by simp)
    have hl : PairsIn P l := fun q hq => h q (by simp [hq])
    unfold updateIndex
    refine Steps.trans ?_ (ih hl _)
    cases a with
    | none =>
      cases b with
      | none => exact .refl
      | some q => exact .del .refl (hp.2 q rfl).1 (hp.2 q rfl).2
    | some k =>
      refine .put _ ?_ (hp.1 k rfl).1 (hp.1 k rfl).2
      split
      · cases b with
        | none => exact .refl
        | some q => exact .del .refl (hp.2 q rfl).1 (hp.2 q rfl).2
      · exact .refl

/-- A call writes and deletes only in these parts. -/
def Touches {α : Type} (c : Call α) (ms : List Mod) : Prop :=
  ∀ kv a kv', c kv = .ok (a, kv') → Steps (fun k => k.mod ∈ ms) kv kv'

theorem Touches.run {α : Type} {c : Call α} {ms : List Mod} (h : Touches c ms) (kv : Kv) :
    Steps (fun k => k.mod ∈ ms) kv (runCall c kv).2 := by
  unfold runCall
  split
  · rename_i a kv' e; exact h kv a kv' e
  · exact .refl

theorem Touches.then {α β : Type} {a : Call α} {b : α → Call β} {ms : List Mod} (ha : Touches a ms) (hb : ∀ x, Touches (b x) ms) :
    Touches (Call.then a b) ms := by
  intro kv y kv' h
  unfold Call.then at h
  split at h
  · cases h
  · rename_i x kv1 e
    exact (ha kv x kv1 e).trans (hb x kv1 y kv' h)

theorem Touches.ret {α : Type} (x : α) (ms : List Mod) : Touches (Call.ret x) ms := by
  intro kv a kv' h
  simp only [Call.ret, Except.ok.injEq, Prod.mk.injEq] at h
  rw [← h.2]
  exact .refl

theorem Touches.mono {α : Type} {c : Call α} {ms ms' : List Mod} (h : Touches c ms) (hs : ∀ m ∈ ms, m ∈ ms') : Touches c ms' :=
  fun kv a kv' e => (h kv a kv' e).mono fun _ hk => hs _ hk

theorem nextSeq_touches {k : Key} (hk : k.WF) : Touches (nextSeq k) [k.mod] := by
  intro kv a kv' h
  unfold nextSeq at h
  split at h
  · simp only [Except.ok.injEq, Prod.mk.injEq] at h
    rw [← h.2]; exact .put _ .refl hk (by simp)
  · split at h
    · cases h
    · simp only [Except.ok.injEq, Prod.mk.injEq] at h
      rw [← h.2]; exact .put _ .refl hk (by simp)

theorem nextZeroSeq_touches {k : Key} (hk : k.WF) : Touches (nextZeroSeq k) [k.mod] := by
  intro kv a kv' h
  unfold nextZeroSeq at h
  split at h
  · simp only [Except.ok.injEq, Prod.mk.injEq] at h
    rw [← h.2]; exact .put _ .refl hk (by simp)
  · split at h
    · cases h
    · simp only [Except.ok.injEq, Prod.mk.injEq] at h
      rw [← h.2]; exact .put _ .refl hk (by simp)

/-- Keys of an index of the collection. -/
def IdxOf (ns : Ns) (k : Key) : Prop := ∃ ix s, k = .idx ns ix s

theorem keysOf_idx {ns : Ns} {sel : List (Ix × (R → Option Str))} {r : R} {k : Key} (h : some k ∈ keysOf ns sel r) : IdxOf ns k := by
  obtain ⟨i, -, e⟩ := List.mem_map.mp h
  obtain ⟨s, -, e⟩ := Option.map_eq_some_iff.mp e
  exact ⟨i.1, s, e.symm⟩

theorem create_touches {c : Coll R} {keys : List (Option Key)} {mk : Nat → R} (hk : ∀ k, some k ∈ keys → IdxOf c.ns k) :
    Touches (c.create keys mk) [.coll c.ns] := by
  intro kv a kv' h
  unfold Coll.create at h
  split at h
  · cases h
  · split at h
    · cases h
    · rename_i id kv1 hs
      simp only [Except.ok.injEq, Prod.mk.injEq] at h
      rw [← h.2, insertIndex_eq]
      refine Steps.trans ?_ (updateIndex_steps _ ?_ _ _)
      · exact .put _ (nextSeq_touches (wf_seq c.ns) kv id kv1 hs) (wf_data _ _) (by simp [Key.mod])
      · intro p hp
        obtain ⟨k, hm, rfl⟩ := List.mem_map.mp hp
        refine ⟨?_, by simp⟩
        rintro k rfl
        obtain ⟨ix, s, rfl⟩ := hk k hm
        exact ⟨trivial, by simp [Key.mod]⟩

theorem update_touches {c : Coll R} {id : Nat} {pairs : R → List (Option Key × Option Key)} {f : R → Except Err R}
    (hp : ∀ r, PairsIn (IdxOf c.ns) (pairs r)) : Touches (c.update id pairs f) [.coll c.ns] := by
  intro kv a kv' h
  unfold Coll.update at h
  split at h
  · cases h
  · rename_i r0 _
    split at h
    · cases h
    · split at h
      · cases h
      · simp only [Except.ok.injEq, Prod.mk.injEq] at h
        rw [← h.2]
        refine Steps.trans (.put _ .refl (wf_data _ _) (by simp [Key.mod])) (updateIndex_steps _ ?_ _ _)
        intro p hm
        have := hp r0 p hm
        refine ⟨fun k e => ?_, fun k e => ?_⟩
        · obtain ⟨hw, ix, s, rfl⟩ := this.1 k e; exact ⟨hw, by simp [Key.mod]⟩
        · obtain ⟨hw, ix, s, rfl⟩ := this.2 k e; exact ⟨hw, by simp [Key.mod]⟩

theorem delete_touches (c : Coll R) (id : Nat) : Touches (c.delete id) [.coll c.ns] := by
  intro kv a kv' h
  unfold Coll.delete at h
  split at h
  · cases h
  · simp only [Except.ok.injEq, Prod.mk.injEq] at h
    rw [← h.2, deleteIndex_eq _ 0]
    refine Steps.trans (.del .refl (wf_data _ _) (by simp [Key.mod])) (updateIndex_steps _ ?_ _ _)
    intro p hp
    obtain ⟨k, hm, rfl⟩ := List.mem_map.mp hp
    refine ⟨by simp, ?_⟩
    rintro k rfl
    obtain ⟨ix, s, rfl⟩ := keysOf_idx hm
    exact ⟨trivial, by simp [Key.mod]⟩

/-! ## The states of a collection in a store where everything else may change -/

/-- Reached by `n` calls on the collection or elsewhere. -/
inductive Reaches (c : Coll R) (Valid : R → Prop) : Nat → Kv → Prop
  | start : Reaches c Valid 0 []
  | step {n : Nat} {kv kv' : Kv} {op : Op R} : Reaches c Valid n kv → op.Ok c Valid → AgreeOn c.ns (op.exec c kv).2 kv' →
      Reaches c Valid (n + 1) kv'

theorem runOps_append (c : Coll R) (a b : List (Op R)) (kv : Kv) :
    (runOps c (a ++ b) kv).2 = (runOps c b (runOps c a kv).2).2 := by
  induction a generalizing kv with
  | nil => rfl
  | cons x a ih => simp only [List.cons_append, runOps, ih]

open Classical in
theorem Reaches.reach' {c : Coll R} {Valid : R → Prop} {n : Nat} {kv : Kv} (h : Reaches c Valid n kv) :
    ∃ ops : List (Op R), (∀ op ∈ ops, op.Ok c Valid) ∧ ops.length = 2 * n ∧ kv = (runOps c ops []).2 := by
  induction h with
  | start => exact ⟨[], by simp, rfl, rfl⟩
  | @step n kv kv' op _ ho ha ih =>
    obtain ⟨ops, h1, h2, h3⟩ := ih
    refine ⟨ops ++ [op, .env fun s => if AgreeOn c.ns s kv' then kv' else s], ?_, by simp [h2]; omega, ?_⟩
    · intro o hm
      simp only [List.mem_append, List.mem_cons, List.not_mem_nil, or_false] at hm
      rcases hm with hm | rfl | rfl
      · exact h1 o hm
      · exact ho
      · intro s
        dsimp only
        split
        · assumption
        · exact fun _ _ => rfl
    · rw [runOps_append, ← h3]
      show kv' = if AgreeOn c.ns (Op.exec c op kv).2 kv' then kv' else (Op.exec c op kv).2
      rw [if_pos ha]

theorem Reaches.reach {c : Coll R} {Valid : R → Prop} {n : Nat} {kv : Kv} (h : Reaches c Valid n kv) (hn : n < 2 ^ 63) :
    Reach c Valid kv := by
  obtain ⟨ops, h1, h2, h3⟩ := h.reach'
  exact ⟨ops, h1, by omega, h3⟩

theorem Reaches.env {c : Coll R} {Valid : R → Prop} {n : Nat} {kv kv' : Kv} (h : Reaches c Valid n kv)
    (hs : AgreeOn c.ns kv kv') : Reaches c Valid (n + 1) kv' :=
  h.step (op := .env id) (fun _ _ _ => rfl) hs

/-- A call is a step if it is one of the operations of the collection, up to changes elsewhere. -/
theorem Reaches.call {α : Type} {c : Coll R} {Valid : R → Prop} {n : Nat} {kv : Kv} (h : Reaches c Valid n kv) {call : Call α}
    (hc : ∀ a kv', call kv = .ok (a, kv') → ∃ op : Op R, op.Ok c Valid ∧ AgreeOn c.ns (op.exec c kv).2 kv') :
    Reaches c Valid (n + 1) (runCall call kv).2 := by
  unfold runCall
  split
  · rename_i a kv' e
    obtain ⟨op, ho, ha⟩ := hc a kv' e
    exact h.step ho ha
  · exact h.env fun _ _ => rfl

theorem AgreeOn.refl (ns : Ns) (kv : Kv) : AgreeOn ns kv kv := fun _ _ => rfl

theorem Reaches.create {c : Coll R} {Valid : R → Prop} {n : Nat} {kv : Kv} (h : Reaches c Valid n kv)
    {keys : List (Option Key)} {mk : Nat → R} (ho : (Op.create keys mk).Ok c Valid) :
    Reaches c Valid (n + 1) (runCall (c.create keys mk) kv).2 :=
  h.step ho (AgreeOn.refl _ _)

theorem Reaches.update {c : Coll R} {Valid : R → Prop} {n : Nat} {kv : Kv} (h : Reaches c Valid n kv) {id : Nat}
    {pairs : R → List (Option Key × Option Key)} {f : R → Except Err R} (t : R → R) (ho : (Op.update id pairs f t).Ok c Valid) :
    Reaches c Valid (n + 1) (runCall (c.update id pairs f) kv).2 :=
  h.step ho (AgreeOn.refl _ _)

theorem Reaches.delete {c : Coll R} {Valid : R → Prop} {n : Nat} {kv : Kv} (h : Reaches c Valid n kv) (id : Nat) :
    Reaches c Valid (n + 1) (runCall (c.delete id) kv).2 :=
  h.step (op := .delete id) trivial (AgreeOn.refl _ _)

end OptiPrism.Meta
