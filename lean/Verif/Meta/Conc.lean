import Verif.Meta.CollProps

/-!
# Interleaved transactions

A metadata call as a program of reads and writes inside one RocksDB transaction, and a machine that
interleaves any number of them. What is assumed of `TransactionDB` (as used by the crate, without snapshots and
without `get_for_update`): `tx.get` sees the transaction's own writes and otherwise the last committed
value, and takes no lock; `tx.put` and `tx.delete` take the lock of the key, which is kept until commit or
rollback, and may fail (time out) while somebody else has it; `commit` makes the writes visible at once.
-/

namespace OptiPrism.Meta

open OptiPrism.Storage (Bytes)

/-- What a call does in its transaction. `ret (.ok a)` commits and answers `a`; `ret (.error e)` rolls
back. -/
inductive Prog (α : Type) where
  | ret (r : Except Err α)
  | get (k : Key) (f : Option Bytes → Prog α)
  | put (k : Key) (v : Bytes) (p : Prog α)
  | del (k : Key) (p : Prog α)

/-- Buffered writes, the last one first. -/
abbrev Buf := List (Key × Option Bytes)

def Buf.find (b : Buf) (k : Key) : Option (Option Bytes) := (b.find? fun e => e.1 = k).map (·.2)

def Buf.apply : Buf → Kv → Kv
  | [], kv => kv
  | (k, some v) :: b, kv => putK (Buf.apply b kv) k v
  | (k, none) :: b, kv => delK (Buf.apply b kv) k

/-- The rest of a program run without interruption on a store. -/
def exec {α : Type} : Prog α → Buf → Kv → Except Err α × Buf
  | .ret r, b, _ => (r, b)
  | .get k f, b, kv => exec (f ((b.find k).getD (getK kv k))) b kv
  | .put k v p, b, kv => exec p ((k, some v) :: b) kv
  | .del k p, b, kv => exec p ((k, none) :: b) kv

/-- The call a program makes when it runs alone. -/
def Prog.call {α : Type} (p : Prog α) : Call α := fun kv =>
  match exec p [] kv with
  | (.ok a, b) => .ok (a, b.apply kv)
  | (.error e, _) => .error e

/-! ## The machine -/

/-- A running transaction. `prog0` and `reads` (what it has seen of the committed store) are there for the proofs only. -/
structure Tx (α : Type) where
  prog0 : Prog α
  prog : Prog α
  buf : Buf
  reads : Buf

structure Sys (α : Type) where
  kv : Kv
  tx : Nat → Option (Tx α)
  lock : Key → Option Nat
  /-- The committed transactions: who, which program, with which answer; the last one last. -/
  log : List (Nat × Prog α × α)

inductive Act (α : Type) where
  | start (t : Nat) (p : Prog α)
  | run (t : Nat)
  | timeout (t : Nat)

def Sys.set {α : Type} (s : Sys α) (t : Nat) (x : Option (Tx α)) : Sys α := { s with tx := fun u => if u = t then x else s.tx u }
def Sys.release {α : Type} (s : Sys α) (t : Nat) : Sys α := { s with lock := fun k => if s.lock k = some t then none else s.lock k }
def Sys.acquire {α : Type} (s : Sys α) (t : Nat) (k : Key) : Sys α := { s with lock := fun k' => if k' = k then some t else s.lock k' }
def Sys.free {α : Type} (s : Sys α) (t : Nat) (k : Key) : Bool := s.lock k = none || s.lock k = some t

/-- One action; `none` if it is not possible. -/
def Sys.step {α : Type} (s : Sys α) : Act α → Option (Sys α)
  | .start t p => match s.tx t with
    | some _ => none
    | none => some (s.set t (some ⟨p, p, [], []⟩))
  | .timeout t => match s.tx t with
    | none => none
    | some _ => some ((s.set t none).release t)
  | .run t => match s.tx t with
    | none => none
    | some x => match x.prog with
      | .get k f => match x.buf.find k with
        | some v => some (s.set t (some { x with prog := f v }))
        | none => some (s.set t (some { x with prog := f (getK s.kv k), reads := (k, getK s.kv k) :: x.reads }))
      | .put k v p => if s.free t k then some ((s.set t (some { x with prog := p, buf := (k, some v) :: x.buf })).acquire t k) else none
      | .del k p => if s.free t k then some ((s.set t (some { x with prog := p, buf := (k, none) :: x.buf })).acquire t k) else none
      | .ret (.error _) => some ((s.set t none).release t)
      | .ret (.ok a) => some { ((s.set t none).release t) with kv := x.buf.apply s.kv, log := s.log ++ [(t, x.prog0, a)] }

def Sys.runActs {α : Type} : Sys α → List (Act α) → Option (Sys α)
  | s, [] => some s
  | s, a :: as => match s.step a with
    | none => none
    | some s' => s'.runActs as

def Sys.init {α : Type} (kv : Kv) : Sys α := ⟨kv, fun _ => none, fun _ => none, []⟩

/-- The executions of the machine, any interleaving. -/
inductive Execs {α : Type} (P : Prog α → Prop) (kv : Kv) : Sys α → Prop
  | init : Execs P kv (.init kv)
  | step {s s' : Sys α} (a : Act α) : Execs P kv s → (∀ t p, a = .start t p → P p) → s.step a = some s' → Execs P kv s'

/-- The action does not commit a transaction that has read something which another one has changed since. -/
def Valid {α : Type} (s : Sys α) : Act α → Prop
  | .run t => ∀ x a, s.tx t = some x → x.prog = .ret (.ok a) → ∀ e ∈ x.reads, getK s.kv e.1 = e.2
  | _ => True

/-- Executions in which no transaction commits on stale reads. -/
inductive VExecs {α : Type} (P : Prog α → Prop) (kv : Kv) : Sys α → Prop
  | init : VExecs P kv (.init kv)
  | step {s s' : Sys α} (a : Act α) : VExecs P kv s → (∀ t p, a = .start t p → P p) → Valid s a → s.step a = some s' → VExecs P kv s'

/-- The calls one after the other, with these answers. -/
inductive Serial {α : Type} (kv : Kv) : List (Nat × Prog α × α) → Kv → Prop
  | nil : Serial kv [] kv
  | snoc {l : List (Nat × Prog α × α)} {kv1 kv2 : Kv} {t : Nat} {p : Prog α} {a : α} :
      Serial kv l kv1 → p.call kv1 = .ok (a, kv2) → Serial kv (l ++ [(t, p, a)]) kv2

/-- Running the rest of a transaction on a store that looks like what it has read is running all of it. -/
def Tx.Faithful {α : Type} (x : Tx α) : Prop :=
  ∀ kv : Kv, (∀ e ∈ x.reads, getK kv e.1 = e.2) → exec x.prog0 [] kv = exec x.prog x.buf kv

structure Sys.Good {α : Type} (P : Prog α → Prop) (kv : Kv) (s : Sys α) : Prop where
  faithful : ∀ t x, s.tx t = some x → x.Faithful ∧ P x.prog0
  serial : Serial kv s.log s.kv
  progs : ∀ e ∈ s.log, P e.2.1

theorem Sys.Good.set {α : Type} {P : Prog α → Prop} {kv : Kv} {s : Sys α} (h : s.Good P kv) {t : Nat} {x : Tx α} (hx : x.Faithful) (hp : P x.prog0)
    (s' : Sys α) (h1 : s'.tx = (s.set t (some x)).tx) (h2 : s'.kv = s.kv) (h3 : s'.log = s.log) : s'.Good P kv := by
  refine ⟨?_, by rw [h2, h3]; exact h.serial, by rw [h3]; exact h.progs⟩
  intro u y hy
  rw [h1] at hy
  simp only [Sys.set] at hy
  split at hy
  · injection hy with hy; subst hy; exact ⟨hx, hp⟩
  · exact h.faithful u y hy

theorem Sys.Good.drop {α : Type} {P : Prog α → Prop} {kv : Kv} {s : Sys α} (h : s.Good P kv) (t : Nat) : ((s.set t none).release t).Good P kv := by
  refine ⟨?_, h.serial, h.progs⟩
  intro u y hy
  simp only [Sys.set, Sys.release] at hy
  split at hy
  · cases hy
  · exact h.faithful u y hy

theorem good_step {α : Type} {P : Prog α → Prop} {kv : Kv} {s s' : Sys α} {a : Act α} (h : s.Good P kv) (hp : ∀ t p, a = .start t p → P p) (hv : Valid s a)
    (e : s.step a = some s') : s'.Good P kv := by
  cases a with
  | start t p =>
    unfold Sys.step at e
    dsimp only at e
    split at e
    · cases e
    · injection e with e
      subst e
      exact h.set (x := ⟨p, p, [], []⟩) (fun _ _ => rfl) (hp t p rfl) _ rfl rfl rfl
  | timeout t =>
    unfold Sys.step at e
    dsimp only at e
    split at e
    · cases e
    · injection e with e
      subst e
      exact h.drop t
  | run t =>
    unfold Sys.step at e
    dsimp only at e
    split at e
    · cases e
    · rename_i x hx
      obtain ⟨hf, hpx⟩ := h.faithful t x hx
      split at e
      · rename_i k f hpr
        split at e
        · rename_i v hb
          injection e with e
          subst e
          refine h.set (x := { x with prog := f v }) (fun kv hr => ?_) hpx _ rfl rfl rfl
          rw [hf kv hr, hpr]
          simp [exec, hb]
        · rename_i hb
          injection e with e
          subst e
          refine h.set (x := { x with prog := f (getK s.kv k), reads := (k, getK s.kv k) :: x.reads }) (fun kv hr => ?_) hpx _ rfl rfl rfl
          have h1 := hr (k, getK s.kv k) (List.mem_cons_self ..)
          dsimp only at h1
          rw [hf kv (fun e he => hr e (List.mem_cons_of_mem _ he)), hpr]
          simp [exec, hb, h1]
      · rename_i k v p hpr
        split at e
        · injection e with e
          subst e
          refine h.set (x := { x with prog := p, buf := (k, some v) :: x.buf }) (fun kv hr => ?_) hpx _ rfl rfl rfl
          rw [hf kv hr, hpr]
          rfl
        · cases e
      · rename_i k p hpr
        split at e
        · injection e with e
          subst e
          refine h.set (x := { x with prog := p, buf := (k, none) :: x.buf }) (fun kv hr => ?_) hpx _ rfl rfl rfl
          rw [hf kv hr, hpr]
          rfl
        · cases e
      · injection e with e
        subst e
        exact h.drop t
      · rename_i a hpr
        injection e with e
        subst e
        have hd := h.drop t
        have hr := hv x a hx hpr
        have hc := hf s.kv hr
        rw [hpr] at hc
        refine ⟨hd.faithful, ?_, ?_⟩
        · refine .snoc h.serial ?_
          unfold Prog.call
          rw [hc]
          rfl
        · intro e he
          rw [List.mem_append, List.mem_singleton] at he
          rcases he with he | he
          · exact h.progs e he
          · rw [he]; exact hpx

theorem VExecs.good {α : Type} {P : Prog α → Prop} {kv : Kv} {s : Sys α} (h : VExecs P kv s) : s.Good P kv := by
  induction h with
  | init => exact ⟨fun t x hx => by simp [Sys.init] at hx, .nil, by simp [Sys.init]⟩
  | step a _ hp hv e ih => exact good_step ih hp hv e

theorem Execs.of_run {α : Type} {P : Prog α → Prop} {kv : Kv} (acts : List (Act α)) : ∀ {s s' : Sys α}, Execs P kv s → (∀ t p, Act.start t p ∈ acts → P p) →
    s.runActs acts = some s' → Execs P kv s' := by
  induction acts with
  | nil => intro s s' h _ e; injection e with e; exact e ▸ h
  | cons a as ih =>
    intro s s' h hp e
    unfold Sys.runActs at e
    split at e
    · cases e
    · rename_i s1 h1
      exact ih (h.step a (fun t p ea => hp t p (ea ▸ List.mem_cons_self ..)) h1) (fun t p hm => hp t p (List.mem_cons_of_mem _ hm)) e

/-! ## The calls of a collection as programs -/

/-- `check_insert_constraints`, index.rs 7-19. -/
def checkInsert {α : Type} : List (Option Key) → Prog α → Prog α
  | [], p => p
  | none :: ks, p => checkInsert ks p
  | some k :: ks, p => .get k fun v => if v.isSome then .ret (.error .alreadyExists) else checkInsert ks p

/-- `insert_index`, index.rs 21-30. -/
def putIndex {α : Type} : List (Option Key) → Nat → Prog α → Prog α
  | [], _, p => p
  | none :: ks, id, p => putIndex ks id p
  | some k :: ks, id, p => .put k (le64 id) (putIndex ks id p)

/-- `create`, see `Coll.create`: constraints, `next_seq` (index.rs 92-101), data, index. -/
def Coll.createProg {R : Type} (c : Coll R) (keys : List (Option Key)) (mk : Nat → R) : Prog R :=
  let rest := fun id => Prog.put (.seq c.ns) (le64 id) <| .put (.data c.ns (c.id (mk id))) (c.enc (mk id)) <| putIndex keys (c.id (mk id)) <| .ret (.ok (mk id))
  checkInsert keys <| .get (.seq c.ns) fun
    | none => rest 1
    | some v => match readU64 v with
      | .error e => .ret (.error e)
      | .ok n => rest ((n + 1) % 2 ^ 64)

theorem exec_checkInsert {α : Type} (keys : List (Option Key)) (p : Prog α) (kv : Kv) :
    exec (checkInsert keys p) [] kv = if clashInsert keys kv then (.error .alreadyExists, []) else exec p [] kv := by
  induction keys with
  | nil => simp [checkInsert, clashInsert]
  | cons k ks ih =>
    cases k with
    | none =>
      rw [checkInsert, ih]
      simp [clashInsert]
    | some k =>
      rw [checkInsert, exec]
      show exec (if (getK kv k).isSome then Prog.ret (.error .alreadyExists) else checkInsert ks p) [] kv = _
      by_cases h : (getK kv k).isSome
      · rw [if_pos h]; simp [exec, clashInsert, h]
      · rw [if_neg h, ih]; simp [clashInsert, h]

theorem exec_putIndex {α : Type} (keys : List (Option Key)) (id : Nat) (r : Except Err α) (b : Buf) (kv : Kv) :
    ∃ b', exec (putIndex keys id (.ret r)) b kv = (r, b') ∧ b'.apply kv = insertIndex keys id (b.apply kv) := by
  induction keys generalizing b with
  | nil => exact ⟨b, rfl, rfl⟩
  | cons k ks ih =>
    cases k with
    | none => exact ih b
    | some k =>
      obtain ⟨b', h1, h2⟩ := ih ((k, some (le64 id)) :: b)
      exact ⟨b', h1, h2⟩

/-- Run alone, the program is the call of the sequential model. -/
theorem createProg_call {R : Type} (c : Coll R) (keys : List (Option Key)) (mk : Nat → R) : (c.createProg keys mk).call = c.create keys mk := by
  funext kv
  have key : ∀ id, (match exec (Prog.put (.seq c.ns) (le64 id) <| .put (.data c.ns (c.id (mk id))) (c.enc (mk id)) <| putIndex keys (c.id (mk id)) <| .ret (.ok (mk id))) [] kv with
      | (.ok a, b) => (.ok (a, b.apply kv) : Except Err (R × Kv))
      | (.error e, _) => .error e) =
      .ok (mk id, insertIndex keys (c.id (mk id)) (putK (putK kv (.seq c.ns) (le64 id)) (.data c.ns (c.id (mk id))) (c.enc (mk id)))) := by
    intro id
    simp only [exec]
    obtain ⟨b', h1, h2⟩ := exec_putIndex keys (c.id (mk id)) (.ok (mk id))
      [(Key.data c.ns (c.id (mk id)), some (c.enc (mk id))), (Key.seq c.ns, some (le64 id))] kv
    rw [h1]
    dsimp only
    rw [h2]
    rfl
  unfold Prog.call Coll.createProg Coll.create
  dsimp only
  rw [exec_checkInsert]
  cases hc : clashInsert keys kv with
  | true => rfl
  | false =>
    simp only [Bool.false_eq_true, if_false]
    rw [exec]
    simp only [Buf.find, List.find?_nil, Option.map_none, Option.getD_none]
    unfold nextSeq
    cases hs : getK kv (.seq c.ns) with
    | none => exact key 1
    | some v =>
      dsimp only
      cases hr : readU64 v with
      | error e => rfl
      | ok n => exact key _

end OptiPrism.Meta
