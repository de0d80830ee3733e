import Verif.Meta.Dicts

/-!
# Groups: what the calls do

An external identity is an anonymous id or a user (group) id; both are resolved to numbers of one sequence.
-/

namespace OptiPrism.Meta

open OptiPrism.Storage (Bytes fromLE)

variable {Q : Type}

inductive Ext where
  | anon (s : Str)
  | real (s : Str)
  deriving DecidableEq

def Ext.key (p g : Nat) : Ext → Key
  | .anon s => .anon p g s
  | .real s => .real p g s

/-- The number an entry holds. -/
def Ext.read : Ext → Bytes → Option Nat
  | .anon _, b => if b.length = 8 then some (fromLE b) else none
  | .real _, b => (GroupValues.dec b).map GroupValues.id

def gid (p g : Nat) (kv : Kv) (e : Ext) : Option Nat := (getK kv (e.key p g)).bind e.read

def gSeq (p g : Nat) (kv : Kv) : Nat :=
  match getK kv (.groupSeq p g) with
  | none => 0
  | some v => fromLE v

/-- Values whose property ids have 64 bits. -/
def VOk (vs : List PropVal) : Prop := ∀ v ∈ vs, v.propertyId < 2 ^ 64

/-- Every entry can be read. -/
def GShape (p g : Nat) (kv : Kv) : Prop :=
  (∀ s b, getK kv (.anon p g s) = some b → ∃ n, b = le64 n ∧ n < 2 ^ 64) ∧
  (∀ s b, getK kv (.real p g s) = some b → ∃ r, GroupValues.dec b = some r ∧ r.id < 2 ^ 64 ∧ VOk r.values)

/-- Numbers once given stay. -/
def GKept (p g : Nat) (kv kv' : Kv) : Prop := ∀ e n, gid p g kv e = some n → gid p g kv' e = some n

structure GInv (p g : Nat) (kv : Kv) : Prop where
  seq : ∀ b, getK kv (.groupSeq p g) = some b → b.length = 8
  bound : ∀ e n, gid p g kv e = some n → 0 < n ∧ n ≤ gSeq p g kv
  inj : ∀ e e' n, gid p g kv e = some n → gid p g kv e' = some n → e = e'

theorem Ext.key_wf (p g : Nat) (e : Ext) : (e.key p g).WF := by cases e <;> trivial
theorem Ext.key_inj {p g : Nat} {e e' : Ext} : e.key p g = e'.key p g ↔ e = e' := by cases e <;> cases e' <;> simp [Ext.key]
theorem Ext.key_seq {p g : Nat} {e : Ext} : e.key p g ≠ .groupSeq p g := by cases e <;> simp [Ext.key]
theorem Ext.key_mod {p g : Nat} {e : Ext} : (e.key p g).mod = .grp p g := by cases e <;> rfl

theorem gid_put {p g : Nat} {kv : Kv} (e e' : Ext) (b : Bytes) :
    gid p g (putK kv (e.key p g) b) e' = if e' = e then e.read b else gid p g kv e' := by
  unfold gid
  rw [getK_putK _ (e.key_wf p g) (e'.key_wf p g)]
  by_cases h : e' = e
  · subst h; simp
  · rw [if_neg h, if_neg (fun h' => h (Ext.key_inj.mp h'))]

theorem gid_seq {p g : Nat} {kv : Kv} (e : Ext) (b : Bytes) : gid p g (putK kv (.groupSeq p g) b) e = gid p g kv e := by
  unfold gid
  rw [getK_putK _ (k := .groupSeq p g) trivial (e.key_wf p g), if_neg Ext.key_seq]

theorem gid_same {p g : Nat} {kv kv' : Kv} (h : Same (.grp p g) kv kv') (e : Ext) : gid p g kv' e = gid p g kv e := by
  unfold gid
  rw [h _ (e.key_wf p g) Ext.key_mod]

/-- An entry that can be read is there exactly if its number is. -/
theorem gid_none {p g : Nat} {kv : Kv} (h : GShape p g kv) (e : Ext) : gid p g kv e = none ↔ getK kv (e.key p g) = none := by
  unfold gid
  cases hv : getK kv (e.key p g) with
  | none => simp
  | some b =>
    simp only [Option.bind_some, reduceCtorEq, iff_false]
    cases e with
    | anon s => obtain ⟨n, rfl, hn⟩ := h.1 s b hv; simp [Ext.read, le64_length]
    | real s => obtain ⟨r, hr, -⟩ := h.2 s b hv; simp [Ext.read, hr]

/-- What a call may do: nothing, give the next number to a new identity, or rewrite an entry with its number. -/
inductive GStep (p g : Nat) (kv : Kv) : Kv → Prop
  | none : GStep p g kv kv
  | new {e : Ext} {n : Nat} {kv1 : Kv} {b : Bytes} : gid p g kv e = .none → nextSeq (.groupSeq p g) kv = .ok (n, kv1) → e.read b = some n →
      (∀ s, e = .real s → ∃ r, GroupValues.dec b = some r ∧ VOk r.values) → (∀ s, e = .anon s → b = le64 n) → GStep p g kv (putK kv1 (e.key p g) b)
  | upd {s : Str} {b : Bytes} {r : GroupValues} : gid p g kv (.real s) = some r.id → r.id < 2 ^ 64 → GroupValues.dec b = some r → VOk r.values →
      GStep p g kv (putK kv (.real p g s) b)

theorem nextSeq_out {k : Key} {kv kv1 : Kv} {n : Nat} (h : nextSeq k kv = .ok (n, kv1)) : kv1 = putK kv k (le64 n) ∧ n < 2 ^ 64 := by
  unfold nextSeq at h
  split at h
  · cases h; exact ⟨rfl, by decide⟩
  · split at h
    · cases h
    · cases h; exact ⟨rfl, Nat.mod_lt _ (Nat.two_pow_pos 64)⟩

theorem GShape.put_real {p g : Nat} {kv : Kv} (h : GShape p g kv) {s : Str} {b : Bytes} {r : GroupValues} (hr : GroupValues.dec b = some r)
    (h1 : r.id < 2 ^ 64) (h2 : VOk r.values) : GShape p g (putK kv (.real p g s) b) := by
  refine ⟨fun x c hx => ?_, fun x c hx => ?_⟩
  · rw [getK_putK _ (k := .real p g s) trivial (k' := .anon p g x) trivial, if_neg (by simp)] at hx; exact h.1 x c hx
  · rw [getK_putK _ (k := .real p g s) trivial (k' := .real p g x) trivial] at hx
    by_cases e : Key.real p g x = .real p g s
    · rw [if_pos e] at hx; cases hx; exact ⟨r, hr, h1, h2⟩
    · rw [if_neg e] at hx; exact h.2 x c hx

theorem GShape.put_anon {p g : Nat} {kv : Kv} (h : GShape p g kv) {s : Str} {n : Nat} (hn : n < 2 ^ 64) :
    GShape p g (putK kv (.anon p g s) (le64 n)) := by
  refine ⟨fun x c hx => ?_, fun x c hx => ?_⟩
  · rw [getK_putK _ (k := .anon p g s) trivial (k' := .anon p g x) trivial] at hx
    by_cases e : Key.anon p g x = .anon p g s
    · rw [if_pos e] at hx; cases hx; exact ⟨n, rfl, hn⟩
    · rw [if_neg e] at hx; exact h.1 x c hx
  · rw [getK_putK _ (k := .anon p g s) trivial (k' := .real p g x) trivial, if_neg (by simp)] at hx; exact h.2 x c hx

theorem GShape.put_seq {p g : Nat} {kv : Kv} (h : GShape p g kv) (b : Bytes) : GShape p g (putK kv (.groupSeq p g) b) := by
  refine ⟨fun x c hx => ?_, fun x c hx => ?_⟩
  · rw [getK_putK _ (k := .groupSeq p g) trivial (k' := .anon p g x) trivial, if_neg (by simp)] at hx; exact h.1 x c hx
  · rw [getK_putK _ (k := .groupSeq p g) trivial (k' := .real p g x) trivial, if_neg (by simp)] at hx; exact h.2 x c hx

theorem GStep.shape {p g : Nat} {kv kv' : Kv} (h : GStep p g kv kv') (hs : GShape p g kv) : GShape p g kv' := by
  cases h with
  | none => exact hs
  | @new e n kv1 b h1 h2 h3 h4 h5 =>
    obtain ⟨rfl, hn⟩ := nextSeq_out h2
    cases e with
    | anon s => rw [h5 s rfl]; exact (hs.put_seq _).put_anon hn
    | real s =>
      obtain ⟨r, hr, hv⟩ := h4 s rfl
      simp only [Ext.read, hr, Option.map_some, Option.some.injEq] at h3
      exact (hs.put_seq _).put_real hr (by omega) hv
  | @upd s b r h1 h2 h3 h4 => exact hs.put_real h3 h2 h4

theorem GStep.kept {p g : Nat} {kv kv' : Kv} (h : GStep p g kv kv') : GKept p g kv kv' := by
  intro e' m hm
  cases h with
  | none => exact hm
  | @new e n kv1 b h1 h2 h3 h4 h5 =>
    obtain ⟨rfl, hn⟩ := nextSeq_out h2
    rw [gid_put, gid_seq]
    by_cases he : e' = e
    · subst he; rw [h1] at hm; cases hm
    · rw [if_neg he]; exact hm
  | @upd s b r h1 h2 h3 h4 =>
    have := gid_put (p := p) (g := g) (kv := kv) (.real s) e' b
    rw [show Ext.key p g (.real s) = .real p g s from rfl] at this
    rw [this]
    by_cases he : e' = .real s
    · subst he; rw [if_pos rfl]; rw [h1] at hm; simp only [Ext.read, h3]; exact hm
    · rw [if_neg he]; exact hm

theorem gSeq_lt {p g : Nat} {kv : Kv} (h : GInv p g kv) : gSeq p g kv < 2 ^ 64 := by
  unfold gSeq
  split
  · decide
  · rename_i v hv
    have := OptiPrism.Storage.fromLE_lt v
    rw [h.seq v hv] at this
    exact this

theorem gNext {p g : Nat} {kv : Kv} (h : GInv p g kv) (hl : gSeq p g kv + 1 < 2 ^ 64) :
    nextSeq (.groupSeq p g) kv = .ok (gSeq p g kv + 1, putK kv (.groupSeq p g) (le64 (gSeq p g kv + 1))) := by
  unfold nextSeq gSeq at *
  cases hv : getK kv (.groupSeq p g) with
  | none => rfl
  | some v =>
    rw [hv] at hl
    dsimp only at hl ⊢
    simp only [readU64, h.seq v hv, if_true]
    rw [Nat.mod_eq_of_lt hl]

theorem GStep.inv {p g : Nat} {kv kv' : Kv} (h : GStep p g kv kv') (hi : GInv p g kv) (hl : gSeq p g kv + 1 < 2 ^ 64) :
    GInv p g kv' ∧ gSeq p g kv' ≤ gSeq p g kv + 1 := by
  cases h with
  | none => exact ⟨hi, by omega⟩
  | @new e n kv1 b h1 h2 h3 h4 h5 =>
    rw [gNext hi hl] at h2
    cases h2
    have gs : getK (putK (putK kv (.groupSeq p g) (le64 (gSeq p g kv + 1))) (e.key p g) b) (.groupSeq p g) = some (le64 (gSeq p g kv + 1)) := by
      rw [getK_putK _ (e.key_wf p g) (k' := .groupSeq p g) trivial, if_neg (Ne.symm Ext.key_seq), getK_putK _ (k := .groupSeq p g) trivial (k' := .groupSeq p g) trivial, if_pos rfl]
    have hseq : gSeq p g (putK (putK kv (.groupSeq p g) (le64 (gSeq p g kv + 1))) (e.key p g) b) = gSeq p g kv + 1 := by
      show (match getK _ (.groupSeq p g) with | Option.none => 0 | some v => fromLE v) = _
      rw [gs]; exact fromLE_le64 hl
    have gg : ∀ x, gid p g (putK (putK kv (.groupSeq p g) (le64 (gSeq p g kv + 1))) (e.key p g) b) x = if x = e then some (gSeq p g kv + 1) else gid p g kv x := by
      intro x; rw [gid_put, gid_seq, h3]
    refine ⟨⟨?_, ?_, ?_⟩, by omega⟩
    · intro c; rw [gs]; rintro ⟨⟩; exact le64_length _
    · intro x n; rw [gg, hseq]
      by_cases hx : x = e
      · rw [if_pos hx]; rintro ⟨⟩; omega
      · rw [if_neg hx]; intro hn; have := hi.bound x n hn; omega
    · intro x y n; rw [gg, gg]
      by_cases hx : x = e
      · by_cases hy : y = e
        · intro _ _; rw [hx, hy]
        · rw [if_pos hx, if_neg hy]; rintro ⟨⟩ hn; have := hi.bound y _ hn; omega
      · by_cases hy : y = e
        · rw [if_neg hx, if_pos hy]; rintro hn ⟨⟩; have := hi.bound x _ hn; omega
        · rw [if_neg hx, if_neg hy]; exact hi.inj x y n
  | @upd s b r h1 h2 h3 h4 =>
    have gs : getK (putK kv (.real p g s) b) (.groupSeq p g) = getK kv (.groupSeq p g) := by
      rw [getK_putK _ (k := .real p g s) trivial (k' := .groupSeq p g) trivial, if_neg (by simp)]
    have hseq : gSeq p g (putK kv (.real p g s) b) = gSeq p g kv := by unfold gSeq; rw [gs]
    have gg : ∀ x, gid p g (putK kv (.real p g s) b) x = gid p g kv x := by
      intro x
      have := gid_put (p := p) (g := g) (kv := kv) (.real s) x b
      rw [show Ext.key p g (.real s) = .real p g s from rfl] at this
      rw [this]
      by_cases hx : x = .real s
      · rw [if_pos hx, hx, h1]; simp [Ext.read, h3]
      · rw [if_neg hx]
    refine ⟨⟨?_, ?_, ?_⟩, by omega⟩
    · intro c; rw [gs]; exact hi.seq c
    · intro x n; rw [gg, hseq]; exact hi.bound x n
    · intro x y n; rw [gg, gg]; exact hi.inj x y n

/-! ## The calls -/

theorem anon_step {p g : Nat} {s : Str} {kv kv' : Kv} {n : Nat} (h : anonymousId p g s kv = .ok (n, kv')) :
    GStep p g kv kv' ∧ gid p g kv' (.anon s) = some n ∧ n < 2 ^ 64 := by
  unfold anonymousId at h
  cases hv : getK kv (.anon p g s) with
  | some b =>
    rw [hv] at h
    dsimp only at h
    unfold readU64 at h
    by_cases hb : b.length = 8
    · rw [if_pos hb] at h
      cases h
      refine ⟨.none, by simp [gid, Ext.key, Ext.read, hv, hb], ?_⟩
      have := OptiPrism.Storage.fromLE_lt b
      rw [hb] at this; exact this
    · rw [if_neg hb] at h; cases h
  | none =>
    rw [hv] at h
    dsimp only at h
    cases hs : nextSeq (.groupSeq p g) kv with
    | error e => rw [hs] at h; cases h
    | ok x =>
      obtain ⟨id, kv1⟩ := x
      rw [hs] at h
      cases h
      obtain ⟨-, hn⟩ := nextSeq_out hs
      have hr : Ext.read (.anon s) (le64 n) = some n := by simp [Ext.read, le64_length, fromLE_le64 hn]
      refine ⟨.new (e := .anon s) (by simp [gid, Ext.key, hv]) hs hr (by simp) (by simp), ?_, hn⟩
      have := gid_put (p := p) (g := g) (kv := kv1) (.anon s) (.anon s) (le64 n)
      rw [if_pos rfl, hr] at this; exact this

theorem anon_real {p g : Nat} {s : Str} {kv kv' : Kv} {n : Nat} (h : anonymousId p g s kv = .ok (n, kv')) (x : Str) :
    getK kv' (.real p g x) = getK kv (.real p g x) := by
  unfold anonymousId at h
  split at h
  · split at h
    · cases h
    · cases h; rfl
  · split at h
    · cases h
    · rename_i id kv1 hs
      cases h
      obtain ⟨rfl, -⟩ := nextSeq_out hs
      rw [getK_putK _ (k := .anon p g s) trivial (k' := .real p g x) trivial, if_neg (by simp),
        getK_putK _ (k := .groupSeq p g) trivial (k' := .real p g x) trivial, if_neg (by simp)]

theorem mergeValues_ok {a b : List PropVal} (ha : VOk a) (hb : VOk b) : VOk (mergeValues a b) := by
  unfold mergeValues
  have key : ∀ (l acc : List PropVal), VOk l → VOk acc → VOk (l.foldl (fun vals v =>
      match a.findIdx? (fun x => x.propertyId == v.propertyId) with
      | some i => vals.set i v
      | none => vals ++ [v]) acc) := by
    intro l
    induction l with
    | nil => intro acc _ h; exact h
    | cons v l ih =>
      intro acc hl hacc
      rw [List.foldl_cons]
      refine ih _ (fun x hx => hl x (by simp [hx])) ?_
      split
      · intro x hx
        rcases List.mem_or_eq_of_mem_set hx with h | h
        · exact hacc x h
        · rw [h]; exact hl v (by simp)
      · intro x hx
        rcases List.mem_append.mp hx with h | h
        · exact hacc x h
        · rw [List.mem_singleton.mp h]; exact hl v (by simp)
  exact key b a hb ha

theorem real_new {p g : Nat} {s : Str} {kv kv1 : Kv} {n : Nat} {vs : List PropVal} {b : Bytes} (hv : getK kv (.real p g s) = none)
    (hs : nextSeq (.groupSeq p g) kv = .ok (n, kv1)) (hvs : VOk vs) (hb : GroupValues.enc ⟨n, vs⟩ = some b) :
    GStep p g kv (putK kv1 (.real p g s) b) ∧ gid p g (putK kv1 (.real p g s) b) (.real s) = some n ∧ n < 2 ^ 64 := by
  obtain ⟨-, hn⟩ := nextSeq_out hs
  have hd : GroupValues.dec b = some ⟨n, vs⟩ := GroupValues.dec_enc _ b hb hn hvs
  have hr : Ext.read (.real s) b = some n := by simp [Ext.read, hd]
  refine ⟨.new (e := .real s) (by simp [gid, Ext.key, hv]) hs hr (fun _ _ => ⟨_, hd, hvs⟩) (by simp), ?_, hn⟩
  have := gid_put (p := p) (g := g) (kv := kv1) (.real s) (.real s) b
  rw [if_pos rfl, hr] at this; exact this

theorem groupGet_step {p g : Nat} {s : Str} {vs : List PropVal} {kv kv' : Kv} {r : GroupValues} (hvs : VOk vs) (hsh : GShape p g kv)
    (h : groupGetOrCreate p g s vs kv = .ok (r, kv')) : GStep p g kv kv' ∧ gid p g kv' (.real s) = some r.id ∧ r.id < 2 ^ 64 := by
  unfold groupGetOrCreate at h
  cases hv : getK kv (.real p g s) with
  | some b =>
    rw [hv] at h
    dsimp only at h
    obtain ⟨r0, hr, h1, h2⟩ := hsh.2 s b hv
    unfold gvRead at h
    rw [hr] at h
    cases h
    exact ⟨.none, by simp [gid, Ext.key, Ext.read, hv, hr], h1⟩
  | none =>
    rw [hv] at h
    dsimp only at h
    cases hs : nextSeq (.groupSeq p g) kv with
    | error e => rw [hs] at h; cases h
    | ok x =>
      obtain ⟨id, kv1⟩ := x
      rw [hs] at h
      dsimp only at h
      cases hb : GroupValues.enc ⟨id, vs⟩ with
      | none => rw [hb] at h; cases h
      | some b =>
        rw [hb] at h
        cases h
        exact real_new hv hs hvs hb

theorem groupUpdate_step {p g : Nat} {s : Str} {vs : List PropVal} {kv kv' : Kv} {r : GroupValues} (hvs : VOk vs) (hsh : GShape p g kv)
    (h : groupCreateOrUpdate p g s vs kv = .ok (r, kv')) : GStep p g kv kv' ∧ gid p g kv' (.real s) = some r.id ∧ r.id < 2 ^ 64 := by
  unfold groupCreateOrUpdate at h
  cases hv : getK kv (.real p g s) with
  | some b =>
    rw [hv] at h
    dsimp only at h
    obtain ⟨r0, hr, h1, h2⟩ := hsh.2 s b hv
    unfold gvRead at h
    rw [hr] at h
    dsimp only at h
    cases hb : GroupValues.enc ⟨r0.id, mergeValues r0.values vs⟩ with
    | none => rw [hb] at h; cases h
    | some b' =>
      rw [hb] at h
      cases h
      have hd : GroupValues.dec b' = some ⟨r0.id, mergeValues r0.values vs⟩ := GroupValues.dec_enc _ b' hb h1 (mergeValues_ok h2 hvs)
      have st : GStep p g kv (putK kv (.real p g s) b') :=
        .upd (r := ⟨r0.id, mergeValues r0.values vs⟩) (by simp [gid, Ext.key, Ext.read, hv, hr]) h1 hd (mergeValues_ok h2 hvs)
      exact ⟨st, st.kept _ _ (by simp [gid, Ext.key, Ext.read, hv, hr]), h1⟩
  | none =>
    rw [hv] at h
    dsimp only at h
    cases hs : nextSeq (.groupSeq p g) kv with
    | error e => rw [hs] at h; cases h
    | ok x =>
      obtain ⟨id, kv1⟩ := x
      rw [hs] at h
      dsimp only at h
      cases hb : GroupValues.enc ⟨id, vs⟩ with
      | none => rw [hb] at h; cases h
      | some b =>
        rw [hb] at h
        cases h
        exact real_new hv hs hvs hb

/-- The merge: entries keep their numbers, and can be read. -/
theorem groupMerge_kept {p g : Nat} {a s : Str} {vs : List PropVal} {kv : Kv} (hvs : VOk vs) (hsh : GShape p g kv) :
    GShape p g (mergeWithAnonymous p g a s vs kv).2 ∧ GKept p g kv (mergeWithAnonymous p g a s vs kv).2 ∧
      ∀ r, (mergeWithAnonymous p g a s vs kv).1 = .ok r → gid p g (mergeWithAnonymous p g a s vs kv).2 (.real s) = some r.id ∧
        (getK kv (.real p g s) = none → gid p g (mergeWithAnonymous p g a s vs kv).2 (.anon a) = some r.id ∧
          getK (mergeWithAnonymous p g a s vs kv).2 (.groupSeq p g) = some (utf8 (decimal r.id))) := by
  unfold mergeWithAnonymous
  cases hv : getK kv (.real p g s) with
  | some b =>
    obtain ⟨r0, hr, h1, h2⟩ := hsh.2 s b hv
    simp only [gvRead, hr]
    refine ⟨hsh, fun _ _ h => h, fun r hr' => ⟨?_, by simp⟩⟩
    cases hr'
    simp [gid, Ext.key, Ext.read, hv, hr]
  | none =>
    dsimp only
    cases ha : anonymousId p g a kv with
    | error e => simp only [runCall, ha]; exact ⟨hsh, fun _ _ h => h, by simp⟩
    | ok x =>
      obtain ⟨id, kv1⟩ := x
      simp only [runCall, ha]
      obtain ⟨hst, hga, hid⟩ := anon_step ha
      have hsh1 := hst.shape hsh
      cases hb : GroupValues.enc ⟨id, vs⟩ with
      | none => exact ⟨hsh1, hst.kept, by simp⟩
      | some b =>
        have hd : GroupValues.dec b = some ⟨id, vs⟩ := GroupValues.dec_enc _ b hb hid hvs
        have hreal : gid p g kv1 (.real s) = none := by simp [gid, Ext.key, anon_real ha, hv]
        have gg : ∀ x, gid p g (putK (putK kv1 (.groupSeq p g) (utf8 (decimal id))) (.real p g s) b) x = if x = .real s then some id else gid p g kv1 x := by
          intro x
          have := gid_put (p := p) (g := g) (kv := putK kv1 (.groupSeq p g) (utf8 (decimal id))) (.real s) x b
          rw [gid_seq] at this
          simpa [Ext.key, Ext.read, hd] using this
        refine ⟨(hsh1.put_seq _).put_real hd hid hvs, fun e n hn => ?_, fun r hr => ?_⟩
        · dsimp only
          rw [gg]
          have h1 := hst.kept e n hn
          by_cases he : e = .real s
          · subst he; rw [hreal] at h1; cases h1
          · rw [if_neg he]; exact h1
        · cases hr
          refine ⟨by rw [gg, if_pos rfl], fun _ => ⟨by rw [gg, if_neg (by simp)]; exact hga, ?_⟩⟩
          dsimp only
          rw [getK_putK _ (k := .real p g s) trivial (k' := .groupSeq p g) trivial, if_neg (by simp),
            getK_putK _ (k := .groupSeq p g) trivial (k' := .groupSeq p g) trivial, if_pos rfl]

/-! ## Histories -/

theorem GShape.empty (p g : Nat) : GShape p g [] :=
  ⟨fun _ _ h => by simp [getK, Kv.get] at h, fun _ _ h => by simp [getK, Kv.get] at h⟩

theorem GInv.empty (p g : Nat) : GInv p g [] :=
  ⟨fun _ h => by simp [getK, Kv.get] at h, fun _ _ h => by simp [gid, getK, Kv.get] at h, fun _ _ _ h => by simp [gid, getK, Kv.get] at h⟩

theorem GShape.same {p g : Nat} {kv kv' : Kv} (h : GShape p g kv) (hs : Same (.grp p g) kv kv') : GShape p g kv' :=
  ⟨fun s b hb => h.1 s b (by rw [← hs (.anon p g s) trivial rfl]; exact hb), fun s b hb => h.2 s b (by rw [← hs (.real p g s) trivial rfl]; exact hb)⟩

theorem GInv.same {p g : Nat} {kv kv' : Kv} (h : GInv p g kv) (hs : Same (.grp p g) kv kv') : GInv p g kv' ∧ gSeq p g kv' = gSeq p g kv := by
  have h1 : getK kv' (.groupSeq p g) = getK kv (.groupSeq p g) := hs _ trivial rfl
  have h2 : gSeq p g kv' = gSeq p g kv := by unfold gSeq; rw [h1]
  exact ⟨⟨fun b => by rw [h1]; exact h.seq b, fun e n => by rw [gid_same hs, h2]; exact h.bound e n,
    fun e e' n => by rw [gid_same hs, gid_same hs]; exact h.inj e e' n⟩, h2⟩

/-- The request is not a merge in this group. -/
def Req.NoMerge (p g : Nat) : Req Q → Prop
  | .groupMerge p' g' .. => ¬ (p' = p ∧ g' = g)
  | _ => True

theorem exec_gstep (E : Env Q) {r : Req Q} (hr : r.Ok) {p g : Nat} (hm : r.NoMerge p g) (hg : Mod.grp p g ∈ r.mods) {kv : Kv} (hs : GShape p g kv) :
    GStep p g kv (r.exec E kv) := by
  cases r <;> simp [Req.mods] at hg
  case anonymous p' g' s =>
    obtain ⟨rfl, rfl⟩ := hg
    show GStep p g kv (runCall (anonymousId p g s) kv).2
    unfold runCall
    cases h : anonymousId p g s kv with
    | error e => exact .none
    | ok x => exact (anon_step h).1
  case groupGet p' g' s vs =>
    obtain ⟨rfl, rfl⟩ := hg
    show GStep p g kv (runCall (groupGetOrCreate p g s vs) kv).2
    unfold runCall
    cases h : groupGetOrCreate p g s vs kv with
    | error e => exact .none
    | ok x => exact (groupGet_step hr hs h).1
  case groupUpdate p' g' s vs =>
    obtain ⟨rfl, rfl⟩ := hg
    show GStep p g kv (runCall (groupCreateOrUpdate p g s vs) kv).2
    unfold runCall
    cases h : groupCreateOrUpdate p g s vs kv with
    | error e => exact .none
    | ok x => exact (groupUpdate_step hr hs h).1
  case groupMerge p' g' a s vs =>
    obtain ⟨rfl, rfl⟩ := hg
    exact absurd ⟨rfl, rfl⟩ hm

theorem exec_gkept (E : Env Q) {r : Req Q} (hr : r.Ok) (p g : Nat) {kv : Kv} (hs : GShape p g kv) :
    GShape p g (r.exec E kv) ∧ GKept p g kv (r.exec E kv) := by
  by_cases hg : Mod.grp p g ∈ r.mods
  · by_cases hm : r.NoMerge p g
    · have := exec_gstep E hr hm hg hs
      exact ⟨this.shape hs, this.kept⟩
    · cases r <;> simp only [Req.NoMerge, not_true_eq_false, Classical.not_not] at hm
      case groupMerge p' g' a s vs =>
        obtain ⟨rfl, rfl⟩ := hm
        have := groupMerge_kept (a := a) (s := s) hr hs
        exact ⟨this.1, this.2.1⟩
  · have hsm := exec_same E hr hg kv
    exact ⟨hs.same hsm, fun e n hn => by rw [gid_same hsm]; exact hn⟩

theorem Runs.gkept {E : Env Q} {P : Req Q → Prop} {n : Nat} {kv kv' : Kv} (h : Runs E P kv n kv') (p g : Nat) (hs : GShape p g kv) :
    GShape p g kv' ∧ GKept p g kv kv' := by
  induction h with
  | refl => exact ⟨hs, fun _ _ h => h⟩
  | step r _ hr _ ih =>
    obtain ⟨h1, h2⟩ := exec_gkept E hr p g ih.1
    exact ⟨h1, fun e n hn => h2 e n (ih.2 e n hn)⟩

theorem Hist.gshape {E : Env Q} {n : Nat} {kv : Kv} (h : Hist E n kv) (p g : Nat) : GShape p g kv := by
  induction h with
  | start => exact GShape.empty p g
  | step r _ hr ih => exact (exec_gkept E hr p g ih).1

theorem Runs.ginv {E : Env Q} {p g : Nat} {n : Nat} {kv : Kv} (h : Runs E (Req.NoMerge p g) [] n kv) (hn : n < 2 ^ 63) :
    GShape p g kv ∧ GInv p g kv ∧ gSeq p g kv ≤ n := by
  refine ⟨(h.gkept p g (GShape.empty p g)).1, ?_⟩
  induction h with
  | refl => exact ⟨GInv.empty p g, by simp [gSeq, getK, Kv.get]⟩
  | @step n kv r h0 hr hp ih =>
    obtain ⟨h1, h2⟩ := ih (by omega)
    by_cases hg : Mod.grp p g ∈ r.mods
    · have := (exec_gstep E hr hp hg (h0.gkept p g (GShape.empty p g)).1).inv h1 (by omega)
      exact ⟨this.1, by omega⟩
    · have := h1.same (exec_same E hr hg kv)
      exact ⟨this.1, by omega⟩

end OptiPrism.Meta
