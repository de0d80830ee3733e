import Verif.Ingest.IngestProps
import Verif.Ingest.PropRowsProps

/-!
# The numbers of events and the versions of groups
-/

namespace OptiPrism.Ingest

open OptiPrism.Meta
open OptiPrism.Storage (Bytes Value NamedValue Tbl InsertErr ColType Field Row)

variable {Q α β : Type}

/-- The numbers ingestion draws: of the event rows of a project, and of the rows of a kind of groups. -/
inductive Ctr where
  | events (p : Nat)
  | versions (p g : Nat)

def Ctr.key : Ctr → Key
  | .events p => .recSeq p
  | .versions p g => .groupRecSeq p g

def Ctr.project : Ctr → Nat
  | .events p => p
  | .versions p _ => p

/-- The table and column with the number. -/
def Ctr.table : Ctr → Str
  | .events _ => kEvents
  | .versions _ g => groupCol g

def Ctr.col : Ctr → Str
  | .events _ => kEventId
  | .versions _ _ => kVersion

def seqOf (kv : Kv) (k : Key) : Nat :=
  match getK kv k with
  | none => 0
  | some b => Storage.fromLE b

def Counted (k : Key) (kv : Kv) (n : Nat) : Prop := ∀ b, getK kv k = some b → ∃ j, j ≤ n ∧ b = le64 j

theorem Counted.mono {k : Key} {kv : Kv} {n m : Nat} (h : Counted k kv n) (hm : n ≤ m) : Counted k kv m := fun b hb => by
  obtain ⟨j, h1, h2⟩ := h b hb
  exact ⟨j, by omega, h2⟩

theorem Counted.draw {k : Key} (hk : k.WF) {kv : Kv} {n : Nat} (h : Counted k kv n) (hn : n + 1 < 2 ^ 63) :
    nextSeq k kv = .ok (seqOf kv k + 1, putK kv k (le64 (seqOf kv k + 1))) ∧ seqOf kv k ≤ n ∧ Counted k (putK kv k (le64 (seqOf kv k + 1))) (n + 1) ∧
      seqOf (putK kv k (le64 (seqOf kv k + 1))) k = seqOf kv k + 1 := by
  have h0 : seqOf kv k ≤ n ∧ nextSeq k kv = .ok (seqOf kv k + 1, putK kv k (le64 (seqOf kv k + 1))) := by
    unfold seqOf nextSeq
    cases hv : getK kv k with
    | none => exact ⟨Nat.zero_le _, rfl⟩
    | some b =>
      obtain ⟨j, h1, rfl⟩ := h b hv
      have e : Storage.fromLE (le64 j) = j := fromLE_le64 (by omega)
      have e2 : readU64 (le64 j) = .ok j := by unfold readU64; rw [if_pos (le64_length j), e]
      dsimp only
      rw [e, e2]
      dsimp only
      rw [Nat.mod_eq_of_lt (by omega)]
      exact ⟨h1, rfl⟩
  refine ⟨h0.2, h0.1, fun b hb => ?_, ?_⟩
  · rw [getK_putK _ hk hk, if_pos rfl] at hb
    cases hb
    exact ⟨_, by omega, rfl⟩
  · have key : ∀ m, m < 2 ^ 64 → seqOf (putK kv k (le64 m)) k = m := fun m hm => by
      unfold seqOf
      rw [getK_putK _ hk hk, if_pos rfl]
      exact fromLE_le64 hm
    exact key _ (by omega)

theorem Ctr.wf (c : Ctr) : c.key.WF := by cases c <;> trivial

/-- Only drawing a number changes the counter. -/
theorem exec_counter (S : Meta.Env Q) (c : Ctr) {r : Req Q} (hr : r.Ok) (kv : Kv) :
    getK (r.exec S kv) c.key = getK kv c.key ∨ r.exec S kv = (runCall (nextSeq c.key) kv).2 := by
  by_cases hm : c.key.mod ∈ r.mods
  · right
    cases c <;> cases r <;> simp [Ctr.key, Key.mod, Req.mods, PropType.coll] at hm
    all_goals first | (subst hm; rfl) | (obtain ⟨rfl, rfl⟩ := hm; rfl) | skip
  · left; exact exec_same S hr hm kv c.key c.wf rfl

theorem runs_counted {S : Meta.Env Q} {P : Req Q → Prop} (c : Ctr) {kv kv' : Kv} {m : Nat} (h : Runs S P kv m kv') {n : Nat} (hc : Counted c.key kv n) (hn : n + m < 2 ^ 63) :
    Counted c.key kv' (n + m) ∧ seqOf kv c.key ≤ seqOf kv' c.key := by
  induction h with
  | refl => exact ⟨hc, Nat.le_refl _⟩
  | @step m kv1 r hr ho hp ih =>
    obtain ⟨h1, h2⟩ := ih (by omega)
    rcases exec_counter S c ho kv1 with e | e
    · have e2 : seqOf (r.exec S kv1) c.key = seqOf kv1 c.key := by unfold seqOf; rw [e]
      exact ⟨fun b hb => (h1.mono (by omega)) b (e ▸ hb), by omega⟩
    · obtain ⟨g1, g2, g3, g4⟩ := h1.draw c.wf (by omega)
      rw [e]
      simp only [runCall, g1]
      exact ⟨g3, by rw [g4]; omega⟩

/-- Spec: the number a row of the counter's table shows for the project, if it is of the project. -/
def Ctr.isRow (c : Ctr) (x : Str × List NamedValue) : Bool := x.1 = c.table ∧ val x.2 kProjectId = i64 c.project

def Ctr.number (c : Ctr) (x : Str × List NamedValue) : Option Nat := storedKey (val x.2 c.col)

/-- The rows added have rising numbers, above the counter before, up to the counter after. -/
def NumOk (c : Ctr) (w w' : World) : Prop :=
  seqOf w.kv c.key ≤ seqOf w'.kv c.key ∧ ∃ (new : List (Str × List NamedValue)) (ns : List Nat), w'.rows = w.rows ++ new ∧ (new.filter c.isRow).map c.number = ns.map some ∧ ns.Pairwise (· < ·) ∧
    ∀ i ∈ ns, seqOf w.kv c.key < i ∧ i ≤ seqOf w'.kv c.key

theorem NumOk.trans {c : Ctr} {w1 w2 w3 : World} (h : NumOk c w1 w2) (h' : NumOk c w2 w3) : NumOk c w1 w3 := by
  obtain ⟨a1, new, ns, a2, a3, a4, a5⟩ := h
  obtain ⟨b1, new', ns', b2, b3, b4, b5⟩ := h'
  refine ⟨by omega, new ++ new', ns ++ ns', by rw [b2, a2, List.append_assoc], by simp [a3, b3], ?_, ?_⟩
  · rw [List.pairwise_append]
    exact ⟨a4, b4, fun i hi j hj => by have := a5 i hi; have := b5 j hj; omega⟩
  · intro i hi
    rcases List.mem_append.mp hi with hi | hi
    · have := a5 i hi; omega
    · have := b5 i hi; omega

def Numbers (S : Meta.Env Q) (c : Ctr) (B : Nat) {α : Type} (x : M α) (Post : α → Prop) : Prop :=
  ∀ w n, Hist S n w.kv → n + B < 2 ^ 62 → (∃ m, m ≤ B ∧ Hist S (n + m) (x w).2.kv) ∧ NumOk c w (x w).2 ∧ ∀ a w', x w = (.ok a, w') → Post a

theorem hist_counted {S : Meta.Env Q} (c : Ctr) {n : Nat} {kv : Kv} (h : Hist S n kv) (hn : n < 2 ^ 63) : Counted c.key kv n := by
  have hr : Runs S (fun _ => True) [] n kv := by
    clear hn
    induction h with
    | start => exact .refl
    | step r _ hr ih => exact .step r ih hr trivial
  have := (runs_counted c hr (n := 0) (fun b hb => by cases hb) (by omega)).1
  simpa using this

variable {S : Meta.Env Q} {P : Req Q → Prop}

theorem Numbers.of {c : Ctr} {B : Nat} {x : M α} {Post : α → Prop} (hr : NoRows x) (hf : Follows S P B x Post) : Numbers S c B x Post := by
  intro w n hc hn
  obtain ⟨⟨m, hm, h⟩, hp⟩ := hf w
  obtain ⟨-, h2⟩ := runs_counted c h (hist_counted c hc (by omega)) (by omega)
  exact ⟨⟨m, hm, h.hist hc⟩, ⟨h2, [], [], by rw [hr w]; simp, rfl, .nil, by simp⟩, hp⟩

theorem Numbers.bind {c : Ctr} {B C : Nat} {x : M α} {f : α → M β} {Post : α → Prop} {Post' : β → Prop} (h : Numbers S c B x Post)
    (hf : ∀ a, Post a → Numbers S c C (f a) Post') : Numbers S c (B + C) (x.bind f) Post' := by
  intro w n hc hn
  obtain ⟨⟨m, hm, h1⟩, h2, h3⟩ := h w n hc (by omega)
  unfold M.bind
  rcases hx : x w with ⟨_ | a, w'⟩ <;> rw [hx] at h1 h2 <;> dsimp only at h1 h2 ⊢
  · exact ⟨⟨m, by omega, h1⟩, h2, fun b w'' e => by cases e⟩
  · obtain ⟨⟨m', hm', g1⟩, g2, g3⟩ := hf a (h3 a w' hx) w' (n + m) h1 (by omega)
    exact ⟨⟨m + m', by omega, by rw [← Nat.add_assoc]; exact g1⟩, h2.trans g2, g3⟩

theorem Numbers.mono {c : Ctr} {B C : Nat} {x : M α} {Post Post' : α → Prop} (h : Numbers S c B x Post) (hB : B ≤ C) (hp : ∀ a, Post a → Post' a) : Numbers S c C x Post' := by
  intro w n hc hn
  obtain ⟨⟨m, hm, h1⟩, h2, h3⟩ := h w n hc (by omega)
  exact ⟨⟨m, by omega, h1⟩, h2, fun a w' e => hp a (h3 a w' e)⟩

theorem storedKey_i64 {k : Nat} (h : k < 2 ^ 63) : storedKey (i64 k) = some k := by
  show some ((BitVec.ofNat 64 k).signExtend 64).toNat = some k
  congr 1
  rw [BitVec.signExtend_eq]
  simp; omega

theorem Ctr.eq_of {c d : Ctr} (ht : d.table = c.table) (hp : i64 d.project = i64 c.project) (hc : c.project < 2 ^ 64) (hd : d.project < 2 ^ 64) : c = d := by
  have e : d.project = c.project := by
    have : BitVec.ofNat 64 d.project = BitVec.ofNat 64 c.project := by simpa [i64] using hp
    have := congrArg BitVec.toNat this
    simpa [Nat.mod_eq_of_lt hc, Nat.mod_eq_of_lt hd] using this
  cases c <;> cases d <;> simp only [Ctr.table, Ctr.project] at ht e <;> subst e
  · rfl
  · exact absurd ht (kEvents_ne _)
  · exact absurd ht.symm (kEvents_ne _)
  · rw [groupCol_inj.mp ht]

/-- Drawing a number and then storing a row under it. -/
theorem Numbers.store {c d : Ctr} (hcp : c.project < 2 ^ 64) (hdp : d.project < 2 ^ 64) {y : Nat → M β} (hy : ∀ k w, (y k w).2 = w) {row : Nat → β → List NamedValue}
    (hp : ∀ k b, val (row k b) kProjectId = i64 d.project) (hk : ∀ k b, val (row k b) d.col = i64 k) :
    Numbers S c 1 ((call (nextSeq d.key)).bind fun k => (y k).bind fun b => insertRow d.table (row k b)) (fun _ => True) := by
  intro w n hh hn
  have hc := hist_counted c hh (by omega)
  let r : Req Q := match d with | .events p => .eventRecord p | .versions p g => .groupRecord p g
  have hr : r.Ok := by cases d <;> trivial
  have hex : ∀ kv, (runCall (nextSeq d.key) kv).2 = r.exec S kv := by cases d <;> exact fun _ => rfl
  refine ⟨?_, ?_⟩
  · have : Follows S (fun _ => True) 1 ((call (nextSeq d.key)).bind fun k => (y k).bind fun b => insertRow d.table (row k b)) (fun _ => True) :=
      Follows.bind (C := 0) (Post := fun _ => True) (Follows.call r hex hr trivial fun _ _ _ _ => trivial) fun k _ =>
        Follows.bind (B := 0) (Post := fun _ => True) (fun w => ⟨⟨0, Nat.le_refl _, by rw [hy]; exact .refl⟩, fun _ _ _ => trivial⟩) fun b _ => Follows.insertRow
    obtain ⟨⟨m, hm, h⟩, -⟩ := this w
    exact ⟨m, hm, h.hist hh⟩
  by_cases hcd : c = d
  · subst hcd
    obtain ⟨g1, g2, g3, g4⟩ := hc.draw c.wf (by omega)
    have e1 : call (nextSeq c.key) w = (.ok (seqOf w.kv c.key + 1), { w with kv := putK w.kv c.key (le64 (seqOf w.kv c.key + 1)) }) := by
      simp only [call, callRaw, runCall, g1]
    generalize hw1 : ({ w with kv := putK w.kv c.key (le64 (seqOf w.kv c.key + 1)) } : World) = w1 at e1
    have hkv : w1.kv = putK w.kv c.key (le64 (seqOf w.kv c.key + 1)) := by rw [← hw1]
    have hrows : w1.rows = w.rows := by rw [← hw1]
    have key : ∀ w2 : World, w2.kv = w1.kv → w2.rows = w.rows ∨ (∃ b, w2.rows = w.rows ++ [(c.table, row (seqOf w.kv c.key + 1) b)]) →
        NumOk c w w2 := by
      intro w2 hk2 hr2
      have es : seqOf w2.kv c.key = seqOf w.kv c.key + 1 := by rw [hk2, hkv]; exact g4
      refine ⟨by omega, ?_⟩
      rcases hr2 with hr2 | ⟨b, hr2⟩
      · exact ⟨[], [], by rw [hr2]; simp, rfl, .nil, by simp⟩
      · refine ⟨_, [seqOf w.kv c.key + 1], hr2, ?_, by simp, ?_⟩
        · have : c.isRow (c.table, row (seqOf w.kv c.key + 1) b) = true := by simp [Ctr.isRow, hp]
          rw [List.filter_cons, if_pos this, List.filter_nil, List.map_cons, List.map_nil, List.map_cons, List.map_nil]
          unfold Ctr.number
          rw [hk, storedKey_i64 (by omega)]
        · intro i hi
          simp only [List.mem_singleton] at hi
          omega
    refine ⟨?_, fun _ _ _ => trivial⟩
    unfold M.bind
    rw [e1]
    dsimp only
    have := hy (seqOf w.kv c.key + 1) w1
    rcases hb : y (seqOf w.kv c.key + 1) w1 with ⟨_ | b, w2⟩ <;> rw [hb] at this <;> dsimp only at this ⊢ <;> subst this
    · exact key _ rfl (.inl hrows)
    · unfold insertRow
      split
      · exact key _ rfl (.inl hrows)
      · exact key _ rfl (.inr ⟨b, by dsimp only; rw [hrows]⟩)
  · have e1 : (call (nextSeq d.key) w).2.rows = w.rows ∧ getK (call (nextSeq d.key) w).2.kv c.key = getK w.kv c.key := by
      unfold call callRaw runCall
      cases hx : nextSeq d.key w.kv with
      | error e => exact ⟨rfl, rfl⟩
      | ok x =>
        obtain ⟨k, kv1⟩ := x
        obtain ⟨rfl, -⟩ := nextSeq_out hx
        refine ⟨rfl, ?_⟩
        show getK (putK w.kv d.key _) c.key = _
        rw [getK_putK _ d.wf c.wf, if_neg]
        intro e
        apply hcd
        cases c <;> cases d <;> simp only [Ctr.key, Key.recSeq.injEq, Key.groupRecSeq.injEq, reduceCtorEq] at e
        · rw [e]
        · rw [e.1, e.2]
    have key : ∀ w2 : World, getK w2.kv c.key = getK w.kv c.key → w2.rows = w.rows ∨ (∃ k b, w2.rows = w.rows ++ [(d.table, row k b)]) →
        NumOk c w w2 := by
      intro w2 hk2 hr2
      have es : seqOf w2.kv c.key = seqOf w.kv c.key := by unfold seqOf; rw [hk2]
      refine ⟨by omega, ?_⟩
      rcases hr2 with hr2 | ⟨k, b, hr2⟩
      · exact ⟨[], [], by rw [hr2]; simp, rfl, .nil, by simp⟩
      · refine ⟨_, [], hr2, ?_, by simp, by simp⟩
        have : ¬ c.isRow (d.table, row k b) = true := by
          simp only [Ctr.isRow, decide_eq_true_eq, not_and]
          rw [hp]
          exact fun h1 h2 => hcd (Ctr.eq_of h1 h2 hcp hdp)
        rw [List.filter_cons, if_neg this]
        rfl
    refine ⟨?_, fun _ _ _ => trivial⟩
    unfold M.bind
    rcases hx : call (nextSeq d.key) w with ⟨_ | k, w1⟩ <;> rw [hx] at e1 <;> dsimp only at e1 ⊢
    · exact key _ e1.2 (.inl e1.1)
    · have := hy k w1
      rcases hb : y k w1 with ⟨_ | b, w2⟩ <;> rw [hb] at this <;> dsimp only at this ⊢ <;> subst this
      · exact key _ e1.2 (.inl e1.1)
      · unfold insertRow
        split
        · exact key _ e1.2 (.inl e1.1)
        · exact key _ e1.2 (.inr ⟨k, b, by dsimp only; rw [e1.1]⟩)

/-- Nothing changes. -/
def Still (x : M α) : Prop := ∀ w, (x w).2 = w

theorem Still.read (f : Kv → Except Err α) : Still (read f) := by
  intro w
  unfold Ingest.read callRaw
  dsimp only
  cases f w.kv <;> rfl

theorem Still.bind {x : M α} {f : α → M β} (hx : Still x) (hf : ∀ a, Still (f a)) : Still (x.bind f) := by
  intro w
  have := hx w
  unfold M.bind
  rcases h : x w with ⟨_ | a, w1⟩ <;> rw [h] at this <;> dsimp only at this ⊢ <;> subst this
  · rfl
  · exact hf a _

theorem Still.each {f : α → M β} (l : List α) (hf : ∀ a, Still (f a)) : Still (each f l) := by
  induction l with
  | nil => exact fun _ => rfl
  | cons a l ih => exact (hf a).bind fun _ => ih.bind fun _ _ => rfl

theorem valueCells_still (sys : Str → Str) (p g : Nat) (vals : List PropVal) : Still (valueCells sys p g vals) :=
  .each _ fun _ => (Still.read _).bind fun _ _ => rfl

theorem utmCells_numbers {c : Ctr} (hsys : ∀ n, '/' ∉ S.sys n)
    (hutm : ∀ n ∈ ["UTM Source".toList, "UTM Medium".toList, "UTM Campaign".toList, "UTM Term".toList, "UTM Content".toList], S.sys n ≠ kEventId)
    {p : Nat} (cm0 : Option Campaign) : Numbers S c 5 (utmCells S.sys p cm0) (fun utm => ∀ v ∈ utm, v.name ≠ String.ofList kEventId) := by
  intro w n hh hn
  obtain ⟨k1, k2, -⟩ := (Numbers.of (S := S) (c := c) (utmCells_noTbl S.sys p cm0).noRows (utmCells_follows hsys cm0)) w n hh hn
  refine ⟨k1, k2, fun utm w' e v hv => ?_⟩
  cases hcm : cm0 with
  | none => rw [hcm] at e; cases e; cases hv
  | some cm =>
    rw [hcm] at e
    unfold utmCells at e
    obtain ⟨l1, a, l2, bs1, wa, wb, bs2, hl, j1, j2, -⟩ := each_mem e v hv
    obtain ⟨m, hm, R⟩ := (utm_follows hsys (p := p) l1).runs j1
    have hlen : l1.length ≤ 5 := by
      have : cm.pairs.length ≤ 5 := by unfold Campaign.pairs; cases cm.medium <;> cases cm.campaign <;> cases cm.term <;> cases cm.content <;> simp
      rw [hl] at this
      simp at this; omega
    obtain ⟨q, wq, i1, i2⟩ := bind_ok j2
    obtain ⟨i3, rfl⟩ := read_ok i1
    obtain ⟨gv, wg, i4, i5⟩ := bind_ok i2
    cases i5
    have hi := (hist_props (R.hist hh) (by omega) p .event).inv (props_ok p .event)
    rcases (getBy_eq hi (i := (.name, fun r => some r.name)) (by simp [propsC]) a.1 _).mp i3 with ⟨id, q', h1, h2, h3⟩ | ⟨-, h2⟩
    · cases h3
      have hqn : q.name = a.1 := Option.some.inj h2
      intro e
      have e' : q.columnName S.sys = kEventId := String.ofList_injective e
      cases hsy : q.isSystem with
      | false => exact (columnName_col (sys := S.sys) hsy).ne (by decide +kernel) e'
      | true =>
        unfold Property.columnName at e'
        rw [if_pos hsy, hqn] at e'
        refine hutm a.1 ?_ e'
        have : (a.1, a.2) ∈ cm.pairs := by rw [hl]; simp
        have := (says_pairs cm a.1 a.2).mpr this
        unfold Campaign.Says at this
        simp only [List.mem_cons, List.not_mem_nil, or_false]
        rcases this with h | h | h | h | h <;> simp [h.1]
    · cases h2

theorem sendTrack_numbers {c : Ctr} (hc : c.project < 2 ^ 64) {E : Env Track} (hs : E.sys = S.sys) (hsys : ∀ n, '/' ∉ S.sys n)
    (hutm : ∀ n ∈ ["UTM Source".toList, "UTM Medium".toList, "UTM Campaign".toList, "UTM Term".toList, "UTM Content".toList], S.sys n ≠ kEventId)
    {p : Nat} (hp : p < 2 ^ 64)
    (req : Track) (r : Resolved) (hu : r.user < 2 ^ 64) : Numbers S c ((r.props.getD []).length + 8) (sendTrack E p req r) (fun _ => True) := by
  have hrow : ∀ rec ev cells, val (eventRow p r.user rec ev req.time (groupCells r.groups) cells) kProjectId = i64 p ∧
      val (eventRow p r.user rec ev req.time (groupCells r.groups) cells) kEventId = i64 rec := by
    intro rec ev cells
    have := eventRow_cells p r.user rec ev req.time r.groups cells
    exact ⟨Option.some.inj this.project, Option.some.inj this.record⟩
  have hses : ∀ rec ev cells utm, (∀ v ∈ utm, v.name ≠ String.ofList kEventId) → val (sessionRow p r.user rec ev req.time req.ip (groupCells r.groups) utm cells) kProjectId = i64 p ∧
      val (sessionRow p r.user rec ev req.time req.ip (groupCells r.groups) utm cells) kEventId = i64 rec := by
    intro rec ev cells utm hne
    have h0 : sessionRow p r.user rec ev req.time req.ip (groupCells r.groups) utm cells = keyCells p r.user ++ (groupCells r.groups ++ (utm ++
      (nv kCreatedAt (.timestamp (some (secs req.time))) :: nv kEventId (i64 rec) :: nv kEvent (i64 ev) :: nv kIp (.string (some (utf8 req.ip))) :: cells))) := by
      simp [sessionRow]
    rw [h0]
    exact ⟨(val_key p r.user _).1, by rw [val_key_skip _ _ _ (by decide +kernel) (ne_eventId 0), val_skip (groupCells_skip ne_eventId), val_skip hne, val_cons,
      if_neg (by decide +kernel), val_cons, if_pos rfl]⟩
  have utmN := utmCells_numbers (S := S) (c := c) hsys hutm (p := p) req.campaign
  have last : ∀ cells, Numbers S c 1 ((call (nextSeq (.recSeq p))).bind fun rec => insertRow kEvents (eventRow p r.user rec r.event.id req.time (groupCells r.groups) cells)) (fun _ => True) :=
    fun cells => Numbers.store (d := .events p) (β := Unit) hc hp (y := fun _ => M.pure ()) (fun _ _ => rfl)
      (row := fun rec _ => eventRow p r.user rec r.event.id req.time (groupCells r.groups) cells) (fun k _ => (hrow k _ _).1) (fun k _ => (hrow k _ _).2)
  have first : ∀ (isNew : Bool) utm cells, (∀ v ∈ utm, v.name ≠ String.ofList kEventId) → Numbers S c 1 (if isNew then
      (call (nextSeq (.recSeq p))).bind fun rec => (read ((eventsC p).getBy .name kSessionBegin)).bind fun ev =>
        insertRow kEvents (sessionRow p r.user rec ev.id req.time req.ip (groupCells r.groups) utm cells)
      else M.pure ()) (fun _ => True) := by
    intro isNew utm cells hne
    cases isNew with
    | true =>
      exact Numbers.store (d := .events p) hc hp (y := fun _ => read ((eventsC p).getBy .name kSessionBegin)) (fun _ => Still.read _)
        (row := fun rec ev => sessionRow p r.user rec ev.id req.time req.ip (groupCells r.groups) utm cells) (fun k _ => (hses k _ _ _ hne).1) (fun k _ => (hses k _ _ _ hne).2)
    | false => exact (Numbers.of (S := S) (P := fun _ => True) (NoTbl.pure ()).noRows (Follows.pure trivial)).mono (by omega) fun _ h => h
  have vals : Numbers S c 0 (each (fun g : Nat × GroupValues => valueCells S.sys p g.1 g.2.values) (r.groups.getD [])) (fun _ => True) :=
    Numbers.of (S := S) (P := SendReq p) (NoTbl.each (r.groups.getD []) fun g => valueCells_noTbl S.sys p g.1 g.2.values).noRows
      ((Follows.each (S := S) (P := SendReq p) (r.groups.getD []) fun g _ => valueCells_follows g.2.values).mono (fun _ h => h) (by simp) fun _ _ => trivial)
  have h0 : Numbers S c 1 (call (setCurrentTime p r.user E.now)) (fun _ => True) :=
    Numbers.of (NoTbl.call _).noRows (Follows.call (P := SendReq p) (Post := fun _ => True) (.sessionSet p r.user E.now) (fun _ => rfl) hu rfl (fun _ _ _ _ => trivial))
  have h1 : Numbers S c (r.props.getD []).length (propCells S.sys p kEvents (r.props.getD [])) (fun _ => True) :=
    Numbers.of (propCells_noTbl S.sys p kEvents _).noRows (propCells_follows hsys _)
  unfold sendTrack
  rw [hs]
  exact (h0.bind fun isNew _ => h1.bind fun props _ => vals.bind fun gprops _ => utmN.bind fun utm hne => (first isNew utm (props ++ gprops.flatten) hne).bind fun _ _ => last _).mono
    (by omega) fun _ h => h

theorem executeTrack_numbers {c : Ctr} (hc : c.project < 2 ^ 64) {E : Env Track} (hs : E.sys = S.sys) (hsys : ∀ n, '/' ∉ S.sys n)
    (hutm : ∀ n ∈ ["UTM Source".toList, "UTM Medium".toList, "UTM Campaign".toList, "UTM Term".toList, "UTM Content".toList], S.sys n ≠ kEventId)
    {K : Nat} (hK : E.Bounded K) (token : Str) (req : Track) :
    Numbers S c (2 * (req.props.getD []).length + 3 * (req.groups.getD []).length + K + 13) (executeTrack E token req) (fun _ => True) := by
  unfold executeTrack
  have hb : ∀ project : Project, project.id < 2 ^ 64 → Numbers S c _ ((resolveTrack E project.id req).bind fun r =>
      (sendTrack E project.id req r).bind fun _ => (call (incrementEvents project.id)).bind fun _ => M.pure ()) (fun _ => True) := fun project hp =>
    Numbers.bind (Numbers.of (resolveTrack_noRows E project.id req) (resolveTrack_follows hs hK hp req)) fun r hr =>
    Numbers.bind ((sendTrack_numbers hc hs hsys hutm hp req r hr.1).mono (Nat.add_le_add_right hr.2 8) (fun _ h => h)) fun _ _ =>
    Numbers.bind (Numbers.of (NoTbl.call _).noRows (Follows.call (P := fun _ => True) (Post := fun _ => True) (.projectIncrement project.id) (fun _ => rfl) trivial trivial (fun _ _ _ _ => trivial))) fun _ _ =>
    Numbers.of (P := fun _ => True) (NoTbl.pure _).noRows (Follows.pure trivial)
  refine (Numbers.bind (Numbers.of (P := fun _ => True) (Post := fun project => project.id < 2 ^ 64) (NoTbl.read _).noRows (Follows.read fun kv a e => ?_)) hb).mono (by omega) fun _ h => h
  obtain ⟨b, hb⟩ := getBy_dec e
  exact project_dec_lt hb

theorem sendIdentify_numbers {c : Ctr} (hc : c.project < 2 ^ 64) {p g : Nat} (hp : p < 2 ^ 64) (t : Time) (vals : GroupValues) :
    Numbers S c 1 (sendIdentify S.sys p g t vals) (fun _ => True) :=
  Numbers.store (d := .versions p g) hc hp (y := fun _ => valueCells S.sys p g vals.values) (fun _ => valueCells_still _ _ _ _)
    (row := fun k cells => [nv kProjectId (i64 p), nv kId (i64 vals.id), nv kVersion (i64 k), nv kCreatedAt (.timestamp (some (millis t)))] ++ cells)
    (fun k b => val_head _ _ _) (fun k b => by
      show val (nv kProjectId (i64 p) :: nv kId (i64 vals.id) :: nv kVersion (i64 k) :: nv kCreatedAt (.timestamp (some (millis t))) :: b) kVersion = _
      rw [val_cons, if_neg (by decide +kernel), val_cons, if_neg (by decide +kernel), val_cons, if_pos rfl])

theorem executeIdentify_numbers {c : Ctr} (hc : c.project < 2 ^ 64) (hsys : ∀ n, '/' ∉ S.sys n) (now : Time) (token : Str) (req : Identify) :
    Numbers S c (2 * (req.props.getD []).length + 4) (executeIdentify S.sys now token req) (fun _ => True) := by
  unfold executeIdentify
  have hb : ∀ project : Project, project.id < 2 ^ 64 → Numbers S c (1 + ((req.props.getD []).length + ((req.props.getD []).length * (1 + 0) + (1 + (1 + 1)))))
      ((call (getOrCreateGroup project.id req.group req.group)).bind fun grp =>
        (resolveProperties S.sys now project.id (.group grp.id) req.props).bind fun props =>
        (each (fun pv => (propertyToValue S.sys project.id (groupCol 0) pv).bind fun v => M.pure (⟨pv.1.id, v⟩ : PropVal)) (props.getD [])).bind fun vals =>
        (call (groupCreateOrUpdate project.id grp.id req.id vals)).bind fun gv =>
        (call (dictCreateKey project.id (groupCol grp.id) kId gv.id req.id)).bind fun _ =>
        sendIdentify S.sys project.id grp.id req.time gv) (fun _ => True) := fun project hp =>
    Numbers.bind (Numbers.of (NoTbl.call _).noRows (Follows.call (P := IdentifyReq project.id) (.groupName project.id req.group req.group) (fun _ => rfl) trivial rfl (fun _ _ _ e => getOrCreateGroup_lt e))) fun grp hgrp =>
    Numbers.bind (Numbers.of (resolveProperties_noRows _ _ _ _ _) (resolveProperties_follows (P := IdentifyReq project.id) hp (fun g h => by cases h; exact hgrp) req.props (fun nvp => ⟨rfl, _, rfl, rfl⟩))) fun props hprops =>
    Numbers.bind (Numbers.of (NoTbl.each _ fun _ => (propertyToValue_noTbl _ _ _ _).bind fun _ => .pure _).noRows
      ((Follows.each (P := IdentifyReq project.id) (Post := fun v : PropVal => v.propertyId < 2 ^ 64) (props.getD []) fun pv hpv =>
          Follows.bind (propertyToValue_follows (slash_groupCol 0) hsys _ fun _ _ => ⟨rfl, rfl⟩) fun _ _ => Follows.pure (hprops.2 pv hpv)).mono (fun _ h => h)
            (Nat.mul_le_mul_right _ hprops.1) (fun _ h => h))) fun vals hvals =>
    Numbers.bind (Numbers.of (NoTbl.call _).noRows (Follows.call (P := IdentifyReq project.id) (.groupUpdate project.id grp.id req.id vals) (fun _ => rfl) hvals.2 rfl (fun _ _ _ e => groupUpdate_lt e))) fun gv hgv =>
    Numbers.bind (Numbers.of (NoTbl.call _).noRows (Follows.call (P := IdentifyReq project.id) (Post := fun _ => True) (.dictPut project.id (groupCol grp.id) kId gv.id req.id) (fun _ => rfl) ⟨⟨slash_groupCol _, slash_kId⟩, hgv⟩ ⟨rfl, ⟨_, rfl⟩, rfl⟩
          (fun _ _ _ _ => trivial))) fun _ _ => sendIdentify_numbers hc hp _ _
  refine (Numbers.bind (Numbers.of (P := fun _ => True) (Post := fun project => project.id < 2 ^ 64) (NoTbl.read _).noRows (Follows.read fun kv a e => ?_)) hb).mono (by omega) fun _ h => h
  obtain ⟨b, hb⟩ := getBy_dec e
  exact project_dec_lt hb

end OptiPrism.Ingest
