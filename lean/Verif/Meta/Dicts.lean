import Verif.Meta.ProjectsProps

/-!
# Dictionaries: the invariant

`Runs E P n kv kv'`: `n` requests, all with property `P`, lead from `kv` to `kv'`.
-/

namespace OptiPrism.Meta

open OptiPrism.Storage (Bytes fromLE)

variable {Q : Type}

inductive Runs (E : Env Q) (P : Req Q → Prop) (kv : Kv) : Nat → Kv → Prop
  | refl : Runs E P kv 0 kv
  | step {n : Nat} {kv' : Kv} (r : Req Q) : Runs E P kv n kv' → r.Ok → P r → Runs E P kv (n + 1) (r.exec E kv')

theorem Runs.hist {E : Env Q} {P : Req Q → Prop} {n m : Nat} {kv kv' : Kv} (h : Runs E P kv n kv') (h0 : Hist E m kv) : Hist E (m + n) kv' := by
  induction h with
  | refl => exact h0
  | step r _ hr _ ih => exact ih.step r hr

theorem Runs.trans {E : Env Q} {P : Req Q → Prop} {n m : Nat} {a b c : Kv} (h : Runs E P a n b) (h' : Runs E P b m c) : Runs E P a (n + m) c := by
  induction h' with
  | refl => exact h
  | step r _ hr hp ih => exact ih.step r hr hp

theorem exec_same (E : Env Q) {r : Req Q} (h : r.Ok) {m : Mod} (hm : m ∉ r.mods) (kv : Kv) : Same m kv (r.exec E kv) :=
  (exec_steps E r h kv).same fun _ hk e => hm (e ▸ hk)

def dictLast (p : Nat) (t d : Str) (kv : Kv) : Nat :=
  match getK kv (.dictSeq p t d) with
  | none => 0
  | some v => fromLE v

/-- Values and numbers are paired, the numbers are those given out. -/
structure DInv (p : Nat) (t d : Str) (kv : Kv) : Prop where
  seq : ∀ b, getK kv (.dictSeq p t d) = some b → b.length = 8
  val : ∀ v b, getK kv (.dictVal p t d v) = some b →
    ∃ n, b = le64 n ∧ 0 < n ∧ n ≤ dictLast p t d kv ∧ getK kv (.dictKey p t d n) = some (utf8 v)
  key : ∀ n b, getK kv (.dictKey p t d n) = some b →
    ∃ v, b = utf8 v ∧ 0 < n ∧ n ≤ dictLast p t d kv ∧ getK kv (.dictVal p t d v) = some (le64 n)

theorem DInv.lt {p : Nat} {t d : Str} {kv : Kv} (h : DInv p t d kv) : dictLast p t d kv < 2 ^ 64 := by
  unfold dictLast
  split
  · decide
  · rename_i v hv
    have := OptiPrism.Storage.fromLE_lt v
    rw [h.seq v hv] at this
    exact this

theorem DInv.empty (p : Nat) (t d : Str) : DInv p t d [] :=
  ⟨fun b hb => by simp [getK, Kv.get] at hb, fun v b hb => by simp [getK, Kv.get] at hb, fun v b hb => by simp [getK, Kv.get] at hb⟩

theorem DInv.same {p : Nat} {t d : Str} (hw : '/' ∉ t ∧ '/' ∉ d) {kv kv' : Kv} (h : DInv p t d kv) (hs : Same (.dict p t d) kv kv') :
    DInv p t d kv' ∧ dictLast p t d kv' = dictLast p t d kv := by
  have h1 : getK kv' (.dictSeq p t d) = getK kv (.dictSeq p t d) := hs _ hw rfl
  have h2 : ∀ v, getK kv' (.dictVal p t d v) = getK kv (.dictVal p t d v) := fun v => hs _ hw rfl
  have h3 : ∀ v, getK kv' (.dictKey p t d v) = getK kv (.dictKey p t d v) := fun v => hs _ hw rfl
  have hl : dictLast p t d kv' = dictLast p t d kv := by unfold dictLast; rw [h1]
  refine ⟨⟨?_, ?_, ?_⟩, hl⟩
  · intro b; rw [h1]; exact h.seq b
  · intro v b; rw [h2, hl]; intro hb; obtain ⟨n, x⟩ := h.val v b hb; exact ⟨n, by rw [h3]; exact x⟩
  · intro n b; rw [h3, hl]; intro hb; obtain ⟨v, x⟩ := h.key n b hb; exact ⟨v, by rw [h2]; exact x⟩

/-- What `get_key_or_create` does. -/
theorem dictGet_spec {p : Nat} {t d : Str} (hw : '/' ∉ t ∧ '/' ∉ d) {kv : Kv} (h : DInv p t d kv) (hl : dictLast p t d kv + 1 < 2 ^ 64) (v : Str) :
    (∃ n, dictGetKey p t d v kv = .ok n ∧ dictGetOrCreate p t d v kv = .ok (n, kv)) ∨
    (getK kv (.dictVal p t d v) = none ∧ ∃ kv', dictGetOrCreate p t d v kv = .ok (dictLast p t d kv + 1, kv') ∧ DInv p t d kv' ∧
      dictLast p t d kv' = dictLast p t d kv + 1 ∧ getK kv' (.dictVal p t d v) = some (le64 (dictLast p t d kv + 1)) ∧
      ∀ v', v' ≠ v → getK kv' (.dictVal p t d v') = getK kv (.dictVal p t d v')) := by
  cases hv : getK kv (.dictVal p t d v) with
  | some b =>
    obtain ⟨n, rfl, h0, h1, h2⟩ := h.val v b hv
    have := h.lt
    refine .inl ⟨n, ?_, ?_⟩
    · simp only [dictGetKey, hv, readU64, le64_length, if_true, fromLE_le64 (show n < 2 ^ 64 by omega)]
    · simp only [dictGetOrCreate, hv, readU64, le64_length, if_true, fromLE_le64 (show n < 2 ^ 64 by omega)]
  | none =>
    refine .inr ⟨rfl, ?_⟩
    have hs : nextSeq (.dictSeq p t d) kv = .ok (dictLast p t d kv + 1, putK kv (.dictSeq p t d) (le64 (dictLast p t d kv + 1))) := by
      unfold nextSeq dictLast at *
      cases hv : getK kv (.dictSeq p t d) with
      | none => rfl
      | some v =>
        rw [hv] at hl
        dsimp only at hl ⊢
        simp only [readU64, h.seq v hv, if_true]
        rw [Nat.mod_eq_of_lt hl]
    unfold dictGetOrCreate
    rw [hv, hs]
    refine ⟨_, rfl, ?_⟩
    generalize hn : dictLast p t d kv + 1 = n at *
    generalize hkv : putK (putK (putK kv (.dictSeq p t d) (le64 n)) (.dictKey p t d n) (utf8 v)) (.dictVal p t d v) (le64 n) = kv'
    have w1 : (Key.dictSeq p t d).WF := hw
    have w2 : ∀ v, (Key.dictVal p t d v).WF := fun _ => hw
    have w3 : ∀ v, (Key.dictKey p t d v).WF := fun _ => hw
    have g1 : getK kv' (.dictSeq p t d) = some (le64 n) := by
      rw [← hkv, getK_putK _ (w2 _) w1, getK_putK _ (w3 _) w1, getK_putK _ w1 w1]
      simp
    have g2 : ∀ x, getK kv' (.dictVal p t d x) = if x = v then some (le64 n) else getK kv (.dictVal p t d x) := by
      intro x
      rw [← hkv, getK_putK _ (w2 _) (w2 _), getK_putK _ (w3 _) (w2 _), getK_putK _ w1 (w2 _)]
      simp
    have g3 : ∀ x, getK kv' (.dictKey p t d x) = if x = n then some (utf8 v) else getK kv (.dictKey p t d x) := by
      intro x
      rw [← hkv, getK_putK _ (w2 _) (w3 _), getK_putK _ (w3 _) (w3 _), getK_putK _ w1 (w3 _)]
      simp
    have hlast : dictLast p t d kv' = n := by unfold dictLast; rw [g1]; exact fromLE_le64 hl
    refine ⟨⟨?_, ?_, ?_⟩, hlast, by rw [g2, if_pos rfl], fun v' hne => by rw [g2, if_neg hne]⟩
    · intro b; rw [g1]; rintro ⟨⟩; exact le64_length _
    · intro x b
      rw [g2, hlast]
      by_cases hx : x = v
      · rw [if_pos hx]; rintro ⟨⟩
        exact ⟨n, rfl, by omega, Nat.le_refl _, by rw [g3, if_pos rfl, hx]⟩
      · rw [if_neg hx]
        intro hb
        obtain ⟨m, h1, h2, h3, h4⟩ := h.val x b hb
        exact ⟨m, h1, h2, by omega, by rw [g3, if_neg (by omega)]; exact h4⟩
    · intro x b
      rw [g3, hlast]
      by_cases hx : x = n
      · rw [if_pos hx]; rintro ⟨⟩
        exact ⟨v, rfl, by omega, by omega, by rw [g2, if_pos rfl, hx]⟩
      · rw [if_neg hx]
        intro hb
        obtain ⟨y, h1, h2, h3, h4⟩ := h.key x b hb
        refine ⟨y, h1, h2, by omega, ?_⟩
        rw [g2, if_neg]
        · exact h4
        · rintro rfl; rw [hv] at h4; cases h4

/-- The request does not set entries of the dictionary by hand (`create_key`). -/
def Req.NoPut (p : Nat) (t d : Str) : Req Q → Prop
  | .dictPut p' t' d' _ _ => ¬ (p' = p ∧ t' = t ∧ d' = d)
  | _ => True

/-- Entries of the dictionary are never changed. -/
def DKept (p : Nat) (t d : Str) (kv kv' : Kv) : Prop := ∀ v b, getK kv (.dictVal p t d v) = some b → getK kv' (.dictVal p t d v) = some b

theorem dictGet_inv {p : Nat} {t d : Str} (hw : '/' ∉ t ∧ '/' ∉ d) {kv : Kv} (h : DInv p t d kv) (hl : dictLast p t d kv + 1 < 2 ^ 64) (v : Str) :
    DInv p t d (runCall (dictGetOrCreate p t d v) kv).2 ∧ DKept p t d kv (runCall (dictGetOrCreate p t d v) kv).2 ∧
      dictLast p t d (runCall (dictGetOrCreate p t d v) kv).2 ≤ dictLast p t d kv + 1 := by
  unfold runCall
  rcases dictGet_spec hw h hl v with ⟨n, -, e⟩ | ⟨hn, kv', e, h1, h2, h3, h4⟩
  · rw [e]; exact ⟨h, fun _ _ h => h, by dsimp only; omega⟩
  · rw [e]
    refine ⟨h1, fun x b hx => ?_, by dsimp only; omega⟩
    dsimp only
    rw [h4]
    · exact hx
    · rintro rfl; rw [hn] at hx; cases hx

theorem createEvent_inv {p : Nat} {kv : Kv} (h : DInv p kEvents kEvent kv) (hl : dictLast p kEvents kEvent kv + 1 < 2 ^ 64) (now : Time) (r : Event) :
    DInv p kEvents kEvent (createEvent p now r kv).2 ∧ DKept p kEvents kEvent kv (createEvent p now r kv).2 ∧
      dictLast p kEvents kEvent (createEvent p now r kv).2 ≤ dictLast p kEvents kEvent kv + 1 := by
  unfold createEvent
  cases e1 : eventCreate p now r kv with
  | error e => exact ⟨h, fun _ _ h => h, by dsimp only; omega⟩
  | ok v =>
    obtain ⟨ev, kv1⟩ := v
    have hs : Same (.dict p kEvents kEvent) kv kv1 := (eventCreate_touches p now r kv ev kv1 e1).same (by
      intro k hk; rw [List.mem_singleton.mp hk]; simp)
    obtain ⟨h1, hl1⟩ := h.same kEvents_ok hs
    have := dictGet_inv kEvents_ok h1 (by rw [hl1]; exact hl) ev.name
    dsimp only
    unfold runCall at this
    cases e2 : dictGetOrCreate p kEvents kEvent ev.name kv1 with
    | error e =>
      exact ⟨h1, fun v b hv => by dsimp only; rw [show getK kv1 (.dictVal p kEvents kEvent v) = _ from hs (.dictVal p kEvents kEvent v) kEvents_ok rfl]; exact hv, by dsimp only; omega⟩
    | ok v =>
      rw [e2] at this
      obtain ⟨n, kv2⟩ := v
      refine ⟨this.1, fun v b hv => this.2.1 v b ?_, by have := this.2.2; dsimp only at *; omega⟩
      rw [show getK kv1 (.dictVal p kEvents kEvent v) = _ from hs (.dictVal p kEvents kEvent v) kEvents_ok rfl]; exact hv

theorem exec_dict (E : Env Q) {r : Req Q} (hr : r.Ok) {p : Nat} {t d : Str} (hw : '/' ∉ t ∧ '/' ∉ d) (hp : r.NoPut p t d) {kv : Kv}
    (h : DInv p t d kv) (hl : dictLast p t d kv + 1 < 2 ^ 64) :
    DInv p t d (r.exec E kv) ∧ DKept p t d kv (r.exec E kv) ∧ dictLast p t d (r.exec E kv) ≤ dictLast p t d kv + 1 := by
  by_cases hm : Mod.dict p t d ∈ r.mods
  · have triv : DInv p t d kv ∧ DKept p t d kv kv ∧ dictLast p t d kv ≤ dictLast p t d kv + 1 := ⟨h, fun _ _ h => h, by omega⟩
    cases r <;> simp [Req.mods] at hm
    case dictGet p' t' d' v =>
      obtain ⟨rfl, rfl, rfl⟩ := hm
      exact dictGet_inv hw h hl v
    case dictPut p' t' d' n v =>
      obtain ⟨rfl, rfl, rfl⟩ := hm
      exact absurd ⟨rfl, rfl, rfl⟩ hp
    case eventCreate p' now r =>
      obtain ⟨rfl, rfl, rfl⟩ := hm
      exact createEvent_inv h hl now r
    case eventGetOrCreate p' now r =>
      obtain ⟨rfl, rfl, rfl⟩ := hm
      show DInv _ _ _ (getOrCreateEvent p now r kv).2 ∧ DKept _ _ _ kv (getOrCreateEvent p now r kv).2 ∧ dictLast _ _ _ (getOrCreateEvent p now r kv).2 ≤ _
      unfold getOrCreateEvent
      cases (eventsC p).getBy .name r.name kv with
      | ok v => exact triv
      | error e =>
        cases e
        case notFound => exact createEvent_inv h hl now r
        all_goals exact triv
  · have hs := exec_same E hr hm kv
    obtain ⟨h1, h2⟩ := h.same hw hs
    exact ⟨h1, fun v b hv => by rw [hs (.dictVal p t d v) hw rfl]; exact hv, by omega⟩

theorem Runs.dict {E : Env Q} {p : Nat} {t d : Str} (hw : '/' ∉ t ∧ '/' ∉ d) {n : Nat} {kv kv' : Kv}
    (hr : Runs E (Req.NoPut p t d) kv n kv') (h : DInv p t d kv) (hl : dictLast p t d kv + n < 2 ^ 64) :
    DInv p t d kv' ∧ DKept p t d kv kv' ∧ dictLast p t d kv' ≤ dictLast p t d kv + n := by
  induction hr with
  | refl => exact ⟨h, fun _ _ h => h, Nat.le_refl _⟩
  | @step n kv' r hr ho hp ih =>
    obtain ⟨h1, h2, h3⟩ := ih (by omega)
    obtain ⟨h4, h5, h6⟩ := exec_dict E ho hw hp h1 (by omega)
    exact ⟨h4, fun v b hv => h5 v b (h2 v b hv), by omega⟩

end OptiPrism.Meta
