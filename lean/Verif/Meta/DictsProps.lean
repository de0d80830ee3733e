import Verif.Meta.Dicts

/-!
# C29: dictionary encoding is a bijection

For histories of arbitrary requests except `create_key` on the dictionary itself.
-/

namespace OptiPrism.Meta

variable {Q : Type}

theorem getKey_iff {p : Nat} {t d : Str} {kv : Kv} (h : DInv p t d kv) (v : Str) (n : Nat) :
    dictGetKey p t d v kv = .ok n ↔ getK kv (.dictVal p t d v) = some (le64 n) ∧ n < 2 ^ 64 := by
  unfold dictGetKey
  cases hv : getK kv (.dictVal p t d v) with
  | none => simp
  | some b =>
    obtain ⟨m, rfl, h0, h1, h2⟩ := h.val v b hv
    have hm : m < 2 ^ 64 := by have := h.lt; omega
    simp only [readU64, le64_length, if_true, fromLE_le64 hm, Except.ok.injEq, Option.some.injEq]
    constructor
    · rintro rfl; exact ⟨rfl, hm⟩
    · rintro ⟨e, hn⟩; exact le64_inj hm hn e

/-- C29: a history from the empty store. Encoding always succeeds. The number is the one any later
encoding of the same string gives (and `get_key` reads), and `get_value` gives the string back, after any
further requests. -/
theorem C29_stable {E : Env Q} {p : Nat} {t d : Str} (hw : '/' ∉ t ∧ '/' ∉ d) {n m : Nat} {kv : Kv}
    (h : Runs E (Req.NoPut p t d) [] n kv) (hn : n + m < 2 ^ 62) (v : Str) :
    ∃ k kv1, dictGetOrCreate p t d v kv = .ok (k, kv1) ∧
      ∀ kv', Runs E (Req.NoPut p t d) kv1 m kv' →
        dictGetOrCreate p t d v kv' = .ok (k, kv') ∧ dictGetKey p t d v kv' = .ok k ∧ dictGetValue p t d k kv' = .ok v := by
  obtain ⟨hi, -, hl⟩ := h.dict hw (DInv.empty p t d) (by simp only [dictLast, getK, Kv.get]; simp; omega)
  have hl' : dictLast p t d kv ≤ n := by simpa [dictLast, getK, Kv.get] using hl
  have key : ∃ k kv1, dictGetOrCreate p t d v kv = .ok (k, kv1) ∧ DInv p t d kv1 ∧ dictGetKey p t d v kv1 = .ok k ∧ dictLast p t d kv1 ≤ n + 1 := by
    rcases dictGet_spec hw hi (by omega) v with ⟨k, hk, e⟩ | ⟨-, kv1, e, h1, h2, h3, h4⟩
    · exact ⟨k, kv, e, hi, hk, by omega⟩
    · exact ⟨_, kv1, e, h1, (getKey_iff h1 v _).mpr ⟨h3, by omega⟩, by omega⟩
  obtain ⟨k, kv1, e, hi1, hk, hle⟩ := key
  refine ⟨k, kv1, e, fun kv' hr => ?_⟩
  obtain ⟨h1, h2, h3⟩ := hr.dict hw hi1 (by omega)
  have hk' : getK kv' (.dictVal p t d v) = some (le64 k) := h2 _ _ ((getKey_iff hi1 v k).mp hk).1
  have hkey : dictGetKey p t d v kv' = .ok k := (getKey_iff h1 v k).mpr ⟨hk', ((getKey_iff hi1 v k).mp hk).2⟩
  refine ⟨?_, hkey, ?_⟩
  · rcases dictGet_spec hw h1 (by omega) v with ⟨k', hk1, e⟩ | ⟨hno, -⟩
    · rw [hkey] at hk1; cases hk1; exact e
    · rw [hk'] at hno; cases hno
  · obtain ⟨m', e1, -, hm', e2⟩ := h1.val v _ hk'
    have := h1.lt
    have := le64_inj ((getKey_iff hi1 v k).mp hk).2 (by omega) e1
    subst this
    simp only [dictGetValue, e2, ofUtf8_utf8]

/-- C29: different strings have different numbers, and decoding is the inverse of encoding. -/
theorem C29_bijection {E : Env Q} {p : Nat} {t d : Str} (hw : '/' ∉ t ∧ '/' ∉ d) {n : Nat} {kv : Kv}
    (h : Runs E (Req.NoPut p t d) [] n kv) (hn : n < 2 ^ 62) :
    (∀ v v' k, dictGetKey p t d v kv = .ok k → dictGetKey p t d v' kv = .ok k → v = v') ∧
    ∀ v k, k < 2 ^ 64 → (dictGetKey p t d v kv = .ok k ↔ dictGetValue p t d k kv = .ok v) := by
  obtain ⟨hi, -, hl⟩ := h.dict hw (DInv.empty p t d) (by simp only [dictLast, getK, Kv.get]; simp; omega)
  have hlt := hi.lt
  have key : ∀ v k, dictGetKey p t d v kv = .ok k → getK kv (.dictKey p t d k) = some (utf8 v) := by
    intro v k hk
    obtain ⟨h1, h2⟩ := (getKey_iff hi v k).mp hk
    obtain ⟨m, e1, -, hm, e2⟩ := hi.val v _ h1
    rw [le64_inj h2 (by omega) e1]; exact e2
  constructor
  · intro v v' k h1 h2
    have e1 := key v k h1
    rw [key v' k h2] at e1
    exact (utf8_inj (Option.some.inj e1)).symm
  · intro v k hk
    constructor
    · intro h1; simp only [dictGetValue, key v k h1, ofUtf8_utf8]
    · unfold dictGetValue
      cases hb : getK kv (.dictKey p t d k) with
      | none => simp
      | some b =>
        obtain ⟨v', rfl, -, -, e2⟩ := hi.key k b hb
        simp only [ofUtf8_utf8, Except.ok.injEq]
        rintro rfl
        exact (getKey_iff hi v' k).mpr ⟨e2, hk⟩

/-- The counterpart: with `create_key` on the dictionary, as the ingester calls it for a user and an anonymous
visitor that send the same string, two numbers decode to one string, and the first number's string encodes
to the second number. -/
theorem C29_create_key_violated : let kv := runReqs exEnv [.dictPut 1 kEvents exA 1 exB, .dictPut 1 kEvents exA 2 exB] []
    Hist exEnv 2 kv ∧ (dictGetValue 1 kEvents exA 1 kv).toOption = some exB ∧ (dictGetValue 1 kEvents exA 2 kv).toOption = some exB ∧
      (dictGetKey 1 kEvents exA exB kv).toOption = some 2 := by
  refine ⟨Hist.of_run exEnv [_, _] ?_, by decide +kernel, by decide +kernel, by decide +kernel⟩
  intro r hr
  simp only [List.mem_cons, List.not_mem_nil, or_false] at hr
  rcases hr with rfl | rfl <;> exact ⟨⟨by unfold kEvents; decide +kernel, by decide +kernel⟩, by decide⟩

/-- A concrete case: two dictionaries; events enter the dictionary of event names. -/
example : ∃ kv, Runs exEnv (Req.NoPut 1 kEvents exA) [] 3 kv ∧
    (dictGetKey 1 kEvents exA exB kv).toOption = some 2 ∧ (dictGetValue 1 kEvents exA 1 kv).toOption = some exTok := by
  refine ⟨_, .step (.dictGet 1 kEvents exA exB) (.step (.dictGet 1 kEvents exB exB) (.step (.dictGet 1 kEvents exA exTok) .refl ?_ ?_) ?_ ?_) ?_ ?_, ?_, ?_⟩
  all_goals first | trivial | (exact ⟨by unfold kEvents; decide +kernel, by decide +kernel⟩) | decide +kernel

end OptiPrism.Meta
