import Verif.Meta.Dicts

/-!
# Session records
-/

namespace OptiPrism.Meta

open OptiPrism.Storage (Bytes)

variable {Q : Type}

/-- The session record of a user. -/
def sess (p : Nat) (kv : Kv) (u : Nat) : Option Session := (getK kv (.session p u)).bind Session.dec

/-- Every session entry is readable and belongs to the user of its key. -/
def SInv (p : Nat) (kv : Kv) : Prop := ∀ u v, getK kv (.session p u) = some v → ∃ s, Session.dec v = some s ∧ s.userId = u ∧ u < 2 ^ 64

theorem SInv.sess_id {p : Nat} {kv : Kv} (h : SInv p kv) {u : Nat} {s : Session} (e : sess p kv u = some s) : s.userId = u := by
  unfold sess at e
  cases hv : getK kv (.session p u) with
  | none => rw [hv] at e; cases e
  | some v =>
    obtain ⟨s', h1, h2, -⟩ := h u v hv
    rw [hv, Option.bind_some, h1] at e
    injection e with e
    rw [← e]; exact h2

theorem getK_session_put (p : Nat) (kv : Kv) (u : Nat) (v : Bytes) (u' : Nat) :
    getK (putK kv (.session p u) v) (.session p u') = if u' = u then some v else getK kv (.session p u') := by
  rw [getK_putK _ (k := .session p u) trivial (k' := .session p u') trivial]
  simp

theorem getK_session_del (p : Nat) (kv : Kv) (u : Nat) (u' : Nat) :
    getK (delK kv (.session p u)) (.session p u') = if u' = u then none else getK kv (.session p u') := by
  rw [getK_delK _ (k := .session p u) trivial (k' := .session p u') trivial]
  simp

theorem getK_deleteSessions (p : Nat) (us : List Nat) (kv : Kv) (u : Nat) :
    getK (deleteSessions p us kv) (.session p u) = if u ∈ us then none else getK kv (.session p u) := by
  unfold deleteSessions
  induction us generalizing kv with
  | nil => simp
  | cons x us ih =>
    rw [List.foldl_cons, ih, getK_session_del]
    by_cases h : u ∈ us
    · simp [h]
    · by_cases hx : u = x <;> simp [h, hx]

theorem setCurrentTime_spec {p u : Nat} {t : Time} {kv : Kv} (h : SInv p kv) (hu : u < 2 ^ 64) :
    ∃ kv', setCurrentTime p u t kv = .ok ((sess p kv u).isNone, kv') ∧ SInv p kv' ∧
      ∀ u', sess p kv' u' = if u' = u then some ⟨u, t.trunc⟩ else sess p kv u' := by
  have key : ∀ s : Session, s.userId = u → s.createdAt = t →
      SInv p (putK kv (.session p u) s.enc) ∧
      ∀ u', sess p (putK kv (.session p u) s.enc) u' = if u' = u then some ⟨u, t.trunc⟩ else sess p kv u' := by
    intro s hs ht
    have hd : Session.dec s.enc = some ⟨u, t.trunc⟩ := by rw [Session.dec_enc s (by rw [hs]; exact hu), ← hs, ← ht]; rfl
    refine ⟨fun u' v hv => ?_, fun u' => ?_⟩
    · rw [getK_session_put] at hv
      split at hv
      · rename_i e
        injection hv with hv
        subst hv
        exact ⟨_, hd, e.symm, by rw [e]; exact hu⟩
      · exact h u' v hv
    · unfold sess
      rw [getK_session_put]
      split
      · exact hd
      · rfl
  unfold setCurrentTime sess
  cases hv : getK kv (.session p u) with
  | none =>
    obtain ⟨h1, h2⟩ := key ⟨u, t⟩ rfl rfl
    exact ⟨_, rfl, h1, h2⟩
  | some v =>
    obtain ⟨s, h1, h2, -⟩ := h u v hv
    obtain ⟨h3, h4⟩ := key { s with createdAt := t } h2 rfl
    dsimp only
    rw [h1]
    refine ⟨_, ?_, h3, h4⟩
    rw [Option.bind_some, h1]
    rfl

theorem mem_entries {p : Nat} {kv : Kv} (hc : Clean kv) (e : Str × Bytes) :
    e ∈ entries (sessionPrefix p) kv ↔ ∃ u v, e = ((Key.session p u).render, v) ∧ getK kv (.session p u) = some v := by
  unfold entries
  rw [List.mem_filter]
  constructor
  · rintro ⟨h1, h2⟩
    obtain ⟨k, hw, hk⟩ := hc.keys e h1
    rw [hk, List.isPrefixOf_iff_prefix] at h2
    obtain ⟨u, rfl⟩ := C28_sessions_isolated hw h2
    refine ⟨u, e.2, by rw [← hk], ?_⟩
    refine (hc.mem_iff _ _).mp ?_
    rw [← hk]; exact h1
  · rintro ⟨u, v, rfl, h⟩
    refine ⟨(hc.mem_iff _ _).mpr h, ?_⟩
    rw [List.isPrefixOf_iff_prefix]
    exact ⟨decimal u, by simp [sessionPrefix, Key.render, projPath]⟩

theorem readAll_ok {α : Type} {dec : Bytes → Option α} (l : List (Str × Bytes)) (h : ∀ e ∈ l, ∃ a, dec e.2 = some a) :
    ∃ as, readAll dec l = .ok as ∧ ∀ a, a ∈ as ↔ ∃ e ∈ l, dec e.2 = some a := by
  induction l with
  | nil => exact ⟨[], rfl, by simp⟩
  | cons e l ih =>
    obtain ⟨a, ha⟩ := h e (List.mem_cons_self ..)
    obtain ⟨as, h1, h2⟩ := ih fun e he => h e (List.mem_cons_of_mem _ he)
    refine ⟨a :: as, ?_, ?_⟩
    · unfold readAll; rw [ha, h1]
    · intro x
      rw [List.mem_cons, h2]
      constructor
      · rintro (rfl | ⟨e', he', hx⟩)
        · exact ⟨e, List.mem_cons_self .., ha⟩
        · exact ⟨e', List.mem_cons_of_mem _ he', hx⟩
      · rintro ⟨e', he', hx⟩
        rcases List.mem_cons.mp he' with rfl | he'
        · rw [ha] at hx; injection hx with hx; exact .inl hx.symm
        · exact .inr ⟨e', he', hx⟩

theorem collectExpired_ok {cb : Session → Except Err Bool} (l : List Session) (h : ∀ s ∈ l, ∃ b, cb s = .ok b) :
    ∃ us, collectExpired cb l = .ok us ∧ ∀ u, u ∈ us ↔ ∃ s ∈ l, cb s = .ok true ∧ s.userId = u := by
  induction l with
  | nil => exact ⟨[], rfl, by simp⟩
  | cons s l ih =>
    obtain ⟨b, hb⟩ := h s (List.mem_cons_self ..)
    obtain ⟨us, h1, h2⟩ := ih fun e he => h e (List.mem_cons_of_mem _ he)
    refine ⟨if b then s.userId :: us else us, ?_, ?_⟩
    · unfold collectExpired; rw [hb, h1]
    · intro u
      cases b
      · simp only [Bool.false_eq_true, if_false, h2, List.mem_cons, exists_eq_or_imp, hb, Except.ok.injEq, false_and, false_or]
      · simp only [if_true, List.mem_cons, h2, exists_eq_or_imp, hb, Except.ok.injEq, true_and]
        constructor
        · rintro (h | h)
          · exact .inl h.symm
          · exact .inr h
        · rintro (h | h)
          · exact .inl h.symm
          · exact .inr h

theorem sessionList {p : Nat} {kv : Kv} (hc : Clean kv) (h : SInv p kv) :
    ∃ l, readAll Session.dec (entries (sessionPrefix p) kv) = .ok l ∧ ∀ s, s ∈ l ↔ ∃ u, sess p kv u = some s := by
  obtain ⟨l, h1, h2⟩ := readAll_ok (dec := Session.dec) (entries (sessionPrefix p) kv) (by
    intro e he
    obtain ⟨u, v, rfl, hv⟩ := (mem_entries hc e).mp he
    obtain ⟨s, hs, -⟩ := h u v hv
    exact ⟨s, hs⟩)
  refine ⟨l, h1, fun s => ?_⟩
  rw [h2]
  constructor
  · rintro ⟨e, he, hs⟩
    obtain ⟨u, v, rfl, hv⟩ := (mem_entries hc e).mp he
    exact ⟨u, by unfold sess; rw [hv]; exact hs⟩
  · rintro ⟨u, hs⟩
    unfold sess at hs
    cases hv : getK kv (.session p u) with
    | none => rw [hv] at hs; cases hs
    | some v =>
      rw [hv] at hs
      exact ⟨_, (mem_entries hc _).mpr ⟨u, v, rfl, hv⟩, hs⟩

theorem deleteSessions_spec {p : Nat} {kv : Kv} (h : SInv p kv) (us : List Nat) :
    SInv p (deleteSessions p us kv) ∧ ∀ u, sess p (deleteSessions p us kv) u = if u ∈ us then none else sess p kv u := by
  refine ⟨fun u v hv => ?_, fun u => ?_⟩
  · rw [getK_deleteSessions] at hv
    split at hv
    · cases hv
    · exact h u v hv
  · unfold sess
    rw [getK_deleteSessions]
    split <;> rfl

theorem check_spec {p : Nat} {kv : Kv} (hc : Clean kv) (h : SInv p kv) {cb : Session → Except Err Bool} {f : Session → Bool}
    (hcb : ∀ u s, sess p kv u = some s → cb s = .ok (f s)) :
    ∃ kv', checkForDeletion p cb kv = .ok ((), kv') ∧ SInv p kv' ∧
      ∀ u, sess p kv' u = (sess p kv u).filter fun s => !f s := by
  obtain ⟨l, h1, h2⟩ := sessionList hc h
  obtain ⟨us, h3, h4⟩ := collectExpired_ok (cb := cb) l (fun s hs => by obtain ⟨u, hu⟩ := (h2 s).mp hs; exact ⟨_, hcb u s hu⟩)
  obtain ⟨h5, h6⟩ := deleteSessions_spec h us
  refine ⟨deleteSessions p us kv, ?_, h5, ?_⟩
  · unfold checkForDeletion; rw [h1]; dsimp only; rw [h3]
  · intro u
    rw [h6 u]
    cases hs : sess p kv u with
    | none => simp
    | some s =>
      rw [Option.filter_some]
      cases hb : f s with
      | true =>
        rw [if_pos ((h4 u).mpr ⟨s, (h2 s).mpr ⟨u, hs⟩, by rw [hcb u s hs, hb], h.sess_id hs⟩)]
        rfl
      | false =>
        rw [if_neg]
        · rfl
        · intro hm
          obtain ⟨s', h7, h8, h9⟩ := (h4 u).mp hm
          obtain ⟨u', hu'⟩ := (h2 s').mp h7
          have : u' = u := (h.sess_id hu').symm.trans h9
          subst this
          rw [hs] at hu'
          injection hu' with hu'
          subst hu'
          rw [hcb _ _ hs, hb] at h8
          cases h8

/-- The cleaner stops on the first failing callback, and then nothing is deleted. -/
theorem check_steps {p : Nat} {kv : Kv} (h : SInv p kv) (cb : Session → Except Err Bool) : SInv p (runCall (checkForDeletion p cb) kv).2 := by
  unfold runCall
  split
  · rename_i x kv' e
    unfold checkForDeletion at e
    split at e
    · cases e
    · split at e
      · cases e
      · injection e with e
        injection e with _ e
        subst e
        exact (deleteSessions_spec h _).1
  · exact h

theorem clear_spec {p : Nat} {kv : Kv} (hc : Clean kv) (h : SInv p kv) :
    ∃ kv', clearProject p kv = .ok ((), kv') ∧ SInv p kv' ∧ ∀ u, sess p kv' u = none := by
  obtain ⟨l, h1, h2⟩ := sessionList hc h
  obtain ⟨h5, h6⟩ := deleteSessions_spec h (l.map Session.userId)
  refine ⟨_, by unfold clearProject; rw [h1], h5, fun u => ?_⟩
  rw [h6]
  split
  · rfl
  · rename_i hm
    cases hs : sess p kv u with
    | none => rfl
    | some s => exact absurd (List.mem_map.mpr ⟨s, (h2 s).mpr ⟨u, hs⟩, h.sess_id hs⟩) hm

theorem sess_same {p : Nat} {kv kv' : Kv} (h : Same (.sess p) kv kv') (u : Nat) : sess p kv' u = sess p kv u := by
  unfold sess; rw [h (.session p u) trivial rfl]

theorem Hist.sinv {E : Env Q} {n : Nat} {kv : Kv} (h : Hist E n kv) (p : Nat) : SInv p kv := by
  induction h with
  | start => intro u v hv; simp [getK, Kv.get] at hv
  | @step n kv r h0 hr ih =>
    by_cases hm : Mod.sess p ∈ r.mods
    case neg =>
      have h := exec_same E hr hm kv
      intro u v hv
      rw [h (.session p u) trivial rfl] at hv
      exact ih u v hv
    case pos =>
      cases r <;> simp [Req.mods] at hm
      case sessionSet p' u t =>
        subst hm
        obtain ⟨kv', e, h1, -⟩ := setCurrentTime_spec (t := t) ih hr
        show SInv p (runCall (setCurrentTime p u t) kv).2
        unfold runCall
        rw [e]
        exact h1
      case sessionClear p' =>
        subst hm
        obtain ⟨kv', e, h1, -⟩ := clear_spec h0.clean ih
        show SInv p (runCall (clearProject p) kv).2
        unfold runCall
        rw [e]
        exact h1
      case sessionCheck p' cb =>
        subst hm
        exact check_steps ih cb

end OptiPrism.Meta
