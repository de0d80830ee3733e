import Verif.Meta.Sessions
import Verif.Meta.SystemProps

/-!
# C36: sessions

The specification keeps, for each user of a project, the time of the last hit of the open session, and does
not know about keys or records.
-/

namespace OptiPrism.Meta

variable {Q : Type}

/-- Nanoseconds since the epoch. -/
def Time.ns (t : Time) : Int := t.sec.toInt * 1000000000 + t.nano

/-- `(now - created_at).num_seconds()`: whole seconds, rounded towards zero. -/
def idleSecs (now last : Time) : Int := (now.ns - last.ns).tdiv 1000000000

/-- The callback of the session cleaner, cmd/src/lib.rs 366-424. `now u` is the clock when the session of `u`
is looked at, `dur` is `session_duration_seconds`; writing the session-end event either succeeds or panics
(`writes`). -/
def cleanerCb (now : Nat → Time) (dur : Nat) (writes : Session → Bool) (s : Session) : Except Err Bool :=
  if idleSecs (now s.userId) s.createdAt < (BitVec.ofNat 64 dur).toInt then .ok false
  else if writes s then .ok true else .error .panic

/-! ## Specification -/

/-- What happens in one project. -/
inductive SEvent where
  | hit (u : Nat) (t : Time)
  | clean (now : Nat → Time) (dur : Nat)
  | clear
  /-- Anything else. -/
  | other

/-- The last hit of the open session of each user. -/
abbrev SSpec := Nat → Option Time

/-- The session is over when its last hit is more than `dur` ago. Times of hits are kept in whole seconds. -/
def SSpec.step (S : SSpec) : SEvent → SSpec
  | .hit u t => fun u' => if u' = u then some t.trunc else S u'
  | .clean now dur => fun u => (S u).filter fun last => decide ((now u).ns - last.ns < (dur : Int) * 1000000000)
  | .clear => fun _ => none
  | .other => S

theorem idle_lt {now last : Time} {dur : Nat} (hd : 0 < dur) :
    idleSecs now last < (dur : Int) ↔ now.ns - last.ns < (dur : Int) * 1000000000 := by
  unfold idleSecs
  generalize now.ns - last.ns = x
  rcases Int.le_total 0 x with h | h
  · rw [Int.tdiv_eq_ediv_of_nonneg h]
    omega
  · have h1 : x.tdiv 1000000000 ≤ 0 := by
      have := Int.tdiv_nonneg (a := -x) (b := 1000000000) (by omega) (by decide)
      rw [Int.neg_tdiv] at this
      omega
    constructor
    · intro _; omega
    · intro _; omega

theorem dur_toInt {dur : Nat} (h : dur < 2 ^ 63) : (BitVec.ofNat 64 dur).toInt = dur := by
  rw [BitVec.toInt_eq_toNat_of_lt]
  · simp; omega
  · simp; omega

/-- The open sessions according to the store. -/
def openSessions (p : Nat) (kv : Kv) : SSpec := fun u => (sess p kv u).map Session.createdAt

/-- The request as an event of the project; `none` for a cleaner run whose callback is not the cleaner's, or
whose writes fail. -/
inductive IsEvent (p : Nat) (kv : Kv) : Req Q → SEvent → Prop
  | hit (u : Nat) (t : Time) : IsEvent p kv (.sessionSet p u t) (.hit u t)
  | clear : IsEvent p kv (.sessionClear p) .clear
  | clean (now : Nat → Time) (dur : Nat) (writes : Session → Bool) : 0 < dur → dur < 2 ^ 63 → (∀ u s, sess p kv u = some s → writes s = true) →
      IsEvent p kv (.sessionCheck p (cleanerCb now dur writes)) (.clean now dur)
  | other {r : Req Q} : Mod.sess p ∉ r.mods → IsEvent p kv r .other

/-- C36, hits: in every state reached by a history, a hit is reported as starting a new session iff there is
no record of an open one (which is what `get_by_user_id` says). -/
theorem C36_hit {E : Env Q} {n : Nat} {kv : Kv} (h : Hist E n kv) (p u : Nat) (t : Time) (hu : u < 2 ^ 64) :
    ∃ new kv', setCurrentTime p u t kv = .ok (new, kv') ∧ (new = true ↔ ∃ e, getSession p u kv = .error e) ∧
      getSession p u kv' = .ok ⟨u, t.trunc⟩ := by
  have hi := h.sinv p
  obtain ⟨kv', e, h1, h2⟩ := setCurrentTime_spec (t := t) hi hu
  refine ⟨_, kv', e, ?_, ?_⟩
  · unfold getSession sess
    cases hv : getK kv (.session p u) with
    | none => simp
    | some v =>
      obtain ⟨s, hs, -⟩ := hi u v hv
      simp [hs]
  · have := h2 u
    rw [if_pos rfl] at this
    unfold sess at this
    unfold getSession
    cases hv : getK kv' (.session p u) with
    | none => rw [hv] at this; cases this
    | some v =>
      rw [hv, Option.bind_some] at this
      simp [this]

/-- C36: every request acts on the open sessions of a project as the specification says. In particular the
cleaner closes exactly the sessions whose last hit, in whole seconds, is at least the session duration ago, and
leaves all others. -/
theorem C36_step_partial {E : Env Q} {n : Nat} {kv : Kv} (h : Hist E n kv) {p : Nat} {r : Req Q} (hr : r.Ok) {ev : SEvent} (he : IsEvent p kv r ev) :
    openSessions p (r.exec E kv) = (openSessions p kv).step ev := by
  have hi := h.sinv p
  funext u
  cases he with
  | hit u' t =>
    obtain ⟨kv', e, h1, h2⟩ := setCurrentTime_spec (t := t) hi hr
    show openSessions p (runCall (setCurrentTime p u' t) kv).2 u = _
    unfold runCall
    rw [e]
    show (sess p kv' u).map Session.createdAt = if u = u' then some t.trunc else openSessions p kv u
    rw [h2 u]
    split <;> rfl
  | clear =>
    obtain ⟨kv', e, h1, h2⟩ := clear_spec h.clean hi
    show openSessions p (runCall (clearProject p) kv).2 u = _
    unfold runCall
    rw [e]
    show (sess p kv' u).map Session.createdAt = none
    rw [h2 u]; rfl
  | clean now dur writes h0 hd hw =>
    have hcb : ∀ u s, sess p kv u = some s → cleanerCb now dur writes s =
        .ok (!decide ((now u).ns - s.createdAt.ns < (dur : Int) * 1000000000)) := by
      intro u s hs
      unfold cleanerCb
      rw [hi.sess_id hs, dur_toInt hd, hw u s hs]
      by_cases hlt : idleSecs (now u) s.createdAt < (dur : Int)
      · rw [if_pos hlt, decide_eq_true ((idle_lt h0).mp hlt)]; rfl
      · rw [if_neg hlt, decide_eq_false (fun h => hlt ((idle_lt h0).mpr h))]; rfl
    obtain ⟨kv', e, h1, h2⟩ := check_spec (cb := cleanerCb now dur writes) (f := fun s => !decide ((now s.userId).ns - s.createdAt.ns < (dur : Int) * 1000000000)) h.clean hi (by
      intro u s hs
      rw [hcb u s hs, hi.sess_id hs])
    show openSessions p (runCall (checkForDeletion p (cleanerCb now dur writes)) kv).2 u = _
    unfold runCall
    rw [e]
    show (sess p kv' u).map Session.createdAt = ((sess p kv u).map Session.createdAt).filter fun last => decide ((now u).ns - last.ns < (dur : Int) * 1000000000)
    rw [h2 u]
    cases hs : sess p kv u with
    | none => rfl
    | some s =>
      simp only [Option.map_some, Option.filter_some, hi.sess_id hs, Bool.not_not]
      split <;> rfl
  | other hm =>
    show (sess p (r.exec E kv) u).map Session.createdAt = (sess p kv u).map Session.createdAt
    rw [sess_same (exec_same E hr hm kv)]

/-- The events of a project in a history. -/
inductive STrace (E : Env Q) (p : Nat) : Nat → Kv → List SEvent → Prop
  | start : STrace E p 0 [] []
  | step {n : Nat} {kv : Kv} {evs : List SEvent} {r : Req Q} {ev : SEvent} :
      STrace E p n kv evs → r.Ok → IsEvent p kv r ev → STrace E p (n + 1) (r.exec E kv) (evs ++ [ev])

theorem STrace.hist {E : Env Q} {p n : Nat} {kv : Kv} {evs : List SEvent} (h : STrace E p n kv evs) : Hist E n kv := by
  induction h with
  | start => exact .start
  | step _ hr _ ih => exact ih.step _ hr

theorem STrace.open {E : Env Q} {p n : Nat} {kv : Kv} {evs : List SEvent} (h : STrace E p n kv evs) :
    openSessions p kv = evs.foldl SSpec.step fun _ => none := by
  induction h with
  | start => funext u; simp [openSessions, sess, getK, Kv.get]
  | step h hr he ih => rw [C36_step_partial h.hist hr he, ih, List.foldl_append]; rfl

/-- C36: after any history, a hit is new iff, replaying the hits and cleaner runs of the project, no session of
the user is open. -/
theorem C36_trace_partial {E : Env Q} {p n : Nat} {kv : Kv} {evs : List SEvent} (h : STrace E p n kv evs) (u : Nat) (t : Time) (hu : u < 2 ^ 64) :
    ∃ kv', setCurrentTime p u t kv = .ok (((evs.foldl SSpec.step fun _ => none) u).isNone, kv') := by
  obtain ⟨kv', e, -⟩ := setCurrentTime_spec (t := t) (h.hist.sinv p) hu
  refine ⟨kv', ?_⟩
  rw [e, ← h.open]
  unfold openSessions
  cases sess p kv u <;> rfl

/-- C36: no session idle for longer than the duration survives the cleaner, and none idle for at least a second
less is closed. Missing for the statement as written: sessions idle for exactly the duration, or less than one
second short of it, may be closed too (`C36_early_violated`). -/
theorem C36_clean_partial {E : Env Q} {n : Nat} {kv : Kv} (h : Hist E n kv) {p u : Nat} {last : Time} (hl : last.nano < 1000000000)
    (ho : openSessions p kv u = some last.trunc) {now : Nat → Time} {dur : Nat} (h0 : 0 < dur) (hd : dur < 2 ^ 63)
    {writes : Session → Bool} (hw : ∀ u s, sess p kv u = some s → writes s = true) :
    ((now u).ns - last.ns > (dur : Int) * 1000000000 →
      openSessions p (Req.exec E (.sessionCheck p (cleanerCb now dur writes)) kv) u = none) ∧
    ((now u).ns - last.ns ≤ ((dur : Int) - 1) * 1000000000 →
      openSessions p (Req.exec E (.sessionCheck p (cleanerCb now dur writes)) kv) u = some last.trunc) := by
  rw [C36_step_partial h (r := .sessionCheck p (cleanerCb now dur writes)) trivial (.clean now dur writes h0 hd hw)]
  show (_ → (openSessions p kv u).filter _ = none) ∧ (_ → (openSessions p kv u).filter _ = some last.trunc)
  rw [ho]
  have : last.ns = last.trunc.ns + last.nano := by simp [Time.ns, Time.trunc]
  constructor
  · intro h
    rw [Option.filter_some, decide_eq_false (by omega)]; rfl
  · intro h
    rw [Option.filter_some, decide_eq_true (by omega)]; rfl

/-- Sessions of other projects are untouched. -/
theorem C36_other_project {E : Env Q} {p p' : Nat} (hp : p' ≠ p) {kv : Kv} (cb : Session → Except Err Bool) (u : Nat) :
    sess p' (Req.exec E (.sessionCheck p cb) kv) u = sess p' kv u :=
  sess_same (exec_same E (r := .sessionCheck p cb) trivial (by simpa [Req.mods] using hp) kv) u

/-! ## Concrete cases -/

/-- A hit at 0.9 s; the cleaner runs at 10 s with a session duration of 10 s. -/
def exSess : List (Req Unit) := [.sessionSet 1 7 ⟨0, 900000000⟩]
def exClean : Req Unit := .sessionCheck 1 (cleanerCb (fun _ => ⟨10, 0⟩) 10 fun _ => true)

/-- C36 does not hold to the letter: the session was idle for 9.1 s, less than its duration of 10 s, and is
closed, because the time of the hit is stored in whole seconds. -/
theorem C36_early_violated :
    let kv := runReqs exEnv exSess []
    Hist exEnv 1 kv ∧ (Time.mk 10 0).ns - (Time.mk 0 900000000).ns < 10 * 1000000000 ∧
      openSessions 1 kv 7 = some ⟨0, 0⟩ ∧ openSessions 1 (exClean.exec exEnv kv) 7 = none := by
  refine ⟨Hist.of_run exEnv exSess ?_, by decide +kernel, by decide +kernel, by decide +kernel⟩
  intro r hr
  rw [List.mem_singleton.mp hr]
  show (7 : Nat) < 2 ^ 64
  decide

/-- A session still open, then closed; the hit in between is not new, the one after is. -/
example :
    let kv1 := runReqs exEnv exSess []
    let kv2 := Req.exec exEnv (Req.sessionCheck (Q := Unit) 1 (cleanerCb (fun _ => ⟨9, 0⟩) 10 fun _ => true)) kv1
    let kv3 := exClean.exec exEnv kv2
    (setCurrentTime 1 7 ⟨9, 5⟩ kv2).toOption.map (·.1) = some false ∧ (setCurrentTime 1 7 ⟨11, 5⟩ kv3).toOption.map (·.1) = some true := by
  decide +kernel

end OptiPrism.Meta
