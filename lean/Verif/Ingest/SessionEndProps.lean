import Verif.Ingest.SessionEnd
import Verif.Ingest.Rows
import Verif.Ingest.TrackProps
import Verif.Meta.Groups
import Verif.Meta.Sessions

/-!
# C165: a session that ends leaves one row that says so

One row for each session that is closed, and none for the others. The time of the row is in seconds where others have milliseconds, the length it gives is the
time since the last hit, and a crash before the sessions are deleted makes the rows be written again.
-/

namespace OptiPrism.Ingest

open OptiPrism.Meta OptiPrism.Storage

/-- Spec: the session is over at `t`, its last hit is at least `dur` seconds ago. -/
def Over (dur : Nat) (t : Time) (s : Session) : Prop :=
  (dur : Int) ≤ ((t.sec.toInt * 1000000000 + t.nano) - (s.createdAt.sec.toInt * 1000000000 + s.createdAt.nano)).tdiv 1000000000

instance (dur : Nat) (t : Time) (s : Session) : Decidable (Over dur t s) := by unfold Over; infer_instance

/-- Spec: the row ends the session `s` of the project at `t`: it has the number `rec`, is of the user and of no group, of the event that is `Session End` in the
store, and says for how long there was no hit in the column of the property that is `Session Length` in the store. -/
def Ends (sys : Str → Str) (kv : Kv) (p : Nat) (t : Time) (rec : Nat) (s : Session) (x : Str × List NamedValue) : Prop :=
  ∃ ev r, (eventsC p).getBy .name "Session End".toList kv = .ok ev ∧ (propsC p .event).getBy .name "Session Length".toList kv = .ok r ∧
    x = ("events".toList, [nv "project_id".toList (i64 p), nv "group_0".toList (i64 s.userId), nv "group_1".toList (.int64 none),
      nv "group_2".toList (.int64 none), nv "group_3".toList (.int64 none), nv "group_4".toList (.int64 none),
      nv "created_at".toList (.timestamp (some t.sec)), nv "event_id".toList (i64 rec), nv "event".toList (i64 ev.id),
      nv (r.columnName sys) (.timestamp (some (BitVec.ofInt 64
        (((t.sec.toInt * 1000000000 + t.nano) - (s.createdAt.sec.toInt * 1000000000 + s.createdAt.nano)).tdiv 1000000000))))])

/-- Spec: the lists are as long, and what is at the same place is related, places being counted from `n`. -/
inductive EachOne {α β : Type} (R : Nat → α → β → Prop) : Nat → List α → List β → Prop
  | nil (n : Nat) : EachOne R n [] []
  | cons {n : Nat} {a : α} {b : β} {l : List α} {m : List β} : R n a b → EachOne R (n + 1) l m → EachOne R n (a :: l) (b :: m)

/-- Spec: the number of the last row of the project. -/
def lastRec (p : Nat) (kv : Kv) : Nat := match getK kv (.recSeq p) with
  | none => 0
  | some b => fromLE b

theorem lastRec_next {p : Nat} {kv kv' : Kv} {n : Nat} (h : nextSeq (.recSeq p) kv = .ok (n, kv')) (hl : lastRec p kv + 1 < 2 ^ 64) :
    n = lastRec p kv + 1 ∧ lastRec p kv' = lastRec p kv + 1 := by
  obtain ⟨e, hn⟩ := nextSeq_out h
  have e1 : n = lastRec p kv + 1 := by
    unfold nextSeq at h
    unfold lastRec at hl ⊢
    split at h
    · next hg => rw [hg]; cases h; rfl
    · next v hg =>
      rw [hg] at hl ⊢
      unfold readU64 at h
      by_cases h8 : v.length = 8
      · rw [if_pos h8] at h
        cases h
        exact Nat.mod_eq_of_lt hl
      · rw [if_neg h8] at h
        cases h
  refine ⟨e1, ?_⟩
  rw [← e1, e]
  unfold lastRec
  rw [getK_putK _ (by trivial) (by trivial), if_pos rfl]
  exact fromLE_le64 hn

/-- Drawing the number of a row changes nothing in the collections. -/
theorem getBy_drawn {R : Type} (c : Coll R) {p n : Nat} {kv kv' : Kv} (h : nextSeq (.recSeq p) kv = .ok (n, kv')) (ix : Ix) (s : Str) :
    c.getBy ix s kv' = c.getBy ix s kv := by
  obtain ⟨e, -⟩ := nextSeq_out h
  have g : ∀ k : Key, k.WF → k ≠ .recSeq p → getK kv' k = getK kv k := fun k hk hne => by
    rw [e, getK_putK _ (by trivial) hk, if_neg hne]
  unfold Coll.getBy getIndex
  rw [g (.idx c.ns ix s) trivial (by intro h; cases h)]
  have gi : ∀ id, c.getById id kv' = c.getById id kv := fun id => by
    unfold Coll.getById
    rw [g (.data c.ns id) trivial (by intro h; cases h)]
  simp only [gi]

theorem endRow_eq (p user rec ev : Nat) (now : Time) (col : Str) (len : Int) : endRow p user rec ev now col len =
    [nv "project_id".toList (i64 p), nv "group_0".toList (i64 user), nv "group_1".toList (.int64 none),
      nv "group_2".toList (.int64 none), nv "group_3".toList (.int64 none), nv "group_4".toList (.int64 none),
      nv "created_at".toList (.timestamp (some now.sec)), nv "event_id".toList (i64 rec), nv "event".toList (i64 ev),
      nv col (.timestamp (some (BitVec.ofInt 64 len)))] := by
  have h0 : kProjectId = "project_id".toList := by decide +kernel
  have h1 : kCreatedAt = "created_at".toList := by decide +kernel
  have h2 : kEventId = "event_id".toList := by decide +kernel
  have h3 : kEvent = "event".toList := by decide +kernel
  have g0 : groupCol 0 = "group_0".toList := by decide +kernel
  have g1 : groupCol 1 = "group_1".toList := by decide +kernel
  have g2 : groupCol 2 = "group_2".toList := by decide +kernel
  have g3 : groupCol 3 = "group_3".toList := by decide +kernel
  have g4 : groupCol 4 = "group_4".toList := by decide +kernel
  simp only [endRow, keyCells, groupCells, List.map_cons, List.map_nil, List.cons_append, List.nil_append, secs, h0, h1, h2, h3, g0, g1, g2, g3, g4]

theorem endSession_ok {sys : Str → Str} {p dur : Nat} (hd : dur < 2 ^ 63) {t : Time} {s : Session} {w w' : World} {c : Bool}
    (h : endSession sys p dur t s w = (.ok c, w')) (hl : lastRec p w.kv + 1 < 2 ^ 64) :
    (¬ Over dur t s ∧ c = false ∧ w' = w) ∨ (Over dur t s ∧ c = true ∧ (∃ x, w'.rows = w.rows ++ [x] ∧ Ends sys w.kv p t (lastRec p w.kv + 1) s x) ∧
      lastRec p w'.kv = lastRec p w.kv + 1 ∧ (∀ ix n, (eventsC p).getBy ix n w'.kv = (eventsC p).getBy ix n w.kv) ∧
      ∀ ix n, (propsC p .event).getBy ix n w'.kv = (propsC p .event).getBy ix n w.kv) := by
  have e : (BitVec.ofNat 64 dur).toInt = dur := by
    rw [BitVec.toInt_eq_toNat_of_lt]
    · simp; omega
    · simp; omega
  unfold endSession at h
  rw [e] at h
  split at h
  · next hlt =>
    cases h
    exact .inl ⟨by unfold Over; unfold idleFor at hlt; omega, rfl, rfl⟩
  · next hge =>
    right
    obtain ⟨rec, w1, h1, h⟩ := bind_ok h
    obtain ⟨ev, w2, h2, h⟩ := bind_ok h
    obtain ⟨r, w3, h3, h⟩ := bind_ok h
    obtain ⟨_, w4, h4, h⟩ := bind_ok h
    cases h
    obtain ⟨e0, e1⟩ := call_ok h1
    obtain ⟨e2, rfl⟩ := read_ok h2
    obtain ⟨e3, rfl⟩ := read_ok h3
    obtain ⟨-, -, -, e4, e5⟩ := insertRow_ok h4
    obtain ⟨rfl, e6⟩ := lastRec_next e0 hl
    have hr : w3.rows = w.rows := by rw [e1]
    have hE : kSessionEnd = "Session End".toList := by decide +kernel
    have hL : kSessionLength = "Session Length".toList := by decide +kernel
    have hT : kEvents = "events".toList := by decide +kernel
    refine ⟨by unfold Over; unfold idleFor at hge; omega, rfl, ⟨_, ?_, ev, r, by rw [← hE, ← getBy_drawn _ e0]; exact e2,
      by rw [← hL, ← getBy_drawn _ e0]; exact e3, rfl⟩, by rw [e5, e6], fun ix n => by rw [e5, getBy_drawn _ e0], fun ix n => by rw [e5, getBy_drawn _ e0]⟩
    rw [e4, hr, endRow_eq, hT]
    rfl

theorem EachOne.imp {α β : Type} {R S : Nat → α → β → Prop} (h : ∀ n a b, R n a b → S n a b) : ∀ {n : Nat} {l : List α} {m : List β},
    EachOne R n l m → EachOne S n l m
  | _, _, _, .nil n => .nil n
  | _, _, _, .cons a b => .cons (h _ _ _ a) (b.imp h)

/-- **C165** (partial: that the loop ends, and that the time is one of the table's): when the cleaner has gone through sessions it has closed exactly those that are
over, and has written exactly one row for each, in their order and with the next numbers of the project, and nothing else. -/
theorem C165_rows_partial {sys : Str → Str} {p dur : Nat} (hd : dur < 2 ^ 63) (now : Nat → Time) : ∀ {l : List Session} {w w' : World} {us : List Nat},
    endSessions sys p dur now l w = (.ok us, w') → lastRec p w.kv + l.length < 2 ^ 64 →
      us = (l.filter fun s => decide (Over dur (now s.userId) s)).map (·.userId) ∧
      ∃ rows, w'.rows = w.rows ++ rows ∧
        EachOne (fun n s x => Ends sys w.kv p (now s.userId) n s x) (lastRec p w.kv + 1) (l.filter fun s => decide (Over dur (now s.userId) s)) rows
  | [], w, w', us, h, _ => by
    cases h
    exact ⟨rfl, [], by simp, .nil _⟩
  | s :: l, w, w', us, h, hl => by
    rw [List.length_cons] at hl
    unfold endSessions at h
    obtain ⟨c, w1, h1, h⟩ := bind_ok h
    obtain ⟨us', w2, h2, h⟩ := bind_ok h
    cases h
    rcases endSession_ok hd h1 (by omega) with ⟨ho, rfl, rfl⟩ | ⟨ho, rfl, ⟨x, hx, hE⟩, hn, hev, hpr⟩
    · obtain ⟨ih1, rows, ih2, ih3⟩ := C165_rows_partial hd now h2 (by omega)
      rw [List.filter_cons_of_neg (by simpa using ho)]
      exact ⟨by simpa using ih1, rows, ih2, ih3⟩
    · obtain ⟨ih1, rows, ih2, ih3⟩ := C165_rows_partial hd now h2 (by omega)
      rw [List.filter_cons_of_pos (by simpa using ho)]
      refine ⟨by simp [ih1], x :: rows, ?_, .cons hE ?_⟩
      · rw [ih2, hx, List.append_assoc]
        rfl
      · rw [hn] at ih3
        refine ih3.imp fun n a b hab => ?_
        obtain ⟨ev, r, q1, q2, q3⟩ := hab
        exact ⟨ev, r, by rw [← hev]; exact q1, by rw [← hpr]; exact q2, q3⟩

/-- **C165** (partial, as above): so a whole run over a project writes one row for each session of the store that is over. -/
theorem C165_run_partial {sys : Str → Str} {p dur : Nat} (hd : dur < 2 ^ 63) {now : Nat → Time} {w w' : World}
    (h : cleanSessions sys p dur now w = (.ok (), w')) : ∃ l, readAll Session.dec (entries (sessionPrefix p) w.kv) = .ok l ∧
      (lastRec p w.kv + l.length < 2 ^ 64 → ∃ rows, w'.rows = w.rows ++ rows ∧
        EachOne (fun n s x => Ends sys w.kv p (now s.userId) n s x) (lastRec p w.kv + 1) (l.filter fun s => decide (Over dur (now s.userId) s)) rows) := by
  unfold cleanSessions at h
  obtain ⟨l, w1, h1, h⟩ := bind_ok h
  obtain ⟨us, w2, h2, h5⟩ := bind_ok h
  obtain ⟨e1, rfl⟩ := read_ok h1
  refine ⟨l, e1, fun hl => ?_⟩
  obtain ⟨-, rows, h3, h4⟩ := C165_rows_partial hd now h2 hl
  obtain ⟨-, e⟩ := call_ok h5
  refine ⟨rows, ?_, h4⟩
  rw [e]
  exact h3

theorem endSession_sess {sys : Str → Str} {p dur : Nat} {t : Time} {s : Session} {w w' : World} {c : Bool}
    (h : endSession sys p dur t s w = (.ok c, w')) (u : Nat) : getK w'.kv (.session p u) = getK w.kv (.session p u) := by
  unfold endSession at h
  split at h
  · cases h; rfl
  · obtain ⟨rec, w1, h1, h⟩ := bind_ok h
    obtain ⟨ev, w2, h2, h⟩ := bind_ok h
    obtain ⟨r, w3, h3, h⟩ := bind_ok h
    obtain ⟨_, w4, h4, h⟩ := bind_ok h
    cases h
    obtain ⟨e0, -⟩ := call_ok h1
    obtain ⟨-, rfl⟩ := read_ok h2
    obtain ⟨-, rfl⟩ := read_ok h3
    obtain ⟨-, -, -, -, e5⟩ := insertRow_ok h4
    rw [e5, (nextSeq_out e0).1, getK_putK _ (by trivial) (by trivial), if_neg (by intro e; cases e)]

theorem endSessions_sess {sys : Str → Str} {p dur : Nat} {now : Nat → Time} (u : Nat) : ∀ {l : List Session} {w w' : World} {us : List Nat},
    endSessions sys p dur now l w = (.ok us, w') → getK w'.kv (.session p u) = getK w.kv (.session p u)
  | [], w, w', us, h => by cases h; rfl
  | s :: l, w, w', us, h => by
    unfold endSessions at h
    obtain ⟨c, w1, h1, h⟩ := bind_ok h
    obtain ⟨us', w2, h2, h⟩ := bind_ok h
    cases h
    rw [endSessions_sess u h2, endSession_sess h1]

/-- **C165** (partial, as above): and the sessions that are left after a run are those that were not over, as they were: the next run writes no second row for a
session that was closed. -/
theorem C165_left_partial {sys : Str → Str} {p dur : Nat} (hd : dur < 2 ^ 63) {now : Nat → Time} {w w' : World} (hc : Clean w.kv) (hs : SInv p w.kv)
    (hn : ∀ l, readAll Session.dec (entries (sessionPrefix p) w.kv) = .ok l → lastRec p w.kv + l.length < 2 ^ 64)
    (h : cleanSessions sys p dur now w = (.ok (), w')) (u : Nat) :
    sess p w'.kv u = (sess p w.kv u).filter fun s => !decide (Over dur (now u) s) := by
  unfold cleanSessions at h
  obtain ⟨l, w1, h1, h⟩ := bind_ok h
  obtain ⟨us, w2, h2, h5⟩ := bind_ok h
  obtain ⟨e1, rfl⟩ := read_ok h1
  obtain ⟨hu, -⟩ := C165_rows_partial hd now h2 (hn l e1)
  obtain ⟨e, -⟩ := call_ok h5
  have ek : w'.kv = deleteSessions p us w2.kv := by injection e with e; injection e with _ e; exact e.symm
  obtain ⟨l', e1', hl⟩ := sessionList hc hs
  have : l' = l := by rw [e1] at e1'; injection e1' with e1'; exact e1'.symm
  subst this
  have e0 : sess p w'.kv u = if u ∈ us then none else sess p w1.kv u := by
    unfold sess
    rw [ek, getK_deleteSessions, endSessions_sess u h2]
    split <;> rfl
  rw [e0]
  cases hq : sess p w1.kv u with
  | none => simp
  | some s =>
    have hid := hs.sess_id hq
    have hm : u ∈ us ↔ Over dur (now u) s := by
      rw [hu, List.mem_map]
      constructor
      · rintro ⟨s', h7, h8⟩
        obtain ⟨h7, h9⟩ := List.mem_filter.mp h7
        obtain ⟨u', hu'⟩ := (hl s').mp h7
        have : u' = u := (hs.sess_id hu').symm.trans h8
        subst this
        rw [hq] at hu'
        injection hu' with hu'
        subst hu'
        rw [hid] at h9
        simpa using h9
      · intro ho
        exact ⟨s, List.mem_filter.mpr ⟨(hl s).mpr ⟨u, hq⟩, by rw [hid]; simpa using ho⟩, hid⟩
    rw [Option.filter_some]
    by_cases ho : Over dur (now u) s
    · rw [if_pos (hm.mpr ho)]; simp [ho]
    · rw [if_neg fun x => ho (hm.mp x)]; simp [ho]

/-- The property of the length of a session, as `init_project` makes it. -/
def exLength : Property :=
  { id := 0, createdAt := ⟨0, 0⟩, createdBy := 1, updatedAt := none, updatedBy := none, projectId := 0, tags := none,
    name := "Session Length".toList, displayName := none, description := none, order := 0, typ := .event, dataType := .timestamp, status := .enabled,
    isSystem := false, nullable := true, hidden := false, isArray := false, isDictionary := false, dictType := none }

/-- A project with what the cleaner needs; user 7 has hits at 1000 and at 6000 seconds, user 8 at 9990. -/
def exOpen : World :=
  let kv := runReqs exEnv (exSetup ++ [.eventCreate 1 ⟨0, 0⟩ (eventReq kSessionEnd none), .propCreate 1 .event ⟨0, 0⟩ exLength (.ok ())]) []
  let kv := (runCall (setCurrentTime 1 7 ⟨1000#64, 0⟩) kv).2
  let kv := (runCall (setCurrentTime 1 7 ⟨6000#64, 0⟩) kv).2
  ⟨(runCall (setCurrentTime 1 8 ⟨9990#64, 0⟩) kv).2,
    fun n => if n = kEvents then exTbl (exSchema ++ [exField ((exLength).columnName id) .timestamp, exField "e_ts_1".toList .timestamp]) else exTbl [], []⟩

/-- The users, the times and the lengths of the rows of a world. -/
def endCells (w : World) : List (Value × Value × Option Value) := w.rows.map fun x => (val x.2 (groupCol 0), val x.2 kCreatedAt, x.2.getLast?.map (·.value))

/-- The cleaner runs at 10000 seconds, sessions last an hour: the session of user 7 is closed, that of user 8 stays, and there is one row. -/
example : (cleanSessions id 1 3600 (fun _ => ⟨10000#64, 0⟩) exOpen).1 = .ok () ∧
    (sess 1 (cleanSessions id 1 3600 (fun _ => ⟨10000#64, 0⟩) exOpen).2.kv 7).isNone = true ∧
    (sess 1 (cleanSessions id 1 3600 (fun _ => ⟨10000#64, 0⟩) exOpen).2.kv 8).isSome = true ∧
    (cleanSessions id 1 3600 (fun _ => ⟨10000#64, 0⟩) exOpen).2.rows.length = 1 := by decide +kernel

/-- At 20000 seconds both are over: two rows, with the numbers 1 and 2 in the order in which the store lists the sessions (which in the model is that of
the last writes), and the next run at 30000 writes nothing. -/
example : (cleanSessions id 1 3600 (fun _ => ⟨20000#64, 0⟩) exOpen).2.rows.map (fun x => (val x.2 (groupCol 0), val x.2 kEventId)) =
      [(i64 8, i64 1), (i64 7, i64 2)] ∧
    (cleanSessions id 1 3600 (fun _ => ⟨30000#64, 0⟩) (cleanSessions id 1 3600 (fun _ => ⟨20000#64, 0⟩) exOpen).2).2.rows.length = 2 := by decide +kernel

/-- **C165**, violated: user 7 had hits at 1000 and at 6000 seconds, the session is closed at 10000. The row has the time 10000, which in the table are ten
seconds of 1970, as the time of an event at that moment is 10000000; and it says that the session lasted 4000 seconds, which is the time since the last hit,
neither the 5000 between the hits nor the 9000 until it was closed. -/
theorem C165_violated : endCells (cleanSessions id 1 3600 (fun _ => ⟨10000#64, 0⟩) exOpen).2 =
      [(i64 7, .timestamp (some 10000#64), some (.timestamp (some 4000#64)))] ∧
    val (eventRow 1 7 1 1 ⟨10000#64, 0⟩ [] []) kCreatedAt = .timestamp (some 10000000#64) := by decide +kernel

/-- **C165**, violated: the rows are written one by one and the sessions are deleted at the end, so after a crash in between the next run writes the row of the
same session again. -/
theorem C165_twice_violated :
    endCells (cleanSessions id 1 3600 (fun _ => ⟨10060#64, 0⟩) (endSessions id 1 3600 (fun _ => ⟨10000#64, 0⟩) [⟨7, ⟨6000#64, 0⟩⟩] exOpen).2).2 =
      [(i64 7, .timestamp (some 10000#64), some (.timestamp (some 4000#64))), (i64 7, .timestamp (some 10060#64), some (.timestamp (some 4060#64)))] := by
  decide +kernel

end OptiPrism.Ingest
