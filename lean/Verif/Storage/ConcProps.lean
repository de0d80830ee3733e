import Verif.Storage.Conc

/-!
# C23: acknowledged inserts and concurrent flushes
-/

namespace OptiPrism.Storage

variable {R : Type}

/-- A crash now would keep the row: it is in a recorded part, or in the log that recovery reads (the
one with the greatest id, here the only one). -/
def Durable (s : CSt R) (r : R) : Prop :=
  r ∈ s.parts.flatten ∨ ∃ rows, (s.logId, rows) ∈ s.logs ∧ r ∈ rows

/-- The requirement, first half: at every moment every acknowledged row is durable. -/
def C23_durable_full (R : Type) : Prop :=
  ∀ (as : List (Act R)) (s : CSt R), crun .init as = some s → ∀ r ∈ s.acked, Durable s r

/-- Second half: a scan that starts when `r` is acknowledged returns it. -/
def C23_scan_full (R : Type) : Prop :=
  ∀ (as bs : List (Act R)) (t : Nat) (s s' : CSt R), crun .init as = some s →
    (∀ a ∈ bs, a ≠ .scanMem t) → crun s (.scanMeta t :: bs ++ [.scanMem t]) = some s' →
    ∀ r ∈ s.acked, ∃ rows rest, s'.results = (t, rows) :: rest ∧ r ∈ rows

theorem crun_append (s : CSt R) (as bs : List (Act R)) :
    crun s (as ++ bs) = (crun s as).bind fun s' => crun s' bs := by
  induction as generalizing s with
  | nil => rfl
  | cons a as ih =>
    simp only [List.cons_append, crun]
    cases cstep s a with
    | none => rfl
    | some s1 => exact ih s1

/-- Properties preserved by every action hold after every run. -/
theorem crun_inv {P : CSt R → Prop} (hstep : ∀ s a s', P s → cstep s a = some s' → P s') (as : List (Act R)) :
    ∀ s s', P s → crun s as = some s' → P s' := by
  induction as with
  | nil => intro s s' h hr; simp only [crun, Option.some.injEq] at hr; subst hr; exact h
  | cons a as ih =>
    intro s s' h hr
    simp only [crun] at hr
    cases hc : cstep s a with
    | none => rw [hc] at hr; simp at hr
    | some s1 =>
      rw [hc] at hr
      exact ih s1 s' (hstep s a s1 h hc) hr

/-- What every state satisfies: the only log is the current one; the open log is the current one
unless a flush is half done; acknowledged rows are in memory or in a part. -/
structure Inv (s : CSt R) : Prop where
  logs : ∃ rows, s.logs = [(s.logId, rows)]
  handle : s.flushing = false → s.handle = s.logId
  stale : s.flushing = true → s.handle < s.logId
  acked : ∀ r ∈ s.acked, r ∈ s.mem ∨ r ∈ s.parts.flatten

theorem inv_init : Inv (CSt.init : CSt R) := ⟨⟨[], rfl⟩, fun _ => rfl, by simp [CSt.init], by simp [CSt.init]⟩

theorem write_single {s : CSt R} {rows : List R} (h : s.logs = [(s.logId, rows)]) (r : R) :
    s.write r = [(s.logId, if s.logId = s.handle then rows ++ [r] else rows)] := by
  simp only [CSt.write, h, List.map_cons, List.map_nil]
  split <;> rfl

theorem inv_step (s : CSt R) (a : Act R) (s' : CSt R) (hi : Inv s) (h : cstep s a = some s') : Inv s' := by
  obtain ⟨⟨rows, hl⟩, hh, hst, ha⟩ := hi
  cases a with
  | log t r =>
    simp only [cstep] at h
    split at h
    · cases h
    · injection h with h
      subst h
      exact ⟨⟨_, write_single hl r⟩, hh, hst, ha⟩
  | push t =>
    simp only [cstep] at h
    split at h
    · cases h
    · split at h
      · cases h
      · rename_i e _
        injection h with h
        subst h
        refine ⟨⟨rows, hl⟩, hh, hst, ?_⟩
        intro r hr
        rcases List.mem_cons.mp hr with rfl | hr
        · exact .inl (by simp)
        · rcases ha r hr with h | h
          · exact .inl (by simp [h])
          · exact .inr h
  | flushFiles =>
    simp only [cstep] at h
    split at h
    · cases h
    · rename_i hf
      simp only [Bool.not_eq_true] at hf
      split at h
      · injection h with h
        subst h
        exact ⟨⟨rows, hl⟩, hh, hst, ha⟩
      · injection h with h
        subst h
        refine ⟨⟨[], by simp [hl]⟩, by simp, fun _ => ?_, ?_⟩
        · have := hh hf
          show s.handle < s.logId + 1
          omega
        · intro r hr
          rcases ha r hr with h | h
          · exact .inr (by simp [h])
          · exact .inr (by
              simp only [List.flatten_append, List.mem_append]
              exact .inl h)
  | flushHandle =>
    simp only [cstep] at h
    split at h
    · injection h with h
      subst h
      exact ⟨⟨rows, hl⟩, fun _ => rfl, by simp, ha⟩
    · cases h
  | scanMeta t =>
    simp only [cstep] at h
    split at h
    · cases h
    · split at h
      · cases h
      · injection h with h
        subst h
        exact ⟨⟨rows, hl⟩, hh, hst, ha⟩
  | scanMem t =>
    simp only [cstep] at h
    split at h
    · cases h
    · split at h
      · cases h
      · injection h with h
        subst h
        exact ⟨⟨rows, hl⟩, hh, hst, ha⟩

theorem inv_run {as : List (Act R)} {s : CSt R} (h : crun .init as = some s) : Inv s :=
  crun_inv inv_step as _ _ inv_init h

/-- Part of C23 that holds in every interleaving: while the process lives, no acknowledged row
disappears from memory and parts. -/
theorem C23_in_table {as : List (Act R)} {s : CSt R} (h : crun .init as = some s) :
    ∀ r ∈ s.acked, r ∈ s.mem ∨ r ∈ s.parts.flatten := (inv_run h).acked

/-- Safe row: in a part, or both in memory and in the current log. -/
def Safe (r : R) (s : CSt R) : Prop :=
  r ∈ s.parts.flatten ∨ (r ∈ s.mem ∧ ∃ rows, (s.logId, rows) ∈ s.logs ∧ r ∈ rows)

theorem mem_write {s : CSt R} {i : Nat} {rows : List R} {r x : R} (h : (i, rows) ∈ s.logs) (hx : x ∈ rows) :
    ∃ rows', (i, rows') ∈ s.write r ∧ x ∈ rows' := by
  by_cases he : i = s.handle
  · refine ⟨rows ++ [r], ?_, by simp [hx]⟩
    unfold CSt.write
    exact List.mem_map.mpr ⟨(i, rows), h, by simp [he]⟩
  · refine ⟨rows, ?_, hx⟩
    unfold CSt.write
    exact List.mem_map.mpr ⟨(i, rows), h, by simp [he]⟩

theorem safe_step (r : R) (s : CSt R) (a : Act R) (s' : CSt R) (hi : Safe r s) (h : cstep s a = some s') : Safe r s' := by
  cases a with
  | log t x =>
    simp only [cstep] at h
    split at h
    · cases h
    · injection h with h
      subst h
      rcases hi with hi | ⟨hm, rows, hl, hr⟩
      · exact .inl hi
      · exact .inr ⟨hm, mem_write hl hr⟩
  | push t =>
    simp only [cstep] at h
    split at h
    · cases h
    · split at h
      · cases h
      · injection h with h
        subst h
        rcases hi with hi | ⟨hm, rest⟩
        · exact .inl hi
        · exact .inr ⟨by simp [hm], rest⟩
  | flushFiles =>
    simp only [cstep] at h
    split at h
    · cases h
    · split at h
      · injection h with h
        subst h
        exact hi
      · injection h with h
        subst h
        left
        rcases hi with hi | ⟨hm, _⟩
        · simp only [List.flatten_append, List.mem_append]
          exact .inl hi
        · simp [hm]
  | flushHandle =>
    simp only [cstep] at h
    split at h
    · injection h with h
      subst h
      exact hi
    · cases h
  | scanMeta t =>
    simp only [cstep] at h
    split at h
    · cases h
    · split at h
      · cases h
      · injection h with h
        subst h
        exact hi
  | scanMem t =>
    simp only [cstep] at h
    split at h
    · cases h
    · split at h
      · cases h
      · injection h with h
        subst h
        exact hi

/-- Between the two sections of an insert, without a flush, the logged row stays in the log and
pending. -/
theorem logged_step (t : Nat) (r : R) (s : CSt R) (a : Act R) (s' : CSt R) (ha : a ≠ .flushFiles) (ht : a ≠ .push t)
    (hi : s.pend.find? (fun e => e.1 == t) = some (t, r) ∧ ∃ rows, (s.logId, rows) ∈ s.logs ∧ r ∈ rows)
    (h : cstep s a = some s') :
    s'.pend.find? (fun e => e.1 == t) = some (t, r) ∧ ∃ rows, (s'.logId, rows) ∈ s'.logs ∧ r ∈ rows := by
  obtain ⟨hp, rows, hl, hr⟩ := hi
  cases a with
  | log u x =>
    simp only [cstep] at h
    split at h
    · cases h
    · rename_i hn
      injection h with h
      subst h
      refine ⟨?_, mem_write hl hr⟩
      have : ¬ u = t := by
        rintro rfl
        apply hn
        rw [List.any_eq_true]
        exact ⟨_, List.mem_of_find?_eq_some hp, by simp⟩
      simp [this, hp]
  | push u =>
    have hu : u ≠ t := fun e => ht (by rw [e])
    simp only [cstep] at h
    split at h
    · cases h
    · split at h
      · cases h
      · injection h with h
        subst h
        refine ⟨?_, rows, hl, hr⟩
        show (s.pend.filter fun x => x.1 != u).find? _ = _
        rw [List.find?_filter]
        have : (fun a : Nat × R => decide ((a.1 != u) = true ∧ (a.1 == t) = true)) = fun e => e.1 == t := by
          funext e
          by_cases h : e.1 = t
          · simp [h, Ne.symm hu]
          · simp [h]
        rw [this]
        exact hp
  | flushFiles => exact absurd rfl ha
  | flushHandle =>
    simp only [cstep] at h
    split at h
    · injection h with h
      subst h
      exact ⟨hp, rows, hl, hr⟩
    · cases h
  | scanMeta u =>
    simp only [cstep] at h
    split at h
    · cases h
    · split at h
      · cases h
      · injection h with h
        subst h
        exact ⟨hp, rows, hl, hr⟩
  | scanMem u =>
    simp only [cstep] at h
    split at h
    · cases h
    · split at h
      · cases h
      · injection h with h
        subst h
        exact ⟨hp, rows, hl, hr⟩

/-- Missing from the full statement: inserts during which a flush starts, or which begin while a
flush is half done. An insert whose two sections are not separated by a flush, and which does not
start inside one, is durable at every later moment, whatever the other threads do. -/
theorem C23_durable_partial {pre mid post : List (Act R)} {t : Nat} {r : R} {s0 s : CSt R}
    (h0 : crun .init pre = some s0) (hnf : s0.flushing = false)
    (hmid : ∀ a ∈ mid, a ≠ .flushFiles ∧ a ≠ .push t)
    (h : crun s0 (.log t r :: mid ++ .push t :: post) = some s) : Durable s r := by
  have hi := inv_run h0
  obtain ⟨rows, hl⟩ := hi.logs
  have hh := hi.handle hnf
  rw [List.cons_append, crun] at h
  cases h1 : cstep s0 (.log t r) with
  | none => rw [h1] at h; simp at h
  | some s1 =>
    rw [h1] at h
    dsimp only at h
    rw [crun_append] at h
    cases h2 : crun s1 mid with
    | none => rw [h2] at h; simp at h
    | some s2 =>
      rw [h2] at h
      simp only [Option.bind_some, crun] at h
      have hlog1 : s1.pend.find? (fun e => e.1 == t) = some (t, r) ∧ ∃ rows, (s1.logId, rows) ∈ s1.logs ∧ r ∈ rows := by
        simp only [cstep] at h1
        split at h1
        · cases h1
        · injection h1 with h1
          subst h1
          refine ⟨by simp, rows ++ [r], ?_, by simp⟩
          show (s0.logId, rows ++ [r]) ∈ s0.write r
          rw [write_single hl, if_pos hh.symm]
          simp
      have hlog2 : s2.pend.find? (fun e => e.1 == t) = some (t, r) ∧ ∃ rows, (s2.logId, rows) ∈ s2.logs ∧ r ∈ rows := by
        clear h h1
        induction mid generalizing s1 with
        | nil => simp only [crun, Option.some.injEq] at h2; subst h2; exact hlog1
        | cons a mid ih =>
          simp only [crun] at h2
          cases ha : cstep s1 a with
          | none => rw [ha] at h2; simp at h2
          | some s1' =>
            rw [ha] at h2
            have hm := hmid a (by simp)
            exact ih (fun x hx => hmid x (List.mem_cons_of_mem _ hx)) _ h2
              (logged_step t r s1 a s1' hm.1 hm.2 hlog1 ha)
      cases h3 : cstep s2 (.push t) with
      | none => rw [h3] at h; simp at h
      | some s3 =>
        rw [h3] at h
        have hsafe : Safe r s3 := by
          simp only [cstep] at h3
          split at h3
          · cases h3
          · rw [hlog2.1] at h3
            injection h3 with h3
            subst h3
            exact .inr ⟨by simp, hlog2.2⟩
        have := crun_inv (safe_step r) post _ _ hsafe h
        rcases this with h | ⟨_, h⟩
        · exact .inl h
        · exact .inr h

/-- Writer 1 logs row 10; writer 2 inserts row 20 and flushes; writer 1 finishes. Row 10 is
acknowledged and in no file. -/
def lostTrace : List (Act Nat) := [.log 1 10, .log 2 20, .push 2, .flushFiles, .flushHandle, .push 1]

/-- The same through the window between the two sections of a flush. -/
def lostTrace' : List (Act Nat) := [.log 2 20, .push 2, .flushFiles, .log 1 10, .flushHandle, .push 1]

theorem C23_durable_violated : ¬ C23_durable_full Nat := by
  intro h
  have h1 : crun .init lostTrace = some ⟨[[20]], [10], [(1, [])], 1, 1, false, [], [10, 20], [], []⟩ := by decide
  rcases h _ _ h1 10 (by simp) with h | ⟨rows, h, hr⟩
  · simp at h
  · simp at h
    subst h
    simp at hr

theorem C23_second_window : crun .init lostTrace' =
    some ⟨[[20]], [10], [(1, [])], 1, 1, false, [], [10, 20], [], []⟩ := by decide

/-- A single writer is safe: the example meets the hypotheses of the partial theorem. -/
example : ∃ s, crun .init ([] ++ Act.log 1 10 :: [.log 2 20, .push 2, .scanMeta 3] ++ .push 1 ::
    [.flushFiles, .log 2 30, .flushHandle]) = some s ∧ Durable s (10 : Nat) := by
  refine ⟨_, rfl, ?_⟩
  exact C23_durable_partial (pre := []) (mid := [.log 2 20, .push 2, .scanMeta 3])
    (post := [.flushFiles, .log 2 30, .flushHandle]) (t := 1) (s0 := .init) rfl rfl
    (by decide) rfl

/-! ### scans -/

/-- The scan of thread `t` has copied a part list that together with memory has every row of `rs`. -/
def ScanOk (t : Nat) (rs : List R) (s : CSt R) : Prop :=
  ∃ ps, s.scans.find? (fun e => e.1 == t) = some (t, ps) ∧ ∀ r ∈ rs, r ∈ s.mem ∨ r ∈ ps.flatten

theorem scanOk_step (t : Nat) (rs : List R) (s : CSt R) (a : Act R) (s' : CSt R) (ha : a ≠ .flushFiles)
    (ht : a ≠ .scanMem t) (hi : ScanOk t rs s) (h : cstep s a = some s') : ScanOk t rs s' := by
  obtain ⟨ps, hp, hr⟩ := hi
  cases a with
  | log u x =>
    simp only [cstep] at h
    split at h
    · cases h
    · injection h with h
      subst h
      exact ⟨ps, hp, hr⟩
  | push u =>
    simp only [cstep] at h
    split at h
    · cases h
    · split at h
      · cases h
      · injection h with h
        subst h
        refine ⟨ps, hp, fun r h => ?_⟩
        rcases hr r h with h | h
        · exact .inl (by simp [h])
        · exact .inr h
  | flushFiles => exact absurd rfl ha
  | flushHandle =>
    simp only [cstep] at h
    split at h
    · injection h with h
      subst h
      exact ⟨ps, hp, hr⟩
    · cases h
  | scanMeta u =>
    simp only [cstep] at h
    split at h
    · cases h
    · split at h
      · cases h
      · rename_i hn
        injection h with h
        subst h
        have : ¬ u = t := by
          rintro rfl
          apply hn
          rw [List.any_eq_true]
          exact ⟨_, List.mem_of_find?_eq_some hp, by simp⟩
        exact ⟨ps, by simp [this, hp], hr⟩
  | scanMem u =>
    have hu : u ≠ t := fun e => ht (by rw [e])
    simp only [cstep] at h
    split at h
    · cases h
    · split at h
      · cases h
      · injection h with h
        subst h
        refine ⟨ps, ?_, hr⟩
        show (s.scans.filter fun x => x.1 != u).find? _ = _
        rw [List.find?_filter]
        have : (fun a : Nat × List (List R) => decide ((a.1 != u) = true ∧ (a.1 == t) = true)) = fun e => e.1 == t := by
          funext e
          by_cases h : e.1 = t
          · simp [h, Ne.symm hu]
          · simp [h]
        rw [this]
        exact hp

/-- Missing from the full statement: scans during which a flush starts between the copy of the part
list and the reading of the memory. -/
theorem C23_scan_partial {as bs : List (Act R)} {t : Nat} {s s' : CSt R} (h0 : crun .init as = some s)
    (hb : ∀ a ∈ bs, a ≠ .scanMem t ∧ a ≠ .flushFiles)
    (h : crun s (.scanMeta t :: bs ++ [.scanMem t]) = some s') :
    ∀ r ∈ s.acked, ∃ rows rest, s'.results = (t, rows) :: rest ∧ r ∈ rows := by
  have hi := inv_run h0
  rw [List.cons_append, crun] at h
  cases h1 : cstep s (.scanMeta t) with
  | none => rw [h1] at h; simp at h
  | some s1 =>
    rw [h1] at h
    dsimp only at h
    rw [crun_append] at h
    cases h2 : crun s1 bs with
    | none => rw [h2] at h; simp at h
    | some s2 =>
      rw [h2] at h
      simp only [Option.bind_some, crun] at h
      have hok1 : ScanOk t s.acked s1 := by
        simp only [cstep] at h1
        split at h1
        · cases h1
        · split at h1
          · cases h1
          · injection h1 with h1
            subst h1
            exact ⟨s.parts, by simp, hi.acked⟩
      have hok2 : ScanOk t s.acked s2 := by
        clear h h1
        induction bs generalizing s1 with
        | nil => simp only [crun, Option.some.injEq] at h2; subst h2; exact hok1
        | cons a bs ih =>
          simp only [crun] at h2
          cases ha : cstep s1 a with
          | none => rw [ha] at h2; simp at h2
          | some s1' =>
            rw [ha] at h2
            have hm := hb a (by simp)
            exact ih (fun x hx => hb x (List.mem_cons_of_mem _ hx)) _ h2 (scanOk_step t _ s1 a s1' hm.2 hm.1 hok1 ha)
      cases h3 : cstep s2 (.scanMem t) with
      | none => rw [h3] at h; simp at h
      | some s3 =>
        rw [h3] at h
        simp only [Option.some.injEq] at h
        subst h
        obtain ⟨ps, hp, hr⟩ := hok2
        simp only [cstep] at h3
        split at h3
        · cases h3
        · rw [hp] at h3
          injection h3 with h3
          subst h3
          intro r hrm
          refine ⟨_, _, rfl, ?_⟩
          rw [List.mem_append]
          exact hr r hrm

/-- A flush between the two sections of a scan hides the flushed rows from it. -/
theorem C23_scan_violated : ¬ C23_scan_full Nat := by
  intro h
  obtain ⟨rows, rest, h1, h2⟩ := h [.log 1 10, .push 1] [.flushFiles, .flushHandle] 7 _ _ rfl (by decide) rfl 10 (by decide)
  have : ([(7, ([] : List Nat))] : List (Nat × List Nat)) = (7, rows) :: rest := h1
  injection this with e1 e2
  injection e1 with _ e1
  subst e1
  simp at h2

example : ∃ s s', crun (R := Nat) .init [.log 1 10, .push 1, .flushFiles, .flushHandle] = some s ∧
    crun s (.scanMeta 7 :: [.log 2 20, .push 2] ++ [.scanMem 7]) = some s' ∧ s'.results = [(7, [20, 10])] :=
  ⟨_, _, rfl, rfl, rfl⟩

end OptiPrism.Storage
