import Verif.Meta.SystemReach
import Verif.Meta.ListingProps

/-!
# C92: properties attached to an event

The answers of the attaching calls are right, but the stored form of an event has no place for
the lists (events.rs 469-527), so nothing attached is ever read again.
-/

namespace OptiPrism.Meta

open OptiPrism.Storage (Bytes)

variable {Q : Type}

/-- What a property list shows. -/
def listed (l : Option (List Nat)) : List Nat := l.getD []

/-! ## The answers -/

theorem tryAttach_cons (l : Option (List Nat)) (x : Nat) (ps : List Nat) :
    tryAttach l (x :: ps) = tryAttach (if x ∈ l.getD [] then l else some (l.getD [] ++ [x])) ps := rfl

/-- C92, the list `try_attach_properties` builds: the old properties come first in their order, every property
asked for is there, nothing else is, and no property is there twice. -/
theorem C92_set (l : Option (List Nat)) (ps : List Nat) :
    (listed l <+: listed (tryAttach l ps)) ∧
    (∀ x, x ∈ listed (tryAttach l ps) ↔ x ∈ listed l ∨ x ∈ ps) ∧
    ((listed l).Nodup → (listed (tryAttach l ps)).Nodup) := by
  induction ps generalizing l with
  | nil => exact ⟨List.prefix_refl _, fun x => by simp [tryAttach], fun h => h⟩
  | cons a ps ih =>
    rw [tryAttach_cons]
    obtain ⟨h1, h2, h3⟩ := ih (if a ∈ l.getD [] then l else some (l.getD [] ++ [a]))
    by_cases ha : a ∈ l.getD []
    · simp only [if_pos ha] at h1 h2 h3 ⊢
      refine ⟨h1, fun x => ?_, h3⟩
      rw [h2 x, List.mem_cons]
      constructor
      · rintro (h | h)
        · exact .inl h
        · exact .inr (.inr h)
      · rintro (h | rfl | h)
        · exact .inl h
        · exact .inl ha
        · exact .inr h
    · simp only [if_neg ha] at h1 h2 h3 ⊢
      refine ⟨List.IsPrefix.trans ⟨[a], rfl⟩ h1, fun x => ?_, fun hn => h3 ?_⟩
      · rw [h2 x]
        simp only [listed, Option.getD_some, List.mem_append, List.mem_cons, List.not_mem_nil, or_false, or_assoc]
      · simp only [listed, Option.getD_some]
        rw [List.nodup_append]
        refine ⟨hn, by simp, ?_⟩
        intro x hx y hy e
        simp only [List.mem_cons, List.not_mem_nil, or_false] at hy
        subst hy
        exact ha (e ▸ hx)

example : listed (tryAttach (some [5, 2]) [2, 7, 7, 1, 5]) = [5, 2, 7, 1] := by decide

/-! ## What is stored -/

theorem Event.dec_norm {b : Bytes} {e : Event} (h : Event.dec b = some e) : e.norm = e := by
  unfold Event.dec at h
  simp only [Option.bind_eq_bind, Option.bind_eq_some_iff, Option.pure_def, Option.some.injEq] at h
  obtain ⟨fs, -, st, -, id, -, ca, hca, cb, -, ua, hua, ub, -, pid, -, tags, -, nm, -, dn, -, ds, -, sta, -, sys, -, rfl⟩ := h
  unfold rdTime at hca
  unfold rdOptTime at hua
  rw [Option.map_eq_some_iff] at hca hua
  obtain ⟨v, -, rfl⟩ := hca
  obtain ⟨w, -, rfl⟩ := hua
  unfold Event.norm
  simp only [Time.trunc, Option.map_map, Event.mk.injEq, and_self, and_true, true_and]
  refine ⟨by cases w <;> rfl, ?_⟩
  cases tags <;> rfl

theorem event_read_norm {p id : Nat} {kv : Kv} {e : Event} (h : (eventsC p).getById id kv = .ok e) : e.norm = e := by
  unfold Coll.getById at h
  split at h
  · cases h
  · split at h
    · cases h
    · rename_i hd
      cases h
      exact Event.dec_norm hd

/-- C92, reading: an event which is read has no properties, whatever was attached before. -/
theorem C92_never_listed {p id : Nat} {kv : Kv} {e : Event} (h : (eventsC p).getById id kv = .ok e) (w : PropList) :
    listed (w.get e) = [] := by
  have := event_read_norm h
  rw [← this]
  cases w <;> rfl

/-- Writing back a record which differs from the stored one in the lists only changes no reading. -/
theorem rewrite_same {p id : Nat} {kv : Kv} (hr : Reach (eventsC p) Event.Valid kv) {e e' : Event}
    (h : (eventsC p).getById id kv = .ok e) (hn : e'.norm = e.norm) (hv : e.Valid → e'.Valid) (id' : Nat) :
    (eventsC p).getById id' (putK kv (.data (eventsC p).ns ((eventsC p).id e')) ((eventsC p).enc e')) = (eventsC p).getById id' kv := by
  have hinv := hr.inv (events_ok p)
  have h0 := h
  unfold Coll.getById at h
  cases hk : getK kv (.data (eventsC p).ns id) with
  | none => rw [hk] at h; cases h
  | some v =>
    obtain ⟨r, hd, hid, -, -, hval⟩ := hinv.data id v hk
    rw [hk] at h
    simp only [hd, Except.ok.injEq] at h
    subst h
    have hid' : (eventsC p).id e' = id := by
      rw [← hid]
      have a := congrArg Event.id hn
      exact a
    rw [hid']
    by_cases hx : id' = id
    · subst hx
      rw [h0]
      unfold Coll.getById
      rw [getK_putK _ (k := .data (eventsC p).ns id') trivial (k' := .data (eventsC p).ns id') trivial]
      have : (eventsC p).dec ((eventsC p).enc e') = some r := by
        have := (events_ok p).dec_enc e' (hv hval)
        rw [this, hn, event_read_norm h0]
      simp [this]
    · unfold Coll.getById
      rw [getK_putK _ (k := .data (eventsC p).ns id) trivial (k' := .data (eventsC p).ns id') trivial]
      rw [if_neg (by intro e; cases e; exact hx rfl)]

theorem set_norm (w : PropList) (e : Event) (l : Option (List Nat)) : (w.set e l).norm = e.norm := by
  cases w <;> rfl

theorem get_set (w : PropList) (e : Event) (l : Option (List Nat)) : w.get (w.set e l) = l := by
  cases w <;> rfl

theorem listed_nil {w : PropList} {e : Event} (h : e.norm = e) : w.get e = none := by
  rw [← h]; cases w <;> rfl

/-- C92, as far as it goes, for an event that exists: attaching answers with the property (alone), `try_attach` with the
properties asked for without repetition, and detaching is refused with NotFound. None of them changes what is read
of any event. -/
theorem C92_partial {E : Env Q} {n : Nat} {kv : Kv} (h : Hist E n kv) (hn : n < 2 ^ 62) {p id : Nat} {e : Event}
    (he : (eventsC p).getById id kv = .ok e) (w : PropList) (prop : Nat) (ps : List Nat) :
    (∃ r kv', eventAttach w p id prop kv = .ok (r, kv') ∧ listed (w.get r) = [prop] ∧ r.norm = e ∧
      ∀ id', (eventsC p).getById id' kv' = (eventsC p).getById id' kv) ∧
    (∃ r kv', eventTryAttach p id ps kv = .ok (r, kv') ∧ (∀ x, x ∈ listed r.eventProperties ↔ x ∈ ps) ∧
      (listed r.eventProperties).Nodup ∧ r.norm = e ∧
      ∀ id', (eventsC p).getById id' kv' = (eventsC p).getById id' kv) ∧
    eventDetach w p id prop kv = .error .notFound := by
  have hr := hist_events h hn p
  have hnorm := event_read_norm he
  have hg : ∀ w : PropList, w.get e = none := fun w => listed_nil hnorm
  let put' := fun e' => putK kv (.data (eventsC p).ns ((eventsC p).id e')) ((eventsC p).enc e')
  refine ⟨?_, ?_, ?_⟩
  · refine ⟨w.set e (some [prop]), put' (w.set e (some [prop])), ?_, ?_, ?_, ?_⟩
    · unfold eventAttach Coll.update
      rw [he]
      simp only [clashUpdate, hg w]
      rfl
    · rw [get_set]; rfl
    · rw [set_norm]; exact hnorm
    · exact rewrite_same hr he (set_norm _ _ _) (fun hv => PropList.set_valid w hv _)
  · obtain ⟨-, h2, h3⟩ := C92_set none ps
    have hl : e.eventProperties = none := hg .event
    refine ⟨PropList.set .event e (tryAttach none ps), put' (PropList.set .event e (tryAttach none ps)), ?_, ?_, ?_, ?_, ?_⟩
    · unfold eventTryAttach Coll.update
      rw [he]
      simp only [clashUpdate, hl]
      rfl
    · intro x
      have := h2 x
      simpa [listed, PropList.set] using this
    · exact h3 (by simp [listed])
    · rw [set_norm]; exact hnorm
    · exact rewrite_same hr he (set_norm _ _ _) (fun hv => PropList.set_valid .event hv _)
  · unfold eventDetach Coll.update
    rw [he]
    simp only [clashUpdate, hg w]
    rfl

/-- C92 as stated: a property attached with success is shown when the event is read next. -/
def C92_full (Q : Type) (E : Env Q) : Prop :=
  ∀ n kv, Hist E n kv → n < 2 ^ 62 → ∀ w p id prop r kv' e, eventAttach w p id prop kv = .ok (r, kv') →
    (eventsC p).getById id kv' = .ok e → prop ∈ listed (w.get e)

def exEventReq : Event :=
  ⟨0, ⟨0, 0⟩, 1, none, none, 0, none, "buy".toList, none, none, .enabled, false, none, none, none⟩

def exEvents : List (Req Unit) := [.eventCreate 1 ⟨7, 5⟩ exEventReq, .eventTryAttach 1 1 [3, 4, 3]]

theorem exEvents_hist : Hist exEnv 2 (runReqs exEnv exEvents []) := by
  refine Hist.of_run exEnv exEvents ?_
  intro r hr
  simp only [exEvents, List.mem_cons, List.not_mem_nil, or_false] at hr
  rcases hr with rfl | rfl
  · exact ⟨by decide, by decide⟩
  · trivial

theorem exEvents_read : ((eventsC 1).getById 1 (runReqs exEnv exEvents [])).toOption.map (·.name) = some "buy".toList := by
  decide +kernel

/-- C92 fails, and always: no attached property is ever shown. -/
theorem C92_violated : ¬ C92_full Unit exEnv := by
  intro hf
  have e1 := exEvents_read
  cases he : (eventsC 1).getById 1 (runReqs exEnv exEvents []) with
  | error x => rw [he] at e1; cases e1
  | ok e =>
    obtain ⟨⟨r, kv', h1, -, -, h2⟩, -⟩ := C92_partial exEvents_hist (by decide) he .event 9 []
    have hr := h2 1
    rw [he] at hr
    have := hf 2 _ exEvents_hist (by decide) .event 1 1 9 r kv' e h1 hr
    rw [C92_never_listed hr] at this
    cases this

/-- The event of the example takes the properties 3 and 4 into the answer and shows none afterwards. -/
example : (((eventTryAttach 1 1 [3, 4, 3] (runReqs exEnv exEvents [])).toOption.map fun x => listed x.1.eventProperties) = some [3, 4]) ∧
    (((eventsC 1).getById 1 (runReqs exEnv exEvents [])).toOption.map fun e => listed e.eventProperties) = some [] := by
  decide +kernel

end OptiPrism.Meta
