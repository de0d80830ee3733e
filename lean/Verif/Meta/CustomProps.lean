import Verif.Meta.Custom
import Verif.Meta.SystemProps

/-!
# C32, C33: custom events

`Refers` (which live custom event names which) and `Chain` are the specification; they do not mention
`validate_events`.
-/

namespace OptiPrism.Meta

variable {Q : Type}

/-- C32: in every state reached by a history of requests of any kind, following references between custom
events never returns to where it started. -/
theorem C32_acyclic {E : Env Q} {n : Nat} {kv : Kv} (h : Hist E n kv) (hn : n < 2 ^ 62) (p a k : Nat) :
    ¬ Chain (Refers p kv) (k + 1) a a :=
  ((h.graph hn p).ends a).no_cycle k

/-- The references of a custom event, one after the other; an error stops (`?` in expr.rs 84-94). -/
def expandList (f : EventRef → Option (Except Err (List EventRef))) : List EventRef → Option (Except Err (List EventRef))
  | [] => some (.ok [])
  | r :: rs => match f r with
    | none => none
    | some (.error e) => some (.error e)
    | some (.ok l) => match expandList f rs with
      | none => none
      | some (.error e) => some (.error e)
      | some (.ok l') => some (.ok (l ++ l'))

/-- `event_expression`, query/src/expr.rs 60-115: the regular events the expression is the disjunction of
(filters left out). `none`: the recursion is deeper than the fuel. -/
def expand (p : Nat) (kv : Kv) : Nat → EventRef → Option (Except Err (List EventRef))
  | 0, _ => none
  | fuel + 1, r => match r with
    | .regularName n => match (eventsC p).getBy .name n kv with
      | .error e => some (.error e)
      | .ok ev => some (.ok [.regular ev.id])
    | .regular id => some (.ok [.regular id])
    | .custom id => match (customC p).getById id kv with
      | .error e => some (.error e)
      | .ok ce => expandList (expand p kv fuel) (ce.events.map CEvent.event)

theorem expandList_mono {f g : EventRef → Option (Except Err (List EventRef))} (h : ∀ r x, f r = some x → g r = some x)
    (l : List EventRef) (x : Except Err (List EventRef)) (e : expandList f l = some x) : expandList g l = some x := by
  induction l generalizing x with
  | nil => exact e
  | cons r rs ih =>
    unfold expandList at e ⊢
    cases hf : f r with
    | none => rw [hf] at e; cases e
    | some y =>
      rw [hf] at e
      rw [h r y hf]
      cases y with
      | error _ => exact e
      | ok l1 =>
        dsimp only at e ⊢
        cases hl : expandList f rs with
        | none => rw [hl] at e; cases e
        | some z => rw [hl] at e; rw [ih z hl]; exact e

theorem expand_mono {p : Nat} {kv : Kv} (fuel : Nat) (r : EventRef) (x : Except Err (List EventRef))
    (e : expand p kv fuel r = some x) : expand p kv (fuel + 1) r = some x := by
  induction fuel generalizing r x with
  | zero => cases e
  | succ fuel ih =>
    cases r with
    | regularName n => exact e
    | regular id => exact e
    | custom id =>
      unfold expand at e ⊢
      dsimp only at e ⊢
      cases hg : (customC p).getById id kv with
      | error _ => rw [hg] at e; exact e
      | ok ce =>
        rw [hg] at e
        dsimp only at e ⊢
        exact expandList_mono (fun r x h => ih r x h) _ _ e

theorem expand_le {p : Nat} {kv : Kv} {f g : Nat} (h : f ≤ g) (r : EventRef) (x : Except Err (List EventRef))
    (e : expand p kv f r = some x) : expand p kv g r = some x := by
  obtain ⟨d, rfl⟩ := Nat.exists_eq_add_of_le h
  induction d with
  | zero => exact e
  | succ d ih => exact expand_mono _ _ _ (ih (by omega))

theorem expandList_ends {p : Nat} {kv : Kv} (l : List EventRef) (h : ∀ r ∈ l, ∃ f x, expand p kv f r = some x) :
    ∃ f x, expandList (expand p kv f) l = some x := by
  induction l with
  | nil => exact ⟨0, _, rfl⟩
  | cons r rs ih =>
    obtain ⟨f1, x1, e1⟩ := h r (List.mem_cons_self ..)
    obtain ⟨f2, x2, e2⟩ := ih fun r hr => h r (List.mem_cons_of_mem _ hr)
    have e1' := expand_le (Nat.le_max_left f1 f2) r x1 e1
    have e2' := expandList_mono (fun r x => expand_le (Nat.le_max_right f1 f2) r x) rs x2 e2
    refine ⟨max f1 f2, ?_⟩
    unfold expandList
    rw [e1', e2']
    cases x1 with
    | error _ => exact ⟨_, rfl⟩
    | ok _ => cases x2 <;> exact ⟨_, rfl⟩

/-- C32: expanding any event, custom or not, into regular events ends. -/
theorem C32_expand {E : Env Q} {n : Nat} {kv : Kv} (h : Hist E n kv) (hn : n < 2 ^ 62) (p : Nat) (r : EventRef) :
    ∃ fuel res, expand p kv fuel r = some res := by
  have hi := (hist_customs h hn p).inv (custom_ok p)
  have reg : ∀ r : EventRef, (∀ a, r ≠ .custom a) → ∃ fuel res, expand p kv fuel r = some res := by
    intro r hr
    cases r with
    | custom a => exact absurd rfl (hr a)
    | regular id => exact ⟨1, _, rfl⟩
    | regularName n =>
      refine ⟨1, ?_⟩
      unfold expand
      dsimp only
      cases (eventsC p).getBy .name n kv <;> exact ⟨_, rfl⟩
  cases r with
  | regularName n => exact reg _ (by intro a; simp)
  | regular id => exact reg _ (by intro a; simp)
  | custom a =>
    have := (h.graph hn p).ends a
    induction this with
    | intro a _ ih =>
      cases hl : (customC p).live kv a with
      | none =>
        refine ⟨1, .error .notFound, ?_⟩
        unfold expand
        dsimp only
        rw [getById_eq hi, hl]
      | some ce =>
        obtain ⟨f, x, e⟩ := expandList_ends (p := p) (kv := kv) (ce.events.map CEvent.event) (by
          intro r hr
          cases r with
          | regularName n => exact reg _ (by intro a; simp)
          | regular id => exact reg _ (by intro a; simp)
          | custom b => exact ih b ⟨ce, hl, mem_customIds.mpr hr⟩)
        refine ⟨f + 1, x, ?_⟩
        unfold expand
        dsimp only
        rw [getById_eq hi, hl]
        exact e

/-! ## C33 -/

/-- In a graph where `x` was just made to refer to `l`: chains from `x` pass through `l`. -/
theorem chain_set {G H : Nat → Nat → Prop} {x : Nat} {l : List Nat} (hH : ∀ a b, H a b ↔ setRefs G x l a b) {d : Nat}
    (hl : ∀ b ∈ l, ∀ n c, Chain G n b c → c ≠ x ∧ n + 1 ≤ d) {n c : Nat} (hc : Chain H n x c) : n ≤ d := by
  have key : ∀ n b c, Chain H n b c → (∀ n c, Chain G n b c → c ≠ x) → Chain G n b c := by
    intro n b c hc
    induction hc with
    | nil a => intro _; exact .nil a
    | @cons a b c n hg hc ih =>
      intro hno
      have hg' := (hH a b).mp hg
      unfold setRefs at hg'
      rw [if_neg (hno 0 a (.nil a))] at hg'
      exact .cons hg' (ih fun n c h => hno (n + 1) c (.cons hg' h))
  cases hc with
  | nil => omega
  | @cons _ b _ n hg hc =>
    have hg' := (hH x b).mp hg
    unfold setRefs at hg'
    rw [if_pos rfl] at hg'
    exact (hl b hg' n c (key n b c hc fun m e h => (hl b hg' m e h).1)).2

theorem create_depth {p : Nat} {kv kv' : Kv} (hi : (customC p).Inv CustomEvent.Bounds kv) (hG : GraphOk p kv) {ev : List CEvent} {ids : List Nat}
    (hv : validate p kv ev [] = .ok ids)
    (hr : ∀ a b, Refers p kv' a b ↔ setRefs (Refers p kv) (lastId kv (.proj p .customEvents) + 1) (customIds ev) a b)
    {n c : Nat} (hc : Chain (Refers p kv') n (lastId kv (.proj p .customEvents) + 1) c) : n ≤ 3 := by
  refine chain_set hr ?_ hc
  intro b hb n c hc
  refine ⟨?_, ((validate_spec hi hv hb).2 n c hc).2⟩
  have hle : ∀ n b c, Chain (Refers p kv) n b c → b ≤ lastId kv (.proj p .customEvents) → c ≤ lastId kv (.proj p .customEvents) := by
    intro n b c hc
    induction hc with
    | nil => exact id
    | cons hg _ ih => intro _; exact ih (hG.dst _ _ hg)
  have := hle n b c hc (live_le hi (validate_spec hi hv hb).1)
  omega

/-- C33, the part that holds: right after a custom event is created it nests at most three levels. Missing: the
events that refer to it (`C33_violated`). -/
theorem C33_created_partial {E : Env Q} {n : Nat} {kv : Kv} (h : Hist E n kv) (hn : n < 2 ^ 62) {p : Nat} {now : Time} {r : CustomEvent}
    (hr : (Req.customCreate (Q := Q) p now r).Ok) {ce : CustomEvent} {kv' : Kv} (e : customCreate p now r kv = .ok (ce, kv'))
    {k c : Nat} (hc : Chain (Refers p kv') k ce.id c) : k ≤ 3 := by
  have hR := hist_customs h hn p
  have hi := hR.inv (custom_ok p)
  obtain ⟨ids, h1, h2, h3, h4⟩ := customCreate_step hr hi (hR.room (custom_ok p)) e
  rw [h2] at hc
  exact create_depth hi (h.graph hn p) h1 h4 hc

/-- C33, the part that holds: right after its events are changed a custom event nests at most three levels. -/
theorem C33_updated_partial {E : Env Q} {n : Nat} {kv : Kv} (h : Hist E n kv) (hn : n < 2 ^ 62) {p id : Nat} {now : Time} {q : CustomUpd}
    (hr : (Req.customUpdate (Q := Q) p id now q).Ok) {ev : List CEvent} (hq : q.events = some ev) {ce : CustomEvent} {kv' : Kv}
    (e : customUpdate p id now q kv = .ok (ce, kv')) {k c : Nat} (hc : Chain (Refers p kv') k id c) : k ≤ 3 := by
  have hi := (hist_customs h hn p).inv (custom_ok p)
  obtain ⟨h1, h2, h3⟩ := customUpdate_step hr hi e
  rw [hq] at h3
  obtain ⟨ids, h3, h4⟩ := h3
  refine chain_set h4 ?_ hc
  intro b hb n c hc
  obtain ⟨h5, h6⟩ := (validate_spec hi h3 hb).2 n c hc
  exact ⟨fun e => h5 (by rw [e]; exact List.mem_singleton.mpr rfl), h6⟩

/-- C33, the part that holds: as long as no custom event's list is changed after its creation, none nests
deeper than three levels. -/
theorem C33_partial {E : Env Q} {p n : Nat} {kv : Kv} (h : Runs E (Req.KeepsEvents p) [] n kv) (hn : n < 2 ^ 62) {a k c : Nat}
    (hc : Chain (Refers p kv) k a c) : k ≤ 3 := by
  generalize h0 : ([] : Kv) = s at h
  induction h generalizing a k c with
  | refl =>
    subst h0
    cases hc with
    | nil => omega
    | cons hg _ => obtain ⟨ce, h, -⟩ := hg; simp [Coll.live, getK, Kv.get] at h
  | @step n kv r hrun hr hp ih =>
    subst h0
    have hH : Hist E (0 + n) kv := hrun.hist .start
    have hR := hist_customs hH (by omega) p
    have hi := hR.inv (custom_ok p)
    have hG := hH.graph (by omega) p
    have ih := @ih (by omega)
    rcases exec_cstep E hr hi (hR.room (custom_ok p)) with ⟨h1, -⟩ | ⟨ev, ids, hv, h1, h2⟩ | ⟨id, ev, ids, hu, -⟩ | ⟨-, h2⟩
    · exact ih (hc.mono fun a b => (refers_none h1 a b).mp)
    · by_cases ha : a = lastId kv (.proj p .customEvents) + 1
      · rw [ha] at hc
        exact create_depth hi hG hv h2 hc
      · have : ∀ k a c, Chain (Refers p (r.exec E kv)) k a c → a ≠ lastId kv (.proj p .customEvents) + 1 → Chain (Refers p kv) k a c := by
          intro k a c hc
          induction hc with
          | nil a => intro _; exact .nil a
          | @cons a b c k hg hc ihc =>
            intro hne
            have hg' := (h2 a b).mp hg
            unfold setRefs at hg'
            rw [if_neg hne] at hg'
            have := hG.dst a b hg'
            exact .cons hg' (ihc (by omega))
        exact ih (this k a c hc ha)
    · exact absurd hp hu
    · exact ih (hc.mono h2)

/-! ## The counterexample, and concrete histories -/

def exEvent : Event :=
  ⟨0, ⟨0, 0⟩, 1, none, none, 1, none, "buy".toList, none, none, .enabled, false, none, none, none⟩

def exCustom (name : Str) (r : EventRef) : CustomEvent :=
  ⟨0, ⟨0, 0⟩, 1, none, none, 1, none, name, none, .enabled, false, [⟨r, none⟩]⟩

/-- `1 := {buy}`, `2 := {1}`, `3 := {2}`, `4 := {3}`, `5 := {buy}`: three levels. -/
def exNest : List (Req Unit) :=
  [.eventCreate 1 ⟨0, 0⟩ exEvent,
   .customCreate 1 ⟨0, 0⟩ (exCustom "d".toList (.regularName "buy".toList)),
   .customCreate 1 ⟨0, 0⟩ (exCustom "c".toList (.custom 1)),
   .customCreate 1 ⟨0, 0⟩ (exCustom "b".toList (.custom 2)),
   .customCreate 1 ⟨0, 0⟩ (exCustom "a".toList (.custom 3)),
   .customCreate 1 ⟨0, 0⟩ (exCustom "e".toList (.regularName "buy".toList))]

/-- ... then `1 := {5}`. -/
def exDeepen : Req Unit := .customUpdate 1 1 ⟨0, 0⟩ { updatedBy := 1, events := some [⟨.custom 5, none⟩] }

theorem refers_of {p a b : Nat} {kv : Kv} {l : List Nat} (h : ((customC p).live kv a).map (fun ce => customIds ce.events) = some l)
    (hb : b ∈ l) : Refers p kv a b := by
  cases hl : (customC p).live kv a with
  | none => rw [hl] at h; cases h
  | some ce => rw [hl] at h; injection h with h; exact ⟨ce, hl, by rw [show customIds ce.events = l from h]; exact hb⟩

theorem exNest_ok : ∀ r ∈ exNest ++ [exDeepen], r.Ok := by
  intro r hr
  simp only [exNest, exDeepen, List.cons_append, List.nil_append, List.mem_cons, List.not_mem_nil, or_false] at hr
  have hE : ∀ x : EventRef, x.Ok → (CEvent.mk x none).Ok := fun x hx => ⟨hx, by simp⟩
  rcases hr with rfl | rfl | rfl | rfl | rfl | rfl | rfl
  · exact ⟨by decide, by decide⟩
  · exact ⟨by decide, by decide, fun e he => by simp [exCustom] at he; subst he; exact hE _ trivial⟩
  · exact ⟨by decide, by decide, fun e he => by simp [exCustom] at he; subst he; exact hE _ (by simp [EventRef.Ok])⟩
  · exact ⟨by decide, by decide, fun e he => by simp [exCustom] at he; subst he; exact hE _ (by simp [EventRef.Ok])⟩
  · exact ⟨by decide, by decide, fun e he => by simp [exCustom] at he; subst he; exact hE _ (by simp [EventRef.Ok])⟩
  · exact ⟨by decide, by decide, fun e he => by simp [exCustom] at he; subst he; exact hE _ trivial⟩
  · exact ⟨by decide, fun l hl e he => by cases hl; simp at he; subst he; exact hE _ (by simp [EventRef.Ok])⟩

/-- C33 does not hold as stated: depth grows from below. Each request is accepted, and afterwards event 4
nests four levels. -/
theorem C33_violated : ∃ kv, Hist exEnv 7 kv ∧ Chain (Refers 1 kv) 4 4 5 := by
  refine ⟨runReqs exEnv (exNest ++ [exDeepen]) [], Hist.of_run exEnv _ exNest_ok, ?_⟩
  exact .cons (refers_of (b := 3) (l := [3]) (by decide +kernel) (by decide))
    (.cons (refers_of (b := 2) (l := [2]) (by decide +kernel) (by decide))
      (.cons (refers_of (b := 1) (l := [1]) (by decide +kernel) (by decide))
        (.cons (refers_of (b := 5) (l := [5]) (by decide +kernel) (by decide)) (.nil 5))))

/-- Three levels are reached and expand to the regular event; one more is refused at creation, and so is a cycle. -/
example : (expand 1 (runReqs exEnv exNest []) 5 (.custom 4)).bind (·.toOption) = some [.regular 1] ∧
    expand 1 (runReqs exEnv exNest []) 4 (.custom 4) = none ∧
    (customCreate 1 ⟨0, 0⟩ (exCustom "f".toList (.custom 4)) (runReqs exEnv exNest [])).toOption = none ∧
    (customUpdate 1 1 ⟨0, 0⟩ { updatedBy := 1, events := some [⟨.custom 3, none⟩] } (runReqs exEnv exNest [])).toOption.map (·.1) = none ∧
    (customUpdate 1 1 ⟨0, 0⟩ { updatedBy := 1, events := some [⟨.custom 5, none⟩] } (runReqs exEnv exNest [])).toOption.map (·.1.id) = some 1 := by
  decide +kernel

end OptiPrism.Meta
