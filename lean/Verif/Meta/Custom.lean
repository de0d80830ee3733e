import Verif.Meta.Dicts

/-!
# References between custom events

The graph of references is read off the live records (`Coll.live`), independently of `validate_events`.
-/

namespace OptiPrism.Meta

variable {Q : Type}

/-- The custom events a list of references names. -/
def customIds (l : List CEvent) : List Nat :=
  l.filterMap fun e => match e.event with | .custom i => some i | _ => none

theorem mem_customIds {l : List CEvent} {b : Nat} : b ∈ customIds l ↔ EventRef.custom b ∈ l.map CEvent.event := by
  unfold customIds
  rw [List.mem_filterMap, List.mem_map]
  constructor
  · rintro ⟨e, he, h⟩
    refine ⟨e, he, ?_⟩
    revert h
    cases e.event <;> simp
  · rintro ⟨e, he, h⟩
    exact ⟨e, he, by rw [h]⟩

/-- The live custom event `a` refers to the custom event `b`. -/
def Refers (p : Nat) (kv : Kv) (a b : Nat) : Prop :=
  ∃ ce, (customC p).live kv a = some ce ∧ b ∈ customIds ce.events

/-- A chain of `n` references from `a` to `b`. -/
inductive Chain (G : Nat → Nat → Prop) : Nat → Nat → Nat → Prop
  | nil (a : Nat) : Chain G 0 a a
  | cons {a b c n : Nat} : G a b → Chain G n b c → Chain G (n + 1) a c

theorem Chain.mono {G H : Nat → Nat → Prop} (h : ∀ a b, G a b → H a b) {n a b : Nat} (hc : Chain G n a b) : Chain H n a b := by
  induction hc with
  | nil a => exact .nil a
  | cons hg _ ih => exact .cons (h _ _ hg) ih

theorem Chain.snoc {G : Nat → Nat → Prop} {n a b c : Nat} (h : Chain G n a b) (hg : G b c) : Chain G (n + 1) a c := by
  induction h with
  | nil a => exact .cons hg (.nil _)
  | cons h1 _ ih => exact .cons h1 (ih hg)

/-- Every way of following references from `a` ends. -/
abbrev Ends (G : Nat → Nat → Prop) (a : Nat) : Prop := Acc (fun b a => G a b) a

theorem Ends.no_cycle {G : Nat → Nat → Prop} {a : Nat} (h : Ends G a) : ∀ n, ¬ Chain G (n + 1) a a := by
  induction h with
  | intro a _ ih =>
    intro n hc
    cases hc with
    | cons hg hc => exact ih _ hg n (hc.snoc hg)

theorem mem_customIds_norm {l : List CEvent} : customIds (l.map CEvent.norm) = customIds l := by
  unfold customIds
  rw [List.filterMap_map]
  rfl

/-! ## What a successful `validate_events` says -/

/-- The references accepted: custom events named are live, none of `ids` is met on the way, and no chain
gets below the allowed level. -/
theorem validateEvents_spec {p max : Nat} {kv : Kv} (h : (customC p).Inv CustomEvent.Bounds kv) (fuel : Nat) :
    ∀ (level : Nat) (refs : List EventRef) (ids ids' : List Nat), validateEvents p max kv fuel level refs ids = .ok ids' →
      level ≤ max ∧ (∀ i ∈ ids, i ∈ ids') ∧
      ∀ b, EventRef.custom b ∈ refs → ((customC p).live kv b).isSome ∧
        ∀ n c, Chain (Refers p kv) n b c → c ∉ ids ∧ level + 1 + n ≤ max := by
  induction fuel with
  | zero => intro level refs ids ids' e; cases e
  | succ fuel ih =>
    intro level refs ids ids' e
    unfold validateEvents at e
    split at e
    · cases e
    · rename_i hle
      refine ⟨by omega, ?_⟩
      clear hle
      revert ids
      induction refs with
      | nil =>
        intro ids e
        simp only [List.foldlM_nil, pure, Except.pure, Except.ok.injEq] at e
        subst e
        exact ⟨fun _ h => h, fun b hb => by cases hb⟩
      | cons r refs ihr =>
        intro ids e
        rw [List.foldlM_cons] at e
        simp only [bind, Except.bind] at e
        split at e
        · cases e
        · rename_i ids1 e1
          obtain ⟨hs, hr⟩ := ihr ids1 e
          have step : (∀ i ∈ ids, i ∈ ids1) ∧ ∀ b, r = EventRef.custom b → ((customC p).live kv b).isSome ∧
              ∀ n c, Chain (Refers p kv) n b c → c ∉ ids ∧ level + 1 + n ≤ max := by
            cases r with
            | regularName n =>
              dsimp only at e1
              split at e1
              · cases e1
              · injection e1 with e1; subst e1; exact ⟨fun _ h => h, by intro b hb; cases hb⟩
            | regular id =>
              dsimp only at e1
              split at e1
              · cases e1
              · injection e1 with e1; subst e1; exact ⟨fun _ h => h, by intro b hb; cases hb⟩
            | custom id =>
              dsimp only at e1
              split at e1
              · cases e1
              · rename_i hni
                rw [getById_eq h id] at e1
                cases hl : (customC p).live kv id with
                | none => rw [hl] at e1; cases e1
                | some ce =>
                  rw [hl] at e1
                  dsimp only at e1
                  obtain ⟨k1, k2, k3⟩ := ih _ _ _ _ e1
                  refine ⟨fun i hi => k2 i (List.mem_append.mpr (.inl hi)), ?_⟩
                  intro b hb
                  injection hb with hb
                  subst hb
                  refine ⟨by rw [hl]; rfl, ?_⟩
                  intro n c hc
                  cases hc with
                  | nil => exact ⟨hni, k1⟩
                  | @cons _ d _ n hg hc =>
                    obtain ⟨ce', hl', hm⟩ := hg
                    rw [hl] at hl'
                    injection hl' with hl'
                    subst hl'
                    obtain ⟨-, k4⟩ := k3 d (mem_customIds.mp hm)
                    obtain ⟨k5, k6⟩ := k4 n c hc
                    exact ⟨fun hi => k5 (List.mem_append.mpr (.inl hi)), by omega⟩
          refine ⟨fun i hi => hs i (step.1 i hi), fun b hb => ?_⟩
          rcases List.mem_cons.mp hb with hb | hb
          · exact step.2 b hb.symm
          · obtain ⟨k1, k2⟩ := hr b hb
            refine ⟨k1, fun n c hc => ?_⟩
            obtain ⟨k3, k4⟩ := k2 n c hc
            exact ⟨fun hi => k3 (step.1 c hi), k4⟩

theorem validate_spec {p : Nat} {kv : Kv} (h : (customC p).Inv CustomEvent.Bounds kv) {ev : List CEvent} {ids ids' : List Nat}
    (e : validate p kv ev ids = .ok ids') {b : Nat} (hb : b ∈ customIds ev) :
    ((customC p).live kv b).isSome ∧ ∀ n c, Chain (Refers p kv) n b c → c ∉ ids ∧ n + 1 ≤ 3 := by
  obtain ⟨-, -, h3⟩ := validateEvents_spec h _ _ _ _ _ e
  obtain ⟨h4, h5⟩ := h3 b (mem_customIds.mp hb)
  exact ⟨h4, fun n c hc => ⟨(h5 n c hc).1, by have := (h5 n c hc).2; unfold maxEventsLevel at this; omega⟩⟩

/-! ## The effect of the requests on the graph -/

/-- The graph where `x` refers to `l`, and everything else is as before. -/
def setRefs (G : Nat → Nat → Prop) (x : Nat) (l : List Nat) : Nat → Nat → Prop :=
  fun a b => if a = x then b ∈ l else G a b

/-- Requests other than changing the events of a custom event of `p`. -/
def Req.KeepsEvents (p : Nat) : Req Q → Prop
  | .customUpdate p' _ _ q => p' = p → q.events = none
  | _ => True

/-- What one request does to the custom events of a project; `U`: it may change the list of an existing one. -/
inductive CStep (p : Nat) (U : Prop) (kv kv' : Kv) : Prop
  | none : (∀ a, (customC p).live kv' a = (customC p).live kv a) → lastId kv' (.proj p .customEvents) = lastId kv (.proj p .customEvents) → CStep p U kv kv'
  | create (ev : List CEvent) (ids : List Nat) : validate p kv ev [] = .ok ids →
      lastId kv' (.proj p .customEvents) = lastId kv (.proj p .customEvents) + 1 →
      (∀ a b, Refers p kv' a b ↔ setRefs (Refers p kv) (lastId kv (.proj p .customEvents) + 1) (customIds ev) a b) → CStep p U kv kv'
  | update (id : Nat) (ev : List CEvent) (ids : List Nat) : U → validate p kv ev [id] = .ok ids →
      lastId kv' (.proj p .customEvents) = lastId kv (.proj p .customEvents) →
      (∀ a b, Refers p kv' a b ↔ setRefs (Refers p kv) id (customIds ev) a b) → CStep p U kv kv'
  | less : lastId kv' (.proj p .customEvents) = lastId kv (.proj p .customEvents) →
      (∀ a b, Refers p kv' a b → Refers p kv a b) → CStep p U kv kv'

theorem refers_none {p : Nat} {kv kv' : Kv} (h : ∀ a, (customC p).live kv' a = (customC p).live kv a) (a b : Nat) :
    Refers p kv' a b ↔ Refers p kv a b := by unfold Refers; rw [h]

theorem customCreate_step {p : Nat} {now : Time} {r : CustomEvent} {kv : Kv} (hr : (Req.customCreate (Q := Q) p now r).Ok)
    (hi : (customC p).Inv CustomEvent.Bounds kv) (hl : lastId kv (.proj p .customEvents) + 1 < 2 ^ 64)
    {ce : CustomEvent} {kv' : Kv} (e : customCreate p now r kv = .ok (ce, kv')) :
    ∃ ids, validate p kv r.events [] = .ok ids ∧ ce.id = lastId kv (.proj p .customEvents) + 1 ∧
      lastId kv' (.proj p .customEvents) = lastId kv (.proj p .customEvents) + 1 ∧
      (∀ a b, Refers p kv' a b ↔ setRefs (Refers p kv) (lastId kv (.proj p .customEvents) + 1) (customIds r.events) a b) := by
  unfold customCreate at e
  split at e
  · cases e
  · cases hv : validate p kv r.events [] with
    | error x => rw [hv] at e; cases e
    | ok ids =>
      rw [hv] at e
      dsimp only at e
      obtain ⟨hk, hid, hvd⟩ := customCreate_ok (now := now) hr
      rcases create_spec (custom_ok p) hi hl hk hid hvd with ⟨-, e'⟩ | ⟨-, kv1, e', -, h2, h3⟩
      · rw [e'] at e; cases e
      · rw [e'] at e
        injection e with e
        injection e with e1 e2
        subst e2
        refine ⟨ids, rfl, by rw [← e1]; rfl, h2, ?_⟩
        intro a b
        unfold Refers setRefs
        have h3 : (customC p).live kv1 a = if a = lastId kv (.proj p .customEvents) + 1 then some (customMk p now r a).norm else (customC p).live kv a := h3 a
        rw [h3]
        by_cases ha : a = lastId kv (.proj p .customEvents) + 1
        · rw [if_pos ha, if_pos ha]
          constructor
          · rintro ⟨ce, h1, h2⟩
            injection h1 with h1
            subst h1
            rw [← mem_customIds_norm]; exact h2
          · intro h
            exact ⟨_, rfl, by rw [← mem_customIds_norm] at h; exact h⟩
        · rw [if_neg ha, if_neg ha]

theorem customUpdate_step {p id : Nat} {now : Time} {q : CustomUpd} {kv : Kv} (hr : (Req.customUpdate (Q := Q) p id now q).Ok)
    (hi : (customC p).Inv CustomEvent.Bounds kv)
    {ce : CustomEvent} {kv' : Kv} (e : customUpdate p id now q kv = .ok (ce, kv')) :
    lastId kv' (.proj p .customEvents) = lastId kv (.proj p .customEvents) ∧ ((customC p).live kv id).isSome ∧
      match q.events with
      | none => ∀ a b, Refers p kv' a b ↔ Refers p kv a b
      | some ev => ∃ ids, validate p kv ev [id] = .ok ids ∧
          ∀ a b, Refers p kv' a b ↔ setRefs (Refers p kv) id (customIds ev) a b := by
  obtain ⟨ho1, ho2, ho3, sel, hs, hsn, hp, hrest⟩ := customUpdate_ok hr kv
  unfold customUpdate at e
  rcases update_spec (custom_ok p) hi hs hsn ho1 hp hrest ho2 ho3 (id := id) with ⟨-, e'⟩ | ⟨r, hlive, ⟨-, e'⟩ | ⟨-, ⟨x, -, e'⟩ | ⟨hf, kv1, e', -, h2, h3⟩⟩⟩
  · rw [e'] at e; cases e
  · rw [e'] at e; cases e
  · rw [e'] at e; cases e
  · rw [e'] at e
    injection e with e
    injection e with e1 e2
    subst e2
    refine ⟨h2, by rw [hlive]; rfl, ?_⟩
    have hrid : r.id = id := by
      have := (Inv.live_id hi hlive).1
      exact this
    unfold CustomUpd.check at hf
    cases hq : q.events with
    | none =>
      dsimp only
      intro a b
      unfold Refers
      rw [h3 a]
      by_cases ha : a = id
      · rw [if_pos ha, ha, hlive]
        constructor
        · rintro ⟨ce, h1, h2⟩
          injection h1 with h1
          subst h1
          refine ⟨r, rfl, ?_⟩
          have h2' : b ∈ customIds ((q.apply now r).events.map CEvent.norm) := h2
          rw [mem_customIds_norm] at h2'
          simpa [CustomUpd.apply, hq] using h2'
        · rintro ⟨ce, h1, h2⟩
          injection h1 with h1
          subst h1
          refine ⟨_, rfl, ?_⟩
          show b ∈ customIds ((q.apply now r).events.map CEvent.norm)
          rw [mem_customIds_norm]
          simpa [CustomUpd.apply, hq] using h2
      · rw [if_neg ha]
    | some ev =>
      dsimp only
      rw [hq] at hf
      dsimp only at hf
      split at hf
      · cases hf
      · cases hv : validate p kv ev [r.id] with
        | error x => rw [hv] at hf; cases hf
        | ok ids =>
          rw [hrid] at hv
          refine ⟨ids, hv, ?_⟩
          intro a b
          unfold Refers setRefs
          rw [h3 a]
          by_cases ha : a = id
          · rw [if_pos ha, if_pos ha]
            have hev : (q.apply now r).events = ev := by simp [CustomUpd.apply, hq]
            constructor
            · rintro ⟨ce, h1, h2⟩
              injection h1 with h1
              subst h1
              have h2' : b ∈ customIds ((q.apply now r).events.map CEvent.norm) := h2
              rw [mem_customIds_norm, hev] at h2'
              exact h2'
            · intro h
              refine ⟨_, rfl, ?_⟩
              show b ∈ customIds ((q.apply now r).events.map CEvent.norm)
              rw [mem_customIds_norm, hev]
              exact h
          · rw [if_neg ha, if_neg ha]

theorem exec_cstep (E : Env Q) {r : Req Q} (hr : r.Ok) {p : Nat} {kv : Kv} (hi : (customC p).Inv CustomEvent.Bounds kv)
    (hl : lastId kv (.proj p .customEvents) + 1 < 2 ^ 64) : CStep p (¬ r.KeepsEvents p) kv (r.exec E kv) := by
  by_cases hm : Mod.coll (.proj p .customEvents) ∈ r.mods
  case neg =>
    have h := exec_agree E hr hm kv
    exact .none (fun a => AgreeOn.live (c := customC p) h a) h.last
  case pos =>
    cases r <;> simp only [Req.mods, List.mem_cons, List.not_mem_nil, or_false, Mod.coll.injEq, reduceCtorEq, Ns.proj.injEq, or_self, and_true, and_false] at hm
    case customCreate p' now r =>
      subst hm
      show CStep p _ kv (runCall (Meta.customCreate p now r) kv).2
      unfold runCall
      split
      · rename_i ce kv' e
        obtain ⟨ids, h1, h2, h3, h4⟩ := customCreate_step hr hi hl e
        exact .create _ ids h1 h3 h4
      · exact .none (fun _ => rfl) rfl
    case customUpdate p' id now q =>
      subst hm
      show CStep p _ kv (runCall (Meta.customUpdate p id now q) kv).2
      unfold runCall
      split
      · rename_i ce kv' e
        obtain ⟨h1, h2, h3⟩ := customUpdate_step hr hi e
        cases hq : q.events with
        | none => rw [hq] at h3; exact .less h1 fun a b h => (h3 a b).mp h
        | some ev => rw [hq] at h3; obtain ⟨ids, h3, h4⟩ := h3; exact .update id _ ids (fun hk => by rw [hk rfl] at hq; cases hq) h3 h1 h4
      · exact .none (fun _ => rfl) rfl
    case customDelete p' id =>
      subst hm
      show CStep p _ kv (runCall ((customC p).delete id) kv).2
      unfold runCall
      rcases delete_spec (custom_ok p) hi id with ⟨-, e⟩ | ⟨r, kv', -, e, -, h2, h3⟩
      · rw [e]; exact .none (fun _ => rfl) rfl
      · rw [e]
        refine .less h2 fun a b => ?_
        unfold Refers
        rw [h3 a]
        by_cases ha : a = id
        · rw [if_pos ha]; rintro ⟨ce, h, -⟩; cases h
        · rw [if_neg ha]; exact fun h => h
    case propCreate p' ty now r f => cases ty <;> simp [PropType.coll] at hm
    case propGetOrCreate p' ty now r f => cases ty <;> simp [PropType.coll] at hm
    case propUpdate p' ty id now q => cases ty <;> simp [PropType.coll] at hm
    case propDelete p' ty id => cases ty <;> simp [PropType.coll] at hm

/-! ## The invariant -/

structure GraphOk (p : Nat) (kv : Kv) : Prop where
  dst : ∀ a b, Refers p kv a b → b ≤ lastId kv (.proj p .customEvents)
  ends : ∀ a, Ends (Refers p kv) a

theorem live_le {p : Nat} {kv : Kv} (hi : (customC p).Inv CustomEvent.Bounds kv) {a : Nat} (h : ((customC p).live kv a).isSome) :
    a ≤ lastId kv (.proj p .customEvents) := by
  unfold Coll.live at h
  cases hv : getK kv (.data (customC p).ns a) with
  | none => rw [hv] at h; cases h
  | some v =>
    obtain ⟨r, -, -, -, hle, -⟩ := hi.data a v hv
    exact hle

theorem GraphOk.step {p : Nat} {kv kv' : Kv} (hi : (customC p).Inv CustomEvent.Bounds kv) (h : GraphOk p kv) {U : Prop} (hs : CStep p U kv kv') : GraphOk p kv' := by
  cases hs with
  | none h1 h2 =>
    have hG : Refers p kv' = Refers p kv := by funext a b; exact propext (refers_none h1 a b)
    exact ⟨by rw [hG, h2]; exact h.dst, by rw [hG]; exact h.ends⟩
  | less h1 h2 =>
    refine ⟨fun a b hg => by rw [h1]; exact h.dst a b (h2 a b hg), fun a => ?_⟩
    have := h.ends a
    induction this with
    | intro a _ ih => exact .intro a fun b hg => ih b (h2 a b hg)
  | create ev ids hv h1 h2 =>
    have hrefs : ∀ b ∈ customIds ev, b ≤ lastId kv (.proj p .customEvents) := fun b hb => live_le hi (validate_spec hi hv hb).1
    have hold : ∀ a, a ≤ lastId kv (.proj p .customEvents) → Ends (Refers p kv') a := by
      intro a ha
      have := h.ends a
      induction this with
      | intro a _ ih =>
        refine .intro a fun b hg => ?_
        have hg' := (h2 a b).mp hg
        unfold setRefs at hg'
        rw [if_neg (by omega)] at hg'
        exact ih b hg' (h.dst a b hg')
    have hd : ∀ a b, Refers p kv' a b → b ≤ lastId kv (.proj p .customEvents) := by
      intro a b hg
      have hg' := (h2 a b).mp hg
      unfold setRefs at hg'
      split at hg'
      · exact hrefs b hg'
      · exact h.dst a b hg'
    exact ⟨fun a b hg => by have := hd a b hg; omega, fun a => .intro a fun b hg => hold b (hd a b hg)⟩
  | update id ev ids _ hv h1 h2 =>
    have hrefs : ∀ b ∈ customIds ev, b ≤ lastId kv (.proj p .customEvents) := fun b hb => live_le hi (validate_spec hi hv hb).1
    -- nothing below the new references is the updated event
    have hold : ∀ b, Ends (Refers p kv) b → (∀ n c, Chain (Refers p kv) n b c → c ≠ id) → Ends (Refers p kv') b := by
      intro b hb
      induction hb with
      | intro b _ ih =>
        intro hno
        refine .intro b fun c hg => ?_
        have hg' := (h2 b c).mp hg
        unfold setRefs at hg'
        rw [if_neg (hno 0 b (.nil b))] at hg'
        exact ih c hg' fun n d hd => hno (n + 1) d (.cons hg' hd)
    have hid : Ends (Refers p kv') id := by
      refine .intro id fun b hg => ?_
      have hg' := (h2 id b).mp hg
      unfold setRefs at hg'
      rw [if_pos rfl] at hg'
      exact hold b (h.ends b) fun n c hc e => ((validate_spec hi hv hg').2 n c hc).1 (by rw [e]; exact List.mem_singleton.mpr rfl)
    refine ⟨?_, ?_⟩
    · intro a b hg
      have hg' := (h2 a b).mp hg
      unfold setRefs at hg'
      rw [h1]
      split at hg'
      · exact hrefs b hg'
      · exact h.dst a b hg'
    · intro a
      have := h.ends a
      induction this with
      | intro a _ ih =>
        by_cases ha : a = id
        · rw [ha]; exact hid
        · refine .intro a fun b hg => ?_
          have hg' := (h2 a b).mp hg
          unfold setRefs at hg'
          rw [if_neg ha] at hg'
          exact ih b hg'

theorem GraphOk.empty (p : Nat) : GraphOk p [] := by
  have : ∀ a b, ¬ Refers p [] a b := by
    rintro a b ⟨ce, h, -⟩
    simp [Coll.live, getK, Kv.get] at h
  exact ⟨fun a b h => absurd h (this a b), fun a => .intro a fun b h => absurd h (this a b)⟩

theorem Hist.graph {E : Env Q} {n : Nat} {kv : Kv} (h : Hist E n kv) (hn : n < 2 ^ 62) (p : Nat) : GraphOk p kv := by
  induction h with
  | start => exact GraphOk.empty p
  | @step n kv r h0 hr ih =>
    have hR := hist_customs h0 (by omega) p
    have hi := hR.inv (custom_ok p)
    exact (ih (by omega)).step hi (exec_cstep E hr hi (hR.room (custom_ok p)))

end OptiPrism.Meta
