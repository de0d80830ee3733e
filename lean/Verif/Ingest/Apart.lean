import Verif.Meta.Apart
import Verif.Ingest.Transform
import Verif.Ingest.Setup

/-!
# The ingester beside a project

Requests for one project, run on two worlds that agree outside another project.
-/

namespace OptiPrism.Ingest

open OptiPrism.Meta
open OptiPrism.Storage (Bytes Value NamedValue Tbl InsertErr ColType Field)

variable {α β : Type} {p q : Nat} {o o' kv kv' : Kv}

/-! ## The calls of the metadata -/

theorem anonymousId_aloof (hq : q ≠ p) {g : Nat} {s : Str} : Aloof p (anonymousId q g s) := by
  have off : (some q : Option Nat) ≠ some p := fun e => hq (Option.some.inj e)
  intro o o' kv kv' h
  unfold anonymousId
  rw [h.getK (k := .anon q g s) off]
  split
  · split
    · exact .error _
    · exact .ok h
  · have := nextSeq_aloof (k := .groupSeq q g) off o o' kv kv' h
    revert this
    generalize nextSeq _ kv = x
    generalize nextSeq _ kv' = y
    intro this
    cases this with
    | error e => exact .error e
    | ok hs => exact .ok (hs.putK (k := .anon q g s) off _)

theorem groupGetOrCreate_aloof (hq : q ≠ p) {g : Nat} {s : Str} {vs : List PropVal} : Aloof p (groupGetOrCreate q g s vs) := by
  have off : (some q : Option Nat) ≠ some p := fun e => hq (Option.some.inj e)
  intro o o' kv kv' h
  unfold groupGetOrCreate
  rw [h.getK (k := .real q g s) off]
  split
  · split
    · exact .error _
    · exact .ok h
  · have := nextSeq_aloof (k := .groupSeq q g) off o o' kv kv' h
    revert this
    generalize nextSeq _ kv = x
    generalize nextSeq _ kv' = y
    intro this
    cases this with
    | error e => exact .error e
    | ok hs =>
      dsimp only
      split
      · exact .error _
      · exact .ok (hs.putK (k := .real q g s) off _)

theorem groupCreateOrUpdate_aloof (hq : q ≠ p) {g : Nat} {s : Str} {vs : List PropVal} : Aloof p (groupCreateOrUpdate q g s vs) := by
  have off : (some q : Option Nat) ≠ some p := fun e => hq (Option.some.inj e)
  intro o o' kv kv' h
  unfold groupCreateOrUpdate
  rw [h.getK (k := .real q g s) off]
  split
  · split
    · exact .error _
    · dsimp only
      split
      · exact .error _
      · exact .ok (h.putK (k := .real q g s) off _)
  · have := nextSeq_aloof (k := .groupSeq q g) off o o' kv kv' h
    revert this
    generalize nextSeq _ kv = x
    generalize nextSeq _ kv' = y
    intro this
    cases this with
    | error e => exact .error e
    | ok hs =>
      dsimp only
      split
      · exact .error _
      · exact .ok (hs.putK (k := .real q g s) off _)

theorem mergeWithAnonymous_level (hq : q ≠ p) {g : Nat} {a s : Str} {vs : List PropVal} (h : Sides p o o' kv kv') :
    Level p o o' (mergeWithAnonymous q g a s vs kv) (mergeWithAnonymous q g a s vs kv') := by
  have off : (some q : Option Nat) ≠ some p := fun e => hq (Option.some.inj e)
  unfold mergeWithAnonymous
  rw [h.getK (k := .real q g s) off]
  split
  · split
    · exact ⟨rfl, h⟩
    · exact ⟨rfl, h⟩
  · have := (anonymousId_aloof hq (g := g) (s := a)).run h
    revert this
    generalize runCall _ kv = x
    generalize runCall _ kv' = y
    intro this
    obtain ⟨x1, x2⟩ := x
    obtain ⟨y1, y2⟩ := y
    obtain ⟨h1, h2⟩ := this
    dsimp only at h1
    subst h1
    cases x1 with
    | error e => exact ⟨rfl, h2⟩
    | ok id =>
      dsimp only
      split
      · exact ⟨rfl, h2⟩
      · exact ⟨rfl, (h2.putK (k := .groupSeq q g) off _).putK (k := .real q g s) off _⟩

theorem getOrCreateEvent_level (hq : q ≠ p) {now : Time} {r : Event} (h : Sides p o o' kv kv') :
    Level p o o' (getOrCreateEvent q now r kv) (getOrCreateEvent q now r kv') := by
  unfold getOrCreateEvent
  rw [h.getBy (c := eventsC q) (proj_off hq _)]
  split
  · exact ⟨rfl, h⟩
  · exact createEvent_level hq h
  · exact ⟨rfl, h⟩

theorem setCurrentTime_aloof (hq : q ≠ p) {u : Nat} {t : Time} : Aloof p (setCurrentTime q u t) := by
  have off : (some q : Option Nat) ≠ some p := fun e => hq (Option.some.inj e)
  intro o o' kv kv' h
  unfold setCurrentTime
  rw [h.getK (k := .session q u) off]
  split
  · exact .ok (h.putK (k := .session q u) off _)
  · split
    · exact .error _
    · exact .ok (h.putK (k := .session q u) off _)

theorem propCreate_aloof (hq : q ≠ p) {sys : Str → Str} {ty : PropType} {now : Time} {r : Property} {f : Except Err Unit} :
    Aloof p (propCreate sys q ty now r f) := by
  have off : (some q : Option Nat) ≠ some p := fun e => hq (Option.some.inj e)
  have hk : ∀ k, some k ∈ [some (Key.idx (.proj q ty.coll) .name r.name), r.displayName.map (Key.idx (.proj q ty.coll) .displayName)] → k.proj? ≠ some p := by
    intro k hk
    simp only [List.mem_cons, List.not_mem_nil, or_false] at hk
    rcases hk with e | e
    · cases e; exact off
    · obtain ⟨s, -, rfl⟩ := Option.map_eq_some_iff.mp e.symm
      exact off
  intro o o' kv kv' h
  unfold propCreate
  dsimp only
  rw [h.clashInsert hk]
  split
  · exact .error _
  · have := nextSeq_aloof (k := .seq (.proj q ty.coll)) off o o' kv kv' h
    revert this
    generalize nextSeq _ kv = x
    generalize nextSeq _ kv' = y
    intro this
    cases this with
    | error e => exact .error e
    | @ok id kv1 kv1' hs =>
      dsimp only
      split
      · exact .error _
      · next sh _ =>
        have := nextZeroSeq_aloof (k := .orderSeq q sh) off o o' kv1 kv1' hs
        revert this
        generalize nextZeroSeq _ kv1 = x
        generalize nextZeroSeq _ kv1' = y
        intro this
        cases this with
        | error e => exact .error e
        | ok hs =>
          dsimp only
          split
          · exact .error _
          · split
            · exact .error _
            · refine .ok (Sides.insertIndex (hs.putK (k := .data (.proj q ty.coll) _) off _) (fun k hm => ?_) _)
              rcases List.mem_append.mp hm with hm | hm
              · exact hk k hm
              · exact offKey (k := columnIdx q _) off k hm

theorem propGetOrCreate_aloof (hq : q ≠ p) {sys : Str → Str} {ty : PropType} {now : Time} {r : Property} {f : Except Err Unit} :
    Aloof p (propGetOrCreate sys q ty now r f) := by
  intro o o' kv kv' h
  unfold propGetOrCreate
  rw [h.getBy (c := propsC q ty) (proj_off hq _)]
  split
  · exact .ok h
  · exact propCreate_aloof hq _ _ _ _ h
  · exact .error _

theorem projectCreate_aloof {now : Time} {r : Project} : Aloof p (projectCreate now r) := by
  refine create_aloof (by nofun) (fun k hk => ?_) _
  simp only [List.mem_cons, List.not_mem_nil, or_false] at hk
  rcases hk with e | e <;> (cases e; nofun)

/-! ## Worlds -/

/-- Two worlds that agree outside the project, with the same tables, to which the same rows were added since, all of them `P`. -/
structure WSides (p : Nat) (o o' : Kv) (s s' : List (Str × List NamedValue)) (P : Str × List NamedValue → Prop) (w w' : World) : Prop where
  kv : Sides p o o' w.kv w'.kv
  tbl : w.tbl = w'.tbl
  rows : ∃ l, w.rows = s ++ l ∧ w'.rows = s' ++ l ∧ ∀ x ∈ l, P x

/-- Outcomes and worlds. -/
def WLevel (p : Nat) (o o' : Kv) (s s' : List (Str × List NamedValue)) (P : Str × List NamedValue → Prop) (x y : Except Fail α × World) : Prop :=
  x.1 = y.1 ∧ WSides p o o' s s' P x.2 y.2

/-- A step of a request that has nothing to do with the project, and adds rows that are `P`. -/
def Off (p : Nat) (P : Str × List NamedValue → Prop) (x : M α) : Prop :=
  ∀ o o' s s' w w', WSides p o o' s s' P w w' → WLevel p o o' s s' P (x w) (x w')

variable {P : Str × List NamedValue → Prop}

theorem Off.pure (a : α) : Off p P (M.pure a) := fun _ _ _ _ _ _ h => ⟨rfl, h⟩

theorem Off.fail (e : Fail) : Off p P (fail e : M α) := fun _ _ _ _ _ _ h => ⟨rfl, h⟩

theorem Off.ofExcept (x : Except Fail α) : Off p P (ofExcept x) := fun _ _ _ _ _ _ h => ⟨rfl, h⟩

theorem Off.bind {x : M α} {f : α → M β} (hx : Off p P x) (hf : ∀ a, Off p P (f a)) : Off p P (x.bind f) := by
  intro o o' s s' w w' h
  have := hx o o' s s' w w' h
  unfold M.bind
  revert this
  generalize x w = a
  generalize x w' = b
  intro this
  obtain ⟨a1, a2⟩ := a
  obtain ⟨b1, b2⟩ := b
  obtain ⟨h1, h2⟩ := this
  dsimp only at h1
  subst h1
  cases a1 with
  | error e => exact ⟨rfl, h2⟩
  | ok a => exact hf a _ _ _ _ _ _ h2

theorem Off.each {f : α → M β} (hf : ∀ a, Off p P (f a)) (l : List α) : Off p P (each f l) := by
  induction l with
  | nil => exact .pure _
  | cons a l ih => exact (hf a).bind fun _ => ih.bind fun _ => .pure _

theorem Off.raw {f : Kv → Except Err α × Kv} (hf : ∀ o o' kv kv', Sides p o o' kv kv' → Level p o o' (f kv) (f kv')) : Off p P (callRaw f) := by
  intro o o' s s' w w' h
  have := hf o o' w.kv w'.kv h.kv
  unfold callRaw
  revert this
  generalize f w.kv = a
  generalize f w'.kv = b
  intro this
  obtain ⟨a1, a2⟩ := a
  obtain ⟨b1, b2⟩ := b
  obtain ⟨h1, h2⟩ := this
  dsimp only at h1
  subst h1
  cases a1 with
  | error e => exact ⟨rfl, h2, h.tbl, h.rows⟩
  | ok a => exact ⟨rfl, h2, h.tbl, h.rows⟩

theorem Off.call {c : Call α} (hc : Aloof p c) : Off p P (call c) := .raw fun _ _ _ _ h => hc.run h

theorem Off.read {f : Kv → Except Err α} (hf : ∀ o o' kv kv', Sides p o o' kv kv' → f kv = f kv') : Off p P (read f) :=
  .raw fun o o' kv kv' h => ⟨hf o o' kv kv' h, h⟩

theorem Off.insert {t : Str} {vs : List NamedValue} (hp : P (t, vs)) : Off p P (insertRow t vs) := by
  intro o o' s s' w w' h
  unfold insertRow
  rw [h.tbl]
  split
  · exact ⟨rfl, h⟩
  · obtain ⟨l, l1, l2, l3⟩ := h.rows
    refine ⟨rfl, h.kv, rfl, l ++ [(t, vs)], ?_, ?_, ?_⟩
    · show w.rows ++ _ = _; rw [l1, List.append_assoc]
    · show w'.rows ++ _ = _; rw [l2, List.append_assoc]
    · intro x hx
      rcases List.mem_append.mp hx with hx | hx
      · exact l3 x hx
      · rw [List.mem_singleton] at hx; subst hx; exact hp

/-! ## Resolving -/

theorem addColumn_off {t c : Str} {dt : ColType} {b : Bool} {s s' : List (Str × List NamedValue)} {w w' : World} (h : WSides p o o' s s' P w w') :
    WSides p o o' s s' P (addColumn t c dt b w) (addColumn t c dt b w') := by
  unfold addColumn
  rw [h.tbl]
  split
  · exact h
  · exact ⟨h.kv, rfl, h.rows⟩

theorem addColumns_off {sys : Str → Str} {r : Property} {s s' : List (Str × List NamedValue)} {w w' : World} (h : WSides p o o' s s' P w w') :
    WSides p o o' s s' P (addColumns sys r w) (addColumns sys r w') := by
  unfold addColumns
  split
  · exact h
  · dsimp only
    split
    · exact addColumn_off h
    · exact addColumn_off (addColumn_off h)

theorem setupProp_off (hq : q ≠ p) {sys : Str → Str} {now : Time} {x : SetupProp} : Off p P (setupProp sys now q x) := by
  intro o o' s s' w w' h
  have := Off.call (P := P) (propGetOrCreate_aloof hq (sys := sys) (ty := x.typ) (now := now) (r := x.req) (f := .ok ())) o o' s s' w w' h
  unfold setupProp
  rw [← h.kv.getBy (c := propsC q x.typ) (proj_off hq _)]
  revert this
  generalize Ingest.call _ w = a
  generalize Ingest.call _ w' = b
  intro this
  obtain ⟨a1, a2⟩ := a
  obtain ⟨b1, b2⟩ := b
  obtain ⟨h1, h2⟩ := this
  dsimp only at h1
  subst h1
  cases a1 with
  | error e => exact ⟨rfl, h2⟩
  | ok r =>
    refine ⟨rfl, ?_⟩
    dsimp only
    split
    · exact h2
    · exact addColumns_off h2

theorem resolveProperty_off (hq : q ≠ p) {sys : Str → Str} {now : Time} {ty : PropType} {x : Str × PropValue} : Off p P (resolveProperty sys now q ty x) := by
  intro o o' s s' w w' h
  have := Off.call (P := P) (propGetOrCreate_aloof hq (sys := sys) (ty := ty) (now := now) (r := propReq ty x.1 x.2) (f := .ok ())) o o' s s' w w' h
  unfold resolveProperty
  rw [← h.kv.getBy (c := propsC q ty) (proj_off hq _)]
  revert this
  generalize Ingest.call _ w = a
  generalize Ingest.call _ w' = b
  intro this
  obtain ⟨a1, a2⟩ := a
  obtain ⟨b1, b2⟩ := b
  obtain ⟨h1, h2⟩ := this
  dsimp only at h1
  subst h1
  cases a1 with
  | error e => exact ⟨rfl, h2⟩
  | ok r =>
    refine ⟨rfl, ?_⟩
    dsimp only
    split
    · exact h2
    · exact addColumns_off h2

theorem resolveProperties_off (hq : q ≠ p) {sys : Str → Str} {now : Time} {ty : PropType} {l : Option (List (Str × PropValue))} :
    Off p P (resolveProperties sys now q ty l) := by
  unfold resolveProperties
  split
  · exact .pure _
  · exact (Off.each (fun _ => resolveProperty_off hq) _).bind fun _ => .pure _

theorem propertyToValue_off (hq : q ≠ p) {sys : Str → Str} {t : Str} {pv : Property × PropValue} : Off p P (propertyToValue sys q t pv) := by
  unfold propertyToValue
  split
  · split
    · refine (Off.call (dictGetOrCreate_aloof hq)).bind fun _ => ?_
      split
      · exact .fail _
      · exact .pure _
    · exact .fail _
  · exact .ofExcept _

theorem resolveUser_off (hq : q ≠ p) {u a : Option Str} : Off p P (resolveUser q u a) := by
  unfold resolveUser
  split
  · exact (Off.call (groupGetOrCreate_aloof hq)).bind fun _ => (Off.call (dictCreateKey_aloof hq)).bind fun _ => .pure _
  · exact (Off.call (anonymousId_aloof hq)).bind fun _ => (Off.call (dictCreateKey_aloof hq)).bind fun _ => .pure _
  · exact (Off.raw fun _ _ _ _ h => mergeWithAnonymous_level hq h).bind fun _ => .pure _
  · exact .fail _

theorem resolveGroup_off (hq : q ≠ p) {g : Str × Str} : Off p P (resolveGroup q g) :=
  (Off.call (getOrCreateGroup_aloof hq)).bind fun _ => (Off.call (groupGetOrCreate_aloof hq)).bind fun _ =>
    (Off.call (dictCreateKey_aloof hq)).bind fun _ => .pure _

theorem resolveGroups_off (hq : q ≠ p) {u : Option GroupValues} {l : Option (List (Str × Str))} : Off p P (resolveGroups q u l) := by
  unfold resolveGroups
  split
  · exact .pure _
  · exact (Off.each (fun _ => resolveGroup_off hq) _).bind fun _ => .pure _

/-- Transformers that look at the metadata of the project of the request only. -/
def Env.Apart {X : Type} (E : Env X) (p : Nat) : Prop := ∀ q x l kv kv', q ≠ p → hide p kv = hide p kv' → E.transform kv q x l = E.transform kv' q x l

theorem resolveTrack_off (hq : q ≠ p) {E : Env Track} (hE : E.Apart p) {req : Track} : Off p P (resolveTrack E q req) := by
  refine (resolveProperties_off hq).bind fun props => (resolveUser_off hq).bind fun u => (resolveGroups_off hq).bind fun groups =>
    (Off.raw fun _ _ _ _ h => getOrCreateEvent_level hq h).bind fun ev => Off.bind ?_ fun _ => Off.bind ?_ fun _ => .pure _
  · unfold attachProps
    split
    · exact .pure _
    · exact (Off.call (update_plain (c := eventsC q) (proj_off hq _) _)).bind fun _ => .pure _
  · intro o o' s s' w w' h
    unfold transformed
    rw [hE q req _ w.kv w'.kv hq h.kv.same]
    split
    · exact ⟨rfl, h⟩
    · exact ⟨rfl, h⟩

/-! ## Rows -/

/-- A row of a project: the first cell says so. -/
def OwnRow (q : Nat) (x : Str × List NamedValue) : Prop := x.2.head? = some (nv kProjectId (i64 q))

theorem valueCells_off (hq : q ≠ p) {sys : Str → Str} {g : Nat} {l : List PropVal} : Off p P (valueCells sys q g l) :=
  .each (fun v => (Off.read fun _ _ _ _ h => h.getById (c := propsC q (.group g)) (proj_off hq _) _).bind fun _ => .pure _) _

theorem sendTrack_off (hq : q ≠ p) {E : Env Track} {req : Track} {r : Resolved} : Off p (OwnRow q) (sendTrack E q req r) := by
  have off : (some q : Option Nat) ≠ some p := fun e => hq (Option.some.inj e)
  refine (Off.call (setCurrentTime_aloof hq)).bind fun isNew => Off.bind ?_ fun props => (Off.each (fun g => valueCells_off hq) _).bind fun gp => Off.bind ?_ fun utm => ?_
  · exact .each (fun pv => (propertyToValue_off hq).bind fun _ => .pure _) _
  · unfold utmCells
    split
    · exact .pure _
    · exact .each (fun x => (Off.read fun _ _ _ _ h => h.getBy (c := propsC q .event) (proj_off hq _) _ _).bind fun _ => (propertyToValue_off hq).bind fun _ => .pure _) _
  · refine Off.bind ?_ fun _ => (Off.call (nextSeq_aloof (k := .recSeq q) off)).bind fun _ => .insert rfl
    split
    · exact (Off.call (nextSeq_aloof (k := .recSeq q) off)).bind fun _ =>
        (Off.read fun _ _ _ _ h => h.getBy (c := eventsC q) (proj_off hq _) _ _).bind fun _ => .insert rfl
    · exact .pure _

theorem sendIdentify_off (hq : q ≠ p) {sys : Str → Str} {g : Nat} {t : Time} {v : GroupValues} : Off p (OwnRow q) (sendIdentify sys q g t v) := by
  have off : (some q : Option Nat) ≠ some p := fun e => hq (Option.some.inj e)
  exact (Off.call (nextSeq_aloof (k := .groupRecSeq q g) off)).bind fun _ => (valueCells_off hq).bind fun _ => .insert rfl

end OptiPrism.Ingest
