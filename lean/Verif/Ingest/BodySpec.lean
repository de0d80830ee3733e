import Verif.Ingest.Body

/-!
# What a body says

The specification used by C144 and its agreement with the reader of bodies.
-/

namespace OptiPrism.Ingest

open OptiPrism.Meta

/-- Spec: what a document has under the field `k` of a structure with the fields `names`: the value of the one member of that name, nothing if there is no
such member; an array has a value for every field, in their order. -/
def Has (names : List Str) (k : Str) (x : Option Doc) : Doc → Prop
  | .obj l => match x with
    | none => ∀ m ∈ l, m.1 ≠ k
    | some v => ∃ a b, l = a ++ (k, v) :: b ∧ ∀ m ∈ a ++ b, m.1 ≠ k
  | .arr l => l.length = names.length ∧ ∃ (i : Nat) (v : Doc), names[i]? = some k ∧ l[i]? = some v ∧ x = some v
  | _ => False

/-- Spec: a field which must be there and says `v`. -/
def Needs (names : List Str) (k : Str) {α : Type} (R : α → Doc → Prop) (v : α) (j : Doc) : Prop := ∃ d, Has names k (some d) j ∧ R v d

/-- Spec: a field which may be missing or `null`. -/
def May (names : List Str) (k : Str) {α : Type} (R : α → Doc → Prop) (v : Option α) (j : Doc) : Prop :=
  match v with
  | none => Has names k none j ∨ Has names k (some .null) j
  | some v => ∃ d, Has names k (some d) j ∧ R v d

def IsText (s : Str) (d : Doc) : Prop := d = .str s
def IsTime (C : Codec) (t : Time) (d : Doc) : Prop := ∃ s, d = .str s ∧ C.date s = some t
def IsIp (C : Codec) (a : Str) (d : Doc) : Prop := ∃ s, d = .str s ∧ C.ip s = some a

/-- Spec: how a client writes the value of a property. -/
def IsValue (C : Codec) : PropValue → Doc → Prop
  | .string s, d => d = .str s
  | .date t, d => IsTime C t d
  | .number n, d => ∃ x, d = .num x ∧ C.num x = some n
  | .bool b, d => d = .bool b

/-- The value read: a string which reads as a date is none. -/
def ReadsAs (C : Codec) (v : PropValue) (d : Doc) : Prop := IsValue C v d ∧ ∀ s, v = .string s → C.date s = none

/-- Spec: the entries `r` of the object `d`: one for every name, with what the last member of this name says. -/
def Entries {α : Type} (R : α → Doc → Prop) (r : List (Str × α)) (d : Doc) : Prop := ∃ l, d = .obj l ∧ (r.map Prod.fst).Nodup ∧
  (∀ k v, (k, v) ∈ r → ∃ a x b, l = a ++ (k, x) :: b ∧ R v x ∧ ∀ m ∈ b, m.1 ≠ k) ∧ ∀ m ∈ l, m.1 ∈ r.map Prod.fst ∧ ∃ v, R v m.2

def sourceFields : List Str := ["source".toList, "medium".toList, "campaign".toList, "term".toList, "content".toList]
def libraryFields : List Str := ["name".toList, "version".toList]
def pageFields : List Str := ["path".toList, "referrer".toList, "search".toList, "title".toList, "url".toList]
def contextFields : List Str := ["library".toList, "page".toList, "userAgent".toList, "ip".toList, "campaign".toList]
def trackFields : List Str := ["userId".toList, "anonymousId".toList, "timestamp".toList, "context".toList, "event".toList, "properties".toList, "groups".toList]
def identifyFields : List Str := ["timestamp".toList, "context".toList, "group".toList, "id".toList, "properties".toList]

/-- Spec: the campaign. -/
structure IsCampaign (c : Campaign) (d : Doc) : Prop where
  source : Needs sourceFields "source".toList IsText c.source d
  medium : May sourceFields "medium".toList IsText c.medium d
  campaign : May sourceFields "campaign".toList IsText c.campaign d
  term : May sourceFields "term".toList IsText c.term d
  content : May sourceFields "content".toList IsText c.content d

structure IsLibrary (c : Str × Str) (d : Doc) : Prop where
  name : Needs libraryFields "name".toList IsText c.1 d
  version : Needs libraryFields "version".toList IsText c.2 d

structure IsPage (c : Page) (d : Doc) : Prop where
  path : May pageFields "path".toList IsText c.path d
  referrer : May pageFields "referrer".toList IsText c.referrer d
  search : May pageFields "search".toList IsText c.search d
  title : May pageFields "title".toList IsText c.title d
  url : May pageFields "url".toList IsText c.url d

/-- Spec: the context. -/
structure IsContext (C : Codec) (c : Context) (d : Doc) : Prop where
  library : May contextFields "library".toList IsLibrary c.library d
  page : May contextFields "page".toList IsPage c.page d
  agent : May contextFields "userAgent".toList IsText c.agent d
  ip : May contextFields "ip".toList (IsIp C) c.ip d
  campaign : May contextFields "campaign".toList IsCampaign c.campaign d

/-- Spec: the document is that of a track request; `V` says how values of properties are written. -/
structure SaysTrack (C : Codec) (V : PropValue → Doc → Prop) (b : TrackBody) (d : Doc) : Prop where
  userId : May trackFields "userId".toList IsText b.userId d
  anonId : May trackFields "anonymousId".toList IsText b.anonId d
  time : May trackFields "timestamp".toList (IsTime C) b.time d
  context : Needs trackFields "context".toList (IsContext C) b.context d
  event : Needs trackFields "event".toList IsText b.event d
  props : May trackFields "properties".toList (Entries V) b.props d
  groups : May trackFields "groups".toList (Entries IsText) b.groups d

/-- Spec: the document is that of an identify request. -/
structure SaysIdentify (C : Codec) (V : PropValue → Doc → Prop) (b : IdentifyBody) (d : Doc) : Prop where
  time : May identifyFields "timestamp".toList (IsTime C) b.time d
  context : Needs identifyFields "context".toList (IsContext C) b.context d
  group : Needs identifyFields "group".toList IsText b.group d
  id : Needs identifyFields "id".toList IsText b.id d
  props : May identifyFields "properties".toList (Entries V) b.props d

/-! ## Members -/

def Each2 {α β : Type} (R : α → β → Prop) : List α → List β → Prop
  | [], [] => True
  | a :: l, b :: m => R a b ∧ Each2 R l m
  | _, _ => False

theorem mapM_each2 {α β : Type} (f : α → Option β) : ∀ (l : List α) (m : List β), l.mapM f = some m ↔ Each2 (fun a b => f a = some b) l m
  | [], m => by
    rw [List.mapM_nil]
    cases m with
    | nil => exact ⟨fun _ => trivial, fun _ => rfl⟩
    | cons b m => exact ⟨fun h => by simp at h, fun h => h.elim⟩
  | a :: l, m => by
    rw [List.mapM_cons]
    cases m with
    | nil =>
      refine ⟨fun h => ?_, fun h => h.elim⟩
      cases h1 : f a with
      | none => rw [h1] at h; simp at h
      | some b =>
        rw [h1] at h
        cases h2 : l.mapM f with
        | none => rw [h2] at h; simp at h
        | some c => rw [h2] at h; simp at h
    | cons b m =>
      have ih := mapM_each2 f l m
      constructor
      · intro h
        cases h1 : f a with
        | none => rw [h1] at h; simp at h
        | some b' =>
          rw [h1] at h
          cases h2 : l.mapM f with
          | none => rw [h2] at h; simp at h
          | some c =>
            rw [h2] at h
            simp at h
            exact ⟨by show f a = some b; rw [h1, h.1], ih.mp (by rw [h2, h.2])⟩
      · rintro ⟨h1, h2⟩
        rw [h1, ih.mpr h2]
        rfl

theorem Each2.imp {α β : Type} {R S : α → β → Prop} : ∀ {l : List α} {m : List β}, (∀ a b, a ∈ l → R a b → S a b) → Each2 R l m → Each2 S l m
  | [], [], _, _ => trivial
  | _ :: _, _ :: _, h, ⟨h1, h2⟩ => ⟨h _ _ (by simp) h1, Each2.imp (fun a b ha => h a b (List.mem_cons_of_mem _ ha)) h2⟩

theorem Each2.length {α β : Type} {R : α → β → Prop} : ∀ {l : List α} {m : List β}, Each2 R l m → l.length = m.length
  | [], [], _ => rfl
  | _ :: _, _ :: _, ⟨_, h2⟩ => by simp [Each2.length h2]

theorem Each2.get {α β : Type} {R : α → β → Prop} : ∀ {l : List α} {m : List β}, Each2 R l m → ∀ (i : Nat) (a : α) (b : β), l[i]? = some a → m[i]? = some b → R a b
  | _ :: _, _ :: _, ⟨h, _⟩, 0, _, _, h1, h2 => by cases h1; cases h2; exact h
  | _ :: _, _ :: _, ⟨_, h⟩, i + 1, _, _, h1, h2 => Each2.get h i _ _ h1 h2

theorem Each2.mk' {α β : Type} {R : α → β → Prop} : ∀ {l : List α} {m : List β}, l.length = m.length →
    (∀ (i : Nat) (a : α) (b : β), l[i]? = some a → m[i]? = some b → R a b) → Each2 R l m
  | [], [], _, _ => trivial
  | a :: l, b :: m, h, h1 => ⟨h1 0 a b rfl rfl, Each2.mk' (by simpa using h) fun i x y hx hy => h1 (i + 1) x y hx hy⟩
  | [], _ :: _, h, _ => by cases h
  | _ :: _, [], h, _ => by cases h

theorem has_member {l : List (Str × Doc)} {names : List Str} {k : Str} {x : Option Doc} :
    (match l.filter fun m => m.1 = k with
      | [] => some none
      | [m] => some (some m.2)
      | _ => none) = some x ↔ Has names k x (.obj l) := by
  cases hf : l.filter fun m => m.1 = k with
  | nil =>
    have hn : ∀ m ∈ l, m.1 ≠ k := by simpa using List.filter_eq_nil_iff.mp hf
    cases x with
    | none => exact ⟨fun _ => hn, fun _ => rfl⟩
    | some v =>
      refine ⟨fun h => by simp at h, fun h => ?_⟩
      obtain ⟨a, b, h, -⟩ := h
      exact absurd rfl (hn (k, v) (by rw [h]; simp))
  | cons m r =>
    obtain ⟨a, b, hl, ha, hm, hb⟩ := List.filter_eq_cons_iff.mp hf
    have hk : m.1 = k := by simpa using hm
    cases r with
    | nil =>
      have hn : ∀ m ∈ a ++ b, m.1 ≠ k := fun m hm => by
        rcases List.mem_append.mp hm with h | h
        · simpa using ha m h
        · simpa using List.filter_eq_nil_iff.mp hb m h
      cases x with
      | none => exact ⟨fun h => by simp at h, fun h => absurd hk (h m (by rw [hl]; simp))⟩
      | some v =>
        dsimp only
        refine ⟨fun h => ⟨a, b, ?_, hn⟩, fun h => ?_⟩
        · cases h; rw [hl, ← hk]
        · obtain ⟨a', b', h, hn'⟩ := h
          have : (l.filter fun m => m.1 = k) = [(k, v)] := by
            rw [h, List.filter_append, List.filter_cons, if_pos (by simp),
              List.filter_eq_nil_iff.mpr (fun m hm => by simpa using hn' m (List.mem_append_left _ hm)),
              List.filter_eq_nil_iff.mpr (fun m hm => by simpa using hn' m (List.mem_append_right _ hm))]
            rfl
          rw [hf] at this
          cases this
          rfl
    | cons m' r =>
      refine ⟨fun h => by simp at h, fun h => ?_⟩
      cases x with
      | none => exact absurd hk (h m (by rw [hl]; simp))
      | some v =>
        obtain ⟨a', b', h, hn'⟩ := h
        have : (l.filter fun m => m.1 = k) = [(k, v)] := by
          rw [h, List.filter_append, List.filter_cons, if_pos (by simp),
            List.filter_eq_nil_iff.mpr (fun m hm => by simpa using hn' m (List.mem_append_left _ hm)),
            List.filter_eq_nil_iff.mpr (fun m hm => by simpa using hn' m (List.mem_append_right _ hm))]
          rfl
        rw [hf] at this
        cases this

theorem members_iff {names : List Str} (hn : names.Nodup) (h0 : names ≠ []) (j : Doc) (m : List (Option Doc)) :
    members names j = some m ↔ Each2 (fun k x => Has names k x j) names m := by
  cases j with
  | obj l =>
    unfold members
    rw [mapM_each2]
    exact ⟨Each2.imp fun k x _ h => has_member.mp h, Each2.imp fun k x _ h => has_member.mpr h⟩
  | arr l =>
    unfold members
    dsimp only
    constructor
    · intro h
      by_cases hc : l.length = names.length
      · rw [if_pos hc] at h
        rw [← Option.some.inj h]
        refine Each2.mk' (by simp [hc]) fun i k x hk hx => ⟨hc, ?_⟩
        rw [List.getElem?_map, Option.map_eq_some_iff] at hx
        obtain ⟨v, h1, h2⟩ := hx
        exact ⟨i, v, hk, h1, h2.symm⟩
      · rw [if_neg hc] at h; cases h
    · intro h
      have hc : l.length = names.length := by
        cases names with
        | nil => exact absurd rfl h0
        | cons k ks =>
          cases m with
          | nil => exact h.elim
          | cons x xs => exact h.1.1
      rw [if_pos hc]
      congr 1
      apply List.ext_getElem?
      intro i
      rw [List.getElem?_map]
      have hm := h.length
      by_cases hi : i < names.length
      · have hi' : i < m.length := by omega
        obtain ⟨-, i', v, h1, h2, h3⟩ := h.get i names[i] m[i] (by rw [List.getElem?_eq_getElem hi]) (by rw [List.getElem?_eq_getElem hi'])
        have hlt : i' < names.length := by
          rcases List.getElem?_eq_some_iff.mp h1 with ⟨h, -⟩; exact h
        have : i' = i := by
          refine (List.getElem_inj (h₀ := hlt) (h₁ := hi) hn).mp ?_
          exact (List.getElem?_eq_some_iff.mp h1).2
        subst this
        rw [h2, List.getElem?_eq_getElem hi', h3]
        rfl
      · rw [List.getElem?_eq_none (by omega), List.getElem?_eq_none (by omega)]
        rfl
  | _ =>
    refine ⟨fun h => by simp [members] at h, fun h => ?_⟩
    cases names with
    | nil => exact absurd rfl h0
    | cons k ks =>
      cases m with
      | nil => exact h.elim
      | cons x xs => exact h.1.elim

/-! ## Readers -/

/-- A reader reads exactly what a relation says. -/
def Reader {α : Type} (f : Doc → Option α) (R : α → Doc → Prop) : Prop := ∀ d v, f d = some v ↔ R v d

theorem needed_iff {α : Type} {f : Doc → Option α} {R : α → Doc → Prop} (hf : Reader f R) {names : List Str} {k : Str} {v : α} {j : Doc} :
    (∃ x, Has names k x j ∧ needed f x = some v) ↔ Needs names k R v j := by
  constructor
  · rintro ⟨x, h1, h2⟩
    cases x with
    | none => cases h2
    | some d => exact ⟨d, h1, (hf d v).mp h2⟩
  · rintro ⟨d, h1, h2⟩
    exact ⟨some d, h1, (hf d v).mpr h2⟩

theorem optional_iff {α : Type} {f : Doc → Option α} {R : α → Doc → Prop} (hf : Reader f R) (hn : f .null = none) {names : List Str} {k : Str} {v : Option α}
    {j : Doc} : (∃ x, Has names k x j ∧ optional f x = some v) ↔ May names k R v j := by
  have ho : ∀ d : Doc, d ≠ .null → optional f (some d) = (f d).map some := fun d hd => by cases d <;> first | rfl | exact absurd rfl hd
  constructor
  · rintro ⟨x, h1, h2⟩
    cases x with
    | none => cases h2; exact .inl h1
    | some d =>
      by_cases hd : d = .null
      · subst hd; cases h2; exact .inr h1
      · rw [ho d hd, Option.map_eq_some_iff] at h2
        obtain ⟨w, h2, h3⟩ := h2
        subst h3
        exact ⟨d, h1, (hf d w).mp h2⟩
  · intro h
    cases v with
    | none => exact h.elim (fun h => ⟨none, h, rfl⟩) fun h => ⟨some .null, h, rfl⟩
    | some v =>
      obtain ⟨d, h1, h2⟩ := h
      have h2 := (hf d v).mpr h2
      refine ⟨some d, h1, ?_⟩
      rw [ho d (fun hd => by rw [hd, hn] at h2; cases h2), h2]
      rfl

theorem text_reader : Reader textOf IsText := fun d v => by cases d <;> simp [textOf, IsText]

theorem time_reader (C : Codec) : Reader (timeOf C) (IsTime C) := fun d v => by cases d <;> simp [timeOf, IsTime]

theorem ip_reader (C : Codec) : Reader (ipOf C) (IsIp C) := fun d v => by cases d <;> simp [ipOf, IsIp]

theorem prop_reader (C : Codec) : Reader (propOf C) (ReadsAs C) := fun d v => by
  cases d with
  | str s =>
    unfold propOf ReadsAs
    dsimp only
    cases h : C.date s with
    | none =>
      dsimp only
      constructor
      · intro e; cases e; exact ⟨rfl, fun s' e => by cases e; exact h⟩
      · rintro ⟨h1, -⟩
        cases v with
        | string s' => cases h1; rfl
        | date t => obtain ⟨s', e, h'⟩ := h1; cases e; rw [h] at h'; cases h'
        | number n => obtain ⟨x, e, -⟩ := h1; cases e
        | bool b => cases h1
    | some t =>
      dsimp only
      constructor
      · intro e; cases e; exact ⟨⟨s, rfl, h⟩, fun s' e => by cases e⟩
      · rintro ⟨h1, h2⟩
        cases v with
        | string s' => cases h1; rw [h2 s rfl] at h; cases h
        | date t' => obtain ⟨s', e, h'⟩ := h1; cases e; rw [h] at h'; cases h'; rfl
        | number n => obtain ⟨x, e, -⟩ := h1; cases e
        | bool b => cases h1
  | _ => cases v <;> simp [propOf, ReadsAs, IsValue, IsTime]

theorem campaign_reader : Reader campaignOf IsCampaign := fun d v => by
  unfold campaignOf
  rw [Option.bind_eq_some_iff]
  constructor
  · rintro ⟨m, hm, h⟩
    have hm := (members_iff (by decide) (by decide) d m).mp hm
    rcases m with - | ⟨a, - | ⟨b, - | ⟨c, - | ⟨e, - | ⟨f, - | ⟨g, m⟩⟩⟩⟩⟩⟩ <;> try (cases h; done)
    obtain ⟨h1, h2, h3, h4, h5, -⟩ := hm
    dsimp only at h
    simp only [Option.bind_eq_some_iff] at h
    obtain ⟨_, g1, _, g2, _, g3, _, g4, _, g5, g⟩ := h
    cases g
    exact ⟨(needed_iff text_reader).mp ⟨_, h1, g1⟩, (optional_iff text_reader rfl).mp ⟨_, h2, g2⟩, (optional_iff text_reader rfl).mp ⟨_, h3, g3⟩,
      (optional_iff text_reader rfl).mp ⟨_, h4, g4⟩, (optional_iff text_reader rfl).mp ⟨_, h5, g5⟩⟩
  · rintro ⟨h1, h2, h3, h4, h5⟩
    obtain ⟨a, h1, g1⟩ := (needed_iff text_reader).mpr h1
    obtain ⟨b, h2, g2⟩ := (optional_iff text_reader rfl).mpr h2
    obtain ⟨c, h3, g3⟩ := (optional_iff text_reader rfl).mpr h3
    obtain ⟨e, h4, g4⟩ := (optional_iff text_reader rfl).mpr h4
    obtain ⟨f, h5, g5⟩ := (optional_iff text_reader rfl).mpr h5
    refine ⟨[a, b, c, e, f], (members_iff (by decide) (by decide) d _).mpr ⟨h1, h2, h3, h4, h5, trivial⟩, ?_⟩
    dsimp only
    rw [g1, Option.bind_some, g2, Option.bind_some, g3, Option.bind_some, g4, Option.bind_some, g5, Option.bind_some]

theorem library_reader : Reader libraryOf IsLibrary := fun d v => by
  unfold libraryOf
  rw [Option.bind_eq_some_iff]
  constructor
  · rintro ⟨m, hm, h⟩
    have hm := (members_iff (by decide) (by decide) d m).mp hm
    rcases m with - | ⟨a, - | ⟨b, - | ⟨c, m⟩⟩⟩ <;> try (cases h; done)
    obtain ⟨h1, h2, -⟩ := hm
    dsimp only at h
    simp only [Option.bind_eq_some_iff] at h
    obtain ⟨_, g1, _, g2, g⟩ := h
    cases g
    exact ⟨(needed_iff text_reader).mp ⟨_, h1, g1⟩, (needed_iff text_reader).mp ⟨_, h2, g2⟩⟩
  · rintro ⟨h1, h2⟩
    obtain ⟨a, h1, g1⟩ := (needed_iff text_reader).mpr h1
    obtain ⟨b, h2, g2⟩ := (needed_iff text_reader).mpr h2
    refine ⟨[a, b], (members_iff (by decide) (by decide) d _).mpr ⟨h1, h2, trivial⟩, ?_⟩
    dsimp only
    rw [g1, Option.bind_some, g2, Option.bind_some]

theorem page_reader : Reader pageOf IsPage := fun d v => by
  unfold pageOf
  rw [Option.bind_eq_some_iff]
  constructor
  · rintro ⟨m, hm, h⟩
    have hm := (members_iff (by decide) (by decide) d m).mp hm
    rcases m with - | ⟨a, - | ⟨b, - | ⟨c, - | ⟨e, - | ⟨f, - | ⟨g, m⟩⟩⟩⟩⟩⟩ <;> try (cases h; done)
    obtain ⟨h1, h2, h3, h4, h5, -⟩ := hm
    dsimp only at h
    simp only [Option.bind_eq_some_iff] at h
    obtain ⟨_, g1, _, g2, _, g3, _, g4, _, g5, g⟩ := h
    cases g
    exact ⟨(optional_iff text_reader rfl).mp ⟨_, h1, g1⟩, (optional_iff text_reader rfl).mp ⟨_, h2, g2⟩, (optional_iff text_reader rfl).mp ⟨_, h3, g3⟩,
      (optional_iff text_reader rfl).mp ⟨_, h4, g4⟩, (optional_iff text_reader rfl).mp ⟨_, h5, g5⟩⟩
  · rintro ⟨h1, h2, h3, h4, h5⟩
    obtain ⟨a, h1, g1⟩ := (optional_iff text_reader rfl).mpr h1
    obtain ⟨b, h2, g2⟩ := (optional_iff text_reader rfl).mpr h2
    obtain ⟨c, h3, g3⟩ := (optional_iff text_reader rfl).mpr h3
    obtain ⟨e, h4, g4⟩ := (optional_iff text_reader rfl).mpr h4
    obtain ⟨f, h5, g5⟩ := (optional_iff text_reader rfl).mpr h5
    refine ⟨[a, b, c, e, f], (members_iff (by decide) (by decide) d _).mpr ⟨h1, h2, h3, h4, h5, trivial⟩, ?_⟩
    dsimp only
    rw [g1, Option.bind_some, g2, Option.bind_some, g3, Option.bind_some, g4, Option.bind_some, g5, Option.bind_some]

theorem context_reader (C : Codec) : Reader (contextOf C) (IsContext C) := fun d v => by
  unfold contextOf
  rw [Option.bind_eq_some_iff]
  constructor
  · rintro ⟨m, hm, h⟩
    have hm := (members_iff (by decide) (by decide) d m).mp hm
    rcases m with - | ⟨a, - | ⟨b, - | ⟨c, - | ⟨e, - | ⟨f, - | ⟨g, m⟩⟩⟩⟩⟩⟩ <;> try (cases h; done)
    obtain ⟨h1, h2, h3, h4, h5, -⟩ := hm
    dsimp only at h
    simp only [Option.bind_eq_some_iff] at h
    obtain ⟨_, g1, _, g2, _, g3, _, g4, _, g5, g⟩ := h
    cases g
    exact ⟨(optional_iff library_reader rfl).mp ⟨_, h1, g1⟩, (optional_iff page_reader rfl).mp ⟨_, h2, g2⟩, (optional_iff text_reader rfl).mp ⟨_, h3, g3⟩,
      (optional_iff (ip_reader C) rfl).mp ⟨_, h4, g4⟩, (optional_iff campaign_reader rfl).mp ⟨_, h5, g5⟩⟩
  · rintro ⟨h1, h2, h3, h4, h5⟩
    obtain ⟨a, h1, g1⟩ := (optional_iff library_reader rfl).mpr h1
    obtain ⟨b, h2, g2⟩ := (optional_iff page_reader rfl).mpr h2
    obtain ⟨c, h3, g3⟩ := (optional_iff text_reader rfl).mpr h3
    obtain ⟨e, h4, g4⟩ := (optional_iff (ip_reader C) rfl).mpr h4
    obtain ⟨f, h5, g5⟩ := (optional_iff campaign_reader rfl).mpr h5
    refine ⟨[a, b, c, e, f], (members_iff (by decide) (by decide) d _).mpr ⟨h1, h2, h3, h4, h5, trivial⟩, ?_⟩
    dsimp only
    rw [g1, Option.bind_some, g2, Option.bind_some, g3, Option.bind_some, g4, Option.bind_some, g5, Option.bind_some]

/-! ## Maps -/

theorem lastEach_fst {α : Type} : ∀ (l : List (Str × α)) (k : Str), k ∈ (lastEach l).map Prod.fst ↔ k ∈ l.map Prod.fst
  | [], k => Iff.rfl
  | m :: l, k => by
    unfold lastEach
    by_cases h : (l.map Prod.fst).contains m.1
    · rw [if_pos h, lastEach_fst l k, List.map_cons, List.mem_cons]
      refine ⟨.inr, fun h' => h'.elim (fun e => ?_) id⟩
      rw [e]; exact List.contains_iff_mem.mp h
    · rw [if_neg h, List.map_cons, List.mem_cons, List.map_cons, List.mem_cons, lastEach_fst l k]

theorem lastEach_nodup {α : Type} : ∀ l : List (Str × α), ((lastEach l).map Prod.fst).Nodup
  | [] => List.nodup_nil
  | m :: l => by
    unfold lastEach
    by_cases h : (l.map Prod.fst).contains m.1
    · rw [if_pos h]; exact lastEach_nodup l
    · rw [if_neg h, List.map_cons, List.nodup_cons]
      exact ⟨fun h' => h (List.contains_iff_mem.mpr ((lastEach_fst l _).mp h')), lastEach_nodup l⟩

theorem lastEach_mem {α : Type} : ∀ (l : List (Str × α)) (k : Str) (v : α), (k, v) ∈ lastEach l ↔ ∃ a b, l = a ++ (k, v) :: b ∧ ∀ m ∈ b, m.1 ≠ k
  | [], k, v => by
    constructor
    · intro h; cases h
    · rintro ⟨a, b, h, -⟩
      cases a <;> cases h
  | m :: l, k, v => by
    have ih := lastEach_mem l k v
    unfold lastEach
    constructor
    · intro h
      have hin : (k, v) ∈ lastEach l → ∃ a b, m :: l = a ++ (k, v) :: b ∧ ∀ m ∈ b, m.1 ≠ k := fun h => by
        obtain ⟨a, b, e, hb⟩ := ih.mp h
        exact ⟨m :: a, b, by rw [e]; rfl, hb⟩
      by_cases hc : (l.map Prod.fst).contains m.1
      · rw [if_pos hc] at h; exact hin h
      · rw [if_neg hc] at h
        rcases List.mem_cons.mp h with h | h
        · refine ⟨[], l, by rw [h]; rfl, fun x hx e => hc (List.contains_iff_mem.mpr (List.mem_map.mpr ⟨x, hx, ?_⟩))⟩
          rw [← h]; exact e
        · exact hin h
    · rintro ⟨a, b, e, hb⟩
      cases a with
      | nil =>
        cases e
        rw [if_neg (fun hc => ?_)]
        · exact List.mem_cons_self
        · obtain ⟨x, hx, e⟩ := List.mem_map.mp (List.contains_iff_mem.mp hc)
          exact hb x hx e
      | cons y a =>
        obtain ⟨-, e⟩ := List.cons.inj e
        have := ih.mpr ⟨a, b, e, hb⟩
        by_cases hc : (l.map Prod.fst).contains m.1
        · rw [if_pos hc]; exact this
        · rw [if_neg hc]; exact List.mem_cons_of_mem _ this

/-- Hash maps are iterated over all of their entries. -/
def Codec.Fair (C : Codec) : Prop := ∀ (α : Type) (l : List (Str × α)), (C.iter l).Perm l

theorem each2_split {α β : Type} {R : α → β → Prop} : ∀ {l : List α} {a b : List β} {y : β}, Each2 R l (a ++ y :: b) →
    ∃ l1 x l2, l = l1 ++ x :: l2 ∧ R x y ∧ Each2 R l1 a ∧ Each2 R l2 b
  | [], [], _, _, h => h.elim
  | [], _ :: _, _, _, h => h.elim
  | x :: l, [], _, _, ⟨h1, h2⟩ => ⟨[], x, l, rfl, h1, trivial, h2⟩
  | x :: l, _ :: _, _, _, ⟨h1, h2⟩ => by
    obtain ⟨l1, z, l2, e, h, h3, h4⟩ := each2_split h2
    exact ⟨x :: l1, z, l2, by rw [e]; rfl, h, ⟨h1, h3⟩, h4⟩

theorem each2_split_left {α β : Type} {R : α → β → Prop} : ∀ {a b : List α} {x : α} {m : List β}, Each2 R (a ++ x :: b) m →
    ∃ m1 y m2, m = m1 ++ y :: m2 ∧ R x y ∧ Each2 R a m1 ∧ Each2 R b m2
  | [], _, _, y :: m, ⟨h1, h2⟩ => ⟨[], y, m, rfl, h1, trivial, h2⟩
  | _ :: _, _, _, y :: m, ⟨h1, h2⟩ => by
    obtain ⟨m1, z, m2, e, h, h3, h4⟩ := each2_split_left h2
    exact ⟨y :: m1, z, m2, by rw [e]; rfl, h, ⟨h1, h3⟩, h4⟩

theorem each2_right {α β : Type} {R : α → β → Prop} {l : List α} {m : List β} (h : Each2 R l m) {y : β} (hy : y ∈ m) : ∃ x ∈ l, R x y := by
  obtain ⟨a, b, rfl⟩ := List.append_of_mem hy
  obtain ⟨l1, x, l2, e, hR, -⟩ := each2_split h
  exact ⟨x, by rw [e]; simp, hR⟩

theorem each2_left {α β : Type} {R : α → β → Prop} {l : List α} {m : List β} (h : Each2 R l m) {x : α} (hx : x ∈ l) : ∃ y ∈ m, R x y := by
  obtain ⟨a, b, rfl⟩ := List.append_of_mem hx
  obtain ⟨l1, y, l2, e, hR, -⟩ := each2_split_left h
  exact ⟨y, by rw [e]; simp, hR⟩

theorem each2_make {α β : Type} {R : α → β → Prop} : ∀ l : List α, (∀ x ∈ l, ∃ y, R x y) → ∃ m, Each2 R l m
  | [], _ => ⟨[], trivial⟩
  | x :: l, h => by
    obtain ⟨y, hy⟩ := h x (by simp)
    obtain ⟨m, hm⟩ := each2_make l fun z hz => h z (List.mem_cons_of_mem _ hz)
    exact ⟨y :: m, hy, hm⟩

/-- The entries read are those of the document. -/
theorem mapOf_entries {C : Codec} (hC : C.Fair) {α : Type} {f : Doc → Option α} {R : α → Doc → Prop} (hf : Reader f R) {d : Doc} {r : List (Str × α)}
    (h : mapOf C f d = some r) : Entries R r d := by
  cases d with
  | obj l =>
    unfold mapOf at h
    rw [Option.map_eq_some_iff] at h
    obtain ⟨r0, h0, h⟩ := h
    have hp := hC α (lastEach r0)
    rw [h] at hp
    have he : Each2 (fun (m : Str × Doc) (x : Str × α) => m.1 = x.1 ∧ R x.2 m.2) l r0 := by
      refine Each2.imp (fun m x _ h => ?_) ((mapM_each2 _ _ _).mp h0)
      obtain ⟨v, h1, h2⟩ := Option.map_eq_some_iff.mp h
      rw [← h2]
      exact ⟨rfl, (hf _ _).mp h1⟩
    refine ⟨l, rfl, (hp.map Prod.fst).nodup_iff.mpr (lastEach_nodup r0), fun k v hk => ?_, fun m hm => ?_⟩
    · obtain ⟨a, b, e, hb⟩ := (lastEach_mem r0 k v).mp (hp.mem_iff.mp hk)
      rw [e] at he
      obtain ⟨l1, x, l2, hl, ⟨h1, h2⟩, -, h4⟩ := each2_split he
      have h1 : x.1 = k := h1
      refine ⟨l1, x.2, l2, by rw [hl, ← h1], h2, fun m hm => ?_⟩
      obtain ⟨y, hy, h5, -⟩ := each2_left h4 hm
      rw [h5]; exact hb y hy
    · obtain ⟨y, hy, h1, h2⟩ := each2_left he hm
      refine ⟨(hp.map Prod.fst).mem_iff.mpr ((lastEach_fst r0 _).mpr (List.mem_map.mpr ⟨y, hy, h1.symm⟩)), y.2, h2⟩
  | _ => simp [mapOf] at h

theorem mem_fst {α : Type} {r : List (Str × α)} (hn : (r.map Prod.fst).Nodup) {k : Str} {v w : α} (h1 : (k, v) ∈ r) (h2 : (k, w) ∈ r) : v = w := by
  induction r with
  | nil => cases h1
  | cons x r ih =>
    rw [List.map_cons, List.nodup_cons] at hn
    rcases List.mem_cons.mp h1 with e1 | h1
    · rcases List.mem_cons.mp h2 with e2 | h2
      · rw [← e1] at e2; cases e2; rfl
      · exact absurd (List.mem_map.mpr ⟨_, h2, by rw [← e1]⟩) hn.1
    · rcases List.mem_cons.mp h2 with e2 | h2
      · exact absurd (List.mem_map.mpr ⟨_, h1, by rw [← e2]⟩) hn.1
      · exact ih hn.2 h1 h2

theorem last_unique {α : Type} {a a' b b' : List (Str × α)} {k : Str} {x y : α} (h : a ++ (k, x) :: b = a' ++ (k, y) :: b') (h1 : ∀ m ∈ b, m.1 ≠ k)
    (h2 : ∀ m ∈ b', m.1 ≠ k) : x = y := by
  induction a generalizing a' with
  | nil =>
    cases a' with
    | nil => cases h; rfl
    | cons m a' => cases h; exact absurd rfl (h1 (k, y) (by simp))
  | cons m a ih =>
    cases a' with
    | nil => cases h; exact absurd rfl (h2 (k, x) (by simp))
    | cons m' a' => exact ih (List.cons.inj h).2

/-- The entries of a document are unique up to their order. -/
theorem entries_perm {α : Type} {R : α → Doc → Prop} (hR : ∀ d v w, R v d → R w d → v = w) {d : Doc} {r r' : List (Str × α)} (h : Entries R r d)
    (h' : Entries R r' d) : r.Perm r' := by
  obtain ⟨l, e, h1, h2, h3⟩ := h
  obtain ⟨l', e', h1', h2', h3'⟩ := h'
  rw [e] at e'
  cases e'
  have key : ∀ {r r' : List (Str × α)}, (∀ k v, (k, v) ∈ r → ∃ a x b, l = a ++ (k, x) :: b ∧ R v x ∧ ∀ m ∈ b, m.1 ≠ k) →
      (∀ k v, (k, v) ∈ r' → ∃ a x b, l = a ++ (k, x) :: b ∧ R v x ∧ ∀ m ∈ b, m.1 ≠ k) → (∀ m ∈ l, m.1 ∈ r'.map Prod.fst) → ∀ x ∈ r, x ∈ r' := by
    intro r r' g g' g3 x hx
    obtain ⟨a, y, b, hl, hy, hb⟩ := g x.1 x.2 hx
    obtain ⟨z, hz, ez⟩ := List.mem_map.mp (g3 (x.1, y) (by rw [hl]; simp))
    obtain ⟨a', y', b', hl', hy', hb'⟩ := g' z.1 z.2 hz
    rw [ez] at hl' hb'
    rw [hl] at hl'
    have := last_unique hl' hb hb'
    subst this
    have : x.2 = z.2 := hR _ _ _ hy hy'
    have : x = z := Prod.ext ez.symm this
    rw [this]; exact hz
  have nd : ∀ {r : List (Str × α)}, (r.map Prod.fst).Nodup → r.Nodup := fun h => List.Pairwise.of_map _ (fun _ _ h e => h (by rw [e])) h
  exact (List.perm_ext_iff_of_nodup (nd h1) (nd h1')).mpr fun x =>
    ⟨fun hx => key h2 h2' (fun m hm => (h3' m hm).1) x hx, fun hx => key h2' h2 (fun m hm => (h3 m hm).1) x hx⟩

theorem Reader.fn {α : Type} {f : Doc → Option α} {R : α → Doc → Prop} (hf : Reader f R) (d : Doc) (v w : α) (h1 : R v d) (h2 : R w d) : v = w := by
  have h1 := (hf d v).mpr h1
  rw [(hf d w).mpr h2] at h1
  exact (Option.some.inj h1).symm

theorem entries_mapOf {C : Codec} (hC : C.Fair) {α : Type} {f : Doc → Option α} {R : α → Doc → Prop} (hf : Reader f R) {d : Doc} {r : List (Str × α)}
    (h : Entries R r d) : ∃ r', mapOf C f d = some r' ∧ r'.Perm r := by
  obtain ⟨l, rfl, -, -, h3⟩ := id h
  obtain ⟨r0, h0⟩ := each2_make (R := fun (m : Str × Doc) (x : Str × α) => ((f m.2).map fun v => (m.1, v)) = some x) l fun m hm => by
    obtain ⟨-, v, hv⟩ := h3 m hm
    exact ⟨(m.1, v), by rw [(hf _ _).mpr hv]; rfl⟩
  have hm : mapOf C f (.obj l) = some (C.iter (lastEach r0)) := by
    show (l.mapM fun m => (f m.2).map fun v => (m.1, v)).map _ = _
    rw [(mapM_each2 _ _ _).mpr h0]
    rfl
  exact ⟨_, hm, entries_perm hf.fn (mapOf_entries hC hf hm) h⟩

/-! ## Requests -/

/-- Equal up to the order of the entries. -/
def SameMap {α : Type} : Option (List (Str × α)) → Option (List (Str × α)) → Prop
  | none, none => True
  | some r, some r' => r.Perm r'
  | _, _ => False

theorem may_map {C : Codec} (hC : C.Fair) {α : Type} {f : Doc → Option α} {R : α → Doc → Prop} (hf : Reader f R) {names : List Str} {k : Str}
    {v : Option (List (Str × α))} {j : Doc} {x : Option Doc} (h1 : Has names k x j) (h2 : optional (mapOf C f) x = some v) : May names k (Entries R) v j := by
  have ho : ∀ d : Doc, d ≠ .null → optional (mapOf C f) (some d) = (mapOf C f d).map some := fun d hd => by cases d <;> first | rfl | exact absurd rfl hd
  cases x with
  | none => cases h2; exact .inl h1
  | some d =>
    by_cases hd : d = .null
    · subst hd; cases h2; exact .inr h1
    · rw [ho d hd, Option.map_eq_some_iff] at h2
      obtain ⟨w, h2, h3⟩ := h2
      subst h3
      exact ⟨d, h1, mapOf_entries hC hf h2⟩

theorem map_may {C : Codec} (hC : C.Fair) {α : Type} {f : Doc → Option α} {R : α → Doc → Prop} (hf : Reader f R) {names : List Str} {k : Str}
    {v : Option (List (Str × α))} {j : Doc} (h : May names k (Entries R) v j) :
    ∃ x v', Has names k x j ∧ optional (mapOf C f) x = some v' ∧ SameMap v' v := by
  cases v with
  | none => exact h.elim (fun h => ⟨none, none, h, rfl, trivial⟩) fun h => ⟨some .null, none, h, rfl, trivial⟩
  | some r =>
    obtain ⟨d, h1, h2⟩ := h
    obtain ⟨r', h3, h4⟩ := entries_mapOf hC hf h2
    refine ⟨some d, some r', h1, ?_, h4⟩
    obtain ⟨l, rfl, -⟩ := h2
    show (mapOf C f (.obj l)).map some = _
    rw [h3]
    rfl

theorem says_track {C : Codec} (hC : C.Fair) {d : Doc} {b : TrackBody} (h : trackBodyOf C d = some b) : SaysTrack C (ReadsAs C) b d := by
  unfold trackBodyOf at h
  rw [Option.bind_eq_some_iff] at h
  obtain ⟨m, hm, h⟩ := h
  have hm := (members_iff (by decide) (by decide) d m).mp hm
  rcases m with - | ⟨a1, - | ⟨a2, - | ⟨a3, - | ⟨a4, - | ⟨a5, - | ⟨a6, - | ⟨a7, - | ⟨a8, m⟩⟩⟩⟩⟩⟩⟩⟩ <;> try (cases h; done)
  obtain ⟨h1, h2, h3, h4, h5, h6, h7, -⟩ := hm
  dsimp only at h
  simp only [Option.bind_eq_some_iff] at h
  obtain ⟨_, g1, _, g2, _, g3, _, g4, _, g5, _, g6, _, g7, g⟩ := h
  cases g
  exact ⟨(optional_iff text_reader rfl).mp ⟨_, h1, g1⟩, (optional_iff text_reader rfl).mp ⟨_, h2, g2⟩, (optional_iff (time_reader C) rfl).mp ⟨_, h3, g3⟩,
    (needed_iff (context_reader C)).mp ⟨_, h4, g4⟩, (needed_iff text_reader).mp ⟨_, h5, g5⟩, may_map hC (prop_reader C) h6 g6, may_map hC text_reader h7 g7⟩

theorem track_says {C : Codec} (hC : C.Fair) {d : Doc} {b : TrackBody} (h : SaysTrack C (ReadsAs C) b d) :
    ∃ props groups, trackBodyOf C d = some { b with props := props, groups := groups } ∧ SameMap props b.props ∧ SameMap groups b.groups := by
  obtain ⟨h1, h2, h3, h4, h5, h6, h7⟩ := h
  obtain ⟨a1, h1, g1⟩ := (optional_iff text_reader rfl).mpr h1
  obtain ⟨a2, h2, g2⟩ := (optional_iff text_reader rfl).mpr h2
  obtain ⟨a3, h3, g3⟩ := (optional_iff (time_reader C) rfl).mpr h3
  obtain ⟨a4, h4, g4⟩ := (needed_iff (context_reader C)).mpr h4
  obtain ⟨a5, h5, g5⟩ := (needed_iff text_reader).mpr h5
  obtain ⟨a6, props, h6, g6, p6⟩ := map_may hC (prop_reader C) h6
  obtain ⟨a7, groups, h7, g7, p7⟩ := map_may hC text_reader h7
  refine ⟨props, groups, ?_, p6, p7⟩
  have hm : members trackFields d = some [a1, a2, a3, a4, a5, a6, a7] := (members_iff (by decide) (by decide) d _).mpr ⟨h1, h2, h3, h4, h5, h6, h7, trivial⟩
  unfold trackBodyOf
  unfold trackFields at hm
  rw [hm, Option.bind_some]
  dsimp only
  rw [g1, Option.bind_some, g2, Option.bind_some, g3, Option.bind_some, g4, Option.bind_some, g5, Option.bind_some, g6, Option.bind_some, g7, Option.bind_some]

theorem says_identify {C : Codec} (hC : C.Fair) {d : Doc} {b : IdentifyBody} (h : identifyBodyOf C d = some b) : SaysIdentify C (ReadsAs C) b d := by
  unfold identifyBodyOf at h
  rw [Option.bind_eq_some_iff] at h
  obtain ⟨m, hm, h⟩ := h
  have hm := (members_iff (by decide) (by decide) d m).mp hm
  rcases m with - | ⟨a1, - | ⟨a2, - | ⟨a3, - | ⟨a4, - | ⟨a5, - | ⟨a6, m⟩⟩⟩⟩⟩⟩ <;> try (cases h; done)
  obtain ⟨h1, h2, h3, h4, h5, -⟩ := hm
  dsimp only at h
  simp only [Option.bind_eq_some_iff] at h
  obtain ⟨_, g1, _, g2, _, g3, _, g4, _, g5, g⟩ := h
  cases g
  exact ⟨(optional_iff (time_reader C) rfl).mp ⟨_, h1, g1⟩, (needed_iff (context_reader C)).mp ⟨_, h2, g2⟩, (needed_iff text_reader).mp ⟨_, h3, g3⟩,
    (needed_iff text_reader).mp ⟨_, h4, g4⟩, may_map hC (prop_reader C) h5 g5⟩

theorem identify_says {C : Codec} (hC : C.Fair) {d : Doc} {b : IdentifyBody} (h : SaysIdentify C (ReadsAs C) b d) :
    ∃ props, identifyBodyOf C d = some { b with props := props } ∧ SameMap props b.props := by
  obtain ⟨h1, h2, h3, h4, h5⟩ := h
  obtain ⟨a1, h1, g1⟩ := (optional_iff (time_reader C) rfl).mpr h1
  obtain ⟨a2, h2, g2⟩ := (needed_iff (context_reader C)).mpr h2
  obtain ⟨a3, h3, g3⟩ := (needed_iff text_reader).mpr h3
  obtain ⟨a4, h4, g4⟩ := (needed_iff text_reader).mpr h4
  obtain ⟨a5, props, h5, g5, p5⟩ := map_may hC (prop_reader C) h5
  refine ⟨props, ?_, p5⟩
  have hm : members identifyFields d = some [a1, a2, a3, a4, a5] := (members_iff (by decide) (by decide) d _).mpr ⟨h1, h2, h3, h4, h5, trivial⟩
  unfold identifyBodyOf
  unfold identifyFields at hm
  rw [hm, Option.bind_some]
  dsimp only
  rw [g1, Option.bind_some, g2, Option.bind_some, g3, Option.bind_some, g4, Option.bind_some, g5, Option.bind_some]

end OptiPrism.Ingest
