import Verif.Ingest.Model
import Verif.Meta.Dicts

/-!
# Ingestion as a history of metadata requests

Every metadata write of an ingestion request is one of the requests of `Verif.Meta.System`, for the project of the
token. So what is proved there for every history of requests holds under ingestion too.
-/

namespace OptiPrism.Ingest

open OptiPrism.Meta
open OptiPrism.Proto (decFields decFieldsF WireVal Fields vals decVarint)
open OptiPrism.Storage (Bytes Value NamedValue Tbl InsertErr ColType Field)

variable {Q : Type}

/-! ## Numbers read from the store have 64 bits -/

theorem decFieldsF_lt {n : Nat} {b : Bytes} {fs : Fields} (h : decFieldsF n b = some fs) : ∀ k v, (k, WireVal.varint v) ∈ fs → v < 2 ^ 64 := by
  induction n generalizing b fs with
  | zero => cases b with
    | nil => cases h; intro k v hm; cases hm
    | cons x b => cases h
  | succ n ih =>
    cases b with
    | nil => cases h; intro k v hm; cases hm
    | cons x b =>
      unfold decFieldsF at h
      split at h
      · cases h
      · split at h
        · cases h
        · split at h
          · split at h
            · cases h
            · rename_i v r' hv
              obtain ⟨fs', h1, rfl⟩ := Option.map_eq_some_iff.mp h
              intro k v' hm
              rcases List.mem_cons.mp hm with e | hm
              · cases e
                unfold decVarint at hv
                split at hv
                · cases hv
                · split at hv
                  · cases hv; assumption
                  · cases hv
              · exact ih h1 k v' hm
          · split at h
            · split at h
              · cases h
              · split at h
                · obtain ⟨fs', h1, rfl⟩ := Option.map_eq_some_iff.mp h
                  intro k v' hm
                  rcases List.mem_cons.mp hm with e | hm
                  · cases e
                  · exact ih h1 k v' hm
                · cases h
            · cases h

theorem mapM_varint_mem {l : List WireVal} {ns : List Nat} (h : l.mapM WireVal.asVarint = some ns) : ∀ n ∈ ns, WireVal.varint n ∈ l := by
  induction l generalizing ns with
  | nil => cases h; intro n hn; cases hn
  | cons a l ih =>
    rw [List.mapM_cons] at h
    simp only [Option.bind_eq_bind, Option.pure_def, Option.bind_eq_some_iff] at h
    obtain ⟨x, hx, xs, hxs, e⟩ := h
    cases e
    intro n hn
    rcases List.mem_cons.mp hn with rfl | hn
    · cases a with
      | varint m => cases hx; simp
      | len b => cases hx
    · exact List.mem_cons_of_mem _ (ih hxs n hn)

theorem rdU64_lt {b : Bytes} {fs : Fields} (h : decFields b = some fs) {k n : Nat} (hr : rdU64 (vals k fs) = some n) : n < 2 ^ 64 := by
  unfold rdU64 at hr
  obtain ⟨l, hl, rfl⟩ := Option.map_eq_some_iff.mp hr
  cases hg : l.getLast? with
  | none => simp
  | some x =>
    have := mapM_varint_mem hl x (List.mem_of_getLast? hg)
    unfold vals at this
    simp only [List.mem_map, List.mem_filter] at this
    obtain ⟨⟨k', v'⟩, ⟨hm, -⟩, rfl⟩ := this
    exact decFieldsF_lt h _ _ hm

theorem project_dec_lt {b : Bytes} {r : Project} (h : Project.dec b = some r) : r.id < 2 ^ 64 := by
  unfold Project.dec at h
  simp only [Option.bind_eq_bind, Option.pure_def, Option.bind_eq_some_iff] at h
  obtain ⟨fs, h0, i, h1, _, _, _, _, _, _, _, _, _, _, _, _, _, _, _, _, _, _, _, _, _, _, e⟩ := h
  cases e
  exact rdU64_lt h0 h1

theorem group_dec_lt {b : Bytes} {r : Group} (h : Group.dec b = some r) : r.id < 2 ^ 64 := by
  unfold Group.dec at h
  simp only [Option.bind_eq_bind, Option.pure_def, Option.bind_eq_some_iff] at h
  obtain ⟨fs, h0, i, h1, _, _, _, _, _, _, e⟩ := h
  cases e
  exact rdU64_lt h0 h1

theorem groupValues_dec_lt {b : Bytes} {r : GroupValues} (h : GroupValues.dec b = some r) : r.id < 2 ^ 64 := by
  unfold GroupValues.dec at h
  simp only [Option.bind_eq_bind, Option.pure_def, Option.bind_eq_some_iff] at h
  obtain ⟨fs, h0, i, h1, _, _, e⟩ := h
  cases e
  exact rdU64_lt h0 h1

theorem property_dec_lt {b : Bytes} {r : Property} (h : Property.dec b = some r) : r.id < 2 ^ 64 := by
  unfold Property.dec at h
  simp only [Option.bind_eq_bind, Option.pure_def, Option.bind_eq_some_iff] at h
  obtain ⟨fs, h0, te, -, tg, -, h⟩ := h
  split at h <;> simp only [Option.bind_eq_some_iff] at h
  · obtain ⟨_, -, _, -, _, -, _, -, i, h1, _, -, _, -, _, -, _, -, _, -, _, -, _, -, _, -, _, -, _, -, _, -, _, -, _, -, _, -, _, -, _, -, _, -, _, -, e⟩ := h
    cases e
    exact rdU64_lt h0 h1
  · obtain ⟨_, -, _, -, _, -, _, -, i, h1, _, -, _, -, _, -, _, -, _, -, _, -, _, -, _, -, _, -, _, -, _, -, _, -, _, -, _, -, _, -, _, -, _, -, _, -, e⟩ := h
    cases e
    exact rdU64_lt h0 h1

theorem getBy_dec {R : Type} {c : Coll R} {ix : Ix} {s : Str} {kv : Kv} {r : R} (h : c.getBy ix s kv = .ok r) : ∃ b, c.dec b = some r := by
  unfold Coll.getBy at h
  split at h
  · cases h
  · unfold Coll.getById at h
    split at h
    · cases h
    · split at h
      · cases h
      · cases h; exact ⟨_, by assumption⟩

theorem nextSeq_lt {k : Key} {kv kv' : Kv} {n : Nat} (h : nextSeq k kv = .ok (n, kv')) : n < 2 ^ 64 := by
  unfold nextSeq at h
  split at h
  · cases h; decide
  · split at h
    · cases h
    · cases h; exact Nat.mod_lt _ (by decide)

theorem readU64_lt {v : Bytes} {n : Nat} (h : readU64 v = .ok n) : n < 2 ^ 64 := by
  unfold readU64 at h
  split at h
  · rename_i hl
    cases h
    have := Storage.fromLE_lt v
    rw [hl] at this
    exact this
  · cases h

theorem anonymousId_lt {p g : Nat} {s : Str} {kv kv' : Kv} {n : Nat} (h : anonymousId p g s kv = .ok (n, kv')) : n < 2 ^ 64 := by
  unfold anonymousId at h
  split at h
  · split at h
    · cases h
    · rename_i e; cases h; exact readU64_lt e
  · split at h
    · cases h
    · rename_i e; cases h; exact nextSeq_lt e

theorem gvRead_lt {b : Bytes} {r : GroupValues} (h : gvRead b = .ok r) : r.id < 2 ^ 64 := by
  unfold gvRead at h
  split at h
  · cases h
  · rename_i e; cases h; exact groupValues_dec_lt e

theorem groupGet_lt {p g : Nat} {s : Str} {vs : List PropVal} {kv kv' : Kv} {r : GroupValues} (h : groupGetOrCreate p g s vs kv = .ok (r, kv')) : r.id < 2 ^ 64 := by
  unfold groupGetOrCreate at h
  split at h
  · split at h
    · cases h
    · rename_i e; cases h; exact gvRead_lt e
  · split at h
    · cases h
    · rename_i e
      dsimp only at h
      split at h
      · cases h
      · cases h; exact nextSeq_lt e

theorem groupUpdate_lt {p g : Nat} {s : Str} {vs : List PropVal} {kv kv' : Kv} {r : GroupValues} (h : groupCreateOrUpdate p g s vs kv = .ok (r, kv')) : r.id < 2 ^ 64 := by
  unfold groupCreateOrUpdate at h
  split at h
  · split at h
    · cases h
    · rename_i e
      dsimp only at h
      split at h
      · cases h
      · cases h; have := gvRead_lt e; exact this
  · split at h
    · cases h
    · rename_i e
      dsimp only at h
      split at h
      · cases h
      · cases h; exact nextSeq_lt e

theorem merge_lt {p g : Nat} {a s : Str} {vs : List PropVal} {kv : Kv} {r : GroupValues} (h : (mergeWithAnonymous p g a s vs kv).1 = .ok r) : r.id < 2 ^ 64 := by
  unfold mergeWithAnonymous at h
  split at h
  · split at h
    · cases h
    · rename_i e; cases h; exact gvRead_lt e
  · split at h
    · cases h
    · rename_i n kv1 e
      dsimp only at h
      split at h
      · cases h
      · cases h
        unfold runCall at e
        split at e
        · rename_i e'; cases e; exact anonymousId_lt e'
        · cases e

theorem getOrCreateGroup_lt {p : Nat} {n d : Str} {kv kv' : Kv} {r : Group} (h : getOrCreateGroup p n d kv = .ok (r, kv')) : r.id < 2 ^ 64 := by
  unfold getOrCreateGroup at h
  split at h
  · split at h
    · cases h
    · rename_i e; cases h; exact group_dec_lt e
  · split at h
    · cases h
    · split at h
      · cases h
      · cases h; dsimp only; omega

theorem propGetOrCreate_lt {sys : Str → Str} {p : Nat} {ty : PropType} {now : Time} {req : Property} {f : Except Err Unit} {kv kv' : Kv} {r : Property}
    (h : propGetOrCreate sys p ty now req f kv = .ok (r, kv')) : r.id < 2 ^ 64 := by
  unfold propGetOrCreate at h
  split at h
  · rename_i e; cases h
    obtain ⟨b, hb⟩ := getBy_dec e
    exact property_dec_lt hb
  · unfold propCreate at h
    dsimp only at h
    split at h
    · cases h
    · split at h
      · cases h
      · rename_i e
        split at h
        · cases h
        · split at h
          · cases h
          · split at h
            · cases h
            · split at h
              · cases h
              · cases h; exact nextSeq_lt e
  · cases h

/-! ## Following requests -/

theorem runs_mono {S : Meta.Env Q} {P P' : Req Q → Prop} (hP : ∀ r, P r → P' r) {kv kv' : Kv} {n : Nat} (h : Runs S P kv n kv') : Runs S P' kv n kv' := by
  induction h with
  | refl => exact .refl
  | step r _ hr hp ih => exact .step r ih hr (hP r hp)

/-- At most `B` requests with property `P` make the change of the metadata, and a result has property `Post`. -/
def Follows (S : Meta.Env Q) (P : Req Q → Prop) (B : Nat) {α : Type} (x : M α) (Post : α → Prop) : Prop :=
  ∀ w, (∃ m, m ≤ B ∧ Runs S P w.kv m (x w).2.kv) ∧ ∀ a w', x w = (.ok a, w') → Post a

variable {S : Meta.Env Q} {P : Req Q → Prop} {α β : Type}

theorem Follows.mono {P' : Req Q → Prop} {B B' : Nat} {x : M α} {Post Post' : α → Prop} (h : Follows S P B x Post) (hP : ∀ r, P r → P' r) (hB : B ≤ B')
    (hp : ∀ a, Post a → Post' a) : Follows S P' B' x Post' := by
  intro w
  obtain ⟨⟨m, hm, hr⟩, hq⟩ := h w
  exact ⟨⟨m, by omega, runs_mono hP hr⟩, fun a w' e => hp a (hq a w' e)⟩

theorem Follows.pure {a : α} {Post : α → Prop} (h : Post a) : Follows S P 0 (M.pure a) Post :=
  fun w => ⟨⟨0, Nat.le_refl _, .refl⟩, fun b w' e => by cases e; exact h⟩

theorem Follows.fail {e : Fail} {Post : α → Prop} : Follows S P 0 (fail e : M α) Post :=
  fun w => ⟨⟨0, Nat.le_refl _, .refl⟩, fun b w' e => by cases e⟩

theorem Follows.ofExcept {x : Except Fail α} : Follows S P 0 (ofExcept x) (fun _ => True) :=
  fun w => ⟨⟨0, Nat.le_refl _, .refl⟩, fun _ _ _ => trivial⟩

theorem Follows.bind {B C : Nat} {x : M α} {f : α → M β} {Post : α → Prop} {Post' : β → Prop} (h : Follows S P B x Post)
    (hf : ∀ a, Post a → Follows S P C (f a) Post') : Follows S P (B + C) (x.bind f) Post' := by
  intro w
  obtain ⟨⟨m, hm, hr⟩, hq⟩ := h w
  unfold M.bind
  rcases hx : x w with ⟨_ | a, w'⟩ <;> rw [hx] at hr <;> dsimp only at hr ⊢
  · exact ⟨⟨m, by omega, hr⟩, fun b w'' e => by cases e⟩
  · obtain ⟨⟨m', hm', hr'⟩, hq'⟩ := hf a (hq a w' hx) w'
    exact ⟨⟨m + m', by omega, hr.trans hr'⟩, hq'⟩

theorem Follows.callRaw {f : Kv → Except Err α × Kv} {Post : α → Prop} (r : Req Q) (he : ∀ kv, (f kv).2 = r.exec S kv) (hr : r.Ok) (hp : P r)
    (hq : ∀ kv a, (f kv).1 = .ok a → Post a) : Follows S P 1 (callRaw f) Post := by
  intro w
  unfold Ingest.callRaw
  have h1 := he w.kv
  have h2 := hq w.kv
  rcases hf : f w.kv with ⟨_ | a, kv⟩ <;> rw [hf] at h1 h2 <;> dsimp only at h1 h2 ⊢ <;> subst h1
  · exact ⟨⟨1, Nat.le_refl _, .step r .refl hr hp⟩, fun b w'' e => by cases e⟩
  · exact ⟨⟨1, Nat.le_refl _, .step r .refl hr hp⟩, fun b w'' e => by cases e; exact h2 a rfl⟩

theorem Follows.call {c : Call α} {Post : α → Prop} (r : Req Q) (he : ∀ kv, (runCall c kv).2 = r.exec S kv) (hr : r.Ok) (hp : P r)
    (hq : ∀ kv a kv', c kv = .ok (a, kv') → Post a) : Follows S P 1 (call c) Post := by
  refine Follows.callRaw r he hr hp fun kv a e => ?_
  unfold runCall at e
  split at e
  · rename_i h; cases e; exact hq _ _ _ h
  · cases e

theorem Follows.read {f : Kv → Except Err α} {Post : α → Prop} (hq : ∀ kv a, f kv = .ok a → Post a) : Follows S P 0 (read f) Post := by
  intro w
  unfold Ingest.read Ingest.callRaw
  have h2 := hq w.kv
  dsimp only
  rcases hf : f w.kv with _ | a <;> dsimp only
  · exact ⟨⟨0, Nat.le_refl _, .refl⟩, fun b w'' e => by cases e⟩
  · exact ⟨⟨0, Nat.le_refl _, .refl⟩, fun b w'' e => by cases e; exact h2 a hf⟩

theorem Follows.insertRow {t : Str} {vs : List NamedValue} : Follows S P 0 (insertRow t vs) (fun _ => True) := by
  intro w
  refine ⟨⟨0, Nat.le_refl _, ?_⟩, fun _ _ _ => trivial⟩
  unfold Ingest.insertRow
  split <;> exact .refl

theorem Follows.each {B : Nat} {f : α → M β} {Post : β → Prop} (l : List α) (h : ∀ a ∈ l, Follows S P B (f a) Post) :
    Follows S P (l.length * B) (each f l) (fun bs => bs.length = l.length ∧ ∀ b ∈ bs, Post b) := by
  induction l with
  | nil => exact (Follows.pure ⟨rfl, fun b hb => by cases hb⟩).mono (fun _ h => h) (by simp) (fun _ h => h)
  | cons a l ih =>
    have := Follows.bind (h a (by simp)) (C := l.length * B + 0) (f := fun b => (Ingest.each f l).bind fun bs => M.pure (b :: bs))
      (Post' := fun bs => bs.length = (a :: l).length ∧ ∀ b ∈ bs, Post b) fun b hb =>
      Follows.bind (ih fun a ha => h a (by simp [ha])) fun bs hbs =>
        Follows.pure (by
          refine ⟨by simp [hbs.1], fun c hc => ?_⟩
          rcases List.mem_cons.mp hc with rfl | hc
          · exact hb
          · exact hbs.2 c hc)
    exact this.mono (fun _ h => h) (by simp [Nat.add_mul]; omega) (fun _ h => h)

/-! ## The requests of ingestion -/

/-- The metadata requests of resolving a track request for project `p`. -/
def ResolveReq (p : Nat) : Req Q → Prop
  | .propGetOrCreate q ty _ r _ => q = p ∧ ty = .event ∧ r.typ = .event
  | .groupGet q _ _ vs => q = p ∧ vs = []
  | .dictPut q t d _ _ => q = p ∧ t = kEvents ∧ ∃ g, d = groupCol g
  | .anonymous q g _ => q = p ∧ g = 0
  | .groupMerge q g _ _ vs => q = p ∧ g = 0 ∧ vs = []
  | .groupName q _ _ => q = p
  | .eventGetOrCreate q _ _ => q = p
  | .eventTryAttach q _ _ => q = p
  | _ => False

/-- The metadata requests of sending it. -/
def SendReq (p : Nat) : Req Q → Prop
  | .sessionSet q _ _ => q = p
  | .dictGet q t _ _ => q = p ∧ t = kEvents
  | .eventRecord q => q = p
  | _ => False

/-- The metadata requests of a track request for project `p`. -/
def TrackReq (p : Nat) (r : Req Q) : Prop := ResolveReq p r ∨ SendReq p r ∨ r = .projectIncrement p

/-- The metadata requests of an identify request for project `p`. -/
def IdentifyReq (p : Nat) : Req Q → Prop
  | .groupName q _ _ => q = p
  | .propGetOrCreate q ty _ r _ => q = p ∧ ∃ g, ty = .group g ∧ r.typ = .group g
  | .dictGet q t _ _ => q = p ∧ t = groupCol 0
  | .groupUpdate q _ _ _ => q = p
  | .dictPut q t d _ _ => q = p ∧ (∃ g, t = groupCol g) ∧ d = kId
  | .groupRecord q _ => q = p
  | _ => False

theorem slash_decimal (n : Nat) : '/' ∉ decimal n := fun h => by
  have := decimal_digits n '/' h
  revert this; decide

theorem slash_groupCol (g : Nat) : '/' ∉ groupCol g := by
  unfold groupCol
  rw [List.mem_append]
  rintro (h | h)
  · revert h; decide +kernel
  · exact slash_decimal g h

theorem slash_shortName (d : DType) : '/' ∉ d.shortName.getD [] := by
  unfold DType.shortName
  split <;> first | decide +kernel | simp

theorem slash_columnName {sys : Str → Str} (hsys : ∀ n, '/' ∉ sys n) (r : Property) : '/' ∉ r.columnName sys := by
  unfold Property.columnName
  have h1 := slash_shortName r.dataType
  have h2 := slash_decimal r.order
  split
  · exact hsys _
  · split
    · simp only [List.mem_cons, List.mem_append, not_or]
      exact ⟨by decide, by decide, h1, by decide, h2⟩
    · rename_i g _
      simp only [List.mem_cons, List.mem_append, not_or]
      exact ⟨by decide, by decide, slash_decimal g, by decide, h1, by decide, h2⟩

theorem slash_kEvents : '/' ∉ kEvents := by decide +kernel


theorem Follows.true {B : Nat} {x : M α} {Post : α → Prop} (h : Follows S P B x Post) : Follows S P B x (fun _ => True) :=
  h.mono (fun _ h => h) (Nat.le_refl _) fun _ _ => trivial

theorem resolveProperty_follows {now : Time} {p : Nat} (hp : p < 2 ^ 64) {ty : PropType} (hty : ∀ g, ty = .group g → g < 2 ^ 64) (nvp : Str × PropValue)
    (hP : P (.propGetOrCreate p ty now (propReq ty nvp.1 nvp.2) (.ok ()))) :
    Follows S P 1 (resolveProperty S.sys now p ty nvp) (fun pv => pv.1.id < 2 ^ 64) := by
  have hc : Follows S P 1 (call (propGetOrCreate S.sys p ty now (propReq ty nvp.1 nvp.2) (.ok ()))) (fun r => r.id < 2 ^ 64) :=
    Follows.call (.propGetOrCreate p ty now (propReq ty nvp.1 nvp.2) (.ok ())) (fun _ => rfl) ⟨hp, by show 1 < 2 ^ 64; decide, hty⟩ hP
      (fun _ _ _ e => propGetOrCreate_lt e)
  intro w
  obtain ⟨h1, h2⟩ := hc w
  unfold resolveProperty
  rcases hx : call (propGetOrCreate S.sys p ty now (propReq ty nvp.1 nvp.2) (.ok ())) w with ⟨_ | a, w'⟩ <;> rw [hx] at h1 <;> dsimp only at h1 ⊢
  · exact ⟨h1, fun _ _ e => by cases e⟩
  · have hkv : ∀ r (w : World), (addColumns S.sys r w).kv = w.kv := by
      intro r w
      unfold addColumns addColumn
      repeat' (first | rfl | split)
      all_goals (dsimp only; repeat' (first | rfl | split))
    refine ⟨?_, fun x w'' e => ?_⟩
    · split
      · exact h1
      · rw [hkv]; exact h1
    · have := h2 a w' hx
      cases e; exact this

theorem resolveProperties_follows {now : Time} {p : Nat} (hp : p < 2 ^ 64) {ty : PropType} (hty : ∀ g, ty = .group g → g < 2 ^ 64)
    (props : Option (List (Str × PropValue))) (hP : ∀ nvp : Str × PropValue, P (.propGetOrCreate p ty now (propReq ty nvp.1 nvp.2) (.ok ()))) :
    Follows S P (props.getD []).length (resolveProperties S.sys now p ty props)
      (fun r => (r.getD []).length ≤ (props.getD []).length ∧ ∀ pv ∈ r.getD [], pv.1.id < 2 ^ 64) := by
  cases props with
  | none => exact Follows.pure ⟨by simp, fun pv h => by cases h⟩
  | some l =>
    have := Follows.bind (Follows.each l fun nvp _ => resolveProperty_follows (S := S) (P := P) (now := now) hp hty nvp (hP nvp))
      (f := fun r => M.pure (some r)) (Post' := fun r => (r.getD []).length ≤ l.length ∧ ∀ pv ∈ r.getD [], pv.1.id < 2 ^ 64)
      (fun r hr => Follows.pure ⟨by simp [hr.1], fun pv h => hr.2 pv h⟩)
    exact this.mono (fun _ h => h) (by simp) (fun _ h => h)

theorem resolveUser_follows {p : Nat} (user anon : Option Str) : Follows S (ResolveReq p) 2 (resolveUser p user anon) (fun u => u.1 < 2 ^ 64) := by
  cases user <;> cases anon <;> unfold resolveUser <;> dsimp only
  · exact Follows.fail.mono (fun _ h => h) (by omega) (fun _ h => h)
  · rename_i a
    exact (Follows.bind (Follows.call (P := ResolveReq p) (.anonymous p 0 a) (fun _ => rfl) trivial ⟨rfl, rfl⟩ (fun _ _ _ e => anonymousId_lt e)) fun n hn =>
      Follows.bind (Follows.call (P := ResolveReq p) (.dictPut p kEvents (groupCol 0) n a) (fun _ => rfl) ⟨⟨slash_kEvents, slash_groupCol 0⟩, hn⟩ ⟨rfl, rfl, 0, rfl⟩
        (fun _ _ _ _ => trivial)) fun _ _ => Follows.pure hn)
  · rename_i u
    exact (Follows.bind (Follows.call (P := ResolveReq p) (.groupGet p 0 u []) (fun _ => rfl) (fun v hv => by cases hv) ⟨rfl, rfl⟩ (fun _ _ _ e => groupGet_lt e)) fun g hn =>
      Follows.bind (Follows.call (P := ResolveReq p) (.dictPut p kEvents (groupCol 0) g.id u) (fun _ => rfl) ⟨⟨slash_kEvents, slash_groupCol 0⟩, hn⟩ ⟨rfl, rfl, 0, rfl⟩
        (fun _ _ _ _ => trivial)) fun _ _ => Follows.pure hn)
  · rename_i u a
    exact (Follows.bind (Follows.callRaw (P := ResolveReq p) (.groupMerge p 0 u a []) (fun _ => rfl) (fun v hv => by cases hv) ⟨rfl, rfl, rfl⟩ (fun _ _ e => merge_lt e)) fun g hn =>
      Follows.pure hn).mono (fun _ h => h) (by omega) (fun _ h => h)

theorem resolveGroup_follows {p : Nat} (g : Str × Str) : Follows S (ResolveReq p) 3 (resolveGroup p g) (fun _ => True) :=
  Follows.bind (Follows.call (P := ResolveReq p) (.groupName p g.1 g.1) (fun _ => rfl) trivial rfl (fun _ _ _ _ => trivial)) fun grp _ =>
  Follows.bind (Follows.call (P := ResolveReq p) (.groupGet p grp.id g.2 []) (fun _ => rfl) (fun v hv => by cases hv) ⟨rfl, rfl⟩ (fun _ _ _ e => groupGet_lt e)) fun gv hn =>
  Follows.bind (Follows.call (P := ResolveReq p) (.dictPut p kEvents (groupCol grp.id) gv.id g.2) (fun _ => rfl) ⟨⟨slash_kEvents, slash_groupCol _⟩, hn⟩ ⟨rfl, rfl, _, rfl⟩
    (fun _ _ _ _ => trivial)) fun _ _ => Follows.pure trivial

theorem resolveGroups_follows {p : Nat} (user : Option GroupValues) (groups : Option (List (Str × Str))) :
    Follows S (ResolveReq p) ((groups.getD []).length * 3) (resolveGroups p user groups) (fun _ => True) := by
  cases groups with
  | none => exact (Follows.pure trivial).mono (fun _ h => h) (by simp) (fun _ h => h)
  | some l => exact Follows.bind (C := 0) (Follows.each l fun g _ => resolveGroup_follows g) fun r _ => Follows.pure trivial

/-- Resolving changes the metadata by at most this many requests of the project. -/
theorem resolveTrack_follows {E : Env Track} (hs : E.sys = S.sys) {K : Nat}
    (hK : ∀ kv p req l l', E.transform kv p req l = .ok l' → l'.length ≤ l.length + K) {p : Nat} (hp : p < 2 ^ 64) (req : Track) :
    Follows S (ResolveReq p) ((req.props.getD []).length + 3 * (req.groups.getD []).length + 4) (resolveTrack E p req)
      (fun r => r.user < 2 ^ 64 ∧ (r.props.getD []).length ≤ (req.props.getD []).length + K) := by
  unfold resolveTrack
  rw [hs]
  refine Follows.mono (Follows.bind (resolveProperties_follows hp (fun g h => by cases h) req.props (fun nvp => ⟨rfl, rfl, rfl⟩)) (fun props hprops =>
    Follows.bind (resolveUser_follows req.userId req.anonId) (fun u hu =>
    Follows.bind (resolveGroups_follows u.2 req.groups) (fun groups _ =>
    Follows.bind (Follows.callRaw (P := ResolveReq p) (Post := fun _ => True) (.eventGetOrCreate p E.now (eventReq req.event props)) (fun _ => rfl) ⟨hp, by show 1 < 2 ^ 64; decide⟩ rfl (fun _ _ _ => trivial)) (fun ev _ =>
    Follows.bind (B := 1) (Post := fun _ => True) ?_ (fun _ _ =>
    Follows.bind (B := 0) (Post := fun l => (l.getD []).length ≤ (req.props.getD []).length + K) ?_ (fun props' h' => Follows.pure ⟨hu, h'⟩))))))) (fun _ h => h) ?_ (fun _ h => h)
  · cases props with
    | none => exact (Follows.pure trivial).mono (fun _ h => h) (by omega) (fun _ h => h)
    | some l =>
      exact Follows.bind (C := 0) (Post' := fun _ => True) (Follows.call (P := ResolveReq p) (Post := fun _ => True) (.eventTryAttach p ev.id (l.map fun pv => pv.1.id)) (fun _ => rfl) trivial rfl (fun _ _ _ _ => trivial))
        fun _ _ => Follows.pure trivial
  · intro w
    unfold transformed
    cases ht : E.transform w.kv p req (props.getD []) with
    | error e => exact ⟨⟨0, Nat.le_refl _, .refl⟩, fun _ _ h => by cases h⟩
    | ok l =>
      refine ⟨⟨0, Nat.le_refl _, .refl⟩, fun a w' h => ?_⟩
      cases h
      have := hK _ _ _ _ _ ht
      split
      · have := hprops.1; omega
      · have := hprops.1; simp only [Option.getD_some]; omega
  · omega

theorem propertyToValue_follows {p : Nat} {t : Str} (ht : '/' ∉ t) (hsys : ∀ n, '/' ∉ S.sys n) (pv : Property × PropValue)
    (hP : ∀ d v, P (.dictGet p t d v)) : Follows S P 1 (propertyToValue S.sys p t pv) (fun _ => True) := by
  unfold propertyToValue
  split
  · split
    · rename_i s _
      refine Follows.bind (C := 0) (Follows.call (Post := fun _ => True) (.dictGet p t (pv.1.columnName S.sys) s) (fun _ => rfl) ⟨ht, slash_columnName hsys _⟩ (hP _ _) (fun _ _ _ _ => trivial)) fun id _ => ?_
      split
      · exact Follows.fail
      · exact Follows.pure trivial
    · exact Follows.fail.mono (fun _ h => h) (by omega) (fun _ h => h)
  · exact Follows.ofExcept.mono (fun _ h => h) (by omega) (fun _ h => h)

theorem valueCells_follows {p g : Nat} (vals : List PropVal) : Follows S P 0 (valueCells S.sys p g vals) (fun _ => True) := by
  have := Follows.each (S := S) (P := P) (B := 0) (Post := fun _ => True) (f := fun v => (read ((propsC p (.group g)).getById v.propertyId)).bind fun r => M.pure (nv (r.columnName S.sys) (toStore v.value))) vals
    (fun v _ => Follows.bind (Follows.read (Post := fun _ => True) fun _ _ _ => trivial) fun _ _ => Follows.pure trivial)
  exact this.mono (fun _ h => h) (by simp) fun _ _ => trivial

theorem utmCells_follows {p : Nat} (hsys : ∀ n, '/' ∉ S.sys n) (c : Option Campaign) : Follows S (SendReq p) 5 (utmCells S.sys p c) (fun _ => True) := by
  cases c with
  | none => exact (Follows.pure trivial).mono (fun _ h => h) (by omega) (fun _ h => h)
  | some c =>
    have := Follows.each (S := S) (P := SendReq p) (B := 1) (Post := fun _ => True)
      (f := fun nvp : Str × Str => (read ((propsC p .event).getBy .name nvp.1)).bind fun r =>
        (propertyToValue S.sys p kEvents (r, .string nvp.2)).bind fun v => M.pure (nv (r.columnName S.sys) (toStore v))) c.pairs
      (fun v _ => (Follows.bind (Follows.read (Post := fun _ => True) fun _ _ _ => trivial) fun r _ =>
        Follows.bind (propertyToValue_follows slash_kEvents hsys _ fun _ _ => ⟨rfl, rfl⟩) fun _ _ => Follows.pure trivial))
    refine this.mono (fun _ h => h) ?_ fun _ _ => trivial
    unfold Campaign.pairs
    rcases c with ⟨a, _ | b, _ | c, _ | d, _ | e⟩ <;> simp

theorem sendTrack_follows {E : Env Track} (hs : E.sys = S.sys) (hsys : ∀ n, '/' ∉ S.sys n) {p : Nat} (req : Track) (r : Resolved) (hu : r.user < 2 ^ 64) :
    Follows S (SendReq p) ((r.props.getD []).length + 8) (sendTrack E p req r) (fun _ => True) := by
  unfold sendTrack
  rw [hs]
  have hseq : Follows S (SendReq p) 1 (call (nextSeq (.recSeq p))) (fun _ => True) :=
    Follows.call (P := SendReq p) (.eventRecord p) (fun _ => rfl) trivial rfl (fun _ _ _ _ => trivial)
  refine Follows.mono (Follows.bind (Follows.call (P := SendReq p) (Post := fun _ => True) (.sessionSet p r.user E.now) (fun _ => rfl) hu rfl (fun _ _ _ _ => trivial)) (fun isNew _ =>
    Follows.bind (B := (r.props.getD []).length) (Post := fun _ => True) ?_ (fun props _ =>
    Follows.bind (B := 0) (Post := fun _ => True) ?_ (fun gprops _ =>
    Follows.bind (utmCells_follows hsys req.campaign) (fun utm _ =>
    Follows.bind (B := 1) (Post := fun _ => True) ?_ (fun _ _ => Follows.bind hseq fun rec _ => Follows.insertRow)))))) (fun _ h => h) ?_ (fun _ h => h)
  · have := Follows.each (S := S) (P := SendReq p) (B := 1) (Post := fun _ => True)
      (f := fun pv => (propertyToValue S.sys p kEvents pv).bind fun v => M.pure (nv (pv.1.columnName S.sys) (toStore v))) (r.props.getD [])
      (fun pv _ => Follows.bind (propertyToValue_follows slash_kEvents hsys _ fun _ _ => ⟨rfl, rfl⟩) fun _ _ => Follows.pure trivial)
    exact this.mono (fun _ h => h) (by simp) fun _ _ => trivial
  · exact (Follows.each (r.groups.getD []) fun g _ => valueCells_follows g.2.values).mono (fun _ h => h) (by simp) fun _ _ => trivial
  · split
    · exact Follows.bind (C := 0) hseq fun rec _ => Follows.bind (Follows.read (Post := fun _ => True) fun _ _ _ => trivial) fun _ _ => Follows.insertRow
    · exact (Follows.pure trivial).mono (fun _ h => h) (by omega) (fun _ h => h)
  · omega

/-- A track request changes the metadata by requests of the project of its token only. -/
theorem executeTrack_follows {E : Env Track} (hs : E.sys = S.sys) (hsys : ∀ n, '/' ∉ S.sys n) {K : Nat}
    (hK : ∀ kv p req l l', E.transform kv p req l = .ok l' → l'.length ≤ l.length + K) (token : Str) (req : Track) (w : World) :
    (∃ e, getByToken token w.kv = .error e ∧ executeTrack E token req w = (.error (.metadata e), w)) ∨
    ∃ project m, getByToken token w.kv = .ok project ∧ m ≤ 2 * (req.props.getD []).length + 3 * (req.groups.getD []).length + K + 13 ∧
      Runs S (TrackReq project.id) w.kv m (executeTrack E token req w).2.kv := by
  cases hg : getByToken token w.kv with
  | error e => left; exact ⟨e, rfl, by simp [executeTrack, M.bind, read, callRaw, hg]⟩
  | ok project =>
    right
    have hp : project.id < 2 ^ 64 := by
      obtain ⟨b, hb⟩ := getBy_dec hg
      exact project_dec_lt hb
    have h1 : executeTrack E token req w = ((resolveTrack E project.id req).bind fun r =>
        (sendTrack E project.id req r).bind fun _ => (call (incrementEvents project.id)).bind fun _ => M.pure ()) w := by
      simp [executeTrack, M.bind, read, callRaw, hg]
    have h2 : Follows S (TrackReq project.id) _ ((resolveTrack E project.id req).bind fun r =>
        (sendTrack E project.id req r).bind fun _ => (call (incrementEvents project.id)).bind fun _ => M.pure ()) (fun _ => True) :=
      Follows.bind ((resolveTrack_follows hs hK hp req).mono (fun _ h => Or.inl h) (Nat.le_refl _) (fun _ h => h)) fun r hr =>
      Follows.bind ((sendTrack_follows hs hsys req r hr.1).mono (fun _ h => Or.inr (Or.inl h)) (Nat.add_le_add_right hr.2 8) (fun _ h => h)) fun _ _ =>
      Follows.bind (Follows.call (Post := fun _ => True) (.projectIncrement project.id) (fun _ => rfl) trivial (Or.inr (Or.inr rfl)) (fun _ _ _ _ => trivial)) fun _ _ =>
      Follows.pure trivial
    obtain ⟨⟨m, hm, hr⟩, -⟩ := h2 w
    exact ⟨project, m, rfl, by omega, by rw [h1]; exact hr⟩

theorem sendIdentify_follows {p g : Nat} (t : Time) (vals : GroupValues) : Follows S (IdentifyReq p) 1 (sendIdentify S.sys p g t vals) (fun _ => True) :=
  Follows.bind (Follows.call (P := IdentifyReq _) (Post := fun _ => True) (.groupRecord p g) (fun _ => rfl) trivial rfl (fun _ _ _ _ => trivial)) fun _ _ =>
  Follows.bind (valueCells_follows _) fun _ _ => Follows.insertRow

theorem slash_kId : '/' ∉ kId := by decide +kernel

/-- An identify request changes the metadata by requests of the project of its token only. -/
theorem executeIdentify_follows (hsys : ∀ n, '/' ∉ S.sys n) (now : Time) (token : Str) (req : Identify) (w : World) :
    (∃ e, getByToken token w.kv = .error e ∧ executeIdentify S.sys now token req w = (.error (.metadata e), w)) ∨
    ∃ project m, getByToken token w.kv = .ok project ∧ m ≤ 2 * (req.props.getD []).length + 4 ∧
      Runs S (IdentifyReq project.id) w.kv m (executeIdentify S.sys now token req w).2.kv := by
  cases hg : getByToken token w.kv with
  | error e => left; exact ⟨e, rfl, by simp [executeIdentify, M.bind, read, callRaw, hg]⟩
  | ok project =>
    right
    have hp : project.id < 2 ^ 64 := by
      obtain ⟨b, hb⟩ := getBy_dec hg
      exact project_dec_lt hb
    generalize hX : (fun project : Project => (call (getOrCreateGroup project.id req.group req.group)).bind fun grp =>
        (resolveProperties S.sys now project.id (.group grp.id) req.props).bind fun props =>
        (each (fun pv => (propertyToValue S.sys project.id (groupCol 0) pv).bind fun v => M.pure (⟨pv.1.id, v⟩ : PropVal)) (props.getD [])).bind fun vals =>
        (call (groupCreateOrUpdate project.id grp.id req.id vals)).bind fun gv =>
        (call (dictCreateKey project.id (groupCol grp.id) kId gv.id req.id)).bind fun _ =>
        sendIdentify S.sys project.id grp.id req.time gv) = X
    have h1 : executeIdentify S.sys now token req w = X project w := by
      rw [← hX]; simp [executeIdentify, M.bind, read, callRaw, hg]
    have h2 : Follows S (IdentifyReq project.id) (1 + ((req.props.getD []).length + ((req.props.getD []).length * (1 + 0) + (1 + (1 + 1))))) (X project)
        (fun _ => True) := by
      rw [← hX]
      exact Follows.bind (Follows.call (P := IdentifyReq _) (.groupName project.id req.group req.group) (fun _ => rfl) trivial rfl (fun _ _ _ e => getOrCreateGroup_lt e)) fun grp hgrp =>
        Follows.bind (resolveProperties_follows hp (fun g h => by cases h; exact hgrp) req.props (fun nvp => ⟨rfl, _, rfl, rfl⟩)) fun props hprops =>
        Follows.bind ((Follows.each (Post := fun v : PropVal => v.propertyId < 2 ^ 64) (props.getD []) fun pv hpv =>
          Follows.bind (propertyToValue_follows (slash_groupCol 0) hsys _ fun _ _ => ⟨rfl, rfl⟩) fun _ _ => Follows.pure (hprops.2 pv hpv)).mono (fun _ h => h)
            (Nat.mul_le_mul_right _ hprops.1) (fun _ h => h)) fun vals hvals =>
        Follows.bind (Follows.call (P := IdentifyReq _) (.groupUpdate project.id grp.id req.id vals) (fun _ => rfl) hvals.2 rfl (fun _ _ _ e => groupUpdate_lt e)) fun gv hgv =>
        Follows.bind (Follows.call (P := IdentifyReq _) (Post := fun _ => True) (.dictPut project.id (groupCol grp.id) kId gv.id req.id) (fun _ => rfl) ⟨⟨slash_groupCol _, slash_kId⟩, hgv⟩ ⟨rfl, ⟨_, rfl⟩, rfl⟩
          (fun _ _ _ _ => trivial)) fun _ _ => sendIdentify_follows _ _
    obtain ⟨⟨m, hm, hr⟩, -⟩ := h2 w
    exact ⟨project, m, rfl, by omega, by rw [h1]; exact hr⟩

end OptiPrism.Ingest
