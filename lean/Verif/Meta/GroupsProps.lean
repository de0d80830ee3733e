import Verif.Meta.Groups
import Verif.Meta.DictsProps

/-!
# C30 and C31: identities

`Resolves p g kv e n`: the call that resolves the external identity `e` answers `n` and changes nothing.
-/

namespace OptiPrism.Meta

open OptiPrism.Storage (Bytes)

variable {Q : Type}

def Resolves (p g : Nat) (kv : Kv) : Ext → Nat → Prop
  | .anon s, n => anonymousId p g s kv = .ok (n, kv)
  | .real s, n => ∀ vs, ∃ r, groupGetOrCreate p g s vs kv = .ok (r, kv) ∧ r.id = n

/-- The call that resolves an identity, creating it if it is new. -/
def resolve (p g : Nat) (kv : Kv) : Ext → Except Err (Nat × Kv)
  | .anon s => anonymousId p g s kv
  | .real s => (groupGetOrCreate p g s [] kv).map fun x => (x.1.id, x.2)

theorem resolve_anon (p g : Nat) (kv : Kv) (s : Str) : resolve p g kv (.anon s) = anonymousId p g s kv := rfl
theorem resolve_real (p g : Nat) (kv : Kv) (s : Str) :
    resolve p g kv (.real s) = (groupGetOrCreate p g s [] kv).map fun x => (x.1.id, x.2) := rfl

theorem utf8_digits {l : Str} (h : ∀ c ∈ l, IsDigit c) : (utf8 l).length = l.length := by
  induction l with
  | nil => rfl
  | cons c l ih =>
    have := ih fun x hx => h x (by simp [hx])
    have hc := h c (by simp)
    have h1 : (String.utf8EncodeChar c).length = 1 := by
      rw [String.length_utf8EncodeChar]
      obtain ⟨-, hc⟩ := hc
      have : c.val ≤ 127 := by
        show c.val.toNat ≤ 127
        unfold Char.toNat at hc
        omega
      exact if_pos this
    simp only [utf8, List.flatMap_cons, List.length_append, List.length_cons] at this ⊢
    omega

theorem resolves_iff {p g : Nat} {kv : Kv} (h : GShape p g kv) (e : Ext) (n : Nat) : Resolves p g kv e n ↔ gid p g kv e = some n := by
  cases e with
  | anon s =>
    unfold Resolves
    constructor
    · intro e; exact (anon_step e).2.1
    · intro hg
      unfold gid at hg
      cases hv : getK kv (.anon p g s) with
      | none => rw [show Ext.key p g (.anon s) = .anon p g s from rfl, hv] at hg; cases hg
      | some b =>
        obtain ⟨m, rfl, hm⟩ := h.1 s b hv
        simp only [Ext.key, hv, Option.bind_some, Ext.read, le64_length, if_true, fromLE_le64 hm, Option.some.injEq] at hg
        subst hg
        simp only [anonymousId, hv, readU64, le64_length, if_true, fromLE_le64 hm]
  | real s =>
    unfold Resolves
    constructor
    · intro e
      obtain ⟨r, hr, hn⟩ := e []
      rw [← hn]
      exact (groupGet_step (by simp [VOk]) h hr).2.1
    · intro hg vs
      unfold gid at hg
      cases hv : getK kv (.real p g s) with
      | none => rw [show Ext.key p g (.real s) = .real p g s from rfl, hv] at hg; cases hg
      | some b =>
        obtain ⟨r, hr, -⟩ := h.2 s b hv
        simp only [Ext.key, hv, Option.bind_some, Ext.read, hr, Option.map_some, Option.some.injEq] at hg
        exact ⟨r, by simp only [groupGetOrCreate, hv, gvRead, hr], hg⟩

theorem resolve_step {p g : Nat} {kv kv1 : Kv} {e : Ext} {n : Nat} (hs : GShape p g kv) (h : resolve p g kv e = .ok (n, kv1)) :
    GStep p g kv kv1 ∧ gid p g kv1 e = some n := by
  cases e with
  | anon s => exact ⟨(anon_step h).1, (anon_step h).2.1⟩
  | real s =>
    rw [resolve_real] at h
    cases hg : groupGetOrCreate p g s [] kv with
    | error e => rw [hg] at h; cases h
    | ok x =>
      rw [hg] at h
      obtain ⟨r, kv2⟩ := x
      cases h
      have := groupGet_step (by simp [VOk]) hs hg
      exact ⟨this.1, this.2.1⟩

/-- C30, stability: in every history, merges included, an identity once resolved to a number resolves to it
after any further requests. -/
theorem C30_stable {E : Env Q} {n m : Nat} {kv kv1 kv' : Kv} (h : Hist E n kv) {p g : Nat} {e : Ext} {id : Nat}
    (hr : resolve p g kv e = .ok (id, kv1)) (h' : Runs E (fun _ => True) kv1 m kv') : Resolves p g kv' e id := by
  have hs := h.gshape p g
  obtain ⟨hst, hg⟩ := resolve_step hs hr
  obtain ⟨h1, h2⟩ := h'.gkept p g (hst.shape hs)
  exact (resolves_iff h1 e id).mpr (h2 e id hg)

/-- The same for `create_or_update`: it answers the number all later resolutions answer. -/
theorem C30_update_stable {E : Env Q} {n m : Nat} {kv kv1 kv' : Kv} (h : Hist E n kv) {p g : Nat} {s : Str} {vs : List PropVal} {r : GroupValues}
    (hvs : ∀ v ∈ vs, v.propertyId < 2 ^ 64)
    (hr : groupCreateOrUpdate p g s vs kv = .ok (r, kv1)) (h' : Runs E (fun _ => True) kv1 m kv') : Resolves p g kv' (.real s) r.id := by
  have hs := h.gshape p g
  obtain ⟨hst, hg, -⟩ := groupUpdate_step hvs hs hr
  obtain ⟨h1, h2⟩ := h'.gkept p g (hst.shape hs)
  exact (resolves_iff h1 _ _).mpr (h2 _ _ hg)

/-- C30, injectivity and success: without merges, different identities have different numbers, and every
resolution succeeds. -/
theorem C30_injective {E : Env Q} {p g : Nat} {n : Nat} {kv : Kv} (h : Runs E (Req.NoMerge p g) [] n kv) (hn : n < 2 ^ 62) :
    (∀ e e' id, Resolves p g kv e id → Resolves p g kv e' id → e = e') ∧
    ∀ e, ∃ id kv1, resolve p g kv e = .ok (id, kv1) := by
  obtain ⟨hs, hi, hl⟩ := h.ginv (by omega)
  refine ⟨fun e e' id h1 h2 => hi.inj e e' id ((resolves_iff hs e id).mp h1) ((resolves_iff hs e' id).mp h2), fun e => ?_⟩
  have hnext := gNext hi (by omega)
  cases e with
  | anon s =>
    rw [resolve_anon]; unfold anonymousId
    cases hv : getK kv (.anon p g s) with
    | none => simp only [hnext]; exact ⟨_, _, rfl⟩
    | some b =>
      obtain ⟨m, rfl, hm⟩ := hs.1 s b hv
      simp only [readU64, le64_length, if_true]
      exact ⟨_, _, rfl⟩
  | real s =>
    rw [resolve_real]; unfold groupGetOrCreate
    cases hv : getK kv (.real p g s) with
    | none =>
      simp only [hnext]
      have : GroupValues.enc ⟨gSeq p g kv + 1, []⟩ ≠ none := (C41_group_values_writable _).mpr (by simp)
      cases he : GroupValues.enc ⟨gSeq p g kv + 1, []⟩ with
      | none => exact absurd he this
      | some b => exact ⟨_, _, rfl⟩
    | some b =>
      obtain ⟨r, hr, -⟩ := hs.2 s b hv
      simp only [gvRead, hr]
      exact ⟨_, _, rfl⟩

/-- What a resolution of a new identity answers is a number no one else has. -/
theorem C30_fresh {E : Env Q} {p g : Nat} {n : Nat} {kv kv1 : Kv} (h : Runs E (Req.NoMerge p g) [] n kv) (hn : n < 2 ^ 62) {e : Ext} {id : Nat}
    (hnew : ∀ m, ¬ Resolves p g kv e m) (hr : resolve p g kv e = .ok (id, kv1)) : ∀ e', ¬ Resolves p g kv e' id := by
  obtain ⟨hs, hi, hl⟩ := h.ginv (by omega)
  obtain ⟨hst, hg⟩ := resolve_step hs hr
  obtain ⟨hi1, -⟩ := hst.inv hi (by omega)
  intro e' he'
  have h1 := hst.kept _ _ ((resolves_iff hs e' id).mp he')
  have := hi1.inj e' e id h1 hg
  subst this
  exact hnew id he'

/-! ## C31 -/

/-- C31, first half: if the user was unknown, then after a successful merge both identities resolve to the
same number, now and after any further requests. -/
theorem C31_same_partial {E : Env Q} {n m : Nat} {kv kv' : Kv} (h : Hist E n kv) {p g : Nat} {a s : Str} {vs : List PropVal} {r : GroupValues}
    (hvs : ∀ v ∈ vs, v.propertyId < 2 ^ 64) (hnew : ∀ id, ¬ Resolves p g kv (.real s) id)
    (hr : (mergeWithAnonymous p g a s vs kv).1 = .ok r) (h' : Runs E (fun _ => True) (mergeWithAnonymous p g a s vs kv).2 m kv') :
    Resolves p g kv' (.anon a) r.id ∧ Resolves p g kv' (.real s) r.id := by
  have hs := h.gshape p g
  have hnone : getK kv (.real p g s) = none := by
    have := gid_none hs (.real s)
    refine this.mp ?_
    cases hg : gid p g kv (.real s) with
    | none => rfl
    | some id => exact absurd ((resolves_iff hs _ _).mpr hg) (hnew id)
  obtain ⟨h1, h2, h3⟩ := groupMerge_kept (a := a) (s := s) hvs hs
  obtain ⟨h4, h5⟩ := h3 r hr
  obtain ⟨h6, h7⟩ := h'.gkept p g h1
  exact ⟨(resolves_iff h6 _ _).mpr (h7 _ _ (h5 hnone).1), (resolves_iff h6 _ _).mpr (h7 _ _ h4)⟩

/-- C31, second half, is false, always: after a merge that creates the user, the next resolution of any new
visitor panics, unless the number happens to have exactly eight digits. -/
theorem C31_new_visitor_violated {E : Env Q} {n : Nat} {kv : Kv} (h : Hist E n kv) {p g : Nat} {a s : Str} {vs : List PropVal} {r : GroupValues}
    (hvs : ∀ v ∈ vs, v.propertyId < 2 ^ 64) (hnew : ∀ id, ¬ Resolves p g kv (.real s) id)
    (hr : (mergeWithAnonymous p g a s vs kv).1 = .ok r) (hd : (decimal r.id).length ≠ 8) {e : Ext}
    (he : ∀ id, ¬ Resolves p g (mergeWithAnonymous p g a s vs kv).2 e id) :
    resolve p g (mergeWithAnonymous p g a s vs kv).2 e = .error .panic := by
  have hs := h.gshape p g
  have none_of : ∀ {kv : Kv} {e : Ext}, GShape p g kv → (∀ id, ¬ Resolves p g kv e id) → getK kv (e.key p g) = none := by
    intro kv e hs hnew
    refine (gid_none hs e).mp ?_
    cases hg : gid p g kv e with
    | none => rfl
    | some id => exact absurd ((resolves_iff hs _ _).mpr hg) (hnew id)
  obtain ⟨h1, h2, h3⟩ := groupMerge_kept (a := a) (s := s) hvs hs
  have hseq := ((h3 r hr).2 (none_of hs hnew)).2
  have hkey := none_of h1 he
  have hlen : (utf8 (decimal r.id)).length ≠ 8 := by rw [utf8_digits (decimal_digits _)]; exact hd
  have hnext : nextSeq (.groupSeq p g) (mergeWithAnonymous p g a s vs kv).2 = .error .panic := by
    unfold nextSeq; rw [hseq]; simp only [readU64, if_neg hlen]
  cases e with
  | anon x =>
    rw [resolve_anon]; unfold anonymousId
    rw [show Key.anon p g x = Ext.key p g (.anon x) from rfl, hkey]
    dsimp only
    rw [hnext]
  | real x =>
    rw [resolve_real]; unfold groupGetOrCreate
    rw [show Key.real p g x = Ext.key p g (.real x) from rfl, hkey]
    dsimp only
    rw [hnext]
    rfl

/-- C31, first half, is false if the user is known already: the anonymous visitor keeps their own number. -/
theorem C31_known_user_violated :
    let kv := runReqs exEnv [.anonymous 1 0 exA, .groupGet 1 0 exB [], .groupMerge 1 0 exA exB []] []
    Hist exEnv 3 kv ∧ ((anonymousId 1 0 exA kv).toOption.map (·.1)) = some 1 ∧
      ((groupGetOrCreate 1 0 exB [] kv).toOption.map (·.1.id)) = some 2 := by
  refine ⟨Hist.of_run exEnv [_, _, _] ?_, by decide +kernel, by decide +kernel⟩
  intro r hr
  simp only [List.mem_cons, List.not_mem_nil, or_false] at hr
  rcases hr with rfl | rfl | rfl
  · trivial
  · intro v hv; cases hv
  · intro v hv; cases hv

/-- The hypotheses of `C31_new_visitor_violated` are met by the first merge in an empty project; the next
visitor fails. -/
example : (mergeWithAnonymous 1 0 exA exB [] []).1.toOption.map (·.id) = some 1 ∧
    (match resolve 1 0 (mergeWithAnonymous 1 0 exA exB [] []).2 (.anon exTok) with | .error e => some e | .ok _ => none) = some .panic := by
  decide +kernel

/-- A history without merges, as in `C30_injective`. -/
example : ∃ kv, Runs exEnv (Req.NoMerge 1 0) [] 2 kv ∧ Resolves 1 0 kv (.anon exA) 1 ∧ Resolves 1 0 kv (.real exA) 2 := by
  have hr : Runs exEnv (Req.NoMerge 1 0) [] 2 (runReqs exEnv [.anonymous 1 0 exA, .groupGet 1 0 exA []] []) :=
    .step (.groupGet 1 0 exA []) (.step (.anonymous 1 0 exA) .refl trivial trivial) (fun v hv => by cases hv) trivial
  obtain ⟨hs, -⟩ := hr.ginv (by decide)
  refine ⟨_, hr, (resolves_iff hs _ _).mpr ?_, (resolves_iff hs _ _).mpr ?_⟩ <;> decide +kernel

end OptiPrism.Meta
