import Verif.Meta.ListingProps

/-!
# C93: bookmarks

Independent specification: the shelf of saved bookmarks, keyed by project, account and identifier. A creation puts
the bookmark on its place, a deletion clears the place, every other request leaves the shelf alone.
-/

namespace OptiPrism.Meta

variable {Q : Type}

structure Place where
  project : Nat
  account : Nat
  id : Str
  deriving DecidableEq

/-- What a shelf place holds after one request. -/
def shelve (x : Place) (old : Option (Bookmark Q)) : Req Q → Option (Bookmark Q)
  | .bookmarkCreate p r => if x = ⟨p, r.createdBy, r.id⟩ then some ⟨r.id, ⟨r.createdAt.sec, 0⟩, r.createdBy, p, r.query⟩ else old
  | .bookmarkDelete p a id => if x = ⟨p, a, id⟩ then none else old
  | _ => old

def shelf (x : Place) (rs : List (Req Q)) : Option (Bookmark Q) := rs.foldl (shelve x) none

def found (o : Option (Bookmark Q)) : Except Err (Bookmark Q) :=
  match o with
  | none => .error .notFound
  | some r => .ok r

theorem shelve_other {r : Req Q} {x : Place} (h : Mod.bm x.project x.account ∉ r.mods) (old : Option (Bookmark Q)) :
    shelve x old r = old := by
  cases r <;> try rfl
  · rename_i p q
    simp only [Req.mods, List.mem_cons, List.not_mem_nil, or_false, Mod.bm.injEq] at h
    simp only [shelve]
    rw [if_neg]
    rintro rfl
    exact h ⟨rfl, rfl⟩
  · rename_i p a id
    simp only [Req.mods, List.mem_cons, List.not_mem_nil, or_false, Mod.bm.injEq] at h
    simp only [shelve]
    rw [if_neg]
    rintro rfl
    exact h ⟨rfl, rfl⟩

theorem bookmarkGet_congr (bc : Bincode Q) {p a : Nat} {id : Str} {kv kv' : Kv}
    (h : getK kv' (.bookmark p a id) = getK kv (.bookmark p a id)) : bookmarkGet bc p a id kv' = bookmarkGet bc p a id kv := by
  unfold bookmarkGet
  rw [h]

theorem exec_shelve (E : Env Q) {r : Req Q} (hr : r.Ok) (kv : Kv) (x : Place) {old : Option (Bookmark Q)}
    (h : bookmarkGet E.bc x.project x.account x.id kv = found old) :
    bookmarkGet E.bc x.project x.account x.id (r.exec E kv) = found (shelve x old r) := by
  by_cases hm : Mod.bm x.project x.account ∈ r.mods
  · cases r <;> simp only [Req.mods, List.mem_cons, List.not_mem_nil, or_false, reduceCtorEq, Mod.bm.injEq] at hm
    · rename_i p q
      obtain ⟨hp, ha⟩ := hm
      have hex : (Req.bookmarkCreate p q).exec E kv =
          putK kv (.bookmark p q.createdBy q.id) (Bookmark.enc E.bc { q with projectId := p }) := rfl
      rw [hex]
      simp only [shelve]
      by_cases hx : x = ⟨p, q.createdBy, q.id⟩
      · subst hx
        rw [if_pos rfl]
        unfold bookmarkGet
        dsimp only
        rw [getK_putK _ (k := .bookmark p q.createdBy q.id) trivial (k' := .bookmark p q.createdBy q.id) trivial, if_pos rfl]
        dsimp only
        rw [Bookmark.dec_enc E.bc { q with projectId := p } ⟨hr.2, hr.1⟩]
        rfl
      · rw [if_neg hx, ← h]
        apply bookmarkGet_congr
        rw [getK_putK _ (k := .bookmark p q.createdBy q.id) trivial (k' := .bookmark x.project x.account x.id) trivial, if_neg]
        intro e
        injection e with e1 e2 e3
        apply hx
        cases x
        simp_all
    · rename_i p a id
      obtain ⟨hp, ha⟩ := hm
      simp only [shelve]
      have hex : (Req.bookmarkDelete (Q := Q) p a id).exec E kv = (runCall (Meta.bookmarkDelete E.bc p a id) kv).2 := rfl
      rw [hex]
      by_cases hx : x = ⟨p, a, id⟩
      · subst hx
        rw [if_pos rfl]
        unfold bookmarkGet at h
        dsimp only at h
        unfold runCall bookmarkDelete bookmarkGet
        dsimp only
        cases hk : getK kv (.bookmark p a id) with
        | none => dsimp only; rw [hk]; rfl
        | some b =>
          rw [hk] at h
          dsimp only at h ⊢
          cases hd : Bookmark.dec E.bc b with
          | none =>
            rw [hd] at h
            cases old <;> cases h
          | some q =>
            dsimp only
            rw [getK_delK _ (k := .bookmark p a id) trivial (k' := .bookmark p a id) trivial, if_pos rfl]
            rfl
      · rw [if_neg hx, ← h]
        apply bookmarkGet_congr
        unfold runCall bookmarkDelete
        cases hk : getK kv (.bookmark p a id) with
        | none => rfl
        | some b =>
          dsimp only
          cases hd : Bookmark.dec E.bc b with
          | none => rfl
          | some q =>
            dsimp only
            rw [getK_delK _ (k := .bookmark p a id) trivial (k' := .bookmark x.project x.account x.id) trivial, if_neg]
            intro e
            injection e with e1 e2 e3
            apply hx
            cases x
            simp_all
  · rw [shelve_other hm, ← h]
    exact bookmarkGet_congr _ (exec_same E hr hm kv _ trivial rfl)

/-- C93, refinement: whatever requests were made to whatever part of the metadata, a lookup finds exactly what
the shelf holds. -/
theorem C93_shelf (E : Env Q) (rs : List (Req Q)) (h : ∀ r ∈ rs, r.Ok) (x : Place) :
    bookmarkGet E.bc x.project x.account x.id (runReqs E rs []) = found (shelf x rs) := by
  have key : ∀ (rs : List (Req Q)) (kv : Kv) (old : Option (Bookmark Q)), (∀ r ∈ rs, r.Ok) →
      bookmarkGet E.bc x.project x.account x.id kv = found old →
      bookmarkGet E.bc x.project x.account x.id (runReqs E rs kv) = found (rs.foldl (shelve x) old) := by
    intro rs
    induction rs with
    | nil => intro kv old _ h; exact h
    | cons r rs ih =>
      intro kv old hr h
      exact ih _ _ (fun q hq => hr q (List.mem_cons_of_mem _ hq)) (exec_shelve E (hr r (List.mem_cons_self ..)) kv x h)
  exact key rs [] none h rfl

/-- The request neither saves over the place nor deletes from it. -/
def Req.Spares (x : Place) (r : Req Q) : Prop :=
  (∀ p q, r = .bookmarkCreate p q → x ≠ ⟨p, q.createdBy, q.id⟩) ∧ ∀ p a id, r = .bookmarkDelete p a id → x ≠ ⟨p, a, id⟩

theorem shelve_spares {x : Place} {rs : List (Req Q)} (h : ∀ r ∈ rs, r.Spares x) (old : Option (Bookmark Q)) :
    rs.foldl (shelve x) old = old := by
  induction rs generalizing old with
  | nil => rfl
  | cons r rs ih =>
    rw [List.foldl_cons]
    have hr := h r (List.mem_cons_self ..)
    have : shelve x old r = old := by
      cases r <;> try rfl
      · simp only [shelve]; exact if_neg (hr.1 _ _ rfl)
      · simp only [shelve]; exact if_neg (hr.2 _ _ _ rfl)
    rw [this]
    exact ih (fun q hq => h q (List.mem_cons_of_mem _ hq)) old

/-- C93: a bookmark opens as it was saved (time in seconds) for the account which saved it as long as it is not deleted and its
random identifier is not drawn again by that account. -/
theorem C93_opens_partial (E : Env Q) (rs rs' : List (Req Q)) (p : Nat) (q : Bookmark Q)
    (h : ∀ r ∈ rs ++ .bookmarkCreate p q :: rs', r.Ok) (hs : ∀ r ∈ rs', r.Spares ⟨p, q.createdBy, q.id⟩) :
    bookmarkGet E.bc p q.createdBy q.id (runReqs E (rs ++ .bookmarkCreate p q :: rs') []) =
      .ok ⟨q.id, ⟨q.createdAt.sec, 0⟩, q.createdBy, p, q.query⟩ := by
  have := C93_shelf E _ h ⟨p, q.createdBy, q.id⟩
  rw [this]
  unfold shelf
  rw [List.foldl_append, List.foldl_cons, shelve_spares hs]
  simp [shelve, found]

/-- C93: nobody finds a bookmark at a place where none was saved, in particular no other account and no other project. -/
theorem C93_private (E : Env Q) (rs : List (Req Q)) (h : ∀ r ∈ rs, r.Ok) (p a : Nat) (id : Str)
    (hn : ∀ q, .bookmarkCreate p q ∈ rs → q.createdBy = a → q.id ≠ id) :
    bookmarkGet E.bc p a id (runReqs E rs []) = .error .notFound := by
  have := C93_shelf E _ h ⟨p, a, id⟩
  rw [this]
  have key : ∀ rs : List (Req Q), (∀ q, .bookmarkCreate p q ∈ rs → q.createdBy = a → q.id ≠ id) →
      rs.foldl (shelve ⟨p, a, id⟩) none = none := by
    intro rs
    induction rs with
    | nil => intro _; rfl
    | cons r rs ih =>
      intro hn
      rw [List.foldl_cons]
      have : shelve ⟨p, a, id⟩ none r = none := by
        cases r <;> try rfl
        · rename_i p' q
          simp only [shelve]
          rw [if_neg]
          intro e
          injection e with e1 e2 e3
          subst e1
          exact hn q (List.mem_cons_self ..) e2.symm e3.symm
        · simp only [shelve, ite_self]
      rw [this]
      exact ih fun q hq => hn q (List.mem_cons_of_mem _ hq)
  unfold shelf
  rw [key rs hn]
  rfl

/-- C93: a deleted bookmark is gone until its place is used again. -/
theorem C93_deleted (E : Env Q) (rs rs' : List (Req Q)) (p a : Nat) (id : Str)
    (h : ∀ r ∈ rs ++ .bookmarkDelete p a id :: rs', r.Ok) (hs : ∀ r ∈ rs', r.Spares ⟨p, a, id⟩) :
    bookmarkGet E.bc p a id (runReqs E (rs ++ .bookmarkDelete p a id :: rs') []) = .error .notFound := by
  have := C93_shelf E _ h ⟨p, a, id⟩
  rw [this]
  unfold shelf
  rw [List.foldl_append, List.foldl_cons, shelve_spares hs]
  simp [shelve, found]

/-- C93 as stated: two bookmarks saved one after the other can both be opened, whatever identifiers were drawn. -/
def C93_full (E : Env Q) : Prop :=
  ∀ p (q q' : Bookmark Q), (Req.bookmarkCreate p q).Ok → (Req.bookmarkCreate p q').Ok →
    bookmarkGet E.bc p q.createdBy q.id (runReqs E [.bookmarkCreate p q, .bookmarkCreate p q'] []) =
      .ok ⟨q.id, ⟨q.createdAt.sec, 0⟩, q.createdBy, p, q.query⟩

def exMark : Bookmark Unit := ⟨"aB3dE6g".toList, ⟨10, 5⟩, 2, 0, some ()⟩

/-- The identifier is drawn at random and written without looking: a second draw of it replaces the first bookmark. -/
theorem C93_violated : ¬ C93_full exEnv := by
  intro h
  have := h 1 exMark { exMark with query := none } ⟨by decide, by decide⟩ ⟨by decide, by decide⟩
  have h2 := C93_shelf exEnv [.bookmarkCreate 1 exMark, .bookmarkCreate 1 { exMark with query := none }]
    (by intro r hr; simp only [List.mem_cons, List.not_mem_nil, or_false] at hr; rcases hr with rfl | rfl <;> exact ⟨by decide, by decide⟩)
    ⟨1, exMark.createdBy, exMark.id⟩
  rw [h2] at this
  simp [shelf, shelve, found, exMark] at this

/-- Saved by account 2, seen by account 2, not by account 3, gone after its deletion. -/
example : let kv := runReqs exEnv [.bookmarkCreate 1 exMark, .teamCreate 1 ⟨0, 0⟩ 1 ['a'], .bookmarkDelete 1 3 exMark.id] []
    ((bookmarkGet exEnv.bc 1 2 exMark.id kv).toOption.map fun b => (b.projectId, b.createdAt.nano)) = some (1, 0) ∧
    ((bookmarkGet exEnv.bc 1 3 exMark.id kv).toOption.map fun b => b.projectId) = none ∧
    ((bookmarkGet exEnv.bc 1 2 exMark.id (runReqs exEnv [.bookmarkDelete 1 2 exMark.id] kv)).toOption.map fun b => b.projectId) = none := by
  decide +kernel

end OptiPrism.Meta
