import Verif.Ingest.CountRows

/-!
# Requests which name their user by one id

Such requests never merge an anonymous user with a known one, so different users keep different numbers.
-/

namespace OptiPrism.Ingest
open OptiPrism.Meta
open OptiPrism.Storage (Value NamedValue)

variable {Q : Type} {S : Meta.Env Q}

/-- The act has at most one id of a user, and administrators merge nobody. -/
def Act.OneId (p : Nat) : Act Q → Prop
  | .http (.track _ _ req) => req.userId = none ∨ req.anonId = none
  | .http (.identify ..) => True
  | .admin r => r.NoMerge p 0

/-- The metadata requests of resolving a track request with one id. -/
def PlainReq (p q : Nat) (r : Req Q) : Prop := ResolveReq p r ∧ r.NoMerge q 0

theorem resolveUser_plain {p q : Nat} {user anon : Option Str} (h : user = none ∨ anon = none) : Follows S (PlainReq p q) 2 (resolveUser p user anon) (fun u => u.1 < 2 ^ 64) := by
  cases user <;> cases anon <;> unfold resolveUser <;> dsimp only
  · exact Follows.fail.mono (fun _ h => h) (by omega) (fun _ h => h)
  · rename_i a
    exact (Follows.bind (Follows.call (P := PlainReq p q) (.anonymous p 0 a) (fun _ => rfl) trivial ⟨⟨rfl, rfl⟩, trivial⟩ (fun _ _ _ e => anonymousId_lt e)) fun n hn =>
      Follows.bind (Follows.call (P := PlainReq p q) (.dictPut p kEvents (groupCol 0) n a) (fun _ => rfl) ⟨⟨slash_kEvents, slash_groupCol 0⟩, hn⟩ ⟨⟨rfl, rfl, 0, rfl⟩, trivial⟩
        (fun _ _ _ _ => trivial)) fun _ _ => Follows.pure hn)
  · rename_i u
    exact (Follows.bind (Follows.call (P := PlainReq p q) (.groupGet p 0 u []) (fun _ => rfl) (fun v hv => by cases hv) ⟨⟨rfl, rfl⟩, trivial⟩ (fun _ _ _ e => groupGet_lt e)) fun g hn =>
      Follows.bind (Follows.call (P := PlainReq p q) (.dictPut p kEvents (groupCol 0) g.id u) (fun _ => rfl) ⟨⟨slash_kEvents, slash_groupCol 0⟩, hn⟩ ⟨⟨rfl, rfl, 0, rfl⟩, trivial⟩
        (fun _ _ _ _ => trivial)) fun _ _ => Follows.pure hn)
  · rcases h with h | h <;> cases h

theorem resolveGroup_plain {p q : Nat} (g : Str × Str) : Follows S (PlainReq p q) 3 (resolveGroup p g) (fun _ => True) :=
  Follows.bind (Follows.call (P := PlainReq p q) (.groupName p g.1 g.1) (fun _ => rfl) trivial ⟨rfl, trivial⟩ (fun _ _ _ _ => trivial)) fun grp _ =>
  Follows.bind (Follows.call (P := PlainReq p q) (.groupGet p grp.id g.2 []) (fun _ => rfl) (fun v hv => by cases hv) ⟨⟨rfl, rfl⟩, trivial⟩ (fun _ _ _ e => groupGet_lt e)) fun gv hn =>
  Follows.bind (Follows.call (P := PlainReq p q) (.dictPut p kEvents (groupCol grp.id) gv.id g.2) (fun _ => rfl) ⟨⟨slash_kEvents, slash_groupCol _⟩, hn⟩ ⟨⟨rfl, rfl, _, rfl⟩, trivial⟩
    (fun _ _ _ _ => trivial)) fun _ _ => Follows.pure trivial

theorem resolveGroups_plain {p q : Nat} (user : Option GroupValues) (groups : Option (List (Str × Str))) :
    Follows S (PlainReq p q) ((groups.getD []).length * 3) (resolveGroups p user groups) (fun _ => True) := by
  cases groups with
  | none => exact (Follows.pure trivial).mono (fun _ h => h) (by simp) (fun _ h => h)
  | some l => exact Follows.bind (C := 0) (Follows.each l fun g _ => resolveGroup_plain g) fun r _ => Follows.pure trivial

theorem resolveTrack_plain {E : Env Track} (hs : E.sys = S.sys) {K : Nat}
    (hK : ∀ kv p req l l', E.transform kv p req l = .ok l' → l'.length ≤ l.length + K) {p q : Nat} (hp : p < 2 ^ 64) {req : Track} (ho : req.userId = none ∨ req.anonId = none) :
    Follows S (PlainReq p q) ((req.props.getD []).length + 3 * (req.groups.getD []).length + 4) (resolveTrack E p req)
      (fun r => r.user < 2 ^ 64 ∧ (r.props.getD []).length ≤ (req.props.getD []).length + K) := by
  unfold resolveTrack
  rw [hs]
  refine Follows.mono (Follows.bind (resolveProperties_follows hp (fun g h => by cases h) req.props (fun nvp => ⟨⟨rfl, rfl, rfl⟩, trivial⟩)) (fun props hprops =>
    Follows.bind (resolveUser_plain ho) (fun u hu =>
    Follows.bind (resolveGroups_plain u.2 req.groups) (fun groups _ =>
    Follows.bind (Follows.callRaw (P := PlainReq p q) (Post := fun _ => True) (.eventGetOrCreate p E.now (eventReq req.event props)) (fun _ => rfl) ⟨hp, by show 1 < 2 ^ 64; decide⟩ ⟨rfl, trivial⟩ (fun _ _ _ => trivial)) (fun ev _ =>
    Follows.bind (B := 1) (Post := fun _ => True) ?_ (fun _ _ =>
    Follows.bind (B := 0) (Post := fun l => (l.getD []).length ≤ (req.props.getD []).length + K) ?_ (fun props' h' => Follows.pure ⟨hu, h'⟩))))))) (fun _ h => h) ?_ (fun _ h => h)
  · cases props with
    | none => exact (Follows.pure trivial).mono (fun _ h => h) (by omega) (fun _ h => h)
    | some l =>
      exact Follows.bind (C := 0) (Post' := fun _ => True) (Follows.call (P := PlainReq p q) (Post := fun _ => True) (.eventTryAttach p ev.id (l.map fun pv => pv.1.id)) (fun _ => rfl) trivial ⟨rfl, trivial⟩ (fun _ _ _ _ => trivial))
        fun _ _ => Follows.pure trivial
  · intro w
    unfold transformed
    cases ht : E.transform w.kv p req (props.getD []) with
    | error e => exact ⟨⟨0, Nat.le_refl _, .refl⟩, fun _ _ h => by cases h⟩
    | ok l =>
      refine ⟨⟨0, Nat.le_refl _, .refl⟩, fun a w' h => ?_⟩
      cases h
      have := hK _ _ _ _ _ ht
      split
      · have := hprops.1; omega
      · have := hprops.1; simp only [Option.getD_some]; omega
  · omega

theorem send_noMerge {p q : Nat} {r : Req Q} (h : SendReq p r) : r.NoMerge q 0 := by
  cases r <;> first | trivial | exact h.elim

theorem identify_noMerge {p q : Nat} {r : Req Q} (h : IdentifyReq p r) : r.NoMerge q 0 := by
  cases r <;> first | trivial | exact h.elim

/-- A request with one id merges nobody. -/
theorem executeTrack_plain {E : Env Track} (hs : E.sys = S.sys) (hsys : ∀ n, '/' ∉ S.sys n) {K : Nat}
    (hK : ∀ kv p req l l', E.transform kv p req l = .ok l' → l'.length ≤ l.length + K) (q : Nat) (token : Str) {req : Track} (ho : req.userId = none ∨ req.anonId = none) (w : World) :
    ∃ m, m ≤ 2 * (req.props.getD []).length + 3 * (req.groups.getD []).length + K + 13 ∧ Runs S (Req.NoMerge q 0) w.kv m (executeTrack E token req w).2.kv := by
  cases hg : getByToken token w.kv with
  | error e => exact ⟨0, Nat.zero_le _, by simp [executeTrack, M.bind, read, callRaw, hg]; exact .refl⟩
  | ok project =>
    have hp : project.id < 2 ^ 64 := by
      obtain ⟨b, hb⟩ := getBy_dec hg
      exact project_dec_lt hb
    have h1 : executeTrack E token req w = ((resolveTrack E project.id req).bind fun r =>
        (sendTrack E project.id req r).bind fun _ => (call (incrementEvents project.id)).bind fun _ => M.pure ()) w := by
      simp [executeTrack, M.bind, read, callRaw, hg]
    have h2 : Follows S (Req.NoMerge q 0) _ ((resolveTrack E project.id req).bind fun r =>
        (sendTrack E project.id req r).bind fun _ => (call (incrementEvents project.id)).bind fun _ => M.pure ()) (fun _ => True) :=
      Follows.bind ((resolveTrack_plain (q := q) hs hK hp ho).mono (fun _ h => h.2) (Nat.le_refl _) (fun _ h => h)) fun r hr =>
      Follows.bind ((sendTrack_follows hs hsys req r hr.1).mono (fun _ h => send_noMerge h) (Nat.add_le_add_right hr.2 8) (fun _ h => h)) fun _ _ =>
      Follows.bind (Follows.call (Post := fun _ => True) (.projectIncrement project.id) (fun _ => rfl) trivial trivial (fun _ _ _ _ => trivial)) fun _ _ =>
      Follows.pure trivial
    obtain ⟨⟨m, hm, hr⟩, -⟩ := h2 w
    exact ⟨m, by omega, by rw [h1]; exact hr⟩

theorem act_plain (hsys : ∀ n, '/' ∉ S.sys n) {K p : Nat} {x : Act Q} (hx : x.Fits S K) (ho : x.OneId p) (a : App) :
    ∃ m, m ≤ x.cost K ∧ Runs S (Req.NoMerge p 0) a.world.kv m (a.act S x).world.kv := by
  cases x with
  | admin r => exact ⟨1, Nat.le_refl _, .step r .refl hx ho⟩
  | http r =>
    cases r with
    | track E token req =>
      simp only [App.act, App.step]
      split
      · exact ⟨0, Nat.zero_le _, .refl⟩
      · exact executeTrack_plain hx.1 hsys hx.2 p token ho a.world
    | identify sys now token req =>
      have hs : sys = S.sys := hx
      subst hs
      simp only [App.act, App.step]
      split
      · exact ⟨0, Nat.zero_le _, .refl⟩
      · rcases executeIdentify_follows (S := S) hsys now token req a.world with ⟨e, h1, h2⟩ | ⟨project, m, h1, h2, h3⟩
        · refine ⟨0, Nat.zero_le _, ?_⟩
          show Runs S _ _ 0 (executeIdentify S.sys now token req a.world).2.kv
          rw [h2]; exact .refl
        · exact ⟨m, h2, runs_mono (fun r hr => identify_noMerge hr) h3⟩

/-- Different users keep different numbers. -/
theorem acts_plain (hsys : ∀ n, '/' ∉ S.sys n) {K p : Nat} (l : List (Act Q)) (hx : ∀ x ∈ l, x.Fits S K) (ho : ∀ x ∈ l, x.OneId p) {a : App} {n : Nat}
    (h : Runs S (Req.NoMerge p 0) [] n a.world.kv) : ∃ m, m ≤ (l.map (Act.cost K)).sum ∧ Runs S (Req.NoMerge p 0) [] (n + m) (a.acts S l).world.kv := by
  induction l generalizing a n with
  | nil => exact ⟨0, Nat.le_refl _, h⟩
  | cons x l ih =>
    obtain ⟨m, hm, h1⟩ := act_plain hsys (hx x (by simp)) (ho x (by simp)) a
    obtain ⟨m', hm', h2⟩ := ih (fun y hy => hx y (by simp [hy])) (fun y hy => ho y (by simp [hy])) (a := a.act S x) (h.trans h1)
    exact ⟨m + m', by simp only [List.map_cons, List.sum_cons]; omega, by rw [← Nat.add_assoc]; exact h2⟩

/-- An accepted request has an id. -/
theorem track_has_id {E : Env Track} {token : Str} {req : Track} {w w' : World} (h : executeTrack E token req w = (.ok (), w')) : req.userId ≠ none ∨ req.anonId ≠ none := by
  cases hu : req.userId with
  | some s => exact .inl (by simp)
  | none =>
    cases ha : req.anonId with
    | some s => exact .inr (by simp)
    | none =>
      exfalso
      unfold executeTrack at h
      obtain ⟨project, wa, h1, h2⟩ := bind_ok h
      obtain ⟨r, wb, h3, -⟩ := bind_ok h2
      unfold resolveTrack at h3
      obtain ⟨props, wc, -, h4⟩ := bind_ok h3
      obtain ⟨u, wd, h5, -⟩ := bind_ok h4
      rw [hu, ha] at h5
      unfold resolveUser at h5
      cases h5

/-- Every accepted request of such acts names its user by one id. -/
theorem accepted_sole {p : Nat} (l : List (Act Q)) (ho : ∀ x ∈ l, x.OneId p) {a : App} : ∀ x ∈ a.accepted S l, ∃ e, Sole x.2 e := by
  induction l generalizing a with
  | nil => intro x hx; cases hx
  | cons y l ih =>
    intro x hx
    rcases List.mem_append.mp (show x ∈ y.accepted a ++ (a.act S y).accepted S l from hx) with h | h
    · have hy := ho y (by simp)
      cases y with
      | admin r => cases h
      | http r =>
        cases r with
        | identify sys now token req => cases h
        | track E token req =>
          have h' : x ∈ (Act.http (.track E token req) : Act Q).accepted a := h
          unfold Act.accepted at h'
          dsimp only [App.step] at h'
          split at h'
          · rename_i project hok htok
            cases List.mem_singleton.mp h'
            split at hok
            · cases hok
            · have hex : (executeTrack E token req a.world).1 = .ok () := by
                unfold answerOf at hok
                split at hok
                · assumption
                · split at hok <;> cases hok
              have hid := track_has_id (w' := (executeTrack E token req a.world).2) (Prod.ext hex rfl)
              show ∃ e, Sole req e
              have hy : req.userId = none ∨ req.anonId = none := hy
              cases hu : req.userId with
              | some s =>
                refine ⟨.real s, hu, ?_⟩
                rcases hy with e | e
                · rw [hu] at e; cases e
                · exact e
              | none =>
                cases hz : req.anonId with
                | some s => exact ⟨.anon s, hu, hz⟩
                | none => rcases hid with e | e <;> contradiction
          · cases h'
    · exact ih (fun z hz => ho z (by simp [hz])) x h

end OptiPrism.Ingest
