import Verif.Ingest.Accept

/-!
# Accepted track requests
-/

namespace OptiPrism.Ingest

open OptiPrism.Meta
open OptiPrism.Storage (Bytes Value NamedValue Tbl InsertErr ColType Field Row KeyValue typeOk fromLE)

variable {Q : Type} {S : Meta.Env Q} {T : Str → Bool} {n : Nat} {w : World} {ok : Prop}

theorem user_goes (hw : WInv S T n w) (hn : n + 2 < 2 ^ 62) {p : Nat} (hp : p ≤ lastId w.kv (.top .projects)) {u a : Option Str} (h : u = none ∨ a = none)
    (h1 : ok → u.isSome ∨ a.isSome) :
    Goes S T n w 2 ok (resolveUser p u a) (fun r w' => r.1 < 2 ^ 64 ∧ (∀ g, r.2 = some g → ValsFit p 0 w'.kv g.values) ∧ SameNames p w.kv w'.kv) := by
  cases u with
  | some u =>
    rcases h with h | rfl
    · cases h
    · refine Goes.bind (B := 1) (C := 1) (groupGet_goes hw (by omega) hp 0 u) fun g w1 hw1 hn1 hg => ?_
      refine Goes.bind (B := 1) (C := 0) (dictPut_goes hw1 (by omega) (Nat.le_trans hp hn1.1.projects) ⟨slash_kEvents, slash_groupCol 0⟩ hg.1 u) fun _ w2 hw2 hn2 hs2 =>
        Goes.pure hw2 ⟨hg.1, fun g' hg' => ?_, (SameNames.of (hg.2.2 _ (by simp))).trans (.of (hs2 _ (by simp)))⟩
      cases hg'
      exact hg.2.1.ext hn2.1
  | none =>
    cases a with
    | none => exact (Goes.fail hw fun hok => by simpa using h1 hok).mono (by omega) fun _ _ _ _ h => h
    | some a =>
      refine Goes.bind (B := 1) (C := 1) (anon_goes hw (by omega) hp 0 a) fun g w1 hw1 hn1 hg => ?_
      exact Goes.bind (B := 1) (C := 0) (dictPut_goes hw1 (by omega) (Nat.le_trans hp hn1.1.projects) ⟨slash_kEvents, slash_groupCol 0⟩ hg.1 a) fun _ w2 hw2 hn2 hs2 =>
        Goes.pure hw2 ⟨hg.1, (fun g' hg' => nomatch hg'), (SameNames.of (hg.2 _ (by simp))).trans (.of (hs2 _ (by simp)))⟩

/-- The groups of an event: their numbers and stored values. -/
def GroupFit (p : Nat) (kv : Kv) (g : Nat × GroupValues) : Prop := g.1 < 5 ∧ ValsFit p g.1 kv g.2.values

theorem GroupFit.ext {p : Nat} {kv kv' : Kv} {g : Nat × GroupValues} (h : GroupFit p kv g) (he : Ext kv kv') : GroupFit p kv' g := ⟨h.1, h.2.ext he⟩

theorem group_goes (hw : WInv S T n w) (hn : n + 3 < 2 ^ 62) {p : Nat} (hp : p ≤ lastId w.kv (.top .projects)) {ks : List Str} (hk : ok → GroupRoom p ks w.kv)
    {g : Str × Str} (hg : g.1 ∈ ks) :
    Goes S T n w 3 ok (resolveGroup p g) (fun r w' => (ok → GroupRoom p ks w'.kv) ∧ GroupFit p w'.kv r) := by
  refine Goes.bind (B := 1) (C := 2) (groupName_goes hw (by omega) hp hk hg g.1) fun grp w1 hw1 hn1 ⟨h1, h2, h3, _⟩ => ?_
  have hp1 := Nat.le_trans hp hn1.1.projects
  refine Goes.bind (B := 1) (C := 1) (groupGet_goes hw1 (by omega) hp1 grp.id g.2) fun gv w2 hw2 hn2 hgv => ?_
  refine Goes.bind (B := 1) (C := 0) (dictPut_goes hw2 (by omega) (Nat.le_trans hp1 hn2.1.projects) ⟨slash_kEvents, slash_groupCol grp.id⟩ hgv.1 g.2) fun _ w3 hw3 hn3 hs3 =>
    Goes.pure hw3 ⟨fun hok => ⟨(h1 hok).1, fun x b hb => ?_⟩, h3, hgv.2.1.ext hn3.1⟩
  have e3 : getK w3.kv (.groupName p x) = getK w2.kv (.groupName p x) := hs3 (.grpNames p) (by simp) (.groupName p x) trivial rfl
  have e2 : getK w2.kv (.groupName p x) = getK w1.kv (.groupName p x) := hgv.2.2 (.grpNames p) (by simp) (.groupName p x) trivial rfl
  rw [e3, e2] at hb
  exact (h1 hok).2 x b hb

theorem groups_goes (hw : WInv S T n w) {p : Nat} (hp : p ≤ lastId w.kv (.top .projects)) {ks : List Str} (hk : ok → GroupRoom p ks w.kv) {user : Option GroupValues}
    (hu : ∀ g, user = some g → ValsFit p 0 w.kv g.values) {groups : Option (List (Str × Str))} (hn : n + 3 * (groups.getD []).length + 3 < 2 ^ 62)
    (hg : ∀ g ∈ groups.getD [], g.1 ∈ ks) :
    Goes S T n w (3 * (groups.getD []).length) ok (resolveGroups p user groups) (fun r w' => ∀ g ∈ r.getD [], GroupFit p w'.kv g) := by
  cases groups with
  | none => exact (Goes.pure hw (by simp)).mono (by omega) fun _ _ _ _ h => h
  | some l =>
    have h := Goes.each (S := S) (T := T) (n := n) (w := w) (ok := ok) (B := 3) (f := resolveGroup p) (K := 2 ^ 62 - 1)
      (J := fun w' => ok → GroupRoom p ks w'.kv) (R := fun _ b kv => GroupFit p kv b) (fun a b kv kv' h hnr => h.ext hnr.1) l (by simp at hn; omega)
      (fun a ha m w' hm hw' hnr hJ => group_goes hw' (by omega) (Nat.le_trans hp hnr.1.projects) hJ (hg a ha)) hw hk
    refine (Goes.bind (C := 0) h fun r w1 hw1 hn1 hr => Goes.pure hw1 ?_).mono (by simp; omega) fun _ _ _ _ h => h
    intro g hg'
    simp only [Option.getD_some, List.mem_append] at hg'
    rcases hg' with hg' | hg'
    · cases user with
      | none => cases hg'
      | some gv =>
        rw [Option.map_some, Option.toList_some, List.mem_singleton] at hg'
        subst hg'
        exact ⟨by dsimp only; omega, (hu gv rfl).ext hn1.1⟩
    · obtain ⟨_, -, h⟩ := hr.2.1 g hg'
      exact h

theorem attach_succeeds {kv : Kv} (hk : KInv S T n kv) (hn : n < 2 ^ 62) {p id : Nat} {v : Str} (h : nameAt p kv id = some v) (ps : List Nat) :
    ∃ r kv', eventTryAttach p id ps kv = .ok (r, kv') := by
  obtain ⟨m, hm, hh⟩ := hk.hist
  have hi := (hk.event hn p).inv (events_ok p)
  obtain ⟨ev, he, -⟩ : ∃ ev, (eventsC p).live kv id = some ev ∧ ev.name = v := by
    unfold nameAt at h
    exact Option.map_eq_some_iff.mp h
  have hg : (eventsC p).getById id kv = .ok ev := by rw [getById_eq hi, he]
  obtain ⟨r, kv', e, -⟩ := (C92_partial hh (by omega) hg .event 0 ps).2.1
  exact ⟨r, kv', e⟩

theorem attach_goes (hw : WInv S T n w) (hn : n + 1 < 2 ^ 62) {p : Nat} (hp : p ≤ lastId w.kv (.top .projects)) {ev : Nat} {v : Str} (hv : nameAt p w.kv ev = some v)
    (props : Option (List (Property × PropValue))) : Goes S T n w 1 ok (attachProps p ev props) (fun _ _ => True) := by
  cases props with
  | none => exact (Goes.pure hw trivial).mono (by omega) fun _ _ _ _ h => h
  | some l =>
    refine Goes.bind (B := 1) (C := 0) (P := fun _ _ => True) (Goes.call hw hn (.eventTryAttach p ev (l.map fun pv => pv.1.id)) rfl trivial
      ⟨mods_le hp (by simp [Req.mods, modProject]), trivial, trivial⟩ (by simp [Req.mods]) (fun _ => ?_) fun _ _ _ _ => trivial) fun _ w1 hw1 _ _ => Goes.pure hw1 trivial
    exact attach_succeeds hw.kv (by omega) hv _

theorem found_names {D : Detect} {req : Track} {x : Str × Str} (h : x ∈ found D req) : x.1 ∈ dictNames := by
  unfold found at h
  rcases List.mem_append.mp h with h | h
  · cases ha : req.agent with
    | none => rw [ha] at h; cases h
    | some s =>
      rw [ha] at h
      obtain ⟨a, b⟩ := x
      simp only [Agent.pairs, List.mem_cons, List.mem_append, opt_pair, Prod.mk.injEq] at h
      simp only [dictNames, List.mem_cons]
      rcases h with h | h | h | h | h | h | h | h | h | h | h | h <;> rw [h.1] <;> simp
  · cases hl : D.lookup req.ip with
    | found y =>
      rw [hl] at h
      obtain ⟨a, b⟩ := x
      simp only [Place.pairs, List.mem_append, opt_pair] at h
      simp only [dictNames, List.mem_cons]
      rcases h with h | h <;> rw [h.1] <;> simp
    | notFound => rw [hl] at h; cases h
    | failed => rw [hl] at h; cases h

/-- The text properties every project has. -/
theorem Ready.text {n : Nat} {kv : Kv} (hk : KInv S T n kv) (hn : n < 2 ^ 62) {p : Nat} (h : Ready p kv) {x : Str} (hx : x ∈ dictNames) :
    ∃ id r, (propsC p .event).live kv id = some r ∧ r.dataType = .string ∧ (propsC p .event).getBy .name x kv = .ok r := by
  obtain ⟨id, r, h1, h2, h3, -⟩ := h.props (userProp .string (some .int64) x) (by
    unfold allSetup setupUser
    simp only [List.mem_append, List.mem_map]
    exact .inr (.inl (.inl (.inl ⟨x, hx, rfl⟩))))
  have h2 : r.name = x := h2
  refine ⟨id, r, h1, h3, ?_⟩
  rw [← h2]
  exact name_live hk hn h1

theorem addFound_succeeds {kv : Kv} {p : Nat} {a : List (Str × Str)} (h : ∀ x ∈ a, ∃ q, (propsC p .event).getBy .name x.1 kv = .ok q) (l : List (Property × PropValue)) :
    ∃ l', addFound kv p a l = .ok l' := by
  induction a generalizing l with
  | nil => exact ⟨l, rfl⟩
  | cons x a ih =>
    obtain ⟨q, hq⟩ := h x (by simp)
    unfold addFound
    rw [hq]
    exact ih (fun y hy => h y (by simp [hy])) _

theorem transformed_goes (hw : WInv S T n w) (hn : n < 2 ^ 62) {p : Nat} (hr : Ready p w.kv) {D : Detect} {now : Time} {req : Track} (hl : ok → D.lookup req.ip ≠ .failed)
    {props : Option (List (Property × PropValue))} (hp : ∀ b ∈ props.getD [], PropFor ok p .event b w.kv) :
    Goes S T n w 0 ok (transformed (detectEnv D S.sys now) p req props) (fun r w' => w' = w ∧ (∀ b ∈ r.getD [], PropFor ok p .event b w.kv) ∧
      (r.getD []).length ≤ (props.getD []).length + 14) := by
  have hfound : ∀ x ∈ found D req, ∃ q, (propsC p .event).getBy .name x.1 w.kv = .ok q := fun x hx => by
    obtain ⟨_, r, -, -, h⟩ := hr.text hw.kv hn (found_names hx)
    exact ⟨r, h⟩
  have e : ∀ y, (transformed (detectEnv D S.sys now) p req props w).2 = w ∧ (transformed (detectEnv D S.sys now) p req props w = (y, w) → 
      (transformed (detectEnv D S.sys now) p req props w).1 = y) := by
    intro y
    unfold transformed
    refine ⟨?_, fun h => by rw [h]⟩
    split <;> rfl
  have hw2 := (e (.ok none)).1
  refine ⟨by rw [hw2]; exact hw.mono (by omega), by rw [hw2]; exact .refl _, fun hok => ?_, fun a ha => ⟨hw2, ?_⟩⟩
  · unfold transformed
    obtain ⟨l', hl'⟩ : ∃ l', (detectEnv D S.sys now).transform w.kv p req (props.getD []) = .ok l' := by
      unfold detectEnv
      dsimp only
      have h1 : ∃ l1, userAgent D w.kv p req (props.getD []) = .ok l1 := by
        unfold userAgent
        cases ha : req.agent with
        | none => exact ⟨_, rfl⟩
        | some s => exact addFound_succeeds (fun x hx => hfound x (by unfold found; rw [ha]; exact List.mem_append.mpr (.inl hx))) _
      obtain ⟨l1, h1⟩ := h1
      rw [h1]
      dsimp only
      unfold geo
      cases hlk : D.lookup req.ip with
      | failed => exact absurd hlk (hl hok)
      | notFound => exact ⟨_, rfl⟩
      | found y => exact addFound_succeeds (fun x hx => hfound x (by unfold found; rw [hlk]; exact List.mem_append.mpr (.inr hx))) _
    rw [hl']
    exact ⟨_, rfl⟩
  · unfold transformed at ha
    split at ha
    · cases ha
    · rename_i l' hl'
      obtain ⟨more, rfl, hnamed⟩ := transform_found hl'
      have hall : ∀ b ∈ props.getD [] ++ more, PropFor ok p .event b w.kv := by
        intro b hb
        rcases List.mem_append.mp hb with hb | hb
        · exact hp b hb
        · obtain ⟨x, hx, hq, hv⟩ := hnamed.mem b hb
          obtain ⟨id, r, h1, h2, h3⟩ := hr.text hw.kv hn (found_names hx)
          rw [h3] at hq
          cases hq
          have := PropFor.of_live (ok := ok) hw.kv hn h1 (v := b.2) fun _ => by rw [hv]; exact h2
          exact this
      have hlen : more.length ≤ 14 := by rw [hnamed.length]; exact found_length D req
      simp only [Except.ok.injEq] at ha
      subst ha
      split
      · exact ⟨hp, by omega⟩
      · exact ⟨hall, by simp; omega⟩

end OptiPrism.Ingest
