import Verif.Ingest.NewProp

/-!
# Calls on worlds
-/

namespace OptiPrism.Ingest

open OptiPrism.Meta
open OptiPrism.Storage (Bytes Value NamedValue Tbl InsertErr ColType Field Row KeyValue typeOk validate insert_good insert_succeeds insert_ok_row addField_good)

variable {Q : Type} {S : Meta.Env Q} {T : Str → Bool}

/-! ## Tables -/

/-- The table has a column of the property. -/
def HasCol (sys : Str → Str) (t : Tbl) (r : Property) : Prop := ∃ f ∈ t.schema, f.name = String.ofList (r.columnName sys)

/-- Every column of the table has the type that goes with its name. -/
structure TabInv (sys : Str → Str) (t : Tbl) : Prop where
  idx : t.indexCols = 2
  good : ∃ rs, t.Good rs
  fields : ∀ f ∈ t.schema, ∃ r, rule r = some f.dt ∧ f.name = String.ofList (r.columnName sys)

theorem TabInv.create (sys : Str → Str) : TabInv sys (Tbl.create 2) where
  idx := rfl
  good := ⟨[], ⟨Storage.Memtable.rep_new, rfl⟩⟩
  fields := fun f h => by simp [Tbl.create] at h

theorem TabInv.dt {sys : Str → Str} (hk : KeepsSys sys) {t : Tbl} (h : TabInv sys t) {f : Field} (hf : f ∈ t.schema) {r : Property} (hr : (rule r).isSome)
    (e : f.name = String.ofList (r.columnName sys)) : rule r = some f.dt := by
  obtain ⟨r', h1, h2⟩ := h.fields f hf
  rw [← h1]
  refine rule_eq hk hr (by rw [h1]; rfl) ?_
  exact String.ofList_injective (e.symm.trans h2)

/-- A cell for a column of the table, of its type. -/
def CellFits (sys : Str → Str) (t : Tbl) (v : NamedValue) : Prop :=
  ∃ r : Property, v.name = String.ofList (r.columnName sys) ∧ HasCol sys t r ∧ Typed v.value r

theorem validate_fits {sys : Str → Str} (hk : KeepsSys sys) {t : Tbl} (h : TabInv sys t) {vs : List NamedValue} (hv : ∀ v ∈ vs, CellFits sys t v) :
    Storage.validate t.schema vs = none := by
  induction vs with
  | nil => rfl
  | cons v vs ih =>
    obtain ⟨r, h1, ⟨f, h2, h3⟩, dt, h4, h5⟩ := hv v (by simp)
    unfold Storage.validate
    cases hf : t.schema.find? (fun f => f.name == v.name) with
    | none =>
      have := List.find?_eq_none.mp hf f h2
      simp [h1, h3] at this
    | some f' =>
      dsimp only
      have hm := List.mem_of_find?_eq_some hf
      have hn := List.find?_some hf
      have := h.dt hk hm (r := r) (by rw [h4]; rfl) ((eq_of_beq hn).trans h1)
      rw [h4] at this
      cases this
      rw [if_pos h5]
      exact ih fun v hv' => hv v (by simp [hv'])

theorem length_two {α : Type} {l : List α} {a b : α} (ha : a ∈ l) (hb : b ∈ l) (h : a ≠ b) : 2 ≤ l.length := by
  match l, ha, hb with
  | [x], ha, hb => simp at ha hb; exact absurd (ha.trans hb.symm) h
  | _ :: _ :: _, _, _ => simp

theorem TabInv.insert {sys : Str → Str} {t t' : Tbl} (h : TabInv sys t) {vs : List NamedValue} (hne : vs ≠ []) (e : t.insert vs = .ok t') :
    TabInv sys t' ∧ t'.schema = t.schema := by
  obtain ⟨pk, fin, -, -, -, hv, -, hs, hi, -⟩ := insert_ok_row e
  obtain ⟨rs, hg⟩ := h.good
  have hsch : t.schema ≠ [] := by
    intro hs
    rw [hs] at hv
    cases vs with
    | nil => exact hne rfl
    | cons v vs => simp [Storage.validate] at hv
  obtain ⟨pk, -, -, hg', -⟩ := insert_good hg hsch e
  exact ⟨⟨hi.trans h.idx, ⟨_, hg'⟩, by rw [hs]; exact h.fields⟩, hs⟩

theorem TabInv.accepts {sys : Str → Str} (hk : KeepsSys sys) {t : Tbl} (h : TabInv sys t) {a b : Str} {x y : Nat} {vs : List NamedValue}
    (hab : a ≠ b) (hv : ∀ v ∈ nv a (i64 x) :: nv b (i64 y) :: vs, CellFits sys t v) : ∃ t', t.insert (nv a (i64 x) :: nv b (i64 y) :: vs) = .ok t' := by
  obtain ⟨rs, hg⟩ := h.good
  have hlen : t.indexCols ≤ t.schema.length := by
    obtain ⟨r1, e1, ⟨f1, m1, g1⟩, -⟩ := hv (nv a (i64 x)) (by simp)
    obtain ⟨r2, e2, ⟨f2, m2, g2⟩, -⟩ := hv (nv b (i64 y)) (by simp)
    rw [h.idx]
    refine length_two m1 m2 fun e => hab ?_
    rw [e] at g1
    exact String.ofList_injective (e1.trans (g1.symm.trans (g2.trans e2.symm)))
  exact insert_succeeds hg hlen (validate_fits hk h hv) (by rw [h.idx]; simp) (pk := [.int64 (BitVec.ofNat 64 x), .int64 (BitVec.ofNat 64 y)])
    (by rw [h.idx]; rfl)

theorem HasCol.addColumn {sys : Str → Str} {w : World} {t n : Str} {r : Property} (h : HasCol sys (w.tbl n) r) (col : Str) (dt : ColType) (nullable : Bool) :
    HasCol sys ((addColumn t col dt nullable w).tbl n) r := by
  unfold Ingest.addColumn Tbl.addField
  split
  · exact h
  · rename_i t' e
    split at e
    · cases e
    · cases e
      dsimp only
      split
      · rename_i hn
        obtain ⟨f, h1, h2⟩ := h
        rw [hn] at h1
        exact ⟨f, by simp [h1], h2⟩
      · exact h

theorem addColumn_has {sys : Str → Str} {w : World} (t : Str) {r : Property} (dt : ColType) (nullable : Bool) :
    HasCol sys ((addColumn t (r.columnName sys) dt nullable w).tbl t) r := by
  unfold Ingest.addColumn
  split
  · rename_i e
    unfold Tbl.addField at e
    split at e
    · rename_i h
      obtain ⟨f, h1, h2⟩ := List.any_eq_true.mp h
      exact ⟨f, h1, eq_of_beq h2⟩
    · cases e
  · rename_i t' e
    unfold Tbl.addField at e
    split at e
    · cases e
    · cases e
      simp only [if_true]
      exact ⟨⟨String.ofList (r.columnName sys), dt, nullable⟩, by simp, rfl⟩

theorem addColumn_tab {sys : Str → Str} {w : World} (h : ∀ t, TabInv sys (w.tbl t)) {t : Str} {r : Property} {dt : ColType} (hr : rule r = some dt) (nullable : Bool) (n : Str) :
    TabInv sys ((addColumn t (r.columnName sys) dt nullable w).tbl n) := by
  unfold Ingest.addColumn
  split
  · exact h n
  · rename_i t' e
    dsimp only
    split
    · obtain ⟨rs, hg⟩ := (h t).good
      obtain ⟨g1, g2, -, g4⟩ := addField_good hg e
      refine ⟨g4.trans (h t).idx, ⟨_, g1⟩, fun f hf => ?_⟩
      rw [g2] at hf
      rcases List.mem_append.mp hf with hf | hf
      · exact (h t).fields f hf
      · simp only [List.mem_singleton] at hf
        subst hf
        exact ⟨r, hr, rfl⟩
    · exact h n

theorem addColumn_kv (t col : Str) (dt : ColType) (nullable : Bool) (w : World) : (addColumn t col dt nullable w).kv = w.kv := by
  unfold Ingest.addColumn; split <;> rfl

theorem addColumns_kv (sys : Str → Str) (r : Property) (w : World) : (addColumns sys r w).kv = w.kv := by
  unfold addColumns
  split
  · rfl
  · dsimp only
    split
    · exact addColumn_kv ..
    · rw [addColumn_kv, addColumn_kv]

theorem addColumns_tab {sys : Str → Str} {w : World} (h : ∀ t, TabInv sys (w.tbl t)) {r : Property} (hr : Ruled r) (n : Str) :
    TabInv sys ((addColumns sys r w).tbl n) := by
  unfold addColumns
  split
  · exact h n
  · rename_i dt e
    have e' : rule r = some dt := by rw [← hr.col]; exact e
    dsimp only
    split
    · exact addColumn_tab h e' _ n
    · exact addColumn_tab (fun t => addColumn_tab h e' _ t) e' _ n

theorem addColumns_old {sys : Str → Str} {w : World} {n : Str} {r x : Property} (h : HasCol sys (w.tbl n) x) : HasCol sys ((addColumns sys r w).tbl n) x := by
  unfold addColumns
  split
  · exact h
  · dsimp only
    split
    · exact h.addColumn ..
    · exact (h.addColumn ..).addColumn ..

theorem addColumns_new {sys : Str → Str} {w : World} {r : Property} (hr : Ruled r) :
    HasCol sys ((addColumns sys r w).tbl kEvents) r ∧ ∀ g, r.typ = .group g → HasCol sys ((addColumns sys r w).tbl (groupCol g)) r := by
  unfold addColumns
  split
  · rename_i e
    have := hr.some
    rw [← hr.col, e] at this
    cases this
  · rename_i dt e
    dsimp only
    split
    · rename_i he
      exact ⟨addColumn_has .., fun g hg => by rw [he] at hg; cases hg⟩
    · rename_i g' he
      refine ⟨(addColumn_has ..).addColumn .., fun g hg => ?_⟩
      rw [he] at hg
      cases hg
      exact addColumn_has ..

/-! ## Worlds -/

/-- What holds of a world after `n` metadata requests. -/
structure WInv (S : Meta.Env Q) (T : Str → Bool) (n : Nat) (w : World) : Prop where
  kv : KInv S T n w.kv
  tabs : ∀ t, TabInv S.sys (w.tbl t)
  cols : ∀ p ty id r, (propsC p ty).live w.kv id = some r → HasCol S.sys (w.tbl kEvents) r ∧ ∀ g, ty = .group g → HasCol S.sys (w.tbl (groupCol g)) r

/-- The world before the first request. -/
def World.fresh : World := ⟨[], fun _ => Tbl.create 2, []⟩

theorem WInv.start : WInv S T 0 World.fresh where
  kv := .start
  tabs := fun _ => .create _
  cols := fun p ty id r h => by simp [World.fresh, Coll.live, getK, Kv.get] at h

theorem WInv.mono {n m : Nat} {w : World} (h : WInv S T n w) (hm : n ≤ m) : WInv S T m w := ⟨h.kv.mono hm, h.tabs, h.cols⟩

theorem HasCol.same {sys : Str → Str} {t : Tbl} {r r' : Property} (h : HasCol sys t r) (hs : SameProp r r') : HasCol sys t r' := by
  obtain ⟨f, h1, h2⟩ := h
  exact ⟨f, h1, by rw [hs.column]; exact h2⟩

theorem WInv.benign {n : Nat} {w : World} (h : WInv S T n w) (hn : n + 1 < 2 ^ 62) {r : Req Q} (hr : r.Ok) (hb : Benign T w.kv r) :
    WInv S T (n + 1) { w with kv := r.exec S w.kv } ∧ Ext w.kv (r.exec S w.kv) := by
  obtain ⟨h1, h2⟩ := h.kv.benign hn hr hb
  refine ⟨⟨h1, h.tabs, fun p ty id x hx => ?_⟩, h2⟩
  rcases benign_live h.kv (by omega) hr hb p ty id with ⟨-, e⟩ | ⟨a, b, e1, e2, e3⟩
  · rw [e] at hx; cases hx
  · rw [e2] at hx
    cases hx
    obtain ⟨g1, g2⟩ := h.cols p ty id a e1
    exact ⟨g1.same e3, fun g hg => (g2 g hg).same e3⟩

/-- Leaves properties, events, names of groups and the projects. -/
def Near (kv kv' : Kv) : Prop := Ext kv kv' ∧ AgreeOn (.top .projects) kv kv'

theorem Near.refl (kv : Kv) : Near kv kv := ⟨.refl kv, (Same.refl _ _).agree⟩

theorem Near.trans {a b c : Kv} (h : Near a b) (h' : Near b c) : Near a c := ⟨h.1.trans h'.1, AgreeOn.trans h.2 h'.2⟩

/-- A call keeps the invariant with at most `B` requests; if `ok` it succeeds; if it succeeds, `P` holds. -/
structure Goes (S : Meta.Env Q) (T : Str → Bool) (n : Nat) (w : World) (B : Nat) (ok : Prop) {α : Type} (x : M α) (P : α → World → Prop) : Prop where
  inv : WInv S T (n + B) (x w).2
  near : Near w.kv (x w).2.kv
  good : ok → ∃ a, (x w).1 = .ok a
  post : ∀ a, (x w).1 = .ok a → P a (x w).2

section goes
variable {α β : Type} {n B C : Nat} {w : World} {ok : Prop}

theorem Goes.mono {x : M α} {P P' : α → World → Prop} (h : Goes S T n w B ok x P) (hB : B ≤ C)
    (hP : ∀ a w', WInv S T (n + B) w' → Near w.kv w'.kv → P a w' → P' a w') : Goes S T n w C ok x P' :=
  ⟨h.inv.mono (by omega), h.near, h.good, fun a ha => hP a _ h.inv h.near (h.post a ha)⟩

theorem Goes.pure (h : WInv S T n w) {a : α} {P : α → World → Prop} (hP : P a w) : Goes S T n w 0 ok (M.pure a) P :=
  ⟨h, .refl _, fun _ => ⟨a, rfl⟩, fun b hb => by cases hb; exact hP⟩

theorem Goes.bind {x : M α} {f : α → M β} {P : α → World → Prop} {R : β → World → Prop} (h : Goes S T n w B ok x P)
    (h2 : ∀ a w', WInv S T (n + B) w' → Near w.kv w'.kv → P a w' → Goes S T (n + B) w' C ok (f a) R) : Goes S T n w (B + C) ok (x.bind f) R := by
  have hx : ∃ r w', x w = (r, w') := ⟨_, _, rfl⟩
  obtain ⟨r, w', e⟩ := hx
  obtain ⟨i, nr, gd, po⟩ := h
  rw [e] at i nr gd po
  cases r with
  | error er =>
    have eb : (x.bind f) w = (.error er, w') := by unfold M.bind; rw [e]
    refine ⟨?_, ?_, fun hok => ?_, fun b hb => ?_⟩
    · rw [eb]; exact i.mono (by omega)
    · rw [eb]; exact nr
    · obtain ⟨a, ha⟩ := gd hok; cases ha
    · rw [eb] at hb; cases hb
  | ok a =>
    have eb : (x.bind f) w = f a w' := by unfold M.bind; rw [e]
    have g := h2 a w' i nr (po a rfl)
    obtain ⟨i', nr', gd', po'⟩ := g
    refine ⟨?_, ?_, fun hok => ?_, fun b hb => ?_⟩
    · rw [eb]; exact i'.mono (by omega)
    · rw [eb]; exact nr.trans nr'
    · rw [eb]; exact gd' hok
    · rw [eb] at hb ⊢; exact po' b hb

theorem Goes.each {f : α → M β} {J : World → Prop} {R : α → β → Kv → Prop} {K : Nat} (hR : ∀ a b kv kv', R a b kv → Near kv kv' → R a b kv') (l : List α)
    (hn : n + l.length * B ≤ K)
    (h : ∀ a ∈ l, ∀ m w', m + B ≤ K → WInv S T m w' → Near w.kv w'.kv → J w' → Goes S T m w' B ok (f a) (fun b w'' => J w'' ∧ R a b w''.kv))
    (hw : WInv S T n w) (hJ : J w) :
    Goes S T n w (l.length * B) ok (each f l) (fun bs w' => J w' ∧ (∀ b ∈ bs, ∃ a ∈ l, R a b w'.kv) ∧ bs.length = l.length) := by
  induction l generalizing n w with
  | nil =>
    rw [List.length_nil, Nat.zero_mul]
    exact Goes.pure hw ⟨hJ, fun _ h => absurd h (by simp), rfl⟩
  | cons a l ih =>
    have hlen : (a :: l).length * B = B + l.length * B := by rw [List.length_cons, Nat.succ_mul]; omega
    rw [hlen] at hn ⊢
    unfold Ingest.each
    refine Goes.bind (h a (by simp) n w (by omega) hw (.refl _) hJ) fun b w1 hw1 hnr hp => ?_
    rw [← Nat.add_zero (l.length * B)]
    refine Goes.bind (ih (n := n + B) (w := w1) (by omega) (fun a' ha' m w' hm hw' hnr' hJ' => h a' (by simp [ha']) m w' hm hw' (hnr.trans hnr') hJ') hw1 hp.1)
      fun bs w2 hw2 hnr2 hp2 => ?_
    refine Goes.pure hw2 ⟨hp2.1, fun b' hb' => ?_, by rw [List.length_cons, List.length_cons, hp2.2.2]⟩
    · rcases List.mem_cons.mp hb' with rfl | hb'
      · exact ⟨a, by simp, hR _ _ _ _ hp.2 hnr2⟩
      · obtain ⟨a', ha', hr⟩ := hp2.2.1 b' hb'
        exact ⟨a', by simp [ha'], hr⟩

theorem Goes.raw {f : Kv → Except Err α × Kv} {P : α → World → Prop} (hw : WInv S T n w) (hn : n + 1 < 2 ^ 62) (r : Req Q) (hx : r.exec S w.kv = (f w.kv).2)
    (hr : r.Ok) (hb : Benign T w.kv r) (hp : Mod.coll (.top .projects) ∉ r.mods) (hg : ok → ∃ a, (f w.kv).1 = .ok a)
    (hP : ∀ a, (f w.kv).1 = .ok a → (∀ m, m ∉ r.mods → Same m w.kv (f w.kv).2) → P a { w with kv := (f w.kv).2 }) : Goes S T n w 1 ok (callRaw f) P := by
  obtain ⟨h1, h2⟩ := hw.benign hn hr hb
  have h3 := exec_agree S hr hp w.kv
  rw [hx] at h1 h2 h3
  have e : callRaw f w = (match (f w.kv).1 with | .ok a => .ok a | .error e => .error (.metadata e), { w with kv := (f w.kv).2 }) := by
    unfold callRaw
    split
    · rename_i e; simp [e]
    · rename_i e; simp [e]
  refine ⟨by rw [e]; exact h1, by rw [e]; exact ⟨h2, h3⟩, fun hok => ?_, fun a ha => ?_⟩
  · obtain ⟨a, ha⟩ := hg hok
    exact ⟨a, by rw [e, ha]⟩
  · rw [e] at ha ⊢
    refine hP a ?_ fun m hm => by rw [← hx]; exact exec_same S hr hm w.kv
    cases h : (f w.kv).1 with
    | error e => rw [h] at ha; cases ha
    | ok b => rw [h] at ha; cases ha; rfl

theorem Goes.call {c : Call α} {P : α → World → Prop} (hw : WInv S T n w) (hn : n + 1 < 2 ^ 62) (r : Req Q) (hx : r.exec S w.kv = (runCall c w.kv).2)
    (hr : r.Ok) (hb : Benign T w.kv r) (hp : Mod.coll (.top .projects) ∉ r.mods) (hg : ok → ∃ a kv', c w.kv = .ok (a, kv'))
    (hP : ∀ a kv', c w.kv = .ok (a, kv') → (∀ m, m ∉ r.mods → Same m w.kv kv') → P a { w with kv := kv' }) : Goes S T n w 1 ok (call c) P := by
  refine Goes.raw hw hn r hx hr hb hp (fun hok => ?_) fun a ha hs => ?_
  · obtain ⟨a, kv', e⟩ := hg hok
    exact ⟨a, by rw [runCall, e]⟩
  · unfold runCall at ha hs ⊢
    split at ha
    · rename_i e
      cases ha
      rw [e] at hs
      exact hP _ _ e hs
    · cases ha

theorem Goes.read {f : Kv → Except Err α} {P : α → World → Prop} (hw : WInv S T n w) (hg : ok → ∃ a, f w.kv = .ok a) (hP : ∀ a, f w.kv = .ok a → P a w) :
    Goes S T n w 0 ok (read f) P := by
  have e : Ingest.read f w = (match f w.kv with | .ok a => .ok a | .error e => .error (.metadata e), w) := by
    unfold Ingest.read callRaw
    dsimp only
    cases h : f w.kv <;> rfl
  refine ⟨by rw [e]; exact hw, by rw [e]; exact .refl _, fun hok => ?_, fun a ha => ?_⟩
  · obtain ⟨a, ha⟩ := hg hok; exact ⟨a, by rw [e, ha]⟩
  · rw [e] at ha ⊢
    refine hP a ?_
    cases h : f w.kv with
    | error e => rw [h] at ha; cases ha
    | ok b => rw [h] at ha; cases ha; rfl

theorem Goes.except {x : Except Fail α} {P : α → World → Prop} (hw : WInv S T n w) (hg : ok → ∃ a, x = .ok a) (hP : ∀ a, x = .ok a → P a w) :
    Goes S T n w 0 ok (ofExcept x) P := ⟨hw, .refl _, hg, hP⟩

theorem Goes.fail {e : Fail} {P : α → World → Prop} (hw : WInv S T n w) (hok : ¬ ok) : Goes S T n w 0 ok (fail (α := α) e) P :=
  ⟨hw, .refl _, fun h => absurd h hok, fun a ha => by cases ha⟩

theorem Goes.insert (hk : KeepsSys S.sys) (hw : WInv S T n w) {t : Str} {a b : Str} {x y : Nat} {vs : List NamedValue} (hab : a ≠ b)
    (hg : ok → ∀ v ∈ nv a (i64 x) :: nv b (i64 y) :: vs, CellFits S.sys (w.tbl t) v) :
    Goes S T n w 0 ok (insertRow t (nv a (i64 x) :: nv b (i64 y) :: vs)) (fun _ w' => w'.kv = w.kv) := by
  have hx : ∀ o, (w.tbl t).insert (nv a (i64 x) :: nv b (i64 y) :: vs) = o → Goes S T n w 0 ok (insertRow t (nv a (i64 x) :: nv b (i64 y) :: vs)) (fun _ w' => w'.kv = w.kv) := by
    intro o e
    cases o with
    | error er =>
      have ei : insertRow t (nv a (i64 x) :: nv b (i64 y) :: vs) w = (.error (.store er), w) := by unfold insertRow; rw [e]
      refine ⟨by rw [ei]; exact hw, by rw [ei]; exact .refl _, fun hok => ?_, fun u hu => by rw [ei] at hu; cases hu⟩
      obtain ⟨t', ht⟩ := (hw.tabs t).accepts hk hab (hg hok)
      rw [ht] at e; cases e
    | ok t' =>
      have ei : insertRow t (nv a (i64 x) :: nv b (i64 y) :: vs) w =
          (.ok (), { w with tbl := fun n => if n = t then t' else w.tbl n, rows := w.rows ++ [(t, nv a (i64 x) :: nv b (i64 y) :: vs)] }) := by
        unfold insertRow; rw [e]
      obtain ⟨g1, g2⟩ := (hw.tabs t).insert (by simp) e
      have hcol : ∀ n r, HasCol S.sys (w.tbl n) r → HasCol S.sys (if n = t then t' else w.tbl n) r := by
        intro n r hr
        split
        · rename_i hn
          obtain ⟨f, h1, h2⟩ := hr
          exact ⟨f, by rw [g2, ← hn]; exact h1, h2⟩
        · exact hr
      refine ⟨?_, by rw [ei]; exact .refl _, fun _ => ⟨(), by rw [ei]⟩, fun u _ => by rw [ei]⟩
      rw [ei]
      refine ⟨hw.kv, fun n => ?_, fun p ty id r hl => ?_⟩
      · dsimp only
        split
        · exact g1
        · exact hw.tabs n
      · obtain ⟨c1, c2⟩ := hw.cols p ty id r hl
        exact ⟨hcol _ _ c1, fun g hg => hcol _ _ (c2 g hg)⟩
  exact hx _ rfl

end goes

end OptiPrism.Ingest
