import Verif.Ingest.Calls

/-!
# What creating a project leaves
-/

namespace OptiPrism.Ingest

open OptiPrism.Meta
open OptiPrism.Storage (Bytes Value NamedValue Tbl InsertErr ColType Field Row KeyValue typeOk fromLE)

variable {Q : Type} {S : Meta.Env Q} {T : Str → Bool} {n : Nat} {w : World} {ok : Prop}

/-- Spec: a property with the attributes of a setup request. -/
structure Made (x : SetupProp) (r : Property) : Prop where
  name : r.name = x.name
  display : r.displayName = x.display
  typ : r.typ = x.typ
  dt : r.dataType = x.dt
  nullable : r.nullable = x.nullable
  hidden : r.hidden = x.hidden
  system : r.isSystem = x.system
  dict : r.dictType = x.dict
  isDict : r.isDictionary = x.dict.isSome
  array : r.isArray = false
  status : r.status = .enabled

/-- How many of the requests are of a data type. -/
def ordCount (dt : DType) (l : List SetupProp) : Nat := l.countP fun y => y.dt == dt

/-- The properties of the project are exactly those requested so far, numbered in order by data type. -/
structure Exact (p : Nat) (done : List SetupProp) (kv : Kv) : Prop where
  made : ∀ i x, done[i]? = some x → ∃ id r, (propsC p x.typ).live kv id = some r ∧ Made x r ∧ r.order = ordCount x.dt (done.take i)
  only : ∀ ty id r, (propsC p ty).live kv id = some r → ∃ x ∈ done, x.typ = ty ∧ Made x r
  next : ∀ dt sh, dt.shortName = some sh → nextOrder p sh kv = ordCount dt done

/-- What is needed for the next request to succeed. -/
def sides (done : List SetupProp) (x : SetupProp) : Bool :=
  x.dt.shortName.isSome && x.dt.num.isSome &&
  (done.all fun y => decide (y.typ = x.typ → y.name ≠ x.name ∧ (x.display = none ∨ y.display ≠ x.display))) &&
  (let r := propMk 0 ⟨0, 0⟩ x.req (ordCount x.dt done) 0
   (rule r).isSome && decide (colType r = rule r ∧ r.isDictionary = r.dictType.isSome ∧ (r.isDictionary = true → r.dataType = .string))) &&
  (match x.typ with | .event => true | .group g => decide (g < 5))

def sidesAll (done : List SetupProp) : List SetupProp → Bool
  | [] => true
  | x :: l => sides done x && sidesAll (done ++ [x]) l

theorem made_mk (p : Nat) (now : Time) (x : SetupProp) (o id : Nat) : Made x (propMk p now x.req o id).norm := ⟨rfl, rfl, rfl, rfl, rfl, rfl, rfl, rfl, rfl, rfl, rfl⟩

/-- The modules in which setup writes properties. -/
def PropMod (p : Nat) (m : Mod) : Prop := (∃ ty : PropType, m = .coll (.proj p ty.coll)) ∨ m = .order p ∨ m = .coll (.proj p .global)

theorem setupProp_goes (hw : WInv S T n w) (hn : n + 1 < 2 ^ 62) {p : Nat} (hp : p ≤ lastId w.kv (.top .projects)) (hp64 : p < 2 ^ 64) (now : Time) {done : List SetupProp}
    {x : SetupProp} (hs : sides done x = true) (hx : Exact p done w.kv) :
    Goes S T n w 1 ok (setupProp S.sys now p x) (fun _ w' => Exact p (done ++ [x]) w'.kv ∧ ∀ m, ¬ PropMod p m → Same m w.kv w'.kv) := by
  simp only [sides, Bool.and_eq_true, List.all_eq_true, decide_eq_true_eq] at hs
  obtain ⟨⟨⟨⟨h1, h2⟩, h3⟩, h4, h5, h6, h7⟩, h8⟩ := hs
  obtain ⟨sh, hsh⟩ := Option.isSome_iff_exists.mp h1
  have hord := hx.next x.dt sh hsh
  rw [setupProp_make]
  refine (makeProp_goes (ok := ok) hw hn hp (ty := x.typ) (now := now) (req := x.req) ⟨hp64, show 0 < 2 ^ 64 by decide, fun g hg => ?_⟩ rfl (sh := sh) hsh h2 (fun d hd id r hr => ?_)
    fun id => ?_).mono (Nat.le_refl _) fun a w' _ _ hP => ?_
  · have hg : x.typ = .group g := hg
    rw [hg] at h8
    have := of_decide_eq_true h8
    omega
  · obtain ⟨y, hy, ht, hm⟩ := hx.only _ id r hr
    have hd : x.display = some d := hd
    rcases (h3 y hy ht).2 with e | e
    · rw [e] at hd; cases hd
    · rw [hm.display, ← hd]; exact e
  · rw [hord]
    exact (⟨rfl, rfl, rfl, rfl, rfl, rfl, rfl⟩ : SameProp (propMk 0 ⟨0, 0⟩ x.req (ordCount x.dt done) 0) (propMk p now x.req (ordCount x.dt done) id)).ruled ⟨h4, h5, h6, h7⟩
  · rcases hP with ⟨-, id, hl, hname⟩ | ⟨id, hN⟩
    · obtain ⟨y, hy, ht, hm⟩ := hx.only _ id a hl
      exact absurd (hm.name.symm.trans hname) (h3 y hy ht).1
    · refine ⟨⟨fun i y hi => ?_, fun ty j r hr => ?_, fun dt sh' hsh' => ?_⟩, fun m hm => hN.rest m ?_⟩
      · by_cases hlt : i < done.length
        · rw [List.getElem?_append_left hlt] at hi
          obtain ⟨j, r, g1, g2, g3⟩ := hx.made i y hi
          refine ⟨j, r, ?_, g2, ?_⟩
          · rw [hN.live, if_neg]
            · exact g1
            · rintro ⟨e1, e2⟩
              rw [e1, e2, hN.unused] at g1; cases g1
          · rw [g3, List.take_append_of_le_length (by omega)]
        · rw [List.getElem?_append_right (by omega)] at hi
          have h0 : i = done.length := by
            rcases Nat.lt_or_ge 0 (i - done.length) with h | h
            · rw [List.getElem?_eq_none (by simp; omega)] at hi; cases hi
            · omega
          subst h0
          rw [Nat.sub_self] at hi
          cases hi
          refine ⟨id, a.norm, by rw [hN.live, if_pos ⟨rfl, rfl⟩], by rw [hN.eq]; exact made_mk .., ?_⟩
          rw [hN.eq, List.take_left']
          · exact hord
          · rfl
      · rw [hN.live] at hr
        split at hr
        · rename_i e
          cases hr
          exact ⟨x, by simp, e.1.symm, by rw [hN.eq]; exact made_mk ..⟩
        · obtain ⟨y, hy, ht, hm⟩ := hx.only _ j r hr
          exact ⟨y, by simp [hy], ht, hm⟩
      · rw [hN.next sh' (shortName_ok hsh')]
        unfold ordCount
        rw [List.countP_append, List.countP_singleton]
        by_cases e : dt = x.dt
        · subst e
          rw [hsh] at hsh'
          cases hsh'
          rw [if_pos rfl, hord]
          simp [ordCount]
        · rw [if_neg, hx.next dt sh' hsh']
          · have : ¬ x.dt = dt := fun h => e h.symm
            simp [ordCount, this]
          · rintro rfl; exact e (shortName_inj hsh' hsh)
      · simp only [List.mem_cons, List.not_mem_nil, or_false, not_or]
        exact ⟨fun e => hm (.inl ⟨_, e⟩), fun e => hm (.inr (.inl e)), fun e => hm (.inr (.inr e))⟩

theorem setupProps_goes (hw : WInv S T n w) {p : Nat} (hp : p ≤ lastId w.kv (.top .projects)) (hp64 : p < 2 ^ 64) (now : Time) {done : List SetupProp}
    (l : List SetupProp) (hn : n + l.length < 2 ^ 62) (hs : sidesAll done l = true) (hx : Exact p done w.kv) :
    Goes S T n w l.length ok (each (setupProp S.sys now p) l) (fun _ w' => Exact p (done ++ l) w'.kv ∧ ∀ m, ¬ PropMod p m → Same m w.kv w'.kv) := by
  induction l generalizing n w done with
  | nil =>
    have h : Goes S T n w 0 ok (M.pure ([] : List Property)) (fun _ w' => Exact p (done ++ []) w'.kv ∧ ∀ m, ¬ PropMod p m → Same m w.kv w'.kv) :=
      Goes.pure hw ⟨by simpa using hx, fun m _ => .refl _ _⟩
    exact h
  | cons x l ih =>
    rw [sidesAll, Bool.and_eq_true] at hs
    rw [List.length_cons] at hn
    refine (Goes.bind (setupProp_goes hw (by omega) hp hp64 now hs.1 hx) (C := l.length + 0)
      (R := fun _ w' => Exact p (done ++ x :: l) w'.kv ∧ ∀ m, ¬ PropMod p m → Same m w.kv w'.kv) fun a w1 hw1 hn1 ⟨hx1, hs1⟩ => ?_).mono (by simp; omega) fun _ _ _ _ h => h
    refine Goes.bind (ih hw1 (Nat.le_trans hp hn1.1.projects) (by omega) hs.2 hx1) fun bs w2 hw2 hn2 ⟨hx2, hs2⟩ => Goes.pure hw2 ⟨?_, fun m hm => (hs1 m hm).trans (hs2 m hm)⟩
    rw [List.append_assoc] at hx2
    exact hx2

end OptiPrism.Ingest
