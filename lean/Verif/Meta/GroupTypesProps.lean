import Verif.Meta.GroupsProps

/-!
# C89 and C90: kinds of groups, and the values of a group

`Known p kv name g`: the project's kind of groups `name` is `g`, whatever display name is asked for.
-/

namespace OptiPrism.Meta

open OptiPrism.Storage (Bytes fromLE)

variable {Q : Type}

def Known (p : Nat) (kv : Kv) (name : Str) (g : Group) : Prop := ∀ d, getOrCreateGroup p name d kv = .ok (g, kv)

/-- How many kinds of groups the sequence has given out. -/
def gnCount (p : Nat) (kv : Kv) : Nat :=
  match getK kv (.groupNamesSeq p) with
  | none => 0
  | some v => fromLE v + 1

/-- The stored entries: one for each number below the count, at most five. -/
structure GnInv (p : Nat) (kv : Kv) : Prop where
  seq : ∀ b, getK kv (.groupNamesSeq p) = some b → b.length = 8
  le : gnCount p kv ≤ 5
  ent : ∀ n b, getK kv (.groupName p n) = some b → ∃ g : Group, b = g.enc ∧ g.name = n ∧ g.id < gnCount p kv
  inj : ∀ n n' b b' g g', getK kv (.groupName p n) = some b → getK kv (.groupName p n') = some b' →
    Group.dec b = some g → Group.dec b' = some g' → g.id = g'.id → n = n'
  all : ∀ i, i < gnCount p kv → ∃ n g, getK kv (.groupName p n) = some (Group.enc g) ∧ g.id = i ∧ g.name = n

theorem GnInv.empty (p : Nat) : GnInv p [] := by
  refine ⟨?_, ?_, ?_, ?_, ?_⟩ <;> simp [getK, Kv.get, gnCount]

theorem GnInv.same {p : Nat} {kv kv' : Kv} (h : GnInv p kv) (hs : Same (.grpNames p) kv kv') : GnInv p kv' := by
  have h1 : getK kv' (.groupNamesSeq p) = getK kv (.groupNamesSeq p) := hs _ trivial rfl
  have h2 : ∀ n, getK kv' (.groupName p n) = getK kv (.groupName p n) := fun n => hs _ trivial rfl
  have h3 : gnCount p kv' = gnCount p kv := by unfold gnCount; rw [h1]
  refine ⟨?_, ?_, ?_, ?_, ?_⟩
  · rw [h1]; exact h.seq
  · rw [h3]; exact h.le
  · intro n b; rw [h2, h3]; exact h.ent n b
  · intro n n' b b' g g'; rw [h2, h2]; exact h.inj n n' b b' g g'
  · intro i; rw [h3]; intro hi; obtain ⟨n, g, x⟩ := h.all i hi; exact ⟨n, g, by rw [h2]; exact x⟩

theorem GnInv.dec {p : Nat} {kv : Kv} (h : GnInv p kv) {n : Str} {b : Bytes} (hb : getK kv (.groupName p n) = some b) :
    ∃ g : Group, Group.dec b = some g ∧ b = g.enc ∧ g.name = n ∧ g.id < gnCount p kv := by
  obtain ⟨g, rfl, h1, h2⟩ := h.ent n b hb
  have := h.le
  exact ⟨g, Group.dec_enc g ⟨by show g.id < 2 ^ 64; omega⟩, rfl, h1, h2⟩

theorem known_iff {p : Nat} {kv : Kv} (h : GnInv p kv) (n : Str) (g : Group) :
    Known p kv n g ↔ ∃ b, getK kv (.groupName p n) = some b ∧ Group.dec b = some g := by
  unfold Known getOrCreateGroup
  cases hv : getK kv (.groupName p n) with
  | some b =>
    obtain ⟨g', hd, -⟩ := h.dec hv
    simp only [hd, Option.some.injEq, Except.ok.injEq, Prod.mk.injEq, and_true]
    constructor
    · intro e; exact ⟨b, rfl, by rw [hd, e []]⟩
    · rintro ⟨b', rfl, h2⟩ d; rw [hd] at h2; exact Option.some.inj h2
  | none =>
    simp only [reduceCtorEq, false_and, exists_false, iff_false]
    intro hall
    have := hall []
    cases hs : nextZeroSeq (.groupNamesSeq p) kv with
    | error e => rw [hs] at this; cases this
    | ok x =>
      obtain ⟨i, kv1⟩ := x
      rw [hs] at this
      dsimp only at this
      split at this
      · cases this
      · simp only [Except.ok.injEq, Prod.mk.injEq] at this
        have h2 := congrArg (fun k => getK k (.groupName p n)) this.2
        simp only [getK_putK _ (k := .groupName p n) trivial (k' := .groupName p n) trivial, if_true, hv] at h2
        cases h2

theorem gnNext {p : Nat} {kv : Kv} (h : GnInv p kv) :
    nextZeroSeq (.groupNamesSeq p) kv = .ok (gnCount p kv, putK kv (.groupNamesSeq p) (le64 (gnCount p kv))) := by
  have hle := h.le
  unfold nextZeroSeq gnCount at *
  cases hv : getK kv (.groupNamesSeq p) with
  | none => rfl
  | some v =>
    rw [hv] at hle
    dsimp only at hle ⊢
    simp only [readU64, h.seq v hv, if_true]
    rw [Nat.mod_eq_of_lt (by omega)]

/-- What the call does with a new name. -/
theorem gn_new {p : Nat} {kv : Kv} (h : GnInv p kv) {n : Str} (hn : getK kv (.groupName p n) = none) (d : Str) :
    (gnCount p kv = 5 ∧ getOrCreateGroup p n d kv = .error .badRequest) ∨
    (gnCount p kv < 5 ∧ ∃ kv', getOrCreateGroup p n d kv = .ok (⟨gnCount p kv, n, d⟩, kv') ∧ GnInv p kv' ∧
      gnCount p kv' = gnCount p kv + 1 ∧ getK kv' (.groupName p n) = some (Group.enc ⟨gnCount p kv, n, d⟩) ∧
      ∀ n', n' ≠ n → getK kv' (.groupName p n') = getK kv (.groupName p n')) := by
  have hle := h.le
  unfold getOrCreateGroup
  rw [hn, gnNext h]
  dsimp only
  by_cases h5 : 5 ≤ gnCount p kv
  · rw [if_pos h5]; exact .inl ⟨by omega, rfl⟩
  rw [if_neg h5]
  refine .inr ⟨by omega, _, rfl, ?_⟩
  generalize hc : gnCount p kv = c at *
  generalize hkv : putK (putK kv (.groupNamesSeq p) (le64 c)) (.groupName p n) (Group.enc ⟨c, n, d⟩) = kv'
  have g1 : getK kv' (.groupNamesSeq p) = some (le64 c) := by
    rw [← hkv, getK_putK _ (k := .groupName p n) trivial (k' := .groupNamesSeq p) trivial, getK_putK _ (k := .groupNamesSeq p) trivial (k' := .groupNamesSeq p) trivial]
    simp
  have g2 : ∀ x, getK kv' (.groupName p x) = if x = n then some (Group.enc ⟨c, n, d⟩) else getK kv (.groupName p x) := by
    intro x
    rw [← hkv, getK_putK _ (k := .groupName p n) trivial (k' := .groupName p x) trivial, getK_putK _ (k := .groupNamesSeq p) trivial (k' := .groupName p x) trivial]
    simp
  have hcount : gnCount p kv' = c + 1 := by
    unfold gnCount; rw [g1]; dsimp only; rw [fromLE_le64 (by omega)]
  have hdec : Group.dec (Group.enc ⟨c, n, d⟩) = some ⟨c, n, d⟩ := Group.dec_enc _ ⟨by show c < 2 ^ 64; omega⟩
  have hb : ∀ x b g, getK kv (.groupName p x) = some b → Group.dec b = some g → g.id < c := by
    intro x b g hx hg
    obtain ⟨g', e, -, -, h2⟩ := h.dec hx
    rw [e] at hg; cases hg; rw [hc] at h2; exact h2
  refine ⟨⟨?_, by omega, ?_, ?_, ?_⟩, hcount, by rw [g2, if_pos rfl], fun n' hne => by rw [g2, if_neg hne]⟩
  · intro b; rw [g1]; rintro ⟨⟩; exact le64_length _
  · intro x b; rw [g2, hcount]
    by_cases hx : x = n
    · rw [if_pos hx]; rintro ⟨⟩; exact ⟨_, rfl, hx.symm, by show c < c + 1; omega⟩
    · rw [if_neg hx]; intro e; obtain ⟨g, h1, h2, h3⟩ := h.ent x b e; rw [hc] at h3; exact ⟨g, h1, h2, by omega⟩
  · intro x y b b' g g'; rw [g2, g2]
    by_cases hx : x = n
    · by_cases hy : y = n
      · intros; rw [hx, hy]
      · rw [if_pos hx, if_neg hy]; rintro ⟨⟩ hb' hg hg' e
        rw [hdec] at hg; cases hg
        have := hb y b' g' hb' hg'
        dsimp only at e; omega
    · by_cases hy : y = n
      · rw [if_neg hx, if_pos hy]; rintro hb' ⟨⟩ hg hg' e
        rw [hdec] at hg'; cases hg'
        have := hb x b g hb' hg
        dsimp only at e; omega
      · rw [if_neg hx, if_neg hy]; exact h.inj x y b b' g g'
  · intro i; rw [hcount]; intro hi
    by_cases hic : i = c
    · exact ⟨n, ⟨c, n, d⟩, by rw [g2, if_pos rfl], hic.symm, rfl⟩
    · obtain ⟨m, g, h1, h2, h3⟩ := h.all i (by rw [hc]; omega)
      refine ⟨m, g, ?_, h2, h3⟩
      rw [g2, if_neg]; · exact h1
      rintro rfl; rw [hn] at h1; cases h1

def GnKept (p : Nat) (kv kv' : Kv) : Prop := ∀ n b, getK kv (.groupName p n) = some b → getK kv' (.groupName p n) = some b

theorem exec_gn (E : Env Q) {r : Req Q} (hr : r.Ok) {p : Nat} {kv : Kv} (h : GnInv p kv) :
    GnInv p (r.exec E kv) ∧ GnKept p kv (r.exec E kv) := by
  by_cases hm : Mod.grpNames p ∈ r.mods
  · cases r <;> simp [Req.mods] at hm
    case groupName p' n d =>
      subst hm
      show GnInv _ (runCall (getOrCreateGroup p n d) kv).2 ∧ GnKept _ kv (runCall (getOrCreateGroup p n d) kv).2
      unfold runCall
      cases hv : getK kv (.groupName p n) with
      | none =>
        rcases gn_new h hv d with ⟨-, e⟩ | ⟨-, kv', e, h1, -, -, h4⟩
        · rw [e]; exact ⟨h, fun _ _ x => x⟩
        · rw [e]
          refine ⟨h1, fun x b hx => ?_⟩
          dsimp only
          rw [h4]
          · exact hx
          · rintro rfl; rw [hv] at hx; cases hx
      | some b =>
        obtain ⟨g, hd, -⟩ := h.dec hv
        rw [(known_iff h n g).mpr ⟨b, hv, hd⟩ d]
        exact ⟨h, fun _ _ x => x⟩
  · have hs := exec_same E hr hm kv
    exact ⟨h.same hs, fun n b hb => by rw [show getK (r.exec E kv) (.groupName p n) = _ from hs (.groupName p n) trivial rfl]; exact hb⟩

theorem Runs.gn {E : Env Q} {P : Req Q → Prop} {p n : Nat} {kv kv' : Kv} (h : Runs E P kv n kv') (hi : GnInv p kv) :
    GnInv p kv' ∧ GnKept p kv kv' := by
  induction h with
  | refl => exact ⟨hi, fun _ _ x => x⟩
  | step r _ hr _ ih =>
    obtain ⟨h1, h2⟩ := ih
    obtain ⟨h3, h4⟩ := exec_gn E hr h1
    exact ⟨h3, fun x b hx => h4 x b (h2 x b hx)⟩

/-- C89, permanence: in every history, the kind of groups a name was answered with is what the name means
after any further requests. Its number is below five. -/
theorem C89_permanent {E : Env Q} {n m p : Nat} {kv kv1 kv' : Kv} (h : Runs E (fun _ => True) [] n kv) {name d : Str} {g : Group}
    (hg : getOrCreateGroup p name d kv = .ok (g, kv1)) (h' : Runs E (fun _ => True) kv1 m kv') :
    Known p kv' name g ∧ g.name = name ∧ g.id < 5 := by
  obtain ⟨hi, -⟩ := h.gn (GnInv.empty p)
  have hle := hi.le
  cases hv : getK kv (.groupName p name) with
  | some b =>
    obtain ⟨g', hd, he, hn, hid⟩ := hi.dec hv
    rw [(known_iff hi name g').mpr ⟨b, hv, hd⟩ d] at hg
    cases hg
    obtain ⟨h3, h4⟩ := h'.gn hi
    exact ⟨(known_iff h3 name g).mpr ⟨b, h4 _ _ hv, hd⟩, hn, by omega⟩
  | none =>
    rcases gn_new hi hv d with ⟨-, e⟩ | ⟨hc, kv2, e, h1, h2, h3, -⟩
    · rw [e] at hg; cases hg
    · rw [e] at hg; cases hg
      obtain ⟨h5, h6⟩ := h'.gn h1
      exact ⟨(known_iff h5 _ _).mpr ⟨_, h6 _ _ h3, Group.dec_enc _ ⟨by show gnCount p kv < 2 ^ 64; omega⟩⟩, rfl, hc⟩

/-- C89, injectivity: two names of a project never share a number. -/
theorem C89_injective {E : Env Q} {n p : Nat} {kv : Kv} (h : Runs E (fun _ => True) [] n kv) {name name' : Str} {g g' : Group}
    (hg : Known p kv name g) (hg' : Known p kv name' g') (he : g.id = g'.id) : name = name' := by
  obtain ⟨hi, -⟩ := h.gn (GnInv.empty p)
  obtain ⟨b, h1, h2⟩ := (known_iff hi name g).mp hg
  obtain ⟨b', h3, h4⟩ := (known_iff hi name' g').mp hg'
  exact hi.inj _ _ _ _ _ _ h1 h3 h2 h4 he

/-- C89, limit: an unknown name is refused exactly if the numbers 0 to 4 all have names; otherwise it gets a
number no name has. A refusal changes nothing. -/
theorem C89_limit {E : Env Q} {n p : Nat} {kv : Kv} (h : Runs E (fun _ => True) [] n kv) {name : Str} (d : Str)
    (hn : ∀ g, ¬ Known p kv name g) :
    ((∀ i, i < 5 → ∃ x g, Known p kv x g ∧ g.id = i) ∧ runCall (getOrCreateGroup p name d) kv = (.error .badRequest, kv)) ∨
    (∃ g kv', getOrCreateGroup p name d kv = .ok (g, kv') ∧ g.displayName = d ∧ ∀ x g', Known p kv x g' → g'.id ≠ g.id) := by
  obtain ⟨hi, -⟩ := h.gn (GnInv.empty p)
  have hle := hi.le
  have hv : getK kv (.groupName p name) = none := by
    cases hv : getK kv (.groupName p name) with
    | none => rfl
    | some b =>
      obtain ⟨g, hd, -⟩ := hi.dec hv
      exact absurd ((known_iff hi name g).mpr ⟨b, hv, hd⟩) (hn g)
  rcases gn_new hi hv d with ⟨hc, e⟩ | ⟨hc, kv', e, -⟩
  · refine .inl ⟨fun i hlt => ?_, by unfold runCall; rw [e]⟩
    obtain ⟨x, g, h1, h2, h3⟩ := hi.all i (by omega)
    exact ⟨x, g, (known_iff hi x g).mpr ⟨_, h1, Group.dec_enc g ⟨by show g.id < 2 ^ 64; omega⟩⟩, h2⟩
  · refine .inr ⟨_, kv', e, rfl, fun x g' hx => ?_⟩
    obtain ⟨b, h1, h2⟩ := (known_iff hi x g').mp hx
    obtain ⟨g2, h3, -, -, h4⟩ := hi.dec h1
    rw [h3] at h2; cases h2
    show g'.id ≠ gnCount p kv
    omega

/-- Six names: the first five get 0 to 4, the sixth is refused, and the first is still 0. -/
example : let kv := runReqs exEnv [.groupName 1 ['a'] ['A'], .groupName 1 ['b'] [], .groupName 2 ['z'] [], .groupName 1 ['c'] [],
      .groupName 1 ['d'] [], .groupName 1 ['e'] [], .groupName 1 ['f'] []] []
    ((getOrCreateGroup 1 ['a'] [] kv).toOption.map (·.1)) = some ⟨0, ['a'], ['A']⟩ ∧
      ((getOrCreateGroup 1 ['e'] [] kv).toOption.map (·.1.id)) = some 4 ∧
      ((getOrCreateGroup 2 ['y'] [] kv).toOption.map (·.1.id)) = some 1 ∧
      (match getOrCreateGroup 1 ['f'] [] kv with | .error e => some e | .ok _ => none) = some .badRequest := by
  decide +kernel

example : Runs exEnv (fun _ => True) [] 2 (runReqs exEnv [.groupName 1 ['a'] ['A'], .groupName 1 ['b'] []] []) :=
  .step (.groupName 1 ['b'] []) (.step (.groupName 1 ['a'] ['A']) .refl trivial trivial) trivial trivial

/-! ## C90 -/

/-- The value of a property in a list of values: of the first entry with its id. -/
def valueOf (l : List PropVal) (i : Nat) : Option GValue := (l.find? fun v => v.propertyId == i).map PropVal.value

theorem valueOf_cons (v : PropVal) (l : List PropVal) (i : Nat) :
    valueOf (v :: l) i = if v.propertyId = i then some v.value else valueOf l i := by
  unfold valueOf
  by_cases h : v.propertyId = i <;> simp [h]

theorem valueOf_append (a b : List PropVal) (i : Nat) : valueOf (a ++ b) i = (valueOf a i).or (valueOf b i) := by
  induction a with
  | nil => rfl
  | cons v a ih => rw [List.cons_append, valueOf_cons, valueOf_cons, ih]; split <;> rfl

theorem valueOf_none {l : List PropVal} {i : Nat} : valueOf l i = none ↔ ∀ v ∈ l, v.propertyId ≠ i := by
  unfold valueOf
  simp

/-- Setting the entry found for the id, in a list whose ids agree with those of the list searched. -/
theorem valueOf_set {a vals : List PropVal} (hp : vals.map PropVal.propertyId = a.map PropVal.propertyId) (b : List PropVal) {v : PropVal} {k : Nat}
    (hk : a.findIdx? (fun x => x.propertyId == v.propertyId) = some k) (i : Nat) :
    valueOf ((vals ++ b).set k v) i = (if v.propertyId = i then some v.value else valueOf (vals ++ b) i) ∧
    ((vals ++ b).set k v).map PropVal.propertyId = (vals ++ b).map PropVal.propertyId ∧ (vals ++ b).set k v = vals.set k v ++ b := by
  induction a generalizing vals k with
  | nil => simp at hk
  | cons x a ih =>
    cases vals with
    | nil => simp at hp
    | cons y vals =>
      simp only [List.map_cons, List.cons.injEq] at hp
      rw [List.findIdx?_cons] at hk
      by_cases hx : x.propertyId = v.propertyId
      · simp only [hx, beq_self_eq_true, if_true, Option.some.injEq] at hk
        subst hk
        refine ⟨?_, by simp [hp.1, hx], rfl⟩
        simp only [List.cons_append, List.set_cons_zero, valueOf_cons, hp.1, hx]
        split <;> rfl
      · simp only [beq_eq_false_iff_ne.mpr hx, Bool.false_eq_true, if_false, Option.map_eq_some_iff] at hk
        obtain ⟨k', hk, rfl⟩ := hk
        obtain ⟨h1, h2, h3⟩ := ih hp.2 hk
        refine ⟨?_, by simp only [List.cons_append, List.set_cons_succ, List.map_cons, h2],
          by simp only [List.cons_append, List.set_cons_succ, h3]⟩
        simp only [List.cons_append, List.set_cons_succ, valueOf_cons, h1]
        have : y.propertyId ≠ v.propertyId := by rw [hp.1]; exact hx
        split
        · rename_i e; rw [if_neg (by rw [← e]; exact Ne.symm this)]
        · rfl

theorem mergeValues_go (stored : List PropVal) (new : List PropVal) (hnew : (new.map PropVal.propertyId).Nodup) (a b : List PropVal)
    (ha : a.map PropVal.propertyId = stored.map PropVal.propertyId) (hb : ∀ v ∈ b, ∀ w ∈ new, v.propertyId ≠ w.propertyId)
    (hab : ∀ v ∈ b, valueOf stored v.propertyId = none) (i : Nat) :
    valueOf (new.foldl (fun vals v => match stored.findIdx? (fun x => x.propertyId == v.propertyId) with
      | some i => vals.set i v
      | none => vals ++ [v]) (a ++ b)) i = (valueOf new i).or (valueOf (a ++ b) i) := by
  induction new generalizing a b with
  | nil => rfl
  | cons v new ih =>
    simp only [List.map_cons, List.nodup_cons] at hnew
    rw [List.foldl_cons, valueOf_cons]
    have hnone : ∀ j, v.propertyId = j → valueOf new j = none := fun j e => valueOf_none.mpr fun w hw h' =>
      hnew.1 (List.mem_map.mpr ⟨w, hw, by rw [h', e]⟩)
    cases hk : stored.findIdx? (fun x => x.propertyId == v.propertyId) with
    | some k =>
      obtain ⟨h1, h2, h3⟩ := valueOf_set ha b hk i
      dsimp only
      have := ih hnew.2 (a.set k v) b (by
        have := (valueOf_set ha [] hk i).2.1
        rw [List.append_nil] at this; rw [this]; exact ha) (fun x hx w hw => hb x hx w (by simp [hw])) hab
      rw [← h3] at this
      rw [this, h1]
      by_cases e : v.propertyId = i
      · simp [if_pos e, hnone i e]
      · simp [if_neg e]
    | none =>
      dsimp only
      have := ih hnew.2 a (b ++ [v]) ha (fun x hx w hw => by
        rcases List.mem_append.mp hx with hx | hx
        · exact hb x hx w (by simp [hw])
        · rw [List.mem_singleton.mp hx]; exact fun e => hnew.1 (List.mem_map.mpr ⟨w, hw, e.symm⟩)) (fun x hx => by
        rcases List.mem_append.mp hx with hx | hx
        · exact hab x hx
        · rw [List.mem_singleton.mp hx]
          refine valueOf_none.mpr fun w hw e => ?_
          have := List.findIdx?_eq_none_iff.mp hk w hw
          simp [e] at this)
      rw [List.append_assoc, this, ← List.append_assoc, valueOf_append (a ++ b) [v]]
      have hv : valueOf [v] i = if v.propertyId = i then some v.value else none := by rw [valueOf_cons]; rfl
      rw [hv]
      by_cases e : v.propertyId = i
      · rw [if_pos e, if_pos e, hnone i e]
        have h0 : valueOf (a ++ b) i = none := by
          refine valueOf_none.mpr fun w hw e' => ?_
          rcases List.mem_append.mp hw with hw | hw
          · have : w.propertyId ∈ stored.map PropVal.propertyId := by rw [← ha]; exact List.mem_map.mpr ⟨w, hw, rfl⟩
            obtain ⟨x, hx, e2⟩ := List.mem_map.mp this
            have := List.findIdx?_eq_none_iff.mp hk x hx
            simp [e2, e', e] at this
          · exact hb w hw v (by simp) (by rw [e', e])
        rw [h0]; rfl
      · rw [if_neg e, if_neg e, Option.or_none]

theorem mergeValues_valueOf (stored new : List PropVal) (hnew : (new.map PropVal.propertyId).Nodup) (i : Nat) :
    valueOf (mergeValues stored new) i = (valueOf new i).or (valueOf stored i) := by
  have := mergeValues_go stored new hnew stored [] rfl (by simp) (by simp) i
  rw [List.append_nil] at this
  exact this

/-- The values a group has: what `get_or_create` answers, if the group exists. -/
def HasValues (p g : Nat) (kv : Kv) (s : Str) (vs : List PropVal) : Prop :=
  ∀ d, ∃ r, groupGetOrCreate p g s d kv = .ok (r, kv) ∧ r.values = vs

theorem hasValues_iff {p g : Nat} {kv : Kv} (h : GShape p g kv) (s : Str) (vs : List PropVal) :
    HasValues p g kv s vs ↔ ∃ b r, getK kv (.real p g s) = some b ∧ GroupValues.dec b = some r ∧ r.values = vs := by
  unfold HasValues groupGetOrCreate
  cases hv : getK kv (.real p g s) with
  | some b =>
    obtain ⟨r, hr, -⟩ := h.2 s b hv
    simp only [gvRead, hr, Except.ok.injEq, Prod.mk.injEq, and_true, Option.some.injEq]
    constructor
    · intro h; obtain ⟨r', rfl, h2⟩ := h []; exact ⟨b, r, rfl, hr, h2⟩
    · rintro ⟨b', r', rfl, h1, h2⟩ d; rw [hr] at h1; cases h1; exact ⟨r, rfl, h2⟩
  | none =>
    simp only [reduceCtorEq, false_and, exists_false, iff_false]
    intro hall
    obtain ⟨r, h1, -⟩ := hall []
    cases hs : nextSeq (.groupSeq p g) kv with
    | error e => rw [hs] at h1; cases h1
    | ok x =>
      obtain ⟨i, kv1⟩ := x
      rw [hs] at h1
      dsimp only at h1
      split at h1
      · cases h1
      · simp only [Except.ok.injEq, Prod.mk.injEq] at h1
        have h2 := congrArg (fun k => getK k (.real p g s)) h1.2
        simp only [getK_putK _ (k := .real p g s) trivial (k' := .real p g s) trivial, if_true, hv] at h2
        cases h2

/-- C90: an update with values for different properties. Afterwards each property mentioned has its new value,
every other property of the group keeps its value, and what the group has is what the call answered. -/
theorem C90_update {E : Env Q} {n : Nat} {kv kv1 : Kv} (h : Hist E n kv) {p g : Nat} {s : Str} {vs : List PropVal} {r : GroupValues}
    (hvs : ∀ v ∈ vs, v.propertyId < 2 ^ 64) (hnd : (vs.map PropVal.propertyId).Nodup)
    (hr : groupCreateOrUpdate p g s vs kv = .ok (r, kv1)) :
    HasValues p g kv1 s r.values ∧
    (∀ old, HasValues p g kv s old → ∀ i, valueOf r.values i = (valueOf vs i).or (valueOf old i)) ∧
    ((∀ old, ¬ HasValues p g kv s old) → r.values = vs) ∧
    ∀ s' old, s' ≠ s → (HasValues p g kv1 s' old ↔ HasValues p g kv s' old) := by
  have hs := h.gshape p g
  have hs1 := (groupUpdate_step hvs hs hr).1.shape hs
  unfold groupCreateOrUpdate at hr
  cases hv : getK kv (.real p g s) with
  | some b =>
    obtain ⟨r0, hr0, hid, hok⟩ := hs.2 s b hv
    simp only [hv, gvRead, hr0] at hr
    have hold : HasValues p g kv s r0.values := (hasValues_iff hs s _).mpr ⟨b, r0, hv, hr0, rfl⟩
    split at hr
    · cases hr
    · rename_i b' hb'
      cases hr
      have hvok : ∀ v ∈ mergeValues r0.values vs, v.propertyId < 2 ^ 64 := mergeValues_ok hok hvs
      have hdec := GroupValues.dec_enc _ _ hb' hid hvok
      refine ⟨(hasValues_iff hs1 s _).mpr ⟨b', _, ?_, hdec, rfl⟩, ?_, fun hno => absurd hold (hno _), ?_⟩
      · rw [getK_putK _ (k := .real p g s) trivial (k' := .real p g s) trivial, if_pos rfl]
      · intro old ho i
        obtain ⟨b2, r2, e1, e2, e3⟩ := (hasValues_iff hs s old).mp ho
        rw [hv] at e1; cases e1; rw [hr0] at e2; cases e2
        rw [← e3]; exact mergeValues_valueOf _ _ hnd i
      · intro s' old hne
        rw [hasValues_iff hs1, hasValues_iff hs, getK_putK _ (k := .real p g s) trivial (k' := .real p g s') trivial, if_neg (by simp [hne])]
  | none =>
    simp only [hv] at hr
    split at hr
    · cases hr
    · rename_i id kv2 hseq
      obtain ⟨rfl, hid⟩ := nextSeq_out hseq
      split at hr
      · cases hr
      · rename_i b' hb'
        cases hr
        have hdec := GroupValues.dec_enc _ _ hb' hid hvs
        refine ⟨(hasValues_iff hs1 s _).mpr ⟨b', _, ?_, hdec, rfl⟩, ?_, fun _ => rfl, ?_⟩
        · rw [getK_putK _ (k := .real p g s) trivial (k' := .real p g s) trivial, if_pos rfl]
        · intro old ho i
          obtain ⟨b2, r2, e1, -⟩ := (hasValues_iff hs s old).mp ho
          rw [hv] at e1; cases e1
        · intro s' old hne
          rw [hasValues_iff hs1, hasValues_iff hs, getK_putK _ (k := .real p g s) trivial (k' := .real p g s') trivial, if_neg (by simp [hne]),
            getK_putK _ (k := .groupSeq p g) trivial (k' := .real p g s') trivial, if_neg (by simp)]

/-- Why the properties must be different: a property mentioned twice that the group did not have is stored
twice, the older value first. -/
theorem C90_repeated_violated :
    valueOf (mergeValues [] [⟨7, .bool (some true)⟩, ⟨7, .bool (some false)⟩]) 7 = some (.bool (some true)) := by decide +kernel

/-- A concrete case: the second update changes one property, adds one and keeps one. -/
example : let kv := runReqs exEnv [.groupUpdate 1 0 exA [⟨1, .bool (some true)⟩, ⟨2, .bool (some true)⟩]] []
    ((groupCreateOrUpdate 1 0 exA [⟨3, .bool (some false)⟩, ⟨2, .bool (some false)⟩] kv).toOption.map (·.1.values)) =
      some [⟨1, .bool (some true)⟩, ⟨2, .bool (some false)⟩, ⟨3, .bool (some false)⟩] := by decide +kernel

end OptiPrism.Meta
