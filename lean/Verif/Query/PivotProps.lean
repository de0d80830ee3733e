import Verif.Query.TableProps

/-! Property C63: the pivot of a result. -/

namespace OptiPrism.Query

variable {α β : Type} [DecidableEq α]

/-- Specification: the groups in order of their first row. -/
def firstKeys (rows : List (PRow α β)) : List (List (Option α)) :=
  rows.foldl (fun acc r => if r.groups ∈ acc then acc else acc ++ [r.groups]) []

/-- Specification: the value of the last row of a group under a name. -/
def lastVal (rows : List (PRow α β)) (k : List (Option α)) (c : Name) : Option β :=
  ((rows.filter fun r => decide (r.groups = k ∧ r.name = c)).getLast?).bind (·.value)

theorem firstKeys_snoc (rows : List (PRow α β)) (r : PRow α β) : firstKeys (rows ++ [r]) =
    if r.groups ∈ firstKeys rows then firstKeys rows else firstKeys rows ++ [r.groups] := by
  unfold firstKeys
  rw [List.foldl_append]
  rfl

theorem foldl_grow (rows : List (PRow α β)) : ∀ acc : List (List (Option α)), acc.length ≤
    (rows.foldl (fun acc r => if r.groups ∈ acc then acc else acc ++ [r.groups]) acc).length := by
  induction rows with
  | nil => intro acc; exact Nat.le_refl _
  | cons r rows ih =>
    intro acc
    rw [List.foldl_cons]
    refine Nat.le_trans ?_ (ih _)
    split
    · exact Nat.le_refl _
    · simp

theorem firstKeys_mono (a b : List (PRow α β)) :
    (firstKeys a).length ≤ (firstKeys (a ++ b)).length := by
  unfold firstKeys
  rw [List.foldl_append]
  exact foldl_grow b _

theorem lastVal_snoc (rows : List (PRow α β)) (r : PRow α β) (k : List (Option α)) (c : Name) :
    lastVal (rows ++ [r]) k c = if r.groups = k ∧ r.name = c then r.value else lastVal rows k c := by
  unfold lastVal
  rw [List.filter_append]
  by_cases h : r.groups = k ∧ r.name = c
  · rw [if_pos h, List.filter_cons_of_pos (by simpa using h)]
    simp
  · rw [if_neg h, List.filter_cons_of_neg (by simpa using h)]
    simp

theorem hashIdx_some {h : Nat} : ∀ {gs : List (Nat × List (Option α))} {i : Nat},
    hashIdx h gs = some i → ∃ g, gs[i]? = some g ∧ g.1 = h
  | [], i, e => by cases e
  | g :: gs, i, e => by
    unfold hashIdx at e
    split at e
    next hg => cases e; exact ⟨g, rfl, hg⟩
    next =>
      cases hj : hashIdx h gs with
      | none => rw [hj] at e; cases e
      | some j =>
        rw [hj] at e
        cases e
        obtain ⟨g', h1, h2⟩ := hashIdx_some hj
        exact ⟨g', by simpa using h1, h2⟩

theorem hashIdx_none {h : Nat} : ∀ {gs : List (Nat × List (Option α))},
    hashIdx h gs = none → ∀ g ∈ gs, g.1 ≠ h
  | [], _, g, hg => by cases hg
  | g :: gs, e, x, hx => by
    unfold hashIdx at e
    split at e
    next => cases e
    next hg =>
      rcases List.mem_cons.mp hx with rfl | hx
      · exact hg
      · exact hashIdx_none (Option.map_eq_none_iff.mp e) x hx

/-- The state after the rows `R`. -/
structure PInv (B : Nat) (h : List (Option α) → Nat) (cols : List Name) (R : List (PRow α β))
    (st : PivotState α β) : Prop where
  keys : st.groups.map Prod.snd = firstKeys R
  hash : ∀ g ∈ st.groups, g.1 = h g.2
  nodup : (firstKeys R).Nodup
  mem : ∀ k, k ∈ firstKeys R ↔ ∃ r ∈ R, r.groups = k
  dom : ∀ c, c ∈ cols → ∃ buf, st.bufs c = some buf ∧ B ≤ buf.length ∧ ∀ i : Nat,
    (buf[i]?).getD none = ((firstKeys R)[i]?).bind fun k => lastVal R k c

theorem PInv.init (B : Nat) (h : List (Option α) → Nat) (cols : List Name) :
    PInv B h cols ([] : List (PRow α β)) (pivotInit B cols) := by
  refine ⟨rfl, (by intro g hg; cases hg), List.nodup_nil, by intro k; simp [firstKeys], ?_⟩
  intro c hc
  refine ⟨List.replicate B none, ?_, by simp, ?_⟩
  · unfold pivotInit; dsimp only; rw [if_pos hc]
  · intro i
    rw [List.getElem?_replicate]
    simp only [firstKeys, List.foldl_nil, List.getElem?_nil, Option.bind_none]
    split <;> rfl

theorem lastVal_absent {R : List (PRow α β)} {k : List (Option α)} (h : ∀ r ∈ R, r.groups ≠ k)
    (c : Name) : lastVal R k c = none := by
  unfold lastVal
  rw [List.filter_eq_nil_iff.mpr]
  · rfl
  · intro r hr
    simpa using fun e => absurd e (h r hr)

theorem PInv.step {B : Nat} {h : List (Option α) → Nat} {cols : List Name} {R : List (PRow α β)}
    {st : PivotState α β} (inv : PInv B h cols R st) (hB : 1 ≤ B) (r : PRow α β)
    (hinj : ∀ x ∈ R, h x.groups = h r.groups → x.groups = r.groups)
    (hlen : (firstKeys (R ++ [r])).length ≤ 2 * B) (hname : r.name ∈ cols) :
    ∃ st', pivotRow B h st r = .ok st' ∧ PInv B h cols (R ++ [r]) st' := by
  obtain ⟨buf, hb1, hb2, hb3⟩ := inv.dom r.name hname
  -- the index of the group
  have key : ∃ gs i, groupIdx h st.groups r.groups = (gs, i) ∧
      gs.map Prod.snd = firstKeys (R ++ [r]) ∧ (∀ g ∈ gs, g.1 = h g.2) ∧
      (firstKeys (R ++ [r]))[i]? = some r.groups ∧
      (∀ (j : Nat) c, ((firstKeys R)[j]?).bind (fun k => lastVal R k c) =
        ((firstKeys (R ++ [r]))[j]?).bind fun k => lastVal R k c) ∧
      (firstKeys (R ++ [r])).Nodup := by
    unfold groupIdx
    cases hi : hashIdx (h r.groups) st.groups with
    | some i =>
      obtain ⟨g, h1, h2⟩ := hashIdx_some hi
      have hgm : g ∈ st.groups := List.mem_of_getElem? h1
      have hk : (firstKeys R)[i]? = some g.2 := by rw [← inv.keys, List.getElem?_map, h1]; rfl
      obtain ⟨x, hx, hxg⟩ := (inv.mem g.2).mp (List.mem_of_getElem? hk)
      have hgr : g.2 = r.groups := by
        rw [← hxg]
        refine hinj x hx ?_
        rw [hxg, ← inv.hash g hgm, h2]
      have he : firstKeys (R ++ [r]) = firstKeys R := by
        rw [firstKeys_snoc, if_pos]
        rw [← hgr]; exact List.mem_of_getElem? hk
      refine ⟨st.groups, i, rfl, ?_, inv.hash, ?_, ?_, ?_⟩
      · rw [he]; exact inv.keys
      · rw [he, hk, hgr]
      · intro j c; rw [he]
      · rw [he]; exact inv.nodup
    | none =>
      have hnew : r.groups ∉ firstKeys R := by
        intro hm
        rw [← inv.keys] at hm
        obtain ⟨g, hg, hgr⟩ := List.mem_map.mp hm
        apply hashIdx_none hi g hg
        rw [inv.hash g hg, hgr]
      have he : firstKeys (R ++ [r]) = firstKeys R ++ [r.groups] := by
        rw [firstKeys_snoc, if_neg hnew]
      have hlen' : st.groups.length = (firstKeys R).length := by rw [← inv.keys, List.length_map]
      refine ⟨_, _, rfl, ?_, ?_, ?_, ?_, ?_⟩
      · rw [he, List.map_append, inv.keys]; rfl
      · intro g hg
        rcases List.mem_append.mp hg with hg | hg
        · exact inv.hash g hg
        · rw [List.mem_singleton] at hg; rw [hg]
      · rw [he, hlen', List.getElem?_append_right (Nat.le_refl _), Nat.sub_self]; rfl
      · intro j c
        rw [he]
        by_cases hj : j < (firstKeys R).length
        · rw [List.getElem?_append_left hj]
        · rw [List.getElem?_append_right (by omega), List.getElem?_eq_none (by omega)]
          by_cases h0 : j - (firstKeys R).length = 0
          · rw [h0]
            show none = lastVal R r.groups c
            rw [lastVal_absent]
            intro x hx e
            exact hnew ((inv.mem _).mpr ⟨x, hx, e⟩)
          · rw [List.getElem?_eq_none (by simp; omega)]
      · rw [he, List.nodup_append]
        refine ⟨inv.nodup, by simp, ?_⟩
        intro a ha b hb e
        rw [List.mem_singleton] at hb
        rw [e, hb] at ha
        exact hnew ha
  obtain ⟨gs, i, k0, k1, k2, k3, k4, k5⟩ := key
  have hi2 : i < 2 * B := by
    have := (List.getElem?_eq_some_iff.mp k3).1
    omega
  -- the buffer
  have hbuf : ∃ buf' : List (Option β),
      (if buf.length - 1 < i then buf ++ List.replicate B none else buf) = buf' ∧
      B ≤ buf'.length ∧ i < buf'.length ∧ ∀ j : Nat, (buf'[j]?).getD none = (buf[j]?).getD none := by
    by_cases hc : buf.length - 1 < i
    · refine ⟨_, if_pos hc, by simp, by simp; omega, ?_⟩
      intro j
      by_cases hj : j < buf.length
      · rw [List.getElem?_append_left hj]
      · rw [List.getElem?_append_right (by omega), List.getElem?_replicate,
          List.getElem?_eq_none (l := buf) (by omega)]
        split <;> rfl
    · exact ⟨_, if_neg hc, hb2, by omega, fun _ => rfl⟩
  obtain ⟨buf', b0, b1, b2, b3⟩ := hbuf
  refine ⟨⟨gs, fun c => if c = r.name then some (buf'.set i r.value) else st.bufs c⟩, ?_, ?_⟩
  · unfold pivotRow
    rw [k0, hb1]
    dsimp only
    rw [b0, if_pos b2]
  · refine ⟨k1, k2, k5, ?_, ?_⟩
    · intro k
      rw [firstKeys_snoc]
      constructor
      · intro hk
        have : k ∈ firstKeys R ∨ k = r.groups := by
          split at hk
          · exact .inl hk
          · simpa using hk
        rcases this with hk | rfl
        · obtain ⟨x, hx, e⟩ := (inv.mem k).mp hk
          exact ⟨x, by simp [hx], e⟩
        · exact ⟨r, by simp, rfl⟩
      · rintro ⟨x, hx, e⟩
        rcases List.mem_append.mp hx with hx | hx
        · have := (inv.mem k).mpr ⟨x, hx, e⟩
          split
          · exact this
          · simp [this]
        · rw [List.mem_singleton] at hx
          rw [← e, hx]
          split
          next hm => exact hm
          next => simp
    · intro c hc
      dsimp only
      by_cases hcn : c = r.name
      · subst hcn
        refine ⟨buf'.set i r.value, if_pos rfl, by simpa using b1, ?_⟩
        intro j
        by_cases hj : i = j
        · subst hj
          rw [List.getElem?_set_self b2, k3]
          show r.value = lastVal (R ++ [r]) r.groups r.name
          rw [lastVal_snoc, if_pos ⟨rfl, rfl⟩]
        · rw [List.getElem?_set_ne hj, b3, hb3, k4]
          cases hk : (firstKeys (R ++ [r]))[j]? with
          | none => rfl
          | some k =>
            show lastVal R k r.name = lastVal (R ++ [r]) k r.name
            rw [lastVal_snoc, if_neg]
            rintro ⟨e, -⟩
            apply hj
            rw [← e] at hk
            obtain ⟨l1, e1⟩ := List.getElem?_eq_some_iff.mp k3
            obtain ⟨l2, e2⟩ := List.getElem?_eq_some_iff.mp hk
            exact (List.getElem_inj k5).mp (e1.trans e2.symm)
      · obtain ⟨bc, c1, c2, c3⟩ := inv.dom c hc
        refine ⟨bc, by rw [if_neg hcn]; exact c1, c2, ?_⟩
        intro j
        rw [c3, k4]
        cases (firstKeys (R ++ [r]))[j]? with
        | none => rfl
        | some k =>
          show lastVal R k c = lastVal (R ++ [r]) k c
          rw [lastVal_snoc, if_neg]
          rintro ⟨-, e⟩
          exact hcn e.symm

theorem PInv.run {B : Nat} {h : List (Option α) → Nat} {cols : List Name} (hB : 1 ≤ B) :
    ∀ (rest : List (PRow α β)) (R : List (PRow α β)) (st : PivotState α β), PInv B h cols R st →
    (∀ x ∈ R ++ rest, ∀ y ∈ R ++ rest, h x.groups = h y.groups → x.groups = y.groups) →
    (firstKeys (R ++ rest)).length ≤ 2 * B → (∀ r ∈ rest, r.name ∈ cols) →
    ∃ st', pivotRows B h st rest = .ok st' ∧ PInv B h cols (R ++ rest) st'
  | [], R, st, inv, _, _, _ => ⟨st, rfl, by rw [List.append_nil]; exact inv⟩
  | r :: rest, R, st, inv, hinj, hlen, hname => by
    have e : R ++ r :: rest = R ++ [r] ++ rest := by simp
    obtain ⟨st1, s1, s2⟩ := inv.step hB r
      (fun x hx hh => hinj x (by simp [hx]) r (by simp) hh)
      (Nat.le_trans (firstKeys_mono _ rest) (by rw [← e]; exact hlen)) (hname r (by simp))
    obtain ⟨st2, t1, t2⟩ := PInv.run hB rest (R ++ [r]) st1 s2 (by rw [← e]; exact hinj)
      (by rw [← e]; exact hlen) (fun x hx => hname x (List.mem_cons_of_mem _ hx))
    refine ⟨st2, ?_, by rw [e]; exact t2⟩
    unfold pivotRows
    rw [s1]
    exact t1

theorem map_zipIdx_get {γ δ ε : Type} (l : List γ) (p : γ → δ) (f : δ → Nat → ε) (g : δ → ε)
    (n : Nat) (h : ∀ i d, (l.map p)[i]? = some d → f d (n + i) = g d) :
    (l.zipIdx n).map (fun x => f (p x.1) x.2) = (l.map p).map g := by
  induction l generalizing n with
  | nil => rfl
  | cons a l ih =>
    rw [List.zipIdx_cons, List.map_cons, List.map_cons, List.map_cons]
    congr 1
    · exact h 0 (p a) rfl
    · refine ih (n + 1) ?_
      intro i d hd
      rw [show n + 1 + i = n + (i + 1) by omega]
      exact h (i + 1) d (by simpa using hd)

/-- C63 (partial): with a hash that tells the groups apart, at most `2 * B` groups (2048 in the code)
and known names the pivot has one row per group, in order of their first rows, holding for every
column the value of the last row of that group and name, NULL if there is none. -/
theorem C63_partial (B : Nat) (hB : 1 ≤ B) (h : List (Option α) → Nat) (cols : List Name)
    (rows : List (PRow α β))
    (hinj : ∀ x ∈ rows, ∀ y ∈ rows, h x.groups = h y.groups → x.groups = y.groups)
    (hlen : (firstKeys rows).length ≤ 2 * B) (hname : ∀ r ∈ rows, r.name ∈ cols) :
    pivot B h cols rows = .ok ((firstKeys rows).map fun k => (k, cols.map (lastVal rows k))) := by
  obtain ⟨st, h1, h2⟩ := PInv.run hB rows [] (pivotInit B cols) (PInv.init B h cols)
    (by simpa using hinj) (by simpa using hlen) hname
  rw [List.nil_append] at h2
  unfold pivot
  rw [h1]
  dsimp only
  congr 1
  unfold pivotFinish
  rw [← h2.keys]
  have hl : st.groups.length = (firstKeys rows).length := by rw [← h2.keys, List.length_map]
  refine map_zipIdx_get st.groups Prod.snd (fun k i => (k, cols.map fun c =>
    ((padTo st.groups.length ((st.bufs c).getD []))[i]?).getD none)) _ 0 ?_
  intro i k hk
  rw [Nat.zero_add]
  congr 1
  refine List.map_congr_left ?_
  intro c hc
  obtain ⟨buf, b1, b2, b3⟩ := h2.dom c hc
  rw [h2.keys] at hk
  have hi : i < st.groups.length := by
    rw [hl]; exact (List.getElem?_eq_some_iff.mp hk).1
  have := b3 i
  rw [hk] at this
  rw [b1]
  show ((padTo st.groups.length buf)[i]?).getD none = lastVal rows k c
  rw [show lastVal rows k c = (some k).bind fun k => lastVal rows k c from rfl, ← this]
  unfold padTo
  by_cases hib : i < buf.length
  · rw [List.getElem?_append_left (by simp; omega), List.getElem?_take_of_lt hi]
  · rw [List.getElem?_append_right (by simp; omega), List.getElem?_replicate,
      List.getElem?_eq_none (l := buf) (by omega)]
    split <;> rfl

example : pivot 1 (fun g : List (Option Nat) => g.length) ["x".toList, "y".toList]
    [⟨[some 1], "x".toList, some 10⟩, ⟨[], "y".toList, some 20⟩, ⟨[some 1], "y".toList, some 30⟩] =
    .ok [([some 1], [some 10, some 30]), ([], [none, some (20 : Nat)])] := rfl

/-- The rows that make the pivot panic: `n` groups under the name `y`, then the last of them under
the name `x`. -/
def manyGroups (n : Nat) : List (PRow Nat Nat) :=
  (List.range n).map (fun i => ⟨[some i], "y".toList, some 1⟩) ++
    [⟨[some (n - 1)], "x".toList, some 1⟩]

/-- A hash of these groups without collisions. -/
def idHash : List (Option Nat) → Nat
  | [some n] => n
  | _ => 0

theorem hashIdx_range (n m : Nat) (h : n ≤ m) :
    hashIdx m ((List.range n).map fun i => (i, [some i])) = none ∧
    (m < n + 1 → hashIdx m ((List.range (n + 1)).map fun i => (i, [some i])) = some n) := by
  have gen : ∀ (l : List Nat), (∀ x ∈ l, x < m) → ∀ tl : List (Nat × List (Option Nat)),
      hashIdx m (l.map (fun i => (i, [some i])) ++ tl) = (hashIdx m tl).map (· + l.length) := by
    intro l
    induction l with
    | nil =>
      intro _ tl
      rw [List.map_nil, List.nil_append]
      cases hashIdx m tl <;> rfl
    | cons a l ih =>
      intro hl tl
      rw [List.map_cons, List.cons_append]
      rw [hashIdx, if_neg (by have := hl a (by simp); dsimp only; omega), ih (fun x hx => hl x (by simp [hx]))]
      cases hashIdx m tl <;> simp [Nat.add_assoc]
  have hb : ∀ x ∈ List.range n, x < m := fun x hx => by have := List.mem_range.mp hx; omega
  constructor
  · have := gen (List.range n) hb []
    rw [List.append_nil] at this
    rw [this]; rfl
  · intro hm
    rw [List.range_succ, List.map_append, gen _ hb]
    have : m = n := by omega
    subst this
    simp [hashIdx]

theorem pivotRows_many (B : Nat) (hB : 1 ≤ B) : ∀ n, ∃ st : PivotState Nat Nat,
    (∀ rest, pivotRows B idHash (pivotInit B ["x".toList, "y".toList])
      ((List.range n).map (fun i => ⟨[some i], "y".toList, some 1⟩) ++ rest) =
      pivotRows B idHash st rest) ∧
    st.groups = (List.range n).map (fun i => (i, [some i])) ∧
    st.bufs "x".toList = some (List.replicate B none) ∧
    ∃ buf, st.bufs "y".toList = some buf ∧ n ≤ buf.length ∧ B ≤ buf.length
  | 0 => ⟨_, fun _ => rfl, rfl, rfl, _, rfl, Nat.zero_le _, by simp⟩
  | n + 1 => by
    obtain ⟨st, h1, h2, h3, buf, h4, h5, h6⟩ := pivotRows_many B hB n
    have hi := (hashIdx_range n n (Nat.le_refl _)).1
    rw [← h2] at hi
    have hgl : st.groups.length = n := by rw [h2]; simp
    have hb : ∃ buf' : List (Option Nat),
        (if buf.length - 1 < n then buf ++ List.replicate B none else buf) = buf' ∧
        n < buf'.length ∧ B ≤ buf'.length := by
      by_cases hc : buf.length - 1 < n
      · exact ⟨_, if_pos hc, by simp; omega, by simp⟩
      · exact ⟨_, if_neg hc, by omega, h6⟩
    obtain ⟨buf', b1, b2, b3⟩ := hb
    refine ⟨⟨st.groups ++ [(n, [some n])],
      fun c => if c = "y".toList then some (buf'.set n (some 1)) else st.bufs c⟩, ?_, ?_, h3, ?_⟩
    · intro rest
      rw [List.range_succ, List.map_append, List.append_assoc, h1]
      have hrow : pivotRow B idHash st ⟨[some n], "y".toList, some 1⟩ =
          .ok ⟨st.groups ++ [(n, [some n])],
            fun c => if c = "y".toList then some (buf'.set n (some 1)) else st.bufs c⟩ := by
        have hg : groupIdx idHash st.groups [some n] = (st.groups ++ [(n, [some n])], n) := by
          unfold groupIdx
          dsimp only [idHash]
          rw [hi, hgl]
        unfold pivotRow
        rw [hg, h4]
        dsimp only
        rw [b1, if_pos b2]
      rw [List.map_cons, List.map_nil, List.cons_append, List.nil_append, pivotRows, hrow]
    · dsimp only
      rw [h2, List.range_succ, List.map_append]; rfl
    · exact ⟨buf'.set n (some 1), by dsimp only; exact if_pos rfl, by rw [List.length_set]; exact b2, by rw [List.length_set]; exact b3⟩

/-- C63 is violated: two groups with the same hash become one, and whatever the length of the
buffers one group too many makes the pivot panic in a column it is the first to use. -/
theorem C63_violated :
    pivot 2 (fun _ => 0) ["x".toList]
      [⟨[some 1], "x".toList, some 10⟩, ⟨[some 2], "x".toList, some 20⟩] =
      .ok [([some (1 : Nat)], [some (20 : Nat)])] ∧
    ∀ B, 1 ≤ B → pivot B idHash ["x".toList, "y".toList] (manyGroups (2 * B + 1)) =
      .error .panic := by
  refine ⟨rfl, ?_⟩
  intro B hB
  obtain ⟨st, h1, h2, h3, -⟩ := pivotRows_many B hB (2 * B + 1)
  unfold pivot manyGroups
  rw [h1]
  have hi := (hashIdx_range (2 * B) (2 * B) (Nat.le_refl _)).2 (by omega)
  rw [← h2] at hi
  have : pivotRow B idHash st ⟨[some (2 * B + 1 - 1)], "x".toList, some 1⟩ = .error .panic := by
    have hg : groupIdx idHash st.groups [some (2 * B + 1 - 1)] = (st.groups, 2 * B) := by
      unfold groupIdx
      dsimp only [idHash]
      rw [Nat.add_sub_cancel, hi]
    unfold pivotRow
    rw [hg, h3]
    dsimp only
    have hlt : (List.replicate B (none : Option Nat)).length - 1 < 2 * B := by
      rw [List.length_replicate]; omega
    rw [if_pos hlt, if_neg (by rw [List.length_append, List.length_replicate]; omega)]
  rw [pivotRows, this]

end OptiPrism.Query
