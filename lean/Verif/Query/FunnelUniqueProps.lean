import Verif.Query.FunnelCompleteProps

/-! Property C84 (unique counting). -/

namespace OptiPrism.Query

variable {G K : Type}

/-- The number of completed attempts in a bucket. -/
def top (c : FCfg) (g : FGroup) (k : Int) : Option Int :=
  (g.buckets k).map fun b => (b (c.len - 1)).total

theorem top_pushed (c : FCfg) (g : FGroup) (k : Int) : top c (g.pushed c) k =
    (top c g k).map fun t => t + if k = c.key (g.steps 0) ∧ c.len - 1 < g.completed then 1 else 0 := by
  unfold top
  have hs := pushed_isSome c g k
  cases hb : g.buckets k with
  | none =>
    rw [hb] at hs
    cases hp : (g.pushed c).buckets k with
    | none => rfl
    | some b => rw [hp] at hs; cases hs
  | some b =>
    obtain ⟨b', e, ht⟩ := pushed_total c g k b hb
    rw [e]
    simp only [Option.map_some, ht]

theorem top_pushed_lt (c : FCfg) (g : FGroup) (h : g.completed < c.len) (k : Int) :
    top c (g.pushed c) k = top c g k := by
  rw [top_pushed]
  have : ¬ (k = c.key (g.steps 0) ∧ c.len - 1 < g.completed) := by omega
  simp only [if_neg this, Int.add_zero]
  cases top c g k <;> rfl

/-- Between rows. -/
structure UG (c : FCfg) (g : FGroup) : Prop where
  comp : g.completed = g.curStep
  lt : g.curStep < c.len

/-- The row ends no attempt successfully. -/
structure FQuiet (c : FCfg) (g : FGroup) (p : FGroup × Bool) : Prop where
  flag : p.2 = false
  same : ∀ k, top c p.1 k = top c g k
  ug : UG c p.1

/-- The row completes an attempt. -/
structure FHit (c : FCfg) (g : FGroup) (p : FGroup × Bool) : Prop where
  flag : p.2 = true
  was : 0 < g.curStep
  now : p.1.curStep = 0
  comp : p.1.completed = 0
  key : ∃ k0, ∀ k, top c p.1 k = if k = k0 then (top c g k).map (· + 1) else top c g k

theorem step_uniq {c : FCfg} (hn : 2 ≤ c.len) (hu : c.unique = true) (hf : c.filter = none)
    (g : FGroup) (h : UG c g) (r : FRow G K) : FQuiet c g (g.step c r) ∨ FHit c g (g.step c r) := by
  unfold FGroup.step
  split
  · dsimp only
    split
    next hl =>
      left
      refine ⟨rfl, fun k => rfl, ?_, ?_⟩
      · show g.completed + 1 = g.curStep + 1
        rw [h.comp]
      · show g.curStep + 1 < c.len
        omega
    next hl =>
      have hlt := h.lt
      have e : g.completed + 1 = c.len := by rw [h.comp]; omega
      right
      refine ⟨?_, by omega, rfl, rfl, ?_⟩
      · show (FGroup.isCompleted c _ && c.unique) = true
        unfold FGroup.isCompleted
        rw [hf, hu]
        simp [e]
      · refine ⟨c.key (if 0 = g.curStep then r.ts else g.steps 0), fun k => ?_⟩
        · have := top_pushed c { g with
              completed := g.completed + 1,
              steps := fun i => if i = g.curStep then r.ts else g.steps i } k
          refine Eq.trans this ?_
          show (top c g k).map (fun t => t + if k = c.key (if 0 = g.curStep then r.ts else g.steps 0) ∧
            c.len - 1 < g.completed + 1 then 1 else 0) = _
          by_cases hk : k = c.key (if 0 = g.curStep then r.ts else g.steps 0)
          · have : k = c.key (if 0 = g.curStep then r.ts else g.steps 0) ∧
                c.len - 1 < g.completed + 1 := ⟨hk, by omega⟩
            rw [if_pos hk]
            simp only [if_pos this]
          · rw [if_neg hk]
            simp only [hk, false_and, if_false, Int.add_zero]
            cases top c g k <;> rfl
  · left
    exact ⟨rfl, fun _ => rfl, h⟩

theorem partition_uniq (c : FCfg) (g : FGroup) (h : UG c g) (r : FRow G K) :
    UG c (g.partition c r) ∧ (∀ k, top c (g.partition c r) k = top c g k) ∧
    (g.partition c r = g ∨ (g.partition c r).curStep = 0) := by
  unfold FGroup.partition
  split
  · refine ⟨⟨rfl, ?_⟩, fun k => ?_, .inr rfl⟩
    · have := h.lt; show 0 < c.len; omega
    · exact top_pushed_lt c g (by rw [h.comp]; exact h.lt) k
  · exact ⟨h, fun _ => rfl, .inl rfl⟩

theorem fresh_uniq {c : FCfg} (hn : 2 ≤ c.len) (hu : c.unique = true) (hf : c.filter = none)
    (g : FGroup) (h : UG c g) (h0 : g.curStep = 0) (i : Nat) (r : FRow G K) :
    FQuiet c g (g.fresh c i r) := by
  unfold FGroup.fresh
  have hg : ∃ g', (if c.hasConst then { g with constRow := i } else g) = g' ∧ UG c g' ∧
      g'.curStep = 0 ∧ ∀ k, top c g' k = top c g k := by
    refine ⟨_, rfl, ?_⟩
    split
    · exact ⟨⟨h.comp, h.lt⟩, h0, fun _ => rfl⟩
    · exact ⟨h, h0, fun _ => rfl⟩
  obtain ⟨g', e, u', z', t'⟩ := hg
  rw [e]
  obtain ⟨p1, p2, p3⟩ := partition_uniq c g' u' r
  have hz : (g'.partition c r).curStep = 0 := by
    rcases p3 with e | e
    · rw [e]; exact z'
    · exact e
  rcases step_uniq hn hu hf _ p1 r with q | q
  · exact ⟨q.flag, fun k => by rw [q.same, p2, t'], q.ug⟩
  · have := q.was
    omega

theorem fRow_uniq [DecidableEq K] {c : FCfg} (hn : 2 ≤ c.len) (hu : c.unique = true)
    (hf : c.filter = none) (batch : List (FRow G K)) (i : Nat) (g : FGroup) (h : UG c g)
    (r : FRow G K) (p : FGroup × Bool) (e : fRow c batch i g r = some p) :
    FQuiet c g p ∨ FHit c g p := by
  have hs : UG c (g.seen r) ∧ (g.seen r).curStep = g.curStep ∧ ∀ k, top c (g.seen r) k = top c g k := by
    unfold FGroup.seen
    split
    · exact ⟨⟨h.comp, h.lt⟩, rfl, fun _ => rfl⟩
    · exact ⟨h, rfl, fun _ => rfl⟩
  obtain ⟨hs, hcs, hts⟩ := hs
  unfold fRow at e
  dsimp only at e
  generalize g.seen r = g' at hs hcs hts e
  have hlt := hs.lt
  have ureset : ∀ x : FGroup, UG c x.reset := fun x => ⟨rfl, by show 0 < c.len; omega⟩
  have lift : ∀ q, FQuiet c g' q → FQuiet c g q := fun q hq => ⟨hq.flag, fun k => by rw [hq.same, hts], hq.ug⟩
  have r1 : FQuiet c g (g'.reset.fresh c i r) := by
    have := fresh_uniq hn hu hf g'.reset (ureset g') rfl i r
    exact lift _ ⟨this.flag, fun k => (this.same k).trans rfl, this.ug⟩
  have r2 : FQuiet c g ((g'.pushed c).reset.fresh c i r) := by
    have := fresh_uniq hn hu hf (g'.pushed c).reset (ureset _) rfl i r
    refine lift _ ⟨this.flag, fun k => (this.same k).trans ?_, this.ug⟩
    exact top_pushed_lt c g' (by rw [hs.comp]; exact hs.lt) k
  have r3 : FQuiet c g ((g'.partition c r).step c r) ∨ FHit c g ((g'.partition c r).step c r) := by
    obtain ⟨p1, p2, p3⟩ := partition_uniq c g' hs r
    rcases step_uniq hn hu hf _ p1 r with q | q
    · left; exact lift _ ⟨q.flag, fun k => by rw [q.same, p2], q.ug⟩
    · right
      have hw := q.was
      rcases p3 with e3 | e3
      · refine ⟨q.flag, by rw [← hcs, ← e3]; exact hw, q.now, q.comp, ?_⟩
        obtain ⟨k0, hk⟩ := q.key
        exact ⟨k0, fun k => by rw [hk, p2, hts]⟩
      · omega
  by_cases hc : g'.curStep > 0
  · rw [if_pos hc] at e
    split at e
    · cases e; exact .inl r1
    · split at e
      · cases e; exact .inl r2
      · split at e
        · split at e
          · cases e
          · cases e; exact .inl r1
          · cases e; exact r3
        · cases e; exact r3
  · rw [if_neg hc] at e
    cases e
    left
    exact lift _ (fresh_uniq hn hu hf g' hs (by omega) i r)

variable [DecidableEq G] [DecidableEq K]

/-- The state of group `g` during a batch; `L` lists user and bucket of the completed attempts. -/
structure UInv (c : FCfg) (g : G) (L : List (Int × Int)) (st : FState G) : Prop where
  ug : ∀ gr, st.groups g = some gr → UG c gr
  count : ∀ gr, st.groups g = some gr → ∀ k t, top c gr k = some t →
    t = ((L.filter fun p => p.2 == k).length : Int)
  none : st.groups g = none → L = []
  asc : (L.map Prod.fst).Pairwise (· < ·)
  le : ∀ u ∈ L.map Prod.fst, u ≤ st.cur
  done : st.cur ∈ L.map Prod.fst → st.skip = true ∧ ∀ gr, st.groups g = some gr → gr.curStep = 0

/-- What remains of it after the last row. -/
structure UEnd (c : FCfg) (g : G) (L : List (Int × Int)) (st : FState G) : Prop where
  ug : ∀ gr, st.groups g = some gr → UG c gr
  count : ∀ gr, st.groups g = some gr → ∀ k t, top c gr k = some t →
    t = ((L.filter fun p => p.2 == k).length : Int)
  nodup : (L.map Prod.fst).Nodup

theorem UInv.toEnd {c : FCfg} {g : G} {L : List (Int × Int)} {st : FState G} (h : UInv c g L st) :
    UEnd c g L st :=
  ⟨h.ug, h.count, h.asc.imp fun h => Int.ne_of_lt h⟩

theorem new_ug {c : FCfg} (hn : 2 ≤ c.len) : UG c (FGroup.new c) := ⟨rfl, by show 0 < c.len; omega⟩

theorem new_top (c : FCfg) (k t : Int) (h : top c (FGroup.new c) k = some t) : t = 0 := by
  unfold top FGroup.new at h
  dsimp only at h
  split at h
  · cases h; rfl
  · cases h

/-- A row that is used. `hlast`: the user may be done only if the row is the last one. -/
theorem fUse_uniq {c : FCfg} (hn : 2 ≤ c.len) (hu : c.unique = true) (hf : c.filter = none)
    (g : G) (L : List (Int × Int)) (st st' : FState G) (b : Bool) (h : UInv c g L st)
    (batch : List (FRow G K)) (i : Nat) (r : FRow G K) (hr : st.cur ≤ r.user)
    (e : fUse c batch i { st with skip := b } r = some st') :
    (r.user ∉ L.map Prod.fst → ∃ L', UInv c g L' st' ∧ ∀ p ∈ L', p ∈ L ∨ p.1 = r.user) ∧
    (∃ L', UEnd c g L' st' ∧ ∀ p ∈ L', p ∈ L ∨ p.1 = r.user) := by
  unfold fUse at e
  dsimp only at e
  cases hp : fRow c batch i ((st.groups r.group).getD (FGroup.new c)) r with
  | none => rw [hp] at e; cases e
  | some p =>
    rw [hp] at e
    cases e
    have hle : ∀ u ∈ L.map Prod.fst, u ≤ r.user := fun u hu => Int.le_trans (h.le u hu) hr
    by_cases hg : r.group = g
    · subst hg
      have hug : UG c ((st.groups r.group).getD (FGroup.new c)) := by
        cases hs : st.groups r.group with
        | none => exact new_ug hn
        | some gr => exact h.ug gr hs
      have hcount : ∀ k t, top c ((st.groups r.group).getD (FGroup.new c)) k = some t →
          t = ((L.filter fun p => p.2 == k).length : Int) := by
        intro k t ht
        cases hs : st.groups r.group with
        | none =>
          rw [hs] at ht
          rw [new_top c k t ht, h.none hs]; rfl
        | some gr => rw [hs] at ht; exact h.count gr hs k t ht
      have hset : ∀ x : FGroup, setGroup st.groups r.group x r.group = some x := by
        intro x; unfold setGroup; rw [if_pos rfl]
      rcases fRow_uniq hn hu hf batch i _ hug r p hp with q | q
      · -- no attempt completed
        have hug' : ∀ gr, setGroup st.groups r.group p.1 r.group = some gr → UG c gr := by
          intro gr hgr; rw [hset] at hgr; cases hgr; exact q.ug
        have hct' : ∀ gr, setGroup st.groups r.group p.1 r.group = some gr → ∀ k t,
            top c gr k = some t → t = ((L.filter fun p => p.2 == k).length : Int) := by
          intro gr hgr k t ht
          rw [hset] at hgr
          cases hgr
          rw [q.same] at ht
          exact hcount k t ht
        refine ⟨fun hnew => ⟨L, ⟨hug', hct', ?_, h.asc, hle, fun hm => absurd hm hnew⟩,
          fun p hp => .inl hp⟩, L, ⟨hug', hct', h.toEnd.nodup⟩, fun p hp => .inl hp⟩
        intro hz
        have hz := (hset p.1).symm.trans hz
        cases hz
      · -- an attempt completed: the user was not done before
        have hnd : r.user ∉ L.map Prod.fst := by
          intro hm
          have hc : st.cur = r.user := Int.le_antisymm hr (h.le _ hm)
          cases hs : st.groups r.group with
          | none => rw [h.none hs] at hm; cases hm
          | some gr =>
            have := (h.done (by rw [hc]; exact hm)).2 gr hs
            have hw := q.was
            rw [hs] at hw
            simp only [Option.getD_some] at hw
            omega
        obtain ⟨k0, hk⟩ := q.key
        have hug' : ∀ gr, setGroup st.groups r.group p.1 r.group = some gr → UG c gr := by
          intro gr hgr
          rw [hset] at hgr; cases hgr
          exact ⟨by rw [q.comp, q.now], by rw [q.now]; omega⟩
        have hct' : ∀ gr, setGroup st.groups r.group p.1 r.group = some gr → ∀ k t,
            top c gr k = some t →
            t = (((L ++ [(r.user, k0)]).filter fun p => p.2 == k).length : Int) := by
          intro gr hgr k t ht
          rw [hset] at hgr
          cases hgr
          rw [hk] at ht
          rw [List.filter_append, List.length_append]
          by_cases hkk : k = k0
          · rw [if_pos hkk] at ht
            cases ho : top c ((st.groups r.group).getD (FGroup.new c)) k with
            | none => rw [ho] at ht; cases ht
            | some t0 =>
              rw [ho] at ht
              cases ht
              rw [hcount k t0 ho, List.filter_cons_of_pos (by simp [hkk])]
              simp
          · rw [if_neg hkk] at ht
            rw [hcount k t ht, List.filter_cons_of_neg (by simp; exact fun h => hkk h.symm)]
            simp
        have hasc' : ((L ++ [(r.user, k0)]).map Prod.fst).Pairwise (· < ·) := by
          rw [List.map_append, List.pairwise_append]
          refine ⟨h.asc, by simp, ?_⟩
          intro a ha b hb
          simp at hb
          rw [hb]
          have h1 := hle a ha
          have h2 : a ≠ r.user := by intro e; rw [e] at ha; exact hnd ha
          omega
        have hsub : ∀ p ∈ L ++ [(r.user, k0)], p ∈ L ∨ p.1 = r.user := by
          intro p hp
          rcases List.mem_append.mp hp with hp | hp
          · exact .inl hp
          · right; rw [List.mem_singleton.mp hp]
        have hall : UInv c r.group (L ++ [(r.user, k0)])
            ⟨p.2, r.user, setGroup st.groups r.group p.1⟩ := by
          refine ⟨hug', hct', ?_, hasc', ?_, ?_⟩
          · intro hz
            have hz := (hset p.1).symm.trans hz
            cases hz
          · intro u hu'
            obtain ⟨x, hx, rfl⟩ := List.mem_map.mp hu'
            rcases hsub x hx with hx | hx
            · exact hle _ (List.mem_map_of_mem hx)
            · exact Int.le_of_eq hx
          · intro _
            refine ⟨q.flag, ?_⟩
            intro gr hgr
            have hgr := (hset p.1).symm.trans hgr
            cases hgr
            exact q.now
        exact ⟨fun _ => ⟨_, hall, hsub⟩, _, hall.toEnd, hsub⟩
    · have hset : setGroup st.groups r.group p.1 g = st.groups g := by
        unfold setGroup; rw [if_neg (fun h => hg h.symm)]
      refine ⟨fun hnew => ⟨L, ⟨?_, ?_, ?_, h.asc, hle, fun hm => absurd hm hnew⟩,
        fun p hp => .inl hp⟩, L, ⟨?_, ?_, h.toEnd.nodup⟩, fun p hp => .inl hp⟩
      · intro gr hgr; exact h.ug gr (hset.symm.trans hgr)
      · intro gr hgr; exact h.count gr (hset.symm.trans hgr)
      · intro hz; exact h.none (hset.symm.trans hz)
      · intro gr hgr; exact h.ug gr (hset.symm.trans hgr)
      · intro gr hgr; exact h.count gr (hset.symm.trans hgr)

theorem fLoop_uniq {c : FCfg} (hn : 2 ≤ c.len) (hu : c.unique = true) (hf : c.filter = none)
    (g : G) (batch : List (FRow G K)) : ∀ (rows : List (FRow G K)) (i : Nat)
    (L : List (Int × Int)) (st st' : FState G), UInv c g L st →
    rows.Pairwise (fun a b => a.user ≤ b.user) → (∀ r ∈ rows, st.cur ≤ r.user) →
    fLoop c none batch i rows st = some st' →
    ∃ L', UEnd c g L' st' ∧ ∀ p ∈ L', p ∈ L ∨ ∃ r ∈ rows, p.1 = r.user
  | [], _, L, st, st', h, _, _, e => by
    cases e; exact ⟨L, h.toEnd, fun p hp => .inl hp⟩
  | r :: rest, i, L, st, st', h, hp, hc, e => by
    rw [List.pairwise_cons] at hp
    unfold fLoop at e
    have ho : outside none r.user = false := rfl
    by_cases hskip : (st.skip && (st.cur == r.user && !rest.isEmpty)) = true
    · rw [if_pos hskip] at e
      obtain ⟨L', h1, h2⟩ := fLoop_uniq hn hu hf g batch rest (i + 1) L st st' h hp.2
        (fun q hq => hc q (List.mem_cons_of_mem _ hq)) e
      exact ⟨L', h1, fun p hp => (h2 p hp).imp id
        fun ⟨q, hq, e⟩ => ⟨q, List.mem_cons_of_mem _ hq, e⟩⟩
    · rw [if_neg hskip, ho, Bool.false_and, if_neg (by simp)] at e
      cases hu1 : fUse c batch i { st with skip := false } r with
      | none => rw [hu1] at e; cases e
      | some s1 =>
        rw [hu1] at e
        have e : fLoop c none batch (i + 1) rest s1 = some st' := e
        obtain ⟨a1, a2⟩ := fUse_uniq hn hu hf g L st s1 false h batch i r (hc r (by simp)) hu1
        have hcur : s1.cur = r.user := by
          unfold fUse at hu1
          dsimp only at hu1
          cases hq : fRow c batch i ((st.groups r.group).getD (FGroup.new c)) r with
          | none => rw [hq] at hu1; cases hu1
          | some q => rw [hq] at hu1; cases hu1; rfl
        cases hrest : rest with
        | nil =>
          rw [hrest] at e
          cases e
          obtain ⟨L', h1, h2⟩ := a2
          exact ⟨L', h1, fun p hp => (h2 p hp).imp id fun e => ⟨r, by simp, e⟩⟩
        | cons x xs =>
          have hnd : r.user ∉ L.map Prod.fst := by
            intro hm
            have hc1 : st.cur = r.user := Int.le_antisymm (hc r (by simp)) (h.le _ hm)
            have := (h.done (by rw [hc1]; exact hm)).1
            refine hskip ?_
            rw [this, hc1, hrest]
            simp
          obtain ⟨L1, h1, h2⟩ := a1 hnd
          obtain ⟨L', h3, h4⟩ := fLoop_uniq hn hu hf g batch rest (i + 1) L1 s1 st' h1 hp.2
            (fun q hq => by rw [hcur]; exact hp.1 q hq) e
          refine ⟨L', h3, fun p hp => ?_⟩
          rcases h4 p hp with hp | ⟨q, hq, e⟩
          · exact (h2 p hp).imp id fun e => ⟨r, by simp, e⟩
          · exact .inr ⟨q, by rw [← hrest]; exact List.mem_cons_of_mem _ hq, e⟩

/-- C84 (partial): with unique counting, at least two steps and no filter, the completed conversions
of a group in one batch belong to different users; constants, exclusions and orders are arbitrary. -/
theorem C84_partial (c : FCfg) (hn : 2 ≤ c.len) (hu : c.unique = true) (hf : c.filter = none)
    (batch : List (FRow G K)) (hp : batch.Pairwise fun a b => a.user ≤ b.user)
    (h0 : ∀ r ∈ batch, 0 ≤ r.user) (f : G → Int → Option (Nat → StepResult))
    (h : funnel c none [batch] = some f) (g : G) :
    ∃ L : List (Int × Int), (L.map Prod.fst).Nodup ∧ (∀ p ∈ L, ∃ r ∈ batch, p.1 = r.user) ∧
      ∀ k b, f g k = some b →
        (b (c.len - 1)).total = ((L.filter fun p => p.2 == k).length : Int) := by
  unfold funnel fBatches at h
  rw [List.foldlM_cons] at h
  cases hb : fBatch c none (⟨false, 0, fun _ => none⟩ : FState G) batch with
  | none => rw [hb] at h; cases h
  | some st =>
    rw [hb] at h
    have h : some (fFinish c st) = some f := h
    cases h
    unfold fBatch at hb
    cases hbb : batch with
    | nil => rw [hbb] at hb; cases hb
    | cons r rest =>
      rw [hbb] at hb
      dsimp only at hb
      rw [← hbb] at hb
      split at hb
      · cases hb
      · obtain ⟨L, h1, h2⟩ := fLoop_uniq hn hu hf g batch batch 0 [] _ st
          ⟨fun _ h => (by cases h), fun _ h => (by cases h), fun _ => rfl, (by simp), (by simp),
            (by simp)⟩ hp h0 hb
        rw [← hbb]
        refine ⟨L, h1.nodup, fun p hp => (h2 p hp).resolve_left (by simp), ?_⟩
        intro k b hk
        unfold fFinish at hk
        cases hg : st.groups g with
        | none => rw [hg] at hk; cases hk
        | some gr =>
          rw [hg] at hk
          dsimp only at hk
          cases hq : (gr.pushed c).buckets k with
          | none => rw [hq] at hk; cases hk
          | some b0 =>
            rw [hq] at hk
            dsimp only at hk
            split at hk
            · cases hk
              have hug := h1.ug gr hg
              have ht := top_pushed_lt c gr (by rw [hug.comp]; exact hug.lt) k
              refine h1.count gr hg k _ ?_
              rw [← ht]
              unfold top
              rw [hq]; rfl
            · cases hk

example : totals2 () (funnel exUnique none [[exRow 1 0 0, exRow 1 1 1, exRow 1 2 0, exRow 1 3 1,
    exRow 2 0 0]]) = some (2, 1) := by decide

/-- C84 is violated: a user who tries twice is counted twice at the first step, one whose rows lie in
two batches is counted twice at the last step. -/
theorem C84_violated :
    totals2 () (funnel exUnique none [[exRow 1 0 0, exRow 1 20 0, exRow 1 25 1]]) = some (2, 1) ∧
    totals2 () (funnel exUnique none [[exRow 1 0 0, exRow 1 1 1, exRow 1 2 0], [exRow 1 3 1]]) =
      some (2, 2) := by decide

end OptiPrism.Query
