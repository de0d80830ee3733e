import Verif.Storage.CompactConc

/-!
# Lemmas for C96 and C97: what holds between the steps of a compaction in the background
-/

namespace OptiPrism.Storage

variable {R K : Type}

/-! ### counts held by scans -/

def held (l : List (Nat × Sc R)) (x : Nat × Nat) : Nat := (l.map fun s => s.2.opened.count x).sum

theorem held_drop {l : List (Nat × Sc R)} {t : Nat} {sc : Sc R} (hn : (l.map Prod.fst).Nodup)
    (h : l.lookup t = some sc) (x : Nat × Nat) :
    held l x = held (dropScan t l) x + sc.opened.count x := by
  induction l with
  | nil => simp at h
  | cons a l ih =>
    obtain ⟨u, su⟩ := a
    simp only [List.map_cons, List.nodup_cons] at hn
    rw [List.lookup_cons] at h
    by_cases e : t = u
    · subst e
      simp only [BEq.rfl, Option.some.injEq] at h
      subst h
      have hd : dropScan t ((t, su) :: l) = l := by
        unfold dropScan
        rw [List.filter_cons]
        simp only [bne_self_eq_false, Bool.false_eq_true, if_false]
        rw [List.filter_eq_self]
        rintro ⟨v, sv⟩ hv
        have : v ≠ t := fun e => hn.1 (List.mem_map.mpr ⟨_, hv, e⟩)
        simpa using this
      rw [hd]
      simp only [held, List.map_cons, List.sum_cons]
      omega
    · have e' : (t == u) = false := by simpa using e
      rw [e'] at h
      have hd : dropScan t ((u, su) :: l) = (u, su) :: dropScan t l := by
        unfold dropScan
        rw [List.filter_cons, if_pos]
        simpa using fun h => e h.symm
      have := ih hn.2 h
      rw [hd]
      simp only [held, List.map_cons, List.sum_cons] at this ⊢
      omega

theorem dropScan_nodup {l : List (Nat × Sc R)} (hn : (l.map Prod.fst).Nodup) (t : Nat) :
    ((dropScan t l).map Prod.fst).Nodup ∧ t ∉ (dropScan t l).map Prod.fst := by
  refine ⟨List.Nodup.sublist (List.Sublist.map _ List.filter_sublist) hn, ?_⟩
  simp [dropScan]

theorem closeAll_spec {l : List (Nat × Nat)} : ∀ {c : Cnt}, (∀ x : Nat × Nat, l.count x ≤ c x.1 x.2) →
    ∃ c', closeAll c l = some c' ∧ ∀ x : Nat × Nat, c' x.1 x.2 + l.count x = c x.1 x.2 := by
  induction l with
  | nil => intro c _; exact ⟨c, rfl, by simp⟩
  | cons a l ih =>
    intro c h
    have ha := h a
    rw [List.count_cons_self] at ha
    have hcl := Cnt.close_some (c := c) (p := a) (by omega)
    obtain ⟨c', h1, h2⟩ := ih (c := fun l i => if (l, i) = a then c l i - 1 else c l i) (by
      intro x
      have := h x
      show l.count x ≤ if (x.1, x.2) = a then _ else _
      by_cases e : x = a
      · subst e
        rw [List.count_cons_self] at this
        rw [if_pos rfl]; omega
      · rw [List.count_cons_of_ne (fun h => e h.symm)] at this
        rw [if_neg e]; exact this)
    refine ⟨c', ?_, ?_⟩
    · simp only [closeAll, hcl]; exact h1
    · intro x
      have := h2 x
      have h0 := h x
      by_cases e : x = a
      · subst e
        rw [List.count_cons_self] at h0 ⊢
        rw [if_pos rfl] at this; omega
      · rw [List.count_cons_of_ne (fun h => e h.symm)] at h0 ⊢
        rw [if_neg e] at this; exact this

/-! ### pending operations -/

/-- Part of `CInv` that is kept while operations are executed. -/
structure PInv (le : K → K → Prop) (key : R → K) (G : Nat × Nat → List R) (levels : List (DLevel K))
    (ops : List COp) (f : Files R) : Prop where
  nd : (pathsOf 0 levels).Nodup
  bd : ∀ p ∈ pathsOf 0 levels, bound levels p
  fresh : ∀ l i, l < levels.length → ¬ bound levels (l, i) → f l i = none
  ment : ∀ p ∈ ops.flatMap COp.paths, bound levels p
  ok : ∀ (k : Nat) (lv : DLevel K), levels[k]? = some lv → ∀ q ∈ lv.parts, GoodPart le key (G (k, q.id)) q
  virt : ∀ c : Cnt, (∀ l i, mentions ops (l, i) ≤ c l i) → ∃ D c',
    execOps f c ops = some (D, c') ∧ ∀ p ∈ pathsOf 0 levels, D p.1 p.2 = some (.full (G p))

theorem CInv.pinv {le : K → K → Prop} {key : R → K} {G : Nat × Nat → List R} {st : CState R K}
    (h : CInv le key G (pathsOf 0 st.levels) st) : PInv le key G st.levels st.ops st.files :=
  ⟨h.nd, h.bd, h.fresh, h.ment, h.ok, fun c hc => by
    obtain ⟨D, c', h1, _, h3⟩ := h.virt c hc
    exact ⟨D, c', h1, h3⟩⟩

theorem PInv.files {le : K → K → Prop} {key : R → K} {G : Nat × Nat → List R} {levels : List (DLevel K)}
    {ops : List COp} {f : Files R} (h : PInv le key G levels ops f) (hn : NoRename ops) :
    ∀ p ∈ pathsOf 0 levels, f p.1 p.2 = some (.full (G p)) := by
  obtain ⟨D, c', h1, h2⟩ := h.virt (fun l i => mentions ops (l, i)) (fun _ _ => Nat.le_refl _)
  intro p hp
  exact execOps_noRename ops hn h1 _ _ _ (h2 p hp)

theorem PInv.cinv {le : K → K → Prop} {key : R → K} {G : Nat × Nat → List R} {levels : List (DLevel K)}
    {f : Files R} (h : PInv le key G levels [] f) (cnt : Cnt) :
    CInv le key G (pathsOf 0 levels) ⟨levels, [], [], f, cnt, false, []⟩ := by
  have hf := h.files (by intro s t hm; cases hm)
  refine ⟨h.nd, fun _ h => h, h.bd, h.fresh, h.ment, fun _ _ => by simp [mentions], h.ok, ?_, ?_⟩
  · intro p hp x hx
    simp only at hx
    rw [hf p hp] at hx
    exact (Option.some.inj hx).symm
  · intro c _
    exact ⟨f, c, rfl, by simp [mentions], hf⟩

/-- Executing operations on files that agree where it matters. -/
theorem execOps_agree (ops : List COp) : ∀ {f g D : Files R} {c c' : Cnt},
    (∀ x ∈ ops.flatMap COp.paths, g x.1 x.2 = f x.1 x.2) → execOps f c ops = some (D, c') →
    ∃ D', execOps g c ops = some (D', c') ∧ ∀ l i, g l i = f l i → D' l i = D l i := by
  have hset : ∀ {f g : Files R} {l i l' i' : Nat} (v : Option (PFile R)), g l i = f l i →
      setPart g l' i' v l i = setPart f l' i' v l i := by
    intro f g l i l' i' v h
    simp only [setPart]
    split
    · rfl
    · exact h
  induction ops with
  | nil =>
    intro f g D c c' _ h
    simp only [execOps, Option.some.injEq, Prod.mk.injEq] at h
    refine ⟨g, by rw [h.2.symm]; rfl, ?_⟩
    intro l i hg
    rw [hg, h.1]
  | cons op ops ih =>
    intro f g D c c' hag h
    have hag' : ∀ x ∈ ops.flatMap COp.paths, g x.1 x.2 = f x.1 x.2 := fun x hx => hag x (by
      rw [List.flatMap_cons]; exact List.mem_append.mpr (.inr hx))
    cases op with
    | rename s t =>
      have hs := hag s (by simp [COp.paths])
      simp only [execOps] at h ⊢
      rw [hs]
      cases hf : f s.1 s.2 with
      | none => rw [hf] at h; simp at h
      | some v =>
        rw [hf] at h
        dsimp only at h ⊢
        cases h1 : c.close s with
        | none => rw [h1] at h; simp at h
        | some c1 =>
          rw [h1] at h
          dsimp only at h ⊢
          cases h2 : c1.close t with
          | none => rw [h2] at h; simp at h
          | some c2 =>
            rw [h2] at h
            dsimp only at h ⊢
            obtain ⟨D', e1, e2⟩ := ih (g := setPart (setPart g s.1 s.2 none) t.1 t.2 (some v))
              (fun x hx => hset _ (hset _ (hag' x hx))) h
            exact ⟨D', e1, fun l i hg => e2 l i (hset _ (hset _ hg))⟩
    | delete p =>
      have hs := hag p (by simp [COp.paths])
      simp only [execOps] at h ⊢
      cases h1 : c.close p with
      | none => rw [h1] at h; simp at h
      | some c1 =>
        rw [h1] at h
        dsimp only at h ⊢
        by_cases h0 : c1 p.1 p.2 = 0
        · rw [if_pos h0] at h ⊢
          rw [hs]
          cases hf : f p.1 p.2 with
          | none => rw [hf] at h; simp at h
          | some v =>
            rw [hf] at h
            dsimp only at h ⊢
            obtain ⟨D', e1, e2⟩ := ih (g := setPart g p.1 p.2 none) (fun x hx => hset _ (hag' x hx)) h
            exact ⟨D', e1, fun l i hg => e2 l i (hset _ hg)⟩
        · rw [if_neg h0] at h ⊢
          exact ih hag' h

/-- Removing files that are neither recorded nor mentioned. -/
theorem PInv.remove {le : K → K → Prop} {key : R → K} {G : Nat × Nat → List R} {levels : List (DLevel K)}
    {ops : List COp} {f g : Files R} (h : PInv le key G levels ops f)
    (hg : ∀ l i, g l i = f l i ∨
      (g l i = none ∧ (l, i) ∉ pathsOf 0 levels ∧ (l, i) ∉ ops.flatMap COp.paths)) :
    PInv le key G levels ops g := by
  refine ⟨h.nd, h.bd, ?_, h.ment, h.ok, ?_⟩
  · intro l i hl hb
    rcases hg l i with e | e
    · rw [e]; exact h.fresh l i hl hb
    · exact e.1
  · intro c hc
    obtain ⟨D, c', h1, h2⟩ := h.virt c hc
    obtain ⟨D', e1, e2⟩ := execOps_agree ops (g := g) (fun x hx => by
      rcases hg x.1 x.2 with e | e
      · exact e
      · exact absurd hx e.2.2) h1
    refine ⟨D', c', e1, ?_⟩
    intro p hp
    rw [e2 p.1 p.2]
    · exact h2 p hp
    · rcases hg p.1 p.2 with e | e
      · exact e
      · exact absurd hp e.2.1

theorem mentions_cons (op : COp) (ops : List COp) (p : Nat × Nat) :
    mentions (op :: ops) p = op.paths.count p + mentions ops p := by
  simp [mentions, List.flatMap_cons, List.count_append]

theorem mentions_zero {ops : List COp} {p : Nat × Nat} : mentions ops p = 0 ↔ p ∉ ops.flatMap COp.paths := by
  unfold mentions
  rw [List.count_eq_zero]

/-- A rename. -/
theorem PInv.rename {le : K → K → Prop} {key : R → K} {G : Nat × Nat → List R} {levels : List (DLevel K)}
    {ops : List COp} {f : Files R} {a b : Nat × Nat} (h : PInv le key G levels (.rename a b :: ops) f) :
    ∃ v, f a.1 a.2 = some v ∧
      PInv le key G levels ops (setPart (setPart f a.1 a.2 none) b.1 b.2 (some v)) := by
  have hba : bound levels a := h.ment a (by simp [COp.paths])
  have hbb : bound levels b := h.ment b (by simp [COp.paths])
  have key : ∀ c : Cnt, (∀ l i, mentions ops (l, i) ≤ c l i) → ∃ v D c', f a.1 a.2 = some v ∧
      execOps (setPart (setPart f a.1 a.2 none) b.1 b.2 (some v)) c ops = some (D, c') ∧
      ∀ p ∈ pathsOf 0 levels, D p.1 p.2 = some (.full (G p)) := by
    intro c hc
    obtain ⟨D, c', h1, h2⟩ := h.virt (fun l i => c l i + [a, b].count (l, i)) (by
      intro l i
      rw [mentions_cons]
      have := hc l i
      simp only [COp.paths]
      omega)
    simp only [execOps] at h1
    cases hf : f a.1 a.2 with
    | none => rw [hf] at h1; simp at h1
    | some v =>
      rw [hf] at h1
      dsimp only at h1
      rw [Cnt.close_some (by simp [List.count_cons]; omega)] at h1
      dsimp only at h1
      rw [Cnt.close_some (by
        simp only [List.count_cons]
        by_cases e : b = a
        · subst e; simp
        · have e' : ¬ (b.1, b.2) = a := e
          rw [if_neg e']; simp; omega)] at h1
      dsimp only at h1
      refine ⟨v, D, c', rfl, ?_, h2⟩
      rw [← h1]
      congr 1
      funext l i
      by_cases e1 : (l, i) = a <;> by_cases e2 : (l, i) = b
      · subst e1; subst e2; simp
      · rw [if_neg e2, if_pos e1, List.count_cons, List.count_cons]
        have : ¬ a = b := fun e => e2 (e1.trans e)
        have e3 : (b == (l, i)) = false := by rw [e1]; simpa using fun e => this e.symm
        have e4 : (a == (l, i)) = true := by rw [e1]; simp
        rw [e3, e4]; simp
      · rw [if_pos e2, if_neg e1, List.count_cons, List.count_cons]
        have : ¬ a = b := fun e => e1 (e2.trans e.symm)
        have e3 : (a == (l, i)) = false := by rw [e2]; simpa using this
        have e4 : (b == (l, i)) = true := by rw [e2]; simp
        rw [e3, e4]; simp
      · rw [if_neg e2, if_neg e1, List.count_cons, List.count_cons]
        simp [Ne.symm e1, Ne.symm e2]
  obtain ⟨v, _, _, hv, _, _⟩ := key (fun l i => mentions ops (l, i)) (fun _ _ => Nat.le_refl _)
  refine ⟨v, hv, h.nd, h.bd, ?_, fun p hp => h.ment p (by rw [List.flatMap_cons]; exact List.mem_append.mpr (.inr hp)), h.ok, ?_⟩
  · intro l i hl hb
    rw [setPart_ne, setPart_ne]
    · exact h.fresh l i hl hb
    · rintro ⟨rfl, rfl⟩; exact hb hba
    · rintro ⟨rfl, rfl⟩; exact hb hbb
  · intro c hc
    obtain ⟨v', D, c', hv', h1, h2⟩ := key c hc
    rw [hv] at hv'
    injection hv' with hv'
    subst hv'
    exact ⟨D, c', h1, h2⟩

/-- The first half of a deletion. -/
theorem PInv.release {le : K → K → Prop} {key : R → K} {G : Nat × Nat → List R} {levels : List (DLevel K)}
    {ops : List COp} {f : Files R} {a : Nat × Nat} (h : PInv le key G levels (.delete a :: ops) f) :
    PInv le key G levels ops f ∧ bound levels a ∧
      (mentions ops a = 0 → a ∉ pathsOf 0 levels ∧ f a.1 a.2 ≠ none) := by
  have hba : bound levels a := h.ment a (by simp [COp.paths])
  have key : ∀ c : Cnt, (∀ l i, mentions ops (l, i) ≤ c l i) → ∃ D c',
      (if c a.1 a.2 = 0 then (match f a.1 a.2 with
        | none => none
        | some _ => execOps (setPart f a.1 a.2 none) c ops) else execOps f c ops) = some (D, c') ∧
      ∀ p ∈ pathsOf 0 levels, D p.1 p.2 = some (.full (G p)) := by
    intro c hc
    obtain ⟨D, c', h1, h2⟩ := h.virt (fun l i => c l i + [a].count (l, i)) (by
      intro l i
      rw [mentions_cons]
      have := hc l i
      simp only [COp.paths]
      omega)
    simp only [execOps] at h1
    rw [Cnt.close_some (by simp)] at h1
    have e : (fun l i => if (l, i) = a then c l i + [a].count (l, i) - 1 else c l i + [a].count (l, i)) = c := by
      funext l i
      by_cases e : (l, i) = a
      · rw [if_pos e, e]; simp
      · rw [if_neg e, List.count_cons_of_ne (fun h => e h.symm)]; simp
    rw [e] at h1
    exact ⟨D, c', h1, h2⟩
  have hgone : mentions ops a = 0 → a ∉ pathsOf 0 levels ∧ f a.1 a.2 ≠ none := by
    intro hm
    obtain ⟨D, c', h1, h2⟩ := key (fun l i => mentions ops (l, i)) (fun _ _ => Nat.le_refl _)
    rw [if_pos hm] at h1
    cases hf : f a.1 a.2 with
    | none => rw [hf] at h1; simp at h1
    | some v =>
      rw [hf] at h1
      dsimp only at h1
      refine ⟨?_, by simp⟩
      intro hp
      have e := execOps_other _ _ _ a.1 a.2 h1 (mentions_zero.mp hm)
      rw [setPart_same, h2 a hp] at e
      cases e
  refine ⟨⟨h.nd, h.bd, h.fresh, fun p hp => h.ment p (by rw [List.flatMap_cons]; exact List.mem_append.mpr (.inr hp)), h.ok, ?_⟩, hba, hgone⟩
  intro c hc
  obtain ⟨D, c', h1, h2⟩ := key c hc
  by_cases h0 : c a.1 a.2 = 0
  · have hm : mentions ops a = 0 := by
      have : mentions ops a ≤ c a.1 a.2 := hc a.1 a.2
      omega
    rw [if_pos h0] at h1
    cases hf : f a.1 a.2 with
    | none => rw [hf] at h1; simp at h1
    | some v =>
      rw [hf] at h1
      dsimp only at h1
      obtain ⟨D', e1, e2⟩ := execOps_agree ops (g := f) (fun x hx => by
        symm
        apply setPart_ne
        rintro ⟨e1, e2⟩
        exact mentions_zero.mp hm (by rw [show a = x from Prod.ext e1.symm e2.symm]; exact hx)) h1
      refine ⟨D', c', e1, ?_⟩
      intro p hp
      rw [e2 p.1 p.2]
      · exact h2 p hp
      · symm
        apply setPart_ne
        rintro ⟨e1, e2⟩
        exact (hgone hm).1 (by rw [show a = p from Prod.ext e1.symm e2.symm]; exact hp)
  · rw [if_neg h0] at h1
    exact ⟨D, c', h1, h2⟩

/-- A flush while operations are pending. -/
theorem PInv.push0 {le : K → K → Prop} {key : R → K} {G : Nat × Nat → List R} {l0 : DLevel K}
    {ls : List (DLevel K)} {ops : List COp} {f : Files R} (h : PInv le key G (l0 :: ls) ops f)
    {q : PartRef K} {rows : List R} (hq : q.id = l0.partId) (hg : GoodPart le key rows q) :
    PInv le key (upd G (0, l0.partId) rows) (⟨l0.partId + 1, l0.parts ++ [q]⟩ :: ls) ops
      (setPart f 0 l0.partId (some (.full rows))) ∧
    (pathsOf 0 (⟨l0.partId + 1, l0.parts ++ [q]⟩ :: ls)).Perm (pathsOf 0 (l0 :: ls) ++ [(0, l0.partId)]) ∧
    (0, l0.partId) ∉ pathsOf 0 (l0 :: ls) := by
  have hnb : ¬ bound (l0 :: ls) (0, l0.partId) := by
    rintro ⟨lv, h1, h2⟩
    simp only [List.getElem?_cons_zero, Option.some.injEq] at h1
    subst h1
    simp at h2
  have hnew : (0, l0.partId) ∉ pathsOf 0 (l0 :: ls) := fun hm => hnb (h.bd _ hm)
  have hnm : (0, l0.partId) ∉ ops.flatMap COp.paths := fun hm => hnb (h.ment _ hm)
  have hbp : ∀ p, bound (l0 :: ls) p → bound (⟨l0.partId + 1, l0.parts ++ [q]⟩ :: ls) p := by
    intro p hp
    exact bound_push (k := 0) (q := q) hp
  have hbn : bound (⟨l0.partId + 1, l0.parts ++ [q]⟩ :: ls) (0, l0.partId) :=
    ⟨_, rfl, by simp⟩
  have hperm := pathsOf_pushPart 0 0 q (l0 :: ls) (by simp)
  simp only [List.modify_zero_cons, Nat.zero_add, hq] at hperm
  have hG : ∀ p ∈ pathsOf 0 (l0 :: ls), upd G (0, l0.partId) rows p = G p := by
    intro p hp
    simp only [upd]
    rw [if_neg]
    rintro rfl
    exact hnew hp
  refine ⟨⟨?_, ?_, ?_, fun p hp => hbp p (h.ment p hp), ?_, ?_⟩, hperm, hnew⟩
  · refine hperm.nodup_iff.mpr ?_
    rw [List.nodup_append]
    refine ⟨h.nd, by simp, ?_⟩
    intro a ha b hb
    simp at hb
    subst hb
    rintro rfl
    exact hnew ha
  · intro p hp
    rcases List.mem_append.mp (hperm.mem_iff.mp hp) with hp | hp
    · exact hbp p (h.bd p hp)
    · simp at hp; subst hp; exact hbn
  · intro l i hl hb
    rw [setPart_ne]
    · exact h.fresh l i (by simpa using hl) (fun hb' => hb (hbp _ hb'))
    · rintro ⟨rfl, rfl⟩; exact hb hbn
  · intro k lv hlv q' hq'
    cases k with
    | zero =>
      simp only [List.getElem?_cons_zero, Option.some.injEq] at hlv
      subst hlv
      rcases List.mem_append.mp hq' with hq' | hq'
      · rw [hG _ (mem_pathsOf.mpr ⟨0, l0, q', rfl, hq', by simp⟩)]
        exact h.ok 0 l0 rfl q' hq'
      · simp at hq'
        subst hq'
        simp only [upd, hq, if_true]
        exact hg
    | succ k =>
      rw [hG _ (mem_pathsOf.mpr ⟨k + 1, lv, q', by simpa using hlv, hq', by simp⟩)]
      exact h.ok (k + 1) lv (by simpa using hlv) q' hq'
  · intro c hc
    obtain ⟨D, c', h1, h2⟩ := h.virt c hc
    refine ⟨setPart D 0 l0.partId (some (.full rows)), c', ?_, ?_⟩
    · rw [execOps_setPart _ _ _ _ _ _ hnm, h1]; rfl
    · intro p hp
      rcases List.mem_append.mp (hperm.mem_iff.mp hp) with hp | hp
      · rw [hG p hp, setPart_ne]
        · exact h2 p hp
        · rintro ⟨e1, e2⟩
          exact hnew (by rw [show ((0, l0.partId) : Nat × Nat) = p from Prod.ext e1.symm e2.symm]; exact hp)
      · simp at hp
        subst hp
        simp [upd, setPart_same]

/-- The rows after such a flush. -/
theorem push_rows {G : Nat × Nat → List R} {ls ls' : List (DLevel K)} {x : Nat × Nat} {rows mem ins : List R}
    (hp : (pathsOf 0 ls').Perm (pathsOf 0 ls ++ [x])) (hx : x ∉ pathsOf 0 ls)
    (hr : rows.Perm mem) (h : ((pathsOf 0 ls).flatMap G ++ mem).Perm ins) :
    ((pathsOf 0 ls').flatMap (upd G x rows) ++ []).Perm ins := by
  rw [List.append_nil]
  refine (hp.flatMap_right _).trans ?_
  rw [List.flatMap_append]
  have e : (pathsOf 0 ls).flatMap (upd G x rows) = (pathsOf 0 ls).flatMap G := by
    apply flatMap_congr'
    intro p hp'
    simp only [upd]
    rw [if_neg]
    rintro rfl
    exact hx hp'
  rw [e]
  have e2 : [x].flatMap (upd G x rows) = rows := by simp [upd]
  rw [e2]
  exact (List.Perm.append_left _ hr).trans h

/-! ### the steps of a flush -/

theorem flush_shape {le : K → K → Prop} (ho : TotOrd le) {e : Env R K} {sort : List R → List R}
    (he : EnvOk le sort e) {d : Disk R K} {p : Proc R K} {l0 : DLevel K} {ls : List (DLevel K)}
    (hl : p.md.levels = l0 :: ls) (hlogs : d.logs = [(p.md.logId, p.mem)])
    (hf : d.parts 0 l0.partId = none) (hne : p.mem ≠ []) :
    ∃ q, q.id = l0.partId ∧ GoodPart le e.key (sort p.mem) q ∧
      flush e.key e.toBlock e.size d p = some (⟨some ⟨p.md.logId + 1, ⟨l0.partId + 1, l0.parts ++ [q]⟩ :: ls⟩,
        [(p.md.logId + 1, [])], setPart d.parts 0 l0.partId (some (.full (sort p.mem)))⟩,
        ⟨⟨p.md.logId + 1, ⟨l0.partId + 1, l0.parts ++ [q]⟩ :: ls⟩, [], p.md.logId + 1⟩) := by
  have hlen : p.mem.length ≠ 0 := fun e => hne (List.eq_nil_of_length_eq_zero e)
  have hsne : sort p.mem ≠ [] := by
    intro e'
    have := (he.sorts.perm p.mem).length_eq
    rw [e'] at this
    exact hlen this.symm
  obtain ⟨q, a, b, hq, hid, hval, ha, hb, hmin, hmax⟩ :=
    mkPart_spec e.key e.size l0.partId (sort p.mem) hsne
  refine ⟨q, hid, ⟨hsne, hval, he.sorts.sorted _, ?_⟩, ?_⟩
  · intro r hr
    rw [hmin, hmax]
    exact ⟨head_le ho (he.sorts.sorted _) hr ha, le_last ho (he.sorts.sorted _) hr hb⟩
  · have hplan : flushPlan e.key e.toBlock e.size p = some ([.createPart 0 l0.partId,
        .fillPart 0 l0.partId (sort p.mem), .tearManifest,
        .putManifest ⟨p.md.logId + 1, ⟨l0.partId + 1, l0.parts ++ [q]⟩ :: ls⟩,
        .removeLog p.md.logId, .createLog (p.md.logId + 1)],
        ⟨⟨p.md.logId + 1, ⟨l0.partId + 1, l0.parts ++ [q]⟩ :: ls⟩, [], p.md.logId + 1⟩) := by
      unfold flushPlan
      simp [hl, he.blocks p.mem hne, hq, Md.flushed]
    unfold flush
    rw [if_neg hlen, hplan]
    have e2 : setPart (setPart d.parts 0 l0.partId (some .torn)) 0 l0.partId (some (.full (sort p.mem))) =
        setPart d.parts 0 l0.partId (some (.full (sort p.mem))) := by
      funext l i
      simp only [setPart]
      split <;> rfl
    simp [Disk.applyAll, Disk.apply, hf, hlogs, e2]

/-! ### what merging does to the counts -/

structure CntInv (L0 : List (DLevel K)) (c0 : Cnt) (st : CState R K) : Prop where
  acc : ∀ x : Nat × Nat, c0 x.1 x.2 + mentions st.ops x ≤ st.cnt x.1 x.2
  prot : ∀ x ∈ pathsOf 0 st.levels, x ∈ pathsOf 0 L0 ∨ c0 x.1 x.2 + 1 ≤ st.cnt x.1 x.2
  cover : ∀ x ∈ pathsOf 0 L0, x ∈ pathsOf 0 st.levels ∨ 1 ≤ mentions st.ops x

theorem addOuts_cnt {k : Nat} (outs : List (MOut R K)) : ∀ (st : CState R K), k < st.levels.length →
    (∀ x : Nat × Nat, st.cnt x.1 x.2 ≤ (outs.foldl (addOut k) st).cnt x.1 x.2) ∧
    (∀ x ∈ pathsOf 0 (outs.foldl (addOut k) st).levels, x ∈ pathsOf 0 st.levels ∨
      st.cnt x.1 x.2 + 1 ≤ (outs.foldl (addOut k) st).cnt x.1 x.2) := by
  induction outs with
  | nil => intro st _; exact ⟨fun _ => Nat.le_refl _, fun x hx => .inl hx⟩
  | cons o outs ih =>
    intro st hlen
    obtain ⟨b, hb⟩ : ∃ b, st.levels[k]? = some b := ⟨_, List.getElem?_eq_getElem hlen⟩
    have e : addOut k st o = { st with
        levels := st.levels.modify k (pushPart ⟨b.partId + 1, o.size, o.values, o.min, o.max⟩)
        files := setPart st.files k (b.partId + 1) (some (.full o.rows))
        cnt := (st.cnt.open (k, b.partId + 1)).open (k, b.partId + 1) } := by
      simp only [addOut, hb]
    obtain ⟨h1, h2⟩ := ih (addOut k st o) (by rw [e]; simpa using hlen)
    have hc : ∀ x : Nat × Nat, st.cnt x.1 x.2 ≤ (addOut k st o).cnt x.1 x.2 := by
      intro x; rw [e]; simp only [Cnt.open]; split <;> omega
    simp only [List.foldl_cons]
    refine ⟨fun x => Nat.le_trans (hc x) (h1 x), ?_⟩
    intro x hx
    rcases h2 x hx with h | h
    · rw [e] at h
      rcases List.mem_append.mp ((pathsOf_pushPart 0 k _ st.levels hlen).mem_iff.mp h) with h | h
      · exact .inl h
      · right
        have := h1 x
        simp only [Nat.zero_add, List.mem_singleton] at h
        have h3 : st.cnt x.1 x.2 + 1 ≤ (addOut k st o).cnt x.1 x.2 := by
          rw [e, h]; simp [Cnt.open]
        omega
    · have := hc x
      exact .inr (by omega)

theorem cntInv_loop {le : K → K → Prop} [DecidableRel le] {o : CompOpts}
    {merge : List (List R) → Option (List (MOut R K))} (lvls : List Nat)
    {L0 : List (DLevel K)} {c0 : Cnt} {st st' : CState R K} (h : CntInv L0 c0 st)
    (hs : compactLoop le o merge lvls st = some (some st')) : CntInv L0 c0 st' := by
  refine compactLoop_ind (CntInv L0 c0) ?_ ?_ ?_ lvls h hs
  · rintro st tcs ⟨h1, h2, h3⟩
    exact ⟨h1, h2, h3⟩
  · rintro st st' lvl b tc ⟨h1, h2, h3⟩ hb _ hst
    unfold moveStep at hst
    cases ha : st.levels[lvl]? with
    | none => rw [ha] at hst; simp at hst
    | some a =>
      rw [ha] at hst
      dsimp only at hst
      cases hq : a.parts.find? (fun q => q.id == tc) with
      | none => rw [hq] at hst; simp at hst
      | some q =>
        rw [hq] at hst
        simp only [Option.some.injEq] at hst
        have hid : tc ∈ a.parts.map PartRef.id := by
          have h4 := List.find?_some hq
          have h5 := List.mem_of_find?_eq_some hq
          simp only [beq_iff_eq] at h4
          exact List.mem_map.mpr ⟨q, h5, h4⟩
        have hp1 := pathsOf_erase 0 lvl tc st.levels a ha hid
        have hlen : lvl + 1 < st.levels.length := (List.getElem?_eq_some_iff.mp hb).1
        have hp2 := pathsOf_pushPart 0 (lvl + 1) ({ q with id := b.partId + 1 } : PartRef K)
          (st.levels.modify lvl fun lv => { lv with parts := lv.parts.eraseP fun q => q.id == tc })
          (by rw [List.length_modify]; exact hlen)
        simp only [Nat.zero_add] at hp1 hp2
        have hcnt : ∀ x : Nat × Nat, st'.cnt x.1 x.2 =
            st.cnt x.1 x.2 + [(lvl, tc), (lvl + 1, b.partId + 1)].count x := by
          intro x
          have := foldl_open [(lvl, tc), (lvl + 1, b.partId + 1)] st.cnt x.1 x.2
          rw [← hst]
          exact this
        have hm : ∀ x : Nat × Nat, mentions st'.ops x =
            mentions st.ops x + [(lvl, tc), (lvl + 1, b.partId + 1)].count x := by
          intro x
          rw [← hst]
          simp only
          rw [mentions_append, mentions_cons]
          simp [COp.paths, mentions]
        refine ⟨?_, ?_, ?_⟩
        · intro x
          have := h1 x
          have := hcnt x
          have := hm x
          omega
        · intro x hx
          have hx' : x ∈ pathsOf 0 ((st.levels.modify lvl fun lv =>
            { lv with parts := lv.parts.eraseP fun q => q.id == tc }).modify (lvl + 1)
              (pushPart { q with id := b.partId + 1 })) := by rw [← hst] at hx; exact hx
          rcases List.mem_append.mp (hp2.mem_iff.mp hx') with h | h
          · have := hcnt x
            rcases h2 x (hp1.mem_iff.mpr (List.mem_cons_of_mem _ h)) with h | h
            · exact .inl h
            · exact .inr (by omega)
          · right
            simp only [List.mem_singleton] at h
            have h4 := hcnt x
            have h5 := h1 x
            have : 1 ≤ [(lvl, tc), (lvl + 1, b.partId + 1)].count x := by
              rw [h]
              exact List.count_pos_iff.mpr (by simp)
            omega
        · intro x hx
          rcases h3 x hx with h | h
          · rcases List.mem_cons.mp (hp1.mem_iff.mp h) with h | h
            · right
              have := hm x
              have : 1 ≤ [(lvl, tc), (lvl + 1, b.partId + 1)].count x := by
                rw [h]
                exact List.count_pos_iff.mpr (by simp)
              omega
            · left
              rw [← hst]
              exact hp2.mem_iff.mpr (List.mem_append.mpr (.inl h))
          · right
            have := hm x
            omega
  · rintro st st' lvl tcs ⟨h1, h2, h3⟩ hlen hsub hst
    obtain ⟨_, f2, _, f4, _⟩ := mergeStep_frame hlen hst
    have hm : ∀ x : Nat × Nat, mentions st'.ops x = mentions st.ops x + tcs.count x := by
      intro x
      rw [f4, mentions_append, mentions_deletes]
    unfold mergeStep at hst
    cases hin : tcs.mapM (fun tc => fileRows st.files tc.1 tc.2) with
    | none => rw [hin] at hst; simp at hst
    | some ins =>
      rw [hin] at hst
      dsimp only at hst
      cases ho : merge ins with
      | none => rw [ho] at hst; simp at hst
      | some outs =>
        rw [ho] at hst
        simp only [Option.some.injEq] at hst
        obtain ⟨g1, g2⟩ := addOuts_cnt (k := lvl + 1) outs
          { st with levels := tcs.foldl (fun ls tc => ls.modify tc.1 (dropId tc.2)) st.levels }
          (by simpa [dropAll_length] using hlen)
        have hcnt : ∀ x : Nat × Nat, st'.cnt x.1 x.2 = (outs.foldl (addOut (lvl + 1))
            { st with levels := tcs.foldl (fun ls tc => ls.modify tc.1 (dropId tc.2)) st.levels }).cnt x.1 x.2
              + tcs.count x := by
          intro x
          rw [← hst]
          exact foldl_open tcs _ x.1 x.2
        refine ⟨?_, ?_, ?_⟩
        · intro x
          have := h1 x
          have := hcnt x
          have := hm x
          have := g1 x
          simp only at this
          omega
        · intro x hx
          rw [← hst] at hx
          have h4 := hcnt x
          have h5 := h1 x
          have h6 := g1 x
          rcases g2 x hx with h | h
          · rw [pathsOf_dropAll] at h
            rcases h2 x (List.mem_filter.mp h).1 with h | h
            · exact .inl h
            · right
              simp only at h6
              omega
          · right
            simp only at h
            omega
        · intro x hx
          have h4 := hm x
          rcases h3 x hx with h | h
          · by_cases hx' : x ∈ tcs
            · right
              have := List.count_pos_iff.mpr hx'
              omega
            · exact .inl (f2 x h hx')
          · exact .inr (by omega)

/-- Installing into the metadata that were copied gives the computed levels. -/
theorem install_levels {md : Md K} {st : CState R K} {l0 : DLevel K} (h0 : md.levels[0]? = some l0)
    (hst0 : st.levels[0]? = some { l0 with parts := l0.parts.filter fun q => !st.l0rem.contains q.id }) :
    (install md st).levels = st.levels := by
  cases hp : md.levels with
  | nil => rw [hp] at h0; simp at h0
  | cons a as =>
    cases hq : st.levels with
    | nil => rw [hq] at hst0; simp at hst0
    | cons b bs =>
      rw [hp] at h0
      rw [hq] at hst0
      simp only [List.getElem?_cons_zero, Option.some.injEq] at h0 hst0
      subst h0
      simp only [install, hp, hq]
      rw [hst0]

/-- Everything about the computation of a compaction. -/
theorem compute_spec [DecidableEq R] {le : K → K → Prop} [DecidableRel le] {e : Env R K} {sort : List R → List R}
    (he : EnvOk le sort e) {G : Nat × Nat → List R} {md : Md K} {f : Files R} {cnt : Cnt}
    (h : PInv le e.key G md.levels [] f) {st : CState R K}
    (hs : compact le e.opts e.merge f cnt md.levels = some (some st)) :
    ∃ G', (install md st).levels = st.levels ∧ PInv le e.key G' st.levels st.ops st.files ∧
      ((∀ t ∈ st.picks, t.Nodup) →
        ((pathsOf 0 st.levels).flatMap G').Perm ((pathsOf 0 md.levels).flatMap G)) ∧
      (∀ x ∈ pathsOf 0 md.levels, st.files x.1 x.2 = f x.1 x.2) ∧
      CntInv md.levels cnt st ∧ (∀ i ∈ st.l0rem, bound md.levels (0, i)) := by
  unfold compact at hs
  split at hs
  · simp at hs
  rename_i hlen
  have hinv := h.cinv cnt
  obtain ⟨G', picks, i1, i2, i3, i4, i5, i6, i7, i8, i9, i10⟩ := compactLoop_inv he.l0 he.merges _ hinv hs
  simp only [List.nil_append] at i2
  subst i2
  obtain ⟨l0, hl0⟩ : ∃ l0, md.levels[0]? = some l0 := ⟨_, List.getElem?_eq_getElem (by omega)⟩
  have hst0 := i7 l0 (by
    simp only [List.contains_nil, Bool.not_false]
    rw [hl0, List.filter_eq_self.mpr (by simp)])
  have hcr := crashInv_loop he.merges _ (L0 := md.levels) (F0 := f)
    ⟨⟨G, hinv⟩, fun _ h => h, fun _ _ => rfl, by intro a s t b he; simp at he⟩ hs
  have hci := cntInv_loop _ (L0 := md.levels) (c0 := cnt)
    ⟨fun x => by simp [mentions], fun x hx => .inl hx, fun x hx => .inl hx⟩ hs
  refine ⟨G', install_levels hl0 hst0, i1.pinv, i3, fun x hx => hcr.old x (h.bd x hx), hci, ?_⟩
  intro i hi
  rcases i8 i hi with h | h
  · simp at h
  · exact h

/-! ### the invariant of all interleavings -/

/-- No compaction has chosen a part twice. -/
def BSt.fine (s : BSt R K) : Prop := ∀ t ∈ s.picks, t.Nodup

structure Settled (le : K → K → Prop) (e : Env R K) (ins : List R) (s : BSt R K)
    (pend : Option (Nat × Nat)) (ops : List COp) : Prop where
  inv : ∃ G, PInv le e.key G s.p.md.levels ops s.d.parts ∧
    (s.fine → ((pathsOf 0 s.p.md.levels).flatMap G ++ s.p.mem).Perm ins)
  acc : ∀ x : Nat × Nat, held s.scans x + mentions ops x ≤ s.cnt x.1 x.2
  pend : ∀ a, pend = some a → bound s.p.md.levels a ∧
    (mentions ops a = 0 → a ∉ pathsOf 0 s.p.md.levels ∧ s.d.parts a.1 a.2 ≠ none)

structure Merging (le : K → K → Prop) (e : Env R K) (ins : List R) (s : BSt R K) (st : CState R K) : Prop where
  inv : ∃ G, PInv le e.key G (install s.p.md st).levels st.ops s.d.parts ∧
    (s.fine → ((pathsOf 0 (install s.p.md st).levels).flatMap G ++ s.p.mem).Perm ins)
  cur : ∃ G, (∀ x ∈ pathsOf 0 s.p.md.levels, s.d.parts x.1 x.2 = some (.full (G x))) ∧
    (s.fine → ((pathsOf 0 s.p.md.levels).flatMap G ++ s.p.mem).Perm ins)
  bd : ∀ x ∈ pathsOf 0 s.p.md.levels, bound s.p.md.levels x
  acc : ∀ x : Nat × Nat, held s.scans x + mentions st.ops x ≤ s.cnt x.1 x.2
  prot : ∀ x ∈ pathsOf 0 (install s.p.md st).levels, x ∈ pathsOf 0 s.p.md.levels ∨
    held s.scans x + 1 ≤ s.cnt x.1 x.2
  cover : ∀ x ∈ pathsOf 0 s.p.md.levels, x ∈ pathsOf 0 (install s.p.md st).levels ∨ 1 ≤ mentions st.ops x
  rem : ∀ i ∈ st.l0rem, bound s.p.md.levels (0, i)
  shape : st.levels ≠ []

inductive PhInv (le : K → K → Prop) (e : Env R K) (ins : List R) (s : BSt R K) : Prop where
  | idle (h : s.phase = .idle) (hs : Settled le e ins s none [])
  | fin (pend : Option (Nat × Nat)) (ops : List COp) (h : s.phase = .finishing pend ops)
      (hs : Settled le e ins s pend ops)
  | merg (st : CState R K) (h : s.phase = .merging st) (hs : Merging le e ins s st)

structure BInv (le : K → K → Prop) (e : Env R K) (ins : List R) (s : BSt R K) : Prop where
  mani : s.d.manifest = some s.p.md
  log : s.p.log = s.p.md.logId
  logs : s.d.logs = [(s.p.md.logId, s.p.mem)]
  lv : s.p.md.levels ≠ []
  scn : (s.scans.map Prod.fst).Nodup
  ph : PhInv le e ins s

theorem perm_snoc {A mem ins : List R} (r : R) (h : (A ++ mem).Perm ins) :
    (A ++ (mem ++ [r])).Perm (ins ++ [r]) := by
  rw [← List.append_assoc]
  exact List.Perm.append_right _ h

theorem insert_binv {le : K → K → Prop} {e : Env R K} {ins : List R} {s : BSt R K} (h : BInv le e ins s)
    (r : R) : BInv le e (ins ++ [r])
      { s with d := (insertRow s.d s.p r).1, p := (insertRow s.d s.p r).2 } := by
  refine ⟨h.mani, h.log, by simp [insertRow, h.logs, h.log], h.lv, h.scn, ?_⟩
  have settled : ∀ {pend ops}, Settled le e ins s pend ops → Settled le e (ins ++ [r])
      { s with d := (insertRow s.d s.p r).1, p := (insertRow s.d s.p r).2 } pend ops := by
    rintro pend ops ⟨⟨G, h1, h2⟩, h3, h4⟩
    exact ⟨⟨G, h1, fun hf => perm_snoc r (h2 hf)⟩, h3, h4⟩
  cases h.ph with
  | idle h1 h2 => exact .idle h1 (settled h2)
  | fin pend ops h1 h2 => exact .fin pend ops h1 (settled h2)
  | merg st h1 h2 =>
    obtain ⟨⟨G, i1, i2⟩, ⟨G2, j1, j2⟩, h3, h4, h5, h6, h7, h8⟩ := h2
    exact .merg st h1 ⟨⟨G, i1, fun hf => perm_snoc r (i2 hf)⟩, ⟨G2, j1, fun hf => perm_snoc r (j2 hf)⟩,
      h3, h4, h5, h6, h7, h8⟩

/-- The levels installed after a flush: the new part is pushed to the levels installed before it. -/
theorem install_push {md : Md K} {st : CState R K} {l0 : DLevel K} {ls : List (DLevel K)}
    (hl : md.levels = l0 :: ls) (hs : st.levels ≠ []) (n : Nat) {q : PartRef K}
    (hq : q.id ∉ st.l0rem) :
    ∃ as, (install md st).levels = { l0 with parts := l0.parts.filter fun q => !st.l0rem.contains q.id } :: as ∧
      (install ⟨n, ⟨l0.partId + 1, l0.parts ++ [q]⟩ :: ls⟩ st).levels =
        ⟨l0.partId + 1, (l0.parts.filter fun q => !st.l0rem.contains q.id) ++ [q]⟩ :: as := by
  cases hst : st.levels with
  | nil => exact absurd hst hs
  | cons a as =>
    refine ⟨as, ?_, ?_⟩
    · simp only [install, hl, hst]
    · simp only [install, hst, List.filter_append]
      congr 3
      rw [List.filter_eq_self]
      intro x hx
      simp only [List.mem_singleton] at hx
      subst hx
      simpa using hq

theorem flush_binv {le : K → K → Prop} (ho : TotOrd le) {e : Env R K} {sort : List R → List R}
    (he : EnvOk le sort e) {ins : List R} {s : BSt R K} (h : BInv le e ins s) {d : Disk R K} {p : Proc R K}
    (hs : flush e.key e.toBlock e.size s.d s.p = some (d, p)) : BInv le e ins { s with d := d, p := p } := by
  by_cases hne : s.p.mem = []
  · unfold flush at hs
    rw [if_pos (by rw [hne]; rfl)] at hs
    simp only [Option.some.injEq, Prod.mk.injEq] at hs
    obtain ⟨rfl, rfl⟩ := hs
    exact h
  cases hl : s.p.md.levels with
  | nil => exact absurd hl h.lv
  | cons l0 ls =>
    have hnb : ∀ {l0' : DLevel K} {ls'}, l0'.partId = l0.partId → ¬ bound (l0' :: ls') (0, l0.partId) := by
      rintro l0' ls' e1 ⟨lv, h1, h2⟩
      simp only [List.getElem?_cons_zero, Option.some.injEq] at h1
      subst h1
      simp at h2
      omega
    have hfree : s.d.parts 0 l0.partId = none := by
      have settled : ∀ {pend ops}, Settled le e ins s pend ops → s.d.parts 0 l0.partId = none := by
        rintro pend ops ⟨⟨G, h1, h2⟩, h3, h4⟩
        rw [hl] at h1
        exact h1.fresh 0 l0.partId (by simp) (hnb rfl)
      cases h.ph with
      | idle h1 h2 => exact settled h2
      | fin pend ops h1 h2 => exact settled h2
      | merg st h1 h2 =>
        obtain ⟨G, i1, _⟩ := h2.inv
        cases hst : st.levels with
        | nil => exact absurd hst h2.shape
        | cons a as =>
          have : (install s.p.md st).levels =
              { l0 with parts := l0.parts.filter fun q => !st.l0rem.contains q.id } :: as := by
            simp only [install, hl, hst]
          rw [this] at i1
          exact i1.fresh 0 l0.partId (by simp) (hnb rfl)
    obtain ⟨q, hid, hgood, hfl⟩ := flush_shape ho he hl h.logs hfree hne
    rw [hfl] at hs
    simp only [Option.some.injEq, Prod.mk.injEq] at hs
    obtain ⟨rfl, rfl⟩ := hs
    refine ⟨rfl, rfl, rfl, by simp, h.scn, ?_⟩
    have settled : ∀ {pend ops}, Settled le e ins s pend ops → Settled le e ins
        { s with d := ⟨some ⟨s.p.md.logId + 1, ⟨l0.partId + 1, l0.parts ++ [q]⟩ :: ls⟩,
                  [(s.p.md.logId + 1, [])], setPart s.d.parts 0 l0.partId (some (.full (sort s.p.mem)))⟩
                 p := ⟨⟨s.p.md.logId + 1, ⟨l0.partId + 1, l0.parts ++ [q]⟩ :: ls⟩, [], s.p.md.logId + 1⟩ }
        pend ops := by
      rintro pend ops ⟨⟨G, h1, h2⟩, h3, h4⟩
      rw [hl] at h1 h2
      obtain ⟨p1, p2, p3⟩ := h1.push0 hid hgood
      refine ⟨⟨_, p1, fun hf => push_rows p2 p3 (he.sorts.perm _) (h2 hf)⟩, h3, ?_⟩
      intro a ha
      obtain ⟨b1, b2⟩ := h4 a ha
      rw [hl] at b1 b2
      have hane : a ≠ (0, l0.partId) := by rintro rfl; exact hnb rfl b1
      refine ⟨bound_push (k := 0) (q := q) b1, fun hm => ⟨?_, ?_⟩⟩
      · intro hp
        rcases List.mem_append.mp (p2.mem_iff.mp hp) with hp | hp
        · exact (b2 hm).1 hp
        · simp at hp; exact hane hp
      · show setPart _ _ _ _ _ _ ≠ none
        rw [setPart_ne]
        · exact (b2 hm).2
        · rintro ⟨e1, e2⟩; exact hane (Prod.ext e1 e2)
    cases h.ph with
    | idle h1 h2 => exact .idle h1 (settled h2)
    | fin pend ops h1 h2 => exact .fin pend ops h1 (settled h2)
    | merg st h1 h2 =>
      obtain ⟨⟨G, i1, i2⟩, ⟨G2, j1, j2⟩, hbd, hacc, hprot, hcov, hrem, hshape⟩ := h2
      have hqr : q.id ∉ st.l0rem := by
        intro hm
        have := hrem _ hm
        rw [hl, hid] at this
        exact hnb rfl this
      obtain ⟨as, e1, e2⟩ := install_push hl hshape (s.p.md.logId + 1) hqr
      rw [e1] at i1 i2
      rw [hl] at j1 j2 hbd
      obtain ⟨p1, p2, p3⟩ := i1.push0 hid hgood
      have q2 := pathsOf_pushPart 0 0 q (l0 :: ls) (by simp)
      simp only [List.modify_zero_cons, Nat.zero_add, hid] at q2
      have q3 : (0, l0.partId) ∉ pathsOf 0 (l0 :: ls) := fun hm => hnb rfl (hbd _ hm)
      refine .merg st h1 ⟨⟨_, by rw [e2]; exact p1, ?_⟩, ⟨upd G2 (0, l0.partId) (sort s.p.mem), ?_, ?_⟩,
        ?_, hacc, ?_, ?_, ?_, hshape⟩
      · intro hf
        have := push_rows p2 p3 (he.sorts.perm _) (i2 hf)
        simp only
        rw [e2]
        exact this
      · intro x hx
        rcases List.mem_append.mp (q2.mem_iff.mp hx) with hx | hx
        · have hxne : x ≠ (0, l0.partId) := by rintro rfl; exact q3 hx
          show setPart _ _ _ _ _ _ = _
          rw [setPart_ne]
          · rw [j1 x hx]; simp [upd, hxne]
          · rintro ⟨e1, e2⟩; exact hxne (Prod.ext e1 e2)
        · simp at hx
          subst hx
          simp [upd, setPart_same]
      · intro hf
        exact push_rows q2 q3 (he.sorts.perm _) (j2 hf)
      · intro x hx
        rcases List.mem_append.mp (q2.mem_iff.mp hx) with hx | hx
        · exact bound_push (k := 0) (q := q) (hbd x hx)
        · simp at hx
          subst hx
          exact ⟨_, rfl, by simp⟩
      · intro x hx
        simp only at hx
        rw [e2] at hx
        rcases List.mem_append.mp (p2.mem_iff.mp hx) with hx | hx
        · rcases hprot x (by rw [e1]; exact hx) with h | h
          · rw [hl] at h
            exact .inl (q2.mem_iff.mpr (List.mem_append.mpr (.inl h)))
          · exact .inr h
        · exact .inl (q2.mem_iff.mpr (List.mem_append.mpr (.inr hx)))
      · intro x hx
        simp only
        rw [e2]
        rcases List.mem_append.mp (q2.mem_iff.mp hx) with hx | hx
        · rcases hcov x (by rw [hl]; exact hx) with h | h
          · rw [e1] at h
            exact .inl (p2.mem_iff.mpr (List.mem_append.mpr (.inl h)))
          · exact .inr h
        · exact .inl (p2.mem_iff.mpr (List.mem_append.mpr (.inr hx)))
      · intro i hi
        have := hrem i hi
        rw [hl] at this
        exact bound_push (k := 0) (q := q) this

theorem gc_files {busy : Nat → Nat → Bool} {d : Disk R K} {md : Md K} (l i : Nat) :
    (gcPass busy d md).parts l i = d.parts l i ∨
    ((gcPass busy d md).parts l i = none ∧ (l, i) ∉ pathsOf 0 md.levels ∧ busy l i = false) := by
  simp only [gcPass]
  cases hl : md.levels[l]? with
  | none => exact .inl rfl
  | some lv =>
    dsimp only
    by_cases h : (lv.parts.any fun p => p.id == i) || busy l i
    · rw [if_pos h]; exact .inl rfl
    · rw [if_neg h]
      right
      simp only [Bool.or_eq_true, not_or, Bool.not_eq_true] at h
      refine ⟨rfl, ?_, h.2⟩
      intro hp
      obtain ⟨k, lv', q, h1, h2, h3⟩ := mem_pathsOf.mp hp
      simp only [Nat.zero_add, Prod.mk.injEq] at h3
      obtain ⟨rfl, rfl⟩ := h3
      rw [hl] at h1
      injection h1 with h1
      subst h1
      have := List.any_eq_false.mp h.1 q h2
      simp at this

theorem gc_binv {le : K → K → Prop} {e : Env R K} {ins : List R} {s : BSt R K} (h : BInv le e ins s)
    (hc : s.calm .gc) :
    BInv le e ins { s with d := gcPass (fun l i => s.cnt l i != 0) s.d s.p.md } := by
  refine ⟨h.mani, h.log, by simp [gcPass, h.logs], h.lv, h.scn, ?_⟩
  have hg := gc_files (busy := fun l i => s.cnt l i != 0) (d := s.d) (md := s.p.md)
  have hfree : ∀ {l i : Nat}, (s.cnt l i != 0) = false → s.cnt l i = 0 := by
    intro l i h; simpa using h
  have settled : ∀ {ops}, Settled le e ins s none ops →
      Settled le e ins { s with d := gcPass (fun l i => s.cnt l i != 0) s.d s.p.md } none ops := by
    rintro ops ⟨⟨G, h1, h2⟩, h3, h4⟩
    refine ⟨⟨G, h1.remove ?_, h2⟩, h3, fun a ha => by cases ha⟩
    intro l i
    rcases hg l i with hh | ⟨g1, g2, g3⟩
    · exact .inl hh
    · refine .inr ⟨g1, g2, mentions_zero.mp ?_⟩
      have := h3 (l, i)
      have := hfree g3
      simp only at *
      omega
  cases h.ph with
  | idle h1 h2 => exact .idle h1 (settled h2)
  | fin pend ops h1 h2 =>
    cases pend with
    | none => exact .fin none ops h1 (settled h2)
    | some a => exact absurd h1 (hc a ops)
  | merg st h1 h2 =>
    obtain ⟨⟨G, i1, i2⟩, ⟨G2, j1, j2⟩, hbd, hacc, hprot, hcov, hrem, hshape⟩ := h2
    refine .merg st h1 ⟨⟨G, i1.remove ?_, i2⟩, ⟨G2, ?_, j2⟩, hbd, hacc, hprot, hcov, hrem, hshape⟩
    · intro l i
      rcases hg l i with hh | ⟨g1, g2, g3⟩
      · exact .inl hh
      · have h0 := hfree g3
        have := hacc (l, i)
        refine .inr ⟨g1, ?_, mentions_zero.mp ?_⟩
        · intro hp
          rcases hprot _ hp with hh | hh
          · exact g2 hh
          · simp only at hh; omega
        · simp only at this
          omega
    · intro x hx
      rcases hg x.1 x.2 with hh | hh
      · exact hh.trans (j1 x hx)
      · exact absurd hx hh.2.1

/-- Steps that only change counts and scans. -/
theorem scans_binv {le : K → K → Prop} {e : Env R K} {ins : List R} {s : BSt R K} (h : BInv le e ins s)
    {c : Cnt} {scans : List (Nat × Sc R)} {out : List (Nat × Option (List R))}
    (hn : (scans.map Prod.fst).Nodup)
    (hc : ∀ x : Nat × Nat, held scans x + s.cnt x.1 x.2 ≤ c x.1 x.2 + held s.scans x) :
    BInv le e ins { s with cnt := c, scans := scans, out := out } := by
  refine ⟨h.mani, h.log, h.logs, h.lv, hn, ?_⟩
  have settled : ∀ {pend ops}, Settled le e ins s pend ops →
      Settled le e ins { s with cnt := c, scans := scans, out := out } pend ops := by
    rintro pend ops ⟨h1, h3, h4⟩
    exact ⟨h1, fun x => by have := hc x; have := h3 x; simp only; omega, h4⟩
  cases h.ph with
  | idle h1 h2 => exact .idle h1 (settled h2)
  | fin pend ops h1 h2 => exact .fin pend ops h1 (settled h2)
  | merg st h1 h2 =>
    obtain ⟨h2, h3, h4, h5, h6, h7, h8, h9⟩ := h2
    refine .merg st h1 ⟨h2, h3, h4, ?_, ?_, h7, h8, h9⟩
    · intro x; have := hc x; have := h5 x; simp only; omega
    · intro x hx
      have := hc x
      rcases h6 x hx with h | h
      · exact .inl h
      · exact .inr (by simp only; omega)

theorem op_binv {le : K → K → Prop} {e : Env R K} {ins : List R} {s s' : BSt R K} (h : BInv le e ins s)
    (hs : opStep s = some s') : BInv le e ins s' := by
  cases h.ph with
  | idle h1 _ => unfold opStep at hs; rw [h1] at hs; simp at hs
  | merg st h1 _ => unfold opStep at hs; rw [h1] at hs; simp at hs
  | fin pend ops h1 h2 =>
    obtain ⟨⟨G, i1, i2⟩, hacc, hpend⟩ := h2
    unfold opStep at hs
    rw [h1] at hs
    cases pend with
    | some a =>
      dsimp only at hs
      obtain ⟨b1, b2⟩ := hpend a rfl
      by_cases h0 : s.cnt a.1 a.2 = 0
      · rw [if_pos h0] at hs
        have hm : mentions ops a = 0 := by have := hacc a; omega
        obtain ⟨b3, b4⟩ := b2 hm
        cases hf : s.d.parts a.1 a.2 with
        | none => exact absurd hf b4
        | some v =>
          rw [hf] at hs
          simp only [Option.some.injEq] at hs
          subst hs
          refine ⟨h.mani, h.log, h.logs, h.lv, h.scn, .fin none ops rfl ⟨⟨G, i1.remove ?_, i2⟩, hacc, fun a ha => by cases ha⟩⟩
          intro l i
          by_cases ha : (l, i) = a
          · subst ha
            exact .inr ⟨setPart_same _ _ _ _, b3, mentions_zero.mp hm⟩
          · exact .inl (setPart_ne _ _ (by rintro ⟨e1, e2⟩; exact ha (Prod.ext e1 e2)))
      · rw [if_neg h0] at hs
        simp only [Option.some.injEq] at hs
        subst hs
        exact ⟨h.mani, h.log, h.logs, h.lv, h.scn, .fin none ops rfl ⟨⟨G, i1, i2⟩, hacc, fun a ha => by cases ha⟩⟩
    | none =>
      cases ops with
      | nil =>
        simp only [Option.some.injEq] at hs
        subst hs
        exact ⟨h.mani, h.log, h.logs, h.lv, h.scn, .idle rfl ⟨⟨G, i1, i2⟩, hacc, hpend⟩⟩
      | cons op ops =>
        cases op with
        | rename a b =>
          dsimp only at hs
          obtain ⟨v, hv, hp⟩ := i1.rename
          rw [hv] at hs
          have hma : ∀ x : Nat × Nat, held s.scans x + [a, b].count x + mentions ops x ≤ s.cnt x.1 x.2 := by
            intro x
            have := hacc x
            rw [mentions_cons] at this
            simp only [COp.paths] at this
            omega
          have hca : 1 ≤ s.cnt a.1 a.2 := by
            have := hma a
            rw [List.count_cons_self] at this
            omega
          rw [Cnt.close_some hca] at hs
          dsimp only at hs
          have hcb : 1 ≤ (fun l i => if (l, i) = a then s.cnt l i - 1 else s.cnt l i) b.1 b.2 := by
            show 1 ≤ if (b.1, b.2) = a then _ else _
            have := hma b
            rw [List.count_cons, List.count_cons_self] at this
            by_cases e' : b = a
            · rw [if_pos e']; subst e'; simp at this; omega
            · rw [if_neg e']; omega
          rw [Cnt.close_some hcb] at hs
          simp only [Option.some.injEq] at hs
          subst hs
          refine ⟨h.mani, h.log, h.logs, h.lv, h.scn, .fin none ops rfl ⟨⟨G, hp, i2⟩, ?_, fun a ha => by cases ha⟩⟩
          intro x
          have := hma x
          rw [List.count_cons, List.count_cons, List.count_nil] at this
          show held s.scans x + mentions ops x ≤ if x = b then (if x = a then _ else _) - 1 else (if x = a then _ else _)
          by_cases e1 : x = a <;> by_cases e2 : x = b
          · subst e1; subst e2; simp at this ⊢; omega
          · subst e1; rw [if_neg e2, if_pos rfl]; simp at this; omega
          · subst e2; rw [if_pos rfl, if_neg e1]; simp at this; omega
          · rw [if_neg e2, if_neg e1]; omega
        | delete a =>
          dsimp only at hs
          obtain ⟨p1, p2, p3⟩ := i1.release
          have hma : ∀ x : Nat × Nat, held s.scans x + [a].count x + mentions ops x ≤ s.cnt x.1 x.2 := by
            intro x
            have := hacc x
            rw [mentions_cons] at this
            simp only [COp.paths] at this
            omega
          have hca : 1 ≤ s.cnt a.1 a.2 := by
            have := hma a
            rw [List.count_cons_self] at this
            omega
          rw [Cnt.close_some hca] at hs
          simp only [Option.some.injEq] at hs
          subst hs
          refine ⟨h.mani, h.log, h.logs, h.lv, h.scn, .fin (some a) ops rfl ⟨⟨G, p1, i2⟩, ?_, ?_⟩⟩
          · intro x
            have := hma x
            rw [List.count_cons, List.count_nil] at this
            show held s.scans x + mentions ops x ≤ if x = a then _ else _
            by_cases e1 : x = a
            · subst e1; rw [if_pos rfl]; simp at this; omega
            · rw [if_neg e1]; omega
          · intro b hb
            injection hb with hb
            subst hb
            exact ⟨p2, p3⟩

theorem binv_step [DecidableEq R] {le : K → K → Prop} [DecidableRel le] (ho : TotOrd le) {e : Env R K}
    {sort : List R → List R} (he : EnvOk le sort e) {ins : List R} {s s' : BSt R K} (h : BInv le e ins s)
    {a : BAct R} (hc : s.calm a) (hs : bstep le e s a = some s') : BInv le e (ins ++ a.rows) s' := by
  cases a with
  | insert r =>
    simp only [bstep, Option.some.injEq] at hs
    subst hs
    exact insert_binv h r
  | flush =>
    simp only [bstep] at hs
    simp only [BAct.rows, List.append_nil]
    cases hf : flush e.key e.toBlock e.size s.d s.p with
    | none => rw [hf] at hs; simp at hs
    | some x =>
      obtain ⟨d, p⟩ := x
      rw [hf] at hs
      simp only [Option.some.injEq] at hs
      subst hs
      exact flush_binv ho he h hf
  | compute =>
    simp only [BAct.rows, List.append_nil]
    cases h.ph with
    | fin pend ops h1 _ => simp only [bstep, h1] at hs; simp at hs
    | merg st h1 _ => simp only [bstep, h1] at hs; simp at hs
    | idle h1 h2 =>
      simp only [bstep, h1] at hs
      cases hcp : compact le e.opts e.merge s.d.parts s.cnt s.p.md.levels with
      | none => rw [hcp] at hs; simp at hs
      | some o =>
        rw [hcp] at hs
        cases o with
        | none =>
          simp only [Option.some.injEq] at hs
          subst hs
          exact h
        | some st =>
          simp only [Option.some.injEq] at hs
          obtain ⟨⟨G, i1, i2⟩, hacc, _⟩ := h2
          obtain ⟨G', c1, c2, c3, c4, c5, c6⟩ := compute_spec he i1 hcp
          subst hs
          refine ⟨h.mani, h.log, h.logs, h.lv, h.scn, .merg st rfl ⟨⟨G', ?_, ?_⟩, ⟨G, ?_, ?_⟩, i1.bd, ?_, ?_, ?_, c6, ?_⟩⟩
          · simp only; rw [c1]; exact c2
          · intro hf
            simp only
            rw [c1]
            have hf1 : s.fine := fun t ht => hf t (by simp [ht])
            exact (List.Perm.append_right _ (c3 fun t ht => hf t (by simp [ht]))).trans (i2 hf1)
          · intro x hx
            simp only
            rw [c4 x hx]
            exact i1.files (by intro a b hm; cases hm) x hx
          · intro hf
            exact i2 fun t ht => hf t (by simp [ht])
          · intro x
            have := c5.acc x
            have := hacc x
            simp only
            omega
          · intro x hx
            simp only at hx
            rw [c1] at hx
            have := hacc x
            rcases c5.prot x hx with hh | hh
            · exact .inl hh
            · exact .inr (by simp only; omega)
          · intro x hx
            simp only
            rw [c1]
            exact c5.cover x hx
          · intro hst
            have e2 : install s.p.md st = s.p.md := by
              unfold install
              split
              · rename_i h2; rw [hst] at h2; cases h2
              · rfl
            rw [e2, hst] at c1
            exact h.lv c1
  | install =>
    simp only [BAct.rows, List.append_nil]
    cases h.ph with
    | fin pend ops h1 _ => simp only [bstep, h1] at hs; simp at hs
    | idle h1 _ => simp only [bstep, h1] at hs; simp at hs
    | merg st h1 h2 =>
      simp only [bstep, h1, Option.some.injEq] at hs
      subst hs
      obtain ⟨⟨G, i1, i2⟩, _, _, hacc, _, _, _, hshape⟩ := h2
      have hlog : (install s.p.md st).logId = s.p.md.logId := by unfold install; split <;> rfl
      refine ⟨rfl, by simp only; rw [hlog]; exact h.log, by simp only; rw [hlog]; exact h.logs, ?_, h.scn,
        .fin none st.ops rfl ⟨⟨G, i1, i2⟩, hacc, fun a ha => by cases ha⟩⟩
      simp only
      unfold install
      split
      · simp
      · rename_i hno
        intro hl
        exact h.lv hl
  | op =>
    simp only [BAct.rows, List.append_nil]
    exact op_binv h hs
  | gc =>
    simp only [bstep, Option.some.injEq] at hs
    subst hs
    simp only [BAct.rows, List.append_nil]
    exact gc_binv h hc
  | scanStart t =>
    simp only [BAct.rows, List.append_nil]
    simp only [bstep] at hs
    cases hsc : scanOf s t with
    | some x => rw [hsc] at hs; simp at hs
    | none =>
      rw [hsc] at hs
      simp only [Option.some.injEq] at hs
      subst hs
      refine scans_binv h (out := s.out) ?_ ?_
      · simp only [List.map_cons, List.nodup_cons]
        refine ⟨?_, h.scn⟩
        intro hm
        obtain ⟨y, hy, e1⟩ := List.mem_map.mp hm
        have := List.lookup_eq_none_iff.mp hsc y hy
        simp [e1] at this
      · intro x; simp [held]; omega
  | scanOpen t =>
    simp only [BAct.rows, List.append_nil]
    simp only [bstep] at hs
    cases hsc : scanOf s t with
    | none => rw [hsc] at hs; simp at hs
    | some sc =>
      obtain ⟨todo, opened, rows⟩ := sc
      rw [hsc] at hs
      have hd := fun x => held_drop h.scn hsc x
      obtain ⟨n1, n2⟩ := dropScan_nodup h.scn t
      cases todo with
      | nil => simp at hs
      | cons y todo =>
        dsimp only at hs
        cases hf : fileRows s.d.parts y.1 y.2 with
        | none =>
          rw [hf] at hs
          simp only [Option.some.injEq] at hs
          subst hs
          refine scans_binv h n1 ?_
          intro x
          have := hd x
          simp only [Cnt.open]
          split <;> omega
        | some r =>
          rw [hf] at hs
          simp only [Option.some.injEq] at hs
          subst hs
          refine scans_binv h (out := s.out) ?_ ?_
          · simp only [List.map_cons, List.nodup_cons]
            exact ⟨n2, n1⟩
          · intro x
            have h1 := hd x
            have h2 : held ((t, (⟨todo, y :: opened, rows ++ r⟩ : Sc R)) :: dropScan t s.scans) x =
                (y :: opened).count x + held (dropScan t s.scans) x := by simp [held]
            rw [h2, h1]
            simp only [Cnt.open]
            by_cases e1 : x = y
            · subst e1
              rw [List.count_cons_self, if_pos rfl]
              omega
            · rw [List.count_cons_of_ne (fun h => e1 h.symm), if_neg e1]
              omega
  | scanEnd t =>
    simp only [BAct.rows, List.append_nil]
    simp only [bstep] at hs
    cases hsc : scanOf s t with
    | none => rw [hsc] at hs; simp at hs
    | some sc =>
      obtain ⟨todo, opened, rows⟩ := sc
      rw [hsc] at hs
      cases todo with
      | cons y todo => simp at hs
      | nil =>
        dsimp only at hs
        have hd := fun x => held_drop h.scn hsc x
        obtain ⟨n1, n2⟩ := dropScan_nodup h.scn t
        have hle : ∀ x : Nat × Nat, opened.count x ≤ s.cnt x.1 x.2 := by
          intro x
          have h1 := hd x
          have h2 : held s.scans x ≤ s.cnt x.1 x.2 := by
            cases h.ph with
            | idle _ h2 => have := h2.acc x; omega
            | fin _ _ _ h2 => have := h2.acc x; omega
            | merg _ _ h2 => have := h2.acc x; omega
          simp only at h1
          omega
        obtain ⟨c', e1, e2⟩ := closeAll_spec hle
        rw [e1] at hs
        simp only [Option.some.injEq] at hs
        subst hs
        refine scans_binv h n1 ?_
        intro x
        have h1 := hd x
        have h2 := e2 x
        simp only at h1
        omega

theorem binv_run [DecidableEq R] {le : K → K → Prop} [DecidableRel le] (ho : TotOrd le) {e : Env R K}
    {sort : List R → List R} (he : EnvOk le sort e) (acts : List (BAct R)) :
    ∀ {ins : List R} {s s' : BSt R K}, BInv le e ins s → Calm le e s acts → brun le e s acts = some s' →
    BInv le e (ins ++ acts.flatMap BAct.rows) s' := by
  induction acts with
  | nil =>
    intro ins s s' h _ hs
    simp only [brun, Option.some.injEq] at hs
    subst hs
    simpa using h
  | cons a as ih =>
    intro ins s s' h hc hs
    simp only [brun] at hs
    cases h1 : bstep le e s a with
    | none => rw [h1] at hs; simp at hs
    | some s1 =>
      rw [h1] at hs
      have := ih (binv_step ho he h hc.1 h1) (hc.2 s1 h1) hs
      rwa [List.flatMap_cons, ← List.append_assoc]

theorem binv_init {le : K → K → Prop} {e : Env R K} {n : Nat} (hn : 1 ≤ n) :
    BInv le e [] (BSt.init n : BSt R K) := by
  have hc := create_clean (R := R) le e.key n
  have hi := CInv.pinv (st := ⟨(createProc n : Proc R K).md.levels, [], [], (createDisk n : Disk R K).parts,
    fun _ _ => 0, false, []⟩) (clean_inv hc (fun _ _ => 0))
  have hp : pathsOf 0 (createProc n : Proc R K).md.levels = [] := by
    simp only [createProc]
    have : ∀ (m k : Nat), pathsOf k (List.replicate m (⟨0, []⟩ : DLevel K)) = [] := by
      intro m
      induction m with
      | zero => intro k; rfl
      | succ m ih => intro k; simp [List.replicate_succ, pathsOf, ih]
    exact this n 0
  refine ⟨hc.manifest, hc.log, hc.logs, ?_, by simp [BSt.init], .idle rfl ⟨⟨_, hi, ?_⟩, ?_, fun a ha => by cases ha⟩⟩
  · simp only [BSt.init, createProc]
    intro h
    have := congrArg List.length h
    simp at this
    omega
  · intro _
    simp only [BSt.init]
    rw [hp]
    simp [createProc]
  · intro x; simp [BSt.init, held, mentions]

end OptiPrism.Storage
