import Verif.Storage.DiskProps

/-!
# Compaction

Model of /repo/src/storage/src/compaction.rs: `determine_compaction` 197-253, `compact` 255-400 and
one round of `Compactor::run` 117-180, with the open-file counts of `Fs`
(/repo/src/storage/src/lib.rs 130-195).

The merge of part files (`parquet_merger::merge`) is a parameter with the specification `IsMerge`.
Sizes are unbounded naturals: overflow of the `pow` and `*` on `usize` is not modelled.
-/

namespace OptiPrism.Storage

variable {R K : Type}

/-- The options of a table used by compaction, /repo/src/storage/src/table.rs 25-45. -/
structure CompOpts where
  l0MaxParts : Nat
  l1MaxSize : Nat
  levelMult : Nat
  maxL1Part : Nat
  partMult : Nat
  deriving DecidableEq, Repr

/-- `max_part_size_bytes`, compaction.rs 213-214. -/
def CompOpts.maxPart (o : CompOpts) (lvl : Nat) : Nat := o.maxL1Part * o.partMult ^ lvl

/-- `level_threshold`, 215-216. -/
def CompOpts.threshold (o : CompOpts) (lvl : Nat) : Nat := o.l1MaxSize * o.levelMult ^ (lvl - 1)

/-- The inner loop, 221-227: all parts from where the running size exceeds the maximal part size. -/
def overMax (M : Nat) : Nat → List (PartRef K) → List Nat
  | _, [] => []
  | s, p :: ps =>
    if M < s + p.size then p.id :: overMax M (s + p.size) ps else overMax M (s + p.size) ps

/-- The outer loop, 218-231. -/
def selectParts (T M : Nat) (all : List (PartRef K)) : Nat → List (PartRef K) → List Nat
  | _, [] => []
  | s, p :: ps =>
    if T < s + p.size then overMax M 0 all ++ p.id :: selectParts T M all (s + p.size) ps
    else selectParts T M all (s + p.size) ps

def minK (le : K → K → Prop) [DecidableRel le] (a b : K) : K := if le a b then a else b
def maxK (le : K → K → Prop) [DecidableRel le] (a b : K) : K := if le a b then b else a

/-- `determine_compaction`, 197-253. The parts are named (level, id). -/
def determine (le : K → K → Prop) [DecidableRel le] (o : CompOpts) (lvl : Nat) (a b : DLevel K) :
    Option (List (Nat × Nat)) :=
  let ids :=
    if lvl = 0 then (if o.l0MaxParts < a.parts.length then a.parts.map PartRef.id else [])
    else selectParts (o.threshold lvl) (o.maxPart lvl) a.parts 0 a.parts
  match ids.filterMap fun i => a.parts.find? (fun q => q.id == i) with
  | [] => none
  | q :: qs =>
    let mn := qs.foldl (fun m q => minK le m q.min) q.min
    let mx := qs.foldl (fun m q => maxK le m q.max) q.max
    some (ids.map (fun i => (lvl, i)) ++
      (b.parts.filter fun q => decide (¬ le (minK le q.max mx) (maxK le q.min mn))).map
        fun q => (lvl + 1, q.id))

/-- `FsOp`, lib.rs 197-201. -/
inductive COp where
  | rename (src dst : Nat × Nat)
  | delete (p : Nat × Nat)
  deriving DecidableEq, Repr

/-- `MergedFile` of parquet_merger.rs with the rows it contains. -/
structure MOut (R K : Type) where
  rows : List R
  size : Nat
  values : Nat
  min : K
  max : K

/-- `count` of `Fs` and files, both by path. -/
abbrev Files (R : Type) := Nat → Nat → Option (PFile R)
abbrev Cnt := Nat → Nat → Nat

/-- `Fs::open`, lib.rs 148-155. -/
def Cnt.open (c : Cnt) (p : Nat × Nat) : Cnt := fun l i => if (l, i) = p then c l i + 1 else c l i

/-- `Fs::close`, 157-164; `none` = subtraction underflow (panic). -/
def Cnt.close (c : Cnt) (p : Nat × Nat) : Option Cnt :=
  if c p.1 p.2 = 0 then none else some fun l i => if (l, i) = p then c l i - 1 else c l i

structure CState (R K : Type) where
  levels : List (DLevel K)
  ops : List COp
  l0rem : List Nat
  files : Files R
  cnt : Cnt
  done : Bool
  /-- ghost: what `determine_compaction` chose so far -/
  picks : List (List (Nat × Nat))

def dropId (i : Nat) (lv : DLevel K) : DLevel K := { lv with parts := lv.parts.filter fun q => q.id != i }

def pushPart (q : PartRef K) (lv : DLevel K) : DLevel K := ⟨lv.partId + 1, lv.parts ++ [q]⟩

/-- Moving a single part to the next level, 289-309. `none` = panic. -/
def moveStep (lvl : Nat) (id : Nat) (b : DLevel K) (st : CState R K) : Option (CState R K) :=
  match st.levels[lvl]? with
  | none => none
  | some a =>
    match a.parts.find? (fun q => q.id == id) with
    | none => none
    | some q =>
      some { st with
        levels := (st.levels.modify lvl fun lv =>
            { lv with parts := lv.parts.eraseP fun q => q.id == id }).modify (lvl + 1)
              (pushPart { q with id := b.partId + 1 })
        ops := st.ops ++ [.rename (lvl, id) (lvl + 1, b.partId + 1)]
        cnt := (st.cnt.open (lvl, id)).open (lvl + 1, b.partId + 1) }

/-- One output file of the merger: created and counted by `Merger::merge`, then counted again and
recorded by `compact`, 353-377. -/
def addOut (lvl : Nat) (st : CState R K) (o : MOut R K) : CState R K :=
  match st.levels[lvl]? with
  | none => st
  | some b =>
    { st with
      levels := st.levels.modify lvl (pushPart ⟨b.partId + 1, o.size, o.values, o.min, o.max⟩)
      files := setPart st.files lvl (b.partId + 1) (some (.full o.rows))
      cnt := (st.cnt.open (lvl, b.partId + 1)).open (lvl, b.partId + 1) }

/-- Merging several parts, 311-389. `none` = a file cannot be opened (`unwrap`) or the merge fails. -/
def mergeStep (merge : List (List R) → Option (List (MOut R K))) (lvl : Nat) (tcs : List (Nat × Nat))
    (st : CState R K) : Option (CState R K) :=
  let levels := tcs.foldl (fun ls tc => ls.modify tc.1 (dropId tc.2)) st.levels
  match tcs.mapM (fun tc => fileRows st.files tc.1 tc.2) with
  | none => none
  | some ins =>
    match merge ins with
    | none => none
    | some outs =>
      let st1 := outs.foldl (addOut (lvl + 1)) { st with levels := levels }
      some { st1 with
        l0rem := st1.l0rem ++ (tcs.filter fun tc => tc.1 == 0).map Prod.snd
        ops := st1.ops ++ tcs.map .delete
        cnt := tcs.foldl Cnt.open st1.cnt }

/-- The loop of `compact`, 267-394. Outer `none` = panic, inner `none` = nothing to compact. -/
def compactLoop (le : K → K → Prop) [DecidableRel le] (o : CompOpts)
    (merge : List (List R) → Option (List (MOut R K))) :
    List Nat → CState R K → Option (Option (CState R K))
  | [], st => some (some st)
  | lvl :: rest, st =>
    match st.levels[lvl]?, st.levels[lvl + 1]? with
    | some a, some b =>
      match determine le o lvl a b with
      | none => if st.done then some (some st) else some none
      | some tcs =>
        let st := { st with done := true, picks := st.picks ++ [tcs] }
        match (match tcs with
          | [tc] => moveStep lvl tc.2 b st
          | _ => mergeStep merge lvl tcs st) with
        | none => none
        | some st' => compactLoop le o merge rest st'
    | _, _ => none

/-- `compact`, 255-400. `len - 2` underflows for fewer than two levels. -/
def compact (le : K → K → Prop) [DecidableRel le] (o : CompOpts)
    (merge : List (List R) → Option (List (MOut R K))) (files : Files R) (cnt : Cnt)
    (levels : List (DLevel K)) : Option (Option (CState R K)) :=
  if levels.length < 2 then none
  else compactLoop le o merge (List.range (levels.length - 2)) ⟨levels, [], [], files, cnt, false, []⟩

/-- Installing the result under the metadata lock, 129-139. -/
def install (cur : Md K) (st : CState R K) : Md K :=
  match cur.levels, st.levels with
  | l0 :: _, _ :: ls =>
    { cur with levels := { l0 with parts := l0.parts.filter fun q => !st.l0rem.contains q.id } :: ls }
  | _, _ => cur

/-- Executing the deferred file operations, 144-160. `none` = panic. A rename replaces whatever is at
the target. -/
def execOps : Files R → Cnt → List COp → Option (Files R × Cnt)
  | f, c, [] => some (f, c)
  | f, c, .rename s t :: ops =>
    match f s.1 s.2 with
    | none => none
    | some v =>
      match c.close s with
      | none => none
      | some c1 =>
        match c1.close t with
        | none => none
        | some c2 => execOps (setPart (setPart f s.1 s.2 none) t.1 t.2 (some v)) c2 ops
  | f, c, .delete p :: ops =>
    match c.close p with
    | none => none
    | some c1 =>
      if c1 p.1 p.2 = 0 then
        match f p.1 p.2 with
        | none => none
        | some _ => execOps (setPart f p.1 p.2 none) c1 ops
      else execOps f c1 ops

/-- One round of the compactor for one table, 117-162, without interference. -/
def runCompaction (le : K → K → Prop) [DecidableRel le] (o : CompOpts)
    (merge : List (List R) → Option (List (MOut R K))) (cnt : Cnt) (d : Disk R K) (p : Proc R K) :
    Option (Disk R K × Proc R K) :=
  match compact le o merge d.parts cnt p.md.levels with
  | none => none
  | some none => some (d, p)
  | some (some st) =>
    match execOps st.files st.cnt st.ops with
    | none => none
    | some (f, _) =>
      some ({ d with manifest := some (install p.md st), parts := f }, { p with md := install p.md st })

/-- What is required of the merge of part files of an append-only table: the outputs contain exactly
the rows of the inputs, each output is non-empty, in key order, and its recorded range contains its
keys. -/
def IsMerge (le : K → K → Prop) (key : R → K) (merge : List (List R) → Option (List (MOut R K))) : Prop :=
  ∀ ins outs, (∀ b ∈ ins, SortedBy le key b) → merge ins = some outs →
    (outs.flatMap MOut.rows).Perm ins.flatten ∧
    ∀ x ∈ outs, x.rows ≠ [] ∧ x.values = x.rows.length ∧ SortedBy le key x.rows ∧
      ∀ r ∈ x.rows, le x.min (key r) ∧ le (key r) x.max

/-! ### paths -/

/-- The files recorded by the levels, the first of which is level `n`. -/
def pathsOf : Nat → List (DLevel K) → List (Nat × Nat)
  | _, [] => []
  | n, lv :: ls => lv.parts.map (fun q => (n, q.id)) ++ pathsOf (n + 1) ls

theorem mem_pathsOf {n : Nat} {ls : List (DLevel K)} {p : Nat × Nat} :
    p ∈ pathsOf n ls ↔ ∃ k lv q, ls[k]? = some lv ∧ q ∈ lv.parts ∧ p = (n + k, q.id) := by
  induction ls generalizing n with
  | nil => simp [pathsOf]
  | cons lv ls ih =>
    simp only [pathsOf, List.mem_append, List.mem_map, ih]
    constructor
    · rintro (⟨q, hq, rfl⟩ | ⟨k, lv', q, h1, h2, rfl⟩)
      · exact ⟨0, lv, q, rfl, hq, by simp⟩
      · exact ⟨k + 1, lv', q, by simpa using h1, h2, by simp; omega⟩
    · rintro ⟨k, lv', q, h1, h2, rfl⟩
      cases k with
      | zero => simp at h1; subst h1; exact .inl ⟨q, h2, by simp⟩
      | succ k => exact .inr ⟨k, lv', q, by simpa using h1, h2, by simp; omega⟩

theorem pathsOf_nodup {n : Nat} {ls : List (DLevel K)}
    (h : ∀ (l : Nat) (lv : DLevel K), ls[l]? = some lv → (lv.parts.map PartRef.id).Nodup) :
    (pathsOf n ls).Nodup := by
  induction ls generalizing n with
  | nil => simp [pathsOf]
  | cons lv ls ih =>
    simp only [pathsOf]
    rw [List.nodup_append]
    refine ⟨?_, ih (fun l lv' hl => h (l + 1) lv' (by simpa using hl)), ?_⟩
    · have := h 0 lv rfl
      have e : lv.parts.map (fun q => (n, q.id)) = (lv.parts.map PartRef.id).map (fun i => (n, i)) := by
        simp
      rw [e]
      exact List.Pairwise.map _ (fun a b hab => by simpa using hab) this
    · intro a ha b hb
      obtain ⟨q, _, rfl⟩ := List.mem_map.mp ha
      obtain ⟨k, lv', q', _, _, rfl⟩ := mem_pathsOf.mp hb
      intro e
      have := congrArg Prod.fst e
      simp at this
      omega

theorem pathsOf_dropId (n k i : Nat) (ls : List (DLevel K)) :
    pathsOf n (ls.modify k (dropId i)) = (pathsOf n ls).filter fun p => p != (n + k, i) := by
  induction ls generalizing n k with
  | nil => simp [pathsOf]
  | cons lv ls ih =>
    cases k with
    | zero =>
      have hrest : (pathsOf (n + 1) ls).filter (fun p => p != (n + 0, i)) = pathsOf (n + 1) ls := by
        rw [List.filter_eq_self]
        intro a ha
        obtain ⟨k, lv', q', _, _, rfl⟩ := mem_pathsOf.mp ha
        simp; omega
      simp only [List.modify_zero_cons, pathsOf, List.filter_append, hrest, dropId, List.filter_map]
      congr 2
      apply List.filter_congr
      intro q _
      simp
      rw [Bool.eq_iff_iff]; simp
    | succ k =>
      have h0 : (lv.parts.map (fun q => (n, q.id))).filter (fun p => p != (n + (k + 1), i)) =
          lv.parts.map (fun q => (n, q.id)) := by
        rw [List.filter_eq_self]
        intro a ha
        obtain ⟨q, _, rfl⟩ := List.mem_map.mp ha
        simp
      simp only [List.modify_succ_cons, pathsOf, List.filter_append, h0, ih]
      rw [show n + 1 + k = n + (k + 1) by omega]

theorem pathsOf_dropAll (tcs : List (Nat × Nat)) (ls : List (DLevel K)) :
    pathsOf 0 (tcs.foldl (fun ls tc => ls.modify tc.1 (dropId tc.2)) ls) =
      (pathsOf 0 ls).filter fun p => !tcs.contains p := by
  induction tcs generalizing ls with
  | nil => exact (List.filter_eq_self.mpr (by simp)).symm
  | cons tc tcs ih =>
    rw [List.foldl_cons, ih, pathsOf_dropId, List.filter_filter]
    apply List.filter_congr
    intro p _
    rw [Bool.eq_iff_iff]
    simp
    constructor
    · rintro ⟨h1, h2⟩; exact ⟨fun e => h2 (by rw [e]), h1⟩
    · rintro ⟨h1, h2⟩; exact ⟨h2, fun e => h1 (by rw [e])⟩

theorem pathsOf_pushPart (n k : Nat) (q : PartRef K) (ls : List (DLevel K)) (hk : k < ls.length) :
    (pathsOf n (ls.modify k (pushPart q))).Perm (pathsOf n ls ++ [(n + k, q.id)]) := by
  induction ls generalizing n k with
  | nil => simp at hk
  | cons lv ls ih =>
    cases k with
    | zero =>
      simp only [List.modify_zero_cons, pathsOf, pushPart, List.map_append, List.map_cons, List.map_nil,
        Nat.add_zero, List.append_assoc]
      exact List.Perm.append_left _ List.perm_append_comm
    | succ k =>
      simp only [List.modify_succ_cons, pathsOf, List.append_assoc]
      apply List.Perm.append_left
      have := ih (n + 1) k (by simpa using hk)
      rwa [show n + 1 + k = n + (k + 1) by omega] at this

theorem pathsOf_erase (n k i : Nat) (ls : List (DLevel K)) (lv : DLevel K) (hk : ls[k]? = some lv)
    (hi : i ∈ lv.parts.map PartRef.id) :
    (pathsOf n ls).Perm ((n + k, i) :: pathsOf n (ls.modify k fun lv =>
      { lv with parts := lv.parts.eraseP fun q => q.id == i })) := by
  induction ls generalizing n k with
  | nil => simp at hk
  | cons a ls ih =>
    cases k with
    | zero =>
      simp at hk
      subst hk
      simp only [List.modify_zero_cons, pathsOf, Nat.add_zero]
      rw [← List.cons_append]
      apply List.Perm.append_right
      obtain ⟨q, hq, rfl⟩ := List.mem_map.mp hi
      have : ∀ l : List (PartRef K), q ∈ l →
          (l.map fun x => (n, x.id)).Perm ((n, q.id) :: (l.eraseP fun x => x.id == q.id).map fun x => (n, x.id)) := by
        intro l hl
        induction l with
        | nil => cases hl
        | cons b l ih' =>
          rw [List.eraseP_cons]
          by_cases hb : b.id = q.id
          · simp [hb]
          · have hb' : (b.id == q.id) = false := by simpa using hb
            rw [hb']
            have hql : q ∈ l := by
              rcases List.mem_cons.mp hl with h | h
              · exact absurd (by rw [h]) hb
              · exact h
            simp only [List.map_cons, cond_false]
            exact ((ih' hql).cons _).trans (List.Perm.swap _ _ _)
      exact this _ hq
    | succ k =>
      simp only [List.modify_succ_cons, pathsOf]
      have := ih (n + 1) k (by simpa using hk)
      rw [show n + 1 + k = n + (k + 1) by omega] at this
      exact (this.append_left _).trans List.perm_middle

/-- The levels after dropping all chosen parts. -/
theorem dropAll_get (tcs : List (Nat × Nat)) (ls : List (DLevel K)) (k : Nat) :
    (tcs.foldl (fun ls tc => ls.modify tc.1 (dropId tc.2)) ls)[k]? =
      ls[k]?.map fun lv => { lv with parts := lv.parts.filter fun q => !tcs.contains (k, q.id) } := by
  induction tcs generalizing ls with
  | nil =>
    simp only [List.foldl_nil, List.contains_nil, Bool.not_false]
    cases ls[k]? with
    | none => rfl
    | some lv => simp [List.filter_eq_self.mpr]
  | cons tc tcs ih =>
    rw [List.foldl_cons, ih, List.getElem?_modify]
    cases hk : ls[k]? with
    | none => simp
    | some lv =>
      by_cases h : tc.1 = k
      · simp only [h, if_true, Option.map_eq_map, Option.map_some, dropId, List.filter_filter]
        congr 2
        apply List.filter_congr
        intro q _
        rw [Bool.eq_iff_iff]
        simp
        constructor
        · rintro ⟨h1, h2⟩; exact ⟨fun e => h2 (by rw [← e]), h1⟩
        · rintro ⟨h1, h2⟩; exact ⟨h2, fun e => h1 (by rw [e, ← h])⟩
      · simp only [h, if_false, Option.map_eq_map, Option.map_some]
        congr 2
        apply List.filter_congr
        intro q _
        rw [Bool.eq_iff_iff]
        simp
        intro _ e
        exact h (by rw [← e])

theorem dropAll_length (tcs : List (Nat × Nat)) (ls : List (DLevel K)) :
    (tcs.foldl (fun ls tc => ls.modify tc.1 (dropId tc.2)) ls).length = ls.length := by
  induction tcs generalizing ls with
  | nil => rfl
  | cons tc tcs ih => rw [List.foldl_cons, ih, List.length_modify]

/-! ### executing file operations -/

def COp.paths : COp → List (Nat × Nat)
  | .rename s t => [s, t]
  | .delete p => [p]

/-- How often the operations close a path. -/
def mentions (ops : List COp) (p : Nat × Nat) : Nat := (ops.flatMap COp.paths).count p

theorem mentions_append (a b : List COp) (p : Nat × Nat) :
    mentions (a ++ b) p = mentions a p + mentions b p := by
  simp [mentions]

theorem execOps_append (f : Files R) (c : Cnt) (a b : List COp) :
    execOps f c (a ++ b) = (execOps f c a).bind fun x => execOps x.1 x.2 b := by
  induction a generalizing f c with
  | nil => rfl
  | cons op a ih =>
    cases op with
    | rename s t =>
      simp only [List.cons_append, execOps]
      cases f s.1 s.2 with
      | none => rfl
      | some v =>
        cases c.close s with
        | none => rfl
        | some c1 =>
          cases hc : c1.close t with
          | none => simp [hc]
          | some c2 => simp only [hc]; exact ih _ _
    | delete p =>
      simp only [List.cons_append, execOps]
      cases c.close p with
      | none => rfl
      | some c1 =>
        by_cases h : c1 p.1 p.2 = 0
        · simp only [h, if_true]
          cases f p.1 p.2 with
          | none => rfl
          | some v => exact ih _ _
        · simp only [h, if_false]
          exact ih _ _

theorem setPart_comm (f : Files R) {l i l' i' : Nat} (v w : Option (PFile R)) (h : (l, i) ≠ (l', i')) :
    setPart (setPart f l i v) l' i' w = setPart (setPart f l' i' w) l i v := by
  funext a b
  simp only [setPart]
  split <;> split <;> try rfl
  rename_i h1 h2
  exact absurd (by rw [← h1.1, ← h1.2, h2.1, h2.2]) h

theorem execOps_setPart (f : Files R) (c : Cnt) (ops : List COp) (l i : Nat) (v : Option (PFile R))
    (h : (l, i) ∉ ops.flatMap COp.paths) :
    execOps (setPart f l i v) c ops =
      (execOps f c ops).map fun x => (setPart x.1 l i v, x.2) := by
  induction ops generalizing f c with
  | nil => rfl
  | cons op ops ih =>
    cases op with
    | rename s t =>
      simp only [List.flatMap_cons, COp.paths, List.mem_append, List.mem_cons, List.not_mem_nil, or_false, not_or] at h
      obtain ⟨⟨hs, ht⟩, hr⟩ := h
      have hs' : ¬ (s.1 = l ∧ s.2 = i) := fun e => hs (by rw [← e.1, ← e.2])
      simp only [execOps]
      rw [setPart_ne _ _ hs']
      cases f s.1 s.2 with
      | none => rfl
      | some w =>
        cases c.close s with
        | none => rfl
        | some c1 =>
          cases hc : c1.close t with
          | none => simp [hc]
          | some c2 =>
            simp only [hc]
            rw [setPart_comm f _ _ hs, setPart_comm _ _ _ ht]
            exact ih _ _ hr
    | delete p =>
      simp only [List.flatMap_cons, COp.paths, List.mem_append, List.mem_cons, List.not_mem_nil, or_false, not_or] at h
      obtain ⟨hs, hr⟩ := h
      have hs' : ¬ (p.1 = l ∧ p.2 = i) := fun e => hs (by rw [← e.1, ← e.2])
      simp only [execOps]
      cases c.close p with
      | none => rfl
      | some c1 =>
        by_cases h0 : c1 p.1 p.2 = 0
        · simp only [h0, if_true]
          rw [setPart_ne _ _ hs']
          cases f p.1 p.2 with
          | none => rfl
          | some w =>
            simp only
            rw [setPart_comm f _ _ hs]
            exact ih _ _ hr
        · simp only [h0, if_false]
          exact ih _ _ hr

theorem execOps_other (f : Files R) (c : Cnt) (ops : List COp) (l i : Nat) {D : Files R} {c' : Cnt}
    (hx : execOps f c ops = some (D, c')) (h : (l, i) ∉ ops.flatMap COp.paths) : D l i = f l i := by
  have h1 := execOps_setPart f c ops l i (f l i) h
  have e : setPart f l i (f l i) = f := by
    funext a b; simp only [setPart]; split
    · rename_i h; rw [h.1, h.2]
    · rfl
  rw [e, hx] at h1
  simp at h1
  have := congrFun (congrFun h1 l) i
  rw [setPart_same] at this
  exact this

theorem Cnt.close_some {c : Cnt} {p : Nat × Nat} (h : 1 ≤ c p.1 p.2) :
    c.close p = some fun l i => if (l, i) = p then c l i - 1 else c l i := by
  rw [Cnt.close, if_neg (by omega)]

/-- Executing deletes of files that are all there. -/
theorem execOps_deletes (tcs : List (Nat × Nat)) (D : Files R) (c : Cnt)
    (hD : ∀ p ∈ tcs, D p.1 p.2 ≠ none) (hc : ∀ l i, tcs.count (l, i) ≤ c l i) :
    ∃ D' c', execOps D c (tcs.map .delete) = some (D', c') ∧
      (∀ l i, c' l i + tcs.count (l, i) = c l i) ∧
      (∀ l i, (l, i) ∉ tcs → D' l i = D l i) := by
  induction tcs generalizing D c with
  | nil => exact ⟨D, c, rfl, by simp, by simp⟩
  | cons p tcs ih =>
    have hp := hc p.1 p.2
    rw [List.count_cons_self] at hp
    have hcl := Cnt.close_some (c := c) (p := p) (by omega)
    let c1 : Cnt := fun l i => if (l, i) = p then c l i - 1 else c l i
    have hc1p : c1 p.1 p.2 = c p.1 p.2 - 1 := by simp [c1]
    have hc1 : ∀ l i, tcs.count (l, i) ≤ c1 l i := by
      intro l i
      have := hc l i
      simp only [c1]
      split
      · rename_i e; rw [e, List.count_cons_self] at this; rw [e]; omega
      · rename_i e; rw [List.count_cons_of_ne (fun h => e h.symm)] at this; exact this
    simp only [List.map_cons, execOps]
    rw [hcl]
    show ∃ D' c', (if c1 p.1 p.2 = 0 then _ else _) = _ ∧ _
    have hcount : ∀ (c' : Cnt), (∀ l i, c' l i + tcs.count (l, i) = c1 l i) →
        ∀ l i, c' l i + (p :: tcs).count (l, i) = c l i := by
      intro c' h l i
      have := h l i
      have h0 := hc l i
      simp only [c1] at this
      split at this
      · rename_i e; rw [e, List.count_cons_self] at h0 ⊢; rw [e] at this; omega
      · rename_i e; rw [List.count_cons_of_ne (fun h => e h.symm)]; exact this
    by_cases h0 : c1 p.1 p.2 = 0
    · rw [if_pos h0]
      cases hDp : D p.1 p.2 with
      | none => exact absurd hDp (hD p (by simp))
      | some w =>
        have hnp : p ∉ tcs := by
          intro hmem
          have := List.count_pos_iff.mpr hmem
          have := hc1 p.1 p.2
          have e : (p.1, p.2) = p := rfl
          rw [e] at this
          omega
        obtain ⟨D', c', h1, h2, h3⟩ := ih (setPart D p.1 p.2 none) c1 (by
          intro q hq
          rw [setPart_ne]
          · exact hD q (by simp [hq])
          · rintro ⟨e1, e2⟩
            exact hnp (by rw [show p = q from Prod.ext e1.symm e2.symm]; exact hq)) hc1
        refine ⟨D', c', h1, hcount c' h2, ?_⟩
        intro l i hli
        simp only [List.mem_cons, not_or] at hli
        rw [h3 l i hli.2, setPart_ne]
        rintro ⟨e1, e2⟩
        exact hli.1 (Prod.ext e1 e2)
    · rw [if_neg h0]
      obtain ⟨D', c', h1, h2, h3⟩ := ih D c1 (fun q hq => hD q (by simp [hq])) hc1
      exact ⟨D', c', h1, hcount c' h2, fun l i hli => h3 l i (fun h => hli (by simp [h]))⟩

/-! ### the invariant of a compaction -/

/-- What is known about a part and the rows in its file. -/
def GoodPart (le : K → K → Prop) (key : R → K) (rows : List R) (q : PartRef K) : Prop :=
  rows ≠ [] ∧ q.values = rows.length ∧ SortedBy le key rows ∧ ∀ r ∈ rows, le q.min (key r) ∧ le (key r) q.max

/-- Ids given out so far. -/
def bound (ls : List (DLevel K)) (p : Nat × Nat) : Prop :=
  ∃ lv, ls[p.1]? = some lv ∧ (if p.1 = 0 then p.2 < lv.partId else p.2 ≤ lv.partId)

/-- `G p` = the rows that belong to the part at path `p`; `S` = paths whose content is tracked. After
the pending operations have been executed, every tracked path holds its rows. -/
structure CInv (le : K → K → Prop) (key : R → K) (G : Nat × Nat → List R) (S : List (Nat × Nat))
    (st : CState R K) : Prop where
  nd : (pathsOf 0 st.levels).Nodup
  sub : ∀ p ∈ pathsOf 0 st.levels, p ∈ S
  bd : ∀ p ∈ S, bound st.levels p
  fresh : ∀ l i, l < st.levels.length → ¬ bound st.levels (l, i) → st.files l i = none
  ment : ∀ p ∈ st.ops.flatMap COp.paths, bound st.levels p
  cnt : ∀ l i, mentions st.ops (l, i) ≤ st.cnt l i
  ok : ∀ (k : Nat) (lv : DLevel K), st.levels[k]? = some lv → ∀ q ∈ lv.parts,
    GoodPart le key (G (k, q.id)) q
  cons : ∀ p ∈ S, ∀ x, st.files p.1 p.2 = some x → x = .full (G p)
  virt : ∀ c : Cnt, (∀ l i, mentions st.ops (l, i) ≤ c l i) → ∃ D c',
    execOps st.files c st.ops = some (D, c') ∧ (∀ l i, c' l i + mentions st.ops (l, i) = c l i) ∧
    ∀ p ∈ S, D p.1 p.2 = some (.full (G p))

def upd (G : Nat × Nat → List R) (p : Nat × Nat) (rows : List R) : Nat × Nat → List R :=
  fun p' => if p' = p then rows else G p'

theorem bound_push {ls : List (DLevel K)} {k : Nat} {q : PartRef K} {p : Nat × Nat} (h : bound ls p) :
    bound (ls.modify k (pushPart q)) p := by
  obtain ⟨lv, h1, h2⟩ := h
  by_cases hk : k = p.1
  · refine ⟨pushPart q lv, ?_, ?_⟩
    · rw [List.getElem?_modify, h1]; simp [hk]
    · simp only [pushPart]
      split at h2
      · rename_i e; rw [if_pos e]; omega
      · rename_i e; rw [if_neg e]; omega
  · refine ⟨lv, ?_, h2⟩
    rw [List.getElem?_modify, h1]; simp [hk]

theorem bound_new {ls : List (DLevel K)} {k : Nat} {b : DLevel K} (q : PartRef K) (hb : ls[k]? = some b)
    (hk : 1 ≤ k) : bound (ls.modify k (pushPart q)) (k, b.partId + 1) := by
  refine ⟨pushPart q b, ?_, ?_⟩
  · rw [List.getElem?_modify, hb]; simp
  · simp only [pushPart]; rw [if_neg (by omega)]; exact Nat.le_refl _

theorem not_bound_next {ls : List (DLevel K)} {k : Nat} {b : DLevel K} (hb : ls[k]? = some b) (hk : 1 ≤ k) :
    ¬ bound ls (k, b.partId + 1) := by
  rintro ⟨lv, h1, h2⟩
  simp only [hb, Option.some.injEq] at h1
  subst h1
  simp only at h2
  rw [if_neg (by omega)] at h2
  omega

theorem not_bound_push {ls : List (DLevel K)} {k l i : Nat} {q : PartRef K}
    (h : ¬ bound (ls.modify k (pushPart q)) (l, i)) : ¬ bound ls (l, i) := fun hb => h (bound_push hb)

theorem flatMap_congr' {α β : Type} {f g : α → List β} {l : List α} (h : ∀ a ∈ l, f a = g a) :
    l.flatMap f = l.flatMap g := by
  induction l with
  | nil => rfl
  | cons a l ih => rw [List.flatMap_cons, List.flatMap_cons, h a (by simp), ih fun b hb => h b (by simp [hb])]

/-- Recording one output of the merger. -/
theorem addOut_inv {le : K → K → Prop} {key : R → K} {G : Nat × Nat → List R} {S : List (Nat × Nat)}
    {st : CState R K} (h : CInv le key G S st) {k : Nat} {b : DLevel K} (hb : st.levels[k]? = some b)
    (hk : 1 ≤ k) (o : MOut R K)
    (ho : o.rows ≠ [] ∧ o.values = o.rows.length ∧ SortedBy le key o.rows ∧
      ∀ r ∈ o.rows, le o.min (key r) ∧ le (key r) o.max) :
    CInv le key (upd G (k, b.partId + 1) o.rows) (S ++ [(k, b.partId + 1)]) (addOut k st o) ∧
    (pathsOf 0 (addOut k st o).levels).Perm (pathsOf 0 st.levels ++ [(k, b.partId + 1)]) ∧
    (k, b.partId + 1) ∉ S := by
  have hlen : k < st.levels.length := (List.getElem?_eq_some_iff.mp hb).1
  have hnb := not_bound_next hb hk
  have hnew : (k, b.partId + 1) ∉ S := fun hm => hnb (h.bd _ hm)
  have hnm : (k, b.partId + 1) ∉ st.ops.flatMap COp.paths := fun hm => hnb (h.ment _ hm)
  have hG : ∀ p ∈ S, upd G (k, b.partId + 1) o.rows p = G p := by
    intro p hp
    simp only [upd]
    rw [if_neg]
    rintro rfl
    exact hnew hp
  have heq : addOut k st o = { st with
      levels := st.levels.modify k (pushPart ⟨b.partId + 1, o.size, o.values, o.min, o.max⟩)
      files := setPart st.files k (b.partId + 1) (some (.full o.rows))
      cnt := (st.cnt.open (k, b.partId + 1)).open (k, b.partId + 1) } := by
    simp only [addOut, hb]
  have hperm := pathsOf_pushPart 0 k ⟨b.partId + 1, o.size, o.values, o.min, o.max⟩ st.levels hlen
  simp only [Nat.zero_add] at hperm
  rw [heq]
  refine ⟨⟨?_, ?_, ?_, ?_, ?_, ?_, ?_, ?_, ?_⟩, hperm, hnew⟩
  · rw [hperm.nodup_iff, List.nodup_append]
    refine ⟨h.nd, by simp, ?_⟩
    intro a ha b' hb'
    simp at hb'
    subst hb'
    rintro rfl
    exact hnew (h.sub _ ha)
  · intro p hp
    rcases List.mem_append.mp (hperm.mem_iff.mp hp) with hp | hp
    · exact List.mem_append.mpr (.inl (h.sub p hp))
    · exact List.mem_append.mpr (.inr hp)
  · intro p hp
    rcases List.mem_append.mp hp with hp | hp
    · exact bound_push (h.bd p hp)
    · simp at hp; subst hp; exact bound_new _ hb hk
  · intro l i hll hnb'
    simp only at hnb' ⊢
    rw [setPart_ne]
    · exact h.fresh l i (by simpa using hll) (not_bound_push hnb')
    · rintro ⟨rfl, rfl⟩
      exact hnb' (bound_new _ hb hk)
  · intro p hp; exact bound_push (h.ment p hp)
  · intro l i
    have := h.cnt l i
    simp only [Cnt.open]
    split <;> omega
  · intro k' lv hlv q hq
    simp only [List.getElem?_modify] at hlv
    cases hk' : st.levels[k']? with
    | none => rw [hk'] at hlv; simp at hlv
    | some lv0 =>
      rw [hk'] at hlv
      simp only [Option.map_eq_map, Option.map_some, Option.some.injEq] at hlv
      have hold : ∀ q ∈ lv0.parts, GoodPart le key (upd G (k, b.partId + 1) o.rows (k', q.id)) q := by
        intro q hq
        rw [hG _ (h.sub _ (mem_pathsOf.mpr ⟨k', lv0, q, hk', hq, by simp⟩))]
        exact h.ok k' lv0 hk' q hq
      split at hlv
      · rename_i e
        subst hlv
        subst e
        simp only [pushPart, List.mem_append, List.mem_singleton] at hq
        rcases hq with hq | rfl
        · exact hold q hq
        · simp only [upd, if_true]; exact ho
      · subst hlv; exact hold q hq
  · intro p hp x hx
    rcases List.mem_append.mp hp with hp | hp
    · rw [hG p hp]
      refine h.cons p hp x ?_
      rw [← hx]
      symm
      apply setPart_ne
      rintro ⟨e1, e2⟩
      exact hnew (by rw [← e1, ← e2]; exact hp)
    · simp at hp
      subst hp
      simp only [setPart_same, Option.some.injEq] at hx
      simp [upd, ← hx]
  · intro c hc
    obtain ⟨D, c', h1, h2, h3⟩ := h.virt c hc
    refine ⟨setPart D k (b.partId + 1) (some (.full o.rows)), c', ?_, h2, ?_⟩
    · show execOps (setPart st.files k (b.partId + 1) _) c st.ops = _
      rw [execOps_setPart _ _ _ _ _ _ hnm, h1]; rfl
    · intro p hp
      rcases List.mem_append.mp hp with hp | hp
      · rw [hG p hp, setPart_ne]
        · exact h3 p hp
        · rintro ⟨e1, e2⟩
          exact hnew (by rw [← e1, ← e2]; exact hp)
      · simp at hp
        subst hp
        simp [upd, setPart_same]

theorem bound_dropAll {tcs : List (Nat × Nat)} {ls : List (DLevel K)} {p : Nat × Nat} :
    bound (tcs.foldl (fun ls tc => ls.modify tc.1 (dropId tc.2)) ls) p ↔ bound ls p := by
  simp only [bound, dropAll_get]
  constructor
  · rintro ⟨lv, h1, h2⟩
    obtain ⟨lv0, h3, rfl⟩ := Option.map_eq_some_iff.mp h1
    exact ⟨lv0, h3, h2⟩
  · rintro ⟨lv, h1, h2⟩
    rw [h1]
    exact ⟨_, rfl, h2⟩

/-- Removing the chosen parts from the levels; their files stay tracked. -/
theorem dropAll_inv {le : K → K → Prop} {key : R → K} {G : Nat × Nat → List R} {S : List (Nat × Nat)}
    {st : CState R K} (h : CInv le key G S st) (tcs : List (Nat × Nat)) :
    CInv le key G S { st with levels := tcs.foldl (fun ls tc => ls.modify tc.1 (dropId tc.2)) st.levels } := by
  refine ⟨?_, ?_, ?_, ?_, ?_, h.cnt, ?_, h.cons, h.virt⟩
  · simp only
    rw [pathsOf_dropAll]
    exact h.nd.filter _
  · intro p hp
    simp only [pathsOf_dropAll] at hp
    exact h.sub p (List.mem_filter.mp hp).1
  · intro p hp; exact bound_dropAll.mpr (h.bd p hp)
  · intro l i h2 h3
    exact h.fresh l i (by simpa [dropAll_length] using h2) (fun hb => h3 (bound_dropAll.mpr hb))
  · intro p hp; exact bound_dropAll.mpr (h.ment p hp)
  · intro k lv hlv q hq
    simp only [dropAll_get] at hlv
    obtain ⟨lv0, h3, rfl⟩ := Option.map_eq_some_iff.mp hlv
    exact h.ok k lv0 h3 q (List.mem_filter.mp hq).1

/-- Recording all outputs of the merger. -/
theorem addOuts_inv {le : K → K → Prop} {key : R → K} {k : Nat} (hk : 1 ≤ k) (outs : List (MOut R K))
    (ho : ∀ o ∈ outs, o.rows ≠ [] ∧ o.values = o.rows.length ∧ SortedBy le key o.rows ∧
      ∀ r ∈ o.rows, le o.min (key r) ∧ le (key r) o.max) :
    ∀ {G : Nat × Nat → List R} {S : List (Nat × Nat)} {st : CState R K}, CInv le key G S st →
    k < st.levels.length →
    ∃ G' S', CInv le key G' S' (outs.foldl (addOut k) st) ∧ (∀ p ∈ S, p ∈ S' ∧ G' p = G p) ∧
      (∀ p ∈ pathsOf 0 (outs.foldl (addOut k) st).levels, p ∈ pathsOf 0 st.levels ∨ ¬ bound st.levels p) ∧
      (∀ p, bound st.levels p → bound (outs.foldl (addOut k) st).levels p) ∧
      ((pathsOf 0 (outs.foldl (addOut k) st).levels).flatMap G').Perm
        ((pathsOf 0 st.levels).flatMap G ++ outs.flatMap MOut.rows) ∧
      (outs.foldl (addOut k) st).levels.length = st.levels.length ∧
      (∀ j, j ≠ k → (outs.foldl (addOut k) st).levels[j]? = st.levels[j]?) ∧
      (outs.foldl (addOut k) st).ops = st.ops ∧ (outs.foldl (addOut k) st).l0rem = st.l0rem ∧
      (outs.foldl (addOut k) st).picks = st.picks := by
  induction outs with
  | nil =>
    intro G S st h _
    exact ⟨G, S, h, fun p hp => ⟨hp, rfl⟩, fun p hp => .inl hp, fun _ h => h, by simp, rfl, fun _ _ => rfl, rfl, rfl, rfl⟩
  | cons o outs ih =>
    intro G S st h hlen
    obtain ⟨b, hb⟩ : ∃ b, st.levels[k]? = some b := ⟨_, List.getElem?_eq_getElem hlen⟩
    obtain ⟨h1, h2, h3⟩ := addOut_inv h hb hk o (ho o (by simp))
    have hlv : (addOut k st o).levels = st.levels.modify k
        (pushPart ⟨b.partId + 1, o.size, o.values, o.min, o.max⟩) := by simp only [addOut, hb]
    obtain ⟨G', S', i1, i2, i3, i3', i4, i5, i6, i7, i8, i9⟩ :=
      ih (fun o ho' => ho o (by simp [ho'])) h1 (by rw [hlv]; simpa using hlen)
    have hG : ∀ p ∈ S, upd G (k, b.partId + 1) o.rows p = G p := by
      intro p hp
      simp only [upd]
      rw [if_neg]
      rintro rfl
      exact h3 hp
    have hmono : ∀ p, bound st.levels p → bound (addOut k st o).levels p := by
      intro p hp
      rw [hlv]
      exact bound_push hp
    refine ⟨G', S', i1, ?_, ?_, fun p hp => i3' p (hmono p hp), ?_, ?_, ?_, ?_, ?_, ?_⟩
    · intro p hp
      obtain ⟨a, b'⟩ := i2 p (by simp [hp])
      exact ⟨a, by rw [b', hG p hp]⟩
    · intro p hp
      rcases i3 p hp with h' | h'
      · rcases List.mem_append.mp (h2.mem_iff.mp h') with h' | h'
        · exact .inl h'
        · simp at h'; subst h'; exact .inr (not_bound_next hb hk)
      · exact .inr (fun hp' => h' (hmono p hp'))
    · refine i4.trans ?_
      rw [List.flatMap_cons, ← List.append_assoc]
      apply List.Perm.append_right
      refine (h2.flatMap_right _).trans ?_
      rw [List.flatMap_append]
      have e1 : (pathsOf 0 st.levels).flatMap (upd G (k, b.partId + 1) o.rows) = (pathsOf 0 st.levels).flatMap G := by
        exact flatMap_congr' fun p hp => hG p (h.sub p hp)
      rw [e1]
      simp [upd]
    · rw [List.foldl_cons, i5, hlv, List.length_modify]
    · intro j hj
      rw [List.foldl_cons, i6 j hj, hlv, List.getElem?_modify]
      cases st.levels[j]? with
      | none => rfl
      | some v => simp [Ne.symm hj]
    · rw [List.foldl_cons, i7]; simp only [addOut, hb]
    · rw [List.foldl_cons, i8]; simp only [addOut, hb]
    · rw [List.foldl_cons, i9]; simp only [addOut, hb]

theorem foldl_open (tcs : List (Nat × Nat)) (c : Cnt) (l i : Nat) :
    (tcs.foldl Cnt.open c) l i = c l i + tcs.count (l, i) := by
  induction tcs generalizing c with
  | nil => simp
  | cons p tcs ih =>
    rw [List.foldl_cons, ih]
    simp only [Cnt.open]
    by_cases h : (l, i) = p
    · rw [if_pos h, h, List.count_cons_self]; omega
    · rw [if_neg h, List.count_cons_of_ne (fun e => h e.symm)]

theorem mentions_deletes (tcs : List (Nat × Nat)) (p : Nat × Nat) :
    mentions (tcs.map .delete) p = tcs.count p := by
  induction tcs with
  | nil => rfl
  | cons a tcs ih =>
    unfold mentions at ih ⊢
    rw [List.map_cons, List.flatMap_cons, List.count_append, ih]
    simp [COp.paths, List.count_cons]
    omega

/-- Scheduling the deletion of tracked files that no level records any more. -/
theorem deletes_inv {le : K → K → Prop} {key : R → K} {G : Nat × Nat → List R} {S : List (Nat × Nat)}
    {st : CState R K} (h : CInv le key G S st) (tcs : List (Nat × Nat)) (l0 : List Nat)
    (hsub : ∀ p ∈ tcs, p ∈ S) (hdis : ∀ p ∈ pathsOf 0 st.levels, p ∉ tcs) :
    CInv le key G (pathsOf 0 st.levels) { st with
      l0rem := l0, ops := st.ops ++ tcs.map .delete, cnt := tcs.foldl Cnt.open st.cnt } := by
  refine ⟨h.nd, fun p hp => hp, fun p hp => h.bd p (h.sub p hp), h.fresh, ?_, ?_, h.ok,
    fun p hp => h.cons p (h.sub p hp), ?_⟩
  · intro p hp
    simp only [List.flatMap_append, List.mem_append] at hp
    rcases hp with hp | hp
    · exact h.ment p hp
    · simp only [List.mem_flatMap, List.mem_map] at hp
      obtain ⟨op, ⟨tc, htc, rfl⟩, hp⟩ := hp
      simp [COp.paths] at hp
      subst hp
      exact h.bd _ (hsub _ htc)
  · intro l i
    simp only
    rw [mentions_append, mentions_deletes, foldl_open]
    have := h.cnt l i
    omega
  · intro c hc
    simp only [mentions_append, mentions_deletes] at hc ⊢
    obtain ⟨D, c', h1, h2, h3⟩ := h.virt c (fun l i => by have := hc l i; omega)
    obtain ⟨D', c'', e1, e2, e3⟩ := execOps_deletes tcs D c'
      (fun p hp => by rw [h3 p (hsub p hp)]; simp)
      (fun l i => by have := hc l i; have := h2 l i; omega)
    refine ⟨D', c'', ?_, ?_, ?_⟩
    · rw [execOps_append, h1]; exact e1
    · intro l i
      have := h2 l i
      have := e2 l i
      omega
    · intro p hp
      rw [e3 p.1 p.2 (hdis p hp)]
      exact h3 p (h.sub p hp)

/-- The whole merge step. -/
theorem mergeStep_inv {le : K → K → Prop} {key : R → K} {merge : List (List R) → Option (List (MOut R K))}
    (hm : IsMerge le key merge) {G : Nat × Nat → List R} {st st' : CState R K} {lvl : Nat}
    {tcs : List (Nat × Nat)} (h : CInv le key G (pathsOf 0 st.levels) st)
    (hlen : lvl + 1 < st.levels.length) (hsub : ∀ p ∈ tcs, p ∈ pathsOf 0 st.levels)
    (hs : mergeStep merge lvl tcs st = some st') :
    ∃ G', CInv le key G' (pathsOf 0 st'.levels) st' ∧
      ((pathsOf 0 st'.levels).flatMap G').Perm
        (((pathsOf 0 st.levels).filter fun p => !tcs.contains p).flatMap G ++ tcs.flatMap G) ∧
      (∀ p ∈ pathsOf 0 st'.levels, p ∈ pathsOf 0 st.levels ∨ ¬ bound st.levels p) ∧
      (∀ p, bound st.levels p → bound st'.levels p) ∧
      st'.levels.length = st.levels.length ∧
      st'.levels[0]? = st.levels[0]?.map (fun lv =>
        { lv with parts := lv.parts.filter fun q => !tcs.contains (0, q.id) }) ∧
      st'.l0rem = st.l0rem ++ (tcs.filter fun tc => tc.1 == 0).map Prod.snd ∧ st'.picks = st.picks := by
  unfold mergeStep at hs
  cases hin : tcs.mapM (fun tc => fileRows st.files tc.1 tc.2) with
  | none => rw [hin] at hs; simp at hs
  | some ins =>
    rw [hin] at hs
    dsimp only at hs
    have hins : ins = tcs.map G := by
      have : ∀ l : List (Nat × Nat), (∀ p ∈ l, p ∈ pathsOf 0 st.levels) → ∀ r,
          l.mapM (fun tc => fileRows st.files tc.1 tc.2) = some r → r = l.map G := by
        intro l
        induction l with
        | nil => intro _ r hr; simpa using hr.symm
        | cons p l ih =>
          intro hl r hr
          rw [List.mapM_cons] at hr
          cases hp : fileRows st.files p.1 p.2 with
          | none => rw [hp] at hr; simp at hr
          | some x =>
            rw [hp] at hr
            cases hr' : l.mapM (fun tc => fileRows st.files tc.1 tc.2) with
            | none => rw [hr'] at hr; simp at hr
            | some y =>
              rw [hr'] at hr
              simp at hr
              subst hr
              rw [ih (fun p hp => hl p (by simp [hp])) y hr', List.map_cons]
              congr 1
              unfold fileRows at hp
              cases hf : st.files p.1 p.2 with
              | none => rw [hf] at hp; simp at hp
              | some v =>
                have := h.cons p (hl p (by simp)) v hf
                subst this
                rw [hf] at hp
                simpa using hp.symm
      exact this tcs hsub ins hin
    cases ho : merge ins with
    | none => rw [ho] at hs; simp at hs
    | some outs =>
      rw [ho] at hs
      simp only [Option.some.injEq] at hs
      have hsorted : ∀ b ∈ ins, SortedBy le key b := by
        intro b hb
        rw [hins] at hb
        obtain ⟨p, hp, rfl⟩ := List.mem_map.mp hb
        obtain ⟨k, lv, q, h1, h2, rfl⟩ := mem_pathsOf.mp (hsub p hp)
        rw [Nat.zero_add]
        exact (h.ok k lv h1 q h2).2.2.1
      obtain ⟨hperm, hgood⟩ := hm ins outs hsorted ho
      obtain ⟨G', S', i1, i2, i3, i3', i4, i5, i6, i7, i8, i9⟩ :=
        addOuts_inv (k := lvl + 1) (by omega) outs hgood (dropAll_inv h tcs)
          (by simpa [dropAll_length] using hlen)
      have hfin := deletes_inv i1 tcs
        ((outs.foldl (addOut (lvl + 1)) { st with levels := tcs.foldl (fun ls tc => ls.modify tc.1 (dropId tc.2)) st.levels }).l0rem ++
          (tcs.filter fun tc => tc.1 == 0).map Prod.snd) (fun p hp => (i2 p (hsub p hp)).1) (by
        intro p hp ht
        rcases i3 p hp with h' | h'
        · simp only [pathsOf_dropAll] at h'
          have := (List.mem_filter.mp h').2
          simp [ht] at this
        · exact h' (bound_dropAll.mpr (h.bd p (hsub p ht))))
      refine ⟨G', ?_, ?_, ?_, ?_, ?_, ?_, ?_, ?_⟩
      · rw [← hs]; exact hfin
      · rw [← hs]
        refine i4.trans ?_
        simp only [pathsOf_dropAll]
        refine List.Perm.append_left _ (hperm.trans ?_)
        rw [hins, List.flatMap_def]
      · intro p hp
        rw [← hs] at hp
        rcases i3 p hp with h' | h'
        · simp only [pathsOf_dropAll] at h'
          exact .inl (List.mem_filter.mp h').1
        · exact .inr (fun hb => h' (bound_dropAll.mpr hb))
      · intro p hp
        rw [← hs]
        exact i3' p (bound_dropAll.mpr hp)
      · rw [← hs]; simp only; rw [i5]; exact dropAll_length _ _
      · rw [← hs]; simp only; rw [i6 0 (by omega)]; exact dropAll_get _ _ _
      · rw [← hs]; simp only; rw [i8]
      · rw [← hs]; simp only; rw [i9]

/-- The move step. -/
theorem moveStep_inv {le : K → K → Prop} {key : R → K} {G : Nat × Nat → List R} {st st' : CState R K}
    {lvl id : Nat} {b : DLevel K} (h : CInv le key G (pathsOf 0 st.levels) st)
    (hb : st.levels[lvl + 1]? = some b) (hs : moveStep lvl id b st = some st') :
    ∃ G', CInv le key G' (pathsOf 0 st'.levels) st' ∧
      ((pathsOf 0 st'.levels).flatMap G').Perm ((pathsOf 0 st.levels).flatMap G) ∧
      (∀ p ∈ pathsOf 0 st'.levels, p ∈ pathsOf 0 st.levels ∨ ¬ bound st.levels p) ∧
      (∀ p, bound st.levels p → bound st'.levels p) ∧
      st'.levels.length = st.levels.length ∧
      (1 ≤ lvl → st'.levels[0]? = st.levels[0]?) ∧
      st'.l0rem = st.l0rem ∧ st'.picks = st.picks := by
  unfold moveStep at hs
  cases ha : st.levels[lvl]? with
  | none => rw [ha] at hs; simp at hs
  | some a =>
    rw [ha] at hs
    dsimp only at hs
    cases hq : a.parts.find? (fun q => q.id == id) with
    | none => rw [hq] at hs; simp at hs
    | some q =>
      rw [hq] at hs
      simp only [Option.some.injEq] at hs
      have hqm := List.mem_of_find?_eq_some hq
      have hqid : q.id = id := by simpa using List.find?_some hq
      -- abbreviations
      let er : DLevel K → DLevel K := fun lv => { lv with parts := lv.parts.eraseP fun q => q.id == id }
      let q' : PartRef K := { q with id := b.partId + 1 }
      let L1 := st.levels.modify lvl er
      let L2 := L1.modify (lvl + 1) (pushPart q')
      have hL1 : ∀ j, L1[j]? = st.levels[j]?.map (fun lv => if lvl = j then er lv else lv) := by
        intro j
        show (st.levels.modify lvl er)[j]? = _
        rw [List.getElem?_modify]
        cases st.levels[j]? with
        | none => rfl
        | some v => rfl
      have hlen1 : L1.length = st.levels.length := by
        show (st.levels.modify lvl er).length = _
        rw [List.length_modify]
      have hblen : lvl + 1 < st.levels.length := (List.getElem?_eq_some_iff.mp hb).1
      have hb1 : L1[lvl + 1]? = some b := by rw [hL1, hb]; simp
      have hbd1 : ∀ p, bound L1 p ↔ bound st.levels p := by
        intro p
        simp only [bound, hL1]
        constructor
        · rintro ⟨lv, h1, h2⟩
          obtain ⟨lv0, h3, rfl⟩ := Option.map_eq_some_iff.mp h1
          refine ⟨lv0, h3, ?_⟩
          by_cases e : lvl = p.1
          · simpa [e, er] using h2
          · simpa [e] using h2
        · rintro ⟨lv, h1, h2⟩
          rw [h1]
          refine ⟨_, rfl, ?_⟩
          by_cases e : lvl = p.1
          · simpa [e, er] using h2
          · simpa [e] using h2
      have hp1 := pathsOf_erase 0 lvl id st.levels a ha (List.mem_map.mpr ⟨q, hqm, hqid⟩)
      simp only [Nat.zero_add] at hp1
      have hp2 := pathsOf_pushPart 0 (lvl + 1) q' L1 (by rw [hlen1]; exact hblen)
      simp only [Nat.zero_add] at hp2
      have hnd1 : ((lvl, id) :: pathsOf 0 L1).Nodup := hp1.nodup_iff.mp h.nd
      have hsrc : (lvl, id) ∈ pathsOf 0 st.levels := hp1.mem_iff.mpr (by simp)
      have hold : ∀ p ∈ pathsOf 0 L1, p ∈ pathsOf 0 st.levels := fun p hp =>
        hp1.mem_iff.mpr (List.mem_cons.mpr (.inr hp))
      have hnb := not_bound_next hb (by omega)
      have hnew : (lvl + 1, b.partId + 1) ∉ pathsOf 0 st.levels := fun hm => hnb (h.bd _ hm)
      have hnm : (lvl + 1, b.partId + 1) ∉ st.ops.flatMap COp.paths := fun hm => hnb (h.ment _ hm)
      let G' := upd G (lvl + 1, b.partId + 1) (G (lvl, id))
      have hG : ∀ p ∈ pathsOf 0 st.levels, G' p = G p := by
        intro p hp
        simp only [G', upd]
        rw [if_neg]
        rintro rfl
        exact hnew hp
      have hGn : G' (lvl + 1, b.partId + 1) = G (lvl, id) := by simp [G', upd]
      have hbp : ∀ p, bound st.levels p → bound L2 p := fun p hp => bound_push ((hbd1 p).mpr hp)
      have hbn : bound L2 (lvl + 1, b.partId + 1) := bound_new q' hb1 (by omega)
      refine ⟨G', ?_, ?_, ?_, ?_, ?_, ?_, ?_, ?_⟩
      · rw [← hs]
        refine ⟨?_, fun p hp => hp, ?_, ?_, ?_, ?_, ?_, ?_, ?_⟩
        · show (pathsOf 0 L2).Nodup
          rw [hp2.nodup_iff, List.nodup_append]
          refine ⟨(List.nodup_cons.mp hnd1).2, by simp, ?_⟩
          intro x hx y hy
          simp at hy
          subst hy
          rintro rfl
          exact hnew (hold _ hx)
        · intro p hp
          rcases List.mem_append.mp (hp2.mem_iff.mp hp) with hp | hp
          · exact hbp p (h.bd p (hold p hp))
          · simp at hp; subst hp; exact hbn
        · intro l i h2 h3
          have h2' : l < st.levels.length := by
            have h2'' : l < L2.length := h2
            simpa [L2, hlen1] using h2''
          exact h.fresh l i h2' (fun hb' => h3 (hbp _ hb'))
        · intro p hp
          simp only [List.flatMap_append, List.mem_append] at hp
          rcases hp with hp | hp
          · exact hbp p (h.ment p hp)
          · simp [COp.paths] at hp
            rcases hp with rfl | rfl
            · exact hbp _ (h.bd _ hsrc)
            · exact hbn
        · intro l i
          simp only
          rw [mentions_append]
          have := h.cnt l i
          have e : mentions [COp.rename (lvl, id) (lvl + 1, b.partId + 1)] (l, i) =
              (if (l, i) = (lvl, id) then 1 else 0) + (if (l, i) = (lvl + 1, b.partId + 1) then 1 else 0) := by
            simp only [mentions, List.flatMap_cons, List.flatMap_nil, List.append_nil, COp.paths,
              List.count_cons, List.count_nil, beq_iff_eq]
            simp only [eq_comm (a := (l, i))]
            omega
          rw [e]
          simp only [Cnt.open]
          split <;> split <;> omega
        · intro k lv hlv x hx
          have hlv' : L2[k]? = some lv := hlv
          rw [List.getElem?_modify, hL1] at hlv'
          cases hk : st.levels[k]? with
          | none => rw [hk] at hlv'; simp at hlv'
          | some lv0 =>
            rw [hk] at hlv'
            simp only [Option.map_eq_map, Option.map_some, Option.some.injEq] at hlv'
            have hx0 : (x ∈ lv0.parts) ∨ (x = q' ∧ k = lvl + 1) := by
              subst hlv'
              by_cases e1 : lvl + 1 = k
              · have e2 : ¬ lvl = k := by omega
                simp only [e1, e2, if_true, if_false, pushPart, List.mem_append, List.mem_singleton] at hx
                rcases hx with hx | hx
                · exact .inl hx
                · exact .inr ⟨hx, e1.symm⟩
              · by_cases e2 : lvl = k
                · rw [if_neg e1, if_pos e2] at hx
                  exact .inl (List.mem_of_mem_eraseP hx)
                · simp only [e1, e2, if_false] at hx
                  exact .inl hx
            rcases hx0 with hx0 | ⟨rfl, rfl⟩
            · rw [hG _ (mem_pathsOf.mpr ⟨k, lv0, x, hk, hx0, by simp⟩)]
              exact h.ok k lv0 hk x hx0
            · show GoodPart le key (G' (lvl + 1, b.partId + 1)) q'
              rw [hGn]
              have := h.ok lvl a ha q hqm
              rw [hqid] at this
              exact this
        · intro p hp x hx
          rcases List.mem_append.mp (hp2.mem_iff.mp hp) with hp | hp
          · rw [hG p (hold p hp)]
            exact h.cons p (hold p hp) x hx
          · simp at hp
            subst hp
            have := h.fresh (lvl + 1) (b.partId + 1) hblen hnb
            simp only [q'] at hx
            rw [this] at hx
            simp at hx
        · intro c hc
          simp only [mentions_append] at hc ⊢
          have e : ∀ l i, mentions [COp.rename (lvl, id) (lvl + 1, b.partId + 1)] (l, i) =
              (if (l, i) = (lvl, id) then 1 else 0) + (if (l, i) = (lvl + 1, b.partId + 1) then 1 else 0) := by
            intro l i
            simp only [mentions, List.flatMap_cons, List.flatMap_nil, List.append_nil, COp.paths,
              List.count_cons, List.count_nil, beq_iff_eq]
            simp only [eq_comm (a := (l, i))]
            omega
          obtain ⟨D, c', h1, h2, h3⟩ := h.virt c (fun l i => by have := hc l i; omega)
          have c1 : 1 ≤ c' lvl id := by
            have := hc lvl id; have := h2 lvl id; rw [e] at *; simp at *; omega
          have c2 : 1 ≤ c' (lvl + 1) (b.partId + 1) := by
            have := hc (lvl + 1) (b.partId + 1); have := h2 (lvl + 1) (b.partId + 1)
            rw [e] at *; simp at *; omega
          have hcl1 := Cnt.close_some (c := c') (p := (lvl, id)) c1
          have hcl2 := Cnt.close_some (c := fun l i => if (l, i) = (lvl, id) then c' l i - 1 else c' l i)
            (p := (lvl + 1, b.partId + 1)) (by simpa using c2)
          refine ⟨setPart (setPart D lvl id none) (lvl + 1) (b.partId + 1) (some (.full (G (lvl, id)))),
            (fun l i => if (l, i) = (lvl + 1, b.partId + 1) then (if (l, i) = (lvl, id) then c' l i - 1 else c' l i) - 1
              else if (l, i) = (lvl, id) then c' l i - 1 else c' l i), ?_, ?_, ?_⟩
          · rw [execOps_append, h1]
            simp only [Option.bind_some, execOps, h3 _ hsrc, hcl1, hcl2]
          · intro l i
            have := h2 l i
            have := hc l i
            rw [e] at *
            simp only
            by_cases e1 : (l, i) = (lvl, id)
            · have e2 : ¬ (l, i) = (lvl + 1, b.partId + 1) := by rw [e1]; simp
              simp only [if_pos e1, if_neg e2] at *
              omega
            · by_cases e2 : (l, i) = (lvl + 1, b.partId + 1)
              · simp only [if_neg e1, if_pos e2] at *
                omega
              · simp only [if_neg e1, if_neg e2] at *
                omega
          · intro p hp
            rcases List.mem_append.mp (hp2.mem_iff.mp hp) with hp | hp
            · rw [hG p (hold p hp), setPart_ne, setPart_ne]
              · exact h3 p (hold p hp)
              · rintro ⟨e1, e2⟩
                exact (List.nodup_cons.mp hnd1).1 (by rw [← e1, ← e2]; exact hp)
              · rintro ⟨e1, e2⟩
                exact hnew (by rw [← e1, ← e2]; exact hold p hp)
            · simp only [List.mem_singleton] at hp
              subst hp
              show setPart _ _ _ _ (lvl + 1) (b.partId + 1) = some (.full (G' (lvl + 1, b.partId + 1)))
              rw [setPart_same, hGn]
      · rw [← hs]
        refine (hp2.flatMap_right _).trans ?_
        rw [List.flatMap_append]
        have e1 : (pathsOf 0 L1).flatMap G' = (pathsOf 0 L1).flatMap G :=
          flatMap_congr' fun p hp => hG p (hold p hp)
        rw [e1]
        simp only [q', List.flatMap_cons, List.flatMap_nil, List.append_nil, hGn]
        refine List.perm_append_comm.trans ?_
        exact ((hp1.flatMap_right G).trans (by rw [List.flatMap_cons])).symm
      · intro p hp
        rw [← hs] at hp
        rcases List.mem_append.mp (hp2.mem_iff.mp hp) with hp | hp
        · exact .inl (hold p hp)
        · simp only [List.mem_singleton] at hp
          subst hp
          exact .inr hnb
      · intro p hp
        rw [← hs]
        exact hbp p hp
      · rw [← hs]
        show L2.length = _
        simp [L2, hlen1]
      · intro hl
        rw [← hs]
        show L2[0]? = _
        rw [List.getElem?_modify, hL1]
        cases st.levels[0]? with
        | none => rfl
        | some v => simp; omega
      · rw [← hs]
      · rw [← hs]

/-! ### what is chosen -/

theorem overMax_sub (M : Nat) (s : Nat) (ps : List (PartRef K)) :
    ∀ i ∈ overMax M s ps, i ∈ ps.map PartRef.id := by
  induction ps generalizing s with
  | nil => simp [overMax]
  | cons p ps ih =>
    intro i hi
    simp only [overMax] at hi
    split at hi
    · rcases List.mem_cons.mp hi with rfl | hi
      · simp
      · exact List.mem_cons_of_mem _ (ih _ i hi)
    · exact List.mem_cons_of_mem _ (ih _ i hi)

theorem selectParts_sub (T M : Nat) (all : List (PartRef K)) (s : Nat) (ps : List (PartRef K))
    (hps : ∀ p ∈ ps, p ∈ all) : ∀ i ∈ selectParts T M all s ps, i ∈ all.map PartRef.id := by
  induction ps generalizing s with
  | nil => simp [selectParts]
  | cons p ps ih =>
    intro i hi
    simp only [selectParts] at hi
    split at hi
    · rcases List.mem_append.mp hi with hi | hi
      · exact overMax_sub _ _ _ i hi
      · rcases List.mem_cons.mp hi with rfl | hi
        · exact List.mem_map.mpr ⟨p, hps p (by simp), rfl⟩
        · exact ih _ (fun p hp => hps p (by simp [hp])) i hi
    · exact ih _ (fun p hp => hps p (by simp [hp])) i hi

/-- The ids chosen in the level itself. -/
def chosenIds (o : CompOpts) (lvl : Nat) (a : DLevel K) : List Nat :=
  if lvl = 0 then (if o.l0MaxParts < a.parts.length then a.parts.map PartRef.id else [])
  else selectParts (o.threshold lvl) (o.maxPart lvl) a.parts 0 a.parts

theorem chosenIds_sub (o : CompOpts) (lvl : Nat) (a : DLevel K) :
    ∀ i ∈ chosenIds o lvl a, i ∈ a.parts.map PartRef.id := by
  intro i hi
  unfold chosenIds at hi
  split at hi
  · split at hi
    · exact hi
    · cases hi
  · exact selectParts_sub _ _ _ _ _ (fun _ h => h) i hi

theorem determine_shape {le : K → K → Prop} [DecidableRel le] {o : CompOpts} {lvl : Nat} {a b : DLevel K}
    {tcs : List (Nat × Nat)} (h : determine le o lvl a b = some tcs) :
    ∃ f : PartRef K → Bool, tcs = (chosenIds o lvl a).map (fun i => (lvl, i)) ++
      (b.parts.filter f).map (fun q => (lvl + 1, q.id)) ∧ chosenIds o lvl a ≠ [] := by
  unfold determine at h
  change (match (chosenIds o lvl a).filterMap fun i => a.parts.find? (fun q => q.id == i) with
    | [] => none
    | q :: qs => some ((chosenIds o lvl a).map (fun i => (lvl, i)) ++
      (b.parts.filter fun x => decide (¬ le (minK le x.max (qs.foldl (fun m q => maxK le m q.max) q.max))
        (maxK le x.min (qs.foldl (fun m q => minK le m q.min) q.min)))).map
        fun q => (lvl + 1, q.id))) = some tcs at h
  split at h
  · cases h
  · rename_i q qs hq
    refine ⟨_, (Option.some.inj h).symm, ?_⟩
    intro e
    rw [e] at hq
    cases hq

theorem determine_sub {le : K → K → Prop} [DecidableRel le] {o : CompOpts} {lvl : Nat} {ls : List (DLevel K)}
    {a b : DLevel K} (ha : ls[lvl]? = some a) (hb : ls[lvl + 1]? = some b)
    {tcs : List (Nat × Nat)} (h : determine le o lvl a b = some tcs) : ∀ p ∈ tcs, p ∈ pathsOf 0 ls := by
  obtain ⟨f, rfl, _⟩ := determine_shape h
  intro p hp
  rcases List.mem_append.mp hp with hp | hp
  · obtain ⟨i, hi, rfl⟩ := List.mem_map.mp hp
    obtain ⟨q, hq, rfl⟩ := List.mem_map.mp (chosenIds_sub o lvl a i hi)
    exact mem_pathsOf.mpr ⟨lvl, a, q, ha, hq, by simp⟩
  · obtain ⟨q, hq, rfl⟩ := List.mem_map.mp hp
    exact mem_pathsOf.mpr ⟨lvl + 1, b, q, hb, (List.mem_filter.mp hq).1, by simp⟩

/-- With `l0_max_parts ≥ 1` a single part of level 0 is never chosen alone. -/
theorem determine_level0 {le : K → K → Prop} [DecidableRel le] {o : CompOpts} (ho : 1 ≤ o.l0MaxParts)
    {a b : DLevel K} {tcs : List (Nat × Nat)} (h : determine le o 0 a b = some tcs) : 2 ≤ tcs.length := by
  obtain ⟨f, rfl, hne⟩ := determine_shape h
  have : o.l0MaxParts < a.parts.length := by
    apply Decidable.byContradiction
    intro hn
    exact hne (by simp [chosenIds, hn])
  simp [chosenIds, this]
  omega

/-! ### counting rows -/

theorem nodup_count {α : Type} [BEq α] [LawfulBEq α] {l : List α} (h : l.Nodup) {x : α} (hx : x ∈ l) :
    l.count x = 1 := by
  induction l with
  | nil => cases hx
  | cons a l ih =>
    obtain ⟨h1, h2⟩ := List.nodup_cons.mp h
    rcases List.mem_cons.mp hx with rfl | hx
    · rw [List.count_cons_self, List.count_eq_zero_of_not_mem h1]
    · rw [List.count_cons_of_ne (by rintro rfl; exact h1 hx), ih h2 hx]

theorem perm_filter_mem {α : Type} [BEq α] [LawfulBEq α] (l t : List α) (hl : l.Nodup) (ht : t.Nodup)
    (hsub : ∀ x ∈ t, x ∈ l) : (l.filter fun x => t.contains x).Perm t := by
  rw [List.perm_iff_count]
  intro x
  cases h : t.contains x with
  | true =>
    have hx : x ∈ t := by simpa using h
    rw [nodup_count ht hx, nodup_count (hl.filter _) (List.mem_filter.mpr ⟨hsub x hx, h⟩)]
  | false =>
    have hx : x ∉ t := by simpa using h
    rw [List.count_eq_zero_of_not_mem hx, List.count_eq_zero_of_not_mem]
    intro hm
    have := (List.mem_filter.mp hm).2
    rw [h] at this
    cases this

theorem filter_split {α β : Type} (l : List α) (p : α → Bool) (g : α → List β) :
    (l.flatMap g).Perm ((l.filter fun x => !p x).flatMap g ++ (l.filter p).flatMap g) := by
  have := (List.filter_append_perm p l).symm.flatMap_right g
  rw [List.flatMap_append] at this
  exact this.trans List.perm_append_comm

/-- Rows after a merge step compared with rows before. -/
theorem merge_rows [DecidableEq R] {l t : List (Nat × Nat)} (g : Nat × Nat → List R) (hl : l.Nodup)
    (hsub : ∀ x ∈ t, x ∈ l) (hne : ∀ x ∈ t, g x ≠ []) :
    (t.Nodup → ((l.filter fun x => !t.contains x).flatMap g ++ t.flatMap g).Perm (l.flatMap g)) ∧
    (¬ t.Nodup → (l.flatMap g).length <
      ((l.filter fun x => !t.contains x).flatMap g ++ t.flatMap g).length) := by
  have hsp := filter_split l (fun x => t.contains x) g
  constructor
  · intro ht
    exact ((hsp.trans (List.Perm.append_left _
      ((perm_filter_mem l t hl ht hsub).flatMap_right g)))).symm
  · intro ht
    rw [hsp.length_eq, List.length_append, List.length_append]
    apply Nat.add_lt_add_left
    -- the distinct parts chosen
    have hd : ∀ t : List (Nat × Nat), (∀ x ∈ t, g x ≠ []) → ∀ m : List (Nat × Nat), m.Nodup → (∀ x ∈ m, x ∈ t) →
        (m.flatMap g).length ≤ (t.flatMap g).length ∧ (¬ t.Nodup → (m.flatMap g).length < (t.flatMap g).length) := by
      intro t
      induction t with
      | nil =>
        intro _ m _ hm
        cases m with
        | nil => simp
        | cons a m => exact absurd (hm a (by simp)) (by simp)
      | cons a t ih =>
        intro hne m hm hmt
        have hpos : 0 < (g a).length := List.length_pos_iff.mpr (hne a (by simp))
        have hne' : ∀ x ∈ t, g x ≠ [] := fun x hx => hne x (by simp [hx])
        by_cases ham : a ∈ m
        · have hperm : m.Perm (a :: m.erase a) := List.perm_cons_erase ham
          have hnd := hperm.nodup_iff.mp hm
          have hmt' : ∀ x ∈ m.erase a, x ∈ t := by
            intro x hx
            have hxm := List.mem_of_mem_erase hx
            rcases List.mem_cons.mp (hmt x hxm) with rfl | h
            · exact absurd hx (List.nodup_cons.mp hnd).1
            · exact h
          obtain ⟨i1, i2⟩ := ih hne' (m.erase a) (List.nodup_cons.mp hnd).2 hmt'
          have hlen := (hperm.flatMap_right g).length_eq
          simp only [List.flatMap_cons, List.length_append] at hlen ⊢
          refine ⟨by omega, ?_⟩
          intro hnt
          by_cases htn : t.Nodup
          · -- then `a` occurs again in `t`, but not in `m.erase a`
            have hat : a ∈ t := by
              apply Decidable.byContradiction
              intro h
              exact hnt (List.nodup_cons.mpr ⟨h, htn⟩)
            have hnd2 : (a :: m.erase a).Nodup := hnd
            obtain ⟨j1, _⟩ := ih hne' (a :: m.erase a) hnd2 (by
              intro x hx
              rcases List.mem_cons.mp hx with rfl | hx
              · exact hat
              · exact hmt' x hx)
            simp only [List.flatMap_cons, List.length_append] at j1
            omega
          · have := i2 htn
            omega
        · have hmt' : ∀ x ∈ m, x ∈ t := by
            intro x hx
            rcases List.mem_cons.mp (hmt x hx) with rfl | h
            · exact absurd hx ham
            · exact h
          obtain ⟨i1, _⟩ := ih hne' m hm hmt'
          simp only [List.flatMap_cons, List.length_append]
          exact ⟨by omega, fun _ => by omega⟩
    exact (hd t hne _ (hl.filter _) (fun x hx => by simpa using (List.mem_filter.mp hx).2)).2 ht

/-! ### the loop -/

theorem compactLoop_inv [DecidableEq R] {le : K → K → Prop} [DecidableRel le] {key : R → K} {o : CompOpts}
    (ho : 1 ≤ o.l0MaxParts) {merge : List (List R) → Option (List (MOut R K))}
    (hm : IsMerge le key merge) (lvls : List Nat) :
    ∀ {G : Nat × Nat → List R} {st st' : CState R K}, CInv le key G (pathsOf 0 st.levels) st →
    compactLoop le o merge lvls st = some (some st') →
    ∃ G' picks, CInv le key G' (pathsOf 0 st'.levels) st' ∧
      st'.picks = st.picks ++ picks ∧
      ((∀ t ∈ picks, t.Nodup) → ((pathsOf 0 st'.levels).flatMap G').Perm ((pathsOf 0 st.levels).flatMap G)) ∧
      ((pathsOf 0 st.levels).flatMap G).length ≤ ((pathsOf 0 st'.levels).flatMap G').length ∧
      ((∃ t ∈ picks, ¬ t.Nodup) →
        ((pathsOf 0 st.levels).flatMap G).length < ((pathsOf 0 st'.levels).flatMap G').length) ∧
      st'.levels.length = st.levels.length ∧
      (∀ lv0 : DLevel K,
        st.levels[0]? = some { lv0 with parts := lv0.parts.filter fun q => !st.l0rem.contains q.id } →
        st'.levels[0]? = some { lv0 with parts := lv0.parts.filter fun q => !st'.l0rem.contains q.id }) ∧
      (∀ i ∈ st'.l0rem, i ∈ st.l0rem ∨ bound st.levels (0, i)) ∧
      (∀ p ∈ pathsOf 0 st'.levels, p ∈ pathsOf 0 st.levels ∨ ¬ bound st.levels p) ∧
      (∀ p, bound st.levels p → bound st'.levels p) := by
  induction lvls with
  | nil =>
    intro G st st' h hs
    simp only [compactLoop, Option.some.injEq] at hs
    subst hs
    exact ⟨G, [], h, by simp, fun _ => List.Perm.refl _, Nat.le_refl _, by simp, rfl, fun _ h => h,
      fun i hi => .inl hi, fun p hp => .inl hp, fun _ h => h⟩
  | cons lvl lvls ih =>
    intro G st st' h hs
    unfold compactLoop at hs
    cases ha : st.levels[lvl]? with
    | none => rw [ha] at hs; simp at hs
    | some a =>
      cases hb : st.levels[lvl + 1]? with
      | none => rw [ha, hb] at hs; simp at hs
      | some b =>
        rw [ha, hb] at hs
        dsimp only at hs
        cases hdet : determine le o lvl a b with
        | none =>
          rw [hdet] at hs
          dsimp only at hs
          split at hs
          · simp only [Option.some.injEq] at hs
            subst hs
            exact ⟨G, [], h, by simp, fun _ => List.Perm.refl _, Nat.le_refl _, by simp, rfl, fun _ h => h,
              fun i hi => .inl hi, fun p hp => .inl hp, fun _ h => h⟩
          · simp at hs
        | some tcs =>
          rw [hdet] at hs
          dsimp only at hs
          have hsub := determine_sub ha hb hdet
          let st0 : CState R K := { st with done := true, picks := st.picks ++ [tcs] }
          have h0 : CInv le key G (pathsOf 0 st0.levels) st0 :=
            ⟨h.nd, h.sub, h.bd, h.fresh, h.ment, h.cnt, h.ok, h.cons, h.virt⟩
          -- one step
          have step : ∀ st1, (match tcs with
              | [tc] => moveStep lvl tc.2 b st0
              | _ => mergeStep merge lvl tcs st0) = some st1 →
              ∃ G1, CInv le key G1 (pathsOf 0 st1.levels) st1 ∧ st1.picks = st0.picks ∧
                (tcs.Nodup → ((pathsOf 0 st1.levels).flatMap G1).Perm ((pathsOf 0 st.levels).flatMap G)) ∧
                (¬ tcs.Nodup → ((pathsOf 0 st.levels).flatMap G).length < ((pathsOf 0 st1.levels).flatMap G1).length) ∧
                st1.levels.length = st.levels.length ∧
                (∀ lv0 : DLevel K,
                  st.levels[0]? = some { lv0 with parts := lv0.parts.filter fun q => !st.l0rem.contains q.id } →
                  st1.levels[0]? = some { lv0 with parts := lv0.parts.filter fun q => !st1.l0rem.contains q.id }) ∧
                (∀ i ∈ st1.l0rem, i ∈ st.l0rem ∨ bound st.levels (0, i)) ∧
                (∀ i, bound st1.levels (0, i) → bound st.levels (0, i)) ∧
                (∀ p ∈ pathsOf 0 st1.levels, p ∈ pathsOf 0 st.levels ∨ ¬ bound st.levels p) ∧
                (∀ p, bound st.levels p → bound st1.levels p) := by
            intro st1 hst
            have hmerge : mergeStep merge lvl tcs st0 = some st1 →
                ∃ G1, CInv le key G1 (pathsOf 0 st1.levels) st1 ∧ st1.picks = st0.picks ∧
                (tcs.Nodup → ((pathsOf 0 st1.levels).flatMap G1).Perm ((pathsOf 0 st.levels).flatMap G)) ∧
                (¬ tcs.Nodup → ((pathsOf 0 st.levels).flatMap G).length < ((pathsOf 0 st1.levels).flatMap G1).length) ∧
                st1.levels.length = st.levels.length ∧
                (∀ lv0 : DLevel K,
                  st.levels[0]? = some { lv0 with parts := lv0.parts.filter fun q => !st.l0rem.contains q.id } →
                  st1.levels[0]? = some { lv0 with parts := lv0.parts.filter fun q => !st1.l0rem.contains q.id }) ∧
                (∀ i ∈ st1.l0rem, i ∈ st.l0rem ∨ bound st.levels (0, i)) ∧
                (∀ i, bound st1.levels (0, i) → bound st.levels (0, i)) ∧
                (∀ p ∈ pathsOf 0 st1.levels, p ∈ pathsOf 0 st.levels ∨ ¬ bound st.levels p) ∧
                (∀ p, bound st.levels p → bound st1.levels p) := by
              intro hmg
              obtain ⟨G1, i1, i2, n1, n2, i3, i4, i5, i6⟩ := mergeStep_inv hm h0
                (List.getElem?_eq_some_iff.mp hb).1 hsub hmg
              have hrows := merge_rows G h.nd hsub (by
                intro p hp
                obtain ⟨k, lv, q, e1, e2, rfl⟩ := mem_pathsOf.mp (hsub p hp)
                rw [Nat.zero_add]
                exact (h.ok k lv e1 q e2).1)
              refine ⟨G1, i1, i6, fun hn => i2.trans (hrows.1 hn), ?_, i3, ?_, ?_, ?_, n1, n2⟩
              · intro hn
                rw [i2.length_eq]
                exact hrows.2 hn
              · intro lv0 hlv0
                rw [i4]
                show st.levels[0]?.map _ = _
                rw [hlv0, i5]
                simp only [Option.map_some, List.filter_filter]
                congr 2
                apply List.filter_congr
                intro q _
                rw [Bool.eq_iff_iff]
                have e : (tcs.contains (0, q.id) = true) ↔
                    q.id ∈ (tcs.filter fun tc => tc.1 == 0).map Prod.snd := by
                  rw [List.contains_iff_mem]
                  constructor
                  · intro hq
                    exact List.mem_map.mpr ⟨(0, q.id), List.mem_filter.mpr ⟨hq, by simp⟩, rfl⟩
                  · intro hq
                    obtain ⟨x, hx, hxe⟩ := List.mem_map.mp hq
                    obtain ⟨hx1, hx2⟩ := List.mem_filter.mp hx
                    have : x = (0, q.id) := Prod.ext (by simpa using hx2) hxe
                    rw [← this]; exact hx1
                show (_ && _) = true ↔ (!(st.l0rem ++ _).contains q.id) = true
                rw [Bool.and_eq_true, Bool.not_eq_true', Bool.not_eq_true', Bool.not_eq_true',
                  ← Bool.not_eq_true, ← Bool.not_eq_true, ← Bool.not_eq_true, e, List.contains_iff_mem,
                  List.contains_iff_mem, List.mem_append, not_or, and_comm]
              · intro i hi
                rw [i5] at hi
                rcases List.mem_append.mp hi with hi | hi
                · exact .inl hi
                · obtain ⟨x, hx, rfl⟩ := List.mem_map.mp hi
                  obtain ⟨hx1, hx2⟩ := List.mem_filter.mp hx
                  have : x = (0, x.2) := Prod.ext (by simpa using hx2) rfl
                  rw [← this]
                  exact .inr (h.bd x (hsub x hx1))
              · rintro i ⟨lv, h1, h2⟩
                simp only at h1 h2
                rw [i4] at h1
                obtain ⟨lv0, e1, rfl⟩ := Option.map_eq_some_iff.mp h1
                exact ⟨lv0, e1, h2⟩
            rcases tcs with _ | ⟨tc, _ | ⟨y, zs⟩⟩
            · exact hmerge hst
            ·
              have hl1 : 1 ≤ lvl := by
                rcases Nat.eq_zero_or_pos lvl with rfl | h'
                · have := determine_level0 ho hdet
                  simp at this
                · exact h'
              obtain ⟨G1, i1, i2, n1, n2, i3, i4, i5, i6⟩ := moveStep_inv h0 hb hst
              refine ⟨G1, i1, i6, fun _ => i2, fun hn => absurd (by simp) hn, i3, ?_, ?_, ?_, n1, n2⟩
              · intro lv0 hlv0
                rw [i4 hl1, i5]
                exact hlv0
              · intro i hi
                rw [i5] at hi
                exact .inl hi
              · rintro i ⟨lv, h1, h2⟩
                simp only at h1 h2
                rw [i4 hl1] at h1
                exact ⟨lv, h1, h2⟩
            · exact hmerge hst
          cases hst : (match tcs with
              | [tc] => moveStep lvl tc.2 b st0
              | _ => mergeStep merge lvl tcs st0) with
          | none =>
            change (match (match tcs with
              | [tc] => moveStep lvl tc.2 b st0
              | _ => mergeStep merge lvl tcs st0) with
              | none => none
              | some st' => compactLoop le o merge lvls st') = some (some st') at hs
            rw [hst] at hs
            simp at hs
          | some st1 =>
            change (match (match tcs with
              | [tc] => moveStep lvl tc.2 b st0
              | _ => mergeStep merge lvl tcs st0) with
              | none => none
              | some st' => compactLoop le o merge lvls st') = some (some st') at hs
            rw [hst] at hs
            dsimp only at hs
            obtain ⟨G1, s1, s2, s3, s4, s5, s6, s7, s8, s9, s10⟩ := step st1 hst
            obtain ⟨G2, picks, j1, j2, j3, j4, j5, j6, j7, j8, j9, j10⟩ := ih s1 hs
            have hle1 : ((pathsOf 0 st.levels).flatMap G).length ≤ ((pathsOf 0 st1.levels).flatMap G1).length := by
              by_cases hn : tcs.Nodup
              · rw [(s3 hn).length_eq]; exact Nat.le_refl _
              · exact Nat.le_of_lt (s4 hn)
            refine ⟨G2, tcs :: picks, j1, ?_, ?_, Nat.le_trans hle1 j4, ?_, j6.trans s5, ?_, ?_, ?_, fun p hp => j10 p (s10 p hp)⟩
            · rw [j2, s2]
              show st.picks ++ [tcs] ++ picks = _
              simp
            · intro hall
              exact (j3 fun t ht => hall t (by simp [ht])).trans (s3 (hall tcs (by simp)))
            · rintro ⟨t, ht, hn⟩
              rcases List.mem_cons.mp ht with rfl | ht
              · exact Nat.lt_of_lt_of_le (s4 hn) j4
              · exact Nat.lt_of_le_of_lt hle1 (j5 ⟨t, ht, hn⟩)
            · intro lv0 hlv0
              exact j7 lv0 (s6 lv0 hlv0)
            · intro i hi
              rcases j8 i hi with hi | hi
              · exact s7 i hi
              · exact .inr (s8 i hi)
            · intro p hp
              rcases j9 p hp with hp | hp
              · exact s9 p hp
              · exact .inr (fun hb => hp (s10 p hb))

end OptiPrism.Storage
