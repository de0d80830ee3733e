import Verif.Storage.PMergeRows
import Verif.Storage.CompactProps

/-!
# The merge of part files: properties C94, C95

Theorems about `PMerge` (/repo/src/storage/src/parquet/parquet_merger.rs).
-/

namespace OptiPrism.Storage.PMerge

variable {V C : Type}

/-! ## C94 -/

/-- C94: merging part files which do not replace rows neither panics nor loses, repeats or mixes rows. The files written hold the rows of
the input files, each with all its values (NULL where its file lacks a column), in key order over all files; no file is
empty, and the number of values and the range handed to the level are those of the file. For every layout of row groups and
pages, every tie break of the heaps, every limit. -/
theorem C94_merge (null : V) {o : Opts} (ho : o.Ok) (hr : o.replacing = false) (cols : List C)
    {parts : List (PartFile V C)} (hp : ∀ p ∈ parts, p.Ok o.cols) :
    ∃ outs, mergeParts null o cols parts = some outs ∧
      (outs.flatMap MOut.rows).Perm (parts.flatMap (PartFile.rows null)) ∧
      SortedBy VLe Prod.fst (outs.flatMap MOut.rows) ∧
      ∀ x ∈ outs, x.rows ≠ [] ∧ x.values = x.rows.length ∧ ∀ r ∈ x.rows, VLe x.min r.1 ∧ VLe r.1 x.max :=
  merge_core null ho cols hp (Or.inl hr)

/-- `lay` finds the part files which hold the rows. -/
def Lays (null : V) (n : Nat) (lay : List (List (Row V C)) → Option (List (PartFile V C))) : Prop :=
  ∀ ins parts, (∀ b ∈ ins, SortedBy VLe Prod.fst b) → lay ins = some parts →
    parts.map (PartFile.rows null) = ins ∧ ∀ p ∈ parts, p.Ok n

/-- C94: the merger does what the theorems about compaction (C16, C17, C18, C91) ask of it. -/
theorem C94_isMerge (null : V) {o : Opts} (ho : o.Ok) (hr : o.replacing = false) (cols : List C)
    {lay : List (List (Row V C)) → Option (List (PartFile V C))} (hl : Lays null o.cols lay) :
    IsMerge VLe Prod.fst (fun ins => (lay ins).bind (mergeParts null o cols)) := by
  intro ins outs hs h
  obtain ⟨parts, h1, h2⟩ := Option.bind_eq_some_iff.mp h
  obtain ⟨h3, h4⟩ := hl ins parts hs h1
  obtain ⟨outs', e1, e2, e3, e4⟩ := C94_merge null ho hr cols h4
  rw [h2, Option.some.injEq] at e1
  subst e1
  rw [List.flatMap_def (l := parts), h3] at e2
  refine ⟨e2, ?_⟩
  intro x hx
  obtain ⟨f1, f2, f3⟩ := e4 x hx
  exact ⟨f1, f2, e3.sublist (by rw [List.flatMap_def]; exact List.sublist_flatten_of_mem (List.mem_map_of_mem hx)), f3⟩

/-! ### page statistics -/

/-- The values of one index column. -/
def colOf (i : Nat) (keys : List Key) : List Int := keys.map fun k => k.getD i 0

/-- The range of a chunk, parquet_merger.rs 284-301 and parquet/mod.rs 472-514: for each index column the minimum of the first page and the maximum of the last
page. `cut` is how the writer cuts the column into pages. All keys have the same number of columns. -/
def pageStat (cut : Nat → List Int → List (List Int)) (keys : List Key) : Key × Key :=
  ((List.range ((keys.head?.getD []).length)).map fun i => ((cut i (colOf i keys)).head?.bind List.min?).getD 0,
   (List.range ((keys.getLast?.getD []).length)).map fun i => ((cut i (colOf i keys)).getLast?.bind List.max?).getD 0)

/-- Cuts into pages which are not empty. -/
def CutOk (cut : Nat → List Int → List (List Int)) : Prop :=
  ∀ i l, (cut i l).flatten = l ∧ ∀ p ∈ cut i l, p ≠ []

theorem vecLe_pointwise (a b : Key) (hl : a.length = b.length) (h : ∀ i, i < b.length → a.getD i 0 ≤ b.getD i 0) : VLe a b := by
  induction a generalizing b with
  | nil => rfl
  | cons x a ih =>
    cases b with
    | nil => simp at hl
    | cons y b =>
      have h0 := h 0 (by simp)
      simp only [List.getD_cons_zero] at h0
      have := ih b (by simpa using hl) (fun i hi => by simpa using h (i + 1) (by simpa using hi))
      simp only [VLe, vecLe, Bool.or_eq_true, Bool.and_eq_true, decide_eq_true_eq]
      rcases Int.lt_or_eq_of_le h0 with h0 | h0
      · exact Or.inl h0
      · exact Or.inr ⟨h0, this⟩

theorem pages_first {cut : Nat → List Int → List (List Int)} (hc : CutOk cut) (i : Nat) (x : Int) (l : List Int) :
    ((cut i (x :: l)).head?.bind List.min?).getD 0 ≤ x := by
  obtain ⟨h1, h2⟩ := hc i (x :: l)
  cases h : cut i (x :: l) with
  | nil => rw [h] at h1; simp at h1
  | cons p ps =>
    rw [h] at h1 h2
    cases p with
    | nil => exact absurd rfl (h2 [] (by simp))
    | cons y p =>
      have hy : y = x := by simp at h1; exact h1.1
      subst hy
      simp only [List.head?_cons, Option.bind_some]
      cases hm : (y :: p).min? with
      | none => simp at hm
      | some m => exact (List.min?_eq_some_iff.mp hm).2 y (by simp)

theorem pages_last {cut : Nat → List Int → List (List Int)} (hc : CutOk cut) (i : Nat) (x : Int) (l : List Int) :
    x ≤ ((cut i (l ++ [x])).getLast?.bind List.max?).getD 0 := by
  obtain ⟨h1, h2⟩ := hc i (l ++ [x])
  have hne : cut i (l ++ [x]) ≠ [] := by intro h; rw [h] at h1; simp at h1
  obtain ⟨ps, p, h⟩ : ∃ ps p, cut i (l ++ [x]) = ps ++ [p] :=
    ⟨_, _, (List.dropLast_concat_getLast hne).symm⟩
  rw [h] at h1 h2 ⊢
  have hp := h2 p (by simp)
  obtain ⟨q, y, rfl⟩ : ∃ q y, p = q ++ [y] := ⟨_, _, (List.dropLast_concat_getLast hp).symm⟩
  have hy : y = x := by
    have := congrArg List.getLast? h1
    simp at this
    exact this
  subst hy
  simp only [List.getLast?_concat, Option.bind_some]
  cases hm : (q ++ [y]).max? with
  | none => simp at hm
  | some m => exact (List.max?_eq_some_iff.mp hm).2 y (by simp)

/-- C94: however the writer cuts the columns into pages, the statistics of the first and of the last page of each column bound the keys of a sorted
chunk, and have as many columns. -/
theorem C94_stats {cut : Nat → List Int → List (List Int)} (hc : CutOk cut) (keys : List Key)
    (hne : keys ≠ []) (hs : keys.Pairwise VLe) :
    (∀ k ∈ keys, VLe (pageStat cut keys).1 k ∧ VLe k (pageStat cut keys).2) ∧
    ∀ n, (∀ k ∈ keys, k.length = n) → (pageStat cut keys).1.length = n ∧ (pageStat cut keys).2.length = n := by
  constructor
  · intro k hk
    constructor
    · cases keys with
      | nil => exact absurd rfl hne
      | cons k0 ks =>
        have h0 : VLe (pageStat cut (k0 :: ks)).1 k0 := by
          apply vecLe_pointwise
          · simp [pageStat]
          · intro i hi
            have := pages_first hc i (k0.getD i 0) (ks.map fun k => k.getD i 0)
            simp only [pageStat, List.head?_cons, Option.getD_some]
            rw [List.getD_eq_getElem?_getD, List.getElem?_map, List.getElem?_range hi]
            exact this
        rcases List.mem_cons.mp hk with rfl | hk
        · exact h0
        · exact vTotOrd.trans h0 ((List.pairwise_cons.mp hs).1 k hk)
    · obtain ⟨ks, k0, rfl⟩ : ∃ ks k0, keys = ks ++ [k0] := ⟨_, _, (List.dropLast_concat_getLast hne).symm⟩
      have h0 : VLe k0 (pageStat cut (ks ++ [k0])).2 := by
        apply vecLe_pointwise
        · simp [pageStat]
        · intro i hi
          have hi' : i < k0.length := by simpa [pageStat] using hi
          have := pages_last hc i (k0.getD i 0) (ks.map fun k => k.getD i 0)
          simp only [pageStat, List.getLast?_concat, Option.getD_some]
          rw [List.getD_eq_getElem?_getD (l := List.map _ _), List.getElem?_map, List.getElem?_range hi']
          simp only [colOf, List.map_append, List.map_cons, List.map_nil, Option.map_some, Option.getD_some]
          exact this
      rcases List.mem_append.mp hk with hk | hk
      · exact vTotOrd.trans ((List.pairwise_append.mp hs).2.2 k hk k0 (by simp)) h0
      · rw [List.mem_singleton.mp hk]; exact h0
  · intro n hn
    constructor
    · cases keys with
      | nil => exact absurd rfl hne
      | cons k0 ks => simp [pageStat, hn k0 (by simp)]
    · obtain ⟨ks, k0, rfl⟩ : ∃ ks k0, keys = ks ++ [k0] := ⟨_, _, (List.dropLast_concat_getLast hne).symm⟩
      simp [pageStat, hn k0 (by simp)]

/-! ## C95 -/

/-- One row per key, in order, each a row that was there. -/
def Kept (ins outs : List (Row V C)) : Prop :=
  SortedBy VLe Prod.fst outs ∧ (outs.map Prod.fst).Nodup ∧
  (∀ k, k ∈ outs.map Prod.fst ↔ k ∈ ins.map Prod.fst) ∧ ∀ r ∈ outs, r ∈ ins

/-- A merge of a replacing table keeps one row for every key: the groups are such tables, with the key
(project, id), /repo/src/cmd/src/lib.rs 256-277, platform/src/projects.rs 421-443. -/
def C95_full : Prop :=
  ∀ (V C : Type) (null : V) (o : Opts) (cols : List C) (parts : List (PartFile V C)),
    o.Ok → o.cols = 2 → o.replacing = true → (∀ p ∈ parts, p.Ok 2) →
    (∀ p ∈ parts, ((p.rows null).map Prod.fst).Nodup) →
    ∃ outs, mergeParts null o cols parts = some outs ∧
      Kept (parts.flatMap (PartFile.rows null)) (outs.flatMap MOut.rows)

/-- C95 for tables in which no two rows share the first column of the key, and whose statistics are exact in it. Missing: rows which share
it, `C95_violated`. -/
theorem C95_partial (null : V) {o : Opts} (ho : o.Ok) (h2 : o.cols = 2) (cols : List C)
    {parts : List (PartFile V C)} (hp : ∀ p ∈ parts, p.Ok 2)
    (hd : ((parts.flatMap (PartFile.rows null)).map fun r => r.1.head?).Nodup)
    (hlo : ∀ p ∈ parts, ∀ g ∈ p.groups, ∃ k ∈ g.keys, k.head? = g.lo.head?) :
    ∃ outs, mergeParts null o cols parts = some outs ∧
      Kept (parts.flatMap (PartFile.rows null)) (outs.flatMap MOut.rows) ∧
      (outs.flatMap MOut.rows).Perm (parts.flatMap (PartFile.rows null)) := by
  have hk : ((chunksOf parts).flatten.flatMap Chunk.keys) = (parts.flatMap (PartFile.rows null)).map Prod.fst := by
    rw [List.flatMap_def (l := parts), List.map_flatten, ← keys_chunksOf null, ← flatMap_flatten']
    rfl
  obtain ⟨outs, e1, e2, e3, -⟩ := merge_core null ho cols (by rw [h2]; exact hp) (Or.inr ⟨h2, by rw [hk, List.map_map]; exact hd, by
    intro c hc
    obtain ⟨p, hp', g, hg, s, rfl⟩ := mem_chunksOf hc
    exact hlo p hp' g hg⟩)
  refine ⟨outs, e1, ⟨e3, ?_, ?_, ?_⟩, e2⟩
  · have : ((outs.flatMap MOut.rows).map Prod.fst).Perm ((parts.flatMap (PartFile.rows null)).map Prod.fst) := e2.map _
    refine (this.nodup_iff).mpr ?_
    have h' : (((parts.flatMap (PartFile.rows null)).map Prod.fst).map List.head?).Nodup := by rw [List.map_map]; exact hd
    exact List.Pairwise.imp (fun {a b} (h : a.head? ≠ b.head?) e => h (by rw [e])) (List.pairwise_map.mp h')
  · intro k
    exact (e2.map Prod.fst).mem_iff
  · intro r hr
    exact e2.mem_iff.mp hr

/-! ### concrete cases -/

/-- Takes out the first smallest element. -/
def popMin {α : Type} (key : α → Key) : List α → Option (α × List α)
  | [] => none
  | a :: l =>
    match popMin key l with
    | none => some (a, [])
    | some (b, l') => if vecLe (key a) (key b) then some (a, b :: l') else some (b, a :: l')

def listHeap {α : Type} (key : α → Key) : Heap α := ⟨fun l a => l ++ [a], popMin key⟩

theorem popMin_none {α : Type} {key : α → Key} (l : List α) (h : popMin key l = none) : l = [] := by
  cases l with
  | nil => rfl
  | cons a l =>
    unfold popMin at h
    split at h
    · cases h
    · split at h <;> cases h

theorem listHeap_ok {α : Type} (key : α → Key) : (listHeap key).Ok key := by
  refine ⟨fun l a => List.perm_append_singleton a l, fun l h => popMin_none l h, ?_⟩
  intro l
  simp only [listHeap]
  induction l with
  | nil => intro a l' h; cases h
  | cons x l ih =>
    intro a l' h
    unfold popMin at h
    split at h
    · rename_i hn
      injection h with h
      injection h with h1 h2
      subst h1 h2
      rw [popMin_none l hn]
      exact ⟨List.Perm.refl _, fun b hb => by cases hb⟩
    · rename_i b l1 hb
      obtain ⟨h1, h2⟩ := ih b l1 hb
      split at h
      · rename_i hle
        injection h with h
        injection h with e1 e2
        subst e1 e2
        refine ⟨h1.cons x, ?_⟩
        intro c hc
        rcases List.mem_cons.mp hc with rfl | hc
        · exact hle
        · exact vTotOrd.trans hle (h2 c hc)
      · rename_i hle
        injection h with h
        injection h with e1 e2
        subst e1 e2
        refine ⟨(h1.cons x).trans (List.Perm.swap _ _ _), ?_⟩
        intro c hc
        rcases List.mem_cons.mp hc with rfl | hc
        · exact (vTotOrd.total (key c) (key b)).resolve_left hle
        · exact h2 c hc

/-- Pages of at most two values. -/
def cut2 : List Int → List (List Int)
  | [] => []
  | [a] => [[a]]
  | a :: b :: l => [a, b] :: cut2 l

theorem cut2_ok : CutOk fun _ => cut2 := by
  intro _ l
  induction l using cut2.induct with
  | case1 => simp [cut2]
  | case2 a => simp [cut2]
  | case3 a b l ih => simp [cut2, ih.1]; exact fun p hp => ih.2 p hp

/-- Small limits: arrays of three rows, row groups of two rows, two row groups per file. -/
def exOpts (rep : Bool) : Opts :=
  ⟨2, rep, 3, 2, listHeap Chunk.lo, listHeap Prod.snd, pageStat fun _ => cut2, fun gs => 2 ≤ gs.length⟩

theorem exOpts_ok (rep : Bool) : (exOpts rep).Ok :=
  ⟨Or.inr (Or.inl rfl), listHeap_ok _, listHeap_ok _, fun ks h1 h2 => (C94_stats cut2_ok ks h1 h2).1⟩

/-- A row group with one data column, one page per two values. -/
def exGroup (rows : List (Key × Int)) : Group Int Unit :=
  ⟨rows.map Prod.fst, (pageStat (fun _ => cut2) (rows.map Prod.fst)).1, (pageStat (fun _ => cut2) (rows.map Prod.fst)).2,
    fun _ => cut2 (rows.map Prod.snd)⟩

theorem exGroup_pages (rows : List (Key × Int)) (hne : rows ≠ []) :
    (exGroup rows).pages () ≠ [] ∧ (∀ x ∈ (exGroup rows).pages (), x ≠ []) ∧
    ((exGroup rows).pages ()).flatten.length = (exGroup rows).keys.length := by
  obtain ⟨h1, h2⟩ := cut2_ok 0 (rows.map Prod.snd)
  simp only [exGroup]
  refine ⟨?_, h2, by rw [h1]; simp⟩
  intro h
  simp only at h1
  rw [h] at h1
  have := congrArg List.length h1
  simp at this
  exact hne (List.eq_nil_of_length_eq_zero this.symm)

def exPart (groups : List (List (Key × Int))) : PartFile Int Unit := ⟨fun _ => true, groups.map exGroup⟩

theorem exPart_ok (groups : List (List (Key × Int))) (h1 : (groups.flatten.map Prod.fst).Pairwise VLe)
    (h2 : ∀ g ∈ groups, g ≠ [] ∧ ∀ r ∈ g, r.1.length = 2) : (exPart groups).Ok 2 := by
  have hk : (groups.map exGroup).flatMap Group.keys = groups.flatten.map Prod.fst := by
    rw [List.flatMap_map, List.map_flatten, List.flatMap_def]
    rfl
  refine ⟨by rw [exPart, hk]; exact h1, ?_, ?_⟩
  · intro g hg
    obtain ⟨rows, hr, rfl⟩ := List.mem_map.mp hg
    have hne : rows.map Prod.fst ≠ [] := by simpa using (h2 rows hr).1
    have hsub : (rows.map Prod.fst).Sublist (groups.flatten.map Prod.fst) := (List.sublist_flatten_of_mem hr).map _
    have hs := h1.sublist hsub
    obtain ⟨s1, s2⟩ := C94_stats cut2_ok (rows.map Prod.fst) hne hs
    have s3 := s2 2 (by
      intro k hk
      obtain ⟨r, hr', rfl⟩ := List.mem_map.mp hk
      exact (h2 rows hr).2 r hr')
    exact ⟨hne, hs, fun k hk => (s1 k hk).1, fun k hk => (s1 k hk).2, s3.1, s3.2⟩
  · intro g hg c _
    obtain ⟨rows, hr, rfl⟩ := List.mem_map.mp hg
    exact exGroup_pages rows (h2 rows hr).1

/-- What is in the files. -/
def shown (outs : Option (List (MOut (Row Int Unit) Key))) : Option (List (List (Key × Int))) :=
  outs.map fun l => l.map fun x => x.rows.map fun r => (r.1, r.2 ())

/-- Two files of two row groups, and one without the data column. -/
def exParts : List (PartFile Int Unit) :=
  [exPart [[([1, 1], 10), ([1, 5], 11), ([2, 0], 12)], [([4, 4], 13), ([6, 0], 14)]],
   exPart [[([1, 3], 20)], [([5, 1], 21), ([5, 2], 22)]],
   ⟨fun _ => false, [exGroup [([1, 3], 0), ([9, 9], 0)]]⟩]

example : shown (mergeParts 0 (exOpts false) [()] exParts) = some
    [[([1, 1], 10), ([1, 3], 20), ([1, 3], 0), ([1, 5], 11), ([2, 0], 12), ([4, 4], 13), ([5, 1], 21), ([5, 2], 22),
      ([6, 0], 14), ([9, 9], 0)]] := by decide +kernel

/-- C94 applies to these files. -/
example : ∃ outs, mergeParts 0 (exOpts false) [()] exParts = some outs ∧
    (outs.flatMap MOut.rows).Perm (exParts.flatMap (PartFile.rows 0)) := by
  obtain ⟨outs, h1, h2, -⟩ := C94_merge 0 (exOpts_ok false) rfl [()] (parts := exParts) (by
    intro p hp
    simp only [exParts, List.mem_cons, List.not_mem_nil, or_false] at hp
    rcases hp with rfl | rfl | rfl
    · exact exPart_ok _ (by decide) (by decide)
    · exact exPart_ok _ (by decide) (by decide)
    · have h := exPart_ok [[([1, 3], 0), ([9, 9], 0)]] (by decide) (by decide)
      exact ⟨h.sorted, h.group, fun g hg c hc => by cases hc⟩)
  exact ⟨outs, h1, h2⟩

/-- A file with one row group, one page per column. -/
def onePart (rows : List (Row V C)) : PartFile V C :=
  ⟨fun _ => true, match rows.head?, rows.getLast? with
    | some a, some b => [⟨rows.map Prod.fst, a.1, b.1, fun c => [rows.map fun r => r.2 c]⟩]
    | _, _ => []⟩

def layOne (n : Nat) (ins : List (List (Row V C))) : Option (List (PartFile V C)) :=
  if ins.all fun b => b.all fun r => r.1.length == n then some (ins.map onePart) else none

theorem onePart_spec (null : V) (n : Nat) (rows : List (Row V C)) (hs : SortedBy VLe Prod.fst rows)
    (hn : ∀ r ∈ rows, r.1.length = n) : (onePart rows).rows null = rows ∧ (onePart rows).Ok n := by
  by_cases hne : rows = []
  · subst hne
    exact ⟨rfl, ⟨List.Pairwise.nil, fun g hg => by (cases hg), fun g hg => by (cases hg)⟩⟩
  · cases ha : rows.head? with
    | none => exact absurd (List.head?_eq_none_iff.mp ha) hne
    | some a =>
      cases hb : rows.getLast? with
      | none => exact absurd (List.getLast?_eq_none_iff.mp hb) hne
      | some b =>
        have hp : onePart rows = ⟨fun _ => true, [⟨rows.map Prod.fst, a.1, b.1, fun c => [rows.map fun r => r.2 c]⟩]⟩ := by
          simp [onePart, ha, hb]
        rw [hp]
        have hks : (rows.map Prod.fst).Pairwise VLe := List.pairwise_map.mpr hs
        constructor
        · simp only [PartFile.rows, Group.rows, List.flatMap_cons, List.flatMap_nil, List.append_nil, List.flatten_cons,
            List.flatten_nil, if_true]
          exact rowsOf_eq null rows
        · refine ⟨by simpa using hks, ?_, ?_⟩
          · intro g hg
            rw [List.mem_singleton.mp hg]
            refine ⟨by simpa [Group.chunk] using hne, hks, ?_, ?_, hn a (List.mem_of_head? ha), hn b (List.mem_of_getLast? hb)⟩
            · intro k hk
              obtain ⟨r, hr, rfl⟩ := List.mem_map.mp hk
              exact head_le vTotOrd hs hr ha
            · intro k hk
              obtain ⟨r, hr, rfl⟩ := List.mem_map.mp hk
              exact le_last vTotOrd hs hr hb
          · intro g hg c _
            rw [List.mem_singleton.mp hg]
            refine ⟨by simp, ?_, by simp⟩
            intro x hx
            rw [List.mem_singleton.mp hx]
            simpa using hne

theorem layOne_lays (null : V) (n : Nat) : Lays null n (layOne (V := V) (C := C) n) := by
  intro ins parts hs h
  unfold layOne at h
  split at h
  · rename_i hall
    injection h with h
    subst h
    have hn : ∀ b ∈ ins, ∀ r ∈ b, r.1.length = n := by
      intro b hb r hr
      have := List.all_eq_true.mp hall b hb
      have := List.all_eq_true.mp this r hr
      simpa using this
    constructor
    · rw [List.map_map]
      conv => rhs; rw [← List.map_id ins]
      apply List.map_congr_left
      intro b hb
      exact (onePart_spec null n b (hs b hb) (hn b hb)).1
    · intro p hp
      obtain ⟨b, hb, rfl⟩ := List.mem_map.mp hp
      exact (onePart_spec null n b (hs b hb) (hn b hb)).2
  · cases h

/-- So C16 and C17 hold with this merger in place of the assumed one. -/
example (sort : List (Row Int Unit) → List (Row Int Unit)) (hs : IsSort VLe Prod.fst sort) (c : CompOpts) (hc : 1 ≤ c.l0MaxParts) :
    EnvOk VLe sort ⟨Prod.fst, fun l => some (some (sort l)), List.length, c,
      fun ins => (layOne 2 ins).bind (mergeParts 0 (exOpts false) [()])⟩ :=
  ⟨hs, fun _ _ => rfl, hc, C94_isMerge 0 (exOpts_ok false) rfl [()] (layOne_lays 0 2)⟩

/-- Two pages per column. -/
example : pageStat (fun _ => cut2) [[1, 5], [1, 7], [2, 0]] = ([1, 5], [2, 0]) := by decide

/-! ### the violation of C95 -/

/-- Four users of project 1 and one of project 2. -/
def lostParts : List (PartFile Int Unit) :=
  [exPart [[([1, 1], 10)], [([2, 7], 11)]], exPart [[([1, 2], 20), ([1, 3], 21)]]]

/-- Only the last user of project 1 is left, with the data of another one; the user of project 2 has the data of a
user of project 1. -/
theorem lost_result : shown (mergeParts 0 (exOpts true) [()] lostParts) = some [[([1, 3], 20), ([2, 7], 10)]] := by
  decide +kernel

theorem lostParts_ok : ∀ p ∈ lostParts, p.Ok 2 ∧ ((p.rows 0).map Prod.fst).Nodup := by
  intro p hp
  simp only [lostParts, List.mem_cons, List.not_mem_nil, or_false] at hp
  rcases hp with rfl | rfl
  · exact ⟨exPart_ok _ (by decide) (by decide), by decide⟩
  · exact ⟨exPart_ok _ (by decide) (by decide), by decide⟩

theorem shown_flat {outs : List (MOut (Row Int Unit) Key)} {l : List (List (Key × Int))}
    (h : shown (some outs) = some l) : (outs.flatMap MOut.rows).map (fun r => (r.1, r.2 ())) = l.flatten := by
  simp only [shown, Option.map_some, Option.some.injEq] at h
  rw [← h, List.flatMap_def, List.map_flatten, List.map_map]
  rfl

/-- C95 is violated: a merge of the group table drops every row but the last of each project, so users are lost from disk. -/
theorem C95_violated : ¬ C95_full := by
  intro h
  obtain ⟨outs, h1, -, -, h2, -⟩ := h Int Unit 0 (exOpts true) [()] lostParts (exOpts_ok true) rfl rfl
    (fun p hp => (lostParts_ok p hp).1) (fun p hp => (lostParts_ok p hp).2)
  have hr := lost_result
  rw [h1] at hr
  have hf := shown_flat hr
  have hk : ([1, 1] : Key) ∈ (outs.flatMap MOut.rows).map Prod.fst := (h2 [1, 1]).mpr (by decide)
  have e : (outs.flatMap MOut.rows).map Prod.fst = [[1, 3], [2, 7]] := by
    have := congrArg (List.map Prod.fst) hf
    rw [List.map_map] at this
    exact this
  rw [e] at hk
  revert hk
  decide

/-- C95 is violated: the rows that are kept have the data of other rows, even of another project. -/
theorem C95_data_violated : ∃ outs, mergeParts 0 (exOpts true) [()] lostParts = some outs ∧
    ∃ r ∈ outs.flatMap MOut.rows, r.1 = [2, 7] ∧ ∀ r' ∈ lostParts.flatMap (PartFile.rows 0), r'.1 = r.1 → r'.2 () ≠ r.2 () := by
  cases h : mergeParts 0 (exOpts true) [()] lostParts with
  | none => have := lost_result; rw [h] at this; cases this
  | some outs =>
    have hr := lost_result
    rw [h] at hr
    have hf := shown_flat hr
    have hm : (([2, 7] : Key), (10 : Int)) ∈ (outs.flatMap MOut.rows).map fun r => (r.1, r.2 ()) := by
      rw [hf]; decide
    obtain ⟨r, hr1, hr2⟩ := List.mem_map.mp hm
    simp only [Prod.mk.injEq] at hr2
    refine ⟨outs, rfl, r, hr1, hr2.1, ?_⟩
    rw [hr2.1, hr2.2]
    decide

/-- C95 is violated: the keys written are not in order, since the whole key is compared with a shortened one. -/
theorem C95_order_violated :
    shown (mergeParts 0 (exOpts true) [()]
      [exPart [[([1, 5], 10), ([9, 9], 11)]], exPart [[([1, 6], 20), ([3, 0], 21)]], exPart [[([1, 7], 30)]]]) =
    some [[([1, 6], 20), ([3, 0], 21), ([9, 9], 10), ([1, 7], 30)]] := by decide +kernel

def singleParts : List (PartFile Int Unit) :=
  [exPart [[([1, 5], 10), ([4, 0], 11)], [([7, 0], 12)]], exPart [[([2, 6], 20), ([9, 0], 21)]]]

/-- C95 holds for one row per project. -/
example : ∃ outs, mergeParts 0 (exOpts true) [()] singleParts = some outs ∧
    (outs.flatMap MOut.rows).Perm (singleParts.flatMap (PartFile.rows 0)) := by
  obtain ⟨outs, h1, -, h2⟩ := C95_partial 0 (exOpts_ok true) rfl [()]
    (parts := singleParts)
    (by
      intro p hp
      simp only [singleParts, List.mem_cons, List.not_mem_nil, or_false] at hp
      rcases hp with rfl | rfl
      · exact exPart_ok _ (by decide) (by decide)
      · exact exPart_ok _ (by decide) (by decide))
    (by decide) (by decide)
  exact ⟨outs, h1, h2⟩

end OptiPrism.Storage.PMerge
