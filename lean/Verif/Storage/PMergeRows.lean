import Verif.Storage.PMergeCols

/-!
# The merge of part files: rows

Helper lemmas for `PMergeProps`: from columns to rows, from all rows to files.
-/

namespace OptiPrism.Storage.PMerge

variable {V C : Type}

/-- A part file as written by the storage: rows in key order, no empty row groups or pages, as many values in each
column as keys, the page statistics bound the keys. -/
structure PartFile.Ok (n : Nat) (p : PartFile V C) : Prop where
  sorted : (p.groups.flatMap Group.keys).Pairwise VLe
  group : ∀ g ∈ p.groups, (g.chunk 0).Ok n
  pages : ∀ g ∈ p.groups, ∀ c, p.has c = true →
    g.pages c ≠ [] ∧ (∀ x ∈ g.pages c, x ≠ []) ∧ (g.pages c).flatten.length = g.keys.length

/-! ### rows and columns -/

theorem rowsOf_length (null : V) (keys : List Key) (col : C → List V) : (rowsOf null keys col).length = keys.length := by
  simp [rowsOf]

theorem rowsOf_fst (null : V) (keys : List Key) (col : C → List V) : (rowsOf null keys col).map Prod.fst = keys := by
  simp only [rowsOf, List.map_map]
  have : (Prod.fst ∘ fun p : Key × Nat => (p.1, fun c => ((col c)[p.2]?).getD null)) = Prod.fst := rfl
  rw [this, List.zipIdx_map_fst]

theorem rowsOf_snd (null : V) (keys : List Key) (col : C → List V) (c : C) (h : (col c).length = keys.length) :
    (rowsOf null keys col).map (fun r => r.2 c) = col c := by
  apply List.ext_getElem?
  intro i
  simp only [rowsOf, List.map_map, List.getElem?_map, List.getElem?_zipIdx]
  by_cases hi : i < keys.length
  · simp [hi, h]
  · rw [List.getElem?_eq_none (by omega), List.getElem?_eq_none (by omega)]
    rfl

theorem rowsOf_null (null : V) (keys : List Key) (col : C → List V) (c : C) (h : col c = []) :
    (rowsOf null keys col).map (fun r => r.2 c) = List.replicate keys.length null := by
  apply List.ext_getElem?
  intro i
  simp only [rowsOf, List.map_map, List.getElem?_map, List.getElem?_zipIdx]
  by_cases hi : i < keys.length
  · simp [hi]
    rw [h]
    rfl
  · simp [hi]

theorem rowsOf_eq (null : V) (rows : List (Row V C)) :
    rowsOf null (rows.map Prod.fst) (fun c => rows.map fun r => r.2 c) = rows := by
  apply List.ext_getElem?
  intro i
  simp only [rowsOf, List.getElem?_map, List.getElem?_zipIdx]
  cases h : rows[i]? with
  | none => rfl
  | some r => simp [h]

theorem PartFile.rows_fst (null : V) (p : PartFile V C) : (p.rows null).map Prod.fst = p.groups.flatMap Group.keys := by
  simp only [PartFile.rows, List.map_flatMap]
  congr 1
  funext g
  exact rowsOf_fst null _ _

theorem PartFile.rows_snd (null : V) {n : Nat} {p : PartFile V C} (hp : p.Ok n) (c : C) :
    (p.rows null).map (fun r => r.2 c) =
      if p.has c then (p.groups.map fun g => g.pages c).flatten.flatten
      else List.replicate (p.groups.flatMap Group.keys).length null := by
  obtain ⟨has, groups⟩ := p
  have hpg := hp.pages
  simp only [PartFile.rows, List.map_flatMap]
  simp only at hpg
  clear hp
  induction groups with
  | nil => cases has c <;> rfl
  | cons g gs ih =>
    have ih := ih (fun g hg => hpg g (by simp [hg]))
    rw [List.flatMap_cons, ih]
    cases hh : has c with
    | true =>
      have hl := (hpg g (by simp) c hh).2.2
      simp only [if_true, List.map_cons, List.flatten_cons, List.flatten_append]
      congr 1
      have := rowsOf_snd null g.keys (fun c => if has c then (g.pages c).flatten else []) c (by simp [hh, hl])
      simp only [hh, if_true] at this
      exact this
    | false =>
      simp only [Bool.false_eq_true, if_false, List.flatMap_cons, List.length_append]
      rw [← List.replicate_append_replicate]
      congr 1
      exact rowsOf_null null g.keys _ c (by simp [hh])

/-! ### the chunks of the parts -/

theorem chunksOf_get (parts : List (PartFile V C)) (s : Nat) :
    (chunksOf parts)[s]? = (parts[s]?).map fun p => p.groups.map fun g => g.chunk s := by
  simp only [chunksOf, List.getElem?_map, List.getElem?_zipIdx]
  cases parts[s]? with
  | none => rfl
  | some p => simp

theorem chunksOf_length (parts : List (PartFile V C)) : (chunksOf parts).length = parts.length := by simp [chunksOf]

theorem keysOf_chunks (groups : List (Group V C)) (s : Nat) :
    keysOf (groups.map fun g => g.chunk s) = groups.flatMap Group.keys := by
  simp only [keysOf, List.flatMap_map]
  rfl

theorem keys_chunksOf (null : V) (parts : List (PartFile V C)) :
    (chunksOf parts).map keysOf = (parts.map (PartFile.rows null)).map (List.map Prod.fst) := by
  apply List.ext_getElem?
  intro s
  simp only [List.getElem?_map, chunksOf_get]
  cases parts[s]? with
  | none => rfl
  | some p => simp [keysOf_chunks, PartFile.rows_fst]

theorem mem_chunksOf {parts : List (PartFile V C)} {c : Chunk} (h : c ∈ (chunksOf parts).flatten) :
    ∃ p ∈ parts, ∃ g ∈ p.groups, ∃ s, c = g.chunk s := by
  obtain ⟨b, hb, hc⟩ := List.mem_flatten.mp h
  obtain ⟨s, hs⟩ := List.getElem?_of_mem hb
  rw [chunksOf_get, Option.map_eq_some_iff] at hs
  obtain ⟨p, hp, rfl⟩ := hs
  obtain ⟨g, hg, rfl⟩ := List.mem_map.mp hc
  exact ⟨p, List.mem_of_getElem? hp, g, hg, s, rfl⟩

theorem chunk_ok {n : Nat} {g : Group V C} (h : (g.chunk 0).Ok n) (s : Nat) : (g.chunk s).Ok n :=
  ⟨h.ne, h.sorted, h.lo, h.hi, h.lolen, h.hilen⟩

theorem good_chunksOf {o : Opts} {parts : List (PartFile V C)} (hp : ∀ p ∈ parts, p.Ok o.cols)
    (hpl : Plain o (chunksOf parts)) : Good o (chunksOf parts) := by
  refine ⟨?_, ?_, ?_, hpl⟩
  · intro s b hb c hc
    rw [chunksOf_get, Option.map_eq_some_iff] at hb
    obtain ⟨p, -, rfl⟩ := hb
    obtain ⟨g, -, rfl⟩ := List.mem_map.mp hc
    rfl
  · intro b hb
    obtain ⟨s, hs⟩ := List.getElem?_of_mem hb
    rw [chunksOf_get, Option.map_eq_some_iff] at hs
    obtain ⟨p, hp', rfl⟩ := hs
    have := (hp p (List.mem_of_getElem? hp')).sorted
    rw [← keysOf_chunks p.groups s] at this
    exact this
  · intro b hb c hc
    obtain ⟨p, hp', g, hg, s, rfl⟩ := mem_chunksOf (List.mem_flatten.mpr ⟨b, hb, hc⟩)
    exact chunk_ok ((hp p hp').group g hg) s

theorem fits_groups {n : Nat} (c : C) (s : Nat) (has : C → Bool) (groups : List (Group V C))
    (h : (⟨has, groups⟩ : PartFile V C).Ok n) (hh : has c = true) :
    Fits (groups.map fun g => g.pages c) (groups.map fun g => g.chunk s) := by
  have hpg := h.pages
  simp only at hpg
  clear h
  induction groups with
  | nil => trivial
  | cons g gs ih =>
    obtain ⟨h1, h2, h3⟩ := hpg g (by simp) c hh
    exact ⟨h1, h2, h3, ih (fun g hg => hpg g (by simp [hg]))⟩

theorem al_chunksOf (null : V) {n : Nat} {parts : List (PartFile V C)} (hp : ∀ p ∈ parts, p.Ok n) (c : C) :
    Al null (hasAt parts c) (readersOf parts c) (chunksOf parts)
      ((parts.map (PartFile.rows null)).map (List.map fun r => r.2 c)) := by
  refine ⟨by simp [chunksOf_length], ?_⟩
  intro s
  simp only [AlS, hasAt, readersOf, atD, chunksOf_get, List.getElem?_map]
  cases hps : parts[s]? with
  | none => simp [keysOf]
  | some p =>
    have hok := hp p (List.mem_of_getElem? hps)
    simp only [Option.map_some, Option.getD_some]
    rw [PartFile.rows_snd null hok c]
    cases hh : p.has c with
    | true =>
      simp only [if_true]
      exact ⟨trivial, fits_groups c s p.has p.groups hok hh, trivial⟩
    | false =>
      simp only [Bool.false_eq_true, if_false]
      rw [keysOf_chunks]

/-! ### files -/

theorem LenOk.tail {null : V} {has : Nat → Bool} {rd rd1 : Readers V} {f ms : List MChunk} {x : List V}
    (h : LenOk null has rd (f ++ ms)) (hf : colChunks null has rd f = some (x, rd1)) : LenOk null has rd1 ms := by
  intro a b hab y r hy
  have h1 := h f ms rfl x rd1 hf
  have h2 := h (f ++ a) b (by rw [hab, List.append_assoc]) (x ++ y) r (by rw [colChunks_append, hf]; simp [hy])
  simp only [List.flatMap_append, List.length_append] at h2
  omega

theorem colFiles_spec (null : V) (has : Nat → Bool) (files : List (List MChunk)) (rd rd' : Readers V) (x : List V)
    (hl : LenOk null has rd files.flatten) (h : colChunks null has rd files.flatten = some (x, rd')) :
    ∃ xs, colFiles null has rd files = some xs ∧ xs.flatten = x ∧
      xs.map List.length = files.map fun f => (f.flatMap MChunk.order).length := by
  induction files generalizing rd x with
  | nil =>
    simp only [List.flatten_nil, colChunks, Option.some.injEq, Prod.mk.injEq] at h
    exact ⟨[], rfl, by simp [← h.1], rfl⟩
  | cons f fs ih =>
    rw [List.flatten_cons] at hl
    rw [List.flatten_cons, colChunks_append] at h
    cases hf : colChunks null has rd f with
    | none => rw [hf] at h; cases h
    | some y =>
      obtain ⟨x1, rd1⟩ := y
      rw [hf] at h
      simp only [Option.bind_some, Option.map_eq_some_iff, Prod.mk.injEq] at h
      obtain ⟨z, hz, rfl, rfl⟩ := h
      obtain ⟨xs, h1, h2, h3⟩ := ih rd1 z.1 (hl.tail hf) hz
      refine ⟨x1 :: xs, by simp [colFiles, hf, h1], by simp [h2], ?_⟩
      simp only [List.map_cons, h3]
      rw [hl f fs.flatten rfl x1 rd1 hf]

/-- The rows, cut like the keys. -/
theorem segments (out : List (Row V C)) (kss : List (List Key)) (xs : C → List (List V))
    (hk : kss.flatten = out.map Prod.fst) (hx : ∀ c, (xs c).flatten = out.map fun r => r.2 c)
    (hl : ∀ c, (xs c).map List.length = kss.map List.length) :
    ∃ oss : List (List (Row V C)), oss.flatten = out ∧ oss.map (List.map Prod.fst) = kss ∧
      ∀ c, oss.map (List.map fun r => r.2 c) = xs c := by
  induction kss generalizing out xs with
  | nil =>
    have ho : out = [] := by
      have := congrArg List.length hk
      simp at this
      exact List.eq_nil_of_length_eq_zero this.symm
    subst ho
    refine ⟨[], rfl, rfl, ?_⟩
    intro c
    have := hl c
    simp at this
    simp [this]
  | cons ks kss ih =>
    have hxc : ∀ c, ∃ y ys, xs c = y :: ys ∧ y.length = ks.length ∧ ys.map List.length = kss.map List.length := by
      intro c
      have := hl c
      cases h : xs c with
      | nil => rw [h] at this; simp at this
      | cons y ys =>
        rw [h] at this
        simp only [List.map_cons, List.cons.injEq] at this
        exact ⟨y, ys, rfl, this.1, this.2⟩
    have hlen : ks.length ≤ out.length := by
      have := congrArg List.length hk
      simp at this
      omega
    rw [List.flatten_cons] at hk
    have hk1 : ks = (out.take ks.length).map Prod.fst := by
      rw [List.map_take, ← hk, List.take_left']; rfl
    have hk2 : kss.flatten = (out.drop ks.length).map Prod.fst := by
      rw [List.map_drop, ← hk, List.drop_left']; rfl
    obtain ⟨oss, h1, h2, h3⟩ := ih (out.drop ks.length) (fun c => (xs c).tail) hk2
      (by
        intro c
        obtain ⟨y, ys, e1, e2, -⟩ := hxc c
        have := hx c
        rw [e1, List.flatten_cons] at this
        rw [e1, List.tail_cons, List.map_drop, ← this, List.drop_left' e2])
      (by
        intro c
        obtain ⟨y, ys, e1, -, e3⟩ := hxc c
        rw [e1, List.tail_cons, e3])
    refine ⟨out.take ks.length :: oss, by simp [h1], by rw [List.map_cons, ← hk1, h2], ?_⟩
    intro c
    obtain ⟨y, ys, e1, e2, -⟩ := hxc c
    have := hx c
    rw [e1, List.flatten_cons] at this
    have hy : y = (out.take ks.length).map fun r => r.2 c := by
      rw [List.map_take, ← this, List.take_left' e2]
    rw [List.map_cons, h3 c, e1, List.tail_cons, ← hy]

theorem flatMap_flatten' {α β : Type} (f : α → List β) (l : List (List α)) :
    (l.map fun x => x.flatMap f).flatten = l.flatten.flatMap f := by
  induction l with
  | nil => rfl
  | cons x l ih => simp only [List.map_cons, List.flatten_cons, List.flatMap_append, ih]

theorem values_eq (f : List MChunk) : values f = (f.flatMap MChunk.keys).length := by
  simp [values, List.length_flatMap]

/-- The ranges of the first and of the last chunk bound a file whose keys are sorted. -/
theorem file_range {f : List MChunk} (hne : f ≠ []) (hok : ∀ m ∈ f, m.Ok)
    (hs : (f.flatMap MChunk.keys).Pairwise VLe) :
    ∀ k ∈ f.flatMap MChunk.keys, VLe ((f.head?.map MChunk.lo).getD []) k ∧ VLe k ((f.getLast?.map MChunk.hi).getD []) := by
  intro k hk
  constructor
  · cases f with
    | nil => exact absurd rfl hne
    | cons m f =>
      simp only [List.head?_cons, Option.map_some, Option.getD_some]
      rw [List.flatMap_cons] at hk hs
      rcases List.mem_append.mp hk with hk | hk
      · exact (hok m (by simp)).lo k hk
      · obtain ⟨k0, hk0⟩ := List.exists_mem_of_ne_nil _ (hok m (by simp)).ne
        exact vTotOrd.trans ((hok m (by simp)).lo k0 hk0) ((List.pairwise_append.mp hs).2.2 k0 hk0 k hk)
  · obtain ⟨f', m, rfl⟩ : ∃ f' m, f = f' ++ [m] := ⟨f.dropLast, f.getLast hne, (List.dropLast_concat_getLast hne).symm⟩
    have hm := hok m (by simp)
    simp only [List.getLast?_concat, Option.map_some, Option.getD_some]
    rw [List.flatMap_append] at hk hs
    have e : [m].flatMap MChunk.keys = m.keys := by simp
    rw [e] at hk hs
    rcases List.mem_append.mp hk with hk | hk
    · obtain ⟨k0, hk0⟩ := List.exists_mem_of_ne_nil _ hm.ne
      exact vTotOrd.trans ((List.pairwise_append.mp hs).2.2 k hk k0 hk0) (hm.hi k0 hk0)
    · exact hm.hi k hk

/-- What a merge without anything to replace does. -/
theorem merge_core (null : V) {o : Opts} (ho : o.Ok) (cols : List C) {parts : List (PartFile V C)}
    (hp : ∀ p ∈ parts, p.Ok o.cols) (hpl : Plain o (chunksOf parts)) :
    ∃ outs, mergeParts null o cols parts = some outs ∧
      (outs.flatMap MOut.rows).Perm (parts.flatMap (PartFile.rows null)) ∧
      SortedBy VLe Prod.fst (outs.flatMap MOut.rows) ∧
      ∀ x ∈ outs, x.rows ≠ [] ∧ x.values = x.rows.length ∧ ∀ r ∈ x.rows, VLe x.min r.1 ∧ VLe r.1 x.max := by
  have g := good_chunksOf hp hpl
  obtain ⟨files, p', h1, h2, h3, h4⟩ := indexFiles_spec ho (chunksOf parts) g
  obtain ⟨pops, d1, d2, d3, d4⟩ := h3.drain ho g
  have hempty : pushed (p'.map keysOf) = [] := by
    rw [List.eq_nil_iff_forall_not_mem]
    intro x hx
    rw [mem_pushed] at hx
    obtain ⟨b, hb, hxb⟩ := hx
    rw [List.getElem?_map, Option.map_eq_some_iff] at hb
    obtain ⟨b', hb', rfl⟩ := hb
    obtain ⟨c, hc, -⟩ := List.mem_flatMap.mp hxb
    have : c ∈ p'.flatten := List.mem_flatten.mpr ⟨b', List.mem_of_getElem? hb', hc⟩
    rw [h4] at this; cases this
  rw [hempty, List.append_nil, keys_chunksOf null] at d3
  -- the rows in the order of the index pass
  obtain ⟨out, r1, r2, r3⟩ := gatherRem_plain vTotOrd Prod.fst pops (parts.map (PartFile.rows null))
    (by
      intro b hb
      obtain ⟨p, hp', rfl⟩ := List.mem_map.mp hb
      have := (hp p hp').sorted
      rw [← PartFile.rows_fst null p] at this
      exact List.pairwise_map.mp this)
    ⟨d3.symm, d4⟩
  have hkeys : files.flatten.flatMap MChunk.keys = out.map Prod.fst := by
    rw [d1]
    refine sorted_perm_eq (List.pairwise_map.mpr d4) (List.pairwise_map.mpr r3) ?_
    have := d3.symm.map Prod.snd
    rw [pushed_snd, ← List.map_flatten] at this
    exact this.trans (r2.symm.map Prod.fst)
  have hok := h3.ok ho g
  -- each column
  have hcol : ∀ c, ∃ xs, column null parts files c = some xs ∧ xs.flatten = (out.map fun r => r.2 c) ∧
      xs.map List.length = (files.map fun f => f.flatMap MChunk.keys).map List.length := by
    intro c
    obtain ⟨x, rd', vals', c1, -, c2, c3⟩ := h3.col ho null (hasAt parts c) g (readersOf parts c) _ (al_chunksOf null hp c)
    have c4 := c3 []
    rw [List.append_nil, gatherRem_map, d2] at c4
    have r1' : gatherRem (parts.map (PartFile.rows null)) (pops.map fun p => some p.1) = some out := r1
    rw [r1'] at c4
    simp only [gatherRem, Option.map_some, List.append_nil, Option.some.injEq] at c4
    obtain ⟨xs, e1, e2, e3⟩ := colFiles_spec null (hasAt parts c) files (readersOf parts c) rd' x c2 c1
    refine ⟨xs, e1, by rw [e2, ← c4], ?_⟩
    rw [e3, List.map_map]
    apply List.map_congr_left
    intro f hf
    simp only [Function.comp]
    have : ∀ m ∈ f, m.Ok := fun m hm => hok m (List.mem_flatten.mpr ⟨f, hf, hm⟩)
    rw [List.length_flatMap, List.length_flatMap]
    congr 1
    apply List.map_congr_left
    intro m hm
    exact (this m hm).len.symm
  obtain ⟨oss, o1, o2, o3⟩ := segments out (files.map fun f => f.flatMap MChunk.keys)
    (fun c => (column null parts files c).getD [])
    (by rw [← hkeys, flatMap_flatten'])
    (fun c => by obtain ⟨xs, e1, e2, -⟩ := hcol c; rw [e1]; exact e2)
    (fun c => by obtain ⟨xs, e1, -, e3⟩ := hcol c; rw [e1]; exact e3)
  have hall : (cols.all fun c => (column null parts files c).isSome) = true := by
    rw [List.all_eq_true]
    intro c _
    obtain ⟨xs, e1, -, -⟩ := hcol c
    rw [e1]; rfl
  have hflen : oss.length = files.length := by
    have := congrArg List.length o2
    simpa using this
  -- the rows of one file
  have hrow : ∀ (i : Nat) f, files[i]? = some f → ∃ os, oss[i]? = some os ∧ os.map Prod.fst = f.flatMap MChunk.keys ∧
      rowsOf null (f.flatMap MChunk.keys) (fun c => (((column null parts files c).getD [])[i]?).getD []) = os := by
    intro i f hf
    have hi : i < files.length := (List.getElem?_eq_some_iff.mp hf).1
    obtain ⟨os, hos⟩ : ∃ os, oss[i]? = some os := ⟨oss[i]'(by omega), by simp [hflen, hi]⟩
    have e1 : os.map Prod.fst = f.flatMap MChunk.keys := by
      have := congrArg (fun l => l[i]?) o2
      simp only [List.getElem?_map, hos, hf, Option.map_some, Option.some.injEq] at this
      exact this
    refine ⟨os, hos, e1, ?_⟩
    rw [← e1]
    have e2 : (fun c => (((column null parts files c).getD [])[i]?).getD []) = fun c => os.map fun r => r.2 c := by
      funext c
      have := congrArg (fun l => l[i]?) (o3 c)
      simp only [List.getElem?_map, hos, Option.map_some] at this
      rw [← this]; rfl
    rw [e2]
    exact rowsOf_eq null os
  refine ⟨files.zipIdx.map fun p => fileOut null p.1 fun c => (((column null parts files c).getD [])[p.2]?).getD [],
    by simp only [mergeParts, h1, hall, if_true], ?_⟩
  have hflat : (files.zipIdx.map fun p => fileOut null p.1 fun c =>
      (((column null parts files c).getD [])[p.2]?).getD []).flatMap MOut.rows = out := by
    rw [← o1, List.flatMap_def]
    congr 1
    apply List.ext_getElem?
    intro i
    simp only [List.getElem?_map, List.getElem?_zipIdx]
    cases hf : files[i]? with
    | none =>
      have : oss.length ≤ i := by rw [hflen]; exact List.getElem?_eq_none_iff.mp hf
      simp [List.getElem?_eq_none this]
    | some f =>
      obtain ⟨os, e1, -, e2⟩ := hrow i f hf
      rw [e1]
      simp only [Option.map_some, Nat.zero_add, fileOut, e2]
  have hsorted : SortedBy VLe Prod.fst out := r3
  rw [hflat]
  refine ⟨by rw [List.flatMap_def]; exact r2, hsorted, ?_⟩
  intro x hx
  obtain ⟨y, hy, rfl⟩ := List.mem_map.mp hx
  obtain ⟨f, i⟩ := y
  have hf : files[i]? = some f := by
    have := List.mem_zipIdx_iff_getElem?.mp hy
    simpa using this
  have hfm := List.mem_of_getElem? hf
  obtain ⟨os, e1, e2, e3⟩ := hrow i f hf
  have hfok : ∀ m ∈ f, m.Ok := fun m hm => hok m (List.mem_flatten.mpr ⟨f, hfm, hm⟩)
  have hsub : (f.flatMap MChunk.keys).Sublist (out.map Prod.fst) := by
    rw [← e2, ← o1, List.map_flatten]
    exact List.sublist_flatten_of_mem (List.mem_map_of_mem (List.mem_of_getElem? e1))
  have hfs : (f.flatMap MChunk.keys).Pairwise VLe := (List.pairwise_map.mpr hsorted).sublist hsub
  simp only [fileOut]
  refine ⟨?_, ?_, ?_⟩
  · obtain ⟨m, hm⟩ := List.exists_mem_of_ne_nil _ (h2 f hfm)
    obtain ⟨k, hk⟩ := List.exists_mem_of_ne_nil _ (hfok m hm).ne
    have : 0 < (f.flatMap MChunk.keys).length := List.length_pos_of_mem (List.mem_flatMap.mpr ⟨m, hm, hk⟩)
    rw [← rowsOf_length null _ (fun c => (((column null parts files c).getD [])[i]?).getD [])] at this
    exact List.ne_nil_of_length_pos this
  · rw [rowsOf_length, values_eq]
  · intro r hr
    have : r.1 ∈ f.flatMap MChunk.keys := by
      rw [← rowsOf_fst null (f.flatMap MChunk.keys) (fun c => (((column null parts files c).getD [])[i]?).getD [])]
      exact List.mem_map_of_mem hr
    exact file_range (h2 f hfm) hfok hfs r.1 this

end OptiPrism.Storage.PMerge
