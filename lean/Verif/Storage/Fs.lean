import Verif.Decimal

/-!
# Open-file accounting and the garbage collector

`Fs` (/repo/src/storage/src/lib.rs 130-195) and `gc` (/repo/src/storage/src/db.rs 163-221), at the
level of path strings and directory listings. Not modelled: another thread changing a directory
between its listing and a removal, and I/O errors.
-/

namespace OptiPrism.Storage

abbrev Str := List Char

/-- `Fs`, lib.rs 130-133: a map from path strings to counts. -/
abbrev FsMap := Str → Option Nat

/-- `Fs::new`, 142-146. -/
def FsMap.new : FsMap := fun _ => none

/-- `Fs::open`, 148-155. -/
def FsMap.open (m : FsMap) (p : Str) : FsMap :=
  fun q => if q = p then some ((m p).getD 0 + 1) else m q

/-- `Fs::close`, 157-164, with overflow checks (debug build): `none` = panic on a zero count. -/
def FsMap.close (m : FsMap) (p : Str) : Option FsMap :=
  match (m p).getD 0 with
  | 0 => none
  | n + 1 => some fun q => if q = p then some n else m q

/-- `Fs::close` without overflow checks (release build): `*c -= 1` wraps. -/
def FsMap.closeWrap (m : FsMap) (p : Str) : FsMap :=
  fun q => if q = p then some (((m p).getD 0 + (2 ^ 64 - 1)) % 2 ^ 64) else m q

/-- `Fs::is_opened`, 166-172. -/
def FsMap.isOpened (m : FsMap) (p : Str) : Bool :=
  match m p with
  | none => false
  | some v => v != 0

/-- A call of a reader, the writer, the compactor or a backup. -/
inductive FsCall where
  | opn (p : Str)
  | cls (p : Str)
deriving DecidableEq

def fsRun : FsMap → List FsCall → Option FsMap
  | m, [] => some m
  | m, .opn p :: cs => fsRun (m.open p) cs
  | m, .cls p :: cs =>
    match m.close p with
    | none => none
    | some m' => fsRun m' cs

def fsRunWrap : FsMap → List FsCall → FsMap
  | m, [] => m
  | m, .opn p :: cs => fsRunWrap (m.open p) cs
  | m, .cls p :: cs => fsRunWrap (m.closeWrap p) cs

/-! ### names -/

/-- `log_name`, db.rs 119-121. -/
def logName (id : Nat) : Str := decimal16 id ++ ['.', 'l', 'o', 'g']

/-- The file name in `part_path`, db.rs 112-117. -/
def partName (id : Nat) : Str := decimal id ++ ['.', 'p', 'a', 'r', 'q', 'u', 'e', 't']

/-- `fname.split(".").next().unwrap()`. -/
def stem (f : Str) : Str := f.takeWhile (· ≠ '.')

/-- `".log".is_suffix_of(&fname)`. -/
def isLog (f : Str) : Bool := ['.', 'l', 'o', 'g'].isSuffixOf f

def isParquet (f : Str) : Bool := ['.', 'p', 'a', 'r', 'q', 'u', 'e', 't'].isSuffixOf f

/-- `root/tables/{tbl}/{name}`, the path of a log: `log_path`, db.rs 123-125, and `f.path()` in gc. -/
def logPath (root tbl name : Str) : Str :=
  root ++ ['/', 't', 'a', 'b', 'l', 'e', 's', '/'] ++ tbl ++ ['/'] ++ name

/-- `root/tables/{tbl}/levels/{lvl}/{name}`: `part_path`, db.rs 112-117, and `f.path()` in gc. -/
def partPath (root tbl : Str) (lvl : Nat) (name : Str) : Str :=
  root ++ ['/', 't', 'a', 'b', 'l', 'e', 's', '/'] ++ tbl ++ ['/', 'l', 'e', 'v', 'e', 'l', 's', '/'] ++
    decimal lvl ++ ['/'] ++ name

/-! ### the collector -/

/-- What gc reads of a table's metadata: the current log id and the ids of the parts per level. -/
structure GcMd where
  logId : Nat
  levels : List (List Nat)

/-- Listings of the table directory and of the level directories `0..opts.levels`. -/
structure GcDir where
  entries : List Str
  levels : List (List Str)

/-- Inner loop over one level directory, 195-215. `none` = panic (unparsable name). -/
def gcLevel (opened : Str → Bool) (path : Str → Str) (ids : List Nat) : List Str → Option (List Str)
  | [] => some []
  | f :: fs =>
    if isParquet f then
      match parseU64 (stem f) with
      | none => none
      | some id =>
        match gcLevel opened path ids fs with
        | none => none
        | some fs' =>
          if ids.any (· == id) then some (f :: fs')
          else if opened (path f) then some (f :: fs') else some fs'
    else (gcLevel opened path ids fs).map (f :: ·)

/-- Loop over the levels, 191-217; `md.levels[lvl]` panics when the manifest has fewer levels. -/
def gcLevels (opened : Str → Bool) (root tbl : Str) : Nat → List (List Nat) → List (List Str) → Option (List (List Str))
  | _, _, [] => some []
  | _, [], _ :: _ => none
  | l, ids :: mds, d :: ds =>
    match gcLevel opened (partPath root tbl l) ids d, gcLevels opened root tbl (l + 1) mds ds with
    | some d', some ds' => some (d' :: ds')
    | _, _ => none

/-- The body for one directory entry, 172-190: is it removed? `none` = panic. -/
def gcEntry (opened : Str → Bool) (root tbl : Str) (logId : Nat) (f : Str) : Option Bool :=
  if isLog f then
    match parseU64 (stem f) with
    | none => none
    | some id => some (decide (id < logId) && !opened (logPath root tbl f))
  else some false

/-- The loop over the entries of the table directory, 168-219. The level directories are visited
once per entry. -/
def gcEntries (opened : Str → Bool) (root tbl : Str) (md : GcMd) : List Str → List (List Str) → Option GcDir
  | [], ds => some ⟨[], ds⟩
  | f :: fs, ds =>
    match gcEntry opened root tbl md.logId f with
    | none => none
    | some gone =>
      match gcLevels opened root tbl 0 md.levels ds with
      | none => none
      | some ds' =>
        match gcEntries opened root tbl md fs ds' with
        | none => none
        | some r => some ⟨if gone then r.entries else f :: r.entries, r.levels⟩

/-- One pass over a table. -/
def gcTable (opened : Str → Bool) (root tbl : Str) (md : GcMd) (d : GcDir) : Option GcDir :=
  gcEntries opened root tbl md d.entries d.levels

/-! ### what a level pass keeps -/

/-- The condition under which a part file goes. -/
def partGone (opened : Str → Bool) (path : Str → Str) (ids : List Nat) (f : Str) : Bool :=
  isParquet f && (match parseU64 (stem f) with
    | none => false
    | some id => !ids.any (· == id) && !opened (path f))

def logGone (opened : Str → Bool) (root tbl : Str) (logId : Nat) (f : Str) : Bool :=
  isLog f && (match parseU64 (stem f) with
    | none => false
    | some id => decide (id < logId) && !opened (logPath root tbl f))

theorem gcLevel_eq {opened : Str → Bool} {path : Str → Str} {ids : List Nat} (fs : List Str) {r : List Str}
    (h : gcLevel opened path ids fs = some r) : r = fs.filter fun f => !partGone opened path ids f := by
  induction fs generalizing r with
  | nil => simp [gcLevel] at h; simp [h]
  | cons f fs ih =>
    unfold gcLevel at h
    split at h
    · rename_i hp
      split at h
      · cases h
      · rename_i id hid
        split at h
        · cases h
        · rename_i fs' hfs
          have := ih hfs
          subst this
          rw [List.filter_cons]
          simp only [partGone, hp, hid, Bool.true_and]
          split at h
          · rename_i hin
            injection h with h
            simp [hin, h.symm, partGone]
          · rename_i hin
            split at h
            · rename_i ho
              injection h with h
              simp [ho, h.symm, partGone]
            · rename_i ho
              injection h with h
              simp only [Bool.not_eq_true] at hin ho
              simp [hin, ho, h.symm, partGone]
    · rename_i hp
      rw [Option.map_eq_some_iff] at h
      obtain ⟨fs', hfs, rfl⟩ := h
      rw [List.filter_cons, ih hfs]
      simp [partGone, hp]

theorem gcLevels_eq {opened : Str → Bool} {root tbl : Str} (ds : List (List Str)) :
    ∀ (l : Nat) (mds : List (List Nat)) {r : List (List Str)}, gcLevels opened root tbl l mds ds = some r →
    r.length = ds.length ∧ ∀ (k : Nat) (d : List Str), ds[k]? = some d → ∃ ids, mds[k]? = some ids ∧
      r[k]? = some (d.filter fun f => !partGone opened (partPath root tbl (l + k)) ids f) := by
  induction ds with
  | nil =>
    intro l mds r h
    have : r = [] := by cases mds <;> simpa [gcLevels] using h.symm
    subst this
    simp
  | cons d ds ih =>
    intro l mds r h
    cases mds with
    | nil => simp [gcLevels] at h
    | cons ids mds =>
      unfold gcLevels at h
      split at h
      · rename_i d' ds' h1 h2
        injection h with h
        subst h
        obtain ⟨hl, hk⟩ := ih _ _ h2
        refine ⟨by simp [hl], ?_⟩
        intro k x hx
        cases k with
        | zero =>
          simp at hx
          subst hx
          exact ⟨ids, rfl, by simp [gcLevel_eq _ h1]⟩
        | succ k =>
          obtain ⟨i, hi, hr⟩ := hk k x (by simpa using hx)
          exact ⟨i, by simpa using hi, by
            have : l + 1 + k = l + (k + 1) := by omega
            simpa [this] using hr⟩
      · cases h

theorem gcEntry_eq {opened : Str → Bool} {root tbl : Str} {logId : Nat} {f : Str} {b : Bool}
    (h : gcEntry opened root tbl logId f = some b) : b = logGone opened root tbl logId f := by
  unfold gcEntry at h
  unfold logGone
  split at h
  · rename_i hl
    split at h
    · cases h
    · rename_i id hid
      injection h with h
      simp [hl, h]
  · rename_i hl
    injection h with h
    subst h
    simp only [Bool.not_eq_true] at hl
    simp [hl]

/-- Exact effect of a pass: logs and parts that are gone are exactly those meeting the conditions. -/
theorem gcEntries_eq {opened : Str → Bool} {root tbl : Str} {md : GcMd} (fs : List Str) :
    ∀ (ds : List (List Str)) {r : GcDir}, gcEntries opened root tbl md fs ds = some r →
    r.entries = fs.filter (fun f => !logGone opened root tbl md.logId f) ∧ r.levels.length = ds.length ∧
    ∀ (k : Nat) (d : List Str), ds[k]? = some d →
      (fs = [] → r.levels[k]? = some d) ∧
      (fs ≠ [] → ∃ ids, md.levels[k]? = some ids ∧
        r.levels[k]? = some (d.filter fun f => !partGone opened (partPath root tbl k) ids f)) := by
  induction fs with
  | nil =>
    intro ds r h
    simp [gcEntries] at h
    subst h
    simp
  | cons f fs ih =>
    intro ds r h
    unfold gcEntries at h
    cases hg : gcEntry opened root tbl md.logId f with
    | none => rw [hg] at h; simp at h
    | some gone =>
      rw [hg] at h
      dsimp only at h
      cases hl : gcLevels opened root tbl 0 md.levels ds with
      | none => rw [hl] at h; simp at h
      | some ds' =>
        rw [hl] at h
        dsimp only at h
        cases ht : gcEntries opened root tbl md fs ds' with
        | none => rw [ht] at h; simp at h
        | some r' =>
          rw [ht] at h
          injection h with h
          subst h
          obtain ⟨h1, h2, h3⟩ := ih ds' ht
          obtain ⟨g1, g2⟩ := gcLevels_eq ds _ _ hl
          have hgone := gcEntry_eq hg
          refine ⟨?_, by simp [h2, g1], ?_⟩
          · rw [List.filter_cons, h1]
            subst hgone
            cases logGone opened root tbl md.logId f <;> rfl
          · intro k d hd
            refine ⟨by simp, fun _ => ?_⟩
            obtain ⟨ids, hi, hr⟩ := g2 k d hd
            rw [Nat.zero_add] at hr
            refine ⟨ids, hi, ?_⟩
            obtain ⟨h4, h5⟩ := h3 k _ hr
            by_cases hfs : fs = []
            · exact h4 hfs
            · obtain ⟨ids', hi', hr'⟩ := h5 hfs
              rw [hi] at hi'
              injection hi' with hi'
              subst hi'
              simp only [hr', List.filter_filter, Bool.and_self]

theorem gcLevel_total {opened : Str → Bool} {path : Str → Str} {ids : List Nat} (fs : List Str)
    (h : ∀ f ∈ fs, isParquet f = true → (parseU64 (stem f)).isSome) : (gcLevel opened path ids fs).isSome := by
  induction fs with
  | nil => simp [gcLevel]
  | cons f fs ih =>
    have ih := ih fun x hx => h x (List.mem_cons_of_mem _ hx)
    obtain ⟨r, hr⟩ := Option.isSome_iff_exists.mp ih
    unfold gcLevel
    split
    · rename_i hp
      obtain ⟨id, hid⟩ := Option.isSome_iff_exists.mp (h f (by simp) hp)
      simp only [hid, hr]
      split
      · rfl
      · split <;> rfl
    · simp [hr]

theorem gcLevels_total {opened : Str → Bool} {root tbl : Str} (ds : List (List Str))
    (h : ∀ d ∈ ds, ∀ f ∈ d, isParquet f = true → (parseU64 (stem f)).isSome) :
    ∀ (l : Nat) (mds : List (List Nat)), ds.length ≤ mds.length → (gcLevels opened root tbl l mds ds).isSome := by
  induction ds with
  | nil => intro l mds _; cases mds <;> simp [gcLevels]
  | cons d ds ih =>
    intro l mds hl
    cases mds with
    | nil => simp at hl
    | cons ids mds =>
      obtain ⟨r, hr⟩ := Option.isSome_iff_exists.mp
        (gcLevel_total (opened := opened) (path := partPath root tbl l) (ids := ids) d (h d (by simp)))
      obtain ⟨rs, hrs⟩ := Option.isSome_iff_exists.mp
        (ih (fun x hx => h x (List.mem_cons_of_mem _ hx)) (l + 1) mds (by simpa using hl))
      simp [gcLevels, hr, hrs]

theorem takeWhile_append_dot (a b : Str) (h : ∀ c ∈ a, c ≠ '.') :
    (a ++ '.' :: b).takeWhile (· ≠ '.') = a := by
  induction a with
  | nil => simp
  | cons c a ih =>
    have hc := h c (by simp)
    rw [List.cons_append, List.takeWhile_cons]
    simp only [hc, ne_eq, not_false_eq_true, decide_true, if_true]
    rw [ih fun x hx => h x (List.mem_cons_of_mem _ hx)]

theorem stem_logName (id : Nat) : stem (logName id) = decimal16 id := by
  unfold stem logName
  exact takeWhile_append_dot _ _ fun c hc => (decimal16_digits id c hc).ne (by decide)

theorem stem_partName (id : Nat) : stem (partName id) = decimal id := by
  unfold stem partName
  exact takeWhile_append_dot _ _ fun c hc => (decimal_digits id c hc).ne (by decide)

theorem isLog_logName (id : Nat) : isLog (logName id) = true := by
  unfold isLog logName
  rw [List.isSuffixOf_iff_suffix]
  exact List.suffix_append _ _

theorem isParquet_partName (id : Nat) : isParquet (partName id) = true := by
  unfold isParquet partName
  rw [List.isSuffixOf_iff_suffix]
  exact List.suffix_append _ _

end OptiPrism.Storage
