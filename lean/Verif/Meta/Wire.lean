import Verif.Proto
import Verif.Meta.Keys

/-!
# Field kinds used by the metadata records

Readers and writers for the kinds of protobuf fields the metadata crate uses (src/metadata/src/pb/*.proto,
compiled by prost), on top of `Verif.Proto`: strings are UTF-8, times are stored as whole seconds, lists
of tags are stored as repeated strings. A record is written as the concatenation of its fields and read
back field by field, so that writer and reader can disagree.
-/

namespace OptiPrism.Meta

open OptiPrism.Proto
open OptiPrism.Storage (Bytes)

/-! ## Strings -/

/-- `String::as_bytes`. -/
def utf8 (s : Str) : Bytes := s.flatMap String.utf8EncodeChar

/-- `String::from_utf8`, which prost calls when it reads a string field. -/
def ofUtf8 (b : Bytes) : Option Str := b.toByteArray.utf8Decode?.map Array.toList

theorem ofUtf8_utf8 (s : Str) : ofUtf8 (utf8 s) = some s := by
  show (List.utf8Encode s).utf8Decode?.map Array.toList = some s
  simp

theorem utf8_inj {a b : Str} (h : utf8 a = utf8 b) : a = b := by
  have := congrArg ofUtf8 h
  simpa [ofUtf8_utf8] using this

/-! ## Times -/

/-- `chrono::DateTime<Utc>`: whole seconds (an i64 in two's complement) and nanoseconds. -/
structure Time where
  sec : BitVec 64
  nano : Nat
  deriving DecidableEq, Repr

/-- `from_timestamp(t.timestamp(), 0)`. -/
def Time.trunc (t : Time) : Time := ⟨t.sec, 0⟩

@[simp] theorem Time.trunc_trunc (t : Time) : t.trunc.trunc = t.trunc := rfl

/-! ## Lists -/

/-- `None` and `Some([])` are written alike and read back as `None`. -/
def normList {α : Type} : Option (List α) → Option (List α)
  | some [] => none
  | l => l

@[simp] theorem normList_normList {α : Type} (l : Option (List α)) : normList (normList l) = normList l := by
  rcases l with _ | _ | ⟨a, l⟩ <;> rfl

@[simp] theorem getD_normList {α : Type} (l : Option (List α)) : (normList l).getD [] = l.getD [] := by
  rcases l with _ | _ | ⟨a, l⟩ <;> rfl

/-- The reading side: `if v.is_empty() { None } else { Some(v) }`. -/
def optList {α : Type} (l : List α) : Option (List α) := if l.isEmpty then none else some l

theorem optList_getD {α : Type} (l : Option (List α)) : optList (l.getD []) = normList l := by
  rcases l with _ | _ | ⟨a, l⟩ <;> rfl

/-! ## Writers -/

abbrev put64 (n v : Nat) : Fields := putU64 n v
def putS (n : Nat) (s : Str) : Fields := putStr n (utf8 s)
def putOptS (n : Nat) (s : Option Str) : Fields := putOptStr n (s.map utf8)
def putTime (n : Nat) (t : Time) : Fields := putU64 n t.sec.toNat
def putOptTime (n : Nat) (t : Option Time) : Fields := putOptU64 n (t.map fun t => t.sec.toNat)
def putStrs (n : Nat) (l : List Str) : Fields := putRep n (l.map utf8)

/-! ## Readers

Each looks at the values found under one field number. -/

def rdU64 (vs : List WireVal) : Option Nat := (vs.mapM WireVal.asVarint).map fun l => l.getLast?.getD 0
def rdOptU64 (vs : List WireVal) : Option (Option Nat) := (vs.mapM WireVal.asVarint).map fun l => l.getLast?
def rdBool (vs : List WireVal) : Option Bool := (rdU64 vs).map fun v => v != 0
def rdBytes (vs : List WireVal) : Option Bytes := (vs.mapM WireVal.asLen).map fun l => l.getLast?.getD []
def rdOptBytes (vs : List WireVal) : Option (Option Bytes) := (vs.mapM WireVal.asLen).map fun l => l.getLast?
def rdRep (vs : List WireVal) : Option (List Bytes) := vs.mapM WireVal.asLen
def rdS (vs : List WireVal) : Option Str := (rdBytes vs).bind ofUtf8
def rdOptS (vs : List WireVal) : Option (Option Str) :=
  (rdOptBytes vs).bind fun
    | none => some none
    | some b => (ofUtf8 b).map some
def rdTime (vs : List WireVal) : Option Time := (rdU64 vs).map fun v => ⟨BitVec.ofNat 64 v, 0⟩
def rdOptTime (vs : List WireVal) : Option (Option Time) :=
  (rdOptU64 vs).map fun v => v.map fun v => ⟨BitVec.ofNat 64 v, 0⟩
def rdStrs (vs : List WireVal) : Option (List Str) := (rdRep vs).bind fun l => l.mapM ofUtf8
/-- Repeated sub-messages. -/
def rdMsgs {α : Type} (dec : Bytes → Option α) (vs : List WireVal) : Option (List α) := (rdRep vs).bind fun l => l.mapM dec

/-! ### what a reader finds -/

theorem rdU64_put (n v : Nat) : rdU64 (vals n (putU64 n v)) = some v := getU64_of (fs := putU64 n v) rfl
theorem rdOptU64_put (n : Nat) (v : Option Nat) : rdOptU64 (vals n (putOptU64 n v)) = some v :=
  getOptU64_of (fs := putOptU64 n v) rfl
theorem rdBool_put (n : Nat) (v : Bool) : rdBool (vals n (putBool n v)) = some v := getBool_of (fs := putBool n v) rfl
theorem rdBytes_put (n : Nat) (v : Bytes) : rdBytes (vals n (putStr n v)) = some v := getStr_of (fs := putStr n v) rfl
theorem rdOptBytes_put (n : Nat) (v : Option Bytes) : rdOptBytes (vals n (putOptStr n v)) = some v :=
  getOptStr_of (fs := putOptStr n v) rfl
theorem rdRep_put (n : Nat) (v : List Bytes) : rdRep (vals n (putRep n v)) = some v := getRep_of (fs := putRep n v) rfl
theorem rdS_put (n : Nat) (s : Str) : rdS (vals n (putS n s)) = some s := by
  unfold rdS putS; rw [rdBytes_put]; exact ofUtf8_utf8 s
theorem rdOptS_put (n : Nat) (s : Option Str) : rdOptS (vals n (putOptS n s)) = some s := by
  unfold rdOptS putOptS; rw [rdOptBytes_put]
  cases s <;> simp [ofUtf8_utf8]
theorem rdTime_put (n : Nat) (t : Time) : rdTime (vals n (putTime n t)) = some t.trunc := by
  unfold rdTime putTime; rw [rdU64_put]; simp [Time.trunc]
theorem rdOptTime_put (n : Nat) (t : Option Time) : rdOptTime (vals n (putOptTime n t)) = some (t.map Time.trunc) := by
  unfold rdOptTime putOptTime; rw [rdOptU64_put]; cases t <;> simp [Time.trunc]
theorem rdStrs_put (n : Nat) (l : List Str) : rdStrs (vals n (putStrs n l)) = some l := by
  unfold rdStrs putStrs; rw [rdRep_put]
  exact mapM_inverse utf8 ofUtf8 l fun a _ => ofUtf8_utf8 a
theorem mapM_some_map {α β γ : Type} (enc : α → β) (dec : β → Option γ) (g : α → γ) (l : List α)
    (h : ∀ a ∈ l, dec (enc a) = some (g a)) : (l.map enc).mapM dec = some (l.map g) := by
  induction l with
  | nil => rfl
  | cons a l ih =>
    rw [List.map_cons, List.mapM_cons, h a (by simp), ih (fun b hb => h b (by simp [hb]))]
    rfl
theorem rdMsgs_put {α : Type} (enc : α → Bytes) (dec : Bytes → Option α) (g : α → α) (n : Nat) (l : List α)
    (h : ∀ a ∈ l, dec (enc a) = some (g a)) : rdMsgs dec (vals n (putRep n (l.map enc))) = some (l.map g) := by
  unfold rdMsgs; rw [rdRep_put]
  exact mapM_some_map enc dec g l h

@[simp] theorem vals_putS_ne {n m : Nat} {s : Str} (h : n ≠ m) : vals n (putS m s) = [] := vals_putStr_ne h
@[simp] theorem vals_putOptS_ne {n m : Nat} {s : Option Str} (h : n ≠ m) : vals n (putOptS m s) = [] := vals_putOptStr_ne h
@[simp] theorem vals_putTime_ne {n m : Nat} {s : Time} (h : n ≠ m) : vals n (putTime m s) = [] := vals_putU64_ne h
@[simp] theorem vals_putOptTime_ne {n m : Nat} {s : Option Time} (h : n ≠ m) : vals n (putOptTime m s) = [] := vals_putOptU64_ne h
@[simp] theorem vals_putStrs_ne {n m : Nat} {s : List Str} (h : n ≠ m) : vals n (putStrs m s) = [] := vals_putRep_ne h

theorem vals_flatten_nil (n : Nat) : vals n (List.flatten []) = [] := rfl
theorem vals_flatten_cons (n : Nat) (a : Fields) (l : List Fields) :
    vals n (List.flatten (a :: l)) = vals n a ++ vals n l.flatten := by simp

/-! ### well-formedness of what is written -/

theorem WF_flatten_nil : WF (List.flatten []) := WF_nil
theorem WF_flatten_cons {a : Fields} {l : List Fields} (h : WF a) (h' : WF l.flatten) : WF (List.flatten (a :: l)) := by
  rw [List.flatten_cons]; exact h.append h'

theorem WF_putS {n : Nat} {s : Str} (h1 : 1 ≤ n ∧ n < 2 ^ 29) : WF (putS n s) := WF_putStr h1
theorem WF_putOptS {n : Nat} {s : Option Str} (h1 : 1 ≤ n ∧ n < 2 ^ 29) : WF (putOptS n s) := WF_putOptStr h1
theorem WF_putStrs {n : Nat} {s : List Str} (h1 : 1 ≤ n ∧ n < 2 ^ 29) : WF (putStrs n s) := WF_putRep h1
theorem WF_putTime {n : Nat} {t : Time} (h1 : 1 ≤ n ∧ n < 2 ^ 29) : WF (putTime n t) := WF_putU64 h1 t.sec.isLt
theorem WF_putOptTime {n : Nat} {t : Option Time} (h1 : 1 ≤ n ∧ n < 2 ^ 29) : WF (putOptTime n t) :=
  WF_putOptU64 h1 fun x e => by
    obtain ⟨t, _, rfl⟩ := Option.map_eq_some_iff.mp e
    exact t.sec.isLt

/-- `u64` and `Option<u64>` values in range. -/
abbrev U64ok (v : Nat) : Prop := v < 2 ^ 64
def OptOk (v : Option Nat) : Prop := ∀ x, v = some x → x < 2 ^ 64

@[simp] theorem OptOk_none : OptOk none := by intro x e; cases e
@[simp] theorem OptOk_some (v : Nat) : OptOk (some v) ↔ v < 2 ^ 64 := by
  constructor
  · intro h; exact h v rfl
  · intro h x e; cases e; exact h

/-- Proves `WF` of a literal list of fields from bounds in the context. -/
macro "wf_fields" : tactic => `(tactic|
  repeat (first
    | exact WF_flatten_nil
    | refine WF_flatten_cons ?_ ?_
    | exact WF_putS (by decide) | exact WF_putOptS (by decide) | exact WF_putStrs (by decide)
    | exact WF_putTime (by decide) | exact WF_putOptTime (by decide) | exact WF_putRep (by decide)
    | exact WF_putBool (by decide) | exact WF_putStr (by decide) | exact WF_putOptStr (by decide)
    | exact WF_putMsg (by decide) | exact WF_putOptMsg (by decide)
    | exact WF_putU64 (by decide) (by first | assumption | omega)
    | exact WF_putOptU64 (by decide) (by assumption)))

/-- Evaluates the readers on a literal list of fields. -/
macro "rd_fields" : tactic => `(tactic|
  simp only [vals_flatten_cons, vals_flatten_nil, ne_eq, reduceCtorEq, not_false_eq_true, Nat.reduceEqDiff,

    vals_putU64_ne, vals_putBool_ne, vals_putOptU64_ne, vals_putStr_ne, vals_putOptStr_ne, vals_putRep_ne, vals_putMsg_ne,
    vals_putOptMsg_ne, vals_putS_ne, vals_putOptS_ne, vals_putTime_ne, vals_putOptTime_ne, vals_putStrs_ne,
    List.append_nil, List.nil_append,
    rdU64_put, rdOptU64_put, rdBool_put, rdBytes_put, rdOptBytes_put, rdRep_put, rdS_put, rdOptS_put, rdTime_put, rdOptTime_put,
    rdStrs_put, Option.bind_eq_bind, Option.bind_some, Option.pure_def, Option.map_some, Option.map_map, optList_getD])

theorem encFields_flatten_cons (a : Fields) (l : List Fields) :
    encFields (List.flatten (a :: l)) = encFields a ++ encFields l.flatten := by simp [encFields]

/-- A sub-message is no longer than the message. -/
theorem sub_lt {fss : List Fields} {n : Nat} {l : List Bytes} {b : Bytes} (hl : (encFields fss.flatten).length < 2 ^ 64)
    (hm : putRep n l ∈ fss) (hb : b ∈ l) : b.length < 2 ^ 64 := by
  have : (n, WireVal.len b) ∈ fss.flatten :=
    List.mem_flatten.mpr ⟨_, hm, List.mem_map.mpr ⟨b, hb, rfl⟩⟩
  have := len_le_encFields this
  omega

end OptiPrism.Meta
