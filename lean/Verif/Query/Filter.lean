import Verif.Query.Time
import Verif.Meta.Records2
import Verif.Meta.Modules2
import Verif.Ingest.Model

/-!
# Model: filter expressions (`query/src/expr.rs`, `query/src/logical_plan/expr.rs`)

Expressions are evaluated by DataFusion, which is not part of /repo: SQL three-valued logic, a row is
kept when the value is true. Integer widths are brought to a common type by DataFusion, so a cell is an
`Int`. Order, `LIKE` and regular expressions are parameters (`Sem`).
-/

namespace OptiPrism.Query
open OptiPrism.Meta (Str PropOp EventRef)
open OptiPrism.Ingest (dictCell)

/-- A non-NULL cell. -/
inductive Cell where
  | int (v : Int)
  | str (v : Str)
  | bool (v : Bool)
  | decimal (v : Int)
  | ts (v : Int)
deriving DecidableEq, Repr

/-- Truth values of SQL. -/
abbrev Tri := Option Bool

def triAnd : Tri → Tri → Tri
  | some false, _ => some false
  | _, some false => some false
  | some true, some true => some true
  | _, _ => none

def triOr : Tri → Tri → Tri
  | some true, _ => some true
  | _, some true => some true
  | some false, some false => some false
  | _, _ => none

/-- What DataFusion supplies. -/
structure Sem where
  lt : Cell → Cell → Bool
  like : Cell → Cell → Bool
  regex : Cell → Cell → Bool

/-- The operators of the expressions built here. -/
inductive Op where
  | eq | neq | gt | gte | lt | lte | like | notLike | regex | notRegex
deriving DecidableEq, Repr

def Sem.apply (S : Sem) : Op → Cell → Cell → Bool
  | .eq, a, b => a == b
  | .neq, a, b => a != b
  | .gt, a, b => S.lt b a
  | .gte, a, b => S.lt b a || a == b
  | .lt, a, b => S.lt a b
  | .lte, a, b => S.lt a b || a == b
  | .like, a, b => S.like a b
  | .notLike, a, b => !S.like a b
  | .regex, a, b => S.regex a b
  | .notRegex, a, b => !S.regex a b

/-- Logical expressions over columns named by `Str`. -/
inductive Expr where
  | bin (op : Op) (col : Str) (lit : Option Cell)
  | isTrue (col : Str)
  | isFalse (col : Str)
  | isNull (col : Str)
  | isNotNull (col : Str)
  | and (a b : Expr)
  | or (a b : Expr)
deriving Repr

/-- A row: the cell of every column, `none` is NULL. -/
abbrev QRow := Str → Option Cell

def eval (S : Sem) (row : QRow) : Expr → Tri
  | .bin op c l => match row c, l with
    | some a, some b => some (S.apply op a b)
    | _, _ => none
  | .isTrue c => some (row c == some (.bool true))
  | .isFalse c => some (row c == some (.bool false))
  | .isNull c => some (row c).isNone
  | .isNotNull c => some (row c).isSome
  | .and a b => triAnd (eval S row a) (eval S row b)
  | .or a b => triOr (eval S row a) (eval S row b)

/-- The filter operator keeps a row when the expression is true. -/
def Selects (S : Sem) (row : QRow) (e : Expr) : Prop := eval S row e = some true

/-- Failures: an error for the caller, or a panic. -/
inductive QErr where
  | plan | store (e : Meta.Err) | panic
deriving Repr

/-- `multi_or` (logical_plan/expr.rs:15-29); `exprs[0]` of an empty list panics. -/
def multiOr : List Expr → Except QErr Expr
  | [] => .error .panic
  | [e] => .ok e
  | a :: b :: rest => .ok (rest.foldl .or (.or a b))

/-- `multi_and` (logical_plan/expr.rs:31-42). -/
def multiAnd : List Expr → Except QErr Expr
  | [] => .error .panic
  | [e] => .ok e
  | a :: b :: rest => .ok (rest.foldl .and (.and a b))

/-- `named_property_expression` (expr.rs:299-391). -/
def namedPropertyExpression (col : Str) (op : PropOp) (values : Option (List (Option Cell))) : Except QErr Expr :=
  let many (o : Op) : Except QErr Expr :=
    match values with
    | none => .error .plan
    | some [v] => .ok (.bin o col v)
    | some vs => multiOr (vs.map (.bin o col))
  match op with
  | .eq => many .eq
  | .neq => many .neq
  | .gt => many .gt
  | .gte => many .gte
  | .lt => many .lt
  | .lte => many .lte
  | .regex => many .regex
  | .notRegex => many .notRegex
  | .like => many .like
  | .notLike => many .notLike
  | .true => .ok (.isTrue col)
  | .false => .ok (.isFalse col)
  | .empty => .ok (.isNull col)
  | .exists => .ok (.isNotNull col)

/-! ### dictionary-encoded properties -/

/-- The cell an integer value is compared as. -/
def ofG : Meta.GValue → Option Cell
  | .int8 (some v) => some (.int v.toInt)
  | .int16 (some v) => some (.int v.toInt)
  | .int32 (some v) => some (.int v.toInt)
  | .int64 (some v) => some (.int v.toInt)
  | .bool (some b) => some (.bool b)
  | .str (some s) => some (.str s)
  | .timestamp (some v) => some (.ts v.toInt)
  | .decimal (some v) => some (.decimal v.toInt)
  | _ => none

/-- `encode_property_dict_values` (expr.rs:168-204): strings only, `key as iN`; an unknown string is an
error of the whole query. -/
def encodeDictValues (p : Nat) (t d : Str) (dt : Meta.DictType) (kv : Meta.Kv) :
    List (Option Cell) → Except QErr (List (Option Cell))
  | [] => .ok []
  | none :: vs => match encodeDictValues p t d dt kv vs with
    | .error e => .error e
    | .ok l => .ok (none :: l)
  | some (.str s) :: vs => match Meta.dictGetKey p t d s kv with
    | .error e => .error (.store e)
    | .ok k => match encodeDictValues p t d dt kv vs with
      | .error e => .error e
      | .ok l => .ok (ofG (dictCell dt k) :: l)
  | some _ :: _ => .error .plan

/-- `prop_expression` (expr.rs:206-247), the property already looked up. -/
def propExpression (sys : Str → Str) (p : Nat) (t : Str) (r : Meta.Property) (kv : Meta.Kv) (op : PropOp)
    (values : Option (List (Option Cell))) : Except QErr Expr :=
  let col := r.columnName sys
  match values with
  | none => namedPropertyExpression col op none
  | some vs =>
    match op with
    | .like => namedPropertyExpression col op values
    | .notLike => namedPropertyExpression col op values
    | .regex => namedPropertyExpression col op values
    | .notRegex => namedPropertyExpression col op values
    | op => match r.dictType with
      | some dt => match encodeDictValues p t col dt kv vs with
        | .error e => .error e
        | .ok vs => namedPropertyExpression col op (some vs)
      | none => namedPropertyExpression col op values

/-! ### events -/

/-- `COLUMN_EVENT`. -/
@[irreducible] def kEventCol : Str := "event".toList

/-- What an event filter needs from the metadata: events by name, custom events, and the expression of a
property filter (`property_expression`, expr.rs:249-275). -/
structure Md (F : Type) where
  event : Str → Except Meta.Err Nat
  custom : Nat → Except Meta.Err (List (EventRef × Option (List F)))
  filter : F → Except QErr Expr

/-- All results of a list, or the first error. -/
def collect {α β : Type} (f : α → Except QErr β) : List α → Except QErr (List β)
  | [] => .ok []
  | a :: as => match f a with
    | .error e => .error e
    | .ok b => match collect f as with
      | .error e => .error e
      | .ok bs => .ok (b :: bs)

/-- `event_filters_expression` (expr.rs:118-150). -/
def eventFiltersExpression {F : Type} (md : Md F) (fs : List F) : Except QErr Expr :=
  match collect md.filter fs with
  | .error e => .error e
  | .ok es => multiAnd es

/-- `exprs[0]`, then `or` (expr.rs:104-109). -/
def orAll : List Expr → Except QErr Expr
  | [] => .error .panic
  | e :: es => .ok (es.foldl .or e)

/-- One event of a custom event with its filters (expr.rs:84-102). -/
def withFilters {F : Type} (md : Md F) (e : Except QErr Expr) (fs : Option (List F)) : Except QErr Expr :=
  match e with
  | .error x => .error x
  | .ok e => match fs with
    | none => .ok e
    | some fs => match eventFiltersExpression md fs with
      | .error x => .error x
      | .ok f => .ok (.and e f)

/-- `event_expression` (expr.rs:60-115). `Regular(id)` compares with `id as u16`. The recursion is
through the metadata; `none` when it is deeper than the fuel. -/
def eventExpression {F : Type} (md : Md F) : Nat → EventRef → Except QErr Expr
  | 0, _ => .error .panic
  | fuel + 1, r => match r with
    | .regularName n => match md.event n with
      | .error e => .error (.store e)
      | .ok id => .ok (.bin .eq kEventCol (some (.int (BitVec.ofNat 64 id).toInt)))
    | .regular id => .ok (.bin .eq kEventCol (some (.int ((id % 65536 : Nat) : Int))))
    | .custom id => match md.custom id with
      | .error e => .error (.store e)
      | .ok evs => match collect (fun ev => withFilters md (eventExpression md fuel ev.1) ev.2) evs with
        | .error e => .error e
        | .ok es => orAll es

/-! ### time -/

/-- The unit of a timestamp column. -/
inductive TsUnit where
  | s | ms | us | ns
deriving DecidableEq, Repr

/-- Nanoseconds in a unit. -/
def TsUnit.len : TsUnit → Int
  | .s => 1000000000 | .ms => 1000000 | .us => 1000 | .ns => 1

/-- `lit_timestamp` (logical_plan/expr.rs:44-68): `timestamp()`, `timestamp_millis()`, .. round down. -/
def litTimestamp (u : TsUnit) (t : Int) : Option Cell := some (.ts (t / u.len))

/-- `time_expression` (expr.rs:38-57). -/
def timeExpression (col : Str) (u : TsUnit) (q : QueryTime) (cur : Int) : Except QErr Expr :=
  match q.range cur with
  | none => .error .panic
  | some (f, t) => .ok (.and (.bin .gte col (litTimestamp u f)) (.bin .lte col (litTimestamp u t)))

end OptiPrism.Query
