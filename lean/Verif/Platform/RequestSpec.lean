import Verif.Platform.Request

/-!
# Which queries can be given back as they were sent

Stated over the JSON side alone; the conversions are not mentioned.
-/

namespace OptiPrism.Platform

variable {N : Type}

/-- A number that comes back from its decimal as itself. -/
def FaithfulNum (E : ReqEnv N) (n : N) : Prop :=
  ∃ m s, E.dec n = some (m, s) ∧ E.num (m.setWidth 64) s = some n

/-- Booleans, texts and faithful numbers; neither null, nor arrays, nor objects. -/
def TidyVal (E : ReqEnv N) : JVal N → Prop
  | .bool _ => True
  | .str _ => True
  | .num n => FaithfulNum E n
  | _ => False

/-- An optional list that is absent, or has elements and they are all tidy. -/
def AbsentOrFull {α : Type} (T : α → Prop) (o : Option (List α)) : Prop := ∀ l, o = some l → l ≠ [] ∧ ∀ a ∈ l, T a

/-- An optional list all of whose elements are tidy. -/
def Every {α : Type} (T : α → Prop) (o : Option (List α)) : Prop := ∀ l, o = some l → ∀ a ∈ l, T a

def TidyFilter (E : ReqEnv N) (f : JFilter N) : Prop := AbsentOrFull (TidyVal E) f.value

/-- The five aggregates there are. -/
def TidyAgg (a : JAgg) : Prop := a = .count ∨ a = .sum ∨ a = .min ∨ a = .max ∨ a = .avg

def TidyQuery : JQuery → Prop
  | .countPerGroup a => TidyAgg a
  | .aggregatePropertyPerGroup _ _ a => TidyAgg a
  | .aggregateProperty _ a => TidyAgg a
  | _ => True

def TidyDid (E : ReqEnv N) : JDid N → Prop
  | .relativeCount _ _ fs _ => AbsentOrFull (TidyFilter E) fs
  | .aggregateProperty _ _ _ v _ => ∀ x, v = some x → TidyVal E x
  | _ => True

def TidyCond (E : ReqEnv N) : JCond N → Prop
  | .has _ _ v => AbsentOrFull (TidyVal E) v
  | .had _ _ v _ => AbsentOrFull (TidyVal E) v
  | .did _ fs a => AbsentOrFull (TidyFilter E) fs ∧ TidyDid E a

def TidySegment (E : ReqEnv N) (s : JSegment N) : Prop := ∀ l ∈ s.conditions, ∀ c ∈ l, TidyCond E c

/-- One group of tidy filters, with the conditions that are the default. -/
def OneGroup (E : ReqEnv N) (g : JGrouped N) (T : List (JFilter N) → Prop) : Prop :=
  g.groupsCondition = none ∧
    ∃ g0, g.groups = [g0] ∧ g0.filtersOr = false ∧ (∀ f ∈ g0.filters, TidyFilter E f) ∧ T g0.filters

structure TidyEvent (E : ReqEnv N) (e : JEvent N) : Prop where
  filters : AbsentOrFull (TidyFilter E) e.filters
  breakdowns : AbsentOrFull (fun _ => True) e.breakdowns
  queries : ∀ q ∈ e.queries, TidyQuery q

structure TidySegReq (E : ReqEnv N) (r : JSegReq N) : Prop where
  events : ∀ e ∈ r.events, TidyEvent E e
  filters : ∀ g, r.filters = some g → OneGroup E g fun fs => fs ≠ []
  breakdowns : AbsentOrFull (fun _ => True) r.breakdowns
  segments : AbsentOrFull (TidySegment E) r.segments

/-- An excluded event with tidy filters, and not for some of the steps only. (A range would have to come back moved by one.) -/
def TidyExclude (E : ReqEnv N) (e : JExclude N) : Prop :=
  Every (TidyFilter E) e.filters ∧ ∀ f t, e.steps = some (.between f t) → f = 0 ∧ t = 0 ∧ E.under = some 0

structure TidyFunnel (E : ReqEnv N) (r : JFunnel N) : Prop where
  steps : ∀ s ∈ r.steps, ∀ e ∈ s.events, Every (TidyFilter E) e.filters
  exclude : Every (TidyExclude E) r.exclude
  segments : Every (TidySegment E) r.segments
  filters : ∀ g, r.filters = some g → OneGroup E g fun _ => True

def Tidy (E : ReqEnv N) : JReportQuery N → Prop
  | .eventSegmentation r => TidySegReq E r
  | .funnel f => TidyFunnel E f

end OptiPrism.Platform
