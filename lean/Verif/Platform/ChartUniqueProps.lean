import Verif.Platform.ChartCountProps
import Verif.Query.UniqueProps

/-!
# From the requests of sources to the numbers of users in a chart (C142)

C120 says what the evaluators make of the rows the ingester stores; this is the rest of the way, to the columns of the answer.
-/

namespace OptiPrism.Platform

open OptiPrism.Meta (Str Event Runs Req Ext eventsC)
open OptiPrism.Query
open OptiPrism.Ingest (Act App UtmNotEvent Track Sole)

/-! ### helpers -/

/-- The user of a request with one id. -/
def soleUser (x : Track) : Option Ext :=
  match x.userId, x.anonId with
  | some s, none => some (.real s)
  | none, some s => some (.anon s)
  | _, _ => none

theorem soleUser_iff {x : Track} {e : Ext} : soleUser x = some e ↔ Sole x e := by
  unfold soleUser
  cases hu : x.userId <;> cases ha : x.anonId <;> cases e <;> simp [Sole, hu, ha]

theorem once_length {α : Type} [DecidableEq α] (l : List α) : (once l).length ≤ l.length := by
  induction l with
  | nil => simp [once]
  | cons a l ih =>
    unfold once
    split
    · simp only [List.length_cons]
      omega
    · simp only [List.length_cons]
      omega

open Classical in
/-- The users of an interval can be listed. -/
theorem users_listed (acc : List (Nat × Track)) (p : Nat) (name : Str) (f t : Int) (u : Unit') (b : Int) :
    ∃ ws, UsersOf acc p name f t u b ws ∧ ws.length ≤ acc.length := by
  refine ⟨once ((acc.filter fun x => Falls p name f t u b x).filterMap fun x => soleUser x.2), ⟨nodup_once _, fun e => ?_⟩, ?_⟩
  · rw [mem_once, List.mem_filterMap]
    constructor
    · rintro ⟨x, hx, h⟩
      obtain ⟨h1, h2⟩ := List.mem_filter.mp hx
      exact ⟨x, h1, of_decide_eq_true h2, soleUser_iff.mp h⟩
    · rintro ⟨x, h1, h2, h3⟩
      exact ⟨x, List.mem_filter.mpr ⟨h1, decide_eq_true h2⟩, soleUser_iff.mpr h3⟩
  · refine Nat.le_trans (once_length _) (Nat.le_trans (List.length_filterMap_le _ _) (List.length_filter_le _ _))

/-- An interval with a request is one of the columns. -/
theorem falls_column {p : Nat} {name : Str} {f t : Int} {u : Unit'} {b : Int} {x : Nat × Track} (h : Falls p name f t u b x) : b ∈ timeColumns f t u := by
  obtain ⟨-, -, h1, h2, h3, h4, h5⟩ := h
  rw [(C66_columns u f t).2.1]
  obtain ⟨g1, g2, g3⟩ := C66_trunc u f
  obtain ⟨k, hk⟩ := whole_ms g1
  obtain ⟨k', hk'⟩ := whole_ms h3
  exact ⟨h3, h5 _ g1 (by omega), by omega⟩

/-! ## C142 -/

/-- **C142 (part).** After any acts of sources and administrators of which none renames or deletes an event of the project or names a user by
two ids, let a chart show the unique (or the "daily active") users of an event per interval, the rows of the events table handed to any number
of workers, those of a user one after the other to one worker. Then no worker panics, the answer has no columns if nobody sent the event in the
range, and else one line with the event, what is counted, the mean over the intervals and for each interval of the range the exact number of
users who sent an accepted request of the event. Missing: what is missing from C120. -/
theorem C142_partial {Q : Type} {S : Meta.Env Q} (hsys : ∀ n, '/' ∉ S.sys n) (hutm : UtmNotEvent S.sys) {K : Nat} {p : Nat} (hp : p < 2 ^ 64) (l : List (Act Q))
    (hx : ∀ x ∈ l, x.Fits S K) (hs : ∀ x ∈ l, x.SparesEvents p) (hone : ∀ x ∈ l, x.OneId p) {a : App} {n : Nat} (h : Runs S (Req.NoMerge p 0) [] n a.world.kv)
    (hr : a.world.rows = []) (hn : n + (l.map (Act.cost K)).sum < 2 ^ 62) (htimes : ∀ x ∈ a.accepted S l, SaneTime x.2.time) (hmany : (a.accepted S l).length < 10 ^ 12)
    {name : Str} (hb : name ≠ Ingest.kSessionBegin) {ev : Event} (hev : (eventsC p).getBy .name name (a.acts S l).world.kv = .ok ev)
    {F : Type} (md : Md F) (hmd : md.event name = .ok ev.id) (Sm : Sem) (hS : ∀ a b, Sm.lt (.ts a) (.ts b) = decide (a < b)) (fuel : Nat) (q : QueryTime) (cur : Int)
    (hq : ∀ n, (q = .last n .month → -2147483648 ≤ n ∧ n < 2147483648) ∧ (q = .last n .year → -178956970 ≤ n ∧ n ≤ 178956970))
    (u : Unit') {order : List Str} (ho : order.Nodup) (hod : "created_at".toList ∈ order) {k : CountKind} (hk : k ≠ .events) :
    ∃ e f t, ∃ users : Int → List Ext, segmentationFilter md (fuel + 1) .ms p q cur ⟨.regularName name, none⟩ none = .ok e ∧ Denotes q cur f t ∧
      (∀ b, UsersOf (a.accepted S l) p name f t u b (users b)) ∧
      ∀ (B : Bounds) (workers : List (List (List (List OptiPrism.Storage.NamedValue)) × List (Option Int × Rat))) (final : List (Option Int × Rat)),
        (workers.map Prod.fst).flatten.flatten.Perm (((a.acts S l).world.rows.filter fun x => x.1 = "events".toList).map Prod.snd) →
        UsersApart (workers.map fun w => (w.1.map (planned Sm u (Ingest.groupCol 0) e)).flatten) →
        (∀ w ∈ workers, (pEval B .count (countInner true false) true none false (w.1.map (planned Sm u (Ingest.groupCol 0) e))).isSome) ∧
        ((∀ w ∈ workers, ∀ m, pEval B .count (countInner true false) true none false (w.1.map (planned Sm u (Ingest.groupCol 0) e)) = some m →
            Listing (fun g => (m g).bind AggFn.result) w.2) →
        Listing (fun g => (combine B .count 0 (workers.map fun w => workerRows [w.2]) g).bind AggFn.result) final →
        ∀ (buf : Nat) (hash : List (Option GCell) → Nat) (sortIdx : List Int → List Nat) (number : Nat → Str) (stamp : Int → Str),
          1 ≤ buf → SortsDown sortIdx → Stamps stamp (timeColumns f t u) →
          ((∀ b, users b = []) →
            chartAnswer buf hash sortIdx number stamp (countShape k number name order (timeColumns f t u)) (countTable k number final) = .ok []) ∧
          ((∃ b, users b ≠ []) → ∃ cols mean,
            chartAnswer buf hash sortIdx number stamp (countShape k number name order (timeColumns f t u)) (countTable k number final) = .ok cols ∧
            MeanZero ((timeColumns f t u).map fun b => some (((users b).length : Int) * 10 ^ 16)) mean ∧
            CountShown stamp k.label name mean ((timeColumns f t u).map fun b => (b, (users b).length)) cols)) := by
  obtain ⟨e, f, t, h1, h2, h3⟩ := C120_partial hsys hutm hp l hx hs hone h hr hn htimes hb hev md hmd Sm hS fuel q cur hq u
  obtain ⟨users, husers⟩ : ∃ users : Int → List Ext, ∀ b, UsersOf (a.accepted S l) p name f t u b (users b) ∧ (users b).length ≤ (a.accepted S l).length :=
    ⟨fun b => Classical.choose (users_listed (a.accepted S l) p name f t u b), fun b => Classical.choose_spec (users_listed (a.accepted S l) p name f t u b)⟩
  refine ⟨e, f, t, users, h1, h2, fun b => (husers b).1, ?_⟩
  intro B workers final hperm hapart
  obtain ⟨g0, g1⟩ := h3 B workers hperm hapart
  refine ⟨g0, fun hw hfinal buf hash sortIdx number stamp hbuf hsort hst => ?_⟩
  obtain ⟨g2, g3⟩ := g1 hw
  have hdate : kDate ∈ order := by
    have : kDate = "created_at".toList := by decide +kernel
    rw [this]
    exact hod
  have hnod : (timeColumns f t u).Nodup := (C66_columns u f t).2.2.imp fun h => Int.ne_of_lt h
  have hcol : ∀ b, users b ≠ [] → b ∈ timeColumns f t u := by
    intro b hne
    obtain ⟨w, hwm⟩ := List.exists_mem_of_ne_nil _ hne
    obtain ⟨x, -, hf, -⟩ := ((husers b).1.2 w).mp hwm
    exact falls_column hf
  have hres : ∀ b, users b ≠ [] →
      (combine B .count 0 (workers.map fun w => workerRows [w.2]) (some b)).bind AggFn.result = some (((users b).length : Nat) : Rat) := by
    intro b hne
    obtain ⟨fn, k1, k2⟩ := (g2 b _ (husers b).1).2 hne
    rw [k1]
    exact k2
  have hzero : ∀ b, (users b).length ≠ 0 → users b ≠ [] := fun b h0 e => h0 (by rw [e]; rfl)
  have hc : Counts (fun b => (users b).length) (timeColumns f t u) final := by
    refine ⟨hfinal.1, ?_, ?_, ?_⟩
    · rintro ⟨g, v⟩ hm
      have hm := (hfinal.2 g v).mp hm
      beta_reduce at hm
      cases g with
      | none =>
        rw [g3] at hm
        cases hm
      | some b =>
        by_cases h0 : users b = []
        · rw [(g2 b _ (husers b).1).1 h0] at hm
          cases hm
        · rw [hres b h0] at hm
          exact ⟨b, hcol b h0, by rw [Option.some.inj hm], fun e => h0 (List.eq_nil_of_length_eq_zero e)⟩
    · intro b _ h0
      exact (hfinal.2 _ _).mpr (hres b (hzero b h0))
    · intro b _
      exact Nat.lt_of_le_of_lt (husers b).2 hmany
  obtain ⟨r1, r2⟩ := count_shown (k := k) (number := number) (stamp := stamp) (name := name) buf hbuf hash hsort ho hdate hst hnod hc
  refine ⟨fun h0 => r1 ?_, fun ⟨b, h0⟩ => r2 ?_⟩
  · cases hfl : final with
    | nil => rfl
    | cons x xs =>
      obtain ⟨b, -, -, hb0⟩ := hc.mem x (by rw [hfl]; simp)
      exact absurd (h0 b) (hzero b hb0)
  · exact List.ne_nil_of_mem (hc.all b (hcol b h0) fun e => h0 (List.eq_nil_of_length_eq_zero e))

/-! ### Examples -/

theorem two_users (k : CountKind) : ∃ cols a, chartAnswer 4 exHash exSort exNumber exStamp (countShape k exNumber "Buy".toList ["event".toList, "created_at".toList] [0])
      (countTable k exNumber [(some 0, 2)]) = .ok cols ∧ CountShown exStamp k.label "Buy".toList a [(0, 2)] cols := by
  obtain ⟨cols, a, h1, -, h3⟩ := (count_shown (k := k) (number := exNumber) (stamp := exStamp) (name := "Buy".toList) (order := ["event".toList, "created_at".toList])
    (dates := [0]) (cnt := fun b => if b = 0 then 2 else 0) (l := [(some 0, 2)]) 4 (by omega) exHash exSort_sorts (by decide +kernel) (by decide +kernel)
    ⟨by decide +kernel, by decide +kernel⟩ (by decide) ⟨by simp, by simp, by simp, by simp⟩).2 (by simp)
  exact ⟨cols, a, h1, h3⟩

/-- Three requests of two users, the rows in the order of the table's key: the chart shows 2 (that the hypotheses are met
is shown beside C120). -/
example : ∃ v cols a, exUsersChart ([0, 1, 4, 2, 3].filterMap fun i => (exUniqueRows Ingest.exActs)[i]?) = some (some v) ∧
      chartAnswer 4 exHash exSort exNumber exStamp (countShape .users exNumber "Buy".toList ["event".toList, "created_at".toList] [0]) (countTable .users exNumber [(some 0, v)]) = .ok cols ∧
      CountShown exStamp "Count unique".toList "Buy".toList a [(0, 2)] cols := by
  obtain ⟨cols, a, h1, h2⟩ := two_users .users
  exact ⟨2, cols, a, by decide +kernel, h1, h2⟩

/-- **C142 is violated by requests with two ids**: the only user who sent the event is shown as 2 users. -/
theorem C142_violated : ∃ (l : List (Act Unit)) (v : Rat) (cols : List AnswerCol) (a : Int),
    (exApp.accepted Ingest.exSysEnv l).map (fun x => (x.1, x.2.event, x.2.userId)) = [(1, "Buy".toList, some "u".toList), (1, "Buy".toList, some "u".toList)] ∧
    ByKey (exUniqueRows l) ∧ exUsersChart (exUniqueRows l) = some (some v) ∧
    chartAnswer 4 exHash exSort exNumber exStamp (countShape .users exNumber "Buy".toList ["event".toList, "created_at".toList] [0]) (countTable .users exNumber [(some 0, v)]) = .ok cols ∧
    CountShown exStamp "Count unique".toList "Buy".toList a [(0, 2)] cols := by
  obtain ⟨cols, a, h1, h2⟩ := two_users .users
  obtain ⟨l, g1, g2, g3⟩ := C120_violated
  exact ⟨l, 2, cols, a, g1, g2, g3, h1, h2⟩

end OptiPrism.Platform
