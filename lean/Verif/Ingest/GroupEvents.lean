import Verif.Ingest.IdentifyProps

/-!
# The groups of a track request
-/

namespace OptiPrism.Ingest

open OptiPrism.Meta
open OptiPrism.Storage (Bytes Value NamedValue Tbl InsertErr ColType Field Row)

variable {Q : Type}

/-! ## Values that stay -/

/-- Requests which change no stored values of groups. -/
def Calm : Req Q → Prop
  | .groupUpdate .. | .groupMerge .. | .anonymous .. => False
  | _ => True

/-- The records of the groups are still there. -/
def RealKept (p g : Nat) (kv kv' : Kv) : Prop := ∀ s b, getK kv (.real p g s) = some b → getK kv' (.real p g s) = some b

theorem groupGet_kept {p g : Nat} {s : Str} {vs : List PropVal} {kv kv' : Kv} {r : GroupValues} (h : groupGetOrCreate p g s vs kv = .ok (r, kv')) : RealKept p g kv kv' := by
  unfold groupGetOrCreate at h
  cases hv : getK kv (.real p g s) with
  | some b =>
    simp only [hv] at h
    split at h
    · cases h
    · cases h; exact fun _ _ x => x
  | none =>
    simp only [hv] at h
    split at h
    · cases h
    · rename_i id kv2 hseq
      obtain ⟨rfl, hid⟩ := nextSeq_out hseq
      split at h
      · cases h
      · cases h
        intro s' b hb
        rw [getK_putK _ (k := .real p g s) trivial (k' := .real p g s') trivial, if_neg (by
            intro e
            injection e with _ _ e
            rw [e, hv] at hb
            cases hb),
          getK_putK _ (k := .groupSeq p g) trivial (k' := .real p g s') trivial, if_neg (by simp)]
        exact hb

theorem groupGet_values {p g : Nat} {s : Str} {kv kv' : Kv} {r : GroupValues} (hs : GShape p g kv) (h : groupGetOrCreate p g s [] kv = .ok (r, kv')) :
    ∃ b, getK kv' (.real p g s) = some b ∧ GroupValues.dec b = some r := by
  unfold groupGetOrCreate at h
  cases hv : getK kv (.real p g s) with
  | some b =>
    simp only [hv] at h
    obtain ⟨r0, hr0, hid, hok⟩ := hs.2 s b hv
    simp only [gvRead, hr0] at h
    cases h
    exact ⟨b, hv, hr0⟩
  | none =>
    simp only [hv] at h
    split at h
    · cases h
    · rename_i id kv2 hseq
      obtain ⟨rfl, hid⟩ := nextSeq_out hseq
      split at h
      · cases h
      · rename_i b' hb'
        cases h
        refine ⟨b', ?_, GroupValues.dec_enc _ _ hb' hid (by intro v hv; cases hv)⟩
        rw [getK_putK _ (k := .real p g s) trivial (k' := .real p g s) trivial, if_pos rfl]

theorem calm_kept {S : Meta.Env Q} {r : Req Q} (hr : r.Ok) (hc : Calm r) (p g : Nat) (kv : Kv) : RealKept p g kv (r.exec S kv) := by
  by_cases hm : Mod.grp p g ∈ r.mods
  · cases r <;> simp only [Calm] at hc <;> simp [Req.mods] at hm
    obtain ⟨rfl, rfl⟩ := hm
    rename_i s vs
    show RealKept _ _ kv (runCall (groupGetOrCreate _ _ s vs) kv).2
    unfold runCall
    split
    · rename_i a kv' e; exact groupGet_kept e
    · exact fun _ _ x => x
  · intro s b hb
    rw [exec_same S hr hm kv (.real p g s) trivial rfl]; exact hb

theorem calm_runs {S : Meta.Env Q} {P : Req Q → Prop} (hP : ∀ r, P r → Calm r) {m : Nat} {kv kv' : Kv} (h : Runs S P kv m kv') (p g : Nat) : RealKept p g kv kv' := by
  induction h with
  | refl => exact fun _ _ x => x
  | step r _ ho hp ih => exact fun s b hb => calm_kept ho (hP r hp) p g _ s b (ih s b hb)

theorem send_calm {p : Nat} {r : Req Q} (h : SendReq p r) : Calm r := by
  cases r <;> simp only [SendReq] at h <;> trivial

/-! ## Resolving the groups -/

def CalmResolve (p : Nat) (r : Req Q) : Prop := ResolveReq p r ∧ Calm r

theorem resolveGroup_calm {S : Meta.Env Q} {p : Nat} (g : Str × Str) : Follows S (CalmResolve p) 3 (resolveGroup p g) (fun _ => True) :=
  Follows.bind (Follows.call (P := CalmResolve p) (.groupName p g.1 g.1) (fun _ => rfl) trivial ⟨rfl, trivial⟩ (fun _ _ _ _ => trivial)) fun grp _ =>
  Follows.bind (Follows.call (P := CalmResolve p) (.groupGet p grp.id g.2 []) (fun _ => rfl) (fun v hv => by cases hv) ⟨⟨rfl, rfl⟩, trivial⟩ (fun _ _ _ e => groupGet_lt e)) fun gv hn =>
  Follows.bind (Follows.call (P := CalmResolve p) (.dictPut p kEvents (groupCol grp.id) gv.id g.2) (fun _ => rfl) ⟨⟨slash_kEvents, slash_groupCol _⟩, hn⟩ ⟨⟨rfl, rfl, _, rfl⟩, trivial⟩
    (fun _ _ _ _ => trivial)) fun _ _ => Follows.pure trivial

theorem resolveGroups_calm {S : Meta.Env Q} {p : Nat} (l : List (Str × Str)) : Follows S (CalmResolve p) (l.length * 3) (each (resolveGroup p) l) (fun _ => True) :=
  (Follows.each l fun g _ => resolveGroup_calm g).mono (fun _ h => h) (Nat.le_refl _) fun _ _ => trivial

/-- A group of the request: its kind, number and values are those of its name and identifier, then and later. -/
theorem resolveGroup_at {S : Meta.Env Q} {p : Nat} {g : Str × Str} {e : Nat × GroupValues} {w w1 : World} (h : resolveGroup p g w = (.ok e, w1)) {n m : Nat}
    (hh : Runs S (fun _ => True) [] n w.kv) {P : Req Q → Prop} (hP : ∀ r, P r → Calm r) {kv' : Kv} (hr : Runs S P w1.kv m kv') :
    ∃ grp, e.1 = grp.id ∧ Known p kv' g.1 grp ∧ Resolves p grp.id kv' (.real g.2) e.2.id ∧ HasValues p grp.id kv' g.2 e.2.values := by
  unfold resolveGroup at h
  obtain ⟨grp, wa, h1, k1⟩ := bind_ok h
  obtain ⟨h1, -⟩ := call_ok h1
  obtain ⟨vals, wb, h2, k2⟩ := bind_ok k1
  obtain ⟨h2, -⟩ := call_ok h2
  obtain ⟨u, wc, h3, k3⟩ := bind_ok k2
  obtain ⟨h3, -⟩ := call_ok h3
  cases k3
  have Ra : Runs S (fun _ => True) w.kv 1 wa.kv := run_one (.groupName p g.1 g.1) rfl trivial trivial h1
  have Rb : Runs S (fun r => r = .groupGet p grp.id g.2 []) wa.kv 1 wb.kv := run_one (.groupGet p grp.id g.2 []) rfl (fun v hv => by cases hv) rfl h2
  have Rc : Runs S (fun r => Calm r) wb.kv 1 w1.kv := run_one (.dictPut p kEvents (groupCol grp.id) vals.id g.2) rfl ⟨⟨slash_kEvents, slash_groupCol _⟩, groupGet_lt h2⟩ trivial h3
  have Rd : Runs S (fun r => Calm r) wb.kv (1 + m) kv' := Rc.trans (runs_mono (fun r h => hP r h) hr)
  have T : ∀ {P : Req Q → Prop} {a b : Kv} {k : Nat}, Runs S P a k b → Runs S (fun _ => True) a k b := fun h => runs_mono (fun _ _ => trivial) h
  have ha : Hist S (n + 1) wa.kv := by simpa using (hh.trans Ra).hist .start
  have hend : Hist S (n + 1 + 1 + (1 + m)) kv' := Rd.hist (Rb.hist ha)
  obtain ⟨b, hb1, hb2⟩ := groupGet_values (ha.gshape p grp.id) h2
  have hb' := calm_runs (fun r h => h) Rd p grp.id _ _ hb1
  refine ⟨grp, rfl, (C89_permanent hh h1 (T (T Rb |>.trans (T Rd)))).1, ?_, ?_⟩
  · rw [resolves_iff (hend.gshape _ _)]
    show ((getK kv' (.real p grp.id g.2)).bind _) = _
    rw [hb']
    simp [Ext.read, hb2]
  · rw [hasValues_iff (hend.gshape _ _)]
    exact ⟨b, vals, hb', hb2, rfl⟩

/-- The user of a request naming the user alone: number and values are those of the user's identifier, then and later. -/
theorem resolveUser_at {S : Meta.Env Q} {p : Nat} {s : Str} {e : Nat × Option GroupValues} {w w1 : World} (h : resolveUser p (some s) none w = (.ok e, w1)) {n m : Nat}
    (hh : Runs S (fun _ => True) [] n w.kv) {P : Req Q → Prop} (hP : ∀ r, P r → Calm r) {kv' : Kv} (hr : Runs S P w1.kv m kv') :
    ∃ gv, e = (gv.id, some gv) ∧ Resolves p 0 kv' (.real s) gv.id ∧ HasValues p 0 kv' s gv.values := by
  unfold resolveUser at h
  obtain ⟨vals, wb, h2, k2⟩ := bind_ok h
  obtain ⟨h2, -⟩ := call_ok h2
  obtain ⟨u, wc, h3, k3⟩ := bind_ok k2
  obtain ⟨h3, -⟩ := call_ok h3
  cases k3
  have Rb : Runs S (fun r => r = .groupGet p 0 s []) w.kv 1 wb.kv := run_one (.groupGet p 0 s []) rfl (fun v hv => by cases hv) rfl h2
  have Rc : Runs S (fun r => Calm r) wb.kv 1 w1.kv := run_one (.dictPut p kEvents (groupCol 0) vals.id s) rfl ⟨⟨slash_kEvents, slash_groupCol _⟩, groupGet_lt h2⟩ trivial h3
  have Rd : Runs S (fun r => Calm r) wb.kv (1 + m) kv' := Rc.trans (runs_mono (fun r h => hP r h) hr)
  have ha : Hist S n w.kv := by simpa using hh.hist .start
  have hend : Hist S (n + 1 + (1 + m)) kv' := Rd.hist (Rb.hist ha)
  obtain ⟨b, hb1, hb2⟩ := groupGet_values (ha.gshape p 0) h2
  have hb' := calm_runs (fun r h => h) Rd p 0 _ _ hb1
  refine ⟨vals, rfl, ?_, ?_⟩
  · rw [resolves_iff (hend.gshape _ _)]
    show ((getK kv' (.real p 0 s)).bind _) = _
    rw [hb']
    simp [Ext.read, hb2]
  · rw [hasValues_iff (hend.gshape _ _)]
    exact ⟨b, vals, hb', hb2, rfl⟩

end OptiPrism.Ingest
