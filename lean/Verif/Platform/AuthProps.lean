import Verif.Platform.AuthInv
import Verif.Meta.MembersProps

/-!
# C98-C102, C104, C105: who acts for an account
-/

namespace OptiPrism.Platform

open OptiPrism.Meta

variable {Q : Type} {C : AuthEnv} {E : Env Q}

/-! ## Specification -/

/-- The world after more steps. -/
def World.after (C : AuthEnv) (E : Env Q) (w : World) (l : List (AStep Q)) : World := l.foldl (fun w s => w.step C E s) w

/-- All steps are possible when their turn comes. -/
def AllOk (C : AuthEnv) (E : Env Q) : World → List (AStep Q) → Prop
  | _, [] => True
  | w, s :: l => s.Ok w ∧ AllOk C E (w.step C E s) l

/-- In state `w` the step is one by which `x` shows that account `a` is theirs: logging in with the account's address and a
password its stored hash verifies, or making the account by signing up. -/
inductive Shows (C : AuthEnv) (E : Env Q) (x a : Nat) (w : World) : AStep Q → Prop
  | logIn {pw : Str} {o : Option Nat} {stamp : Time} {salt : Nat} {acc : Account} : accountsC.live w.kv a = some acc →
      C.check pw acc.passwordHash = true → Shows C E x a w (.call x (.logIn acc.email pw o) stamp salt)
  | signUp {e pw : Str} {n : Option Str} {stamp : Time} {salt : Nat} {acc : Account} : accountsC.live w.kv a = none →
      accountsC.live (w.step C E (.call x (.signUp e pw n) stamp salt)).kv a = some acc → acc.email = e →
      acc.passwordHash = C.hash pw salt → Shows C E x a w (.call x (.signUp e pw n) stamp salt)

/-- The history up to `w` has a step by which `x` shows that account `a` is theirs. -/
def HasShown (C : AuthEnv) (E : Env Q) (x a : Nat) (l : List (AStep Q)) (w : World) : Prop :=
  ∃ l1 s l2 m w1, l = l1 ++ s :: l2 ∧ Reached C E m l1 w1 ∧ w = (w1.step C E s).after C E l2 ∧ Shows C E x a w1 s

theorem HasShown.more {x a : Nat} {l : List (AStep Q)} {w : World} (h : HasShown C E x a l w) (s : AStep Q) :
    HasShown C E x a (l ++ [s]) (w.step C E s) := by
  obtain ⟨l1, s1, l2, m, w1, rfl, h1, rfl, h2⟩ := h
  exact ⟨l1, s1, l2 ++ [s], m, w1, by simp, h1, by simp [World.after], h2⟩

/-! ## C98 -/

/-- C98: whoever holds a token for an account has logged in to it with its password or made it. -/
theorem C98_origin {n : Nat} {l : List (AStep Q)} {w : World} (h : Reached C E n l w) (hn : n < 2 ^ 62) {x : Nat} {t : Tok}
    (ht : t ∈ w.held x) : HasShown C E x t.account l w := by
  induction h generalizing t with
  | start h => cases ht
  | @step n l w s h hs ih =>
    have hi := h.inv (by omega)
    cases s with
    | other r => exact (ih (by omega) ht).more _
    | tick d => exact (ih (by omega) ht).more _
    | call who c stamp salt =>
      by_cases hold : t ∈ w.held x
      · exact (ih (by omega) hold).more _
      have hwho : x = who ∧ ∃ ts, (c.run C w.now stamp salt w.kv).1 = .ok ts ∧ t ∈ ts := by
        rw [World.step_call] at ht
        dsimp only at ht
        by_cases hx : x = who
        · refine ⟨hx, ?_⟩
          rw [if_pos hx] at ht
          cases hr : (c.run C w.now stamp salt w.kv).1 with
          | error e => rw [hr] at ht; exact absurd ht hold
          | ok ts =>
            rw [hr] at ht
            rcases List.mem_append.mp ht with h | h
            · exact ⟨ts, rfl, h⟩
            · exact absurd h hold
        · rw [if_neg hx] at ht; exact absurd ht hold
      obtain ⟨rfl, ts, hts, htm⟩ := hwho
      have he := run_effect (C := C) (E := E) (now := w.now) (stamp := stamp) (salt := salt) (c := c) hi
      have hkv : (c.run C w.now stamp salt w.kv).2 = (w.step C E (.call x c stamp salt)).kv := rfl
      rw [hts] at he
      generalize hk : (c.run C w.now stamp salt w.kv).2 = kv' at he
      have new : Shows C E x t.account w (.call x c stamp salt) → HasShown C E x t.account (l ++ [.call x c stamp salt])
          (w.step C E (.call x c stamp salt)) := fun hh => ⟨l, _, [], n, w, by simp, h, rfl, hh⟩
      have old : ∀ t' ∈ c.toks, t.account = t'.account → HasShown C E x t.account (l ++ [.call x c stamp salt])
          (w.step C E (.call x c stamp salt)) := fun t' h1 h2 => by
        rw [h2]; exact (ih (by omega) (hs.2 t' h1)).more _
      cases he with
      | logIn h1 h2 h3 h4 => rw [h4 t htm] at new ⊢; subst h2; exact new (.logIn h1 h3)
      | issue h1 h2 => exact old _ h1 (h2 t htm)
      | self h1 h2 h3 h4 h5 => exact old _ h1 (h5 ts rfl t htm)
      | adminCreate h1 h2 h3 => rw [h3 ts rfl] at htm; cases htm
      | adminUpdate h1 h2 h3 => rw [h3 ts rfl] at htm; cases htm
      | adminDelete h1 h2 h3 => rw [h3 ts rfl] at htm; cases htm
      | @signUp e pw n _ h1 h2 h3 =>
        obtain ⟨acc, kv1, h4, h5⟩ := h3 ts rfl
        have hok : (Req.accountCreate (Q := Q) stamp (signUpAccount e (C.hash pw salt) n)).Ok :=
          ⟨by show adminId < 2 ^ 64; decide, by simp [signUpAccount], by simp [signUpAccount], by simp [signUpAccount]⟩
        rcases create_exec (E := E) hi (h.room (by omega)) hok with ⟨⟨e', g⟩, -⟩ | ⟨kv2, g0, g, g1, g2, g3⟩
        · rw [g] at h4; cases h4
        · rw [g0] at h4
          injection h4 with h4
          injection h4 with h4 h6
          have ha : t.account = lastId w.kv (.top .accounts) + 1 := by rw [h5 t htm, ← h4]; rfl
          refine new (.signUp (by rw [ha]; exact g1) (acc := (accountMk stamp (signUpAccount e (C.hash pw salt) n) t.account).norm) ?_ rfl rfl)
          rw [← hkv, hk, g, g3, if_pos ha]

/-- C98: a call acts for an account only if its caller has shown that the account is theirs. -/
theorem C98_authentic {n : Nat} {l : List (AStep Q)} {w : World} (h : Reached C E n l w) (hn : n < 2 ^ 62) {x : Nat} {c : AuthCall}
    {stamp : Time} {salt : Nat} (hs : (AStep.call x c stamp salt : AStep Q).Ok w) {t : Tok} (ht : t ∈ c.toks) {ctx : Ctx}
    (ha : authorize w.now t w.kv = .ok ctx) : HasShown C E x ctx.accountId l w := by
  obtain ⟨acc, -, h2, -⟩ := authorize_ok (h.inv hn) ha
  rw [h2]
  exact C98_origin h hn (hs.2 t ht)

/-! ## C99 -/

theorem step_change {n : Nat} {l : List (AStep Q)} {w : World} (h : Reached C E n l w) (hn : n < 2 ^ 62) {who : Nat} {c : AuthCall}
    {stamp : Time} {salt : Nat} (hs : (AStep.call who c stamp salt : AStep Q).Ok w) (a : Nat) :
    Change C stamp salt w.kv (w.step C E (.call who c stamp salt)).kv a c ∧
      lastId w.kv (.top .accounts) ≤ lastId (w.step C E (.call who c stamp salt)).kv (.top .accounts) ∧
      (a ≤ lastId w.kv (.top .accounts) → accountsC.live w.kv a = none →
        accountsC.live (w.step C E (.call who c stamp salt)).kv a = none) :=
  (run_effect (C := C) (E := E) (now := w.now) (stamp := stamp) (salt := salt) (c := c) (h.inv hn)).change (h.inv hn) (h.room hn) hs.1 a

/-- Whoever made the step has the right to change the password of account `a`, stored as `x`, to `new`. -/
inductive MayChangePassword (C : AuthEnv) (w : World) (a : Nat) (x : Account) (new : Str) : AStep Q → Nat → Prop
  /-- The account itself, knowing the old password. -/
  | known {who : Nat} {t : Tok} {pw : Str} {stamp : Time} {salt : Nat} : t ∈ w.held who → t.account = a →
      C.check pw x.passwordHash = true → C.strong new [] = true →
      MayChangePassword C w a x new (.call who (.updatePassword t pw new) stamp salt) salt
  /-- The account itself, asked to set a new one. -/
  | forced {who : Nat} {t : Tok} {stamp : Time} {salt : Nat} : t ∈ w.held who → t.account = a →
      x.forceUpdatePassword = true → C.strong new [] = true →
      MayChangePassword C w a x new (.call who (.setPassword t new) stamp salt) salt
  /-- An administrator. -/
  | admin {who : Nat} {t : Tok} {q : AccountUpd} {adm : Account} {stamp : Time} {salt : Nat} : t ∈ w.held who →
      accountsC.live w.kv t.account = some adm → adm.role = some .admin →
      MayChangePassword C w a x new (.call who (.adminUpdate t a (some new) q) stamp salt) salt

/-- C99: the stored password of an account changes only by its holder, knowing the old password or asked for a new one, or
by an administrator. -/
theorem C99_password {n : Nat} {l : List (AStep Q)} {w : World} (h : Reached C E n l w) (hn : n < 2 ^ 62) {s : AStep Q} (hs : s.Ok w)
    {a : Nat} {x y : Account} (hx : accountsC.live w.kv a = some x) (hy : accountsC.live (w.step C E s).kv a = some y)
    (hne : y.passwordHash ≠ x.passwordHash) :
    ∃ new salt, y.passwordHash = C.hash new salt ∧ MayChangePassword C w a x new s salt := by
  cases s with
  | tick d => rw [show (w.step C E (.tick d)).kv = w.kv from rfl, hx] at hy; cases hy; exact absurd rfl hne
  | other r =>
    obtain ⟨y', h1, h2⟩ := (exec_keeps E hs.1 hs.2 (h.inv hn)).some a x hx
    rw [show (w.step C E (.other r)).kv = r.exec E w.kv from rfl, h1] at hy
    cases hy
    exact absurd h2.hash hne
  | call who c stamp salt =>
    cases (step_change h hn hs a).1 with
    | same e => rw [e, hx] at hy; cases hy; exact absurd rfl hne
    | signUp _ _ e _ => rw [e] at hx; cases hx
    | adminCreate _ _ e _ => rw [e] at hx; cases hx
    | adminDelete _ _ e => rw [e] at hy; cases hy
    | @self _ t acc q h1 h2 h3 h4 h5 =>
      rw [hx] at h3; cases h3
      rw [hy] at h5; injection h5 with h5; subst h5
      have hw := hs.2 t h1
      cases h4 with
      | name => exact absurd rfl hne
      | email => exact absurd rfl hne
      | setEmail => exact absurd rfl hne
      | @password _ pw new _ g1 g2 =>
        simp only [AuthCall.toks, List.mem_cons, List.not_mem_nil, or_false] at h1
        subst h1
        exact ⟨new, salt, rfl, .known hw h2 g1 g2⟩
      | @setPassword _ new _ g1 g2 =>
        simp only [AuthCall.toks, List.mem_cons, List.not_mem_nil, or_false] at h1
        subst h1
        exact ⟨new, salt, rfl, .forced hw h2 g1 g2⟩
    | @adminUpdate t pw q adm acc h1 h2 h3 h4 =>
      rw [hx] at h3; cases h3
      rw [hy] at h4; injection h4 with h4; subst h4
      cases pw with
      | none => exact absurd rfl hne
      | some p => exact ⟨p, salt, rfl, .admin (hs.2 t (by simp [AuthCall.toks])) h1 h2⟩

/-- Whoever made the step has the right to change the address of account `a`, stored as `x`, to `new`. -/
inductive MayChangeEmail (C : AuthEnv) (w : World) (a : Nat) (x : Account) (new : Str) : AStep Q → Prop
  | known {who : Nat} {t : Tok} {pw : Str} {stamp : Time} {salt : Nat} : t ∈ w.held who → t.account = a →
      C.check pw x.passwordHash = true → C.email new = true →
      MayChangeEmail C w a x new (.call who (.updateEmail t new pw) stamp salt)
  | forced {who : Nat} {t : Tok} {stamp : Time} {salt : Nat} : t ∈ w.held who → t.account = a →
      x.forceUpdateEmail = true → MayChangeEmail C w a x new (.call who (.setEmail t new) stamp salt)
  | admin {who : Nat} {t : Tok} {p : Option Str} {q : AccountUpd} {adm : Account} {stamp : Time} {salt : Nat} : t ∈ w.held who →
      accountsC.live w.kv t.account = some adm → adm.role = some .admin → q.email = some new →
      MayChangeEmail C w a x new (.call who (.adminUpdate t a p q) stamp salt)

/-- C99: so does its address. -/
theorem C99_email {n : Nat} {l : List (AStep Q)} {w : World} (h : Reached C E n l w) (hn : n < 2 ^ 62) {s : AStep Q} (hs : s.Ok w)
    {a : Nat} {x y : Account} (hx : accountsC.live w.kv a = some x) (hy : accountsC.live (w.step C E s).kv a = some y)
    (hne : y.email ≠ x.email) : MayChangeEmail C w a x y.email s := by
  cases s with
  | tick d => rw [show (w.step C E (.tick d)).kv = w.kv from rfl, hx] at hy; cases hy; exact absurd rfl hne
  | other r =>
    obtain ⟨y', h1, h2⟩ := (exec_keeps E hs.1 hs.2 (h.inv hn)).some a x hx
    rw [show (w.step C E (.other r)).kv = r.exec E w.kv from rfl, h1] at hy
    cases hy
    exact absurd h2.email hne
  | call who c stamp salt =>
    cases (step_change h hn hs a).1 with
    | same e => rw [e, hx] at hy; cases hy; exact absurd rfl hne
    | signUp _ _ e _ => rw [e] at hx; cases hx
    | adminCreate _ _ e _ => rw [e] at hx; cases hx
    | adminDelete _ _ e => rw [e] at hy; cases hy
    | @self _ t acc q h1 h2 h3 h4 h5 =>
      rw [hx] at h3; cases h3
      rw [hy] at h5; injection h5 with h5; subst h5
      have hw := hs.2 t h1
      cases h4 with
      | name => exact absurd rfl hne
      | password => exact absurd rfl hne
      | setPassword => exact absurd rfl hne
      | @email _ e pw _ g1 g2 =>
        simp only [AuthCall.toks, List.mem_cons, List.not_mem_nil, or_false] at h1
        subst h1
        exact .known hw h2 g2 g1
      | @setEmail _ e _ g1 =>
        simp only [AuthCall.toks, List.mem_cons, List.not_mem_nil, or_false] at h1
        subst h1
        exact .forced hw h2 g1
    | @adminUpdate t pw q adm acc h1 h2 h3 h4 =>
      rw [hx] at h3; cases h3
      rw [hy] at h4; injection h4 with h4; subst h4
      refine .admin (hs.2 t (by simp [AuthCall.toks])) h1 h2 ?_
      cases hq : q.email with
      | none =>
        exfalso; apply hne
        show (adminUpd C salt t.account pw q).email.getD x.email = x.email
        rw [show (adminUpd C salt t.account pw q).email = q.email from rfl, hq]; rfl
      | some e =>
        show some e = some ((adminUpd C salt t.account pw q).email.getD x.email)
        rw [show (adminUpd C salt t.account pw q).email = q.email from rfl, hq]; rfl

/-- C99, with C98: whoever changes a password has shown that the account is theirs, or that an administrator's is. -/
theorem C99_password_shown {n : Nat} {l : List (AStep Q)} {w : World} (h : Reached C E n l w) (hn : n < 2 ^ 62) {s : AStep Q}
    (hs : s.Ok w) {a : Nat} {x y : Account} (hx : accountsC.live w.kv a = some x) (hy : accountsC.live (w.step C E s).kv a = some y)
    (hne : y.passwordHash ≠ x.passwordHash) :
    ∃ who c stamp salt, s = .call who c stamp salt ∧ (HasShown C E who a l w ∨
      ∃ b adm, accountsC.live w.kv b = some adm ∧ adm.role = some .admin ∧ HasShown C E who b l w) := by
  obtain ⟨new, salt, -, hm⟩ := C99_password h hn hs hx hy hne
  cases hm with
  | known h1 h2 h3 h4 => exact ⟨_, _, _, _, rfl, .inl (h2 ▸ C98_origin h hn h1)⟩
  | forced h1 h2 h3 h4 => exact ⟨_, _, _, _, rfl, .inl (h2 ▸ C98_origin h hn h1)⟩
  | admin h1 h2 h3 => exact ⟨_, _, _, _, rfl, .inr ⟨_, _, h2, h3, C98_origin h hn h1⟩⟩

/-- C99: with hashes that verify for their own password only, an account logs in with the password its hash was made
from and no other. -/
theorem C99_login (hC : C.Ok) {n : Nat} {l : List (AStep Q)} {w : World} (h : Reached C E n l w) (hn : n < 2 ^ 62) {a : Nat} {acc : Account}
    (ha : accountsC.live w.kv a = some acc) {p : Str} {salt : Nat} (hp : acc.passwordHash = C.hash p salt)
    (he : C.email acc.email = true) (pw : Str) (o : Option Nat) (now : Int) :
    logIn C now acc.email pw o w.kv = .error .credentials ↔ pw ≠ p := by
  have hi := h.inv hn
  have hg : accountsC.getBy .email acc.email w.kv = .ok acc := by
    cases hx : accountsC.getBy .email acc.email w.kv with
    | error e =>
      rcases (getBy_eq hi (i := (.email, fun a => some a.email)) (by simp [accountsC]) acc.email _).mp hx with ⟨id, r, -, -, hr⟩ | ⟨hno, -⟩
      · cases hr
      · exact absurd rfl (hno a acc ha)
    | ok r =>
      rw [(getBy_eq hi (i := (.email, fun a => some a.email)) (by simp [accountsC]) acc.email (.ok acc)).mpr
        (.inl ⟨a, acc, ha, rfl, rfl⟩)] at hx
      exact hx.symm
  unfold logIn
  rw [if_neg (by simp [he]), hg]
  dsimp only
  rw [hp, hC pw p salt]
  by_cases hpw : pw = p
  · rw [if_neg (by simp [hpw])]
    simp only [hpw, ne_eq, not_true_eq_false, iff_false]
    intro hh
    split at hh
    · cases hh
    · unfold makeTokens at hh
      split at hh <;> cases hh
  · rw [if_pos (by simp [hpw])]
    simp [hpw]

/-! ## C100 -/

theorem gone_step {n : Nat} {l : List (AStep Q)} {w : World} (h : Reached C E n l w) (hn : n < 2 ^ 62) {s : AStep Q} (hs : s.Ok w) {a : Nat}
    (ha : a ≤ lastId w.kv (.top .accounts)) (hl : accountsC.live w.kv a = none) :
    a ≤ lastId (w.step C E s).kv (.top .accounts) ∧ accountsC.live (w.step C E s).kv a = none := by
  cases s with
  | tick d => exact ⟨ha, hl⟩
  | other r =>
    have hk := exec_keeps E hs.1 hs.2 (h.inv hn)
    exact ⟨by have := hk.last; rw [show (w.step C E (.other r)).kv = r.exec E w.kv from rfl]; omega, hk.none a hl⟩
  | call who c stamp salt =>
    obtain ⟨-, h2, h3⟩ := step_change h hn hs a
    exact ⟨by omega, h3 ha hl⟩

/-- C100: once an account that existed is gone, none of its tokens is accepted again, whatever happens next. -/
theorem C100_revoked {n : Nat} {l : List (AStep Q)} {w : World} (h : Reached C E n l w) {s : AStep Q} (hs : s.Ok w)
    {a : Nat} {x : Account} (hx : accountsC.live w.kv a = some x) (hd : accountsC.live (w.step C E s).kv a = none)
    {l' : List (AStep Q)} (hl : AllOk C E (w.step C E s) l') (hn : n + 1 + l'.length < 2 ^ 62) {t : Tok} (ht : t.account = a) (ctx : Ctx) :
    authorize ((w.step C E s).after C E l').now t ((w.step C E s).after C E l').kv ≠ .ok ctx := by
  have hi := h.inv (by omega)
  have ha : a ≤ lastId w.kv (.top .accounts) := (Inv.live_id hi hx).2.2.1
  have ha' : a ≤ lastId (w.step C E s).kv (.top .accounts) := by
    cases s with
    | tick d => exact ha
    | other r =>
      have hk := exec_keeps E hs.1 hs.2 hi
      have := hk.last
      rw [show (w.step C E (.other r)).kv = r.exec E w.kv from rfl]; omega
    | call who c stamp salt =>
      obtain ⟨-, h2, -⟩ := step_change h (by omega) hs a
      omega
  have h1 := Reached.step s h hs
  generalize w.step C E s = w1 at *
  generalize hm : n + 1 = m at *
  clear hm hx hs h ha hi
  generalize l ++ [s] = l0 at *
  induction l' generalizing w1 m l0 with
  | nil =>
    intro hc
    obtain ⟨acc, g, -⟩ := authorize_ok (h1.inv (by simp at hn; omega)) hc
    change accountsC.live w1.kv t.account = some acc at g
    rw [ht, hd] at g
    cases g
  | cons s' l' ih =>
    rw [List.length_cons] at hn
    obtain ⟨g1, g2⟩ := gone_step h1 (by omega) hl.1 ha' hd
    exact ih (w1.step C E s') g2 hl.2 g1 (m + 1) (by omega) _ (Reached.step s' h1 hl.1)

/-- C100: an administrator's request removes the account. -/
theorem C100_delete {n : Nat} {l : List (AStep Q)} {w : World} (h : Reached C E n l w) (hn : n < 2 ^ 62) {t : Tok} {a : Nat} {ts : List Tok}
    (hr : (adminDelete w.now t a w.kv).1 = .ok ts) : accountsC.live (adminDelete w.now t a w.kv).2 a = none := by
  unfold adminDelete at hr ⊢
  split at hr
  · cases hr
  · rename_i ctx hc
    split at hr
    · cases hr
    · rename_i hp
      rw [if_neg hp, reply_kv]
      have := (delete_exec (E := exEnv) (id := a) (h.inv hn)).2 a
      rw [if_pos rfl] at this
      exact this

/-! ## C104 -/

/-- C104: an account has the administrator role after a step only if it had it before, or an administrator has just made it. -/
theorem C104_admin {n : Nat} {l : List (AStep Q)} {w : World} (h : Reached C E n l w) (hn : n < 2 ^ 62) {s : AStep Q} (hs : s.Ok w)
    {a : Nat} {y : Account} (hy : accountsC.live (w.step C E s).kv a = some y) (hr : y.role = some .admin) :
    (∃ x, accountsC.live w.kv a = some x ∧ x.role = some .admin) ∨
    accountsC.live w.kv a = none ∧ ∃ who t pw r stamp salt adm, s = .call who (.adminCreate t pw r) stamp salt ∧ r.role = some .admin ∧
      accountsC.live w.kv t.account = some adm ∧ adm.role = some .admin ∧ HasShown C E who t.account l w := by
  cases s with
  | tick d => exact .inl ⟨y, hy, hr⟩
  | other r =>
    have hk := exec_keeps E hs.1 hs.2 (h.inv hn)
    rw [show (w.step C E (.other r)).kv = r.exec E w.kv from rfl] at hy
    cases hx : accountsC.live w.kv a with
    | none => rw [hk.none a hx] at hy; cases hy
    | some x =>
      obtain ⟨y', h1, h2⟩ := hk.some a x hx
      rw [h1] at hy; cases hy
      exact .inl ⟨x, rfl, h2.role ▸ hr⟩
  | call who c stamp salt =>
    cases (step_change h hn hs a).1 with
    | same e => exact .inl ⟨y, e ▸ hy, hr⟩
    | signUp _ _ _ e => rw [hy] at e; cases e; cases hr
    | @adminCreate t pw r adm h1 h2 h3 h4 =>
      rw [hy] at h4; cases h4
      exact .inr ⟨h3, who, t, pw, r, stamp, salt, adm, rfl, hr, h1, h2, C98_origin h hn (hs.2 t (by simp [AuthCall.toks]))⟩
    | adminDelete _ _ e => rw [e] at hy; cases hy
    | @self _ t acc q h1 h2 h3 h4 h5 =>
      rw [hy] at h5; cases h5
      exact .inl ⟨acc, h3, by cases h4 <;> exact hr⟩
    | @adminUpdate t pw q adm acc h1 h2 h3 h4 =>
      rw [hy] at h4; cases h4
      exact .inl ⟨acc, h3, hr⟩

/-- C104: without an administrator there never is one. -/
theorem C104_none {n : Nat} {l : List (AStep Q)} {w : World} (h : Reached C E n l w) (hn : n < 2 ^ 62) {s : AStep Q} (hs : s.Ok w)
    (hno : ∀ a x, accountsC.live w.kv a = some x → x.role ≠ some .admin) :
    ∀ a x, accountsC.live (w.step C E s).kv a = some x → x.role ≠ some .admin := by
  intro a y hy hr
  rcases C104_admin h hn hs hy hr with ⟨x, h1, h2⟩ | ⟨-, who, t, pw, r, stamp, salt, adm, -, -, h1, h2, -⟩
  · exact hno a x h1 h2
  · exact hno _ adm h1 h2

/-! ## C101 -/

/-- C101, logging in: the organization of the tokens has the account as a member, or is 0, which no organization has. -/
theorem C101_login_partial {n : Nat} {l : List (AStep Q)} {w : World} (h : Reached C E n l w) (hn : n < 2 ^ 62) {e pw : Str} {o : Option Nat}
    {ts : List Tok} (hr : logIn C w.now e pw o w.kv = .ok ts) {t : Tok} (ht : t ∈ ts) {g : Nat} (hg : t.org = some g) :
    g = 0 ∨ ∃ r, orgsC.live w.kv g = some r ∧ ∃ role, (t.account, role) ∈ r.members := by
  obtain ⟨m, hm, hh⟩ := h.hist hn
  have hi := (hist_orgs hh (by omega)).inv orgs_ok
  unfold logIn at hr
  split at hr
  · cases hr
  · split at hr
    · cases hr
    · rename_i acc ha
      split at hr
      · cases hr
      · split at hr
        · cases hr
        · rename_i g' ho
          have hacc := makeTokens_account hr t ht
          have hgg : g = g' := by
            unfold makeTokens at hr
            split at hr
            · cases hr
            · injection hr with hr
              subst hr
              simp only [List.mem_cons, List.not_mem_nil, or_false] at ht
              rcases ht with rfl | rfl
              · injection hg with hg; exact hg.symm
              · cases hg
          subst hgg
          have mem : ∀ r : Org, inOrg acc.id r.members = true → ∃ role, (t.account, role) ∈ r.members := by
            intro r hr
            unfold inOrg at hr
            rw [List.any_eq_true] at hr
            obtain ⟨⟨i, role⟩, h1, h2⟩ := hr
            simp only [beq_iff_eq] at h2
            exact ⟨role, by rw [hacc, ← h2]; exact h1⟩
          unfold loginOrg at ho
          cases o with
          | some o =>
            dsimp only at ho
            rw [getById_eq hi] at ho
            cases hl : orgsC.live w.kv o with
            | none => rw [hl] at ho; cases ho
            | some r =>
              rw [hl] at ho
              change Except.ok (if inOrg acc.id r.members then r.id else 0) = Except.ok g at ho
              injection ho with ho
              by_cases hin : inOrg acc.id r.members = true
              · rw [if_pos hin] at ho
                have hid : r.id = o := (Inv.live_id hi hl).1
                rw [hid] at ho
                subst ho
                exact .inr ⟨r, hl, mem r hin⟩
              · rw [if_neg hin] at ho; exact .inl ho.symm
          | none =>
            dsimp only at ho
            obtain ⟨rs, e1, e2, -⟩ := list_spec hh.clean hi
            rw [e1] at ho
            change Except.ok (match rs.find? fun r => inOrg acc.id r.members with | some r => r.id | none => 0) = Except.ok g at ho
            injection ho with ho
            cases hf : rs.find? fun r => inOrg acc.id r.members with
            | none => rw [hf] at ho; exact .inl ho.symm
            | some r =>
              rw [hf] at ho
              change r.id = g at ho
              obtain ⟨id, hl⟩ := (e2 r).mp (List.mem_of_find?_eq_some hf)
              have hid : r.id = id := (Inv.live_id hi hl).1
              have : id = g := hid.symm.trans ho
              subst this
              exact .inr ⟨r, hl, mem r (List.find?_some (p := fun r : Org => inOrg acc.id r.members) hf)⟩

/-- C101, switching: only administrators and owners of the organization named. -/
theorem C101_switch_partial {n : Nat} {l : List (AStep Q)} {w : World} (h : Reached C E n l w) (hn : n < 2 ^ 62) {t : Tok} {o : Nat} {ts : List Tok}
    (hr : switchOrganization C w.now t o w.kv = .ok ts) :
    ∃ acc, accountsC.live w.kv t.account = some acc ∧ (acc.role = some .admin ∨ HasRole acc.organizations o .owner) := by
  unfold switchOrganization at hr
  split at hr
  · cases hr
  · rename_i ctx hc
    obtain ⟨acc, h1, h2, -, h4, h5, -⟩ := authorize_ok (h.inv hn) hc
    split at hr
    · cases hr
    · rename_i hp
      refine ⟨acc, h1, ?_⟩
      have hp' : ctx.checkOrg o .viewOrganization = true := by simpa [OrgOp.allowed, OrgOp.perm] using hp
      rw [C42_organization, h4, h5] at hp'
      rcases hp' with hp' | ⟨r, h6, h7⟩
      · exact .inl hp'
      · cases h7; exact .inr h6

/-! ## C102 -/

/-- C102, what refreshing takes: a valid access token of a live account and a valid refresh token of any account. -/
theorem C102_refresh_partial {kv : Kv} (hi : accountsC.Inv Account.Valid kv) {now : Int} {s : Settings} (hs : loadSettings kv = .ok s)
    (a r : Tok) : (∃ ts, refresh C now a r kv = .ok ts) ↔
      (a.key = s.accessToken ∧ now - 60 ≤ a.exp ∧ a.org.isSome = true ∧ (accountsC.live kv a.account).isSome = true) ∧
      r.key = s.refreshToken ∧ now - 60 ≤ r.exp := by
  have hval : ∀ (t : Tok) (k : Str), t.valid k now = true ↔ t.key = k ∧ now - 60 ≤ t.exp := by
    intro t k
    unfold Tok.valid leeway
    simp only [Bool.and_eq_true, decide_eq_true_eq, Bool.not_eq_true', decide_eq_false_iff_not, Int.not_lt]
  unfold refresh authorize parseAccess parseRefresh
  rw [hs]
  dsimp only
  constructor
  · rintro ⟨ts, h⟩
    by_cases hv : a.valid s.accessToken now = true
    · rw [if_pos hv] at h
      cases ho : a.org with
      | none => rw [ho] at h; cases h
      | some o =>
        rw [ho] at h
        dsimp only [Option.map] at h
        unfold contextOf at h
        rw [getById_eq hi] at h
        cases hl : accountsC.live kv a.account with
        | none => rw [hl] at h; cases h
        | some acc =>
          rw [hl] at h
          dsimp only at h
          by_cases hr : r.valid s.refreshToken now = true
          · obtain ⟨h1, h2⟩ := (hval _ _).mp hv
            exact ⟨⟨h1, h2, rfl, rfl⟩, (hval _ _).mp hr⟩
          · rw [if_neg hr] at h; cases h
    · rw [if_neg hv] at h; cases h
  · rintro ⟨⟨h1, h2, h3, h4⟩, h5⟩
    obtain ⟨o, ho⟩ := Option.isSome_iff_exists.mp h3
    obtain ⟨acc, hl⟩ := Option.isSome_iff_exists.mp h4
    rw [if_pos ((hval _ _).mpr ⟨h1, h2⟩), ho]
    dsimp only [Option.map]
    unfold contextOf
    rw [getById_eq hi, hl]
    dsimp only
    rw [if_pos ((hval _ _).mpr h5)]
    unfold makeTokens
    dsimp only
    rw [hs]
    exact ⟨_, rfl⟩

/-- C102 fails: once the access token has expired its refresh token is of no use, however long it is valid. -/
theorem C102_expired_violated {kv : Kv} {now : Int} {a r : Tok} (h : a.exp < now - 60) (ts : List Tok) : refresh C now a r kv ≠ .ok ts := by
  intro hr
  unfold refresh authorize parseAccess at hr
  cases hs : loadSettings kv with
  | error e => rw [hs] at hr; cases hr
  | ok s =>
    rw [hs] at hr
    dsimp only at hr
    rw [if_neg (by
      unfold Tok.valid leeway
      simp only [Bool.and_eq_true, decide_eq_true_eq, Bool.not_eq_true', decide_eq_false_iff_not, Int.not_lt]
      omega)] at hr
    cases hr

/-! ## Concrete histories -/


theorem Reached.run {n : Nat} {l : List (AStep Q)} {w : World} (h : Reached C E n l w) (l' : List (AStep Q)) (ho : AllOk C E w l') :
    Reached C E (n + l'.length) (l ++ l') (w.after C E l') := by
  induction l' generalizing n l w with
  | nil => simpa [World.after] using h
  | cons s l' ih =>
    have := ih (h.step s ho.1) ho.2
    rw [List.append_assoc, Nat.add_assoc, Nat.add_comm 1] at this
    exact this

/-- Hashes are the passwords; anything not empty is an address; three characters are strong. -/
def exAuth : AuthEnv := ⟨fun p _ => p, fun p h => decide (p = h), fun e => !e.isEmpty, fun p _ => decide (3 ≤ p.length), 3600, 86400⟩

theorem exAuth_ok : exAuth.Ok := fun _ _ _ => rfl

/-- Settings, an administrator (account 1) with an organization, and account 2, a member of it. -/
def exStore : List (Req Unit) :=
  [.settings sampleSettings,
   .accountCreate ⟨0, 0⟩ { Meta.exAcc "root".toList none with passwordHash := "rootpw".toList, role := some .admin },
   .accountCreate ⟨0, 0⟩ { Meta.exAcc "b".toList none with passwordHash := "bbb".toList, forceUpdateEmail := true },
   .orgCreate ⟨0, 0⟩ 1 "org".toList, .addMember 1 2 .member]

theorem exStore_ok : ∀ r ∈ exStore, r.Ok := by
  intro r hr
  simp only [exStore, List.mem_cons, List.not_mem_nil, or_false] at hr
  rcases hr with rfl | rfl | rfl | rfl | rfl
  · exact trivial
  · exact ⟨by show (1 : Nat) < 2 ^ 64; decide, by simp [Meta.exAcc], by simp [Meta.exAcc], by simp [Meta.exAcc]⟩
  · exact ⟨by show (1 : Nat) < 2 ^ 64; decide, by simp [Meta.exAcc], by simp [Meta.exAcc], by simp [Meta.exAcc]⟩
  · show (1 : Nat) < 2 ^ 64; decide
  · exact ⟨by decide, by decide⟩

def exWorld : World := ⟨runReqs exEnv exStore [], 0, fun _ => []⟩

theorem exWorld_reached : Reached exAuth exEnv 5 [] exWorld := .start (Hist.of_run exEnv exStore exStore_ok)

/-- Person 8 logs in to account 2. -/
def exIn (who : Nat) : AStep Unit := .call who (.logIn "b".toList "bbb".toList none) ⟨0, 0⟩ 0

def exAcc2 : Tok := ⟨"aaaa".toList, 3600, 2, some 1⟩
def exRef2 : Tok := ⟨"bbbb".toList, 86400, 2, none⟩

/-- Hypothesis of `C102_expired_violated`: after an hour and two minutes, with a refresh token valid for a day. -/
example : exAcc2.exp < 3720 - 60 ∧ exRef2.valid "bbbb".toList 3720 = true ∧
    (refresh exAuth 3720 exAcc2 exRef2 exWorld.kv).toOption = none ∧ (refresh exAuth 3600 exAcc2 exRef2 exWorld.kv).toOption.isSome = true :=
  ⟨by decide, by decide +kernel, by decide +kernel, by decide +kernel⟩

/-- Person 8 logs in to account 2, changes its password and leaves. -/
def exChange : List (AStep Unit) := [exIn 8, .call 8 (.updatePassword exAcc2 "bbb".toList "better".toList) ⟨1, 0⟩ 0]

theorem exChange_ok : AllOk exAuth exEnv exWorld exChange := ⟨⟨trivial, by decide +kernel⟩, ⟨trivial, by decide +kernel⟩, trivial⟩

/-- Hypotheses of C98 and C99: a token is held, and a password changes. -/
example : Reached exAuth exEnv 7 exChange (exWorld.after exAuth exEnv exChange) ∧
    exAcc2 ∈ (exWorld.after exAuth exEnv exChange).held 8 ∧
    (accountsC.live exWorld.kv 2).map (·.passwordHash) = some "bbb".toList ∧
    (accountsC.live (exWorld.after exAuth exEnv exChange).kv 2).map (·.passwordHash) = some "better".toList :=
  ⟨exWorld_reached.run _ exChange_ok, by decide +kernel, by decide +kernel, by decide +kernel⟩

/-- Hypotheses of C100: the administrator deletes account 2 while person 8 holds tokens for it, which were accepted. -/
def exDelete : List (AStep Unit) :=
  [exIn 8, .call 7 (.logIn "root".toList "rootpw".toList none) ⟨0, 0⟩ 0,
   .call 7 (.adminDelete ⟨"aaaa".toList, 3600, 1, some 1⟩ 2) ⟨0, 0⟩ 0]

example : AllOk exAuth exEnv exWorld exDelete ∧
    (authorize 0 exAcc2 (exWorld.after exAuth exEnv (exDelete.take 2)).kv).toOption.isSome = true ∧
    (accountsC.live (exWorld.after exAuth exEnv (exDelete.take 2)).kv 2).isSome = true ∧
    (accountsC.live (exWorld.after exAuth exEnv exDelete).kv 2).isNone = true :=
  ⟨⟨⟨trivial, by decide +kernel⟩, ⟨trivial, by decide +kernel⟩, ⟨trivial, by decide +kernel⟩, trivial⟩,
    by decide +kernel, by decide +kernel, by decide +kernel⟩

/-- Hypotheses of C104: the administrator makes another. -/
example : (accountsC.live (exWorld.after exAuth exEnv [.call 7 (.logIn "root".toList "rootpw".toList none) ⟨0, 0⟩ 0,
    .call 7 (.adminCreate ⟨"aaaa".toList, 3600, 1, some 1⟩ "pw".toList { Meta.exAcc "c".toList none with role := some .admin }) ⟨0, 0⟩ 0]).kv 3).map
    (·.role) = some (some .admin) := by decide +kernel

/-! ## Where C101, C105 fail -/

/-- Account 3 is made; its refresh token with the access token of account 2 gives account 3 a token for organization 1. -/
def exMix : List (AStep Unit) :=
  [exIn 8, .call 8 (.signUp "c".toList "ccc".toList none) ⟨0, 0⟩ 0, .call 8 (.refresh exAcc2 ⟨"bbbb".toList, 86400, 3, none⟩) ⟨0, 0⟩ 0]

/-- C101 fails: an access token for an organization its account was never a member of. -/
theorem C101_refresh_violated : ∃ w, Reached exAuth exEnv 8 exMix w ∧ ∃ t ∈ w.held 8, t.account = 3 ∧ t.org = some 1 ∧
    (∃ ctx, authorize w.now t w.kv = .ok ctx) ∧ (orgsC.live w.kv 1).map (fun r => r.members.map (·.1)) = some [1, 2] := by
  refine ⟨exWorld.after exAuth exEnv exMix, exWorld_reached.run exMix
    ⟨⟨trivial, by decide +kernel⟩, ⟨trivial, by decide +kernel⟩, ⟨trivial, by decide +kernel⟩, trivial⟩,
    ⟨"aaaa".toList, 3600, 3, some 1⟩, by decide +kernel, rfl, rfl, ?_, by decide +kernel⟩
  exact ⟨⟨3, 1, none, none, none⟩, by decide +kernel⟩

/-- Account 2 leaves the organization and refreshes its tokens. -/
def exLeave : List (AStep Unit) :=
  [exIn 8, .other (.removeMember 1 2), .tick 10, .call 8 (.refresh exAcc2 exRef2) ⟨0, 0⟩ 0]

/-- C101 fails: a token made for an organization after the account has left it. -/
theorem C101_left_violated : ∃ w, Reached exAuth exEnv 9 exLeave w ∧ (∃ t ∈ w.held 8, t.account = 2 ∧ t.org = some 1 ∧ t.exp = 3610) ∧
    (orgsC.live w.kv 1).map (fun r => r.members.map (·.1)) = some [1] := by
  refine ⟨exWorld.after exAuth exEnv exLeave, exWorld_reached.run exLeave
    ⟨⟨trivial, by decide +kernel⟩, ⟨trivial, trivial⟩, trivial, ⟨trivial, by decide +kernel⟩, trivial⟩,
    ⟨⟨"aaaa".toList, 3610, 2, some 1⟩, by decide +kernel, rfl, rfl, rfl⟩, by decide +kernel⟩

/-- A member who is not an owner cannot switch to the organization, though logging in may choose it. -/
theorem C101_member_switch_violated : ∃ w, Reached exAuth exEnv 6 [exIn 8] w ∧ exAcc2 ∈ w.held 8 ∧
    (orgsC.live w.kv 1).map (fun r => r.members.map (·.1)) = some [1, 2] ∧
    switchOrganization exAuth w.now exAcc2 1 w.kv = .error .forbidden :=
  ⟨exWorld.after exAuth exEnv [exIn 8], exWorld_reached.run [exIn 8] ⟨⟨trivial, by decide +kernel⟩, trivial⟩,
    by decide +kernel, by decide +kernel, by decide +kernel⟩

/-- Person 9, who found out the password, logs in before person 8 changes it. -/
def exTheft : List (AStep Unit) := exIn 9 :: exChange

/-- C105 fails: changing the password does not end other sessions, and they can be prolonged. -/
theorem C105_session_violated : ∃ w, Reached exAuth exEnv 8 exTheft w ∧
    (accountsC.live exWorld.kv 2).map (·.passwordHash) = some "bbb".toList ∧
    (accountsC.live w.kv 2).map (·.passwordHash) = some "better".toList ∧
    exAcc2 ∈ w.held 9 ∧ exRef2 ∈ w.held 9 ∧ (∃ ctx, authorize w.now exAcc2 w.kv = .ok ctx ∧ ctx.accountId = 2) ∧
    ∃ ts, refresh exAuth w.now exAcc2 exRef2 w.kv = .ok ts := by
  refine ⟨exWorld.after exAuth exEnv exTheft, exWorld_reached.run exTheft
    ⟨⟨trivial, by decide +kernel⟩, ⟨trivial, by decide +kernel⟩, ⟨trivial, by decide +kernel⟩, trivial⟩,
    by decide +kernel, by decide +kernel, by decide +kernel, by decide +kernel, ?_, ?_⟩
  · exact ⟨⟨2, 1, none, some [(1, .member)], none⟩, by decide +kernel, rfl⟩
  · exact ⟨[exAcc2, exRef2], by decide +kernel⟩

/-- C105, what does end sessions: a new signing key. -/
theorem C105_keys_partial {kv : Kv} {s : Settings} (hs : s.Complete) {t : Tok}
    (hk : t.key ≠ s.accessToken) (now : Int) (ctx : Ctx) : authorize now t (runCall (saveSettings s) kv).2 ≠ .ok ctx := by
  intro h
  unfold authorize at h
  rw [C37_settings_partial s kv hs] at h
  dsimp only at h
  unfold parseAccess Tok.valid at h
  rw [if_neg (by simp [hk])] at h
  cases h

/-- An address that is none is stored by `set_email`, which does not check it (provider.rs 297-320). -/
theorem C99_set_email_unchecked : ∃ w, Reached exAuth exEnv 7 [exIn 8, .call 8 (.setEmail exAcc2 []) ⟨0, 0⟩ 0] w ∧
    exAuth.email [] = false ∧ (accountsC.live w.kv 2).map (·.email) = some [] :=
  ⟨exWorld.after exAuth exEnv [exIn 8, .call 8 (.setEmail exAcc2 []) ⟨0, 0⟩ 0],
    exWorld_reached.run [exIn 8, .call 8 (.setEmail exAcc2 []) ⟨0, 0⟩ 0]
    ⟨⟨trivial, by decide +kernel⟩, ⟨trivial, by decide +kernel⟩, trivial⟩, rfl, by decide +kernel⟩

end OptiPrism.Platform
