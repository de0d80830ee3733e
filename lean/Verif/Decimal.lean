/-!
# Decimal numbers in file names and keys

`format!("{}", n)` and `format!("{:016}", n)` for an unsigned `n`, and `str::parse::<u64>`, as
functions on character lists. Digits are produced most significant first, without leading zeros.
-/

namespace OptiPrism

/-- One decimal digit. -/
def digitChar (d : Nat) : Char := Char.ofNat (48 + d)

def digitVal? (c : Char) : Option Nat :=
  if 48 ≤ c.toNat ∧ c.toNat ≤ 57 then some (c.toNat - 48) else none

/-- `format!("{}", n)`: `fuel` bounds the number of digits; `decimal` gives enough. -/
def decimalAux : Nat → Nat → List Char
  | 0, _ => []
  | fuel + 1, n => if n < 10 then [digitChar n] else decimalAux fuel (n / 10) ++ [digitChar (n % 10)]

def decimal (n : Nat) : List Char := decimalAux (n + 1) n

/-- Value of a digit string. -/
def digitsVal? (acc : Nat) : List Char → Option Nat
  | [] => some acc
  | c :: cs =>
    match digitVal? c with
    | none => none
    | some d => digitsVal? (acc * 10 + d) cs

/-- `str::parse::<u64>`: an optional `+`, at least one digit, value below `2^64`. -/
def parseU64 (s : List Char) : Option Nat :=
  let s := match s with
    | '+' :: r => r
    | _ => s
  match s with
  | [] => none
  | _ =>
    match digitsVal? 0 s with
    | some v => if v < 2 ^ 64 then some v else none
    | none => none

/-- `format!("{:016}", n)`. -/
def decimal16 (n : Nat) : List Char :=
  let d := decimal n
  List.replicate (16 - d.length) '0' ++ d

theorem digitVal_digitChar {d : Nat} (h : d < 10) : digitVal? (digitChar d) = some d := by
  have : d = 0 ∨ d = 1 ∨ d = 2 ∨ d = 3 ∨ d = 4 ∨ d = 5 ∨ d = 6 ∨ d = 7 ∨ d = 8 ∨ d = 9 := by omega
  rcases this with rfl | rfl | rfl | rfl | rfl | rfl | rfl | rfl | rfl | rfl <;> decide

theorem digitsVal_append (acc : Nat) (a b : List Char) :
    digitsVal? acc (a ++ b) = (digitsVal? acc a).bind fun v => digitsVal? v b := by
  induction a generalizing acc with
  | nil => simp [digitsVal?]
  | cons c a ih =>
    simp only [List.cons_append, digitsVal?]
    cases digitVal? c with
    | none => simp
    | some d => simp only [ih]

theorem digitsVal_decimalAux (fuel n : Nat) (h : n < fuel) : digitsVal? 0 (decimalAux fuel n) = some n := by
  induction fuel generalizing n with
  | zero => omega
  | succ fuel ih =>
    unfold decimalAux
    split
    · rename_i h'
      simp [digitsVal?, digitVal_digitChar h']
    · rename_i h'
      rw [digitsVal_append, ih (n / 10) (by omega)]
      simp only [Option.bind_some, digitsVal?, digitVal_digitChar (show n % 10 < 10 by omega)]
      congr 1
      omega

theorem digitsVal_decimal (n : Nat) : digitsVal? 0 (decimal n) = some n :=
  digitsVal_decimalAux _ _ (by omega)

theorem decimal_inj {a b : Nat} (h : decimal a = decimal b) : a = b := by
  have := digitsVal_decimal a
  rw [h, digitsVal_decimal b] at this
  exact (Option.some.inj this).symm

theorem decimalAux_ne_nil (fuel n : Nat) : decimalAux (fuel + 1) n ≠ [] := by
  unfold decimalAux; split <;> simp

theorem decimal_ne_nil (n : Nat) : decimal n ≠ [] := decimalAux_ne_nil _ _

/-- Digits only. -/
def IsDigit (c : Char) : Prop := 48 ≤ c.toNat ∧ c.toNat ≤ 57

instance (c : Char) : Decidable (IsDigit c) := inferInstanceAs (Decidable (_ ∧ _))

theorem digitChar_isDigit {d : Nat} (h : d < 10) : IsDigit (digitChar d) := by
  have := digitVal_digitChar h
  unfold digitVal? at this
  split at this
  · assumption
  · cases this

theorem decimalAux_digits (fuel n : Nat) : ∀ c ∈ decimalAux fuel n, IsDigit c := by
  induction fuel generalizing n with
  | zero => simp [decimalAux]
  | succ fuel ih =>
    unfold decimalAux
    split
    · rename_i h'
      intro c hc
      simp at hc
      subst hc
      exact digitChar_isDigit h'
    · intro c hc
      rcases List.mem_append.mp hc with h | h
      · exact ih _ c h
      · simp at h
        subst h
        exact digitChar_isDigit (by omega)

theorem decimal_digits (n : Nat) : ∀ c ∈ decimal n, IsDigit c := decimalAux_digits _ _

theorem decimal16_digits (n : Nat) : ∀ c ∈ decimal16 n, IsDigit c := by
  intro c hc
  rcases List.mem_append.mp hc with h | h
  · rw [List.eq_of_mem_replicate h]; exact by decide
  · exact decimal_digits n c h

theorem digitsVal_zeros (k : Nat) (s : List Char) : digitsVal? 0 (List.replicate k '0' ++ s) = digitsVal? 0 s := by
  induction k with
  | zero => simp
  | succ k ih =>
    rw [List.replicate_succ, List.cons_append]
    have : digitVal? '0' = some 0 := by decide
    simp only [digitsVal?, this]
    exact ih

theorem digitsVal_decimal16 (n : Nat) : digitsVal? 0 (decimal16 n) = some n := by
  unfold decimal16
  rw [digitsVal_zeros, digitsVal_decimal]

theorem parse_digits {s : List Char} {n : Nat} (hd : ∀ c ∈ s, IsDigit c) (hne : s ≠ [])
    (hv : digitsVal? 0 s = some n) : parseU64 s = if n < 2 ^ 64 then some n else none := by
  cases s with
  | nil => exact absurd rfl hne
  | cons c s =>
    have hc : c ≠ '+' := by
      rintro rfl
      have := (hd '+' (by simp)).1
      revert this
      decide
    unfold parseU64
    have : (match c :: s with
      | '+' :: r => r
      | _ => c :: s) = c :: s := by
      split
      · rename_i h; injection h with h1 h2; exact absurd h1 hc
      · rfl
    simp only [this, hv]

theorem parse_decimal {n : Nat} (h : n < 2 ^ 64) : parseU64 (decimal n) = some n := by
  rw [parse_digits (decimal_digits n) (decimal_ne_nil n) (digitsVal_decimal n), if_pos h]

theorem parse_decimal16 {n : Nat} (h : n < 2 ^ 64) : parseU64 (decimal16 n) = some n := by
  rw [parse_digits (decimal16_digits n) (by simp [decimal16, decimal_ne_nil]) (digitsVal_decimal16 n), if_pos h]

/-- A digit is none of the separators used in names and keys. -/
theorem IsDigit.ne {c : Char} (h : IsDigit c) {d : Char} (hd : ¬ IsDigit d) : c ≠ d := by
  rintro rfl; exact hd h

/-! ### order of padded names -/

/-- Lexicographic order on strings. -/
def lexLt : List Char → List Char → Bool
  | [], [] => false
  | [], _ :: _ => true
  | _ :: _, [] => false
  | a :: as, b :: bs => if a.toNat < b.toNat then true else if b.toNat < a.toNat then false else lexLt as bs

theorem digitVal_isDigit {c : Char} (h : IsDigit c) : digitVal? c = some (c.toNat - 48) := by
  unfold digitVal?
  rw [if_pos (show 48 ≤ c.toNat ∧ c.toNat ≤ 57 from h)]

theorem digitsVal_split (s : List Char) (hd : ∀ c ∈ s, IsDigit c) (acc : Nat) :
    ∃ v, v < 10 ^ s.length ∧ digitsVal? acc s = some (acc * 10 ^ s.length + v) := by
  induction s generalizing acc with
  | nil => exact ⟨0, by simp, by simp [digitsVal?]⟩
  | cons c s ih =>
    have hc := hd c (by simp)
    obtain ⟨v, hv, he⟩ := ih (fun x hx => hd x (List.mem_cons_of_mem _ hx)) (acc * 10 + (c.toNat - 48))
    refine ⟨(c.toNat - 48) * 10 ^ s.length + v, ?_, ?_⟩
    · have : c.toNat - 48 ≤ 9 := by have := hc.2; omega
      have h2 : (c.toNat - 48) * 10 ^ s.length ≤ 9 * 10 ^ s.length := Nat.mul_le_mul_right _ this
      rw [List.length_cons, Nat.pow_succ]
      omega
    · simp only [digitsVal?, digitVal_isDigit hc, he, List.length_cons, Nat.pow_succ]
      congr 1
      rw [Nat.add_mul, Nat.mul_comm (10 ^ s.length) 10, Nat.mul_assoc, Nat.add_assoc]

/-- Equal-length digit strings are ordered like their values. -/
theorem lexLt_iff (a b : List Char) (hl : a.length = b.length) (ha : ∀ c ∈ a, IsDigit c)
    (hb : ∀ c ∈ b, IsDigit c) (acc x y : Nat) (hx : digitsVal? acc a = some x) (hy : digitsVal? acc b = some y) :
    lexLt a b = true ↔ x < y := by
  induction a generalizing b acc with
  | nil =>
    cases b with
    | nil => simp [digitsVal?] at hx hy; simp [lexLt]; omega
    | cons _ _ => simp at hl
  | cons c a ih =>
    cases b with
    | nil => simp at hl
    | cons d b =>
      have hc := ha c (by simp)
      have hd := hb d (by simp)
      have ha' : ∀ x ∈ a, IsDigit x := fun x hx => ha x (List.mem_cons_of_mem _ hx)
      have hb' : ∀ x ∈ b, IsDigit x := fun x hx => hb x (List.mem_cons_of_mem _ hx)
      simp only [digitsVal?, digitVal_isDigit hc] at hx
      simp only [digitsVal?, digitVal_isDigit hd] at hy
      simp only [List.length_cons, Nat.add_right_cancel_iff] at hl
      obtain ⟨v, hv, hev⟩ := digitsVal_split a ha' (acc * 10 + (c.toNat - 48))
      obtain ⟨w, hw, hew⟩ := digitsVal_split b hb' (acc * 10 + (d.toNat - 48))
      rw [hev] at hx
      rw [hew] at hy
      rw [hl] at hx hv hev
      simp only [Option.some.injEq] at hx hy
      have hc1 := hc.1
      have hd1 := hd.1
      simp only [lexLt]
      split
      · rename_i hlt
        have : (acc * 10 + (c.toNat - 48) + 1) * 10 ^ b.length ≤ (acc * 10 + (d.toNat - 48)) * 10 ^ b.length :=
          Nat.mul_le_mul_right _ (by omega)
        rw [Nat.add_mul _ 1] at this
        simp only [true_iff]
        omega
      · split
        · rename_i hlt
          have : (acc * 10 + (d.toNat - 48) + 1) * 10 ^ b.length ≤ (acc * 10 + (c.toNat - 48)) * 10 ^ b.length :=
            Nat.mul_le_mul_right _ (by omega)
          rw [Nat.add_mul _ 1] at this
          simp only [Bool.false_eq_true, false_iff]
          omega
        · have he : d.toNat = c.toNat := by omega
          rw [he] at hew hy
          exact ih b hl ha' hb' _ (by rw [hev, ← hx]) (by rw [hew, ← hy])

theorem decimalAux_length (fuel n k : Nat) (h : n < 10 ^ (k + 1)) : (decimalAux fuel n).length ≤ k + 1 := by
  induction fuel generalizing n k with
  | zero => simp [decimalAux]
  | succ fuel ih =>
    unfold decimalAux
    split
    · simp
    · rename_i h'
      cases k with
      | zero => simp at h; omega
      | succ k =>
        have := ih (n / 10) k (by rw [Nat.pow_succ] at h; omega)
        simp only [List.length_append, List.length_singleton]
        omega

theorem decimal16_length {n : Nat} (h : n < 10 ^ 16) : (decimal16 n).length = 16 := by
  have := decimalAux_length (n + 1) n 15 h
  unfold decimal16 decimal
  simp
  omega

/-- Names of sixteen digits are ordered like the numbers. -/
theorem decimal16_lt {a b : Nat} (ha : a < 10 ^ 16) (hb : b < 10 ^ 16) :
    lexLt (decimal16 a) (decimal16 b) = true ↔ a < b :=
  lexLt_iff _ _ (by rw [decimal16_length ha, decimal16_length hb]) (decimal16_digits a) (decimal16_digits b)
    0 a b (digitsVal_decimal16 a) (digitsVal_decimal16 b)

/-- From seventeen digits on the order of the names is not the order of the numbers. -/
theorem decimal16_lt_fails : lexLt (decimal16 (10 ^ 16)) (decimal16 (10 ^ 15 * 9)) = true := by
  decide +kernel

end OptiPrism
