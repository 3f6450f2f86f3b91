import Verif.Par.DbProps
import Mathlib.Data.Int.Log
import Mathlib.Data.Rat.Floor
import Mathlib.Tactic.Linarith
import Mathlib.Tactic.Ring
import Mathlib.Tactic.NormNum
import Mathlib.Tactic.Positivity
import Mathlib.Tactic.FieldSimp

/-!
# `double` parameters (C02)

`par_setd` writes a number with `sprintf("%.15e")`, `par_getd` reads it with `atof`.  Doubles are rational numbers;
`sprintf` and `atof` round correctly (to nearest, ties to even), as IEEE 754 asks.  Infinities, NaN, the sign of zero, overflow
and underflow are not modelled: the exponent is unbounded.
-/

namespace Athena.Par

/-- Nearest integer, ties to even. -/
def rhe (x : ℚ) : ℤ :=
  if x - ⌊x⌋ < 1/2 then ⌊x⌋ else if 1/2 < x - ⌊x⌋ then ⌊x⌋ + 1 else if ⌊x⌋ % 2 = 0 then ⌊x⌋ else ⌊x⌋ + 1

/-- `x` rounded to a multiple of `b^(e-p+1)`, where `b^e ≤ x < b^(e+1)`: to `p` significant digits in base `b`. -/
def roundTo (b : ℕ) (p : ℤ) (x : ℚ) : ℚ := rhe (x / (b : ℚ) ^ (Int.log b x - p + 1)) * (b : ℚ) ^ (Int.log b x - p + 1)

/-- Sign. -/
def sg (x : ℚ) : ℚ := if x < 0 then -1 else 1

/-- Nearest double. -/
def rnd (x : ℚ) : ℚ := if x = 0 then 0 else sg x * roundTo 2 53 |x|

/-- Finite doubles, with unbounded exponent. -/
def IsDouble (x : ℚ) : Prop := ∃ (m e : ℤ), |m| < 2 ^ 53 ∧ x = m * 2 ^ e

/-- Decimal digits and exponent printed by `"%.15e"` for `x > 0`: the value printed is `m * 10^(e-15)`, `10^15 ≤ m < 10^16`. -/
def dec16 (x : ℚ) : ℕ × ℤ :=
  let e := Int.log 10 x
  let m := (rhe (x / 10 ^ (e - 15))).toNat
  if m = 10 ^ 16 then (10 ^ 15, e + 1) else (m, e)

/-- `k` digits of `n` with leading zeros. -/
def digs : ℕ → ℕ → Str
  | 0, _ => []
  | k+1, n => digs k (n / 10) ++ [Nat.digitChar (n % 10)]

/-- The exponent: sign and at least two digits. -/
def fmtExp (e : ℤ) : Str :=
  (if e < 0 then '-' else '+') :: (if e.natAbs < 100 then digs 2 e.natAbs else Nat.toDigits 10 e.natAbs)

/-- `sprintf("%.15e", x)`. -/
def fmtE (x : ℚ) : Str :=
  let me := if x = 0 then (0, 0) else dec16 |x|
  (if x < 0 then ['-'] else []) ++ [Nat.digitChar (me.1 / 10 ^ 15)] ++ ['.'] ++ digs 15 (me.1 % 10 ^ 15) ++ ['e'] ++ fmtExp me.2

/-- Value of the digits in front, how many there are, and the rest. -/
def spanDigits : Str → ℕ → ℕ → ℕ × ℕ × Str
  | [], acc, k => (acc, k, [])
  | c :: s, acc, k => if c.isDigit then spanDigits s (acc * 10 + (c.toNat - 48)) (k+1) else (acc, k, c :: s)

/-- The optional exponent of a decimal number. -/
def expPart : Str → ℤ
  | c :: s =>
    if c = 'e' ∨ c = 'E' then
      match s with
      | '-' :: t => - (digitsVal t 0 : ℤ)
      | '+' :: t => digitsVal t 0
      | t => digitsVal t 0
    else 0
  | [] => 0

/-- The decimal number without sign: digits, point, digits, exponent. -/
def decVal (s : Str) : ℚ :=
  let a := spanDigits s 0 0
  match a.2.2 with
  | '.' :: t =>
    let f := spanDigits t a.1 0
    (f.1 : ℚ) * 10 ^ (expPart f.2.2 - (f.2.1 : ℤ))
  | t => (a.1 : ℚ) * 10 ^ expPart t

/-- `atof` of the C library on decimal numbers (not on hexadecimal numbers, infinities and NaN). -/
def atof (s : Str) : ℚ :=
  match s.dropWhile isSpace with
  | '-' :: t => - rnd (decVal t)
  | '+' :: t => rnd (decVal t)
  | t => rnd (decVal t)

/-- `par_setd` with the format `"%.15e"`, src/par.c:363-371. -/
def parSetd (db : DB) (block name : Str) (v : ℚ) (comment : Option Str) : DB := parSets db block name (fmtE v) comment

/-- `par_getd`, src/par.c:277-281. -/
def parGetd (db : DB) (block name : Str) : Res ℚ := do
  let s ← parGets db block name
  return atof s

/-- `par_getd_def`, src/par.c:320-329. -/
def parGetdDef (db : DB) (block name : Str) (defv : ℚ) : Res (ℚ × DB) :=
  if parExist db block name then do
    let v ← parGets db block name
    return (atof v, db)
  else .ok (defv, parSetd db block name defv (some defaultValue))

/-! ## Rounding -/

theorem rhe_near (x : ℚ) : |x - rhe x| ≤ 1/2 := by
  have h1 := Int.floor_le x
  have h2 := Int.lt_floor_add_one x
  unfold rhe
  split_ifs <;> rw [abs_le] <;> push_cast <;> constructor <;> linarith

theorem rhe_eq {x : ℚ} {n : ℤ} (h : |x - n| < 1/2) : rhe x = n := by
  have h1 := rhe_near x
  rw [abs_le] at h1
  rw [abs_lt] at h
  have a : ((rhe x : ℤ) : ℚ) < n + 1 := by linarith
  have b : (n : ℚ) < rhe x + 1 := by linarith
  have a' : rhe x < n + 1 := by exact_mod_cast a
  have b' : n < rhe x + 1 := by exact_mod_cast b
  omega

theorem rhe_int (n : ℤ) : rhe n = n := rhe_eq (by norm_num)

theorem rhe_mono_ge {x : ℚ} {n : ℤ} (h : (n : ℚ) ≤ x) : n ≤ rhe x := by
  have h1 : n ≤ ⌊x⌋ := Int.le_floor.2 h
  unfold rhe
  split_ifs <;> omega

theorem rhe_mono_le {x : ℚ} {n : ℤ} (h : x ≤ n) : rhe x ≤ n := by
  by_cases hx : x = n
  · rw [hx, rhe_int]
  · have h1 : x < n := lt_of_le_of_ne h hx
    have h2 : ⌊x⌋ < n := Int.floor_lt.2 h1
    unfold rhe
    split_ifs <;> omega

theorem log_eq {b : ℕ} (hb : 1 < b) {x : ℚ} {k : ℤ} (h1 : (b : ℚ) ^ k ≤ x) (h2 : x < (b : ℚ) ^ (k + 1)) : Int.log b x = k := by
  have hb' : (1 : ℚ) < b := by exact_mod_cast hb
  have hx : 0 < x := lt_of_lt_of_le (zpow_pos (by linarith) _) h1
  have h3 := Int.zpow_log_le_self hb hx
  have h4 := Int.lt_zpow_succ_log_self hb x
  have a := (zpow_lt_zpow_iff_right₀ hb').1 (lt_of_le_of_lt h1 h4)
  have c := (zpow_lt_zpow_iff_right₀ hb').1 (lt_of_le_of_lt h3 h2)
  omega

/-- Rounding to `p` digits: the unit and the digits. -/
theorem roundTo_spec {b : ℕ} (hb : 1 < b) (p : ℕ) (hp : 1 ≤ p) {x : ℚ} (hx : 0 < x) : ∃ (k : ℤ) (u : ℚ) (m : ℤ), u = (b : ℚ) ^ k ∧ 0 < u ∧
    k = Int.log b x - p + 1 ∧
    u * b ^ (p - 1) ≤ x ∧ x < u * b ^ p ∧ m = rhe (x / u) ∧ roundTo b p x = m * u ∧ (b : ℤ) ^ (p - 1) ≤ m ∧ m ≤ b ^ p ∧ |x - m * u| ≤ u / 2 := by
  have hb' : (1 : ℚ) < b := by exact_mod_cast hb
  have hb0 : (b : ℚ) ≠ 0 := by linarith
  have h3 := Int.zpow_log_le_self hb hx
  have h4 := Int.lt_zpow_succ_log_self hb x
  set k := Int.log b x - p + 1 with hk
  have hu : (0 : ℚ) < (b : ℚ) ^ k := zpow_pos (by linarith) _
  have e1 : (b : ℚ) ^ k * b ^ (p - 1) = (b : ℚ) ^ Int.log b x := by
    rw [← zpow_natCast (b : ℚ) (p - 1), ← zpow_add₀ hb0]; congr 1; omega
  have e2 : (b : ℚ) ^ k * b ^ p = (b : ℚ) ^ (Int.log b x + 1) := by
    rw [← zpow_natCast (b : ℚ) p, ← zpow_add₀ hb0]; congr 1; omega
  refine ⟨k, _, _, rfl, hu, hk, by rw [e1]; exact h3, by rw [e2]; exact h4, rfl, rfl, ?_, ?_, ?_⟩
  · apply rhe_mono_ge
    rw [le_div_iff₀ hu]; push_cast; rw [mul_comm, e1]; exact h3
  · apply rhe_mono_le
    rw [div_le_iff₀ hu]; push_cast; rw [mul_comm, e2]; exact h4.le
  · have := rhe_near (x / (b : ℚ) ^ k)
    have e : x - rhe (x / (b : ℚ) ^ k) * (b : ℚ) ^ k = (x / (b : ℚ) ^ k - rhe (x / (b : ℚ) ^ k)) * (b : ℚ) ^ k := by
      rw [sub_mul, div_mul_cancel₀ _ hu.ne']
    rw [e, abs_mul, abs_of_pos hu]
    nlinarith

/-- A number `m * b^k` with `p` digits is not changed. -/
theorem roundTo_near {b : ℕ} (hb : 1 < b) (p : ℕ) (hp : 1 ≤ p) {y : ℚ} (k m : ℤ) (h1 : (b : ℤ) ^ (p - 1) ≤ m) (h2 : m < b ^ p)
    (h : |y / (b : ℚ) ^ k - m| < 1/2) (h3 : (b : ℚ) ^ k * b ^ (p - 1) ≤ y) : roundTo b p y = m * (b : ℚ) ^ k := by
  have hb' : (1 : ℚ) < b := by exact_mod_cast hb
  have hb0 : (b : ℚ) ≠ 0 := by linarith
  have hu : (0 : ℚ) < (b : ℚ) ^ k := zpow_pos (by linarith) _
  have e1 : (b : ℚ) ^ k * b ^ (p - 1) = (b : ℚ) ^ (k + p - 1) := by
    rw [← zpow_natCast (b : ℚ) (p - 1), ← zpow_add₀ hb0]; congr 1; omega
  have e2 : (b : ℚ) ^ k * b ^ p = (b : ℚ) ^ (k + p - 1 + 1) := by
    rw [← zpow_natCast (b : ℚ) p, ← zpow_add₀ hb0]; congr 1; omega
  have hlog : Int.log b y = k + p - 1 := by
    apply log_eq hb
    · rw [← e1]; exact h3
    · rw [← e2]
      rw [abs_lt] at h
      have h4 : y / (b : ℚ) ^ k < m + 1/2 := by linarith [h.2]
      rw [div_lt_iff₀ hu] at h4
      have h5 : (m : ℚ) + 1 ≤ b ^ p := by exact_mod_cast h2
      nlinarith
  unfold roundTo
  rw [hlog, show k + (p : ℤ) - 1 - p + 1 = k by ring, rhe_eq h]

/-! ## Printing and reading -/

theorem digitChar_spec {d : ℕ} (h : d < 10) : (Nat.digitChar d).isDigit = true ∧ (Nat.digitChar d).toNat - 48 = d ∧ isSpace (Nat.digitChar d) = false ∧
    Nat.digitChar d ≠ '-' ∧ Nat.digitChar d ≠ '+' ∧ Nat.digitChar d ≠ '.' := by
  have : d = 0 ∨ d = 1 ∨ d = 2 ∨ d = 3 ∨ d = 4 ∨ d = 5 ∨ d = 6 ∨ d = 7 ∨ d = 8 ∨ d = 9 := by omega
  rcases this with rfl | rfl | rfl | rfl | rfl | rfl | rfl | rfl | rfl | rfl <;> decide

theorem mod_step (n k : ℕ) : n / 10 % 10 ^ k * 10 + n % 10 = n % 10 ^ (k + 1) := by
  rw [pow_succ, mul_comm (10 ^ k), Nat.mod_mul]; ring

theorem span_digs (k n : ℕ) (rest : Str) (acc j : ℕ) : spanDigits (digs k n ++ rest) acc j = spanDigits rest (acc * 10 ^ k + n % 10 ^ k) (j + k) := by
  induction k generalizing n rest with
  | zero => simp [digs, Nat.mod_one]
  | succ k ih =>
    have hd := digitChar_spec (Nat.mod_lt n (by norm_num : 0 < 10))
    rw [digs, List.append_assoc, ih, List.singleton_append, spanDigits, if_pos hd.1, hd.2.1, ← mod_step]
    congr 1
    ring

theorem val_digs (k n : ℕ) (acc : ℕ) (rest : Str) : digitsVal (digs k n ++ rest) acc = digitsVal rest (acc * 10 ^ k + n % 10 ^ k) := by
  induction k generalizing n rest with
  | zero => simp [digs, Nat.mod_one]
  | succ k ih =>
    have hd := digitChar_spec (Nat.mod_lt n (by norm_num : 0 < 10))
    rw [digs, List.append_assoc, ih, List.singleton_append, digitsVal, if_pos hd.1, hd.2.1, ← mod_step]
    congr 1
    ring

theorem exp_fmt (e : ℤ) : expPart ('e' :: fmtExp e) = e := by
  have hv : digitsVal (if e.natAbs < 100 then digs 2 e.natAbs else Nat.toDigits 10 e.natAbs) 0 = e.natAbs := by
    split_ifs with h
    · have := val_digs 2 e.natAbs 0 []
      rw [List.append_nil] at this
      rw [this, digitsVal, Nat.mod_eq_of_lt (by omega)]
      omega
    · unfold Nat.toDigits
      rw [digitsVal_toDigitsCore _ _ _ _ (by omega)]
      simp [digitsVal]
  unfold fmtExp
  generalize (if e.natAbs < 100 then digs 2 e.natAbs else Nat.toDigits 10 e.natAbs) = t at hv
  by_cases h : e < 0
  · rw [if_pos h]
    have : expPart ('e' :: '-' :: t) = -(digitsVal t 0 : ℤ) := rfl
    rw [this, hv]; omega
  · rw [if_neg h]
    have : expPart ('e' :: '+' :: t) = (digitsVal t 0 : ℤ) := rfl
    rw [this, hv]; omega

theorem expDigit (e : ℤ) : spanDigits ('e' :: fmtExp e) = fun acc k => (acc, k, 'e' :: fmtExp e) := by
  funext acc k
  rw [spanDigits, if_neg (by decide)]

theorem decVal_fmt (m : ℕ) (e : ℤ) (hm : m < 10 ^ 16) :
    decVal ([Nat.digitChar (m / 10 ^ 15)] ++ ['.'] ++ digs 15 (m % 10 ^ 15) ++ ['e'] ++ fmtExp e) = m * 10 ^ (e - 15) := by
  have hd := digitChar_spec (d := m / 10 ^ 15) (by omega)
  have e1 : spanDigits ([Nat.digitChar (m / 10 ^ 15)] ++ ['.'] ++ digs 15 (m % 10 ^ 15) ++ ['e'] ++ fmtExp e) 0 0 =
      (m / 10 ^ 15, 1, '.' :: (digs 15 (m % 10 ^ 15) ++ 'e' :: fmtExp e)) := by
    simp only [List.append_assoc, List.singleton_append, List.cons_append, List.nil_append]
    rw [spanDigits, if_pos hd.1, hd.2.1, spanDigits, if_neg (by decide)]
    simp
  have e2 : spanDigits (digs 15 (m % 10 ^ 15) ++ 'e' :: fmtExp e) (m / 10 ^ 15) 0 = (m, 15, 'e' :: fmtExp e) := by
    rw [span_digs, expDigit]
    have : m / 10 ^ 15 * 10 ^ 15 + m % 10 ^ 15 % 10 ^ 15 = m := by omega
    simp only [this]
  unfold decVal
  simp only [e1, e2, exp_fmt]
  norm_num

theorem dec16_spec {x : ℚ} (hx : 0 < x) : (dec16 x).1 < 10 ^ 16 ∧ ((dec16 x).1 : ℚ) * 10 ^ ((dec16 x).2 - 15) = roundTo 10 16 x := by
  obtain ⟨k, u, m, hu, hu0, hk, _, _, hm, hr, h1, h2, _⟩ := roundTo_spec (b := 10) (by norm_num) 16 (by norm_num) hx
  have ek : k = Int.log 10 x - 15 := by rw [hk]; push_cast; ring
  have em : (rhe (x / 10 ^ (Int.log 10 x - 15))).toNat = m := by
    rw [← ek]
    have : m = rhe (x / (10 : ℚ) ^ k) := by rw [hm, hu]; norm_num
    rw [← this]
    exact Int.toNat_of_nonneg (le_trans (by norm_num) h1)
  have hr' : roundTo 10 16 x = m * u := hr
  rw [hr']
  have hu' : u = (10 : ℚ) ^ (Int.log 10 x - 15) := by rw [hu, ek]; norm_num
  unfold dec16
  dsimp only
  split_ifs with h
  · refine ⟨by norm_num, ?_⟩
    have : m = 10 ^ 16 := by rw [← em, h]; norm_num
    rw [this, hu', show Int.log 10 x + 1 - 15 = (Int.log 10 x - 15) + 1 by ring, zpow_add₀ (by norm_num)]
    push_cast; ring
  · constructor
    · have h3 : m ≠ 10 ^ 16 := fun h' => h (by rw [h'] at em; exact_mod_cast em)
      have : ((rhe (x / 10 ^ (Int.log 10 x - 15))).toNat : ℤ) < 10 ^ 16 := by rw [em]; push_cast at h2; omega
      exact_mod_cast this
    · dsimp only
      rw [hu']
      congr 1
      exact_mod_cast em

/-- Reading what was printed: the number rounded to sixteen significant decimal digits, then to a double. -/
theorem atof_fmtE (x : ℚ) : atof (fmtE x) = if x = 0 then 0 else sg x * roundTo 2 53 (roundTo 10 16 |x|) := by
  have hpos : ∀ (m : ℕ) (e : ℤ), m < 10 ^ 16 → ∀ s : Str, s = [Nat.digitChar (m / 10 ^ 15)] ++ ['.'] ++ digs 15 (m % 10 ^ 15) ++ ['e'] ++ fmtExp e →
      atof s = rnd (m * 10 ^ (e - 15)) ∧ atof ('-' :: s) = - rnd (m * 10 ^ (e - 15)) := by
    intro m e hm s hs
    have hd := digitChar_spec (d := m / 10 ^ 15) (by omega)
    have hv := decVal_fmt m e hm
    rw [← hs] at hv
    constructor
    · rw [← hv]
      unfold atof
      have e0 : s.dropWhile isSpace = s := by
        rw [hs]
        simp only [List.append_assoc, List.singleton_append, List.cons_append, List.nil_append]
        rw [List.dropWhile_cons_of_neg (by rw [hd.2.2.1]; simp)]
      rw [e0]
      simp only [List.append_assoc, List.singleton_append, List.cons_append, List.nil_append] at hs
      split
      · simp only [List.cons.injEq] at hs; exact absurd hs.1.symm hd.2.2.2.1
      · simp only [List.cons.injEq] at hs; exact absurd hs.1.symm hd.2.2.2.2.1
      · rfl
    · rw [← hv]
      rfl
  by_cases h0 : x = 0
  · rw [if_pos h0, h0]
    have := (hpos 0 0 (by norm_num) _ rfl).1
    unfold fmtE
    simp only [if_true, lt_irrefl, if_false, List.nil_append]
    rw [this]
    simp [rnd]
  rw [if_neg h0]
  have hx : 0 < |x| := abs_pos.2 h0
  obtain ⟨d1, d2⟩ := dec16_spec hx
  obtain ⟨k, u, m, hu, hu0, hk, _, _, hm, hr, h1, h2, _⟩ := roundTo_spec (b := 10) (by norm_num) 16 (by norm_num) hx
  have hy : 0 < roundTo 10 16 |x| := by
    have hm' : 0 < m := lt_of_lt_of_le (by norm_num) h1
    have e : roundTo 10 16 |x| = m * u := hr
    rw [e]
    exact mul_pos (by exact_mod_cast hm') hu0
  have hrnd : rnd (roundTo 10 16 |x|) = roundTo 2 53 (roundTo 10 16 |x|) := by
    unfold rnd sg
    rw [if_neg hy.ne', if_neg (not_lt.2 hy.le), one_mul, abs_of_pos hy]
  have := hpos _ (dec16 |x|).2 d1 _ rfl
  rw [d2, hrnd] at this
  unfold fmtE sg
  simp only [if_neg h0]
  split_ifs with hn
  · simp only [List.append_assoc, List.singleton_append, List.cons_append, List.nil_append] at this ⊢
    rw [this.2]; ring
  · simp only [List.nil_append]
    rw [this.1]; ring

/-! ## C02 -/

/-- A decimal number with at most `p` significant digits. -/
def Decimal (p : ℕ) (x : ℚ) : Prop := ∃ a b : ℤ, |a| < 10 ^ p ∧ x = a * 10 ^ b

/-- `d` with at most `p` digits is a multiple of the last place of a `p`-digit number of at least about its size. -/
theorem multiple {p : ℕ} {a b e : ℤ} (ha : a < 10 ^ p) (h : (10 : ℚ) ^ (e - 1) ≤ a * 10 ^ b) : ∃ n : ℤ, (a : ℚ) * 10 ^ b = n * 10 ^ (e - p) := by
  have h10 : (1 : ℚ) < 10 := by norm_num
  have hb : e - p ≤ b := by
    have h1 : (a : ℚ) < 10 ^ p := by exact_mod_cast ha
    have h2 : (a : ℚ) * 10 ^ b < 10 ^ p * 10 ^ b := mul_lt_mul_of_pos_right h1 (zpow_pos (by norm_num) _)
    rw [← zpow_natCast, ← zpow_add₀ (by norm_num)] at h2
    have := (zpow_lt_zpow_iff_right₀ h10).1 (lt_of_le_of_lt h h2)
    omega
  obtain ⟨k, hk⟩ := Int.eq_ofNat_of_zero_le (show 0 ≤ b - (e - p) by omega)
  refine ⟨a * 10 ^ k, ?_⟩
  push_cast
  rw [← zpow_natCast, mul_assoc, ← zpow_add₀ (by norm_num), ← hk]
  congr 2; ring

/-- A positive double that is nearest to a decimal number of at most 15 digits, and not a power of two, survives printing and reading. -/
theorem survive15 {d x : ℚ} (hd : 0 < d) (hdec : Decimal 15 d) (hx : x = roundTo 2 53 d) (h2 : ∀ k : ℤ, x ≠ 2 ^ k) :
    roundTo 2 53 (roundTo 10 16 x) = x := by
  obtain ⟨k, u, m, hu, hu0, -, h3, h4, hm, hr, h5, h6, h7⟩ := roundTo_spec (b := 2) (by norm_num) 53 (by norm_num) hd
  have hr' : roundTo 2 53 d = m * u := hr
  rw [hr'] at hx
  push_cast at h3 h4 h5 h6
  norm_num at h3 h4 h5 h6
  have hu' : u = (2 : ℚ) ^ k := by rw [hu]; norm_num
  -- the digits of x are strictly between powers of two
  have m1 : 4503599627370496 < m := by
    rcases lt_or_eq_of_le h5 with h | h
    · exact h
    · exfalso; apply h2 (k + 52); rw [hx, ← h, zpow_add₀ (by norm_num), hu']; norm_num; ring
  have m2 : m < 9007199254740992 := by
    rcases lt_or_eq_of_le h6 with h | h
    · exact h
    · exfalso; apply h2 (k + 53); rw [hx, h, zpow_add₀ (by norm_num), hu']; norm_num; ring
  have m1' : (4503599627370497 : ℚ) ≤ m := by exact_mod_cast m1
  have m2' : (m : ℚ) + 1 ≤ 9007199254740992 := by exact_mod_cast m2
  have hx0 : 0 < x := by rw [hx]; positivity
  obtain ⟨l, s, n, hs, hs0, hl, g3, g4, hn, gr, g5, g6, g7⟩ := roundTo_spec (b := 10) (by norm_num) 16 (by norm_num) hx0
  have gr' : roundTo 10 16 x = n * s := gr
  push_cast at g3 g4 g5 g6
  norm_num at g3 g4 g5 g6
  have hs' : s = (10 : ℚ) ^ l := by rw [hs]; norm_num
  rw [gr']
  rw [← hx, abs_le] at h7
  rw [abs_le] at g7
  have stay : ∀ y : ℚ, |y / u - m| < 1/2 → roundTo 2 53 y = x := by
    intro y hy
    rw [hx, hu']
    refine roundTo_near (b := 2) (by norm_num) 53 (by norm_num) k m (by norm_num; omega) (by norm_num; omega) ?_ ?_
    · push_cast; rw [← hu']; exact hy
    · rw [abs_lt] at hy
      have : (m : ℚ) - 1/2 < y / u := by linarith [hy.1]
      rw [lt_div_iff₀ hu0] at this
      push_cast; rw [← hu']; norm_num
      nlinarith
  rcases lt_trichotomy u s with hus | hus | hus
  · -- the decimal number is recovered
    obtain ⟨a, b, ha, hab⟩ := hdec
    obtain ⟨c, hc⟩ : ∃ c : ℤ, d = c * s := by
      rw [hs', hab]
      have := multiple (p := 15) (a := a) (b := b) (e := l + 15) (lt_of_le_of_lt (le_abs_self a) ha) (by
        rw [← hab, show l + 15 - 1 = l + 14 by ring, zpow_add₀ (by norm_num), ← hs']
        norm_num
        nlinarith)
      obtain ⟨c, hc⟩ := this
      exact ⟨c, by rw [hc]; congr 2; push_cast; ring⟩
    have : n = c := by
      rw [hn]
      apply rhe_eq
      have e : x / s - c = (x - d) / s := by rw [hc]; field_simp
      rw [e, abs_div, abs_of_pos hs0, div_lt_iff₀ hs0, abs_lt]
      constructor <;> linarith
    rw [this, ← hc, hr', hx]
  · -- equal units: x is a decimal number of 16 digits itself
    have : n = m := by
      rw [hn, hx, hus, mul_div_assoc, div_self hs0.ne', mul_one, rhe_int]
    rw [this, ← hus, ← hx]
    exact stay x (by rw [hx, mul_div_assoc, div_self hu0.ne', mul_one, sub_self]; norm_num)
  · apply stay
    have e : n * s / u - m = (n * s - x) / u := by rw [hx]; field_simp
    rw [e, abs_div, abs_of_pos hu0, div_lt_iff₀ hu0, abs_lt]
    constructor <;> linarith [g7.1, g7.2]

/-- A positive double with at most 16 decimal digits survives printing and reading. -/
theorem survive16 {x : ℚ} (hx : 0 < x) (hdec : Decimal 16 x) (hD : IsDouble x) : roundTo 2 53 (roundTo 10 16 x) = x := by
  have e1 : roundTo 10 16 x = x := by
    obtain ⟨l, s, n, hs, hs0, hl, g3, g4, hn, gr, g5, g6, g7⟩ := roundTo_spec (b := 10) (by norm_num) 16 (by norm_num) hx
    have gr' : roundTo 10 16 x = n * s := gr
    have hs' : s = (10 : ℚ) ^ l := by rw [hs]; norm_num
    push_cast at g3; norm_num at g3
    obtain ⟨a, b, ha, hab⟩ := hdec
    obtain ⟨c, hc⟩ : ∃ c : ℤ, x = c * s := by
      have := multiple (p := 16) (a := a) (b := b) (e := l + 16) (lt_of_le_of_lt (le_abs_self a) ha) (by
        rw [← hab, show l + 16 - 1 = l + 15 by ring, zpow_add₀ (by norm_num), ← hs']
        norm_num
        exact g3)
      obtain ⟨c, hc⟩ := this
      exact ⟨c, by rw [hs', hab, hc]; congr 2; push_cast; ring⟩
    have : n = c := by rw [hn, hc, mul_div_assoc, div_self hs0.ne', mul_one, rhe_int]
    rw [gr', this, ← hc]
  rw [e1]
  obtain ⟨l, s, n, hs, hs0, hl, g3, g4, hn, gr, g5, g6, g7⟩ := roundTo_spec (b := 2) (by norm_num) 53 (by norm_num) hx
  have gr' : roundTo 2 53 x = n * s := gr
  have hs' : s = (2 : ℚ) ^ l := by rw [hs]; norm_num
  push_cast at g3; norm_num at g3
  obtain ⟨m, e, hm, hme⟩ := hD
  have h2 : (1 : ℚ) < 2 := by norm_num
  have hle : l ≤ e := by
    have hm' : (m : ℚ) < 2 ^ 53 := by exact_mod_cast lt_of_le_of_lt (le_abs_self m) hm
    have h3 : x < 2 ^ 53 * 2 ^ e := by rw [hme]; exact mul_lt_mul_of_pos_right hm' (zpow_pos (by norm_num) _)
    have h4 : (2 : ℚ) ^ (l + 52) ≤ x := by rw [zpow_add₀ (by norm_num), ← hs']; norm_num; exact g3
    rw [← zpow_natCast, ← zpow_add₀ (by norm_num)] at h3
    have := (zpow_lt_zpow_iff_right₀ h2).1 (lt_of_le_of_lt h4 h3)
    push_cast at this
    omega
  obtain ⟨j, hj⟩ := Int.eq_ofNat_of_zero_le (show 0 ≤ e - l by omega)
  have hc : x = ((m * 2 ^ j : ℤ) : ℚ) * s := by
    push_cast
    rw [hs', ← zpow_natCast, mul_assoc, ← zpow_add₀ (by norm_num), hme]
    congr 2; omega
  have : n = m * 2 ^ j := by rw [hn, hc, mul_div_assoc, div_self hs0.ne', mul_one, rhe_int]
  rw [gr', this, ← hc]

/-- The defaults for which `par_getd_def` keeps its promise: zero; doubles with at most 16 significant decimal digits (such as 1, 0.5, 1024); the
doubles nearest to a decimal number of at most 15 digits (such as 0.1 or 1e-6) unless they are powers of two. -/
def Representable (x : ℚ) : Prop :=
  x = 0 ∨ (IsDouble x ∧ Decimal 16 x) ∨ ((∃ d, Decimal 15 d ∧ x = rnd d) ∧ ∀ k : ℤ, |x| ≠ 2 ^ k)

theorem Decimal.abs {p : ℕ} {x : ℚ} (h : Decimal p x) : Decimal p |x| := by
  obtain ⟨a, b, ha, hab⟩ := h
  refine ⟨|a|, b, by rwa [abs_abs], ?_⟩
  rw [hab, abs_mul, abs_of_pos (zpow_pos (by norm_num : (0 : ℚ) < 10) b)]
  push_cast; rfl

theorem sg_mul_abs (x : ℚ) : sg x * |x| = x := by
  unfold sg
  split_ifs with h
  · rw [abs_of_neg h]; ring
  · rw [abs_of_nonneg (not_lt.1 h)]; ring

/-- A representable number is read back exactly. -/
theorem read_back {x : ℚ} (h : Representable x) : atof (fmtE x) = x := by
  rw [atof_fmtE]
  by_cases h0 : x = 0
  · rw [if_pos h0, h0]
  rw [if_neg h0]
  have hx : 0 < |x| := abs_pos.2 h0
  have key : roundTo 2 53 (roundTo 10 16 |x|) = |x| := by
    rcases h with h | ⟨⟨m, e, hm, hme⟩, hd⟩ | ⟨⟨d, hd, hxd⟩, hk⟩
    · exact absurd h h0
    · refine survive16 hx hd.abs ⟨|m|, e, by rwa [abs_abs], ?_⟩
      rw [hme, abs_mul, abs_of_pos (zpow_pos (by norm_num : (0 : ℚ) < 2) e)]
      push_cast; rfl
    · have hd0 : d ≠ 0 := by rintro rfl; exact h0 (by rw [hxd]; simp [rnd])
      have hd1 : 0 < |d| := abs_pos.2 hd0
      refine survive15 hd1 hd.abs ?_ hk
      have hnn : 0 ≤ roundTo 2 53 |d| := by
        obtain ⟨k, u, m, hu, hu0, -, h3, h4, hm, hr, h5, h6, h7⟩ := roundTo_spec (b := 2) (by norm_num) 53 (by norm_num) hd1
        have e : roundTo 2 53 |d| = m * u := hr
        rw [e]
        have : (0 : ℤ) ≤ m := le_trans (by norm_num) h5
        exact mul_nonneg (by exact_mod_cast this) hu0.le
      rw [hxd, rnd, if_neg hd0, abs_mul, abs_of_nonneg hnn]
      unfold sg; split_ifs <;> norm_num
  rw [key, sg_mul_abs]

/-- **C02**, doubles: the same for `par_getd_def`, provided that the default is representable in the sixteen digits that are stored.  Missing: other defaults, for
which the claim is false (`getd_def_false`). -/
theorem getd_def_partial (db : DB) (B N : Str) (d : ℚ) (hd : Representable d) : ∃ v db', parGetdDef db B N d = .ok (v, db') ∧
    (parExist db B N = true → parGetd db B N = .ok v ∧ db' = db) ∧
    (parExist db B N = false → v = d) ∧
    parExist db' B N = true ∧ parGetd db' B N = .ok v ∧
    ∀ b n, ¬ (b = B ∧ n = N) → parGets db' b n = parGets db b n ∧ parExist db' b n = parExist db b n := by
  unfold parGetdDef
  cases he : parExist db B N with
  | true =>
    rw [if_pos rfl]
    have he' := he
    rw [parExist_eq] at he'
    cases hl : lookup db B N with
    | none => rw [hl] at he'; simp at he'
    | some p =>
      have hg : parGets db B N = .ok p.value := by rw [parGets_eq, hl]
      have hgi : parGetd db B N = .ok (atof p.value) := by unfold parGetd; rw [hg]; rfl
      rw [hg]
      exact ⟨atof p.value, db, rfl, fun _ => ⟨hgi, rfl⟩, fun h => by simp at h, he, hgi,
        fun b n _ => ⟨rfl, rfl⟩⟩
  | false =>
    rw [if_neg (by simp)]
    have hl := lookup_sets db B N (fmtE d) (some defaultValue)
    refine ⟨d, _, rfl, fun h => by simp at h, fun _ => rfl, ?_, ?_, ?_⟩
    · rw [parExist_eq, parSetd, hl, if_pos ⟨rfl, rfl⟩]; rfl
    · unfold parGetd
      rw [parGets_eq, parSetd, hl, if_pos ⟨rfl, rfl⟩]
      show Res.ok (atof (fmtE d)) = _
      rw [read_back hd]
    · intro b n hbn
      rw [parGets_eq, parGets_eq, parExist_eq, parExist_eq, parSetd, hl, if_neg hbn]
      exact ⟨rfl, rfl⟩

/-- `0.1 + 0.2` in double precision. -/
def d03 : ℚ := 5404319552844596 / 2 ^ 54

theorem d03_read : atof (fmtE d03) = 5404319552844595 / 2 ^ 54 := by
  have hp : 0 < d03 := by unfold d03; norm_num
  rw [atof_fmtE, if_neg hp.ne', sg, if_neg (not_lt.2 hp.le), one_mul, abs_of_pos hp]
  have e1 : roundTo 10 16 d03 = 3 / 10 := by
    have := roundTo_near (b := 10) (by norm_num) 16 (by norm_num) (y := d03) (-16) 3000000000000000 (by norm_num) (by norm_num)
      (by unfold d03; norm_num [abs_lt]) (by unfold d03; norm_num)
    have e : roundTo 10 16 d03 = (3000000000000000 : ℤ) * ((10 : ℕ) : ℚ) ^ (-16 : ℤ) := this
    rw [e]; norm_num
  rw [e1]
  have := roundTo_near (b := 2) (by norm_num) 53 (by norm_num) (y := 3 / 10) (-54) 5404319552844595 (by norm_num) (by norm_num)
      (by norm_num [abs_lt]) (by norm_num)
  have e : roundTo 2 53 (3 / 10) = (5404319552844595 : ℤ) * ((2 : ℕ) : ℚ) ^ (-54 : ℤ) := this
  rw [e]; norm_num

/-- **C02** fails for doubles that need 17 digits: `par_getd_def` returns `0.1 + 0.2`, but a later `par_getd` of the same parameter (in the same run, or in a
run restarted from its file) returns `0.3`. -/
theorem getd_def_false : ∃ db B N d v db' v', IsDouble d ∧ parGetdDef db B N d = .ok (v, db') ∧ parGetd db' B N = .ok v' ∧ v' ≠ v := by
  refine ⟨[], ['b'], ['n'], d03, d03, parSetd [] ['b'] ['n'] d03 (some defaultValue), 5404319552844595 / 2 ^ 54,
    ⟨5404319552844596, -54, by norm_num, by unfold d03; norm_num⟩, rfl, ?_, by unfold d03; norm_num⟩
  unfold parGetd
  rw [parGets_eq, parSetd, lookup_sets, if_pos ⟨rfl, rfl⟩]
  show Res.ok (atof (fmtE d03)) = _
  rw [d03_read]

/-- The hypothesis holds for 1, -0.5 and 0.1. -/
example : Representable 1 ∧ Representable (-1/2) ∧ Representable (3602879701896397 / 2 ^ 55) := by
  refine ⟨Or.inr (Or.inl ⟨⟨1, 0, by norm_num, by norm_num⟩, 1, 0, by norm_num, by norm_num⟩),
    Or.inr (Or.inl ⟨⟨-1, -1, by norm_num, by norm_num⟩, -5, -1, by norm_num, by norm_num⟩), Or.inr (Or.inr ⟨⟨1/10, ⟨1, -1, by norm_num, by norm_num⟩, ?_⟩, ?_⟩)⟩
  · have := roundTo_near (b := 2) (by norm_num) 53 (by norm_num) (y := 1 / 10) (-56) 7205759403792794 (by norm_num) (by norm_num)
      (by norm_num [abs_lt]) (by norm_num)
    have e : roundTo 2 53 (1 / 10) = (7205759403792794 : ℤ) * ((2 : ℕ) : ℚ) ^ (-56 : ℤ) := this
    rw [rnd, if_neg (by norm_num), sg, if_neg (by norm_num), abs_of_pos (by norm_num), e]
    norm_num
  · intro k h
    rw [abs_of_pos (by norm_num)] at h
    -- between two powers of two
    have h2 : (1 : ℚ) < 2 := by norm_num
    have a : (2 : ℚ) ^ (-4 : ℤ) < 2 ^ k := by rw [← h]; norm_num
    have b : (2 : ℚ) ^ k < 2 ^ (-3 : ℤ) := by rw [← h]; norm_num
    have a' := (zpow_lt_zpow_iff_right₀ h2).1 a
    have b' := (zpow_lt_zpow_iff_right₀ h2).1 b
    omega

example : fmtE (-5/4) = "-1.250000000000000e+00".toList := by
  have h : Int.log 10 (5/4 : ℚ) = 0 := log_eq (by norm_num) (by norm_num) (by norm_num)
  have h1 : rhe (5 / 4 / 10 ^ (0 - 15 : ℤ)) = 1250000000000000 := rhe_eq (by norm_num)
  have h2 : dec16 (5/4) = (1250000000000000, 0) := by
    unfold dec16
    simp only [h, h1]
    decide
  have h3 : |(-5/4 : ℚ)| = 5/4 := by norm_num [abs_of_neg]
  unfold fmtE
  rw [if_neg (by norm_num), h3, h2, if_pos (by norm_num)]
  decide

end Athena.Par
