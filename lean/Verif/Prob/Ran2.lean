import Verif.Base
import Mathlib.Tactic.Linarith
import Mathlib.Tactic.NormNum
import Mathlib.Tactic.Ring
import Mathlib.Tactic.Positivity
import Mathlib.Tactic.FieldSimp
import Mathlib.Data.Int.ModEq
import Mathlib.Algebra.Order.Ring.Rat
import Mathlib.Algebra.Order.Field.Basic
import Mathlib.Logic.Function.Basic
import Mathlib.RingTheory.Coprime.Lemmas
import Mathlib.Tactic.IntervalCases

/-!
# The random numbers of the problem generators

`ran2()` of src/prob/kh.c:291-327 (and, the same text, of firehose.c, hb3.c, hgb.c, par_strat2d.c, par_strat3d.c, rt.c, strat.c,
streaming2d_multi.c, streaming2d_single.c, streaming3d_multi.c, streaming3d_single.c, ti_test.c), and how these files seed it.
Numbers are exact: `AM*iy` is `iy/IM1`.
-/

namespace Athena.Prob

/-- `IM1`, `IM2`, `IA1`, `IA2`, `IQ1`, `IQ2`, `IR1`, `IR2`: src/prob/kh.c:264-273. -/
local notation "IM1" => (2147483563 : ℤ)
local notation "IM2" => (2147483399 : ℤ)
local notation "IA1" => (40014 : ℤ)
local notation "IA2" => (40692 : ℤ)
local notation "IQ1" => (53668 : ℤ)
local notation "IQ2" => (52774 : ℤ)
local notation "IR1" => (12211 : ℤ)
local notation "IR2" => (3791 : ℤ)
/-- `NDIV`, which is `1+IMM1/NTAB`: src/prob/kh.c:275. -/
local notation "NDIV" => ((1 : ℤ) + (IM1 - 1) / 32)

/-- A value fits into `long int` of `w` bits; otherwise the arithmetic of C is undefined. -/
def LFits (w : ℕ) (x : ℤ) : Prop := -2 ^ (w - 1) ≤ x ∧ x < 2 ^ (w - 1)

instance (w : ℕ) (x : ℤ) : Decidable (LFits w x) := inferInstanceAs (Decidable (_ ∧ _))

/-- The step of one of the two generators with its intermediate values: src/prob/kh.c:304-306, 311-313 (`IA1`, …) and 314-316 (`IA2`, …). -/
def schrage (w : ℕ) (a q r m x : ℤ) : Res ℤ :=
  let k := x.tdiv q
  let p := a * (x - k * q)
  let y := p - k * r
  if LFits w (k * q) ∧ LFits w p ∧ LFits w (k * r) ∧ LFits w y then .ok (if y < 0 then y + m else y) else .ub

/-- `*idum` and the static variables: src/prob/kh.c:292-296. -/
structure Ran where
  idum : ℤ
  idum2 : ℤ
  iy : ℤ
  iv : ℕ → ℤ

/-- The loop that loads the table, for `j = n-1, …, 0`: src/prob/kh.c:303-308. -/
def load (w : ℕ) : ℕ → ℤ → (ℕ → ℤ) → Res (ℤ × (ℕ → ℤ))
  | 0, x, iv => .ok (x, iv)
  | n + 1, x, iv => (schrage w IA1 IQ1 IR1 IM1 x).bind fun y => load w n y (if n < 32 then Function.update iv n y else iv)

/-- The initialisation: src/prob/kh.c:299-310. -/
def init (w : ℕ) (s : Ran) : Res Ran :=
  if LFits w (-s.idum) then
    let d := if -s.idum < 1 then 1 else -s.idum
    (load w 40 d s.iv).bind fun r => .ok ⟨r.1, d, r.2 0, r.2⟩
  else .ub

/-- `RNMX`, which is `1.0-DBL_EPSILON`: src/prob/kh.c:276. -/
def rnmx : ℚ := 1 - 1 / 2 ^ 52

/-- `ran2`: src/prob/kh.c:291-327. -/
def ran2 (w : ℕ) (s : Ran) : Res (ℚ × Ran) :=
  (if s.idum ≤ 0 then init w s else .ok s).bind fun s =>
  (schrage w IA1 IQ1 IR1 IM1 s.idum).bind fun a =>
  (schrage w IA2 IQ2 IR2 IM2 s.idum2).bind fun b =>
  let j := s.iy.tdiv NDIV
  if 0 ≤ j ∧ j < 32 then
    let y := s.iv j.toNat - b
    let y := if y < 1 then y + (IM1 - 1) else y
    let temp : ℚ := 1 / IM1 * y
    .ok (if temp > rnmx then rnmx else temp, ⟨a, b, y, Function.update s.iv j.toNat a⟩)
  else .ub

/-- `n` calls in a row. -/
def draws (w : ℕ) : ℕ → Ran → Res (List ℚ × Ran)
  | 0, s => .ok ([], s)
  | n + 1, s => (ran2 w s).bind fun r => (draws w n r.2).bind fun t => .ok (r.1 :: t.1, t.2)

/-- The program before the first call, with the seed `x`: src/prob/kh.c:294-296. -/
def start (x : ℤ) : Ran := ⟨x, 123456789, 0, fun _ => 0⟩

/-- The seed of a Grid in a program that gives every process its own, with `int` arithmetic: src/prob/hgb.c:134-138, rt.c:91-95, strat.c:123-127,
msa.c:115-119. -/
def gridSeed (nx disp : Fin 3 → ℤ) : Res ℤ :=
  let a := nx 1 * disp 2
  let b := disp 1 + a
  let c := nx 0 * b
  let d := disp 0 + c
  if LFits 32 a ∧ LFits 32 b ∧ LFits 32 c ∧ LFits 32 d ∧ LFits 32 (-1 - d) then .ok (-1 - d) else .ub

/-- The seed of a process in the programs with several species of particles: src/prob/par_strat3d.c:107, par_strat2d.c, streaming2d_multi.c:101,
streaming3d_multi.c:102. -/
def rankSeed (rank : ℕ) : ℤ := rank

/-! ## Schrage's method -/

theorem fits_of {w : ℕ} (hw : 32 ≤ w) {x : ℤ} (h0 : -2147483648 ≤ x) (h1 : x ≤ 2147483647) : LFits w x := by
  have : (2 : ℤ) ^ 31 ≤ 2 ^ (w - 1) := pow_le_pow_right₀ (by norm_num) (by omega)
  norm_num at this
  exact ⟨by linarith, by linarith⟩

theorem schrage_mod {w : ℕ} (hw : 32 ≤ w) {a q r m x : ℤ} (hq : 0 < q) (ha : 0 ≤ a) (hr : 0 ≤ r) (hm : m = a * q + r) (hp : a * (q - 1) ≤ 2147483647)
    (hpm : a * (q - 1) < m) (hx : 0 ≤ x) (hx1 : x ≤ 2147483647) (hk : 2147483647 / q * r < m) (hm1 : m ≤ 2147483647) :
    schrage w a q r m x = .ok (a * x % m) := by
  have e : x.tdiv q = x / q := Int.tdiv_eq_ediv_of_nonneg hx
  have k0 : 0 ≤ x / q := Int.ediv_nonneg hx hq.le
  have k1 : x / q ≤ 2147483647 / q := Int.ediv_le_ediv hq hx1
  have d := Int.emod_add_mul_ediv x q
  have m0 := Int.emod_nonneg x hq.ne'
  have m1 := Int.emod_lt_of_pos x hq
  have hrem : x - x / q * q = x % q := by linarith [mul_comm q (x / q)]
  have p0 : 0 ≤ a * (x % q) := mul_nonneg ha m0
  have p1 : a * (x % q) ≤ a * (q - 1) := mul_le_mul_of_nonneg_left (by omega) ha
  have r0 : 0 ≤ x / q * r := mul_nonneg k0 hr
  have r1 : x / q * r ≤ 2147483647 / q * r := mul_le_mul_of_nonneg_right k1 hr
  have q0 : 0 ≤ x / q * q := mul_nonneg k0 hq.le
  have ey : a * (x % q) - x / q * r = a * x - m * (x / q) := by
    rw [hm]
    have : a * x = a * (x % q) + a * (q * (x / q)) := by rw [← mul_add, d]
    rw [this]; ring
  unfold schrage
  simp only [e, hrem]
  rw [if_pos ⟨fits_of hw (by linarith) (by linarith), fits_of hw (by linarith) (by linarith), fits_of hw (by linarith) (by linarith),
    fits_of hw (by linarith) (by linarith)⟩]
  congr 1
  rw [ey]
  split_ifs with c
  · symm
    rw [show a * x - m * (x / q) + m = a * x + m * (1 - x / q) by ring, ← Int.add_mul_emod_self_left (a * x) m (1 - x / q)]
    exact Int.emod_eq_of_lt (by nlinarith) (by linarith)
  · symm
    rw [show a * x - m * (x / q) = a * x + m * (-(x / q)) by ring, ← Int.add_mul_emod_self_left (a * x) m (-(x / q))]
    exact Int.emod_eq_of_lt (by linarith) (by linarith)

/-- The first generator is multiplication modulo `IM1`, without overflow even of 32 bits. -/
theorem schrage1 {w : ℕ} (hw : 32 ≤ w) {x : ℤ} (h0 : 0 ≤ x) (h1 : x ≤ 2147483647) : schrage w IA1 IQ1 IR1 IM1 x = .ok (IA1 * x % IM1) :=
  schrage_mod hw (by norm_num) (by norm_num) (by norm_num) (by norm_num) (by norm_num) (by norm_num) h0 h1 (by norm_num) (by norm_num)

theorem schrage2 {w : ℕ} (hw : 32 ≤ w) {x : ℤ} (h0 : 0 ≤ x) (h1 : x ≤ 2147483647) : schrage w IA2 IQ2 IR2 IM2 x = .ok (IA2 * x % IM2) :=
  schrage_mod hw (by norm_num) (by norm_num) (by norm_num) (by norm_num) (by norm_num) (by norm_num) h0 h1 (by norm_num) (by norm_num)

/-! ## The table -/

theorem load_ok {w : ℕ} (hw : 32 ≤ w) (n : ℕ) {x : ℤ} (h0 : 0 ≤ x) (h1 : x ≤ 2147483647) (iv : ℕ → ℤ) :
    ∃ iv', load w n x iv = .ok (if n = 0 then x else IA1 ^ n * x % IM1, iv') ∧ (∀ j, j < n → j < 32 → 0 ≤ iv' j ∧ iv' j < IM1) ∧
      ∀ j, n ≤ j ∨ 32 ≤ j → iv' j = iv j := by
  induction n generalizing x iv with
  | zero => exact ⟨iv, rfl, fun j hj => by omega, fun j _ => rfl⟩
  | succ n ih =>
    have y0 := Int.emod_nonneg (IA1 * x) (b := IM1) (by norm_num)
    have y1 := Int.emod_lt_of_pos (IA1 * x) (b := IM1) (by norm_num)
    obtain ⟨iv', e, hj, hk⟩ := ih (x := IA1 * x % IM1) y0 (by omega) (if n < 32 then Function.update iv n (IA1 * x % IM1) else iv)
    refine ⟨iv', ?_, ?_, ?_⟩
    · unfold load
      rw [schrage1 hw h0 h1]
      show load w n _ _ = _
      rw [e]
      congr 2
      rw [if_neg (show ¬n + 1 = 0 by omega)]
      by_cases hn : n = 0
      · subst hn; simp
      · rw [if_neg hn, Int.mul_emod, Int.emod_emod_of_dvd _ (dvd_refl _), ← Int.mul_emod, pow_succ]; congr 1; ring
    · intro j a b
      rcases Nat.lt_succ_iff_lt_or_eq.1 a with c | c
      · exact hj j c b
      · subst c
        rw [hk j (Or.inl (le_refl _)), if_pos b, Function.update_self]
        exact ⟨y0, y1⟩
    · intro j a
      rw [hk j (by omega)]
      split_ifs with hn
      · rw [Function.update_of_ne (by omega)]
      · rfl

/-! ## Every call -/

/-- The state between calls, for seeds of 31 bits. -/
structure Good (s : Ran) : Prop where
  i0 : -2147483648 < s.idum
  i1 : s.idum ≤ 2147483647
  j0 : 0 ≤ s.idum2
  j1 : s.idum2 ≤ 2147483647
  y0 : 0 ≤ s.iy
  y1 : s.iy < IM1
  v : ∀ j, j < 32 → 0 ≤ s.iv j ∧ s.iv j < IM1

theorem start_good {x : ℤ} (h0 : -2147483648 < x) (h1 : x ≤ 2147483647) : Good (start x) :=
  ⟨h0, h1, by norm_num [start], by norm_num [start], by norm_num [start], by norm_num [start], fun j _ => by norm_num [start]⟩

/-- The state after the initialisation, if there is one. -/
theorem init_good {w : ℕ} (hw : 32 ≤ w) {s : Ran} (h : Good s) : ∃ s', (if s.idum ≤ 0 then init w s else .ok s) = .ok s' ∧ Good s' ∧ 0 ≤ s'.idum ∧
    s'.idum = if s.idum ≤ 0 then IA1 ^ 40 * (if -s.idum < 1 then 1 else -s.idum) % IM1 else s.idum := by
  by_cases c : s.idum ≤ 0
  · rw [if_pos c, if_pos c]
    have a := h.i0
    have f : LFits w (-s.idum) := fits_of hw (by linarith [h.i1]) (by linarith)
    unfold init
    rw [if_pos f]
    dsimp only
    have d0 : 0 ≤ (if -s.idum < 1 then 1 else -s.idum) := by split_ifs <;> omega
    have d1 : (if -s.idum < 1 then 1 else -s.idum) ≤ 2147483647 := by split_ifs <;> omega
    obtain ⟨iv', e, hv, -⟩ := load_ok hw 40 d0 d1 s.iv
    rw [if_neg (show ¬(40 : ℕ) = 0 by norm_num)] at e
    have y0 := Int.emod_nonneg (IA1 ^ 40 * (if -s.idum < 1 then 1 else -s.idum)) (b := IM1) (by norm_num)
    have y1 := Int.emod_lt_of_pos (IA1 ^ 40 * (if -s.idum < 1 then 1 else -s.idum)) (b := IM1) (by norm_num)
    refine ⟨_, by rw [e]; rfl, ⟨by dsimp only; linarith, by dsimp only; linarith, d0, d1, (hv 0 (by norm_num) (by norm_num)).1,
      (hv 0 (by norm_num) (by norm_num)).2, fun j hj => hv j (by omega) hj⟩, y0, rfl⟩
  · rw [if_neg c, if_neg c]
    exact ⟨s, rfl, h, by omega, rfl⟩

/-- **C132.** Every call with a seed of 31 bits ends without overflow (`long` of 32 bits or more) and without leaving the table, and returns a number
between 0 and 1, both excluded. -/
theorem ran2_good {w : ℕ} (hw : 32 ≤ w) {s : Ran} (h : Good s) : ∃ u s', ran2 w s = .ok (u, s') ∧ Good s' ∧ 0 < u ∧ u < 1 ∧
    s'.idum = IA1 * (if s.idum ≤ 0 then IA1 ^ 40 * (if -s.idum < 1 then 1 else -s.idum) % IM1 else s.idum) % IM1 := by
  obtain ⟨t, e, g, t0, et⟩ := init_good hw h
  have a0 := Int.emod_nonneg (IA1 * t.idum) (b := IM1) (by norm_num)
  have a1 := Int.emod_lt_of_pos (IA1 * t.idum) (b := IM1) (by norm_num)
  have b0 := Int.emod_nonneg (IA2 * t.idum2) (b := IM2) (by norm_num)
  have b1 := Int.emod_lt_of_pos (IA2 * t.idum2) (b := IM2) (by norm_num)
  have ej : t.iy.tdiv NDIV = t.iy / NDIV := Int.tdiv_eq_ediv_of_nonneg g.y0
  have j0 : 0 ≤ t.iy / NDIV := Int.ediv_nonneg g.y0 (by norm_num)
  have j1 : t.iy / NDIV < 32 := by
    have := g.y1
    apply Int.ediv_lt_of_lt_mul (by norm_num)
    norm_num; omega
  have hv := g.v (t.iy / NDIV).toNat (by omega)
  unfold ran2
  rw [e]
  show ∃ u s', ((schrage w IA1 IQ1 IR1 IM1 t.idum).bind fun a => _) = _ ∧ _
  rw [schrage1 hw t0 g.i1]
  show ∃ u s', ((schrage w IA2 IQ2 IR2 IM2 t.idum2).bind fun b => _) = _ ∧ _
  rw [schrage2 hw g.j0 g.j1]
  show ∃ u s', (if 0 ≤ t.iy.tdiv NDIV ∧ t.iy.tdiv NDIV < 32 then _ else Res.ub) = _ ∧ _
  rw [ej, if_pos ⟨j0, j1⟩]
  generalize hy : (if t.iv (t.iy / NDIV).toNat - IA2 * t.idum2 % IM2 < 1 then t.iv (t.iy / NDIV).toNat - IA2 * t.idum2 % IM2 + (IM1 - 1)
    else t.iv (t.iy / NDIV).toNat - IA2 * t.idum2 % IM2) = y
  have y0 : 1 ≤ y := by rw [← hy]; split_ifs <;> omega
  have y1 : y < IM1 := by rw [← hy]; split_ifs <;> omega
  refine ⟨_, _, rfl, ⟨by dsimp only; omega, by dsimp only; omega, b0, by dsimp only; omega, by dsimp only; omega, y1, ?_⟩, ?_, ?_, by dsimp only; rw [et]⟩
  · intro j hj
    dsimp only
    by_cases c : j = (t.iy / NDIV).toNat
    · rw [c, Function.update_self]; exact ⟨a0, a1⟩
    · rw [Function.update_of_ne c]; exact g.v j hj
  · split_ifs
    · norm_num [rnmx]
    · have : (0 : ℚ) < y := by exact_mod_cast (by omega : 0 < y)
      positivity
  · split_ifs
    · norm_num [rnmx]
    · have : (y : ℚ) < IM1 := by exact_mod_cast y1
      rw [one_div, inv_mul_lt_iff₀ (by norm_num)]
      simpa using this

/-- **C132.** For every seed of 31 bits and any number of calls. -/
theorem ran2_unit {w : ℕ} (hw : 32 ≤ w) (n : ℕ) {s : Ran} (h : Good s) : ∃ us s', draws w n s = .ok (us, s') ∧ Good s' ∧ us.length = n ∧
    ∀ u ∈ us, 0 < u ∧ u < 1 := by
  induction n generalizing s with
  | zero => exact ⟨[], s, rfl, h, rfl, fun u hu => absurd hu (by simp)⟩
  | succ n ih =>
    obtain ⟨u, t, e, g, u0, u1, -⟩ := ran2_good hw h
    obtain ⟨us, s', e', g', hl, hu⟩ := ih g
    refine ⟨u :: us, s', ?_, g', by simp [hl], ?_⟩
    · unfold draws
      rw [e]
      show (draws w n t).bind _ = _
      rw [e']
      rfl
    · intro v hv
      rcases List.mem_cons.1 hv with c | c
      · rw [c]; exact ⟨u0, u1⟩
      · exact hu v c

example : ∃ us s', draws 32 1000000 (start (-7)) = .ok (us, s') ∧ Good s' ∧ us.length = 1000000 ∧ ∀ u ∈ us, 0 < u ∧ u < 1 :=
  ran2_unit (by norm_num) _ (start_good (by norm_num) (by norm_num))

/-- **C132.** However many numbers a program draws after seeding with a number of 31 bits, of either sign or 0: all lie between 0 and 1. -/
theorem ran2_seed {w : ℕ} (hw : 32 ≤ w) (n : ℕ) {x : ℤ} (h0 : -2147483648 < x) (h1 : x ≤ 2147483647) :
    ∃ us s', draws w n (start x) = .ok (us, s') ∧ us.length = n ∧ ∀ u ∈ us, 0 < u ∧ u < 1 := by
  obtain ⟨us, s', e, -, l, h⟩ := ran2_unit hw n (start_good h0 h1)
  exact ⟨us, s', e, l, h⟩

example : ∃ us s', draws 64 5 (start 3) = .ok (us, s') ∧ us.length = 5 ∧ ∀ u ∈ us, 0 < u ∧ u < 1 :=
  ran2_seed (by norm_num) _ (by norm_num) (by norm_num)

/-- **C132** fails for the one seed below: its negative does not fit into 32 bits. -/
theorem ran2_seed_false : ran2 32 (start (-2147483648)) = .ub := by
  unfold ran2
  rw [if_pos (by decide)]
  unfold init
  rw [if_neg (by decide)]
  rfl

/-! ## Different seeds -/

theorem mul_inj {a x y : ℤ} (ha : IsCoprime a IM1) (hx0 : 0 ≤ x) (hx : x < IM1) (hy0 : 0 ≤ y) (hy : y < IM1) (h : a * x % IM1 = a * y % IM1) : x = y := by
  have h1 : IM1 ∣ a * (x - y) := by
    rw [mul_sub]; exact Int.dvd_of_emod_eq_zero (Int.emod_eq_emod_iff_emod_sub_eq_zero.1 h)
  have h2 : IM1 ∣ x - y := ha.symm.dvd_of_dvd_mul_left h1
  have h3 := Int.eq_zero_of_abs_lt_dvd h2 (by rw [abs_lt]; constructor <;> omega)
  omega

theorem coprime1 : IsCoprime IA1 IM1 := ⟨2082061899, -38795, by norm_num⟩

/-- **C132.** The value of the first generator after `n+1` calls, for a seed `-x` with `0 < x < IM1`: the power of the multiplier. -/
theorem ran2_power {w : ℕ} (hw : 32 ≤ w) {x : ℤ} (h0 : 0 < x) (h1 : x < IM1) (n : ℕ) : ∃ us s', draws w (n + 1) (start (-x)) = .ok (us, s') ∧
    Good s' ∧ 0 < s'.idum ∧ s'.idum = IA1 ^ (n + 41) * x % IM1 := by
  have nz : ∀ k : ℕ, 0 < IA1 ^ k * x % IM1 := by
    intro k
    rcases (Int.emod_nonneg (IA1 ^ k * x) (b := IM1) (by norm_num)).lt_or_eq with c | c
    · exact c
    · have := mul_inj (a := IA1 ^ k) (coprime1.pow_left) h0.le h1 (le_refl 0) (by norm_num) (by rw [← c]; simp)
      omega
  have one : ∀ (k : ℕ) (s : Ran), Good s → s.idum = IA1 ^ k * x % IM1 → ∃ u s', ran2 w s = .ok (u, s') ∧ Good s' ∧
      s'.idum = IA1 ^ (k + 1) * x % IM1 := by
    intro k s g e
    obtain ⟨u, s', e', g', -, -, ei⟩ := ran2_good hw g
    refine ⟨u, s', e', g', ?_⟩
    rw [ei, if_neg (by rw [e]; exact not_le.2 (nz k)), e, Int.mul_emod, Int.emod_emod_of_dvd _ (dvd_refl _), ← Int.mul_emod, pow_succ]
    congr 1; ring
  have more : ∀ (m k : ℕ) (s : Ran), Good s → s.idum = IA1 ^ k * x % IM1 → ∃ us s', draws w m s = .ok (us, s') ∧ Good s' ∧
      s'.idum = IA1 ^ (k + m) * x % IM1 := by
    intro m
    induction m with
    | zero => intro k s g e; exact ⟨[], s, rfl, g, e⟩
    | succ m ih =>
      intro k s g e
      obtain ⟨u, t, e1, g1, i1⟩ := one k s g e
      obtain ⟨us, s', e2, g2, i2⟩ := ih (k + 1) t g1 i1
      refine ⟨u :: us, s', ?_, g2, by rw [i2]; congr 3; omega⟩
      unfold draws
      rw [e1]
      show (draws w m t).bind _ = _
      rw [e2]; rfl
  obtain ⟨u, t, e, g, -, -, ei⟩ := ran2_good hw (start_good (x := -x) (by omega) (by omega))
  have e0 : (start (-x)).idum = -x := rfl
  rw [e0, if_pos (by omega), if_neg (by omega), neg_neg, Int.mul_emod, Int.emod_emod_of_dvd _ (dvd_refl _), ← Int.mul_emod] at ei
  obtain ⟨us, s', e2, g2, i2⟩ := more n 41 t g (by rw [ei, pow_succ]; congr 1; ring)
  refine ⟨u :: us, s', ?_, g2, by rw [i2]; exact nz _, by rw [i2]; congr 3; omega⟩
  unfold draws
  rw [e]
  show (draws w n t).bind _ = _
  rw [e2]; rfl

/-- **C132.** Two processes with different seeds never have the same value in the first generator, after any number of calls. -/
theorem ran2_streams {w : ℕ} (hw : 32 ≤ w) {x y : ℤ} (hx0 : 0 < x) (hx1 : x < IM1) (hy0 : 0 < y) (hy1 : y < IM1) (hxy : x ≠ y) (n : ℕ)
    {us vs : List ℚ} {s t : Ran} (hs : draws w (n + 1) (start (-x)) = .ok (us, s)) (ht : draws w (n + 1) (start (-y)) = .ok (vs, t)) :
    s.idum ≠ t.idum := by
  obtain ⟨_, s', e, -, -, i⟩ := ran2_power hw hx0 hx1 n
  obtain ⟨_, t', e', -, -, i'⟩ := ran2_power hw hy0 hy1 n
  rw [hs] at e; rw [ht] at e'
  have es := (Prod.mk.inj (Res.ok.inj e)).2
  have et := (Prod.mk.inj (Res.ok.inj e')).2
  rw [es, et, i, i']
  intro c
  exact hxy (mul_inj (a := IA1 ^ (n + 41)) coprime1.pow_left hx0.le hx1 hy0.le hy1 c)

example : ∃ us s vs t, draws 64 101 (start (-1)) = .ok (us, s) ∧ draws 64 101 (start (-2)) = .ok (vs, t) ∧ s.idum ≠ t.idum := by
  obtain ⟨us, s, e, -⟩ := ran2_power (w := 64) (x := 1) (by norm_num) (by norm_num) (by norm_num) 100
  obtain ⟨vs, t, e', -⟩ := ran2_power (w := 64) (x := 2) (by norm_num) (by norm_num) (by norm_num) 100
  exact ⟨us, s, vs, t, e, e', ran2_streams (by norm_num) (by norm_num) (by norm_num) (by norm_num) (by norm_num) (by norm_num) 100 e e'⟩

/-! ## The seeds of the processes -/

/-- **C132.** In a Domain of fewer than 2³¹ zones the Grids of different positions get different seeds, all negative, so that the first call
initialises. -/
theorem grid_seed {nx d e : Fin 3 → ℤ} (hd : ∀ n, 0 ≤ d n ∧ d n < nx n) (he : ∀ n, 0 ≤ e n ∧ e n < nx n) (hn : nx 0 * (nx 1 * nx 2) < 2147483648) :
    ∃ x y, gridSeed nx d = .ok x ∧ gridSeed nx e = .ok y ∧ -2147483648 ≤ x ∧ x < 0 ∧ (x = y → d = e) := by
  have key : ∀ d : Fin 3 → ℤ, (∀ n, 0 ≤ d n ∧ d n < nx n) → 0 ≤ nx 1 * d 2 ∧ 0 ≤ nx 0 * (d 1 + nx 1 * d 2) ∧
      nx 1 * d 2 + d 1 ≤ nx 1 * nx 2 - 1 ∧ d 0 + nx 0 * (d 1 + nx 1 * d 2) ≤ nx 0 * (nx 1 * nx 2) - 1 ∧
      nx 1 * d 2 + d 1 ≤ nx 0 * (d 1 + nx 1 * d 2) := by
    intro d hd
    have a0 := hd 0; have a1 := hd 1; have a2 := hd 2
    have p1 : 0 ≤ nx 1 * d 2 := mul_nonneg (by omega) (by omega)
    have p2 : nx 1 * d 2 ≤ nx 1 * (nx 2 - 1) := mul_le_mul_of_nonneg_left (by omega) (by omega)
    have p3 : nx 1 * d 2 + d 1 ≤ nx 1 * nx 2 - 1 := by nlinarith
    have p4 : nx 0 * (d 1 + nx 1 * d 2) ≤ nx 0 * (nx 1 * nx 2 - 1) := mul_le_mul_of_nonneg_left (by omega) (by omega)
    have p5 : 1 * (d 1 + nx 1 * d 2) ≤ nx 0 * (d 1 + nx 1 * d 2) := mul_le_mul_of_nonneg_right (by omega) (by omega)
    exact ⟨p1, mul_nonneg (by omega) (by omega), p3, by nlinarith, by linarith⟩
  have val : ∀ d : Fin 3 → ℤ, (∀ n, 0 ≤ d n ∧ d n < nx n) → gridSeed nx d = .ok (-1 - (d 0 + nx 0 * (d 1 + nx 1 * d 2))) := by
    intro d hd
    obtain ⟨q1, q2, q3, q4, q5⟩ := key d hd
    have a0 := hd 0; have a1 := hd 1
    unfold gridSeed
    dsimp only
    rw [if_pos ⟨fits_of (le_refl _) (by linarith) (by linarith), fits_of (le_refl _) (by linarith) (by linarith),
      fits_of (le_refl _) (by linarith) (by linarith), fits_of (le_refl _) (by linarith) (by linarith),
      fits_of (le_refl _) (by linarith) (by linarith)⟩]
  obtain ⟨q1, q2, q3, q4, q5⟩ := key d hd
  have a0 := hd 0
  refine ⟨_, _, val d hd, val e he, by linarith, by linarith, fun h => ?_⟩
  have b0 := he 0; have a1 := hd 1; have b1 := he 1
  have h' : d 0 + nx 0 * (d 1 + nx 1 * d 2) = e 0 + nx 0 * (e 1 + nx 1 * e 2) := by linarith
  have m0 : d 0 = e 0 := by
    have := congrArg (· % nx 0) h'
    simp only [Int.add_mul_emod_self_left] at this
    rwa [Int.emod_eq_of_lt a0.1 a0.2, Int.emod_eq_of_lt b0.1 b0.2] at this
  rw [m0] at h'
  have n0 : nx 0 ≠ 0 := by omega
  have h1 : d 1 + nx 1 * d 2 = e 1 + nx 1 * e 2 := mul_left_cancel₀ n0 (by linarith)
  have m1 : d 1 = e 1 := by
    have := congrArg (· % nx 1) h1
    simp only [Int.add_mul_emod_self_left] at this
    rwa [Int.emod_eq_of_lt a1.1 a1.2, Int.emod_eq_of_lt b1.1 b1.2] at this
  rw [m1] at h1
  have m2 : d 2 = e 2 := mul_left_cancel₀ (show nx 1 ≠ 0 by omega) (by linarith)
  funext n
  match n with
  | 0 => exact m0
  | 1 => exact m1
  | 2 => exact m2

example : ∃ x y, gridSeed (fun _ => 64) (fun _ => 0) = .ok x ∧ gridSeed (fun _ => 64) (fun _ => 32) = .ok y ∧ -2147483648 ≤ x ∧ x < 0 ∧
    (x = y → (fun _ => 0 : Fin 3 → ℤ) = fun _ => 32) :=
  grid_seed (fun _ => by norm_num) (fun _ => by norm_num) (by norm_num)

/-- **C132** fails for larger Domains: the seed of the last of 2 x 2 x 2 Grids of a Domain of 2048 zones in each direction overflows. -/
theorem grid_seed_false : ¬∀ (nx d : Fin 3 → ℤ), (∀ n, 0 ≤ d n ∧ d n < nx n) → ∃ x, gridSeed nx d = .ok x := by
  intro h
  obtain ⟨x, hx⟩ := h (fun _ => 2048) (fun _ => 1024) (fun _ => by norm_num)
  revert hx
  unfold gridSeed
  dsimp only
  rw [if_neg (by decide)]
  exact fun h => nomatch h

/-- The state after some calls without initialisation: the slots of the table outside `L` are untouched. -/
structure Raw (s : Ran) (c y : ℤ) (L : List ℕ) : Prop where
  good : Good s
  pos : 0 < s.idum
  c : s.idum2 = c
  y : s.iy = y
  v : ∀ j, j ∉ L → s.iv j = 0

theorem raw_step {w : ℕ} (hw : 32 ≤ w) {s : Ran} {c y : ℤ} {L : List ℕ} (h : Raw s c y L) (h1 : s.idum < IM1) (hj : (y / NDIV).toNat ∉ L)
    (hc : 0 < IA2 * c % IM2) :
    ∃ s', ran2 w s = .ok (if (1 / IM1 * ((IM1 - 1 - IA2 * c % IM2 : ℤ) : ℚ) : ℚ) > rnmx then rnmx else 1 / IM1 * ((IM1 - 1 - IA2 * c % IM2 : ℤ) : ℚ), s') ∧
      Raw s' (IA2 * c % IM2) (IM1 - 1 - IA2 * c % IM2) ((y / NDIV).toNat :: L) ∧ s'.idum < IM1 := by
  have g := h.good
  obtain ⟨u, s', e, g', -, -, -⟩ := ran2_good hw g
  have a1 := Int.emod_lt_of_pos (IA1 * s.idum) (b := IM1) (by norm_num)
  have a0 : 0 < IA1 * s.idum % IM1 := by
    rcases (Int.emod_nonneg (IA1 * s.idum) (b := IM1) (by norm_num)).lt_or_eq with c | c
    · exact c
    · have := mul_inj (a := IA1) coprime1 h.pos.le h1 (le_refl 0) (by norm_num) (by rw [← c]; simp)
      have := h.pos
      omega
  have ej : s.iy.tdiv NDIV = y / NDIV := by rw [Int.tdiv_eq_ediv_of_nonneg g.y0, h.y]
  have j0 : 0 ≤ y / NDIV := by rw [← h.y]; exact Int.ediv_nonneg g.y0 (by norm_num)
  have j1 : y / NDIV < 32 := by
    have := g.y1
    rw [h.y] at this
    apply Int.ediv_lt_of_lt_mul (by norm_num)
    norm_num; omega
  have b1 := Int.emod_lt_of_pos (IA2 * c) (b := IM2) (by norm_num)
  have er : ran2 w s = .ok (if (1 / IM1 * ((IM1 - 1 - IA2 * c % IM2 : ℤ) : ℚ) : ℚ) > rnmx then rnmx else 1 / IM1 * ((IM1 - 1 - IA2 * c % IM2 : ℤ) : ℚ),
      ⟨IA1 * s.idum % IM1, IA2 * c % IM2, IM1 - 1 - IA2 * c % IM2, Function.update s.iv (y / NDIV).toNat (IA1 * s.idum % IM1)⟩) := by
    unfold ran2
    rw [if_neg (by have := h.pos; omega)]
    show ((schrage w IA1 IQ1 IR1 IM1 s.idum).bind fun a => _) = _
    rw [schrage1 hw h.pos.le g.i1]
    show ((schrage w IA2 IQ2 IR2 IM2 s.idum2).bind fun b => _) = _
    rw [schrage2 hw g.j0 g.j1, h.c]
    show (if 0 ≤ s.iy.tdiv NDIV ∧ s.iy.tdiv NDIV < 32 then _ else Res.ub) = _
    rw [ej, if_pos ⟨j0, j1⟩, h.v _ hj, if_pos (show (0 - IA2 * c % IM2 : ℤ) < 1 by omega)]
    have : (0 - IA2 * c % IM2 + (IM1 - 1) : ℤ) = IM1 - 1 - IA2 * c % IM2 := by ring
    rw [this]
  refine ⟨_, er, ⟨?_, a0, rfl, rfl, ?_⟩, a1⟩
  · rw [er] at e
    have := (Prod.mk.inj (Res.ok.inj e)).2
    rw [this]; exact g'
  · intro j hj'
    dsimp only
    rw [Function.update_of_ne (fun c => hj' (by rw [c]; exact List.mem_cons_self ..))]
    exact h.v j (fun c => hj' (List.mem_cons_of_mem _ c))

theorem raw_next {w : ℕ} (hw : 32 ≤ w) {s : Ran} {c y c' y' : ℤ} {j : ℕ} {L : List ℕ} (h : Raw s c y L) (h1 : s.idum < IM1)
    (hj : (y / NDIV).toNat = j) (hL : j ∉ L) (hc : IA2 * c % IM2 = c') (hc0 : 0 < c') (hy : IM1 - 1 - c' = y') :
    ∃ s', ran2 w s = .ok (if (1 / IM1 * (y' : ℚ) : ℚ) > rnmx then rnmx else 1 / IM1 * (y' : ℚ), s') ∧ Raw s' c' y' (j :: L) ∧ s'.idum < IM1 := by
  subst hj hc hy
  exact raw_step hw h h1 hL hc0

/-- The first eight numbers of a process with a positive seed. -/
def eight : List ℤ := [1407495835, 431633857, 1919039389, 605346718, 1127429693, 674582086, 954804861, 643116471]

theorem unseeded_eight {w : ℕ} (hw : 32 ≤ w) {x : ℤ} (hx : 0 < x) (hx1 : x < IM1) :
    ∃ s, draws w 8 (start x) = .ok (eight.map (fun y : ℤ => if (1 / IM1 * (y : ℚ) : ℚ) > rnmx then rnmx else 1 / IM1 * (y : ℚ)), s) := by
  have step := @raw_next w hw
  obtain ⟨s1, e1, r1, i1⟩ := step (c := 123456789) (y := 0) (L := []) (c' := 739987727) (y' := 1407495835) (j := 0) ⟨start_good (by omega) (by omega), hx, rfl, rfl, fun _ _ => rfl⟩ hx1 (by decide) (by decide) (by decide) (by decide) (by decide)
  obtain ⟨s2, e2, r2, i2⟩ := step (c := 739987727) (y := 1407495835) (L := [0]) (c' := 1715849705) (y' := 431633857) (j := 20) r1 i1 (by decide) (by decide) (by decide) (by decide) (by decide)
  obtain ⟨s3, e3, r3, i3⟩ := step (c := 1715849705) (y := 431633857) (L := [20, 0]) (c' := 228444173) (y' := 1919039389) (j := 6) r2 i2 (by decide) (by decide) (by decide) (by decide) (by decide)
  obtain ⟨s4, e4, r4, i4⟩ := step (c := 228444173) (y := 1919039389) (L := [6, 20, 0]) (c' := 1542136844) (y' := 605346718) (j := 28) r3 i3 (by decide) (by decide) (by decide) (by decide) (by decide)
  obtain ⟨s5, e5, r5, i5⟩ := step (c := 1542136844) (y := 605346718) (L := [28, 6, 20, 0]) (c' := 1020053869) (y' := 1127429693) (j := 9) r4 i4 (by decide) (by decide) (by decide) (by decide) (by decide)
  obtain ⟨s6, e6, r6, i6⟩ := step (c := 1020053869) (y := 1127429693) (L := [9, 28, 6, 20, 0]) (c' := 1472901476) (y' := 674582086) (j := 16) r5 i5 (by decide) (by decide) (by decide) (by decide) (by decide)
  obtain ⟨s7, e7, r7, i7⟩ := step (c := 1472901476) (y := 674582086) (L := [16, 9, 28, 6, 20, 0]) (c' := 1192678701) (y' := 954804861) (j := 10) r6 i6 (by decide) (by decide) (by decide) (by decide) (by decide)
  obtain ⟨s8, e8, r8, i8⟩ := step (c := 1192678701) (y := 954804861) (L := [10, 16, 9, 28, 6, 20, 0]) (c' := 1504367091) (y' := 643116471) (j := 14) r7 i7 (by decide) (by decide) (by decide) (by decide) (by decide)
  refine ⟨s8, ?_⟩
  simp only [draws, e1, e2, e3, e4, e5, e6, e7, e8, Res.bind, eight, List.map]

/-- **C132** fails for the programs that seed with the rank: a positive seed does not initialise the generator, and all processes but the first draw
the same eight numbers. -/
theorem rank_seed_false : ¬∀ (w : ℕ) (r r' : ℕ), 32 ≤ w → r ≠ r' → ∀ us vs s t, draws w 8 (start (rankSeed r)) = .ok (us, s) →
    draws w 8 (start (rankSeed r')) = .ok (vs, t) → us ≠ vs := by
  intro h
  obtain ⟨s, e⟩ := unseeded_eight (w := 64) (x := rankSeed 1) (by norm_num) (by decide) (by decide)
  obtain ⟨t, e'⟩ := unseeded_eight (w := 64) (x := rankSeed 2) (by norm_num) (by decide) (by decide)
  exact h 64 1 2 (by norm_num) (by norm_num) _ _ _ _ e e' rfl

/-- **C132** (how bad it is): the same eight numbers for every rank from 1. -/
theorem rank_same {w : ℕ} (hw : 32 ≤ w) {r r' : ℕ} (h0 : 0 < r) (h1 : (r : ℤ) < IM1) (h0' : 0 < r') (h1' : (r' : ℤ) < IM1) :
    ∃ us s t, draws w 8 (start (rankSeed r)) = .ok (us, s) ∧ draws w 8 (start (rankSeed r')) = .ok (us, t) := by
  obtain ⟨s, e⟩ := unseeded_eight (w := w) (x := rankSeed r) hw (by unfold rankSeed; omega) h1
  obtain ⟨t, e'⟩ := unseeded_eight (w := w) (x := rankSeed r') hw (by unfold rankSeed; omega) h1'
  exact ⟨_, s, t, e, e'⟩

example : ∃ us s t, draws 64 8 (start (rankSeed 1)) = .ok (us, s) ∧ draws 64 8 (start (rankSeed 17)) = .ok (us, t) :=
  rank_same (by norm_num) (by norm_num) (by norm_num) (by norm_num) (by norm_num)

/-- **C132.** A perturbation `amp*(ran2-0.5)` (kh.c:67-73, hgb.c:199-213) is smaller than half its amplitude. -/
theorem ran2_perturb {w : ℕ} (hw : 32 ≤ w) {s : Ran} (g : Good s) {amp : ℚ} (ha : 0 < amp) :
    ∃ u s', ran2 w s = .ok (u, s') ∧ |amp * (u - 1 / 2)| < amp / 2 := by
  obtain ⟨u, s', e, -, u0, u1, -⟩ := ran2_good hw g
  refine ⟨u, s', e, ?_⟩
  have : u < 1 := u1
  rw [abs_lt]
  constructor <;> nlinarith

example : ∃ u s', ran2 64 (start (-1)) = .ok (u, s') ∧ |(1 / 10 : ℚ) * (u - 1 / 2)| < 1 / 10 / 2 :=
  ran2_perturb (by norm_num) (start_good (by norm_num) (by norm_num)) (by norm_num)

end Athena.Prob
