import Verif.Base
import Mathlib.Analysis.SpecialFunctions.Pow.Real
import Mathlib.Analysis.Calculus.Deriv.Add
import Mathlib.Analysis.Calculus.Deriv.Inv
import Mathlib.Analysis.Calculus.Deriv.Pow
import Mathlib.Tactic.FieldSimp
import Mathlib.Tactic.Linarith
import Mathlib.Tactic.LinearCombination

/-!
# The Noh strong shock: prob/noh.c

The initial state and the three boundary functions, which hold the ghost zones at the right at the known solution ahead of the shock.

Simplifications: real numbers instead of floating-point numbers; the division by zero in a zone with its centre at the origin is undefined behaviour (the code
computes NaN there); the loops are given by what they leave in each zone.
-/

namespace Athena.Noh

/-- `ConsS` without fields. -/
@[ext] structure Zone where
  d : ℝ
  M1 : ℝ
  M2 : ℝ
  M3 : ℝ
  E : ℝ

/-- noh.c:61-65, 154-160, 200-206, 242: `three` is `Nx[2] > 1`. -/
noncomputable def rad (three : Bool) (x1 x2 x3 : ℝ) : ℝ :=
  if three then Real.sqrt (x1 * x1 + x2 * x2 + x3 * x3) else Real.sqrt (x1 * x1 + x2 * x2)

open Classical in
/-- `problem` in one zone, noh.c:60-75. -/
noncomputable def start (three : Bool) (γ x1 x2 x3 : ℝ) : Res Zone :=
  let r := rad three x1 x2 x3
  if r = 0 then .ub
  else .ok ⟨1, -x1 / r, -x2 / r, if three then -x3 / r else 0, 0.000001 / (γ - 1) + 0.5⟩

open Classical in
/-- The boundary functions in one ghost zone, noh.c:152-174, 198-220, 240-251: the three are alike (`noh3d_okb` is only used in three dimensions). -/
noncomputable def ghost (three : Bool) (γ time x1 x2 x3 : ℝ) : Res Zone :=
  let r := rad three x1 x2 x3
  if r = 0 then .ub
  else
    let f_t := if three then (1 + time / r) * (1 + time / r) else 1 + time / r
    let d0 := 1 * f_t
    .ok ⟨d0, -x1 * d0 / r, -x2 * d0 / r, if three then -x3 * d0 / r else 0,
      if three then 0.000001 * f_t ^ (1 + γ) / (γ - 1) + 0.5 * d0 else 0.000001 / (γ - 1) + 0.5 * d0⟩

/-- Which zones a boundary function sets, noh.c:136-150, 182-196, 230-238: direction `a`, from the first ghost zone at the right; all zones, with ghost zones, in
the other directions. -/
def sets (three : Bool) (ng : ℤ) (lo hi : Fin 3 → ℤ) (a : Fin 3) (p : Fin 3 → ℤ) : Prop :=
  ∀ b, if b = a then hi b + 1 ≤ p b ∧ p b ≤ hi b + ng
    else if b = 2 ∧ three = false then lo b ≤ p b ∧ p b ≤ hi b
    else lo b - ng ≤ p b ∧ p b ≤ hi b + ng

/-! ## Specification -/

/-- Density at distance `r` of a cold gas that started at density 1 everywhere and falls with speed 1 to an axis (`n = 1`) or a centre (`n = 2`). -/
noncomputable def density (n : ℕ) (t r : ℝ) : ℝ := (1 + t / r) ^ n

/-- One for an axis, two for a centre. -/
def dim (three : Bool) : ℕ := if three then 2 else 1

/-- Pressure of a gas with index `γ`. -/
noncomputable def pres (γ : ℝ) (z : Zone) : ℝ := (γ - 1) * (z.E - (z.M1 ^ 2 + z.M2 ^ 2 + z.M3 ^ 2) / (2 * z.d))

/-- A zone off the axis or centre. -/
def Off (three : Bool) (x1 x2 x3 : ℝ) : Prop := x1 ≠ 0 ∨ x2 ≠ 0 ∨ (three = true ∧ x3 ≠ 0)

/-- Distance from the axis or the centre. -/
def IsDist (three : Bool) (x1 x2 x3 r : ℝ) : Prop := 0 ≤ r ∧ r ^ 2 = x1 ^ 2 + x2 ^ 2 + (if three then x3 ^ 2 else 0)

/-! ## Lemmas -/

theorem rad_dist (three : Bool) (x1 x2 x3 : ℝ) : IsDist three x1 x2 x3 (rad three x1 x2 x3) := by
  unfold IsDist rad
  cases three
  · simp only [Bool.false_eq_true, if_false]
    exact ⟨Real.sqrt_nonneg _, by rw [Real.sq_sqrt (by nlinarith [mul_self_nonneg x1, mul_self_nonneg x2])]; ring⟩
  · simp only [if_true]
    exact ⟨Real.sqrt_nonneg _, by rw [Real.sq_sqrt (by nlinarith [mul_self_nonneg x1, mul_self_nonneg x2, mul_self_nonneg x3])]; ring⟩

theorem dist_unique {three : Bool} {x1 x2 x3 r s : ℝ} (hr : IsDist three x1 x2 x3 r) (hs : IsDist three x1 x2 x3 s) : r = s := by
  have : r ^ 2 = s ^ 2 := hr.2.trans hs.2.symm
  exact (pow_left_inj₀ hr.1 hs.1 (by norm_num)).1 this

theorem rad_pos {three : Bool} {x1 x2 x3 : ℝ} (h : Off three x1 x2 x3) : 0 < rad three x1 x2 x3 := by
  obtain ⟨h0, h1⟩ := rad_dist three x1 x2 x3
  rcases eq_or_lt_of_le h0 with e | e
  · exfalso
    rw [← e] at h1
    have hc : 0 ≤ (if three then x3 ^ 2 else 0 : ℝ) := by split_ifs <;> positivity
    have a1 : x1 = 0 := by nlinarith [sq_nonneg x1, sq_nonneg x2]
    have a2 : x2 = 0 := by nlinarith [sq_nonneg x1, sq_nonneg x2]
    rcases h with h | h | ⟨ht, h⟩
    · exact h a1
    · exact h a2
    · rw [if_pos ht] at h1
      apply h
      nlinarith [sq_nonneg x1, sq_nonneg x2, sq_nonneg x3]
  · exact e

/-! ## Properties -/

/-- **C144.** At the start the gas has density 1, falls with speed 1 to the axis or the centre, and has pressure `10⁻⁶`. -/
theorem start_state {three : Bool} {γ x1 x2 x3 r : ℝ} (hγ : γ ≠ 1) (h : Off three x1 x2 x3) (hr : IsDist three x1 x2 x3 r) :
    ∃ z, start three γ x1 x2 x3 = .ok z ∧ z.d = 1 ∧ z.M1 = z.d * (-x1 / r) ∧ z.M2 = z.d * (-x2 / r) ∧ z.M3 = z.d * (if three then -x3 / r else 0) ∧
      pres γ z = 0.000001 := by
  have hp := rad_pos h
  have e := dist_unique hr (rad_dist three x1 x2 x3)
  subst e
  have h2 := (rad_dist three x1 x2 x3).2
  set r := rad three x1 x2 x3 with hrd
  have hg : γ - 1 ≠ 0 := sub_ne_zero.2 hγ
  refine ⟨_, if_neg hp.ne', rfl, by rw [one_mul], by rw [one_mul], by rw [one_mul], ?_⟩
  unfold pres
  dsimp only
  have hs : (-x1 / r) ^ 2 + (-x2 / r) ^ 2 + (if three then -x3 / r else 0 : ℝ) ^ 2 = 1 := by
    cases three
    · simp only [Bool.false_eq_true, if_false] at h2 ⊢
      field_simp
      linarith
    · simp only [if_true] at h2 ⊢
      field_simp
      linarith
  rw [← hrd, hs]
  field_simp
  ring

/-- **C144.** At any time the ghost zones have the density of the cold inflow and its velocity. -/
theorem ghost_state_partial {three : Bool} {γ t x1 x2 x3 r : ℝ} (h : Off three x1 x2 x3) (hr : IsDist three x1 x2 x3 r) :
    ∃ z, ghost three γ t x1 x2 x3 = .ok z ∧ z.d = density (dim three) t r ∧ z.M1 = z.d * (-x1 / r) ∧ z.M2 = z.d * (-x2 / r) ∧
      z.M3 = z.d * (if three then -x3 / r else 0) := by
  have hp := rad_pos h
  have e := dist_unique hr (rad_dist three x1 x2 x3)
  subst e
  refine ⟨_, if_neg hp.ne', ?_, ?_, ?_, ?_⟩ <;> cases three <;> simp [density, dim] <;> ring

/-- **C144.** That density is the solution: it is 1 at the start, and mass is conserved by a flow with speed 1 to the axis (`n = 1`) or the centre (`n = 2`). -/
theorem density_solves (n : ℕ) {t r : ℝ} (hr : 0 < r) :
    density n 0 r = 1 ∧ ∃ D, HasDerivAt (fun t => density n t r) D t ∧ HasDerivAt (fun r => r ^ n * (density n t r * -1)) (-(r ^ n * D)) r := by
  refine ⟨by simp [density], n * (1 + t / r) ^ (n - 1) * (1 / r), ?_, ?_⟩
  · unfold density
    have h1 : HasDerivAt (fun x : ℝ => 1 + x / r) (1 / r) t := ((hasDerivAt_id t).div_const r).const_add 1
    exact h1.fun_pow n
  · have e : (fun s : ℝ => s ^ n * (density n t s * -1)) =ᶠ[nhds r] fun s => -((s + t) ^ n) := by
      filter_upwards [lt_mem_nhds hr] with s hs
      unfold density
      rw [mul_neg_one, mul_neg, ← mul_pow]
      congr 2
      field_simp
    refine HasDerivAt.congr_of_eventuallyEq ?_ e
    have h1 : HasDerivAt (fun x : ℝ => x + t) 1 r := (hasDerivAt_id r).add_const t
    have h2 : HasDerivAt (fun x : ℝ => -((x + t) ^ n)) (-(n * (r + t) ^ (n - 1) * 1)) r := HasDerivAt.neg (h1.fun_pow n)
    have : -(r ^ n * (n * (1 + t / r) ^ (n - 1) * (1 / r))) = -(n * (r + t) ^ (n - 1) * 1) := by
      have hr' := hr.ne'
      rcases n with _ | n
      · simp
      · rw [Nat.add_sub_cancel, show (1 + t / r) = (r + t) / r by field_simp, div_pow]
        field_simp
        ring
    rw [this]; exact h2

/-- At the start the ghost zones continue the state inside. -/
theorem ghost_start (three : Bool) (γ x1 x2 x3 : ℝ) : ghost three γ 0 x1 x2 x3 = start three γ x1 x2 x3 := by
  unfold ghost start
  dsimp only
  split_ifs <;> simp

/-- **C144** fails of the pressure: ahead of the shock there is no heating and the pressure must grow as the density to the power `γ`.  In three dimensions the
exponent is larger by one; in two dimensions the pressure stays as it was. -/
theorem pressure_false {γ t x1 x2 x3 r : ℝ} (hγ : 1 < γ) (ht : 0 < t) {three : Bool} (h : Off three x1 x2 x3) (hr : IsDist three x1 x2 x3 r) :
    ∃ z, ghost three γ t x1 x2 x3 = .ok z ∧ pres γ z ≠ 0.000001 * z.d ^ γ ∧
      pres γ z = 0.000001 * (if three then z.d ^ (γ + 1) else 1) := by
  have hp := rad_pos h
  have e := dist_unique hr (rad_dist three x1 x2 x3)
  subst e
  have h2 := (rad_dist three x1 x2 x3).2
  set r := rad three x1 x2 x3 with hrd
  have hg : γ - 1 ≠ 0 := by linarith
  have h1 : 1 < 1 + t / r := by have := div_pos ht hp; linarith
  obtain ⟨f, hf⟩ : ∃ f : ℝ, f = if three then (1 + t / r) * (1 + t / r) else 1 + t / r := ⟨_, rfl⟩
  have f1 : 1 < f := by rw [hf]; split_ifs <;> nlinarith
  have key : pres γ ⟨1 * f, -x1 * (1 * f) / r, -x2 * (1 * f) / r, if three then -x3 * (1 * f) / r else 0,
      if three then 0.000001 * f ^ (1 + γ) / (γ - 1) + 0.5 * (1 * f) else 0.000001 / (γ - 1) + 0.5 * (1 * f)⟩
      = 0.000001 * (if three then f ^ (γ + 1) else 1) := by
    unfold pres
    dsimp only
    have hs : (-x1 * (1 * f) / r) ^ 2 + (-x2 * (1 * f) / r) ^ 2 + (if three then -x3 * (1 * f) / r else 0 : ℝ) ^ 2 = f ^ 2 := by
      cases three
      · simp only [Bool.false_eq_true, if_false] at h2 ⊢
        field_simp
        rw [h2]; ring
      · simp only [if_true] at h2 ⊢
        field_simp
        rw [h2]
    rw [hs, one_mul, show f ^ 2 / (2 * f) = f / 2 by field_simp, add_comm 1 γ]
    split_ifs <;> field_simp <;> ring
  refine ⟨_, (if_neg hp.ne').trans (by rw [← hf]), ?_, ?_⟩
  · rw [key]
    dsimp only
    rw [one_mul]
    have g1 : (1 : ℝ) < f ^ γ := Real.one_lt_rpow f1 (by linarith)
    intro he
    have he := mul_left_cancel₀ (by norm_num) he
    split_ifs at he
    · rw [Real.rpow_add (by linarith), Real.rpow_one] at he
      nlinarith
    · linarith
  · rw [key]; dsimp only; rw [one_mul]

/-- **C144** fails in a zone with its centre at the origin (an odd number of zones on a Domain with its centre there). -/
theorem origin_false (γ x3 : ℝ) : start false γ 0 0 x3 = .ub := by
  unfold start rad
  simp

/-- **C144.** The three functions together set every ghost zone at the right, corners included; no zone that is active in all directions. -/
theorem right_covered (ng : ℤ) (lo hi : Fin 3 → ℤ) (p : Fin 3 → ℤ) (hp : ∀ b, lo b - ng ≤ p b ∧ p b ≤ hi b + ng) :
    (∃ a, sets true ng lo hi a p) ↔ ∃ a, hi a < p a := by
  constructor
  · rintro ⟨a, h⟩
    have := h a
    rw [if_pos rfl] at this
    exact ⟨a, by omega⟩
  · rintro ⟨a, h⟩
    refine ⟨a, fun b => ?_⟩
    split_ifs with h1 h2
    · subst h1; exact ⟨by omega, (hp b).2⟩
    · exact absurd h2.2 (by simp)
    · exact hp b

/-! ## An example -/

example : Off true 3 4 12 ∧ IsDist true 3 4 12 13 ∧ Off false 3 4 1 ∧ IsDist false 3 4 1 5 := by
  refine ⟨.inl (by norm_num), ⟨by norm_num, by norm_num⟩, .inl (by norm_num), ⟨by norm_num, by norm_num⟩⟩
example : ∃ a, sets true 4 (fun _ => 4) (fun _ => 13) a (fun _ => 14) := (right_covered _ _ _ _ (by intro; omega)).2 ⟨0, by norm_num⟩
example : (1 : ℝ) < 5 / 3 ∧ (0 : ℝ) < 2 := by norm_num

end Athena.Noh
