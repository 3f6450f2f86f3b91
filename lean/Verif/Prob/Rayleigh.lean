import Verif.Base
import Mathlib.Analysis.SpecialFunctions.Pow.Deriv
import Mathlib.Analysis.SpecialFunctions.Log.Deriv
import Mathlib.Tactic.FieldSimp
import Mathlib.Tactic.Linarith
import Mathlib.Tactic.NormNum
import Mathlib.Tactic.Ring
import Mathlib.Tactic.Positivity

/-!
# A rotating flow in cylindrical coordinates: prob/cylrayleigh.c

The rotation, the field, the potential and what is enrolled.  Simplifications: real numbers instead of floating-point numbers; point values instead of the averages of `avg1d`;
no noise.
-/

namespace Athena.Rayleigh

/-- The input, cylrayleigh.c:77-83, and `Gamma`. -/
structure Input where
  γ : ℝ
  omega0 : ℝ
  q : ℝ
  rho0 : ℝ
  pgas0 : ℝ
  bphi0 : ℝ

/-- `Omega`, cylrayleigh.c:22-24. -/
noncomputable def Input.Omega (I : Input) (R : ℝ) : ℝ := I.omega0 / R ^ I.q

/-- `Shear`, cylrayleigh.c:25-27. -/
def Input.Shear (I : Input) (_R : ℝ) : ℝ := I.q

/-- `vphi`, cylrayleigh.c:29-31. -/
noncomputable def Input.vphi (I : Input) (R : ℝ) : ℝ := R * I.Omega R

/-- `B2c`, cylrayleigh.c:113. -/
noncomputable def Input.bphi (I : Input) (R : ℝ) : ℝ := I.bphi0 / R

open Classical in
/-- `grav_pot`, cylrayleigh.c:195-203. -/
noncomputable def Input.pot (I : Input) (R : ℝ) : ℝ :=
  if I.q = 1 then I.omega0 ^ 2 * Real.log R
  else let omega := I.omega0 / R ^ I.q; 0.5 * (R * omega) ^ 2 / (1 - I.q)

/-- What a function pointer of the Mesh or of bvals_mhd.c points to: nothing, a function of this file or of the library. -/
inductive Ptr
  | null
  | gravPot
  | doNothing
  | Omega
  | Shear
  deriving DecidableEq

/-- `StaticGravPot`, the functions for the two ends of x1, `OrbitalProfile` and `ShearProfile`. -/
structure Enrolled where
  grav : Ptr
  left : Ptr
  right : Ptr
  orbit : Ptr
  shear : Ptr
  deriving DecidableEq

/-- At the start of a program: static pointers are null; `bvals_mhd_init` then takes the boundary condition of the `bc` flag (bvals_mhd.c). -/
def start : Enrolled := ⟨.null, .null, .null, .null, .null⟩

/-- The end of `problem`, cylrayleigh.c:130-138. -/
def problem (fargo : Bool) (e : Enrolled) : Enrolled :=
  let e := { e with grav := .gravPot, left := .doNothing, right := .doNothing }
  if fargo then { e with orbit := .Omega, shear := .Shear } else e

/-- `problem_read_restart`, cylrayleigh.c:158-172: the boundary conditions are commented out. -/
def readRestart (e : Enrolled) : Enrolled := { e with grav := .gravPot }

/-! ## Theorems -/

theorem pow_deriv (a R : ℝ) (hR : 0 < R) : HasDerivAt (fun x : ℝ => x ^ a) (a * R ^ (a - 1)) R := Real.hasDerivAt_rpow_const (Or.inl hR.ne')

theorem vphi_eq (I : Input) {R : ℝ} (hR : 0 < R) : I.vphi R = I.omega0 * R ^ (1 - I.q) := by
  unfold Input.vphi Input.Omega
  rw [Real.rpow_sub hR, Real.rpow_one]
  ring

theorem sq_pow {R : ℝ} (hR : 0 < R) (a : ℝ) : (R ^ a) ^ 2 = R ^ (2 * a) := by
  rw [← Real.rpow_natCast, ← Real.rpow_mul hR.le]; congr 1; push_cast; ring

/-- **C152.**  Gravity is the centripetal acceleration of the rotation: the derivative of the potential is `v²/R`, for every exponent. -/
theorem gravity_centripetal (I : Input) {R : ℝ} (hR : 0 < R) : HasDerivAt I.pot (I.vphi R ^ 2 / R) R := by
  rw [vphi_eq I hR]
  by_cases hq : I.q = 1
  · have e : I.pot = fun x => I.omega0 ^ 2 * Real.log x := by funext x; unfold Input.pot; rw [if_pos hq]
    rw [e, hq]
    have := (Real.hasDerivAt_log hR.ne').const_mul (I.omega0 ^ 2)
    refine this.congr_deriv ?_
    rw [sub_self, Real.rpow_zero]; ring
  · have hq' : 1 - I.q ≠ 0 := fun h => hq (by linarith)
    have h1 : HasDerivAt (fun x : ℝ => I.omega0 ^ 2 / (2 * (1 - I.q)) * x ^ (2 * (1 - I.q))) (I.omega0 ^ 2 / (2 * (1 - I.q)) * (2 * (1 - I.q) * R ^ (2 * (1 - I.q) - 1))) R :=
      (pow_deriv _ R hR).const_mul _
    have h2 : I.pot =ᶠ[nhds R] fun x : ℝ => I.omega0 ^ 2 / (2 * (1 - I.q)) * x ^ (2 * (1 - I.q)) := by
      filter_upwards [lt_mem_nhds hR] with x hx
      unfold Input.pot
      rw [if_neg hq]
      have : x * (I.omega0 / x ^ I.q) = I.omega0 * x ^ (1 - I.q) := vphi_eq I hx
      simp only [this]
      rw [mul_pow, sq_pow hx]
      field_simp
      norm_num
      ring
    refine (h1.congr_of_eventuallyEq h2).congr_deriv ?_
    rw [mul_pow, sq_pow hR, Real.rpow_sub_one hR.ne']
    field_simp

/-- **C152.**  The field exerts no force: the gradient of its pressure cancels its tension. -/
theorem field_force_free (I : Input) {R : ℝ} (hR : 0 < R) : ∃ p', HasDerivAt (fun x => I.bphi x ^ 2 / 2) p' R ∧ p' + I.bphi R ^ 2 / R = 0 := by
  have h : HasDerivAt (fun x : ℝ => I.bphi x ^ 2 / 2) (2 * (I.bphi0 / R) * (I.bphi0 * -(R ^ 2)⁻¹) / 2) R := by
    have h0 : HasDerivAt (fun x : ℝ => I.bphi0 / x) (I.bphi0 * -(R ^ 2)⁻¹) R := by
      simpa [div_eq_mul_inv] using (hasDerivAt_inv hR.ne').const_mul I.bphi0
    have := (h0.pow 2).div_const 2
    simpa [Input.bphi] using this
  refine ⟨_, h, ?_⟩
  unfold Input.bphi
  field_simp
  ring

/-- **C152.**  With uniform density and pressure the flow is in balance: the radial momentum equation holds with nothing left over. -/
theorem equilibrium (I : Input) {R : ℝ} (hR : 0 < R) : ∃ p' g', HasDerivAt (fun x => I.pgas0 + I.bphi x ^ 2 / 2) p' R ∧ HasDerivAt I.pot g' R ∧
    I.rho0 * I.vphi R ^ 2 / R = p' + I.bphi R ^ 2 / R + I.rho0 * g' := by
  obtain ⟨p', hp, h0⟩ := field_force_free I hR
  refine ⟨p', _, hp.const_add _, gravity_centripetal I hR, ?_⟩
  linear_combination -h0

/-- **C152.**  `Shear` is the logarithmic derivative of `Omega` that the orbital advection needs. -/
theorem shear_exact (I : Input) {R : ℝ} (hR : 0 < R) : ∃ w, HasDerivAt I.Omega w R ∧ R * w = -(I.Shear R) * I.Omega R := by
  have h : HasDerivAt (fun x : ℝ => I.omega0 * x ^ (-I.q)) (I.omega0 * (-I.q * R ^ (-I.q - 1))) R := (pow_deriv _ R hR).const_mul _
  have h2 : I.Omega =ᶠ[nhds R] fun x : ℝ => I.omega0 * x ^ (-I.q) := by
    filter_upwards [lt_mem_nhds hR] with x hx
    unfold Input.Omega
    rw [Real.rpow_neg hx.le]; rfl
  refine ⟨_, h.congr_of_eventuallyEq h2, ?_⟩
  unfold Input.Shear Input.Omega
  rw [Real.rpow_sub_one hR.ne', Real.rpow_neg hR.le]
  field_simp

/-- **C152 (Rayleigh's criterion).**  Angular momentum grows outward, so that the flow is stable, for exponents below 2 and falls for exponents above. -/
theorem rayleigh (I : Input) (hw : 0 < I.omega0) {R R' : ℝ} (hR : 0 < R) (hl : R < R') :
    (I.q < 2 → R * I.vphi R < R' * I.vphi R') ∧ (2 < I.q → R' * I.vphi R' < R * I.vphi R) := by
  have e : ∀ x : ℝ, 0 < x → x * I.vphi x = I.omega0 * x ^ (2 - I.q) := by
    intro x hx
    rw [vphi_eq I hx, show (2 : ℝ) - I.q = (1 - I.q) + 1 by ring, Real.rpow_add_one hx.ne']
    ring
  rw [e R hR, e R' (hR.trans hl)]
  exact ⟨fun h => mul_lt_mul_of_pos_left (Real.rpow_lt_rpow hR.le hl (by linarith)) hw,
    fun h => mul_lt_mul_of_pos_left (Real.rpow_lt_rpow_of_neg hR hl (by linarith)) hw⟩

/-- **C152, partly.**  A restart has the potential back.  Missing: everything else, `restart_false`, `restart_fargo_false`. -/
theorem restart_partial (fargo : Bool) : (readRestart start).grav = (problem fargo start).grav := by
  cases fargo <;> rfl

/-- **C152 (refuted).**  After a restart the two ends in x1 are no longer held: the boundary functions are not enrolled. -/
theorem restart_false (fargo : Bool) : (readRestart start).left ≠ (problem fargo start).left ∧ (readRestart start).right ≠ (problem fargo start).right := by
  cases fargo <;> decide

/-- **C152 (refuted).**  With orbital advection, the rotation profiles are null pointers after a restart. -/
theorem restart_fargo_false : (readRestart start).orbit = .null ∧ (readRestart start).shear = .null ∧ (problem true start).orbit = .Omega ∧ (problem true start).shear = .Shear := by
  decide

/-- A Keplerian flow. -/
example : ∃ I : Input, 0 < I.omega0 ∧ I.q < 2 ∧ I.q ≠ 1 ∧ I.vphi 1 = 2 := ⟨⟨5 / 3, 2, 1.5, 1, 1, 1⟩, by norm_num, by norm_num, by norm_num, by norm_num [Input.vphi, Input.Omega]⟩

end Athena.Rayleigh
