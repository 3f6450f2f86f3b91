import Mathlib.Analysis.Calculus.Deriv.Pow
import Mathlib.Analysis.Calculus.Deriv.Mul
import Mathlib.Analysis.Calculus.Deriv.Add
import Mathlib.Data.Fin.VecNotation

/-!
# What the eigensystems of the reconstruction have to be

The equations of ideal MHD in one dimension, `∂t U + ∂x F = 0`, as functions of the primitive variables: density, velocity (3), pressure
(adiabatic gas only) and transverse field (2).  A right eigenvector `r` with eigenvalue `l` is a direction in which a wave can move with
speed `l`: to first order the flux changes by `l` times the change of the conserved variables.
-/

namespace Athena.Recon
noncomputable section

/-- Conserved variables of an adiabatic gas in the field `b`: mass, momentum, energy, transverse field. -/
def cons7 (gamma b : ℝ) (w : Fin 7 → ℝ) : Fin 7 → ℝ :=
  ![w 0, w 0 * w 1, w 0 * w 2, w 0 * w 3,
    w 4 / (gamma - 1) + w 0 * (w 1 ^ 2 + w 2 ^ 2 + w 3 ^ 2) / 2 + (b ^ 2 + w 5 ^ 2 + w 6 ^ 2) / 2, w 5, w 6]

/-- Their fluxes. -/
def flux7 (gamma b : ℝ) (w : Fin 7 → ℝ) : Fin 7 → ℝ :=
  ![w 0 * w 1, w 0 * w 1 * w 1 + (w 4 + (b ^ 2 + w 5 ^ 2 + w 6 ^ 2) / 2) - b * b, w 0 * w 1 * w 2 - b * w 5, w 0 * w 1 * w 3 - b * w 6,
    (cons7 gamma b w 4 + (w 4 + (b ^ 2 + w 5 ^ 2 + w 6 ^ 2) / 2)) * w 1 - b * (w 1 * b + w 2 * w 5 + w 3 * w 6),
    w 1 * w 5 - w 2 * b, w 1 * w 6 - w 3 * b]

/-- Conserved variables of an isothermal gas: mass, momentum, transverse field. -/
def cons6 (w : Fin 6 → ℝ) : Fin 6 → ℝ := ![w 0, w 0 * w 1, w 0 * w 2, w 0 * w 3, w 4, w 5]

/-- Their fluxes; `c` is the speed of sound. -/
def flux6 (c b : ℝ) (w : Fin 6 → ℝ) : Fin 6 → ℝ :=
  ![w 0 * w 1, w 0 * w 1 * w 1 + (c ^ 2 * w 0 + (b ^ 2 + w 4 ^ 2 + w 5 ^ 2) / 2) - b * b, w 0 * w 1 * w 2 - b * w 4, w 0 * w 1 * w 3 - b * w 5,
    w 1 * w 4 - w 2 * b, w 1 * w 5 - w 3 * b]

/-- Conserved variables of an adiabatic gas without field. -/
def cons5 (gamma : ℝ) (w : Fin 5 → ℝ) : Fin 5 → ℝ :=
  ![w 0, w 0 * w 1, w 0 * w 2, w 0 * w 3, w 4 / (gamma - 1) + w 0 * (w 1 ^ 2 + w 2 ^ 2 + w 3 ^ 2) / 2]

/-- Their fluxes. -/
def flux5 (gamma : ℝ) (w : Fin 5 → ℝ) : Fin 5 → ℝ :=
  ![w 0 * w 1, w 0 * w 1 * w 1 + w 4, w 0 * w 1 * w 2, w 0 * w 1 * w 3, (cons5 gamma w 4 + w 4) * w 1]

/-- Conserved variables of an isothermal gas without field. -/
def cons4 (w : Fin 4 → ℝ) : Fin 4 → ℝ := ![w 0, w 0 * w 1, w 0 * w 2, w 0 * w 3]

/-- Their fluxes. -/
def flux4 (c : ℝ) (w : Fin 4 → ℝ) : Fin 4 → ℝ := ![w 0 * w 1, w 0 * w 1 * w 1 + c ^ 2 * w 0, w 0 * w 1 * w 2, w 0 * w 1 * w 3]

/-- A change of the state `w` in the direction `r` moves with speed `l`. -/
def IsWave {n : ℕ} (U F : (Fin n → ℝ) → Fin n → ℝ) (w r : Fin n → ℝ) (l : ℝ) : Prop :=
  ∀ c, ∃ dU : ℝ, HasDerivAt (fun e : ℝ => U (w + e • r) c) dU 0 ∧ HasDerivAt (fun e : ℝ => F (w + e • r) c) (l * dU) 0

end
end Athena.Recon
