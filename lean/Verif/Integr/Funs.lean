import Verif.Integr.GenCons

/-!
# What the integrators have in common

The functions the integrators call, the operations on `Real` they perform, and the sets of directions of one-,
two- and three-dimensional Domains.  As in `Vl3`, nothing is assumed about the arithmetic.
-/

namespace Athena.Gen
open Athena.Bvals hiding Rng
open Athena.Vl3
open Num

/-- The operations on `Real` used by the CTU integrators besides those of `Num`. -/
class NumC (R : Type) extends Num R, Div R where
  /-- `1.0` -/
  one : R
  /-- `0.0` -/
  zero : R
  /-- `x >= 0.0` -/
  ge0 : R → Bool
  /-- `x < y` -/
  lt : R → R → Bool
  /-- `x != x` -/
  nan : R → Bool

noncomputable instance : NumC ℝ where
  one := 1
  zero := 0
  ge0 x := decide (x ≥ 0)
  lt x y := decide (x < y)
  nan x := decide (x ≠ x)

/-- `Prim1DS`, src/athena.h:161-176. -/
@[ext] structure Prim1 (R : Type) (ns : ℕ) where
  d : R
  Vx : R
  Vy : R
  Vz : R
  P : R
  By : R
  Bz : R
  r : Fin ns → R

/-- `pG->dt`, `pG->dx1`, `pG->dx2`, `pG->dx3`. -/
structure Step (R : Type) where
  dt : R
  dx1 : R
  dx2 : R
  dx3 : R

/-- The functions called by the integrators, and `d_MIN`.  `lr dt dx dir` is `lr_states` seen from one interface:
from the primitive variables and longitudinal field of the zones, relative to the interface, to the states
on its two sides. -/
structure Funs (R : Type) (ns : ℕ) where
  /-- `Cons1D_to_Prim1D` -/
  c2p1 : Cons1 R ns → R → Prim1 R ns
  /-- `Prim1D_to_Cons1D` -/
  p2c1 : Prim1 R ns → R → Cons1 R ns
  /-- `Cons_to_Prim` -/
  c2p : Cons R ns → Prim R
  /-- `fluxes` -/
  flux : Cons1 R ns → Cons1 R ns → Prim1 R ns → Prim1 R ns → R → Cons1 R ns
  /-- `lr_states` -/
  lr : R → R → Fin 3 → (ℤ → Prim1 R ns) → (ℤ → R) → Prim1 R ns × Prim1 R ns
  /-- `d_MIN` -/
  dMin : R

/-- `lr_states` uses the three zones on either side of the interface (proved for the reconstruction schemes
modelled in `Verif/Recon`). -/
def Funs.Local {R : Type} {ns : ℕ} (M : Funs R ns) : Prop :=
  ∀ dt dx d (w w' : ℤ → Prim1 R ns) (b b' : ℤ → R), (∀ m, -3 ≤ m → m ≤ 2 → w m = w' m ∧ b m = b' m) →
    M.lr dt dx d w b = M.lr dt dx d w' b'

/-- One-dimensional: x1 only. -/
def A1 : Fin 3 → Bool := fun t => t == 0
/-- Two-dimensional: x1 and x2. -/
def A2 : Fin 3 → Bool := fun t => t != 2
/-- Three-dimensional. -/
def A3 : Fin 3 → Bool := fun _ => true

theorem w1 (n : ℤ) : wid (A1 0) n = n ∧ wid (A1 1) n = 0 ∧ wid (A1 2) n = 0 := ⟨rfl, rfl, rfl⟩
theorem w2 (n : ℤ) : wid (A2 0) n = n ∧ wid (A2 1) n = n ∧ wid (A2 2) n = 0 := ⟨rfl, rfl, rfl⟩
theorem w3 (n : ℤ) : wid (A3 0) n = n ∧ wid (A3 1) n = n ∧ wid (A3 2) n = n := ⟨rfl, rfl, rfl⟩

/-! ## Sums over a period -/

/-- A change by differences of periodic fluxes keeps the sum. -/
theorem zsum_step {n1 n2 n3 : ℕ} {is js ks : ℤ} {u u' : Arr ℝ} (F1 F2 F3 : Arr ℝ) (q1 q2 q3 : ℝ)
    (h : ∀ k j i, u' k j i = u k j i - q1 * (F1 k j (i+1) - F1 k j i) - q2 * (F2 k (j+1) i - F2 k j i)
        - q3 * (F3 (k+1) j i - F3 k j i))
    (p1 : ∀ k j i, F1 k j (i + n1) = F1 k j i) (p2 : ∀ k j i, F2 k (j + n2) i = F2 k j i) (p3 : ∀ k j i, F3 (k + n3) j i = F3 k j i) :
    zsum n1 n2 n3 is js ks u' = zsum n1 n2 n3 is js ks u := by
  have e : u' = fun k j i => u k j i - q1 * (F1 k j (i+1) - F1 k j i) - q2 * (F2 k (j+1) i - F2 k j i)
        - q3 * (F3 (k+1) j i - F3 k j i) := by funext k j i; exact h k j i
  rw [e, zsum_flux]
  simp only [fsum1, fsum2, fsum3, p1, p2, p3, sub_self, mul_zero, sub_zero]

/-- An array computed from a lattice in a way that commutes with translations is periodic. -/
theorem per1 {α : Type} {ns : ℕ} {N : Fin 3 → ℕ} {L : St ℝ ns} (h : Periodic N L) (F : St ℝ ns → Arr α)
    (hF : ∀ L a b d k j i, F (L.shift a b d) k j i = F L (k+a) (j+b) (i+d)) (k j i : ℤ) : F L k j (i + N 0) = F L k j i := by
  have hp := h (fun t => if t = 0 then 1 else 0)
  simp only [Fin.isValue, Fin.reduceEq, if_true, if_false, zero_mul, one_mul] at hp
  have := hF L 0 0 (N 0) k j i
  rw [hp] at this
  rw [this, add_zero, add_zero]
theorem per2 {α : Type} {ns : ℕ} {N : Fin 3 → ℕ} {L : St ℝ ns} (h : Periodic N L) (F : St ℝ ns → Arr α)
    (hF : ∀ L a b d k j i, F (L.shift a b d) k j i = F L (k+a) (j+b) (i+d)) (k j i : ℤ) : F L k (j + N 1) i = F L k j i := by
  have hp := h (fun t => if t = 1 then 1 else 0)
  simp only [Fin.isValue, Fin.reduceEq, if_true, if_false, zero_mul, one_mul] at hp
  have := hF L 0 (N 1) 0 k j i
  rw [hp] at this
  rw [this, add_zero, add_zero]
theorem per3 {α : Type} {ns : ℕ} {N : Fin 3 → ℕ} {L : St ℝ ns} (h : Periodic N L) (F : St ℝ ns → Arr α)
    (hF : ∀ L a b d k j i, F (L.shift a b d) k j i = F L (k+a) (j+b) (i+d)) (k j i : ℤ) : F L (k + N 2) j i = F L k j i := by
  have hp := h (fun t => if t = 2 then 1 else 0)
  simp only [Fin.isValue, Fin.reduceEq, if_true, if_false, zero_mul, one_mul] at hp
  have := hF L (N 2) 0 0 k j i
  rw [hp] at this
  rw [this, add_zero, add_zero]

end Athena.Gen
