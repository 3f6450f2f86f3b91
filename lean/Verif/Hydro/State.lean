import Mathlib.Analysis.Real.Sqrt
import Mathlib.Tactic.Ring
import Mathlib.Tactic.Linarith
import Mathlib.Tactic.Positivity
import Mathlib.Tactic.FieldSimp
import Mathlib.Tactic.LinearCombination
import Mathlib.Tactic.NormNum

/-!
# src/convert_var.c: conversion between conserved and primitive variables; fast speed

Numbers are exact reals.  A division by zero or a square root of a negative number, which in C gives
an infinity or a NaN, is the outcome `none`.  Newtonian, Cartesian variables only.
-/

namespace Athena.Hydro
noncomputable section

/-- Division of C doubles; no finite value when the divisor is zero. -/
def fdiv (a b : ℝ) : Option ℝ := if b = 0 then none else some (a / b)

/-- `sqrt`; no real value for negative arguments. -/
def fsqrt (a : ℝ) : Option ℝ := if a < 0 then none else some (Real.sqrt a)

/-- `#define MAX(a,b)`, src/defs.h.in. -/
def fmax (a b : ℝ) : ℝ := if a > b then a else b

/-- `#define MIN(a,b)`, src/defs.h.in. -/
def fmin (a b : ℝ) : ℝ := if a < b then a else b

/-- Compile-time choices `ISOTHERMAL`, `MHD` and the run-time constants `Gamma`, `Iso_csound2`,
`TINY_NUMBER` (src/defs.h.in, src/globals.h). -/
structure Phys where
  iso : Bool
  mhd : Bool
  gamma : ℝ
  cs2 : ℝ
  tiny : ℝ

/-- `Gamma_1 = Gamma - 1.0` (src/main.c). -/
def Phys.gamma1 (p : Phys) : ℝ := p.gamma - 1

/-- `Cons1DS`, src/athena.h:135-153 (without `Pflux`).  `E` exists only if not isothermal, `By`,`Bz`
only with MHD: see `Cons1D.Wf`. -/
@[ext] structure Cons1D (ns : ℕ) where
  d : ℝ
  Mx : ℝ
  My : ℝ
  Mz : ℝ
  E : ℝ
  By : ℝ
  Bz : ℝ
  s : Fin ns → ℝ

/-- `Prim1DS`, src/athena.h:160-175. -/
@[ext] structure Prim1D (ns : ℕ) where
  d : ℝ
  Vx : ℝ
  Vy : ℝ
  Vz : ℝ
  P : ℝ
  By : ℝ
  Bz : ℝ
  r : Fin ns → ℝ

/-- `ConsS`, src/athena.h:87-106. -/
@[ext] structure Cons (ns : ℕ) where
  d : ℝ
  M1 : ℝ
  M2 : ℝ
  M3 : ℝ
  E : ℝ
  B1c : ℝ
  B2c : ℝ
  B3c : ℝ
  s : Fin ns → ℝ

/-- `PrimS`, src/athena.h:112-129. -/
@[ext] structure Prim (ns : ℕ) where
  d : ℝ
  V1 : ℝ
  V2 : ℝ
  V3 : ℝ
  P : ℝ
  B1c : ℝ
  B2c : ℝ
  B3c : ℝ
  r : Fin ns → ℝ

variable {ns : ℕ}

/-- Members that the configuration does not declare are represented by 0. -/
def Cons1D.Wf (p : Phys) (U : Cons1D ns) : Prop :=
  (p.iso = true → U.E = 0) ∧ (p.mhd = false → U.By = 0 ∧ U.Bz = 0)

/-- Members that the configuration does not declare are represented by 0. -/
def Prim1D.Wf (p : Phys) (W : Prim1D ns) : Prop :=
  (p.iso = true → W.P = 0) ∧ (p.mhd = false → W.By = 0 ∧ W.Bz = 0)

/-- Members that the configuration does not declare are represented by 0. -/
def Cons.Wf (p : Phys) (U : Cons ns) : Prop :=
  (p.iso = true → U.E = 0) ∧ (p.mhd = false → U.B1c = 0 ∧ U.B2c = 0 ∧ U.B3c = 0)

/-- Members that the configuration does not declare are represented by 0. -/
def Prim.Wf (p : Phys) (W : Prim ns) : Prop :=
  (p.iso = true → W.P = 0) ∧ (p.mhd = false → W.B1c = 0 ∧ W.B2c = 0 ∧ W.B3c = 0)

/-- `Cons1D_to_Prim1D`, Newtonian version, src/convert_var.c:389-421. -/
def cons1DToPrim1D (p : Phys) (U : Cons1D ns) (Bx : ℝ) : Option (Prim1D ns) := do
  let di ← fdiv 1 U.d
  let P := if p.iso then 0 else
    let P := U.E - 1/2 * (U.Mx * U.Mx + U.My * U.My + U.Mz * U.Mz) * di
    let P := if p.mhd then P - 1/2 * (Bx * Bx + U.By * U.By + U.Bz * U.Bz) else P
    let P := P * p.gamma1
    fmax P p.tiny
  return {
    d := U.d, Vx := U.Mx * di, Vy := U.My * di, Vz := U.Mz * di, P := P
    By := if p.mhd then U.By else 0
    Bz := if p.mhd then U.Bz else 0
    r := fun n => U.s n * di }

/-- `Prim1D_to_Cons1D`, Newtonian version, src/convert_var.c:432-461. -/
def prim1DToCons1D (p : Phys) (W : Prim1D ns) (Bx : ℝ) : Option (Cons1D ns) := do
  let E ← if p.iso then pure 0 else do
    let e ← fdiv W.P p.gamma1
    let e := e + 1/2 * W.d * (W.Vx * W.Vx + W.Vy * W.Vy + W.Vz * W.Vz)
    pure (if p.mhd then e + 1/2 * (Bx * Bx + W.By * W.By + W.Bz * W.Bz) else e)
  return {
    d := W.d, Mx := W.d * W.Vx, My := W.d * W.Vy, Mz := W.d * W.Vz, E := E
    By := if p.mhd then W.By else 0
    Bz := if p.mhd then W.Bz else 0
    s := fun n => W.r n * W.d }

/-- `Cons_to_Prim`, src/convert_var.c:104-149. -/
def consToPrim (p : Phys) (U : Cons ns) : Option (Prim ns) := do
  let Bx := if p.mhd then U.B1c else 0
  let W ← cons1DToPrim1D p
    ({ d := U.d, Mx := U.M1, My := U.M2, Mz := U.M3, E := if p.iso then 0 else U.E,
       By := if p.mhd then U.B2c else 0, Bz := if p.mhd then U.B3c else 0, s := U.s } : Cons1D ns) Bx
  return { d := W.d, V1 := W.Vx, V2 := W.Vy, V3 := W.Vz, P := if p.iso then 0 else W.P,
           B1c := if p.mhd then Bx else 0, B2c := if p.mhd then W.By else 0,
           B3c := if p.mhd then W.Bz else 0, r := W.r }

/-- `Prim_to_Cons`, src/convert_var.c:159-204. -/
def primToCons (p : Phys) (W : Prim ns) : Option (Cons ns) := do
  let Bx := if p.mhd then W.B1c else 0
  let U ← prim1DToCons1D p
    ({ d := W.d, Vx := W.V1, Vy := W.V2, Vz := W.V3, P := if p.iso then 0 else W.P,
       By := if p.mhd then W.B2c else 0, Bz := if p.mhd then W.B3c else 0, r := W.r } : Prim1D ns) Bx
  return { d := U.d, M1 := U.Mx, M2 := U.My, M3 := U.Mz, E := if p.iso then 0 else U.E,
           B1c := if p.mhd then Bx else 0, B2c := if p.mhd then U.By else 0,
           B3c := if p.mhd then U.Bz else 0, s := U.s }

/-- The common tail of `cfast_prim` and `cfast`, src/convert_var.c:488-497 and 526-535:
`asq` to fast speed. -/
def fastSpeed (p : Phys) (asq By Bz d Bx : ℝ) : Option ℝ :=
  if p.mhd then do
    let ctsq ← fdiv (By * By + Bz * Bz) d
    let casq ← fdiv (Bx * Bx) d
    let tmp := casq + ctsq - asq
    let r ← fsqrt (tmp * tmp + 4 * asq * ctsq)
    fsqrt (1/2 * ((asq + ctsq + casq) + r))
  else fsqrt asq

/-- `cfast_prim`, src/convert_var.c:470-498. -/
def cfastPrim (p : Phys) (W : Prim1D ns) (Bx : ℝ) : Option ℝ := do
  let asq ← if p.iso then pure p.cs2 else fdiv (p.gamma * W.P) W.d
  fastSpeed p asq W.By W.Bz W.d Bx

/-- `cfast`, src/convert_var.c:507-536. -/
def cfast (p : Phys) (U : Cons1D ns) (Bx : ℝ) : Option ℝ := do
  let asq ← if p.iso then pure p.cs2 else do
    let pb := if p.mhd then 1/2 * (Bx * Bx + U.By * U.By + U.Bz * U.Bz) else 0
    let ke ← fdiv (1/2 * (U.Mx * U.Mx + U.My * U.My + U.Mz * U.Mz)) U.d
    fdiv (p.gamma * (p.gamma1 * (U.E - pb - ke))) U.d
  fastSpeed p asq U.By U.Bz U.d Bx

@[simp] theorem fdiv_ne {a b : ℝ} (h : b ≠ 0) : fdiv a b = some (a / b) := if_neg h
@[simp] theorem fdiv_pos {a b : ℝ} (h : 0 < b) : fdiv a b = some (a / b) := if_neg h.ne'
theorem fsqrt_nonneg {a : ℝ} (h : 0 ≤ a) : fsqrt a = some (Real.sqrt a) := if_neg (not_lt.mpr h)
theorem fmax_eq (a b : ℝ) : fmax a b = max a b := by
  unfold fmax; split_ifs with h
  · exact (max_eq_left h.le).symm
  · exact (max_eq_right (not_lt.mp h)).symm
theorem fmin_eq (a b : ℝ) : fmin a b = min a b := by
  unfold fmin; split_ifs with h
  · exact (min_eq_left h.le).symm
  · exact (min_eq_right (not_lt.mp h)).symm

end
end Athena.Hydro
