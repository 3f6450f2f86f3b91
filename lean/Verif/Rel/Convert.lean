import Verif.Rel.Quartic
import Mathlib.Analysis.SpecialFunctions.Trigonometric.Basic

/-!
Special-relativistic hydrodynamics: conversion between primitive and conserved variables
(/repo/src/convert_var.c, `SPECIAL_RELATIVITY` and `HYDRO`).

Simplifications: `Real` is ℝ, so there is no rounding; a NaN is `none`, and arises exactly
where `sqrt` or `pow(.,1/3)` is given a negative number; `ONE_3RD` (0.3333333333333333,
/repo/src/defs.h.in:155) is the number 1/3.
-/
namespace Athena.Rel

/-- Primitive variables of a cell, `Prim1DS` without field and scalars
(/repo/src/athena.h:160-178): density and pressure in the rest frame, velocity in units of
the speed of light. -/
@[ext] structure Prim where
  d : ℝ
  Vx : ℝ
  Vy : ℝ
  Vz : ℝ
  P : ℝ

/-- Conserved variables of a cell, `Cons1DS` without field and scalars
(/repo/src/athena.h:135-154). -/
@[ext] structure Cons where
  d : ℝ
  Mx : ℝ
  My : ℝ
  Mz : ℝ
  E : ℝ

/-- `Prim1D_to_Cons1D`, special relativity without field (convert_var.c:994-1028); `g` is
`Gamma`, `g - 1` is `Gamma_1`. -/
noncomputable def primToCons (g : ℝ) (W : Prim) : Cons :=
  let vsq := W.Vx * W.Vx + W.Vy * W.Vy + W.Vz * W.Vz
  let U0 := 1 / (1 - vsq)
  let wU0sq := (W.d + g / (g - 1) * W.P) * U0
  { d := √U0 * W.d
    Mx := wU0sq * W.Vx
    My := wU0sq * W.Vy
    Mz := wU0sq * W.Vz
    E := wU0sq - W.P }

/-- `sqrt(x)`: NaN for a negative argument. -/
noncomputable def sqrtN (x : ℝ) : Option ℝ := if 0 ≤ x then some √x else none

/-- `pow(x,ONE_3RD)`: NaN for a negative base. -/
noncomputable def cbrtN (x : ℝ) : Option ℝ := if 0 ≤ x then some (x ^ (1 / 3 : ℝ)) else none

/-- Coefficients of the quartic (convert_var.c:569-579). -/
structure Coef where
  a3 : ℝ
  a2 : ℝ
  a1 : ℝ
  a0 : ℝ

/-- convert_var.c:569-579. -/
noncomputable def coef (g M Msq E d : ℝ) : Coef :=
  let ME := M * E
  let Dsq := d * d
  let g1sq := (g - 1) * (g - 1)
  let denom := 1 / (g1sq * (Msq + Dsq))
  { a3 := -2 * g * (g - 1) * ME * denom
    a2 := (g * g * (E * E) + 2 * (g - 1) * Msq - g1sq * Dsq) * denom
    a1 := -2 * g * ME * denom
    a0 := Msq * denom }

/-- Root of the resolvent cubic (convert_var.c:583-600).  `atan2(y,x)` is the argument of
`x + i y`. -/
noncomputable def resolvent (c : Coef) : Option ℝ :=
  let i1 := -c.a2
  let i2 := c.a3 * c.a1 - 4 * c.a0
  let i3 := 4 * c.a2 * c.a0 - c.a1 * c.a1 - c.a3 * c.a3 * c.a0
  let iR := (9 * i1 * i2 - 27 * i3 - 2 * (i1 * i1) * i1) / 54
  let iS := (3 * i2 - c.a2 * c.a2) / 9
  let iT := iR * iR + iS * iS * iS
  if iT < 0 then do
    let m ← sqrtN (iR * iR + iT)
    let r ← cbrtN m
    return 2 * r * Real.cos (Complex.arg ⟨iR, √(-iT)⟩ / 3) - i1 / 3
  else do
    let t ← sqrtN iT
    let u ← cbrtN (iR + t)
    let w ← cbrtN (iR - t)
    return u + w - i1 / 3

/-- The flow speed from the quartic (convert_var.c:602-604). -/
noncomputable def speed (c : Coef) : Option ℝ := do
  let ix1 ← resolvent c
  let s ← sqrtN (c.a3 * c.a3 - 4 * c.a2 + 4 * ix1)
  let iB := (1 / 2) * (c.a3 + s)
  let t ← sqrtN (ix1 * ix1 - 4 * c.a0)
  let iC := (1 / 2) * (ix1 - t)
  let u ← sqrtN (iB * iB - 4 * iC)
  return (-iB + u) / 2

/-- `v = MAX(v, 0.0); v = MIN(v, 1.0 - 1.0e-15);` (convert_var.c:611-612).  With
`MAX(a,b) = (a > b) ? a : b` (/repo/src/defs.h.in:146) a NaN becomes 0. -/
noncomputable def clamp (o : Option ℝ) : ℝ :=
  let v := match o with
    | some v => if v > 0 then v else 0
    | none => 0
  if v < 1 - 1 / 10 ^ 15 then v else 1 - 1 / 10 ^ 15

/-- `TINY_NUMBER` (/repo/src/defs.h.in:158). -/
noncomputable def tiny : ℝ := 1 / 10 ^ 20

/-- `Cons1D_to_Prim1D`, special relativity without field (convert_var.c:549-630). -/
noncomputable def consToPrim (g : ℝ) (U : Cons) : Prim :=
  let Msq := U.Mx * U.Mx + U.My * U.My + U.Mz * U.Mz
  let M := √Msq
  let v := clamp (if |M| < tiny then some 0 else speed (coef g M Msq U.E U.d))
  let vOverM := if |M| < tiny then 0 else v / M
  let d := √(1 - v * v) * U.d
  let Vx := U.Mx * vOverM
  let Vy := U.My * vOverM
  let Vz := U.Mz * vOverM
  { d := d
    Vx := Vx
    Vy := Vy
    Vz := Vz
    P := (g - 1) * ((U.E - U.Mx * Vx - U.My * Vy - U.Mz * Vz) - d) }

end Athena.Rel
