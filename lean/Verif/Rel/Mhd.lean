import Verif.Rel.Convert

/-!
Special-relativistic magnetohydrodynamics: conversion between primitive and conserved
variables by a Newton-Raphson iteration (/repo/src/convert_var.c, `SPECIAL_RELATIVITY` and
`MHD`).

Simplifications: `Real` is ℝ, so there is no rounding.  A division by zero inside the
iteration (`Q = 0`, `Q + B² = 0`, `V² = 1`, derivative 0) gives a NaN, or an infinity that the
next pass turns into a NaN, and every NaN ends the loop without success; the model ends the
loop at once.  A division by zero after the loop leaves NaNs in the result: `none`.
-/
namespace Athena.Rel

/-- Primitive variables with transverse field, `Prim1DS` (/repo/src/athena.h:160-178). -/
@[ext] structure PrimB where
  d : ℝ
  Vx : ℝ
  Vy : ℝ
  Vz : ℝ
  P : ℝ
  By : ℝ
  Bz : ℝ

/-- Conserved variables with transverse field, `Cons1DS` (/repo/src/athena.h:135-154). -/
@[ext] structure ConsB where
  d : ℝ
  Mx : ℝ
  My : ℝ
  Mz : ℝ
  E : ℝ
  By : ℝ
  Bz : ℝ

/-- `Prim1D_to_Cons1D`, special relativity with field (convert_var.c:994-1028). -/
noncomputable def primToConsB (g : ℝ) (W : PrimB) (Bx : ℝ) : ConsB :=
  let vsq := W.Vx * W.Vx + W.Vy * W.Vy + W.Vz * W.Vz
  let U0 := 1 / (1 - vsq)
  let Bsq := Bx * Bx + W.By * W.By + W.Bz * W.Bz
  let vDotB := Bx * W.Vx + W.By * W.Vy + W.Bz * W.Vz
  let wU0sq := (W.d + g / (g - 1) * W.P) * U0
  { d := √U0 * W.d
    Mx := wU0sq * W.Vx + (Bsq * W.Vx - vDotB * Bx)
    My := wU0sq * W.Vy + (Bsq * W.Vy - vDotB * W.By)
    Mz := wU0sq * W.Vz + (Bsq * W.Vz - vDotB * W.Bz)
    E := wU0sq - W.P + ((1 + vsq) * Bsq / 2 - vDotB * vDotB / 2)
    By := W.By
    Bz := W.Bz }

/-- `calc_func` (convert_var.c:1220-1225). -/
noncomputable def calcFunc (Q E Bsq Ssq Vsq pgas : ℝ) : ℝ :=
  Q - pgas + (1 / 2) * (1 + Vsq) * Bsq - (1 / 2) * Ssq / Q / Q - E

/-- `calc_vsq` (convert_var.c:1307-1315). -/
noncomputable def calcVsq (Bsq Msq Ssq Q : ℝ) : ℝ :=
  let Qsq := Q * Q
  let Ssq_Qsq := Ssq / Qsq
  let scrh1 := Q + Bsq
  (Msq + Ssq_Qsq * (scrh1 + Q)) / (scrh1 * scrh1)

/-- `calc_chi` (convert_var.c:1319-1327). -/
noncomputable def calcChi (d Vsq Gsq Q : ℝ) : ℝ :=
  let G := √|Gsq|
  let tmp1 := 1 - Vsq
  let tmp2 := Q - d * G
  tmp2 * tmp1

/-- `dVsq_dQ` (convert_var.c:1247-1253, 1282-1288). -/
noncomputable def calcDvsq (Q Bsq Msq Ssq : ℝ) : ℝ :=
  let Qsq := Q * Q
  let Qth := Qsq * Q
  let scrh1 := Q + Bsq
  (Ssq * (3 * Q * scrh1 + Bsq * Bsq) + Msq * Qth) * (-2 / Qth / (scrh1 * scrh1 * scrh1))

/-- `dp_dQ` (convert_var.c:1257-1265, 1292-1300). -/
noncomputable def calcDp (g d Vsq Gsq Chi dVsq : ℝ) : ℝ :=
  let G := √|Gsq|
  let dchi_dQ := 1 - Vsq - (1 / 2) * G * (d + 2 * Chi * G) * dVsq
  let drho_dQ := -(1 / 2) * d * G * dVsq
  let dp_dchi := (g - 1) / g
  let dp_drho := 0
  dp_dchi * dchi_dQ + dp_drho * drho_dQ

/-- `calc_dfunc` (convert_var.c:1240-1268). -/
noncomputable def calcDfunc (g Q Bsq Msq Ssq d Vsq Gsq Chi : ℝ) : ℝ :=
  let Qth := Q * Q * Q
  let dVsq := calcDvsq Q Bsq Msq Ssq
  1 - calcDp g d Vsq Gsq Chi dVsq + (1 / 2) * Bsq * dVsq + Ssq / Qth

/-- `calc_ent_func` (convert_var.c:1229-1235). -/
noncomputable def calcEntFunc (g rho pgas d ent : ℝ) : ℝ :=
  let tmp1 := pgas * rho ^ (-g)
  d * tmp1 - ent

/-- `calc_ent_dfunc` (convert_var.c:1274-1303). -/
noncomputable def calcEntDfunc (g Q Bsq Msq Ssq d Vsq Gsq Chi pgas rho : ℝ) : ℝ :=
  let dVsq := calcDvsq Q Bsq Msq Ssq
  let G := √|Gsq|
  let drho_dQ := -(1 / 2) * d * G * dVsq
  d * rho ^ (-g) * calcDp g d Vsq Gsq Chi dVsq - g * pgas * rho ^ (g + 1) * drho_dQ

/-- The local variables computed once (convert_var.c:664-672). -/
structure Inp where
  Bsq : ℝ
  Msq : ℝ
  Ssq : ℝ
  E : ℝ
  d : ℝ

/-- convert_var.c:664-672. -/
def inp (U : ConsB) (Bx : ℝ) : Inp :=
  let S := U.Mx * Bx + U.My * U.By + U.Mz * U.Bz
  { Bsq := Bx * Bx + U.By * U.By + U.Bz * U.Bz
    Msq := U.Mx * U.Mx + U.My * U.My + U.Mz * U.Mz
    Ssq := S * S
    E := U.E
    d := U.d }

/-- The scalars evaluated at a trial `Q` (convert_var.c:696-703, 750-754). -/
structure Scal where
  Vsq : ℝ
  Gsq : ℝ
  Chi : ℝ
  rho : ℝ
  pgas : ℝ

/-- convert_var.c:696-703, 750-754. -/
noncomputable def scal (g : ℝ) (i : Inp) (Q : ℝ) : Scal :=
  let Vsq := calcVsq i.Bsq i.Msq i.Ssq Q
  let Gsq := 1 / (1 - Vsq)
  let Chi := calcChi i.d Vsq Gsq Q
  { Vsq := Vsq
    Gsq := Gsq
    Chi := Chi
    rho := i.d / √|Gsq|
    pgas := (g - 1) * Chi / g }

/-- `fQ` (convert_var.c:706). -/
noncomputable def funQ (g : ℝ) (i : Inp) (Q : ℝ) : ℝ :=
  calcFunc Q i.E i.Bsq i.Ssq (scal g i Q).Vsq (scal g i Q).pgas

/-- `dfQ` (convert_var.c:707). -/
noncomputable def dfunQ (g : ℝ) (i : Inp) (Q : ℝ) : ℝ :=
  calcDfunc g Q i.Bsq i.Msq i.Ssq i.d (scal g i Q).Vsq (scal g i Q).Gsq (scal g i Q).Chi

/-- Starting guess (convert_var.c:676-685). -/
noncomputable def startQ (i : Inp) : ℝ :=
  let scrh1 := -4 * (i.E - i.Bsq)
  let scrh2 := i.Msq - 2 * i.E * i.Bsq + i.Bsq * i.Bsq
  let Q := (-scrh1 + √|scrh1 * scrh1 - 12 * scrh2|) / 6
  if Q < 0 then i.d else Q

/-- The evaluation divides by zero. -/
def Sing (g : ℝ) (i : Inp) (Q : ℝ) : Prop := Q = 0 ∨ Q + i.Bsq = 0 ∨ (scal g i Q).Vsq = 1

open Classical in
/-- The Newton-Raphson loop (convert_var.c:689-744): at most `n` passes from `Q`, the last step
having been `dQ`; `first` is `q_incs == 0`.  `some Q` when the loop ends with
`nr_success == 1`.  `tol` is `1.0e-10` (convert_var.c:91).  One more step is taken after the
pass that found the last step small. -/
noncomputable def newton (g : ℝ) (i : Inp) : ℕ → ℝ → ℝ → Bool → Option ℝ
  | 0, _, _, _ => none
  | n + 1, Q, dQ, first =>
    if Sing g i Q then none
    else
      let Q1 := if first ∧ |funQ g i Q| < 1 / 10 then Q * 10 else Q
      if Sing g i Q1 ∨ dfunQ g i Q1 = 0 then none
      else
        let dQ' := funQ g i Q1 / dfunQ g i Q1
        let Q' := Q1 - dQ'
        if |dQ| ≤ 1 / 10 ^ 10 then some Q' else newton g i n Q' dQ' false

/-- `MAX` (/repo/src/defs.h.in:146). -/
noncomputable def cmax (a b : ℝ) : ℝ := if a > b then a else b

open Classical in
/-- What follows a converged loop (convert_var.c:746-824); `none` for a result with NaNs. -/
noncomputable def finish (g : ℝ) (U : ConsB) (Bx Q : ℝ) : Option PrimB :=
  let i := inp U Bx
  let s := scal g i Q
  if Q = 0 ∨ Q + i.Bsq = 0 then none
  else
    let S := U.Mx * Bx + U.My * U.By + U.Mz * U.Bz
    let tmp1 := 1 / Q
    let tmp2 := 1 / (Q + i.Bsq)
    let Vx := (U.Mx + S * Bx * tmp1) * tmp2
    let Vy := (U.My + S * U.By * tmp1) * tmp2
    let Vz := (U.Mz + S * U.Bz * tmp1) * tmp2
    if s.Vsq < 0 then
      some ⟨-1, 1, 1, 1, 1, U.By, U.Bz⟩
    else if s.Vsq > 1 then
      let scrh1 := Vx * Vx + Vy * Vy + Vz * Vz
      let Vx' := Vx * (9999 / 10000 / scrh1)
      let Vy' := Vy * (9999 / 10000 / scrh1)
      let Vz' := Vz * (9999 / 10000 / scrh1)
      let Vsq := Vx' * Vx' + Vy' * Vy' + Vz' * Vz'
      let Gsq := 1 / (1 - Vsq)
      let Chi := calcChi i.d Vsq Gsq Q
      let rho := i.d / √|Gsq|
      let pgas := (g - 1) * Chi / g
      some ⟨cmax rho (1 / 10 ^ 4), Vx', Vy', Vz', cmax pgas (1 / 10 ^ 5), U.By, U.Bz⟩
    else
      -- `nr_success` 1 or 2: the two branches are the same text
      some ⟨cmax s.rho (1 / 10 ^ 4), Vx, Vy, Vz, cmax s.pgas (1 / 10 ^ 5), U.By, U.Bz⟩

/-- `Cons1D_to_Prim1D`, special relativity with field (convert_var.c:650-837). -/
noncomputable def consToPrimB (g : ℝ) (U : ConsB) (Bx : ℝ) : Option PrimB :=
  match newton g (inp U Bx) 100000 (startQ (inp U Bx)) 1 true with
  | some Q => finish g U Bx Q
  | none => some ⟨-2, 2, 2, 2, 2, U.By, U.Bz⟩

open Classical in
/-- `check_Prim1D` (convert_var.c:855-981): the same iteration, at most 1000 passes, neither
floors nor a check of the result. -/
noncomputable def checkPrimB (g : ℝ) (U : ConsB) (Bx : ℝ) : Option PrimB :=
  let i := inp U Bx
  match newton g i 1000 (startQ i) 1 true with
  | some Q =>
    if Q = 0 ∨ Q + i.Bsq = 0 then none
    else
      let S := U.Mx * Bx + U.My * U.By + U.Mz * U.Bz
      let tmp1 := 1 / Q
      let tmp2 := 1 / (Q + i.Bsq)
      some ⟨(scal g i Q).rho, (U.Mx + S * Bx * tmp1) * tmp2, (U.My + S * U.By * tmp1) * tmp2,
        (U.Mz + S * U.Bz * tmp1) * tmp2, (scal g i Q).pgas, U.By, U.Bz⟩
  | none => some ⟨-1, 1, 1, 1, -1, U.By, U.Bz⟩

end Athena.Rel
