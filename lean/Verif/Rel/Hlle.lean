import Verif.Rel.Mhd
import Mathlib.Analysis.SpecialFunctions.Trigonometric.Inverse
import Mathlib.Analysis.SpecialFunctions.Pow.Real

/-!
The relativistic HLLE Riemann solver for magnetohydrodynamics (/repo/src/rsolvers/hlle_sr.c,
`SPECIAL_RELATIVITY`, `MHD`), with its signal speeds, quartic and cubic solver.

Simplifications: `Real` is ℝ, so there is no rounding.  A NaN is `none`; it arises from the
square root of a negative number, from 0/0 in `CUBIC` and at exactly the speed of light.  Other
divisions by zero have the value Lean gives them.  `1.0 - 1.e-16` in `CUBIC` is the nearest
double, `1 - 2^-53`.
-/
namespace Athena.Rel

/-- `MIN(a,b) ((a) < (b) ? (a) : (b))` (/repo/src/defs.h.in); a comparison with a NaN is false. -/
noncomputable def minN (a b : Option ℝ) : Option ℝ :=
  match a, b with
  | some x, some y => if x < y then some x else some y
  | _, _ => b

/-- `MAX(a,b) ((a) > (b) ? (a) : (b))` (/repo/src/defs.h.in). -/
noncomputable def maxN (a b : Option ℝ) : Option ℝ :=
  match a, b with
  | some x, some y => if x > y then some x else some y
  | _, _ => b

/-- `MIN` of numbers. -/
noncomputable def minR (x y : ℝ) : ℝ := if x < y then x else y

/-- `MAX` of numbers. -/
noncomputable def maxR (x y : ℝ) : ℝ := if x > y then x else y

/-- Three roots. -/
structure Roots3 where
  z0 : ℝ
  z1 : ℝ
  z2 : ℝ

/-- `CUBIC` (hlle_sr.c:726-801) with `dc` for the constant `1.e-16` of line 742. -/
noncomputable def cubicRoots (dc b c d : ℝ) : Option Roots3 :=
  let b2 := b * b
  let f := c * (1 - dc) - b2 * (1 / 3)
  let g := b * (2 * b2 - 9 * c) * (1 / 27) + d
  let i2 := -f * f * f * (1 / 27)
  let i2 := if i2 < 0 then 0 else i2
  let i := √i2
  let j := i ^ (1 / 3 : ℝ)
  if i = 0 ∧ g = 0 then none
  else
    let k := if i = 0 then (if g < 0 then 1 else -1) else -(1 / 2) * g / i
    let k := if k < -1 then -1 else k
    let k := if k > 1 then 1 else k
    let k := Real.arccos k * (1 / 3)
    let m := Real.cos k
    let n := √3 * Real.sin k
    let p := -b * (1 / 3)
    some ⟨-j * (m + n) + p, -j * (m - n) + p, 2 * j * m + p⟩

/-- Four roots. -/
structure Roots4 where
  z0 : ℝ
  z1 : ℝ
  z2 : ℝ
  z3 : ℝ

/-- The formulas of `QUARTIC` from the roots of the resolvent cubic (hlle_sr.c:650-670). -/
noncomputable def quarticFrom (b g : ℝ) (u : Roots3) : Option Roots4 :=
  if u.z1 < 1 / 10 ^ 14 then do
    let p ← sqrtN u.z2
    let s := (1 / 4) * b
    some ⟨-p - s, p - s, -p - s, p - s⟩
  else do
    let p ← sqrtN u.z1
    let q ← sqrtN u.z2
    if p * q = 0 then none
    else
      let r := -(1 / 8) * g / (p * q)
      let s := (1 / 4) * b
      some ⟨-p - q + r - s, p - q - r - s, -p + q - r - s, p + q + r - s⟩

/-- The value tested at the end of `QUARTIC` (hlle_sr.c:678). -/
def quarticAt (b c d e z : ℝ) : ℝ := e + z * (d + z * (c + z * (b + z)))

/-- `QUARTIC` (hlle_sr.c:626-693); `none` is the return value 1. -/
noncomputable def quarticRoots (b c d e : ℝ) : Option Roots4 := do
  let b2 := b * b
  let f := c - b2 * (3 / 8)
  let g := d + b2 * b * (1 / 8) - b * c * (1 / 2)
  let h := e - b2 * b2 * (3 / 256) + (1 / 16) * b2 * c - (1 / 4) * b * d
  let u ← cubicRoots (1 / 2 ^ 53) ((1 / 2) * f) ((f * f - 4 * h) * (1 / 16)) (-g * g * (1 / 64))
  let z ← quarticFrom b g u
  if |quarticAt b c d e z.z0| > 1 / 10 ^ 6 ∨ |quarticAt b c d e z.z1| > 1 / 10 ^ 6 ∨
      |quarticAt b c d e z.z2| > 1 / 10 ^ 6 ∨ |quarticAt b c d e z.z3| > 1 / 10 ^ 6 then none
  else some z

/-- Two signal speeds, either of which may be a NaN. -/
@[ext] structure SpeedsN where
  lm : Option ℝ
  lp : Option ℝ

/-- Local variables of the signal speeds (hlle_sr.c:403-430); `vasq > 1` is only possible for
negative enthalpy. -/
structure Loc where
  rhoh : ℝ
  vsq : ℝ
  gamma2 : ℝ
  vDotB : ℝ
  bx : ℝ
  bsq : ℝ
  cssq : ℝ

/-- hlle_sr.c:403-430; `Bx/gamma2 = Bx*(1-vsq)`. -/
noncomputable def locals (g : ℝ) (W : PrimB) (Bx : ℝ) : Loc :=
  let rhoh := W.d + g / (g - 1) * W.P
  let vsq := W.Vx * W.Vx + W.Vy * W.Vy + W.Vz * W.Vz
  let gamma2 := 1 / (1 - vsq)
  let Bsq := Bx * Bx + W.By * W.By + W.Bz * W.Bz
  let vDotB := W.Vx * Bx + W.Vy * W.By + W.Vz * W.Bz
  let bx := Bx / gamma2 + W.Vx * vDotB
  let bsq := Bsq / gamma2 + vDotB * vDotB
  let cssq := g * W.P / rhoh
  let vasq := bsq / (rhoh + bsq)
  let bsq := if bsq < 0 then 0 else bsq
  let cssq := if cssq < 0 then 0 else cssq
  let cssq := if cssq > 1 then 1 else cssq
  let bsq := if vasq > 1 then rhoh + bsq else bsq
  ⟨rhoh, vsq, gamma2, vDotB, bx, bsq, cssq⟩

/-- Slow gas (hlle_sr.c:432-444). -/
noncomputable def vcharRest (l : Loc) (Bx : ℝ) : SpeedsN :=
  let w_1 := 1 / (l.rhoh + l.bsq)
  let eps2 := l.cssq + l.bsq * w_1 * (1 - l.cssq)
  let a0 := l.cssq * Bx * Bx * w_1
  let a1 := -a0 - eps2
  let scrh := a1 * a1 - 4 * a0
  let scrh := if scrh < 0 then 0 else scrh
  let s := sqrtN ((1 / 2) * (-a1 + √scrh))
  ⟨s.map (fun x => -x), s⟩

/-- The case `Bx < 1.0e-14` (hlle_sr.c:446-463). -/
noncomputable def vcharNoBx (l : Loc) (Vx : ℝ) : SpeedsN :=
  let w_1 := 1 / (l.rhoh + l.bsq)
  let eps2 := l.cssq + l.bsq * w_1 * (1 - l.cssq)
  let scrh1 := (1 - eps2) * l.gamma2
  let scrh2 := l.cssq * (l.vDotB * l.vDotB) * w_1 - eps2
  let a2 := scrh1 - scrh2
  let a1 := -2 * Vx * scrh1
  let a0 := Vx * Vx * scrh1 + scrh2
  let s := sqrtN (a1 * a1 - 4 * a2 * a0)
  ⟨s.map fun s => (1 / 2) * (-a1 - s) / a2, s.map fun s => (1 / 2) * (-a1 + s) / a2⟩

/-- Coefficients of the quartic. -/
structure Coef4 where
  a4 : ℝ
  a3 : ℝ
  a2 : ℝ
  a1 : ℝ
  a0 : ℝ

/-- hlle_sr.c:465-481. -/
noncomputable def vcharCoef (l : Loc) (Vx : ℝ) : Coef4 :=
  let w_1 := 1 / (l.rhoh + l.bsq)
  let scrh1 := l.bx
  let scrh2 := scrh1 * scrh1
  let a2_w := l.cssq * w_1
  let eps2 := (l.cssq * l.rhoh + l.bsq) * w_1
  let one_m_eps2 := l.gamma2 * l.rhoh * (1 - l.cssq) * w_1
  let scrh := 2 * (a2_w * l.vDotB * scrh1 - eps2 * Vx)
  let Vx2 := Vx * Vx
  let vDotBsq := l.vDotB * l.vDotB
  { a4 := one_m_eps2 - a2_w * vDotBsq + eps2
    a3 := -4 * Vx * one_m_eps2 + scrh
    a2 := 6 * Vx2 * one_m_eps2 + a2_w * (vDotBsq - scrh2) + eps2 * (Vx2 - 1)
    a1 := -4 * Vx * Vx2 * one_m_eps2 - scrh
    a0 := Vx2 * Vx2 * one_m_eps2 + a2_w * scrh2 - eps2 * Vx2 }

/-- The general case (hlle_sr.c:465-523). -/
noncomputable def vcharGen (l : Loc) (Vx : ℝ) : SpeedsN :=
  let a := vcharCoef l Vx
  if a.a4 < 1 / 10 ^ 12 then ⟨some (-1), some 1⟩
  else
    let scrh := 1 / a.a4
    match quarticRoots (a.a3 * scrh) (a.a2 * scrh) (a.a1 * scrh) (a.a0 * scrh) with
    | none => ⟨some (-1), some 1⟩
    | some z =>
      let lp := minR 1 (maxR z.z3 z.z2)
      let lp := minR 1 (maxR lp z.z1)
      let lp := minR 1 (maxR lp z.z0)
      let lm := maxR (-1) (minR z.z3 z.z2)
      let lm := maxR (-1) (minR lm z.z1)
      let lm := maxR (-1) (minR lm z.z0)
      ⟨some lm, some lp⟩

/-- `getVChar_pluto` (hlle_sr.c:392-525).  At exactly the speed of light `gamma` is infinite and
what follows a NaN, which `QUARTIC` reports. -/
noncomputable def vcharPluto (g : ℝ) (W : PrimB) (Bx : ℝ) : SpeedsN :=
  let l := locals g W Bx
  if l.vsq > 1 then ⟨some (-1), some 1⟩
  else if l.vsq = 1 then (if Bx < 1 / 10 ^ 14 then ⟨none, none⟩ else ⟨some (-1), some 1⟩)
  else if l.vsq < 1 / 10 ^ 12 then vcharRest l Bx
  else if Bx < 1 / 10 ^ 14 then vcharNoBx l W.Vx
  else vcharGen l W.Vx

/-- `getVChar_echo` (hlle_sr.c:542-592); `1 - vsq < 0` or `= 0` gives a NaN in `gamma`, or an
infinite `gamma`, but `gamma2` only divides, so the result at the speed of light is finite. -/
noncomputable def vcharEcho (g : ℝ) (W : PrimB) (Bx : ℝ) : SpeedsN :=
  let rhoh := W.d + g / (g - 1) * W.P
  let vsq := W.Vx * W.Vx + W.Vy * W.Vy + W.Vz * W.Vz
  if vsq > 1 then ⟨none, none⟩
  else
    let Bsq := Bx * Bx + W.By * W.By + W.Bz * W.Bz
    let vDotB := W.Vx * Bx + W.Vy * W.By + W.Vz * W.Bz
    let bsq := Bsq * (1 - vsq) + vDotB * vDotB
    let cssq := g * W.P / rhoh
    let vasq := bsq / (rhoh + bsq)
    let asq := cssq + vasq - cssq * vasq
    let asq := if asq < 0 then 0 else asq
    let asq := if asq > 1 then 1 else asq
    let tmp1 := 1 - asq
    let tmp2 := 1 - vsq
    let tmp3 := 1 - vsq * asq
    let tmp4 := W.Vx * W.Vx
    if tmp3 = 0 then ⟨none, none⟩
    else
      match sqrtN (asq * tmp2 * (tmp3 - tmp1 * tmp4)) with
      | none => ⟨none, none⟩
      | some s =>
        let vm := (tmp1 * W.Vx - s) * (1 / tmp3)
        let vp := (tmp1 * W.Vx + s) * (1 / tmp3)
        if vp > vm then ⟨some vm, some vp⟩ else ⟨some vp, some vm⟩

/-- `getMaxSignalSpeeds_pluto`, `getMaxSignalSpeeds_echo` (hlle_sr.c:377-390, 527-540). -/
noncomputable def maxSpeeds (l r : SpeedsN) : SpeedsN := ⟨minN l.lm r.lm, maxN l.lp r.lp⟩

/-- Speeds of the left and the right edge of the fan. -/
structure Edges where
  l : ℝ
  r : ℝ

/-- The checks after either estimate (hlle_sr.c:83-107, 115-137): the speeds, and whether the
estimate failed. -/
noncomputable def checkSpeeds (s : SpeedsN) : Edges × Bool :=
  match s.lm, s.lp with
  | none, _ => (⟨-1, 1⟩, true)
  | some _, none => (⟨-1, 1⟩, true)
  | some l, some r =>
    if l < -1 then (⟨-1, 1⟩, true)
    else if r > 1 then (⟨-1, 1⟩, true)
    else (⟨l, r⟩, false)

/-- Steps 1 and 1a of `fluxes` and `entropy_flux` (hlle_sr.c:78-144). -/
noncomputable def hlleSpeeds (g : ℝ) (Wl Wr : PrimB) (Bx : ℝ) : Edges :=
  let a := checkSpeeds (maxSpeeds (vcharPluto g Wl Bx) (vcharPluto g Wr Bx))
  if a.2 then (checkSpeeds (maxSpeeds (vcharEcho g Wl Bx) (vcharEcho g Wr Bx))).1 else a.1

/-- `flux_LR` (hlle_sr.c:324-375). -/
noncomputable def fluxLR (g : ℝ) (U : ConsB) (W : PrimB) (Bx : ℝ) : ConsB :=
  let theta := W.P / W.d
  let gmmr := g / (g - 1)
  let h := 1 + gmmr * theta
  let γ := U.d / W.d
  let g2 := γ * γ
  let g_2 := 1 / g2
  let vB := W.Vx * Bx + W.Vy * W.By + W.Vz * W.Bz
  let Bmag2 := Bx * Bx + W.By * W.By + W.Bz * W.Bz
  let bx := γ * (Bx * g_2 + vB * W.Vx)
  let by_ := γ * (W.By * g_2 + vB * W.Vy)
  let bz := γ * (W.Bz * g_2 + vB * W.Vz)
  let b2 := Bmag2 * g_2 + vB * vB
  let pt := W.P + (1 / 2) * b2
  let wtg2 := W.d * h * g2 + b2 * g2
  { d := U.d * W.Vx
    Mx := wtg2 * W.Vx * W.Vx + pt - bx * bx
    My := wtg2 * W.Vy * W.Vx - by_ * bx
    Mz := wtg2 * W.Vz * W.Vx - bz * bx
    E := U.Mx
    By := W.Vx * W.By - Bx * W.Vy
    Bz := W.Vx * W.Bz - Bx * W.Vz }

/-- One component of `Fhll` (hlle_sr.c:191-199). -/
noncomputable def hllOne (Sl Sr fl fr ul ur : ℝ) : ℝ :=
  (Sr * fl - Sl * fr + Sl * Sr * (ur - ul)) * (1 / (Sr - Sl))

/-- The flux for given signal speeds (hlle_sr.c:146-213). -/
noncomputable def hlleFlux (Sl Sr : ℝ) (Ul Ur Fl Fr : ConsB) : ConsB :=
  if Sl ≥ 0 then Fl
  else if Sr ≤ 0 then Fr
  else
    { d := hllOne Sl Sr Fl.d Fr.d Ul.d Ur.d
      Mx := hllOne Sl Sr Fl.Mx Fr.Mx Ul.Mx Ur.Mx
      My := hllOne Sl Sr Fl.My Fr.My Ul.My Ur.My
      Mz := hllOne Sl Sr Fl.Mz Fr.Mz Ul.Mz Ur.Mz
      E := hllOne Sl Sr Fl.E Fr.E Ul.E Ur.E
      By := hllOne Sl Sr Fl.By Fr.By Ul.By Ur.By
      Bz := hllOne Sl Sr Fl.Bz Fr.Bz Ul.Bz Ur.Bz }

/-- `fluxes` (hlle_sr.c:64-216). -/
noncomputable def hlleSR (g : ℝ) (Ul Ur : ConsB) (Wl Wr : PrimB) (Bx : ℝ) : ConsB :=
  let S := hlleSpeeds g Wl Wr Bx
  hlleFlux S.l S.r Ul Ur (fluxLR g Ul Wl Bx) (fluxLR g Ur Wr Bx)

/-- `entropy_flux` (hlle_sr.c:218-321). -/
noncomputable def hlleEntropy (g : ℝ) (Ul Ur : ConsB) (Wl Wr : PrimB) (Bx : ℝ) : ℝ :=
  let S := hlleSpeeds g Wl Wr Bx
  let USl := Wl.P * Wl.d ^ (1 - g) * Ul.d / Wl.d
  let USr := Wr.P * Wr.d ^ (1 - g) * Ur.d / Wr.d
  let Fl := USl * Wl.Vx
  let Fr := USr * Wr.Vx
  if S.l ≥ 0 then Fl
  else if S.r ≤ 0 then Fr
  else hllOne S.l S.r Fl Fr USl USr

end Athena.Rel
