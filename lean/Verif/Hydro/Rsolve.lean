import Verif.Hydro.StateProps

/-!
# src/rsolvers: the HLLE, HLLC, FORCE, Roe and two-shock fluxes

Newtonian, Cartesian (without `Pflux`), without `H_CORRECTION` (`etah` = 0).  Exact reals; a division by zero or the root of a
negative number is the outcome `none`.  `Iso_csound` is the positive root of `Iso_csound2` (src/main.c:354-355).
-/

namespace Athena.Hydro
noncomputable section
variable {ns : ℕ}

/-- `#define SQR(x)`, src/defs.h.in. -/
def sqr (x : ℝ) : ℝ := x * x
/-- `Iso_csound`. -/
def Phys.cs (p : Phys) : ℝ := Real.sqrt p.cs2
/-- `Gamma_2 = Gamma - 2.0`, src/main.c:359. -/
def Phys.gamma2 (p : Phys) : ℝ := p.gamma - 2

/-- Roe averages; members not used by a configuration are 0. -/
structure Roe where
  d : ℝ
  v1 : ℝ
  v2 : ℝ
  v3 : ℝ
  h : ℝ
  b2 : ℝ
  b3 : ℝ
  x : ℝ
  y : ℝ

/-- `pbl`, `pbr`: hlle.c:109-110, force.c:94-95, roe.c:119-120; 0.0 without MHD. -/
def magP (p : Phys) (W : Prim1D ns) (Bx : ℝ) : ℝ := if p.mhd then 1/2 * (sqr Bx + sqr W.By + sqr W.Bz) else 0

/-- Step 2 of all solvers: Roe averages, hlle.c:93-120, hllc.c:79-95, force.c:76-105, roe.c:103-130. -/
def roeAvg (p : Phys) (Ul Ur : Cons1D ns) (Wl Wr : Prim1D ns) (Bx : ℝ) : Option Roe := do
  let sl ← fsqrt Wl.d
  let sr ← fsqrt Wr.d
  let i ← fdiv 1 (sl + sr)
  let x ← if p.mhd then fdiv (1/2 * (sqr (Wl.By - Wr.By) + sqr (Wl.Bz - Wr.Bz))) (sqr (sl + sr)) else pure 0
  let y ← if p.mhd then fdiv (1/2 * (Wl.d + Wr.d)) (sl * sr) else pure 0
  let h ← if p.iso then pure 0 else do
    let a ← fdiv (Ul.E + Wl.P + magP p Wl Bx) sl
    let b ← fdiv (Ur.E + Wr.P + magP p Wr Bx) sr
    pure ((a + b) * i)
  return { d := sl * sr
           v1 := (sl * Wl.Vx + sr * Wr.Vx) * i
           v2 := (sl * Wl.Vy + sr * Wr.Vy) * i
           v3 := (sl * Wl.Vz + sr * Wr.Vz) * i
           h := h
           b2 := if p.mhd then (sr * Wl.By + sl * Wr.By) * i else 0
           b3 := if p.mhd then (sr * Wl.Bz + sl * Wr.Bz) * i else 0
           x := x, y := y }

/-- Largest signal speed relative to `v1` in `esys_roe_iso_hyd` (esystem_roe.c:65-68), `esys_roe_adb_hyd` (:136-146),
`esys_roe_iso_mhd` (:225-241) and `esys_roe_adb_mhd` (:418-436): `eigenvalues[0]` and `eigenvalues[NWAVE-1]` are `v1` minus and
plus this.  (Called with `NULL` matrices; the slow and Alfven speeds are not used.) -/
def roeC (p : Phys) (r : Roe) (Bx : ℝ) : Option ℝ :=
  if p.mhd then do
    let di ← fdiv 1 r.d
    let btsq := r.b2 * r.b2 + r.b3 * r.b3
    let bt := if p.iso then btsq * r.y else (p.gamma1 - p.gamma2 * r.y) * btsq
    let vax := Bx * Bx * di
    let tw := if p.iso then p.cs2 + r.x else
      let vsq := r.v1 * r.v1 + r.v2 * r.v2 + r.v3 * r.v3
      let hp := r.h - (vax + btsq * di)
      fmax (p.gamma1 * (hp - 1/2 * vsq) - p.gamma2 * r.x) p.tiny
    let ct2 := bt * di
    let tsum := vax + ct2 + tw
    let tdif := vax + ct2 - tw
    let q ← fsqrt (tdif * tdif + 4 * tw * ct2)
    fsqrt (1/2 * (tsum + q))
  else if p.iso then pure p.cs
  else
    let vsq := r.v1 * r.v1 + r.v2 * r.v2 + r.v3 * r.v3
    fsqrt (p.gamma1 * fmax (r.h - 1/2 * vsq) p.tiny)

/-- Step 4: fast speed of one of the two states, hlle.c:146-174, force.c:131-159; without MHD (vaxsq = ct2 = 0) and in hllc.c:111-116
this is the sound speed. -/
def sideC (p : Phys) (U : Cons1D ns) (W : Prim1D ns) (Bx : ℝ) : Option ℝ := do
  let asq ← (if p.iso then some p.cs2 else fdiv (p.gamma * W.P) W.d : Option ℝ)
  let vax ← (if p.mhd then fdiv (Bx * Bx) W.d else some 0 : Option ℝ)
  let ct2 ← (if p.mhd then fdiv (U.By * U.By + U.Bz * U.Bz) W.d else some 0 : Option ℝ)
  let qsq := vax + ct2 + asq
  let tmp := vax + ct2 - asq
  let r ← fsqrt (tmp * tmp + 4 * asq * ct2)
  fsqrt (1/2 * (qsq + r))

/-- Step 4: `al`, `ar`, hlle.c:177-178, hllc.c:118-119, force.c:162-163. -/
def speeds (p : Phys) (Ul Ur : Cons1D ns) (Wl Wr : Prim1D ns) (Bx : ℝ) : Option (ℝ × ℝ) := do
  let r ← roeAvg p Ul Ur Wl Wr Bx
  let c ← roeC p r Bx
  let cl ← sideC p Ul Wl Bx
  let cr ← sideC p Ur Wr Bx
  return (fmin (r.v1 - c) (Wl.Vx - cl), fmax (r.v1 + c) (Wr.Vx + cr))

/-- Step 5: `Fl` (with `b` = `bm`) or `Fr` (with `b` = `bp`), hlle.c:187-231, hllc.c:151-179, force.c:172-222. -/
def sideFlux (p : Phys) (U : Cons1D ns) (W : Prim1D ns) (Bx b : ℝ) : Cons1D ns where
  d := U.Mx - b * U.d
  Mx := U.Mx * (W.Vx - b) + (if p.iso then W.d * p.cs2 else W.P) -
    (if p.mhd then 1/2 * (Bx * Bx - sqr W.By - sqr W.Bz) else 0)
  My := U.My * (W.Vx - b) - (if p.mhd then Bx * W.By else 0)
  Mz := U.Mz * (W.Vx - b) - (if p.mhd then Bx * W.Bz else 0)
  E := if p.iso then 0 else U.E * (W.Vx - b) + W.P * W.Vx +
    (if p.mhd then magP p W Bx * W.Vx - Bx * (Bx * W.Vx + W.By * W.Vy + W.Bz * W.Vz) else 0)
  By := if p.mhd then W.By * (W.Vx - b) - Bx * W.Vy else 0
  Bz := if p.mhd then W.Bz * (W.Vx - b) - Bx * W.Vz else 0
  s := fun n => (U.Mx - b * U.d) * W.r n

/-- `for (n=0; n<NWAVE; n++) pF[n] = f(pFl[n], pFr[n])` -/
def comb (p : Phys) (f : ℝ → ℝ → ℝ) (F G : Cons1D ns) : Cons1D ns where
  d := f F.d G.d
  Mx := f F.Mx G.Mx
  My := f F.My G.My
  Mz := f F.Mz G.Mz
  E := if p.iso then 0 else f F.E G.E
  By := if p.mhd then f F.By G.By else 0
  Bz := if p.mhd then f F.Bz G.Bz else 0
  s := fun _ => 0

/-- The fluxes of the scalars from the mass flux, hlle.c:256-262, hllc.c:211-217, force.c:293-299, roe.c:312-317. -/
def scalars (Wl Wr : Prim1D ns) (F : Cons1D ns) : Cons1D ns :=
  { F with s := fun n => if F.d ≥ 0 then F.d * Wl.r n else F.d * Wr.r n }

/-- The HLLE flux, hlle.c:62-270. -/
def hlle (p : Phys) (Ul Ur : Cons1D ns) (Wl Wr : Prim1D ns) (Bx : ℝ) : Option (Cons1D ns) := do
  let (al, ar) ← speeds p Ul Ur Wl Wr Bx
  let bp := fmax ar 0
  let bm := fmin al 0
  let Fl := sideFlux p Ul Wl Bx bm
  let Fr := sideFlux p Ur Wr Bx bp
  let tmp ← fdiv (1/2 * (bp + bm)) (bp - bm)
  return scalars Wl Wr (comb p (fun a b => 1/2 * (a + b) + (a - b) * tmp) Fl Fr)

/-- Contact speed and pressure of the HLLC flux, hllc.c:128-145. -/
def contact (p : Phys) (Ul Ur : Cons1D ns) (Wl Wr : Prim1D ns) (al ar : ℝ) : Option (ℝ × ℝ) := do
  let tl := (if p.iso then Wl.d * p.cs2 else Wl.P) + (Wl.Vx - al) * Ul.Mx
  let tr := (if p.iso then Wr.d * p.cs2 else Wr.P) + (Wr.Vx - ar) * Ur.Mx
  let dl := Ul.Mx - Ul.d * al
  let dr := -(Ur.Mx - Ur.d * ar)
  let tmp ← fdiv 1 (dl + dr)
  let cp := (dl * tr + dr * tl) * tmp
  return ((tl - tr) * tmp, if cp > 0 then cp else 0)

/-- The HLLC flux (hydrodynamics only), hllc.c:50-249. -/
def hllc (p : Phys) (Ul Ur : Cons1D ns) (Wl Wr : Prim1D ns) : Option (Cons1D ns) := do
  let (al, ar) ← speeds p Ul Ur Wl Wr 0
  let bp := if ar > 0 then ar else 0
  let bm := if al < 0 then al else 0
  let (am, cp) ← contact p Ul Ur Wl Wr al ar
  let Fl := sideFlux p Ul Wl 0 bm
  let Fr := sideFlux p Ur Wr 0 bp
  let (sl, sr, sm) ←
    if am ≥ 0 then do pure (← fdiv am (am - bm), 0, ← fdiv (-bm) (am - bm))
    else do pure (0, ← fdiv (-am) (bp - am), ← fdiv bp (bp - am))
  let F := comb p (fun a b => sl * a + sr * b) Fl Fr
  let F := { F with Mx := F.Mx + sm * cp, E := if p.iso then 0 else F.E + sm * cp * am }
  return scalars Wl Wr F

/-- Flux of the mean state in force.c:252-278; `pb` is `pbl`. -/
def meanFlux (p : Phys) (U : Cons1D ns) (W : Prim1D ns) (Bx pb : ℝ) : Cons1D ns where
  d := U.Mx
  Mx := U.Mx * W.Vx + (if p.iso then W.d * p.cs2 else W.P) -
    (if p.mhd then 1/2 * (Bx * Bx - sqr W.By - sqr W.Bz) else 0)
  My := U.My * W.Vx - (if p.mhd then Bx * W.By else 0)
  Mz := U.Mz * W.Vx - (if p.mhd then Bx * W.Bz else 0)
  E := if p.iso then 0 else U.E * W.Vx + W.P * W.Vx +
    (if p.mhd then pb * W.Vx - Bx * (Bx * W.Vx + W.By * W.Vy + W.Bz * W.Vz) else 0)
  By := if p.mhd then W.By * W.Vx - Bx * W.Vy else 0
  Bz := if p.mhd then W.Bz * W.Vx - Bx * W.Vz else 0
  s := fun _ => 0

/-- The FORCE flux, force.c:45-303.  (`Uc.s` is not set in the C code; `Wc.r`, computed from it, is not used.  Here it is 0.) -/
def force (p : Phys) (Ul Ur : Cons1D ns) (Wl Wr : Prim1D ns) (Bx : ℝ) : Option (Cons1D ns) := do
  let (al, ar) ← speeds p Ul Ur Wl Wr Bx
  let bp := fmax ar 0
  let bm := fmin al 0
  let Fl := sideFlux p Ul Wl Bx bm
  let Fr := sideFlux p Ur Wr Bx bp
  if al ≥ 0 then return Fl
  else if ar ≤ 0 then return Fr
  else
    let tmp ← fdiv 1 (ar - al)
    let Uc := comb p (fun a b => (a - b) * tmp) Fl Fr
    let Wc ← cons1DToPrim1D p Uc Bx
    let Fc := meanFlux p Uc Wc Bx (magP p Wl Bx)
    let tmp ← fdiv (1/4 * (bp + bm)) (bp - bm)
    return scalars Wl Wr (comb p (fun a b => 1/2 * a + b) Fc (comb p (fun a b => 1/4 * (a + b) + (a - b) * tmp) Fl Fr))

/-- The two-shock flux (isothermal hydrodynamics only), two_shock.c:49-137 (without the error exit for non-positive densities). -/
def twoShock (p : Phys) (Ul Ur : Cons1D ns) (Wl Wr : Prim1D ns) : Option (Cons1D ns) := do
  let zl ← fsqrt Wl.d
  let zr ← fsqrt Wr.d
  let tmp ← fdiv (zl * zr * (Wl.Vx - Wr.Vx)) (2 * p.cs * (zl + zr))
  let zc := tmp + (← fsqrt (tmp * tmp + zl * zr))
  let Vxc := (← fdiv (Wl.Vx * zl + Wr.Vx * zr) (zl + zr)) + (← fdiv (p.cs * (zl - zr)) zc)
  let sl := Wl.Vx - (← fdiv (p.cs * zc) zl)
  let sr := Wr.Vx + (← fdiv (p.cs * zc) zr)
  if sr ≤ 0 then
    return ⟨Ur.Mx, Ur.Mx * Wr.Vx + Wr.d * p.cs2, Ur.My * Wr.Vx, Ur.Mz * Wr.Vx, 0, 0, 0, fun n => Ur.Mx * Wr.r n⟩
  else if sl ≥ 0 then
    return ⟨Ul.Mx, Ul.Mx * Wl.Vx + Wl.d * p.cs2, Ul.My * Wl.Vx, Ul.Mz * Wl.Vx, 0, 0, 0, fun n => Ul.Mx * Wl.r n⟩
  else
    let dc := zc * zc
    let W := if Vxc ≥ 0 then Wl else Wr
    return ⟨dc * Vxc, dc * Vxc * Vxc + dc * p.cs2, dc * Vxc * W.Vy, dc * Vxc * W.Vz, 0, 0, 0, fun n => dc * Vxc * W.r n⟩

end
end Athena.Hydro
