import Verif.Hydro.Rsolve

/-!
# src/rsolvers/hlld.c: the HLLD flux (MHD only, hlld.c:39-41)

Newtonian, Cartesian (without `Pflux`).  Exact reals; a division by zero or the root of a negative number is the outcome `none`.
Members `s[n]` of the intermediate states are never written by the code; they are 0 here.
-/

namespace Athena.Hydro
noncomputable section
variable {ns : ℕ}

/-- `#define SMALL_NUMBER 1e-8`, hlld.c:37. -/
def smallNumber : ℝ := 1 / 100000000

/-- `pbl`, `pbr`, hlld.c:96-97 and :449-450. -/
def hlldPb (W : Prim1D ns) (Bx : ℝ) : ℝ := 1/2 * (Bx * Bx + sqr W.By + sqr W.Bz)

/-- `gpl`, `gpr`, hlld.c:98-99 and :451-452. -/
def hlldGp (p : Phys) (W : Prim1D ns) : ℝ := if p.iso then W.d * p.cs2 else p.gamma * W.P

/-- `cfl`, `cfr`, hlld.c:100-104 and :453-457. -/
def hlldCf (p : Phys) (W : Prim1D ns) (Bx : ℝ) : Option ℝ := do
  let gp := hlldGp p W
  let gpb := gp + 2 * hlldPb W Bx
  let r ← fsqrt (sqr gpb - 4 * gp * (Bx * Bx))
  let q ← fdiv (gpb + r) (2 * W.d)
  fsqrt q

/-- `ptl`, `ptr`, hlld.c:123-124 and :490-491. -/
def hlldPt (p : Phys) (W : Prim1D ns) (Bx : ℝ) : ℝ := (if p.iso then W.d * p.cs2 else W.P) + hlldPb W Bx

/-- `Fl`, `Fr`, hlld.c:126-147 and :493-512. -/
def hlldF (p : Phys) (U : Cons1D ns) (W : Prim1D ns) (Bx : ℝ) : Cons1D ns where
  d := U.Mx
  Mx := U.Mx * W.Vx + hlldPt p W Bx - Bx * Bx
  My := U.d * W.Vx * W.Vy - Bx * U.By
  Mz := U.d * W.Vx * W.Vz - Bx * U.Bz
  E := if p.iso then 0 else W.Vx * (U.E + hlldPt p W Bx - Bx * Bx) - Bx * (W.Vy * U.By + W.Vz * U.Bz)
  By := U.By * W.Vx - Bx * W.Vy
  Bz := U.Bz * W.Vx - Bx * W.Vz
  s := fun n => U.Mx * W.r n

/-- `Fl + spd[0]*(Ulst - Ul)`, hlld.c:344-350 (and :376-382, :644-649, :653-658). -/
def hlldOuter (F Us U : Cons1D ns) (s : ℝ) : Cons1D ns where
  d := F.d + s * (Us.d - U.d)
  Mx := F.Mx + s * (Us.Mx - U.Mx)
  My := F.My + s * (Us.My - U.My)
  Mz := F.Mz + s * (Us.Mz - U.Mz)
  E := F.E + s * (Us.E - U.E)
  By := F.By + s * (Us.By - U.By)
  Bz := F.Bz + s * (Us.Bz - U.Bz)
  s := fun _ => 0

/-- `Fl - spd[0]*Ul - (spd[1]-spd[0])*Ulst + spd[1]*Uldst`, hlld.c:354-361 (and :365-372 with spd[4], spd[3]). -/
def hlldInner (F U Us Uds : Cons1D ns) (s s1 : ℝ) : Cons1D ns where
  d := F.d - s * U.d - (s1 - s) * Us.d + s1 * Uds.d
  Mx := F.Mx - s * U.Mx - (s1 - s) * Us.Mx + s1 * Uds.Mx
  My := F.My - s * U.My - (s1 - s) * Us.My + s1 * Uds.My
  Mz := F.Mz - s * U.Mz - (s1 - s) * Us.Mz + s1 * Uds.Mz
  E := F.E - s * U.E - (s1 - s) * Us.E + s1 * Uds.E
  By := F.By - s * U.By - (s1 - s) * Us.By + s1 * Uds.By
  Bz := F.Bz - s * U.Bz - (s1 - s) * Us.Bz + s1 * Uds.Bz
  s := fun _ => 0

/-! ## Adiabatic, Miyoshi & Kusano, hlld.c:43-398 -/

/-- `spd[0]`, `spd[4]`, hlld.c:103-114. -/
def hlldEnds (p : Phys) (Wl Wr : Prim1D ns) (Bx : ℝ) : Option (ℝ × ℝ) := do
  let cfl ← hlldCf p Wl Bx
  let cfr ← hlldCf p Wr Bx
  let cfmax := fmax cfl cfr
  return if Wl.Vx ≤ Wr.Vx then (Wl.Vx - cfmax, Wr.Vx + cfmax) else (Wr.Vx - cfmax, Wl.Vx + cfmax)

/-- `spd[2]`, hlld.c:173-181. -/
def hlldSM (p : Phys) (Wl Wr : Prim1D ns) (Bx s0 s4 : ℝ) : Option ℝ :=
  let sdl := s0 - Wl.Vx
  let sdr := s4 - Wr.Vx
  fdiv (sdr * Wr.d * Wr.Vx - sdl * Wl.d * Wl.Vx - hlldPt p Wr Bx + hlldPt p Wl Bx) (sdr * Wr.d - sdl * Wl.d)

/-- One of the states `Ulst`, `Urst` with `vbstl`, `vbstr`, hlld.c:180-184, :198-243 and :246-292. -/
def hlldStar (p : Phys) (U : Cons1D ns) (W : Prim1D ns) (Bx s sM ptst : ℝ) : Option (Cons1D ns × ℝ) := do
  let sd := s - W.Vx
  let sdm := s - sM
  let d ← fdiv (U.d * sd) sdm
  let (My, Mz, By, Bz) ←
    if |U.d * sd * sdm - Bx * Bx| < smallNumber * ptst then
      some (d * W.Vy, d * W.Vz, U.By, U.Bz)
    else do
      let t ← fdiv (Bx * (sd - sdm)) (U.d * sd * sdm - Bx * Bx)
      let t' ← fdiv (U.d * sqr sd - Bx * Bx) (U.d * sd * sdm - Bx * Bx)
      some (d * (W.Vy - U.By * t), d * (W.Vz - U.Bz * t), U.By * t', U.Bz * t')
  let vb ← fdiv (d * sM * Bx + My * By + Mz * Bz) d
  let E ← fdiv (sd * U.E - hlldPt p W Bx * W.Vx + ptst * sM + Bx * (W.Vx * Bx + W.Vy * U.By + W.Vz * U.Bz - vb)) sdm
  return ({ d := d, Mx := d * sM, My := My, Mz := Mz, E := E, By := By, Bz := Bz, s := fun _ => 0 }, vb)

/-- `Uldst`, `Urdst`, hlld.c:295-336; `sl`, `sr` are `sqrtdl`, `sqrtdr`. -/
def hlldDouble (p : Phys) (UL UR : Cons1D ns) (vbl vbr sl sr Bx sM ptst : ℝ) : Option (Cons1D ns × Cons1D ns) :=
  if 1/2 * (Bx * Bx) < smallNumber * ptst then some (UL, UR) else do
    let WL ← cons1DToPrim1D p UL Bx
    let WR ← cons1DToPrim1D p UR Bx
    let i ← fdiv 1 (sl + sr)
    let sg : ℝ := if Bx > 0 then 1 else -1
    let vy := i * (sl * WL.Vy + sr * WR.Vy + sg * (UR.By - UL.By))
    let vz := i * (sl * WL.Vz + sr * WR.Vz + sg * (UR.Bz - UL.Bz))
    let By := i * (sl * UR.By + sr * UL.By + sg * sl * sr * (WR.Vy - WL.Vy))
    let Bz := i * (sl * UR.Bz + sr * UL.Bz + sg * sl * sr * (WR.Vz - WL.Vz))
    let q ← fdiv (UL.d * vy * By + UL.d * vz * Bz) UL.d
    let tmp := sM * Bx + q
    return ({ d := UL.d, Mx := UL.Mx, My := UL.d * vy, Mz := UL.d * vz, E := UL.E - sl * sg * (vbl - tmp), By := By, Bz := Bz
              s := fun _ => 0 },
            { d := UR.d, Mx := UR.Mx, My := UR.d * vy, Mz := UR.d * vz, E := UR.E + sr * sg * (vbr - tmp), By := By, Bz := Bz
              s := fun _ => 0 })

/-- The signal speeds `spd[0..4]`, the intermediate states and `ptst`. -/
structure HlldFan (ns : ℕ) where
  s0 : ℝ
  s1 : ℝ
  s2 : ℝ
  s3 : ℝ
  s4 : ℝ
  pt : ℝ
  UL : Cons1D ns
  ULL : Cons1D ns
  URR : Cons1D ns
  UR : Cons1D ns

/-- Steps 5 and 6, hlld.c:173-336. -/
def hlldFan (p : Phys) (Ul Ur : Cons1D ns) (Wl Wr : Prim1D ns) (Bx s0 s4 : ℝ) : Option (HlldFan ns) := do
  let sM ← hlldSM p Wl Wr Bx s0 s4
  let ptst := hlldPt p Wl Bx + Ul.d * (s0 - Wl.Vx) * ((s0 - Wl.Vx) - (s0 - sM))
  let (UL, vbl) ← hlldStar p Ul Wl Bx s0 sM ptst
  let (UR, vbr) ← hlldStar p Ur Wr Bx s4 sM ptst
  let sl ← fsqrt UL.d
  let sr ← fsqrt UR.d
  let al ← fdiv |Bx| sl
  let ar ← fdiv |Bx| sr
  let (ULL, URR) ← hlldDouble p UL UR vbl vbr sl sr Bx sM ptst
  return ⟨s0, sM - al, sM, sM + ar, s4, ptst, UL, ULL, URR, UR⟩

/-- Step 7, hlld.c:342-383. -/
def hlldPick (p : Phys) (Ul Ur : Cons1D ns) (Wl Wr : Prim1D ns) (Bx : ℝ) (f : HlldFan ns) : Cons1D ns :=
  if f.s1 ≥ 0 then hlldOuter (hlldF p Ul Wl Bx) f.UL Ul f.s0
  else if f.s2 ≥ 0 then hlldInner (hlldF p Ul Wl Bx) Ul f.UL f.ULL f.s0 f.s1
  else if f.s3 > 0 then hlldInner (hlldF p Ur Wr Bx) Ur f.UR f.URR f.s4 f.s3
  else hlldOuter (hlldF p Ur Wr Bx) f.UR Ur f.s4

/-- The adiabatic HLLD flux, hlld.c:57-398. -/
def hlldA (p : Phys) (Ul Ur : Cons1D ns) (Wl Wr : Prim1D ns) (Bx : ℝ) : Option (Cons1D ns) := do
  let (s0, s4) ← hlldEnds p Wl Wr Bx
  if s0 ≥ 0 then return hlldF p Ul Wl Bx
  else if s4 ≤ 0 then return hlldF p Ur Wr Bx
  else do
    let f ← hlldFan p Ul Ur Wl Wr Bx s0 s4
    return scalars Wl Wr (hlldPick p Ul Ur Wl Wr Bx f)

/-! ## Isothermal, Mignone, hlld.c:400-680 -/

/-- `#define SIGN(a)`, src/defs.h.in:148. -/
def sign1 (a : ℝ) : ℝ := if a < 0 then -1 else 1

/-- `spd[0]`, `spd[4]`, hlld.c:459-460. -/
def hlldEndsI (p : Phys) (Wl Wr : Prim1D ns) (Bx : ℝ) : Option (ℝ × ℝ) := do
  let cfl ← hlldCf p Wl Bx
  let cfr ← hlldCf p Wr Bx
  return (fmin (Wl.Vx - cfl) (Wr.Vx - cfr), fmax (Wl.Vx + cfl) (Wr.Vx + cfr))

/-- `fabs(s/s1-1.0) < SMALL_NUMBER`, hlld.c:571-574 and :601-603.  With `s1 = 0` the quotient is an infinity (the outer speeds are not zero
here) and the comparison is false. -/
def hlldNear (s s1 : ℝ) : Prop := s1 ≠ 0 ∧ |s / s1 - 1| < smallNumber

instance (s s1 : ℝ) : Decidable (hlldNear s s1) := by unfold hlldNear; exact inferInstance

/-- `Ulst`, `Urst`, hlld.c:564-591 and :593-620. -/
def hlldStarI (U : Cons1D ns) (W : Prim1D ns) (Bx s s1 s3 dh mh u : ℝ) : Option (Cons1D ns) :=
  let tmp := (s - s1) * (s - s3)
  if hlldNear s s1 ∨ hlldNear s s3 then
    some { d := dh, Mx := mh, My := U.My, Mz := U.Mz, E := 0, By := U.By, Bz := U.Bz, s := fun _ => 0 }
  else do
    let mfact ← fdiv (Bx * (u - W.Vx)) tmp
    let bfact ← fdiv (U.d * sqr (s - W.Vx) - Bx * Bx) (dh * tmp)
    return { d := dh, Mx := mh, My := dh * W.Vy - U.By * mfact, Mz := dh * W.Vz - U.Bz * mfact, E := 0
             By := U.By * bfact, Bz := U.Bz * bfact, s := fun _ => 0 }

/-- The signal speeds, `ustar`, `fmxhll` and the intermediate states `Ulst`, `Ucst`, `Urst`. -/
structure HlldFanI (ns : ℕ) where
  s0 : ℝ
  s1 : ℝ
  s3 : ℝ
  s4 : ℝ
  u : ℝ
  fm : ℝ
  UL : Cons1D ns
  UC : Cons1D ns
  UR : Cons1D ns

/-- `dhll` before it is compared with `d_MIN`, hlld.c:539. -/
def hlldDh (p : Phys) (Ul Ur : Cons1D ns) (Wl Wr : Prim1D ns) (Bx s0 s4 : ℝ) : Option ℝ := do
  let i ← fdiv 1 (s4 - s0)
  return (s4 * Ur.d - s0 * Ul.d - (hlldF p Ur Wr Bx).d + (hlldF p Ul Wl Bx).d) * i

/-- Steps 5 and 6, hlld.c:535-636; `dmin` is the global `d_MIN`. -/
def hlldFanI (p : Phys) (dmin : ℝ) (Ul Ur : Cons1D ns) (Wl Wr : Prim1D ns) (Bx s0 s4 : ℝ) : Option (HlldFanI ns) := do
  let Fl := hlldF p Ul Wl Bx
  let Fr := hlldF p Ur Wr Bx
  let i ← fdiv 1 (s4 - s0)
  let dh ← hlldDh p Ul Ur Wl Wr Bx s0 s4
  let dh := if dh < dmin then dmin else dh
  let sq ← fsqrt dh
  let fd := (s4 * Fl.d - s0 * Fr.d + s4 * s0 * (Ur.d - Ul.d)) * i
  let fm := (s4 * Fl.Mx - s0 * Fr.Mx + s4 * s0 * (Ur.Mx - Ul.Mx)) * i
  let u ← fdiv fd dh
  let mh := (s4 * Ur.Mx - s0 * Ul.Mx - Fr.Mx + Fl.Mx) * i
  let a ← fdiv |Bx| sq
  let UL ← hlldStarI Ul Wl Bx s0 (u - a) (u + a) dh mh u
  let UR ← hlldStarI Ur Wr Bx s4 (u - a) (u + a) dh mh u
  let X := sq * sign1 Bx
  let by' ← fdiv (UR.My - UL.My) X
  let bz' ← fdiv (UR.Mz - UL.Mz) X
  return ⟨s0, u - a, u + a, s4, u, fm, UL,
    { d := dh, Mx := mh
      My := 1/2 * (UL.My + UR.My + X * (UR.By - UL.By))
      Mz := 1/2 * (UL.Mz + UR.Mz + X * (UR.Bz - UL.Bz))
      E := 0
      By := 1/2 * (UL.By + UR.By + by')
      Bz := 1/2 * (UL.Bz + UR.Bz + bz')
      s := fun _ => 0 }, UR⟩

/-- `Fcst`, hlld.c:662-667. -/
def hlldCentre (Bx : ℝ) (f : HlldFanI ns) : Option (Cons1D ns) := do
  let vy ← fdiv (Bx * f.UC.My) f.UC.d
  let vz ← fdiv (Bx * f.UC.Mz) f.UC.d
  return { d := f.UC.d * f.u, Mx := f.fm
           My := f.UC.My * f.u - Bx * f.UC.By
           Mz := f.UC.Mz * f.u - Bx * f.UC.Bz
           E := 0
           By := f.UC.By * f.u - vy
           Bz := f.UC.Bz * f.u - vz
           s := fun _ => 0 }

/-- Step 7, hlld.c:642-668. -/
def hlldPickI (p : Phys) (Ul Ur : Cons1D ns) (Wl Wr : Prim1D ns) (Bx : ℝ) (f : HlldFanI ns) : Option (Cons1D ns) :=
  if f.s1 ≥ 0 then some (hlldOuter (hlldF p Ul Wl Bx) f.UL Ul f.s0)
  else if f.s3 ≤ 0 then some (hlldOuter (hlldF p Ur Wr Bx) f.UR Ur f.s4)
  else hlldCentre Bx f

/-- The isothermal HLLD flux, hlld.c:414-680. -/
def hlldI (p : Phys) (dmin : ℝ) (Ul Ur : Cons1D ns) (Wl Wr : Prim1D ns) (Bx : ℝ) : Option (Cons1D ns) := do
  let (s0, s4) ← hlldEndsI p Wl Wr Bx
  if s0 ≥ 0 then return hlldF p Ul Wl Bx
  else if s4 ≤ 0 then return hlldF p Ur Wr Bx
  else do
    let f ← hlldFanI p dmin Ul Ur Wl Wr Bx s0 s4
    let F ← hlldPickI p Ul Ur Wl Wr Bx f
    return scalars Wl Wr F

end
end Athena.Hydro
