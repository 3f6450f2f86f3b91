import Mathlib.Tactic.Linarith
import Mathlib.Tactic.Ring
import Mathlib.Tactic.FieldSimp
import Mathlib.Algebra.BigOperators.Fin
import Mathlib.Algebra.Order.Field.Basic

/-!
# src/smr.c: prolongation operators `mcd_slope`, `ProCon`, `ProFld`

`Real` is an arbitrary ordered field (no rounding).
-/

namespace Athena.Smr

variable {R : Type*} [Field R] [LinearOrder R]

/-- `mcd_slope`, src/smr.c:2504-2521. -/
def mcdSlope (vl vc vr : R) : R :=
  let dvl := vc - vl
  let dvr := vr - vc
  if 0 < dvl ∧ 0 < dvr then
    let dv := 2 * (if dvl < dvr then dvl else dvr)
    let dvm := 1/2 * (dvl + dvr)
    if dvm < dv then dvm else dv
  else if dvl < 0 ∧ dvr < 0 then
    let dv := 2 * (if dvr < dvl then dvl else dvr)
    let dvm := 1/2 * (dvl + dvr)
    if dv < dvm then dvm else dv
  else 0

/-- `ConsS` (src/athena.h) with all optional members.  `e = none` stands for an energy that is not a
finite number (the density it was divided by is 0). -/
structure ConsS (R : Type*) (ns : Nat) where
  d : R
  m1 : R
  m2 : R
  m3 : R
  e : Option R
  b1 : R
  b2 : R
  b3 : R
  s : Fin ns → R

/-- Compile-time options that `ProCon` depends on. -/
structure ProCfg where
  firstOrder : Bool
  mhd : Bool
  sr : Bool

/-- `FIRST_ORDER` (or not) slope: 0 or `mcd_slope`. -/
def slope (cf : ProCfg) (vl vc vr : R) : R := if cf.firstOrder then 0 else mcdSlope vl vc vr

/-- `0.5*i - 0.25` for `i = 0,1`. -/
def off (i : Fin 2) : R := 1/2 * (i.val : R) - 1/4

/-- The interpolation formula written out for every variable in `ProCon`, e.g. src/smr.c:2122-2131
(with `dq? = 0` it is the first order copy 2098-2116). -/
def proVar (cf : ProCfg) (im c ip jm jp km kp : R) (k j i : Fin 2) : R :=
  c + off i * slope cf im c ip + off j * slope cf jm c jp + off k * slope cf km c kp

variable {ns : Nat}

/-- `x/d`, `none` if `d = 0`. -/
def qdiv (x d : R) : Option R := if d = 0 then none else some (x / d)

/-- Kinetic energy `0.5*(SQR(M1)+SQR(M2)+SQR(M3))/d`. -/
def kinE (u : ConsS R ns) : Option R := qdiv (1/2 * (u.m1^2 + u.m2^2 + u.m3^2)) u.d

/-- Magnetic energy, 0 unless MHD. -/
def magE (cf : ProCfg) (u : ConsS R ns) : R :=
  if cf.mhd then 1/2 * (u.b1^2 + u.b2^2 + u.b3^2) else 0

/-- `Pi`, `Pim1`, ...: src/smr.c:2214-2240 (internal energy, called P in the code). -/
def intE (cf : ProCfg) (u : ConsS R ns) : Option R :=
  u.e.bind fun e => (kinE u).map fun k => e - k - magE cf u

/-- `PCon[k][j][i]` except the energy: src/smr.c:2120-2196, 2261-2273. -/
def proFluid (cf : ProCfg) (Uim Ui Uip Ujm Ujp Ukm Ukp : ConsS R ns) (k j i : Fin 2) : ConsS R ns where
  d  := proVar cf Uim.d Ui.d Uip.d Ujm.d Ujp.d Ukm.d Ukp.d k j i
  m1 := proVar cf Uim.m1 Ui.m1 Uip.m1 Ujm.m1 Ujp.m1 Ukm.m1 Ukp.m1 k j i
  m2 := proVar cf Uim.m2 Ui.m2 Uip.m2 Ujm.m2 Ujp.m2 Ukm.m2 Ukp.m2 k j i
  m3 := proVar cf Uim.m3 Ui.m3 Uip.m3 Ujm.m3 Ujp.m3 Ukm.m3 Ukp.m3 k j i
  e  := none
  b1 := proVar cf Uim.b1 Ui.b1 Uip.b1 Ujm.b1 Ujp.b1 Ukm.b1 Ukp.b1 k j i
  b2 := proVar cf Uim.b2 Ui.b2 Uip.b2 Ujm.b2 Ujp.b2 Ukm.b2 Ukp.b2 k j i
  b3 := proVar cf Uim.b3 Ui.b3 Uip.b3 Ujm.b3 Ujp.b3 Ukm.b3 Ukp.b3 k j i
  s  := fun n => proVar cf (Uim.s n) (Ui.s n) (Uip.s n) (Ujm.s n) (Ujp.s n) (Ukm.s n) (Ukp.s n) k j i

/-- `proVar` on values that may not be finite. -/
def proVarO (cf : ProCfg) (im c ip jm jp km kp : Option R) (k j i : Fin 2) : Option R :=
  im.bind fun im => c.bind fun c => ip.bind fun ip => jm.bind fun jm => jp.bind fun jp =>
    km.bind fun km => kp.bind fun kp => some (proVar cf im c ip jm jp km kp k j i)

/-- The energy: src/smr.c:2198-2258 (SR: interpolate `E`; otherwise interpolate `P` and add the kinetic
and magnetic energy of the new state). -/
def proEnergy (cf : ProCfg) (Uim Ui Uip Ujm Ujp Ukm Ukp : ConsS R ns) (k j i : Fin 2) : Option R :=
  if cf.sr then proVarO cf Uim.e Ui.e Uip.e Ujm.e Ujp.e Ukm.e Ukp.e k j i
  else
    let u := proFluid cf Uim Ui Uip Ujm Ujp Ukm Ukp k j i
    (proVarO cf (intE cf Uim) (intE cf Ui) (intE cf Uip) (intE cf Ujm) (intE cf Ujp)
        (intE cf Ukm) (intE cf Ukp) k j i).bind fun p =>
      (kinE u).map fun ke => p + ke + magE cf u

/-- `ProCon`, src/smr.c:2080-2336.  With `FIRST_ORDER` the state is copied; with SR all eight states are
copied if any of them fails the test `bad` (`check_Prim`, `d<0`, `P<0`, `V^2>1`: 2278-2302), which is
left arbitrary.  Barotropic runs are those in which the member `e` is ignored, pure hydrodynamics
those in which `b1,b2,b3` are ignored. -/
def proCon (cf : ProCfg) (bad : ConsS R ns → Bool) (Uim Ui Uip Ujm Ujp Ukm Ukp : ConsS R ns)
    (k j i : Fin 2) : ConsS R ns :=
  if cf.firstOrder then Ui
  else
    let second := fun k j i =>
      { proFluid cf Uim Ui Uip Ujm Ujp Ukm Ukp k j i with
        e := proEnergy cf Uim Ui Uip Ujm Ujp Ukm Ukp k j i }
    if cf.sr ∧ ∃ k j i, bad (second k j i) = true then Ui else second k j i

/-! ## ProFld -/

/-- A field of `Real3Vect` on a small block, `[k][j][i]`. -/
structure Fld (R : Type*) where
  x1 : Nat → Nat → Nat → R
  x2 : Nat → Nat → Nat → R
  x3 : Nat → Nat → Nat → R

/-- Outer faces normal to x1 (`side` 0 or 2; `c` is the coarse index 1 or 2): src/smr.c:2360-2384. -/
def outer1 (cf : ProCfg) (g p : Fld R) (side c : Nat) (k j : Nat) : R :=
  if p.x1 0 0 side = 0 then
    let dy := slope cf (g.x1 1 0 c) (g.x1 1 1 c) (g.x1 1 2 c)
    let dz := slope cf (g.x1 0 1 c) (g.x1 1 1 c) (g.x1 2 1 c)
    g.x1 1 1 c + (if j = 0 then -(1/4*dy) else 1/4*dy) + (if k = 0 then -(1/4*dz) else 1/4*dz)
  else p.x1 k j side

/-- Outer faces normal to x2: src/smr.c:2388-2412. -/
def outer2 (cf : ProCfg) (g p : Fld R) (side c : Nat) (k i : Nat) : R :=
  if p.x2 0 side 0 = 0 then
    let dx := slope cf (g.x2 1 c 0) (g.x2 1 c 1) (g.x2 1 c 2)
    let dz := slope cf (g.x2 0 c 1) (g.x2 1 c 1) (g.x2 2 c 1)
    g.x2 1 c 1 + (if i = 0 then -(1/4*dx) else 1/4*dx) + (if k = 0 then -(1/4*dz) else 1/4*dz)
  else p.x2 k side i

/-- Outer faces normal to x3: src/smr.c:2416-2440. -/
def outer3 (cf : ProCfg) (g p : Fld R) (side c : Nat) (j i : Nat) : R :=
  if p.x3 side 0 0 = 0 then
    let dx := slope cf (g.x3 c 1 0) (g.x3 c 1 1) (g.x3 c 1 2)
    let dy := slope cf (g.x3 c 0 1) (g.x3 c 1 1) (g.x3 c 2 1)
    g.x3 c 1 1 + (if i = 0 then -(1/4*dx) else 1/4*dx) + (if j = 0 then -(1/4*dy) else 1/4*dy)
  else p.x3 side j i

/-- `2*i-1`. -/
def sgn (i : Nat) : R := 2 * (i : R) - 1

/-- Sum over `j,i = 0,1` in the order of src/smr.c:2448-2463. -/
def sum4 (f : Nat → Nat → R) : R := f 0 0 + f 0 1 + f 1 0 + f 1 1

/-- Interior faces from outer faces `a` (`a.x1 k j {0,2}` etc.), src/smr.c:2446-2494. -/
def interior (a : Fld R) (dx1 dx2 dx3 : R) : Fld R :=
  let Uxx := 1/8*dx1 * sum4 fun j i =>
    sgn i*(sgn j*dx3*(a.x2 0 (2*j) i + a.x2 1 (2*j) i) + dx2*(a.x3 2 j i - a.x3 0 j i))
  let Vyy := 1/8*dx2 * sum4 fun j i =>
    sgn j*(dx1*(a.x3 2 j i - a.x3 0 j i) + sgn i*dx3*(a.x1 0 j (2*i) + a.x1 1 j (2*i)))
  let Wzz := 1/8*dx3 * sum4 fun j i =>
    (sgn i*dx2*(a.x1 1 j (2*i) - a.x1 0 j (2*i)) + sgn j*dx1*(a.x2 1 (2*j) i - a.x2 0 (2*j) i))
  let Uxyz := 1/8*dx2*dx3/(dx2*dx2 + dx3*dx3) * sum4 fun j i =>
    sgn i*sgn j*(a.x1 1 j (2*i) - a.x1 0 j (2*i))
  let Vxyz := 1/8*dx1*dx3/(dx1*dx1 + dx3*dx3) * sum4 fun j i =>
    sgn i*sgn j*(a.x2 1 (2*j) i - a.x2 0 (2*j) i)
  let Wxyz := 1/8*dx1*dx2/(dx1*dx1 + dx2*dx2) * sum4 fun j i =>
    sgn i*sgn j*(a.x3 2 j i - a.x3 0 j i)
  { x1 := fun k j i => if i = 1 then
        1/2*(a.x1 k j 0 + a.x1 k j 2) + Uxx/(dx2*dx3) + sgn k*(dx3/dx2)*Vxyz + sgn j*(dx2/dx3)*Wxyz
      else a.x1 k j i
    x2 := fun k j i => if j = 1 then
        1/2*(a.x2 k 0 i + a.x2 k 2 i) + Vyy/(dx3*dx1) + sgn i*(dx1/dx3)*Wxyz + sgn k*(dx3/dx1)*Uxyz
      else a.x2 k j i
    x3 := fun k j i => if k = 1 then
        1/2*(a.x3 0 j i + a.x3 2 j i) + Wzz/(dx1*dx2) + sgn j*(dx2/dx1)*Uxyz + sgn i*(dx1/dx2)*Vxyz
      else a.x3 k j i }

/-- Outer faces of the block: the known fine values `p`, or interpolated from the coarse `g`. -/
def outerFaces (cf : ProCfg) (g p : Fld R) : Fld R where
  x1 := fun k j i => if i = 0 then outer1 cf g p 0 1 k j else if i = 2 then outer1 cf g p 2 2 k j
    else p.x1 k j i
  x2 := fun k j i => if j = 0 then outer2 cf g p 0 1 k i else if j = 2 then outer2 cf g p 2 2 k i
    else p.x2 k j i
  x3 := fun k j i => if k = 0 then outer3 cf g p 0 1 j i else if k = 2 then outer3 cf g p 2 2 j i
    else p.x3 k j i

/-- `ProFld(BGZ=g, PFld=p, dx1c, dx2c, dx3c)`, src/smr.c:2348-2496. -/
def proFld (cf : ProCfg) (g p : Fld R) (dx1 dx2 dx3 : R) : Fld R :=
  interior (outerFaces cf g p) dx1 dx2 dx3

end Athena.Smr
