import Verif.Recon.Model
import Mathlib.Data.Fin.VecNotation

/-!
# src/reconstruction/esystem_prim.c: the MHD eigensystems in primitive variables

Numbers are exact reals; a division by zero or the root of a negative number is the outcome `none`.
The entries that the code leaves alone (commented assignments of zero) are the zeros that `lr_states` writes before its loop,
e.g. lr_states_plm.c:93-98.
-/

namespace Athena.Recon
noncomputable section
open Athena.Hydro

/-- Local variables of the two functions. -/
structure MPar where
  cf : ℝ
  cs : ℝ
  vax : ℝ
  /-- `bet2`, `bet3` -/
  t2 : ℝ
  t3 : ℝ
  /-- `alpha_f`, `alpha_s` -/
  af : ℝ
  as : ℝ
  /-- `sqrtd` -/
  sd : ℝ
  s : ℝ
  /-- `norm` or `na` -/
  nm : ℝ
  di : ℝ

/-- `bet2`, `bet3`, esystem_prim.c:239-246, :416-423. -/
def betP (b2 b3 bt : ℝ) : Option (ℝ × ℝ) :=
  if bt = 0 then some (1, 0) else do
    let t2 ← fdiv b2 bt
    let t3 ← fdiv b3 bt
    return (t2, t3)

/-- `alpha_f`, `alpha_s`, esystem_prim.c:250-262 (`D` is `cfsq-cssq`) and :427-439 (`D` is `cf2_cs2`); `F`, `S`, `T` are `cfsq`, `cssq` and
the square of the speed of sound. -/
def alphaP (D F S T : ℝ) : Option (ℝ × ℝ) :=
  if D = 0 then some (1, 0)
  else if T - S ≤ 0 then some (0, 1)
  else if F - T ≤ 0 then some (1, 0)
  else do
    let x ← fdiv (T - S) D
    let z ← fdiv (F - T) D
    let af ← fsqrt x
    let as ← fsqrt z
    return (af, as)

/-- esystem_prim.c:218-267 with :274, :327 and :395-444 with :452, :521.  `T` is `Iso_csound2` or `asq`. -/
def parP (iso : Bool) (d b1 b2 b3 T : ℝ) : Option MPar := do
  let di ← fdiv 1 d
  let btsq := b2 * b2 + b3 * b3
  let vaxsq := b1 * b1 * di
  let ct2 := btsq * di
  let tsum := vaxsq + ct2 + T
  let tdif := vaxsq + ct2 - T
  let cf2_cs2 ← fsqrt (tdif * tdif + 4 * T * ct2)
  let cfsq := 1/2 * (tsum + cf2_cs2)
  let cf ← fsqrt cfsq
  let cssq ← fdiv (T * vaxsq) cfsq
  let cs ← fsqrt cssq
  let bt ← fsqrt btsq
  let (t2, t3) ← betP b2 b3 bt
  let (af, as) ← alphaP (if iso then cfsq - cssq else cf2_cs2) cfsq cssq T
  let sd ← fsqrt d
  let vax ← fsqrt vaxsq
  let nm ← fdiv (1/2) T
  return ⟨cf, cs, vax, t2, t3, af, as, sd, sgn b1, nm, di⟩

/-- `esys_prim_iso_mhd`, esystem_prim.c:212-375; `c` is `Iso_csound`, `c * c` is `Iso_csound2`. -/
def esysP6 (c d v1 b1 b2 b3 : ℝ) : Option (Eig 2) := do
  let m ← parP true d b1 b2 b3 (c * c)
  let qf := m.cf * m.af * m.s
  let qs := m.cs * m.as * m.s
  let af := c * m.af * m.sd
  let as := c * m.as * m.sd
  let r := ![![d * m.af, 0, d * m.as], ![-m.cf * m.af, 0, -m.cs * m.as], ![qs * m.t2, -m.t3, -qf * m.t2], ![qs * m.t3, m.t2, -qf * m.t3],
    ![as * m.t2, -m.t3 * m.s * m.sd, -af * m.t2], ![as * m.t3, m.t2 * m.s * m.sd, -af * m.t3]]
  let lqf := m.nm * qf
  let lqs := m.nm * qs
  let afp := m.nm * af * m.di
  let asp := m.nm * as * m.di
  let x2 ← fdiv (-(1/2) * m.t3 * m.s) m.sd
  let x3 ← fdiv (1/2 * m.t2 * m.s) m.sd
  let l0 := ![m.nm * m.af * (c * c) * m.di, -m.nm * m.cf * m.af, lqs * m.t2, lqs * m.t3, asp * m.t2, asp * m.t3]
  let l1 := ![0, 0, -(1/2) * m.t3, 1/2 * m.t2, x2, x3]
  let l2 := ![m.nm * m.as * (c * c) * m.di, -m.nm * m.cs * m.as, -lqf * m.t2, -lqf * m.t3, -afp * m.t2, -afp * m.t3]
  return {
    ev := ![v1 - m.cf, v1 - m.vax, v1 - m.cs, v1 + m.cs, v1 + m.vax, v1 + m.cf]
    rem := ![![r 0 0, 0, r 0 2, r 0 2, 0, r 0 0], ![r 1 0, 0, r 1 2, -r 1 2, 0, -r 1 0], ![r 2 0, r 2 1, r 2 2, -r 2 2, m.t3, -r 2 0],
      ![r 3 0, r 3 1, r 3 2, -r 3 2, -m.t2, -r 3 0], ![r 4 0, r 4 1, r 4 2, r 4 2, r 4 1, r 4 0], ![r 5 0, r 5 1, r 5 2, r 5 2, r 5 1, r 5 0]]
    lem := ![l0, l1, l2, ![l2 0, -l2 1, -l2 2, -l2 3, l2 4, l2 5], ![0, 0, -l1 2, -l1 3, l1 4, l1 5],
      ![l0 0, -l0 1, -l0 2, -l0 3, l0 4, l0 5]] }

/-- `esys_prim_adb_mhd`, esystem_prim.c:388-586; `ra` is `rho_a2`. -/
def esysP7 (d v1 ra b1 b2 b3 : ℝ) : Option (Eig 3) := do
  let m ← (do let di ← fdiv 1 d
              parP false d b1 b2 b3 (ra * di))
  let asq := ra * m.di
  let a ← fsqrt asq
  let qf := m.cf * m.af * m.s
  let qs := m.cs * m.as * m.s
  let af := a * m.af * m.sd
  let as := a * m.as * m.sd
  let r := ![![d * m.af, 0, d * m.as], ![-m.cf * m.af, 0, -m.cs * m.as], ![qs * m.t2, -m.t3, -qf * m.t2], ![qs * m.t3, m.t2, -qf * m.t3],
    ![d * asq * m.af, 0, d * asq * m.as], ![as * m.t2, -m.t3 * m.s * m.sd, -af * m.t2], ![as * m.t3, m.t2 * m.s * m.sd, -af * m.t3]]
  let lqf := m.nm * qf
  let lqs := m.nm * qs
  let afp := m.nm * af * m.di
  let asp := m.nm * as * m.di
  let x2 ← fdiv (-(1/2) * m.t3 * m.s) m.sd
  let x3 ← fdiv (1/2 * m.t2 * m.s) m.sd
  let e ← fdiv (-1) asq
  let l0 := ![0, -m.nm * m.cf * m.af, lqs * m.t2, lqs * m.t3, m.nm * m.af * m.di, asp * m.t2, asp * m.t3]
  let l1 := ![0, 0, -(1/2) * m.t3, 1/2 * m.t2, 0, x2, x3]
  let l2 := ![0, -m.nm * m.cs * m.as, -lqf * m.t2, -lqf * m.t3, m.nm * m.as * m.di, -afp * m.t2, -afp * m.t3]
  return {
    ev := ![v1 - m.cf, v1 - m.vax, v1 - m.cs, v1, v1 + m.cs, v1 + m.vax, v1 + m.cf]
    rem := ![![r 0 0, 0, r 0 2, 1, r 0 2, 0, r 0 0], ![r 1 0, 0, r 1 2, 0, -r 1 2, 0, -r 1 0],
      ![r 2 0, r 2 1, r 2 2, 0, -r 2 2, m.t3, -r 2 0], ![r 3 0, r 3 1, r 3 2, 0, -r 3 2, -m.t2, -r 3 0],
      ![r 4 0, 0, r 4 2, 0, r 4 2, 0, r 4 0], ![r 5 0, r 5 1, r 5 2, 0, r 5 2, r 5 1, r 5 0],
      ![r 6 0, r 6 1, r 6 2, 0, r 6 2, r 6 1, r 6 0]]
    lem := ![l0, l1, l2, ![1, 0, 0, 0, e, 0, 0], ![0, -l2 1, -l2 2, -l2 3, l2 4, l2 5, l2 6], ![0, 0, -l1 2, -l1 3, 0, l1 5, l1 6],
      ![0, -l0 1, -l0 2, -l0 3, l0 4, l0 5, l0 6]] }

/-- The call with the members of a zone and `Bxc`, e.g. lr_states_plm.c:117-118; a call without a real result leaves nothing usable. -/
def esysIsoMhd (ns : ℕ) (c : ℝ) (W : Vec 2 ns) (Bx : ℝ) : Eig 2 :=
  (esysP6 c (W (Sum.inl 0)) (W (Sum.inl 1)) Bx (W (Sum.inl 4)) (W (Sum.inl 5))).getD ⟨fun _ => 0, fun _ _ => 0, fun _ _ => 0⟩

/-- The call with the members of a zone and `Bxc`, e.g. lr_states_plm.c:120-121. -/
def esysAdbMhd (ns : ℕ) (gamma : ℝ) (W : Vec 3 ns) (Bx : ℝ) : Eig 3 :=
  (esysP7 (W (Sum.inl 0)) (W (Sum.inl 1)) (gamma * W (Sum.inl 4)) Bx (W (Sum.inl 5)) (W (Sum.inl 6))).getD
    ⟨fun _ => 0, fun _ _ => 0, fun _ _ => 0⟩

end
end Athena.Recon
