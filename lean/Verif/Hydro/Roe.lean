import Verif.Hydro.HllcProps

/-!
# src/rsolvers/roe.c and src/rsolvers/esystem_roe.c: Roe's solver

Newtonian, Cartesian (without `Pflux`), `TEST_INTERMEDIATE_STATES` as defined in roe.c:42.  Exact reals; a division by zero or the root
of a negative number is the outcome `none`.  The arrays of length `NWAVE` are lists; members of the state that a configuration does not
declare are represented by 0.
-/

namespace Athena.Hydro
noncomputable section
open Classical
variable {ns : ℕ}

/-- An array `Real [NWAVE]` in the order of the members of `Cons1DS` (athena.h:135-153). -/
@[ext] structure V7 where
  d : ℝ
  mx : ℝ
  my : ℝ
  mz : ℝ
  e : ℝ
  b : ℝ
  c : ℝ

/-- Componentwise sum. -/
def V7.add (u v : V7) : V7 := ⟨u.d + v.d, u.mx + v.mx, u.my + v.my, u.mz + v.mz, u.e + v.e, u.b + v.b, u.c + v.c⟩
/-- Multiple. -/
def V7.smul (k : ℝ) (u : V7) : V7 := ⟨k * u.d, k * u.mx, k * u.my, k * u.mz, k * u.e, k * u.b, k * u.c⟩
/-- Difference. -/
def V7.sub (u v : V7) : V7 := ⟨u.d - v.d, u.mx - v.mx, u.my - v.my, u.mz - v.mz, u.e - v.e, u.b - v.b, u.c - v.c⟩
/-- Zero. -/
def V7.zero : V7 := ⟨0, 0, 0, 0, 0, 0, 0⟩
/-- `(Real*)&U`: roe.c:241-242, :288-289. -/
def Cons1D.v (U : Cons1D ns) : V7 := ⟨U.d, U.Mx, U.My, U.Mz, U.E, U.By, U.Bz⟩

/-- One wave: `ev[n]`, the column `rem[*][n]` and the row `lem[n][*]`. -/
structure Wave where
  ev : ℝ
  r : V7
  l : V7

/-- `for (m=0; m<NWAVE; m++) a[n] += lem[n][m]*dU[m]`, roe.c:245-248. -/
def dot (l u : V7) : ℝ := l.d * u.d + l.mx * u.mx + l.my * u.my + l.mz * u.mz + l.e * u.e + l.b * u.b + l.c * u.c

/-- `esys_roe_iso_hyd`, esystem_roe.c:61-116 (entries that are not set there were set to 0 in roe.c:86-91). -/
def esysIsoHyd (p : Phys) (v1 v2 v3 : ℝ) : Option (List Wave) := do
  let m ← fdiv v1 p.cs
  let q ← fdiv (1/2) p.cs
  return [⟨v1 - p.cs, ⟨1, v1 - p.cs, v2, v3, 0, 0, 0⟩, ⟨1/2 * (1 + m), -q, 0, 0, 0, 0, 0⟩⟩,
    ⟨v1, ⟨0, 0, 1, 0, 0, 0, 0⟩, ⟨-v2, 0, 1, 0, 0, 0, 0⟩⟩,
    ⟨v1, ⟨0, 0, 0, 1, 0, 0, 0⟩, ⟨-v3, 0, 0, 1, 0, 0, 0⟩⟩,
    ⟨v1 + p.cs, ⟨1, v1 + p.cs, v2, v3, 0, 0, 0⟩, ⟨1/2 * (1 - m), q, 0, 0, 0, 0, 0⟩⟩]

/-- `esys_roe_adb_hyd`, esystem_roe.c:131-209. -/
def esysAdbHyd (p : Phys) (v1 v2 v3 h : ℝ) : Option (List Wave) := do
  let vsq := v1 * v1 + v2 * v2 + v3 * v3
  let asq := p.gamma1 * fmax (h - 1/2 * vsq) p.tiny
  let a ← fsqrt asq
  let na ← fdiv (1/2) asq
  let qa ← fdiv p.gamma1 asq
  let l02 := -na * p.gamma1 * v2
  let l03 := -na * p.gamma1 * v3
  let l04 := na * p.gamma1
  return [⟨v1 - a, ⟨1, v1 - a, v2, v3, h - v1 * a, 0, 0⟩,
      ⟨na * (1/2 * p.gamma1 * vsq + v1 * a), -na * (p.gamma1 * v1 + a), l02, l03, l04, 0, 0⟩⟩,
    ⟨v1, ⟨0, 0, 1, 0, v2, 0, 0⟩, ⟨-v2, 0, 1, 0, 0, 0, 0⟩⟩,
    ⟨v1, ⟨0, 0, 0, 1, v3, 0, 0⟩, ⟨-v3, 0, 0, 1, 0, 0, 0⟩⟩,
    ⟨v1, ⟨1, v1, v2, v3, 1/2 * vsq, 0, 0⟩, ⟨1 - na * p.gamma1 * vsq, qa * v1, qa * v2, qa * v3, -qa, 0, 0⟩⟩,
    ⟨v1 + a, ⟨1, v1 + a, v2, v3, h + v1 * a, 0, 0⟩,
      ⟨na * (1/2 * p.gamma1 * vsq - v1 * a), -na * (p.gamma1 * v1 - a), l02, l03, l04, 0, 0⟩⟩]

/-- Quantities that `esys_roe_iso_mhd` and `esys_roe_adb_mhd` compute in the same way. -/
structure MhdPar where
  cf : ℝ
  cs : ℝ
  vax : ℝ
  /-- `bet2`, `bet3` -/
  t2 : ℝ
  t3 : ℝ
  /-- `bet2_star`, `bet3_star` -/
  t2s : ℝ
  t3s : ℝ
  /-- `bet_starsq` -/
  tss : ℝ
  bts : ℝ
  af : ℝ
  as : ℝ
  sd : ℝ
  s : ℝ
  tw : ℝ
  /-- `norm`, `q2_star`, `q3_star` -/
  nm : ℝ
  q2 : ℝ
  q3 : ℝ

/-- `bet2`, `bet3`: esystem_roe.c:254-263, :451-460; `bt` is the root of `btsq`. -/
def mhdBeta (b2 b3 bt : ℝ) : Option (ℝ × ℝ) :=
  if bt = 0 then some (1, 0) else do return (← fdiv b2 bt, ← fdiv b3 bt)

/-- `alpha_f`, `alpha_s`: esystem_roe.c:268-282, :466-480; `F`, `S`, `T` are `cfsq`, `cssq` and `twid_csq` or `twid_asq`. -/
def mhdAlpha (F S T : ℝ) : Option (ℝ × ℝ) :=
  if F - S = 0 then some (1, 0)
  else if T - S ≤ 0 then some (0, 1)
  else if F - T ≤ 0 then some (1, 0)
  else do
    let x ← fdiv (T - S) (F - S)
    let z ← fdiv (F - T) (F - S)
    return (← fsqrt x, ← fsqrt z)

/-- `cfsq` and `cssq`: esystem_roe.c:242-252, :438-448; `V`, `C` are `vaxsq` and `ct2`. -/
def mhdSpeeds (V C T : ℝ) : Option (ℝ × ℝ) := do
  let q ← fsqrt ((V + C - T) * (V + C - T) + 4 * T * C)
  let S ← fdiv (T * V) (1/2 * (V + C + T + q))
  return (1/2 * (V + C + T + q), S)

/-- Speeds, `beta`s, `alpha`s and their normalisations: esystem_roe.c:236-300 with :357, :368-369 (`Y` = `y`, `T` = `twid_csq`) and
:430-516 with :576, :592-593 (`Y` = `Gamma_1 - Gamma_2*y`, `T` = `twid_asq`). -/
def mhdPar (d b1 b2 b3 Y T : ℝ) : Option MhdPar := do
  let di ← fdiv 1 d
  let (F, S) ← mhdSpeeds (b1 * b1 * di) ((b2 * b2 + b3 * b3) * Y * di) T
  let cf ← fsqrt F
  let cs ← fsqrt S
  let bt ← fsqrt (b2 * b2 + b3 * b3)
  let bts ← fsqrt ((b2 * b2 + b3 * b3) * Y)
  let (t2, t3) ← mhdBeta b2 b3 bt
  let y ← fsqrt Y
  let t2s ← fdiv t2 y
  let t3s ← fdiv t3 y
  let (af, as) ← mhdAlpha F S T
  let sd ← fsqrt d
  let tw ← fsqrt T
  let vax ← fsqrt (b1 * b1 * di)
  let nm ← fdiv (1/2) T
  let q2 ← fdiv t2s (t2s * t2s + t3s * t3s)
  let q3 ← fdiv t3s (t2s * t2s + t3s * t3s)
  return ⟨cf, cs, vax, t2, t3, t2s, t3s, t2s * t2s + t3s * t3s, bts, af, as, sd, if b1 < 0 then -1 else 1, tw, nm, q2, q3⟩

/-- `esys_roe_iso_mhd`, esystem_roe.c:225-410. -/
def esysIsoMhd (p : Phys) (d v1 v2 v3 b1 b2 b3 x y : ℝ) : Option (List Wave) := do
  let m ← mhdPar d b1 b2 b3 y (p.cs2 + x)
  let i ← fdiv 1 m.sd
  let qf := m.cf * m.af * m.s
  let qs := m.cs * m.as * m.s
  let afp := m.tw * m.af * i
  let asp := m.tw * m.as * i
  let cff := m.nm * m.af * m.cf
  let css := m.nm * m.as * m.cs
  let qfn := qf * m.nm
  let qsn := qs * m.nm
  let f := m.nm * afp * d
  let s := m.nm * asp * d
  let afpb := m.nm * afp * m.bts
  let aspb := m.nm * asp * m.bts
  let vq := v2 * m.q2 + v3 * m.q3
  let l1 := 1/2 * (v2 * m.t3 - v3 * m.t2)
  return [⟨v1 - m.cf,
      ⟨m.af, m.af * (v1 - m.cf), m.af * v2 + qs * m.t2s, m.af * v3 + qs * m.t3s, 0, asp * m.t2s, asp * m.t3s⟩,
      ⟨cff * (m.cf + v1) - qsn * vq - aspb, -cff, qsn * m.q2, qsn * m.q3, 0, s * m.q2, s * m.q3⟩⟩,
    ⟨v1 - m.vax, ⟨0, 0, -m.t3, m.t2, 0, -m.t3 * m.s * i, m.t2 * m.s * i⟩,
      ⟨l1, 0, -(1/2) * m.t3, 1/2 * m.t2, 0, -(1/2) * m.sd * m.t3 * m.s, 1/2 * m.sd * m.t2 * m.s⟩⟩,
    ⟨v1 - m.cs,
      ⟨m.as, m.as * (v1 - m.cs), m.as * v2 - qf * m.t2s, m.as * v3 - qf * m.t3s, 0, -afp * m.t2s, -afp * m.t3s⟩,
      ⟨css * (m.cs + v1) + qfn * vq + afpb, -css, -qfn * m.q2, -qfn * m.q3, 0, -f * m.q2, -f * m.q3⟩⟩,
    ⟨v1 + m.cs,
      ⟨m.as, m.as * (v1 + m.cs), m.as * v2 + qf * m.t2s, m.as * v3 + qf * m.t3s, 0, -afp * m.t2s, -afp * m.t3s⟩,
      ⟨css * (m.cs - v1) - qfn * vq + afpb, css, -(-qfn * m.q2), -(-qfn * m.q3), 0, -f * m.q2, -f * m.q3⟩⟩,
    ⟨v1 + m.vax, ⟨0, 0, m.t3, -m.t2, 0, -m.t3 * m.s * i, m.t2 * m.s * i⟩,
      ⟨-l1, 0, -(-(1/2) * m.t3), -(1/2 * m.t2), 0, -(1/2) * m.sd * m.t3 * m.s, 1/2 * m.sd * m.t2 * m.s⟩⟩,
    ⟨v1 + m.cf,
      ⟨m.af, m.af * (v1 + m.cf), m.af * v2 - qs * m.t2s, m.af * v3 - qs * m.t3s, 0, asp * m.t2s, asp * m.t3s⟩,
      ⟨cff * (m.cf - v1) + qsn * vq - aspb, cff, -(qsn * m.q2), -(qsn * m.q3), 0, s * m.q2, s * m.q3⟩⟩]

/-- `hp`, esystem_roe.c:431-436. -/
def hpAdb (d b1 b2 b3 h : ℝ) : Option ℝ := do
  let di ← fdiv 1 d
  return h - (b1 * b1 * di + (b2 * b2 + b3 * b3) * di)

/-- `esys_roe_adb_mhd`, esystem_roe.c:424-668. -/
def esysAdbMhd (p : Phys) (d v1 v2 v3 h b1 b2 b3 x y : ℝ) : Option (List Wave) := do
  let hp ← hpAdb d b1 b2 b3 h
  let vsq := v1 * v1 + v2 * v2 + v3 * v3
  let m ← mhdPar d b1 b2 b3 (p.gamma1 - p.gamma2 * y) (fmax (p.gamma1 * (hp - 1/2 * vsq) - p.gamma2 * x) p.tiny)
  let i ← fdiv 1 m.sd
  let gx ← fdiv (p.gamma2 * x) p.gamma1
  let vbet := v2 * m.t2s + v3 * m.t3s
  let qf := m.cf * m.af * m.s
  let qs := m.cs * m.as * m.s
  let afp := m.tw * m.af * i
  let asp := m.tw * m.as * i
  let afpbb := afp * m.bts * m.tss
  let aspbb := asp * m.bts * m.tss
  let cff := m.nm * m.af * m.cf
  let css := m.nm * m.as * m.cs
  let qfn := qf * m.nm
  let qsn := qs * m.nm
  let f := m.nm * afp * d
  let s := m.nm * asp * d
  let afpb := m.nm * afp * m.bts
  let aspb := m.nm * asp * m.bts
  let nb := m.nm * p.gamma1
  let alf := m.af * nb
  let als := m.as * nb
  let vq := v2 * m.q2 + v3 * m.q3
  let n2 := nb * 2
  let l1 := 1/2 * (v2 * m.t3 - v3 * m.t2)
  let r41 := -(v2 * m.t3 - v3 * m.t2)
  return [⟨v1 - m.cf,
      ⟨m.af, m.af * (v1 - m.cf), m.af * v2 + qs * m.t2s, m.af * v3 + qs * m.t3s,
        m.af * (hp - v1 * m.cf) + qs * vbet + aspbb, asp * m.t2s, asp * m.t3s⟩,
      ⟨alf * (vsq - hp) + cff * (m.cf + v1) - qsn * vq - aspb, -alf * v1 - cff, -alf * v2 + qsn * m.q2, -alf * v3 + qsn * m.q3,
        alf, s * m.q2 - alf * b2, s * m.q3 - alf * b3⟩⟩,
    ⟨v1 - m.vax, ⟨0, 0, -m.t3, m.t2, r41, -m.t3 * m.s * i, m.t2 * m.s * i⟩,
      ⟨l1, 0, -(1/2) * m.t3, 1/2 * m.t2, 0, -(1/2) * m.sd * m.t3 * m.s, 1/2 * m.sd * m.t2 * m.s⟩⟩,
    ⟨v1 - m.cs,
      ⟨m.as, m.as * (v1 - m.cs), m.as * v2 - qf * m.t2s, m.as * v3 - qf * m.t3s,
        m.as * (hp - v1 * m.cs) - qf * vbet - afpbb, -afp * m.t2s, -afp * m.t3s⟩,
      ⟨als * (vsq - hp) + css * (m.cs + v1) + qfn * vq + afpb, -als * v1 - css, -als * v2 - qfn * m.q2, -als * v3 - qfn * m.q3,
        als, -f * m.q2 - als * b2, -f * m.q3 - als * b3⟩⟩,
    ⟨v1, ⟨1, v1, v2, v3, 1/2 * vsq + gx, 0, 0⟩,
      ⟨1 - n2 * (1/2 * vsq - gx), n2 * v1, n2 * v2, n2 * v3, -n2, n2 * b2, n2 * b3⟩⟩,
    ⟨v1 + m.cs,
      ⟨m.as, m.as * (v1 + m.cs), m.as * v2 + qf * m.t2s, m.as * v3 + qf * m.t3s,
        m.as * (hp + v1 * m.cs) + qf * vbet - afpbb, -afp * m.t2s, -afp * m.t3s⟩,
      ⟨als * (vsq - hp) + css * (m.cs - v1) - qfn * vq + afpb, -als * v1 + css, -als * v2 + qfn * m.q2, -als * v3 + qfn * m.q3,
        als, -f * m.q2 - als * b2, -f * m.q3 - als * b3⟩⟩,
    ⟨v1 + m.vax, ⟨0, 0, m.t3, -m.t2, -r41, -m.t3 * m.s * i, m.t2 * m.s * i⟩,
      ⟨-l1, 0, -(-(1/2) * m.t3), -(1/2 * m.t2), 0, -(1/2) * m.sd * m.t3 * m.s, 1/2 * m.sd * m.t2 * m.s⟩⟩,
    ⟨v1 + m.cf,
      ⟨m.af, m.af * (v1 + m.cf), m.af * v2 - qs * m.t2s, m.af * v3 - qs * m.t3s,
        m.af * (hp + v1 * m.cf) - qs * vbet + aspbb, asp * m.t2s, asp * m.t3s⟩,
      ⟨alf * (vsq - hp) + cff * (m.cf - v1) + qsn * vq - aspb, -alf * v1 + cff, -alf * v2 - qsn * m.q2, -alf * v3 - qsn * m.q3,
        alf, s * m.q2 - alf * b2, s * m.q3 - alf * b3⟩⟩]

/-- Step 3: `ev`, `rem`, `lem` of the configuration, roe.c:138-152. -/
def esysRoe (p : Phys) (r : Roe) (Bx : ℝ) : Option (List Wave) :=
  if p.mhd then
    if p.iso then esysIsoMhd p r.d r.v1 r.v2 r.v3 Bx r.b2 r.b3 r.x r.y
    else esysAdbMhd p r.d r.v1 r.v2 r.v3 r.h Bx r.b2 r.b3 r.x r.y
  else if p.iso then esysIsoHyd p r.v1 r.v2 r.v3
  else esysAdbHyd p r.v1 r.v2 r.v3 r.h

/-- Step 4: `Fl` or `Fr`, roe.c:158-212. -/
def roeSide (p : Phys) (U : Cons1D ns) (W : Prim1D ns) (Bx : ℝ) : Cons1D ns where
  d := U.Mx
  Mx := U.Mx * W.Vx + (if p.iso then W.d * p.cs2 else W.P) - (if p.mhd then 1/2 * (Bx * Bx - sqr W.By - sqr W.Bz) else 0)
  My := U.Mx * W.Vy - (if p.mhd then Bx * W.By else 0)
  Mz := U.Mx * W.Vz - (if p.mhd then Bx * W.Bz else 0)
  E := if p.iso then 0 else (U.E + W.P) * W.Vx +
    (if p.mhd then magP p W Bx * W.Vx - Bx * (Bx * W.Vx + W.By * W.Vy + W.Bz * W.Vz) else 0)
  By := if p.mhd then W.By * W.Vx - Bx * W.Vy else 0
  Bz := if p.mhd then W.Bz * W.Vx - Bx * W.Vz else 0
  s := fun n => U.Mx * W.r n

/-- An intermediate state is rejected: `u_inter[0] <= 0.0`, or `p_inter < 0.0` if adiabatic; roe.c:260-273.  (The division is by a
positive number there.) -/
def badState (p : Phys) (Bx : ℝ) (u : V7) : Prop :=
  u.d ≤ 0 ∨ (p.iso = false ∧
    u.e - 1/2 * (sqr u.mx + sqr u.my + sqr u.mz) / u.d - (if p.mhd then 1/2 * (sqr u.b + sqr u.c + sqr Bx) else 0) < 0)

/-- Step 7: the loop over `n = 0 .. NWAVE-2`, roe.c:257-276; `u` is `u_inter`. -/
def interBad (p : Phys) (Bx : ℝ) (dU : V7) : V7 → List Wave → Prop
  | u, w :: w' :: ws =>
    let u' := u.add (w.r.smul (dot w.l dU))
    (w'.ev > w.ev ∧ badState p Bx u') ∨ interBad p Bx dU u' (w' :: ws)
  | _, _ => False

/-- `for (m=0; m<NWAVE; m++) pF[n] -= coeff[m]*rem[n][m]` with `coeff[m] = f(w)`, roe.c:304-305. -/
def subWaves (f : Wave → ℝ) : V7 → List Wave → V7
  | F, w :: ws => subWaves f (F.sub (w.r.smul (f w))) ws
  | F, [] => F

/-- Roe's flux, roe.c:55-338; `eta` is `etah` (0 unless `H_CORRECTION` is used). -/
def roe (p : Phys) (eta : ℝ) (Ul Ur : Cons1D ns) (Wl Wr : Prim1D ns) (Bx : ℝ) : Option (Cons1D ns) := do
  let r ← roeAvg p Ul Ur Wl Wr Bx
  let ws ← esysRoe p r Bx
  let w0 ← ws.head?
  let wn ← ws.getLast?
  let Fl := roeSide p Ul Wl Bx
  let Fr := roeSide p Ur Wr Bx
  if w0.ev ≥ 0 then return Fl
  else if wn.ev ≤ 0 then return Fr
  else
    let dU := Ur.v.sub Ul.v
    if interBad p Bx dU Ul.v ws then hlle p Ul Ur Wl Wr Bx
    else
      let F := subWaves (fun w => 1/2 * fmax |w.ev| eta * dot w.l dU) ((Fl.v.add Fr.v).smul (1/2)) ws
      return scalars Wl Wr ⟨F.d, F.mx, F.my, F.mz, F.e, F.b, F.c, fun _ => 0⟩

end
end Athena.Hydro
