import Verif.Run.MainProps
import Mathlib.Analysis.Real.Sqrt
import Mathlib.Data.Fin.VecNotation
import Mathlib.Tactic.Linarith
import Mathlib.Tactic.Positivity
import Mathlib.Tactic.Ring
import Mathlib.Tactic.FinCases
import Mathlib.Tactic.NormNum

/-!
# src/new_dt.c: signal speeds and `max_dti`; super time stepping; src/microphysics/new_dt_diff.c

Numbers are reals.  Cartesian coordinates only (the CYLINDRICAL variant of lines 142-145 is not modelled).
-/

namespace Athena.Run
noncomputable section

/-- Equation of state: `ADIABATIC` (Gamma, TINY_NUMBER) or `ISOTHERMAL` (Iso_csound2). -/
inductive Eos where
  | adiabatic (gamma tiny : ℝ)
  | isothermal (cs2 : ℝ)

/-- One zone: `U[k][j][i]` and the fields `B?i[k][j][i]` on its left faces. -/
structure Zone where
  d : ℝ
  m : Fin 3 → ℝ
  e : ℝ
  bc : Fin 3 → ℝ
  bi : Fin 3 → ℝ

/-- The compile-time configuration. -/
inductive Phys where
  | sr
  | newton (eos : Eos) (mhd : Bool)

/-- `v1 = M1*di`, … src/new_dt.c:89-92. -/
def Zone.v (z : Zone) (n : Fin 3) : ℝ := z.m n * (1 / z.d)

/-- `qsq`, src/new_dt.c:93. -/
def Zone.qsq (z : Zone) : ℝ := z.v 0 * z.v 0 + z.v 1 * z.v 1 + z.v 2 * z.v 2

/-- `b1 = B1c + fabs(B1i - B1c)`, … src/new_dt.c:98-103. -/
def Zone.b (z : Zone) (n : Fin 3) : ℝ := z.bc n + |z.bi n - z.bc n|

/-- `bsq`, src/new_dt.c:104. -/
def Zone.bsq (z : Zone) : ℝ := z.b 0 * z.b 0 + z.b 1 * z.b 1 + z.b 2 * z.b 2

/-- `asq`, src/new_dt.c:106-112 (MHD) and 124-130. -/
def Zone.asq (z : Zone) (eos : Eos) (mhd : Bool) : ℝ :=
  match eos with
  | .adiabatic g tiny =>
    let p := max ((g - 1) * (z.e - 1/2 * z.d * z.qsq - (if mhd then 1/2 * z.bsq else 0))) tiny
    g * p * (1 / z.d)
  | .isothermal cs2 => cs2

/-- The two transverse components in the order of src/new_dt.c:117-119. -/
def transv (n : Fin 3) : Fin 3 × Fin 3 := if n = 0 then (1, 2) else if n = 1 then (0, 2) else (0, 1)

/-- `cf1sq`, `cf2sq`, `cf3sq`, src/new_dt.c:115-119, 132-134. -/
def Zone.cfsq (z : Zone) (eos : Eos) (mhd : Bool) (n : Fin 3) : ℝ :=
  let asq := z.asq eos mhd
  if mhd then
    let tsum := z.bsq * (1 / z.d) + asq
    let tdif := z.bsq * (1 / z.d) - asq
    let t := transv n
    1/2 * (tsum + Real.sqrt (tdif * tdif + 4 * asq * (z.b t.1 * z.b t.1 + z.b t.2 * z.b t.2) * (1 / z.d)))
  else asq

/-- A Grid: `Nx`, `dx1..3`, its active zones in loop order and the velocities of its particles. -/
structure GridV where
  nx : Fin 3 → Nat
  dx : Fin 3 → ℝ
  zones : List Zone
  parts : List (Fin 3 → ℝ)

/-- `max_v?` after a Grid, src/new_dt.c:81-166 (the three directions are independent of each other). -/
def maxV (ph : Phys) (v : Fin 3 → ℝ) (g : GridV) (n : Fin 3) : ℝ :=
  let v1 := match ph with
    | .sr => 1
    | .newton eos mhd =>
      if g.nx n > 1 then g.zones.foldl (fun a z => max a (|z.v n| + Real.sqrt (z.cfsq eos mhd n))) (v n) else v n
  if g.nx n > 1 then g.parts.foldl (fun a p => max a (p n)) v1 else v1

/-- `max_dti` after a Grid, src/new_dt.c:169-174. -/
def gridDti (v : Fin 3 → ℝ) (g : GridV) (dti : ℝ) : ℝ :=
  ([0, 1, 2] : List (Fin 3)).foldl (fun a n => if g.nx n > 1 then max a (v n / g.dx n) else a) dti

/-- `max_dti` of a rank: the loop over its Grids, src/new_dt.c:67-176; `max_v?` are not reset between
Grids. -/
def rankDti (ph : Phys) : List GridV → (Fin 3 → ℝ) → ℝ → ℝ
  | [], _, dti => dti
  | g :: gs, v, dti => rankDti ph gs (maxV ph v g) (gridDti (maxV ph v g) g dti)

/-! ## Super time stepping -/

/-- `Ratio[16]`, src/new_dt.c:258-262. -/
def ratio : List ℝ :=
  [1.00000000, 3.08215298, 6.88968591, 12.22069494, 19.07497343, 27.45247186, 37.35317345, 48.77707124,
   61.72416193, 76.19444378, 92.18791578, 109.7045774, 128.7444282, 149.3074679, 171.3936964, 195.0031136]

/-- `while ((dt_ratio > Ratio[i]) && (i<12)) i++;` src/new_dt.c:267-268; `l` is the table from `i` on. -/
def stsIdx (q : ℝ) : List ℝ → Nat → Nat
  | [], i => i
  | r :: l, i => if q > r ∧ i < 12 then stsIdx q l (i+1) else i

/-- `get_N_STS`, src/new_dt.c:255-271. -/
def nSTS (dtMHD dtDiff : ℝ) : Nat := stsIdx (dtMHD / dtDiff) ratio 0 + 1

/-- `N_STS` and `pM->dt` after src/new_dt.c:211-218. -/
def stsLimit (dt diffDt : ℝ) : Nat × ℝ :=
  if nSTS dt diffDt > 12 then (12, 109.7045774 * diffDt) else (nSTS dt diffDt, dt)

/-! ## Diffusion -/

/-- `qa` from `dxmin` and the numbers of zones, src/microphysics/new_dt_diff.c:58-60, 78-80. -/
def qaOf (nx : Fin 3 → Nat) (dxmin : ℝ) : ℝ :=
  if nx 2 > 1 then dxmin * dxmin / 6 else if nx 1 > 1 then dxmin * dxmin / 8 else dxmin * dxmin / 4

/-- `dxmin`, src/microphysics/new_dt_diff.c:74-76 (54-56 with the root spacings divided by a power of 2). -/
def dxMin (nx : Fin 3 → Nat) (dx : Fin 3 → ℝ) : ℝ :=
  let a := dx 0
  let a := if nx 1 > 1 then min a (dx 1) else a
  if nx 2 > 1 then min a (dx 2) else a

/-- A Grid for the diffusion limit: sizes and the resistivities `eta_Ohm + eta_AD` and `|eta_Hall|` of its
zones in loop order. -/
structure GridEta where
  nx : Fin 3 → Nat
  dx : Fin 3 → ℝ
  eta : List ℝ
  hall : List ℝ

/-- The loop over Grids of `new_dt_diff`, src/microphysics/new_dt_diff.c:69-101. -/
def etaDti (qHall : ℝ) (gs : List GridEta) (dti : ℝ) : ℝ :=
  gs.foldl (fun a g =>
    let qa := qaOf g.nx (dxMin g.nx g.dx)
    let a := g.eta.foldl (fun a e => max a (e / qa)) a
    if qHall > 0 then g.hall.foldl (fun a e => max a (|e| / qa)) a else a) dti

/-- `new_dt_diff`, src/microphysics/new_dt_diff.c:31-106.  `kappa = kappa_iso + kappa_aniso`,
`nu = nu_iso + nu_aniso` (`none`: not compiled in); `nx`, `dx` of the root level; `nlev` levels. -/
def newDtDiff (tiny : ℝ) (nx : Fin 3 → Nat) (dx : Fin 3 → ℝ) (nlev : Nat) (kappa nu : Option ℝ)
    (res : Option (ℝ × List GridEta)) : ℝ :=
  let qa := qaOf nx (dxMin nx (fun n => dx n / 2 ^ (nlev - 1)))
  let a := tiny
  let a := match kappa with | some k => max a (k / qa) | none => a
  let a := match nu with | some k => max a (k / qa) | none => a
  match res with | some (qh, gs) => etaDti qh gs a | none => a

end
end Athena.Run
