import Verif.Base
import Mathlib.Analysis.SpecialFunctions.Pow.Real
import Mathlib.Analysis.Real.Sqrt

/-!
# src/microphysics/cool.c, cool_solver.c, integrate_cooling.c: optically thin cooling

Numbers are exact reals.  Infinities and NaN are `none`: once a temperature is not a number or not positive, no comparison of the Newton iteration succeeds.
`SIMPSON` and `SUB_CYCLE` are not defined.  The loops over the zones of a Grid run over the list of its zones.
-/

namespace Athena.Cool
noncomputable section

/-- `log10`. -/
def log10 (x : ℝ) : ℝ := Real.log x / Real.log 10

/-! ## cool.c -/

/-- `mbar`, cool.c:35. -/
def mbar : ℝ := 137 / 100 * (16733 / 10 ^ 28)
/-- `kb`, cool.c:36. -/
def kb : ℝ := 1380658 / 10 ^ 22
/-- `HeatRate`, cool.c:37. -/
def heatRate : ℝ := 2 / 10 ^ 26

/-- `lognT`, cool.c:70-71. -/
def lognT (l : ℝ) : ℝ :=
  39247499 / 10000000 - 18479378 / 10000000 * l + 15335032 / 10000000 * l * l
    - 47665872 / 100000000 * l ^ 3 + 76789136 / 1000000000 * l ^ 4 - 49052587 / 10000000000 * l ^ 5

/-- `KoyInut`, cool.c:48-80; `g1` is `Gamma_1`. -/
def koyInut (g1 dens press dt : ℝ) : ℝ :=
  let n := dens / mbar
  let logn := log10 n
  let T := max (press / (n * kb)) 10
  let pp := heatRate * (n * (10 ^ 7 * Real.exp (-118400 / (T + 1000)) + 14 / 1000 * √T * Real.exp (-92 / T)) - 1)
  let dT := pp * dt * g1 / kb
  let Teq := if T - dT ≤ 185 then (10 : ℝ) ^ lognT logn / n else 10
  let maxdT := kb * (T - Teq) / (dt * g1)
  n * min pp maxdT

/-! ## cool_solver.c -/

/-- The coefficients `beta`, `C` of the power laws by `logt`, cool_solver.c:359-391. -/
def coef (l : ℝ) : ℝ × ℝ :=
  if l < 435 / 100 then (-1, -1755 / 100)
  else if l < 49 / 10 then (163636 / 100000, -290182 / 10000)
  else if l < 54 / 10 then (0, -21)
  else if l < 59 / 10 then (-192 / 100, -10632 / 1000)
  else if l < 625 / 100 then (0, -2196 / 100)
  else if l < 65 / 10 then (-192 / 100, -996 / 100)
  else if l < 75 / 10 then (-34 / 100, -2023 / 100)
  else (40 / 100, -2578 / 100)

/-- `Lam` for positive temperatures, cool_solver.c:345-397. -/
def lam (T : ℝ) : ℝ :=
  if log10 T < 42 / 10 then
    (10 ^ 7 * Real.exp (-118400 / (T + 1000)) + 14 / 1000 * √T * Real.exp (-92 / T)) * (2 / 10 ^ 26)
  else (10 : ℝ) ^ ((coef (log10 T)).2 + (coef (log10 T)).1 * log10 T)

/-- `dLam` for positive temperatures, cool_solver.c:401-451. -/
def dlam (T : ℝ) : ℝ :=
  if log10 T < 42 / 10 then
    (10 ^ 7 * 118400 * Real.exp (-118400 / (T + 1000)) / (T + 1000) ^ (2 : ℝ)
      + 14 / 1000 * (1 / 2 / √T + 92 / T ^ (15 / 10 : ℝ)) * Real.exp (-92 / T)) * (2 / 10 ^ 26)
  else (coef (log10 T)).1 * (10 : ℝ) ^ ((coef (log10 T)).2 + (coef (log10 T)).1 * log10 T) / T

/-- Units and `Gamma_1`, cool_solver.c:51, :213-215. -/
structure Units where
  T : ℝ
  C : ℝ
  g1 : ℝ

/-- `dtemp`, cool_solver.c:303-304. -/
def dtemp (u : Units) (told n heat dt T : ℝ) : Option ℝ :=
  if 0 < T then
    let den := 1 + u.C * dlam T * n * dt
    if den = 0 then none else some ((T + u.C * (n * lam T - heat) * dt - told) / den)
  else none

/-- The Newton iteration, cool_solver.c:275-310: `true` if it has converged. -/
def newton (u : Units) (told n heat dt : ℝ) : ℕ → ℝ → Bool × Option ℝ
  | 0, T => (false, some T)
  | k + 1, T =>
    match dtemp u told n heat dt T with
    | none => (false, none)
    | some x =>
      let T' := T - x
      if T' ≠ 0 ∧ |x / T'| < 1 / 100 then (true, some T') else newton u told n heat dt k T'

/-- `temp_next`, cool_solver.c:247-340: `k` is the number of times the time step may still be halved, `cmax + 1 - count`. -/
def tempNext (u : Units) (told n heat : ℝ) : ℕ → ℝ → Res (Option ℝ × ℝ)
  | 0, dt =>
    match (newton u told n heat dt 20 told).2 with
    | none => .ok (none, dt)
    | some T => if |told - T| / told > 1 / 10 then .fatal else .ok (some T, dt)
  | k + 1, dt =>
    match newton u told n heat dt 20 told with
    | (true, some T) => if |told - T| / told > 1 / 10 then tempNext u told n heat k (dt * (1 / 2)) else .ok (some T, dt)
    | _ => tempNext u told n heat k (dt * (1 / 2))

/-- The conserved variables used; `off` is true if the test cool_solver.c:150-154 skips the zone. -/
structure Zone where
  d : ℝ
  M1 : ℝ
  M2 : ℝ
  M3 : ℝ
  E : ℝ
  B1c : ℝ
  B2c : ℝ
  B3c : ℝ
  off : Bool

/-- `t_old`, cool_solver.c:86-91, :132-137. -/
def tOld (u : Units) (U : Zone) : ℝ :=
  let t := U.E - 1 / 2 / U.d * (U.M1 ^ 2 + U.M2 ^ 2 + U.M3 ^ 2)
  let t := t - 1 / 2 * (U.B1c ^ 2 + U.B2c ^ 2 + U.B3c ^ 2)
  let t := t * (u.g1 / U.d)
  max (u.T * t) 10

/-- The first pass, cool_solver.c:79-107. -/
def pass1 (u : Units) (heat dt : ℝ) : ℝ → List Zone → Res ℝ
  | m, [] => .ok m
  | m, U :: Z => do
    let told := tOld u U
    let tcool := told / U.d / (lam told * u.C)
    let (t, my) ← tempNext u told U.d heat 17 (min (8 / 10 * tcool) dt)
    match t with
    | none => .fatal
    | some _ => pass1 u heat dt (min m my) Z

/-- The new energy, cool_solver.c:173-180. -/
def setE (u : Units) (U : Zone) (T : ℝ) : Zone :=
  { U with E := max T 10 / u.T * U.d / u.g1 + 1 / 2 / U.d * (U.M1 ^ 2 + U.M2 ^ 2 + U.M3 ^ 2) + 1 / 2 * (U.B1c ^ 2 + U.B2c ^ 2 + U.B3c ^ 2) }

/-- One zone of the second pass, cool_solver.c:129-180: `r` resets are left. -/
def zone2 (u : Units) (heat : ℝ) (U : Zone) : ℕ → ℝ → Res (Zone × ℕ × ℝ)
  | r, dt =>
    if U.off then .ok (setE u U (tOld u U), r, dt) else do
    let (t, dt') ← tempNext u (tOld u U) U.d heat 17 dt
    if dt ≠ dt' then
      match r with
      | 0 => .fatal
      | r + 1 => zone2 u heat U r dt'
    else
      match t with
      | none => .fatal
      | some T => .ok (setE u U T, r, dt')

/-- The second pass, cool_solver.c:126-183. -/
def pass2 (u : Units) (heat : ℝ) : ℕ → ℝ → List Zone → Res (List Zone × ℝ)
  | _, dt, [] => .ok ([], dt)
  | r, dt, U :: Z => do
    let (U', r', dt') ← zone2 u heat U r dt
    let (Z', dt'') ← pass2 u heat r' dt' Z
    return (U' :: Z', dt'')

/-- `cooling_solver`, cool_solver.c:54-191: the new zones and `pG->dt`.  `red` is the reduction over the other processes. -/
def solver (u : Units) (red : ℝ → ℝ) (heat dt : ℝ) (Z : List Zone) : Res (List Zone × ℝ) := do
  let m ← pass1 u heat dt (10 ^ 20) Z
  pass2 u heat 3 (red m) Z

/-- `integrate_cooling`, integrate_cooling.c:28-51, without MPI: the Grids of all Domains with their heating rate; returns zones and `pG->dt` of each and `pM->dt`. -/
def integrate (u : Units) : ℝ → List (ℝ × List Zone) → Res (List (List Zone × ℝ) × ℝ)
  | dt, [] => .ok ([], dt)
  | dt, (heat, Z) :: D => do
    let (Z', dt') ← solver u id heat dt Z
    let (r, m) ← integrate u (min dt dt') D
    return ((Z', dt') :: r, m)

end
end Athena.Cool
