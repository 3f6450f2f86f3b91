import Verif.Rel.HydroProps

/-!
The relativistic HLLC Riemann solver without magnetic field (/repo/src/rsolvers/hllc_sr.c,
`HYDRO`), and the first-order predictor of the relativistic van Leer integrator in one
dimension that uses it (/repo/src/integrators/integrate_1d_vl_sr.c).

Simplifications: `Real` is ℝ.  A square root of a negative number or a division by zero has the
value Lean gives it; `sr_hllc_defined` (HllcProps.lean) says that none occurs for the states of
the theorems.
-/
namespace Athena.Rel

/-- Smallest and largest wave speed of one state. -/
structure Speeds where
  lm : ℝ
  lp : ℝ

/-- Enthalpy density (hllc_sr.c:88). -/
noncomputable def rhC (g : ℝ) (W : Prim) : ℝ := W.d + W.P * g / (g - 1)

/-- Squared sound speed (hllc_sr.c:91, 94). -/
noncomputable def cssqC (g : ℝ) (W : Prim) : ℝ := √(g * W.P / rhC g W) * √(g * W.P / rhC g W)

/-- `ssl`, `ssr` (hllc_sr.c:97-104). -/
noncomputable def ssC (g : ℝ) (W : Prim) : ℝ :=
  let vsq := W.Vx * W.Vx + W.Vy * W.Vy + W.Vz * W.Vz
  let gammasq := 1 / (1 - vsq)
  cssqC g W / (gammasq * (1 - cssqC g W))

/-- `radl`, `radr` (hllc_sr.c:106-107). -/
noncomputable def radC (g : ℝ) (W : Prim) : ℝ := √(ssC g W * (1 - W.Vx * W.Vx + ssC g W))

/-- Wave speeds of one state (hllc_sr.c:109-112). -/
noncomputable def charSpeeds (g : ℝ) (W : Prim) : Speeds :=
  ⟨(W.Vx - radC g W) / (1 + ssC g W), (W.Vx + radC g W) / (1 + ssC g W)⟩

/-- `lmdal`, `lmdar` (hllc_sr.c:114-115); `MIN(a,b) = (a < b) ? a : b` and
`MAX(a,b) = (a > b) ? a : b` (/repo/src/defs.h.in). -/
noncomputable def fanSpeeds (g : ℝ) (Wl Wr : Prim) : Speeds :=
  let l := charSpeeds g Wl
  let r := charSpeeds g Wr
  ⟨if l.lm < r.lm then l.lm else r.lm, if l.lp > r.lp then l.lp else r.lp⟩

/-- Flux of one side (hllc_sr.c:122-132). -/
def fluxSide (U : Cons) (W : Prim) : Cons :=
  { d := U.d * W.Vx
    Mx := U.Mx * W.Vx + W.P
    My := U.My * W.Vx
    Mz := U.Mz * W.Vx
    E := U.Mx }

/-- HLL flux, one component (hllc_sr.c:139-146). -/
noncomputable def fhll (ll lr fl fr ul ur : ℝ) : ℝ :=
  (lr * fl - ll * fr + ll * lr * (ur - ul)) * (1 / (lr - ll))

/-- HLL average, one component (hllc_sr.c:139, 148-152). -/
noncomputable def uhll (ll lr fl fr ul ur : ℝ) : ℝ :=
  (lr * ur - ll * ul + fl - fr) * (1 / (lr - ll))

/-- Speed of the contact from the coefficients of its quadratic (hllc_sr.c:166-167);
`SIGN(a) = (a < 0) ? -1 : 1` (/repo/src/defs.h.in). -/
noncomputable def contactRoot (a b c : ℝ) : ℝ :=
  let quad := -(1 / 2) * (b + (if b < 0 then -1 else 1) * √(b * b - 4 * a * c))
  c / quad

/-- `lmdas` (hllc_sr.c:139-167). -/
noncomputable def contactSpeed (ll lr : ℝ) (Fl Fr Ul Ur : Cons) : ℝ :=
  contactRoot (fhll ll lr Fl.E Fr.E Ul.E Ur.E)
    (-(uhll ll lr Fl.E Fr.E Ul.E Ur.E + fhll ll lr Fl.Mx Fr.Mx Ul.Mx Ur.Mx))
    (uhll ll lr Fl.Mx Fr.Mx Ul.Mx Ur.Mx)

/-- `ps` (hllc_sr.c:186, 210). -/
noncomputable def starPressure (ll lr ls : ℝ) (Fl Fr Ul Ur : Cons) : ℝ :=
  -(fhll ll lr Fl.E Fr.E Ul.E Ur.E) * ls + fhll ll lr Fl.Mx Fr.Mx Ul.Mx Ur.Mx

/-- `Usl`, `Usr` (hllc_sr.c:189-195, 213-219); `lk` is the speed of the outer wave. -/
noncomputable def starState (lk ls ps : ℝ) (U : Cons) (W : Prim) : Cons :=
  let den := 1 / (lk - ls)
  { d := U.d * (lk - W.Vx) * den
    Mx := (U.Mx * (lk - W.Vx) + ps - W.P) * den
    My := U.My * (lk - W.Vx) * den
    Mz := U.Mz * (lk - W.Vx) * den
    E := (U.E * (lk - W.Vx) + ps * ls - W.P * W.Vx) * den }

/-- Flux of the star region (hllc_sr.c:199-203, 223-227). -/
def starFlux (lk : ℝ) (Us U F : Cons) : Cons :=
  { d := lk * (Us.d - U.d) + F.d
    Mx := lk * (Us.Mx - U.Mx) + F.Mx
    My := lk * (Us.My - U.My) + F.My
    Mz := lk * (Us.Mz - U.Mz) + F.Mz
    E := lk * (Us.E - U.E) + F.E }

/-- `fluxes` (hllc_sr.c:72-243). -/
noncomputable def hllcSR (g : ℝ) (Ul Ur : Cons) (Wl Wr : Prim) : Cons :=
  let s := fanSpeeds g Wl Wr
  let Fl := fluxSide Ul Wl
  let Fr := fluxSide Ur Wr
  let ls := contactSpeed s.lm s.lp Fl Fr Ul Ur
  if s.lm ≥ 0 then Fl
  else if ls ≥ 0 then
    starFlux s.lm (starState s.lm ls (starPressure s.lm s.lp ls Fl Fr Ul Ur) Ul Wl) Ul Fl
  else if s.lp ≥ 0 then
    starFlux s.lp (starState s.lp ls (starPressure s.lm s.lp ls Fl Fr Ul Ur) Ur Wr) Ur Fr
  else Fr

/-- The half-step update of one zone (integrate_1d_vl_sr.c:158-162). -/
def updHalf (h : ℝ) (U Fp Fm : Cons) : Cons :=
  { d := U.d - h * (Fp.d - Fm.d)
    Mx := U.Mx - h * (Fp.Mx - Fm.Mx)
    My := U.My - h * (Fp.My - Fm.My)
    Mz := U.Mz - h * (Fp.Mz - Fm.Mz)
    E := U.E - h * (Fp.E - Fm.E) }

/-- Steps 1 and 5a of `integrate_1d_vl` in special relativity (integrate_1d_vl_sr.c:93-162):
zones `U i`, `W i` their primitive variables, `U1d i` the conserved variables made from those,
first-order states `Wl[i] = W1d[i-1]`, `Wr[i] = W1d[i]`; `Uhalf[i]` for the time step over zone
width `hdtodx1 = 0.5*dt/dx1`.  Zones are numbered by ℤ; the array bounds are those of the
loops, which read no zone beyond the ghost zones.  Without gravitational potential. -/
noncomputable def predictor (g hdtodx : ℝ) (U : ℤ → Cons) (i : ℤ) : Cons :=
  let W := fun i => consToPrim g (U i)
  let U1d := fun i => primToCons g (W i)
  let flux := fun i => hllcSR g (U1d (i - 1)) (U1d i) (W (i - 1)) (W i)
  updHalf hdtodx (U i) (flux (i + 1)) (flux i)

end Athena.Rel
