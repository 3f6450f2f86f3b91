import Verif.Hydro.RsolveProps
import Mathlib.Analysis.SpecialFunctions.Pow.Real

/-!
# src/rsolvers/exact.c: the exact nonlinear Riemann solver (hydrodynamics)

Exact reals.  `none` is an error exit (`ath_error`) or the appearance of an infinity or a NaN.  `exp`, `log` and `pow` are the real
functions.
-/

namespace Athena.Hydro
noncomputable section
variable {ns : ℕ}

/-- `log`; no finite value for arguments that are not positive. -/
def flog (x : ℝ) : Option ℝ := if x ≤ 0 then none else some (Real.log x)

/-- `pow(x,y)`; no finite real value for a negative base (here the exponents are not integers in general) or for a negative power of
zero. -/
def fpow (x y : ℝ) : Option ℝ := if x < 0 ∨ (x = 0 ∧ y < 0) then none else some (x ^ y)

/-! ## Isothermal gas -/

/-- `srder`, exact.c:289-296: function and derivative. -/
def srder (c vl vr dmin dmax dm : ℝ) : Option (ℝ × ℝ) := do
  let l ← flog (← fdiv dm dmax)
  let s ← fsqrt (dm * dmin)
  let t ← fdiv (dm - dmin) s
  let u ← fdiv c dm
  let w ← fdiv (1/2 * (dm + dmin)) s
  return ((vr - vl) + c * (l + t), u * (1 + w))

/-- Local variables of `rtsafe`, exact.c:312-313. -/
structure Rt where
  xl : ℝ
  xh : ℝ
  rts : ℝ
  dxold : ℝ
  dx : ℝ
  f : ℝ
  df : ℝ

/-- One pass of the loop of `rtsafe`, exact.c:334-352; `inl` is `return`. -/
def rtStep (g : ℝ → Option (ℝ × ℝ)) (xacc : ℝ) (s : Rt) : Option (ℝ ⊕ Rt) :=
  if ((s.rts - s.xh) * s.df - s.f) * ((s.rts - s.xl) * s.df - s.f) > 0 ∨ |2 * s.f| > |s.dxold * s.df| then
    let dx := 1/2 * (s.xh - s.xl)
    let rts := s.xl + dx
    if s.xl = rts then some (.inl rts)
    else if |dx| < xacc then some (.inl rts)
    else do
      let (f, df) ← g rts
      some (.inr (if f < 0 then ⟨rts, s.xh, rts, s.dx, dx, f, df⟩ else ⟨s.xl, rts, rts, s.dx, dx, f, df⟩))
  else do
    let dx ← fdiv s.f s.df
    let rts := s.rts - dx
    if s.rts = rts then some (.inl rts)
    else if |dx| < xacc then some (.inl rts)
    else do
      let (f, df) ← g rts
      some (.inr (if f < 0 then ⟨rts, s.xh, rts, s.dx, dx, f, df⟩ else ⟨s.xl, rts, rts, s.dx, dx, f, df⟩))

/-- The loop of `rtsafe`, exact.c:333-355, with `n` passes left. -/
def rtLoop (g : ℝ → Option (ℝ × ℝ)) (xacc : ℝ) : ℕ → Rt → Option ℝ
  | 0, s => some s.rts
  | n + 1, s => do
    match ← rtStep g xacc s with
    | .inl r => some r
    | .inr s => rtLoop g xacc n s

/-- `rtsafe`, exact.c:307-356 (`MAXIT` = 100). -/
def rtsafe (g : ℝ → Option (ℝ × ℝ)) (x1 x2 xacc : ℝ) : Option ℝ := do
  let (fl, _) ← g x1
  let (fh, _) ← g x2
  if (fl > 0 ∧ fh > 0) ∨ (fl < 0 ∧ fh < 0) then some 0
  else if fl = 0 then some x1
  else if fh = 0 then some x2
  else
    let xl := if fl < 0 then x1 else x2
    let xh := if fl < 0 then x2 else x1
    let rts := 1/2 * (x1 + x2)
    let (f, df) ← g rts
    rtLoop g xacc 100 ⟨xl, xh, rts, |x2 - x1|, |x2 - x1|, f, df⟩

/-- `2.0*DBL_EPSILON`, exact.c:126. -/
def rtAcc : ℝ := 2 * (1 / 2 ^ 52)

/-- Step 1, exact.c:85-155: whether the left and the right wave are rarefactions (`soln & 2`, `soln & 1`), density and velocity of the
intermediate state. -/
def exactMid (c : ℝ) (Wl Wr : Prim1D ns) : Option (Bool × Bool × ℝ × ℝ) := do
  let zl ← fsqrt Wl.d
  let zr ← fsqrt Wr.d
  let tmp ← fdiv (zl * zr * (Wl.Vx - Wr.Vx)) (2 * c * (zl + zr))
  let zm := tmp + (← fsqrt (tmp * tmp + zl * zr))
  let dm := zm * zm
  let vm := Wl.Vx - (← fdiv (c * (dm - Wl.d)) (zm * zl))
  let dmin := fmin Wl.d Wr.d
  let dmax := fmax Wl.d Wr.d
  let e ← fdiv (Wl.Vx - Wr.Vx) (2 * c)
  let dr := zl * zr * Real.exp e
  if dm < dmax then do
    let vr := Wl.Vx - c * (← flog (← fdiv dr Wl.d))
    if dr > dmin then do
      let dx ← rtsafe (srder c Wl.Vx Wr.Vx dmin dmax) dmin dmax rtAcc
      if dx > dmin ∧ dx ≤ dmax then
        if Wl.d > Wr.d then do
          let l ← flog (← fdiv dx Wl.d)
          some (true, false, dx, Wl.Vx - c * l)
        else do
          let l ← flog (← fdiv dx Wr.d)
          some (false, true, dx, Wr.Vx + c * l)
      else some (true, true, dr, vr)
    else some (true, true, dr, vr)
  else some (false, false, dm, vm)

/-- The flux of one of the given states, exact.c:169-175, 198-204, 216-222, 246-252. -/
def exactSideI (p : Phys) (U : Cons1D ns) (W : Prim1D ns) : Cons1D ns :=
  ⟨U.Mx, U.Mx * W.Vx + W.d * p.cs2, U.My * W.Vx, U.Mz * W.Vx, 0, 0, 0, fun n => U.Mx * W.r n⟩

/-- The flux of a state inside a rarefaction fan, exact.c:181-189, 229-237. -/
def exactFanI (p : Phys) (W : Prim1D ns) (dm Mxm : ℝ) : Option (Cons1D ns) := do
  let v ← if dm = 0 then some 0 else fdiv Mxm dm
  return ⟨Mxm, Mxm * v + dm * p.cs2, Mxm * W.Vy, Mxm * W.Vz, 0, 0, 0, fun n => Mxm * W.r n⟩

/-- Exact flux, isothermal hydrodynamics: `fluxes`, exact.c:64-282. -/
def exactI (p : Phys) (Ul Ur : Cons1D ns) (Wl Wr : Prim1D ns) : Option (Cons1D ns) :=
  let c := p.cs
  if ¬ 0 < Ul.d ∨ ¬ 0 < Ur.d then none else do
  let (rl, rr, dm, vm) ← exactMid c Wl Wr
  if dm < 0 then none else do
  let zl ← fsqrt Wl.d
  let zr ← fsqrt Wr.d
  let sq ← fsqrt dm
  let hdl := Wl.Vx - c
  let tll := vm - c
  let sl := Wl.Vx - (← fdiv (c * sq) zl)
  if rl ∧ hdl ≥ 0 then return exactSideI p Ul Wl
  else if rl ∧ tll ≥ 0 then do
    let q ← fdiv hdl c
    exactFanI p Wl (Ul.d * Real.exp q) (Ul.d * c * Real.exp q)
  else if ¬ rl ∧ sl ≥ 0 then return exactSideI p Ul Wl
  else do
  let hdr := Wr.Vx + c
  let tlr := vm + c
  let sr := Wr.Vx + (← fdiv (c * sq) zr)
  if rr ∧ hdr ≤ 0 then return exactSideI p Ur Wr
  else if rr ∧ tlr ≤ 0 then do
    let q ← fdiv (-tlr) c
    exactFanI p Wr (dm * Real.exp q) (-dm * c * Real.exp q)
  else if ¬ rr ∧ sr ≤ 0 then return exactSideI p Ur Wr
  else
    let W := if vm ≥ 0 then Wl else Wr
    return ⟨dm * vm, dm * vm * vm + dm * p.cs2, dm * vm * W.Vy, dm * vm * W.Vz, 0, 0, 0, fun n => dm * vm * W.r n⟩

/-! ## Adiabatic gas -/

/-- `sqrt(Gamma*W.P/W.d)`, exact.c:373-374, 403, 430, 514-515. -/
def exactA_a (p : Phys) (W : Prim1D ns) : Option ℝ := do fsqrt (← fdiv (p.gamma * W.P) W.d)

/-- `gl`, `gr`, exact.c:384-387. -/
def guessG (p : Phys) (W : Prim1D ns) (ppv : ℝ) : Option ℝ := do
  let n ← fdiv 2 (W.d * (p.gamma + 1))
  let m ← fdiv ((p.gamma - 1) * W.P) (p.gamma + 1)
  fsqrt (← fdiv n (m + ppv))

/-- `TOL`, exact.c:377, 461. -/
def exactTol : ℝ := 1 / 1000000

/-- `guessP`, exact.c:370-394. -/
def guessP (p : Phys) (Wl Wr : Prim1D ns) : Option ℝ := do
  let al ← exactA_a p Wl
  let ar ← exactA_a p Wr
  let ppv := 1/2 * (Wl.P + Wr.P) - 1/8 * (Wr.Vx - Wl.Vx) * (Wl.d + Wr.d) * (al + ar)
  let ppv := if ppv < 0 then 0 else ppv
  let gl ← guessG p Wl ppv
  let gr ← guessG p Wr ppv
  let p0 ← fdiv (gl * Wl.P + gr * Wr.P - (Wr.Vx - Wl.Vx)) (gr + gl)
  return if p0 < 0 then exactTol else p0

/-- `PFunc`, exact.c:400-420. -/
def pFunc (p : Phys) (W : Prim1D ns) (x : ℝ) : Option ℝ := do
  let a ← exactA_a p W
  if x ≤ W.P then do
    let u ← fdiv (2 * a) (p.gamma - 1)
    let z ← fdiv (p.gamma - 1) (2 * p.gamma)
    return u * ((← fpow (← fdiv x W.P) z) - 1)
  else do
    let A ← fdiv 2 (W.d * (p.gamma + 1))
    let B ← fdiv (W.P * (p.gamma - 1)) (p.gamma + 1)
    return (x - W.P) * (← fsqrt (← fdiv A (x + B)))

/-- `PFuncDeriv`, exact.c:427-448. -/
def pFuncDeriv (p : Phys) (W : Prim1D ns) (x : ℝ) : Option ℝ := do
  let a ← exactA_a p W
  if x ≤ W.P then do
    let u ← fdiv 1 (a * W.d)
    let z ← fdiv (-(p.gamma + 1)) (2 * p.gamma)
    return u * (← fpow (← fdiv x W.P) z)
  else do
    let A ← fdiv 2 (W.d * (p.gamma + 1))
    let B ← fdiv (W.P * (p.gamma - 1)) (p.gamma + 1)
    return (← fsqrt (← fdiv A (x + B))) * (1 - (← fdiv (1/2 * (x - W.P)) (B + x)))

/-- One pass of the Newton iteration, exact.c:469-483; `inl` is `return p`.  (`change` is infinite or a NaN if `p + POld` = 0; the
comparison is then false.) -/
def pcStep (p : Phys) (Wl Wr : Prim1D ns) (x : ℝ) : Option (ℝ ⊕ ℝ) := do
  let fl ← pFunc p Wl x
  let fr ← pFunc p Wr x
  let dl ← pFuncDeriv p Wl x
  let dr ← pFuncDeriv p Wr x
  let y := x - (← fdiv (fl + fr + (Wr.Vx - Wl.Vx)) (dl + dr))
  if y + x ≠ 0 ∧ 2 * |(y - x) / (y + x)| ≤ exactTol then return .inl y
  else return .inr (if y < 0 then exactTol else y)

/-- `while (i < MAX_ITER)`, exact.c:467-490, with `n` passes left; `ath_error` when they are used up. -/
def pcLoop (p : Phys) (Wl Wr : Prim1D ns) : ℕ → ℝ → Option ℝ
  | 0, _ => none
  | n + 1, x => do
    match ← pcStep p Wl Wr x with
    | .inl y => some y
    | .inr y => pcLoop p Wl Wr n y

/-- `getPC`, exact.c:456-491. -/
def getPC (p : Phys) (Wl Wr : Prim1D ns) : Option ℝ := do pcLoop p Wl Wr 100 (← guessP p Wl Wr)

/-- Density next to the contact, exact.c:536-546, 553-563. -/
def exactDc (p : Phys) (W : Prim1D ns) (pc : ℝ) : Option ℝ :=
  if pc > W.P then do
    let tmp ← fdiv (p.gamma - 1) (p.gamma + 1)
    fdiv (W.d * ((← fdiv pc W.P) + tmp)) ((← fdiv (tmp * pc) W.P) + 1)
  else do return W.d * (← fpow (← fdiv pc W.P) (← fdiv 1 p.gamma))

/-- The flux of one of the given states, exact.c:580-591, 606-617, 657-668, 683-694. -/
def exactSideA (p : Phys) (U : Cons1D ns) (W : Prim1D ns) : Option (Cons1D ns) := do
  let e ← fdiv W.P (W.d * (p.gamma - 1))
  let V := W.Vx * W.Vx + W.Vy * W.Vy + W.Vz * W.Vz
  let E := W.d * (1/2 * V + e)
  return ⟨U.Mx, U.Mx * W.Vx + W.P, U.My * W.Vx, U.Mz * W.Vx, W.Vx * (E + W.P), 0, 0, fun n => U.Mx * W.r n⟩

/-- The flux of a computed state, exact.c:632-643, 707-718, 729-740, 744-755. -/
def exactStateA (p : Phys) (W : Prim1D ns) (dc Vxc pc : ℝ) : Option (Cons1D ns) := do
  let e ← fdiv pc (dc * (p.gamma - 1))
  let V := Vxc * Vxc + W.Vy * W.Vy + W.Vz * W.Vz
  let E := dc * (1/2 * V + e)
  return ⟨dc * Vxc, dc * Vxc * Vxc + pc, dc * Vxc * W.Vy, dc * Vxc * W.Vz, Vxc * (E + pc), 0, 0, fun n => dc * Vxc * W.r n⟩

/-- Factor of the sound speed in the shock speeds, exact.c:575-576, 652-653. -/
def exactS (p : Phys) (W : Prim1D ns) (pc : ℝ) : Option ℝ := do
  fsqrt ((← fdiv (pc * (p.gamma + 1)) (2 * p.gamma * W.P)) + (← fdiv (p.gamma - 1) (2 * p.gamma)))

/-- Factor of the sound speed behind a rarefaction, exact.c:598, 675. -/
def exactC (p : Phys) (W : Prim1D ns) (pc : ℝ) : Option ℝ := do
  fpow (← fdiv pc W.P) (← fdiv (p.gamma - 1) (2 * p.gamma))

/-- Left wave, exact.c:571-646: the flux if the interface lies to the left of or inside the wave. -/
def exactLeft (p : Phys) (Ul : Cons1D ns) (Wl : Prim1D ns) (al pc Vxc : ℝ) : Option (Option (Cons1D ns)) :=
  if pc > Wl.P then do
    let sl := Wl.Vx - al * (← exactS p Wl pc)
    if sl ≥ 0 then return some (← exactSideA p Ul Wl) else return none
  else do
    let alc := al * (← exactC p Wl pc)
    let hdl := Wl.Vx - al
    let tll := Vxc - alc
    if hdl ≥ 0 then return some (← exactSideA p Ul Wl)
    else if tll ≥ 0 then do
      let tmp1 ← fdiv 2 (p.gamma + 1)
      let tmp2 ← fdiv (p.gamma - 1) (al * (p.gamma + 1))
      let dc := Wl.d * (← fpow (tmp1 + tmp2 * Wl.Vx) (← fdiv 2 (p.gamma - 1)))
      let v := tmp1 * (al + Wl.Vx * (p.gamma - 1) / 2)
      let pc := Wl.P * (← fpow (tmp1 + tmp2 * Wl.Vx) (← fdiv (2 * p.gamma) (p.gamma - 1)))
      return some (← exactStateA p Wl dc v pc)
    else return none

/-- Right wave, exact.c:648-721. -/
def exactRight (p : Phys) (Ur : Cons1D ns) (Wr : Prim1D ns) (ar pc Vxc : ℝ) : Option (Option (Cons1D ns)) :=
  if pc > Wr.P then do
    let sr := Wr.Vx + ar * (← exactS p Wr pc)
    if sr ≤ 0 then return some (← exactSideA p Ur Wr) else return none
  else do
    let arc := ar * (← exactC p Wr pc)
    let hdr := Wr.Vx + ar
    let tlr := Vxc + arc
    if hdr ≤ 0 then return some (← exactSideA p Ur Wr)
    else if tlr ≤ 0 then do
      let tmp1 ← fdiv 2 (p.gamma + 1)
      let tmp2 ← fdiv (p.gamma - 1) (ar * (p.gamma + 1))
      let dc := Wr.d * (← fpow (tmp1 - tmp2 * Wr.Vx) (← fdiv 2 (p.gamma - 1)))
      let v := tmp1 * (-ar + Wr.Vx * (p.gamma - 1) / 2)
      let pc := Wr.P * (← fpow (tmp1 - tmp2 * Wr.Vx) (← fdiv (2 * p.gamma) (p.gamma - 1)))
      return some (← exactStateA p Wr dc v pc)
    else return none

/-- Exact flux, adiabatic hydrodynamics: `fluxes`, exact.c:505-759. -/
def exactA (p : Phys) (Ul Ur : Cons1D ns) (Wl Wr : Prim1D ns) : Option (Cons1D ns) := do
  let al ← exactA_a p Wl
  let ar ← exactA_a p Wr
  if ¬ 0 < Ul.d ∨ ¬ 0 < Ur.d then none else do
  let pc ← getPC p Wl Wr
  let fr ← pFunc p Wr pc
  let fl ← pFunc p Wl pc
  let Vxc := 1/2 * (Wl.Vx + Wr.Vx) + 1/2 * (fr - fl)
  let dcl ← exactDc p Wl pc
  if dcl < 0 then none else do
  let dcr ← exactDc p Wr pc
  if dcr < 0 then none else do
  match ← exactLeft p Ul Wl al pc Vxc with
  | some F => return F
  | none =>
    match ← exactRight p Ur Wr ar pc Vxc with
    | some F => return F
    | none => if Vxc ≥ 0 then exactStateA p Wl dcl Vxc pc else exactStateA p Wr dcr Vxc pc

end
end Athena.Hydro
