import Verif.Hydro.Exact

/-!
# Specification: the self-similar solution of the Riemann problem of gas dynamics

Two given states, a left-going and a right-going wave (a shock or a rarefaction fan), a contact in between.  Written without reference
to the solver.
-/

namespace Athena.Hydro
noncomputable section
variable {ns : ℕ}

/-- Sound speed. -/
def sound (p : Phys) (W : Prim1D ns) : ℝ := if p.iso then Real.sqrt p.cs2 else Real.sqrt (p.gamma * W.P / W.d)

/-- ∫ c/ρ dρ along an isentrope: the Riemann invariants are `Vx ± rinv`. -/
def rinv (p : Phys) (W : Prim1D ns) : ℝ :=
  if p.iso then Real.sqrt p.cs2 * Real.log W.d else 2 * sound p W / (p.gamma - 1)

/-- Conserved variables of a state without magnetic field. -/
def consOf (p : Phys) (W : Prim1D ns) : Cons1D ns :=
  ⟨W.d, W.d * W.Vx, W.d * W.Vy, W.d * W.Vz, if p.iso then 0 else energy p W 0, W.By, W.Bz, fun n => W.r n * W.d⟩

/-- Everything that a left- or right-going wave does not change. -/
def SameTransverse (W W' : Prim1D ns) : Prop :=
  W'.Vy = W.Vy ∧ W'.Vz = W.Vz ∧ W'.By = W.By ∧ W'.Bz = W.Bz ∧ W'.r = W.r

/-- Two states of the same entropy. -/
def SameEntropy (p : Phys) (W W' : Prim1D ns) : Prop := p.iso = false → W'.P * W.d ^ p.gamma = W.P * W'.d ^ p.gamma

/-- `W'` follows `W` through a left-going wave, which fills the speeds from `s` (its front) to `t`: a compressive shock with the jump
conditions `F(W') - F(W) = s (U' - U)`, or a fan along which the entropy and `Vx + rinv` are constant and whose edges move with the
characteristic speeds `Vx - sound`. -/
inductive Wave1 (p : Phys) (W W' : Prim1D ns) : ℝ → ℝ → Prop
  | shock (s : ℝ) (hd : 0 < W'.d) (ht : SameTransverse W W') (hp : press p W ≤ press p W') (hs : s < W'.Vx)
      (rh : Cons1D.map2 (· - ·) (physFlux p W' 0) (physFlux p W 0) =
        Cons1D.map2 (fun a b => s * (a - b)) (consOf p W') (consOf p W)) : Wave1 p W W' s s
  | fan (hd : 0 < W'.d) (ht : SameTransverse W W') (hp : press p W' ≤ press p W) (he : SameEntropy p W W')
      (hi : W'.Vx + rinv p W' = W.Vx + rinv p W) : Wave1 p W W' (W.Vx - sound p W) (W'.Vx - sound p W')

/-- `W` follows `W'` through a right-going wave, which fills the speeds from `t` to `s` (its front): the mirror image of `Wave1`. -/
def Wave2 (p : Phys) (W W' : Prim1D ns) (s t : ℝ) : Prop := Wave1 p W.mirror W'.mirror (-s) (-t)

/-- The state at speed 0 inside the left-going fan that starts from `W`. -/
def FanAtZero (p : Phys) (W W0 : Prim1D ns) : Prop :=
  0 < W0.d ∧ SameTransverse W W0 ∧ SameEntropy p W W0 ∧ W0.Vx + rinv p W0 = W.Vx + rinv p W ∧ W0.Vx = sound p W0

/-- `W0` is the state at `x/t = 0` of the solution with middle states `Ml`, `Mr` (left and right of the contact), left wave from `sl` to
`tl`, right wave from `tr` to `sr`.  At the edge of a wave the state behind it is taken, at the contact the left state (the flux does
not depend on that). -/
inductive AtZero (p : Phys) (Wl Ml Mr Wr : Prim1D ns) (sl tl tr sr : ℝ) : Prim1D ns → Prop
  | left : 0 ≤ sl → AtZero p Wl Ml Mr Wr sl tl tr sr Wl
  | fanL (W0) : sl < 0 → 0 ≤ tl → FanAtZero p Wl W0 → AtZero p Wl Ml Mr Wr sl tl tr sr W0
  | midL : tl < 0 → 0 ≤ Ml.Vx → AtZero p Wl Ml Mr Wr sl tl tr sr Ml
  | midR : Mr.Vx < 0 → 0 < tr → AtZero p Wl Ml Mr Wr sl tl tr sr Mr
  | fanR (W0) : tr ≤ 0 → 0 < sr → FanAtZero p Wr.mirror W0.mirror → AtZero p Wl Ml Mr Wr sl tl tr sr W0
  | right : sr ≤ 0 → AtZero p Wl Ml Mr Wr sl tl tr sr Wr

/-- The solution of the Riemann problem between `Wl` and `Wr`, and its state `W0` at the interface. -/
structure Solves (p : Phys) (Wl Wr W0 : Prim1D ns) (Ml Mr : Prim1D ns) (sl tl tr sr : ℝ) : Prop where
  left : Wave1 p Wl Ml sl tl
  right : Wave2 p Wr Mr sr tr
  /-- Velocity and pressure do not jump at the contact. -/
  contact : Ml.Vx = Mr.Vx ∧ press p Ml = press p Mr
  at0 : AtZero p Wl Ml Mr Wr sl tl tr sr W0

end
end Athena.Hydro
