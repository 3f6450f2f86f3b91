import Verif.Static.Pot
import Mathlib.Tactic.FieldSimp
import Mathlib.Tactic.LinearCombination
import Mathlib.Tactic.Positivity

/-!
# The shearing box: Coriolis force and tide

The last steps of the 2D and 3D integrators with `SHEARING_BOX`: integrate_3d_vl.c:1339-1419, 1655-1717; integrate_3d_ctu.c:2876-2961, 3180-3270;
integrate_2d_vl.c:855-952, 1078-1150; integrate_2d_ctu.c:1633-1736, 1880-1960; the source terms of the predictor of the van Leer integrators,
integrate_3d_vl.c:711-758, integrate_2d_vl.c:479-530; and the correction of a zone with first-order fluxes (`ApplyCorr`),
integrate_3d_vl.c:2722-2854, integrate_2d_vl.c:1741-1877.

The four integrators have the same formulas.  The fluxes are arbitrary.  `StaticGravPot` is `NULL` (C78 is about it), there is no self-gravity, and
the magnetic fields are left out: these steps do not read them.  `fb` is 0 without `FEEDBACK`, and in the van Leer integrators, which do not have it.
Exact arithmetic.
-/

namespace Athena.ShearSrc
open Athena.Vl3
open Athena.Cyl (Geo cc1 cc2 cc3 fc2 fc3)
open Athena.Static (fc1)

variable {ns : ℕ}

/-- The options: `qshear`, `Omega_0`, `FARGO`, `ShBoxCoord == xz`, and the number of dimensions (2 or 3). -/
structure Box where
  q : ℝ
  Om : ℝ
  fargo : Bool
  xz : Bool
  nd : ℕ

/-- `GravPotFun_t` -/
abbrev PotFun := ℝ → ℝ → ℝ → ℝ

/-- Is the azimuthal direction that of `M3`?  Only the 2D integrators look at `ShBoxCoord`. -/
def Box.az (B : Box) : Bool := B.xz && decide (B.nd = 2)

/-- The azimuthal momentum, and the fluxes of it through the faces: `M2`, `x1Flux.My`, `x2Flux.Mx`, `x3Flux.Mz`, or in the x-z plane `M3`,
`x1Flux.Mz`, `x2Flux.My`; integrate_2d_vl.c:864-883. -/
def Box.mom (B : Box) (u : Cons ℝ ns) : ℝ := if B.az then u.M3 else u.M2
def Box.fx1 (B : Box) (f : Cons1 ℝ ns) : ℝ := if B.az then f.Mz else f.My
def Box.fx2 (B : Box) (f : Cons1 ℝ ns) : ℝ := if B.az then f.My else f.Mx
def Box.fx3 (_ : Box) (f : Cons1 ℝ ns) : ℝ := f.Mz

/-- Change the azimuthal momentum. -/
def Box.addMom (B : Box) (t : ℝ) (u : Cons ℝ ns) : Cons ℝ ns := if B.az then { u with M3 := u.M3 + t } else { u with M2 := u.M2 + t }

/-- The fluxes on the six faces of a zone. -/
structure Faces (ns : ℕ) where
  l1 : Cons1 ℝ ns
  r1 : Cons1 ℝ ns
  l2 : Cons1 ℝ ns
  r2 : Cons1 ℝ ns
  l3 : Cons1 ℝ ns
  r3 : Cons1 ℝ ns

/-- The position and size of a zone, `cc_pos`, and the time step. -/
structure Cell where
  x1 : ℝ
  x2 : ℝ
  x3 : ℝ
  dx1 : ℝ
  dx2 : ℝ
  dx3 : ℝ
  dt : ℝ

/-- The feedback of the particles on a zone, `pG->Coup[k][j][i]`. -/
structure Fb where
  fb1 : ℝ
  fb2 : ℝ
  fb3 : ℝ

section
variable (B : Box) (c : Cell)

/-- `om_dt` -/
noncomputable def omdt : ℝ := B.Om * c.dt
/-- `fact`, integrate_3d_vl.c:1340. -/
noncomputable def fact : ℝ := omdt B c / (2 + (2 - B.q) * omdt B c * omdt B c)
/-- `qom`, integrate_3d_vl.c:1341. -/
def qom : ℝ := B.q * B.Om

/-- The fluxes of the fluctuation of the azimuthal momentum: `frx1_dM2`, `flx1_dM2`, ..., integrate_3d_vl.c:1356-1370. -/
noncomputable def frx1 (f : Faces ns) : ℝ := if B.fargo then B.fx1 f.r1 else B.fx1 f.r1 + qom B * (c.x1 + 1 / 2 * c.dx1) * f.r1.d
noncomputable def flx1 (f : Faces ns) : ℝ := if B.fargo then B.fx1 f.l1 else B.fx1 f.l1 + qom B * (c.x1 - 1 / 2 * c.dx1) * f.l1.d
noncomputable def frx2 (f : Faces ns) : ℝ := if B.fargo then B.fx2 f.r2 else B.fx2 f.r2 + qom B * c.x1 * f.r2.d
noncomputable def flx2 (f : Faces ns) : ℝ := if B.fargo then B.fx2 f.l2 else B.fx2 f.l2 + qom B * c.x1 * f.l2.d
noncomputable def frx3 (f : Faces ns) : ℝ := if B.fargo then B.fx3 f.r3 else B.fx3 f.r3 + qom B * c.x1 * f.r3.d
noncomputable def flx3 (f : Faces ns) : ℝ := if B.fargo then B.fx3 f.l3 else B.fx3 f.l3 + qom B * c.x1 * f.l3.d

/-- `M1e`: integrate_3d_vl.c:1373-1375, integrate_2d_vl.c:902-903, with the feedback of integrate_3d_ctu.c:2917-2918. -/
noncomputable def M1e (b : Fb) (f : Faces ns) (u : Cons ℝ ns) : ℝ :=
  u.M1 - 1 / 2 * (c.dt / c.dx1) * (f.r1.Mx - f.l1.Mx) - 1 / 2 * (c.dt / c.dx2) * (f.r2.Mz - f.l2.Mz)
    - (if 3 ≤ B.nd then 1 / 2 * (c.dt / c.dx3) * (f.r3.My - f.l3.My) else 0) - 1 / 2 * b.fb1

/-- `dM2e` (`dM3e` in the x-z plane): integrate_3d_vl.c:1347-1351, 1377-1379, integrate_2d_vl.c:866-872, 905-912, with the feedback of
integrate_3d_ctu.c:2919, integrate_2d_ctu.c:1696-1697. -/
noncomputable def dMe (b : Fb) (f : Faces ns) (u : Cons ℝ ns) : ℝ :=
  let dMn := if B.fargo then B.mom u else B.mom u + qom B * c.x1 * u.d
  dMn - 1 / 2 * (c.dt / c.dx1) * (frx1 B c f - flx1 B c f) - 1 / 2 * (c.dt / c.dx2) * (frx2 B c f - flx2 B c f)
    - (if 3 ≤ B.nd then 1 / 2 * (c.dt / c.dx3) * (frx3 B c f - flx3 B c f) else 0) - 1 / 2 * (if B.az then b.fb3 else b.fb2)

/-- The Coriolis force and the tide on the momenta: integrate_3d_vl.c:1385-1391, integrate_2d_vl.c:919-933. -/
noncomputable def turn (b : Fb) (f : Faces ns) (u : Cons ℝ ns) : Cons ℝ ns :=
  let m := M1e B c b f u
  let δ := dMe B c b f u
  let u := { u with M1 := u.M1 + (4 * δ + 2 * (B.q - 2) * omdt B c * m) * fact B c }
  let u := B.addMom (2 * (B.q - 2) * (m + omdt B c * δ) * fact B c) u
  if B.fargo then u else B.addMom (-(1 / 2 * B.q * omdt B c * (f.l1.d + f.r1.d))) u

/-- The energy in the potential `ShearingBoxPot`: integrate_3d_vl.c:1396-1416, integrate_2d_vl.c:938-951. -/
noncomputable def heave (Φ : PotFun) (f : Faces ns) (u : Cons ℝ ns) : Cons ℝ ns :=
  let phic := Φ c.x1 c.x2 c.x3
  let phir := Φ (c.x1 + 1 / 2 * c.dx1) c.x2 c.x3
  let phil := Φ (c.x1 - 1 / 2 * c.dx1) c.x2 c.x3
  let u := { u with E := u.E - c.dt / c.dx1 * (f.l1.d * (phic - phil) + f.r1.d * (phir - phic)) }
  let phir := Φ c.x1 (c.x2 + 1 / 2 * c.dx2) c.x3
  let phil := Φ c.x1 (c.x2 - 1 / 2 * c.dx2) c.x3
  let u := { u with E := u.E - c.dt / c.dx2 * (f.l2.d * (phic - phil) + f.r2.d * (phir - phic)) }
  let phir := Φ c.x1 c.x2 (c.x3 + 1 / 2 * c.dx3)
  let phil := Φ c.x1 c.x2 (c.x3 - 1 / 2 * c.dx3)
  if 3 ≤ B.nd then { u with E := u.E - c.dt / c.dx3 * (f.l3.d * (phic - phil) + f.r3.d * (phir - phic)) } else u

/-- The feedback of the particles on the momenta: integrate_3d_ctu.c:3184-3191.  (The energy is left out.) -/
def back (b : Fb) (u : Cons ℝ ns) : Cons ℝ ns := { u with M1 := u.M1 - b.fb1, M2 := u.M2 - b.fb2, M3 := u.M3 - b.fb3 }

/-- The flux differences: integrate_3d_vl.c:1655-1717, integrate_2d_vl.c:1078-1150. -/
noncomputable def flow (f : Faces ns) (u : Cons ℝ ns) : Cons ℝ ns :=
  let u := upd1 (c.dt / c.dx1) f.r1 f.l1 u
  let u := upd2 (c.dt / c.dx2) f.r2 f.l2 u
  if 3 ≤ B.nd then upd3 (c.dt / c.dx3) f.r3 f.l3 u else u

/-- One zone over a time step. -/
noncomputable def zone (Φ : PotFun) (b : Fb) (f : Faces ns) (u : Cons ℝ ns) : Cons ℝ ns :=
  flow B c f (back b (heave B c Φ f (turn B c b f u)))

/-- The source terms of the predictor: integrate_3d_vl.c:711-758, integrate_2d_vl.c:479-530.  `f` are the fluxes of the predictor, `u` the zone at the
beginning of the step, `v` the zone of `Uhalf`.  `none` is a `NULL` `ShearingBoxPot`. -/
noncomputable def half (pot : Option PotFun) (f : Faces ns) (u v : Cons ℝ ns) : Cons ℝ ns :=
  let v := match pot with
    | none => v
    | some Φ =>
      let phic := Φ c.x1 c.x2 c.x3
      let phir := Φ (c.x1 + 1 / 2 * c.dx1) c.x2 c.x3
      let phil := Φ (c.x1 - 1 / 2 * c.dx1) c.x2 c.x3
      let v := { v with
        M1 := v.M1 - 1 / 2 * (c.dt / c.dx1) * (phir - phil) * u.d
        E := v.E - 1 / 2 * (c.dt / c.dx1) * (f.l1.d * (phic - phil) + f.r1.d * (phir - phic)) }
      let phir := Φ c.x1 (c.x2 + 1 / 2 * c.dx2) c.x3
      let phil := Φ c.x1 (c.x2 - 1 / 2 * c.dx2) c.x3
      let v := { v with
        M2 := v.M2 - 1 / 2 * (c.dt / c.dx2) * (phir - phil) * u.d
        E := v.E - 1 / 2 * (c.dt / c.dx2) * (f.l2.d * (phic - phil) + f.r2.d * (phir - phic)) }
      let phir := Φ c.x1 c.x2 (c.x3 + 1 / 2 * c.dx3)
      let phil := Φ c.x1 c.x2 (c.x3 - 1 / 2 * c.dx3)
      if 3 ≤ B.nd then { v with
        M3 := v.M3 - 1 / 2 * (c.dt / c.dx3) * (phir - phil) * u.d
        E := v.E - 1 / 2 * (c.dt / c.dx3) * (f.l3.d * (phic - phil) + f.r3.d * (phir - phic)) } else v
  let v := { v with M1 := v.M1 + omdt B c * B.mom u }
  B.addMom (if B.fargo then 1 / 2 * omdt B c * (B.q - 2) * u.M1 else -(omdt B c * u.M1)) v

/-- The arguments `lx1, rx1, ...` of `ApplyCorr`. -/
structure Sides where
  lx1 : ℤ
  rx1 : ℤ
  lx2 : ℤ
  rx2 : ℤ
  lx3 : ℤ
  rx3 : ℤ

/-- `ApplyCorr` on the fluid members: integrate_3d_vl.c:2722-2854, integrate_2d_vl.c:1741-1877.  `D` are the differences `x1FD_i`, `x1FD_ip1`, ... -/
noncomputable def corr (Φ : PotFun) (D : Faces ns) (s : Sides) (u : Cons ℝ ns) : Cons ℝ ns :=
  let dtodx1 := c.dt / c.dx1
  let dtodx2 := c.dt / c.dx2
  let dtodx3 := c.dt / c.dx3
  let u := { u with
    d := u.d + dtodx1 * (s.rx1 * D.r1.d - s.lx1 * D.l1.d)
    M1 := u.M1 + dtodx1 * (s.rx1 * D.r1.Mx - s.lx1 * D.l1.Mx)
    M2 := u.M2 + dtodx1 * (s.rx1 * D.r1.My - s.lx1 * D.l1.My)
    M3 := u.M3 + dtodx1 * (s.rx1 * D.r1.Mz - s.lx1 * D.l1.Mz)
    E := u.E + dtodx1 * (s.rx1 * D.r1.E - s.lx1 * D.l1.E)
    s := fun n => u.s n + dtodx1 * (s.rx1 * D.r1.s n - s.lx1 * D.l1.s n) }
  let u := { u with
    d := u.d + dtodx2 * (s.rx2 * D.r2.d - s.lx2 * D.l2.d)
    M1 := u.M1 + dtodx2 * (s.rx2 * D.r2.Mz - s.lx2 * D.l2.Mz)
    M2 := u.M2 + dtodx2 * (s.rx2 * D.r2.Mx - s.lx2 * D.l2.Mx)
    M3 := u.M3 + dtodx2 * (s.rx2 * D.r2.My - s.lx2 * D.l2.My)
    E := u.E + dtodx2 * (s.rx2 * D.r2.E - s.lx2 * D.l2.E)
    s := fun n => u.s n + dtodx2 * (s.rx2 * D.r2.s n - s.lx2 * D.l2.s n) }
  let u := if 3 ≤ B.nd then { u with
    d := u.d + dtodx3 * (s.rx3 * D.r3.d - s.lx3 * D.l3.d)
    M1 := u.M1 + dtodx3 * (s.rx3 * D.r3.My - s.lx3 * D.l3.My)
    M2 := u.M2 + dtodx3 * (s.rx3 * D.r3.Mz - s.lx3 * D.l3.Mz)
    M3 := u.M3 + dtodx3 * (s.rx3 * D.r3.Mx - s.lx3 * D.l3.Mx)
    E := u.E + dtodx3 * (s.rx3 * D.r3.E - s.lx3 * D.l3.E)
    s := fun n => u.s n + dtodx3 * (s.rx3 * D.r3.s n - s.lx3 * D.l3.s n) } else u
  let frx1 := if B.fargo then B.fx1 D.r1 else B.fx1 D.r1 + qom B * (c.x1 + s.rx1 * (1 / 2) * c.dx1) * D.r1.d
  let flx1 := if B.fargo then B.fx1 D.l1 else B.fx1 D.l1 + qom B * (c.x1 - s.lx1 * (1 / 2) * c.dx1) * D.l1.d
  let m := 1 / 2 * dtodx1 * (s.rx1 * D.r1.Mx - s.lx1 * D.l1.Mx) + 1 / 2 * dtodx2 * (s.rx2 * D.r2.Mz - s.lx2 * D.l2.Mz)
    + (if 3 ≤ B.nd then 1 / 2 * dtodx3 * (s.rx3 * D.r3.My - s.lx3 * D.l3.My) else 0)
  let δ := 1 / 2 * dtodx1 * (s.rx1 * frx1 - s.lx1 * flx1) + 1 / 2 * dtodx2 * (s.rx2 * frx2 B c D - s.lx2 * flx2 B c D)
    + (if 3 ≤ B.nd then 1 / 2 * dtodx3 * (s.rx3 * frx3 B c D - s.lx3 * flx3 B c D) else 0)
  let u := { u with M1 := u.M1 + (4 * δ + 2 * (B.q - 2) * omdt B c * m) * fact B c }
  let u := B.addMom (2 * (B.q - 2) * (m + omdt B c * δ) * fact B c) u
  let u := if B.fargo then u else B.addMom (1 / 2 * B.q * omdt B c * (|(s.lx1 : ℝ)| * D.l1.d + |(s.rx1 : ℝ)| * D.r1.d)) u
  let phic := Φ c.x1 c.x2 c.x3
  let phir := Φ (c.x1 + s.rx1 * (1 / 2) * c.dx1) c.x2 c.x3
  let phil := Φ (c.x1 - s.lx1 * (1 / 2) * c.dx1) c.x2 c.x3
  let u := { u with E := u.E + dtodx1 * (s.lx1 * D.l1.d * (phic - phil) + s.rx1 * D.r1.d * (phir - phic)) }
  let phir := Φ c.x1 (c.x2 + s.rx2 * (1 / 2) * c.dx2) c.x3
  let phil := Φ c.x1 (c.x2 - s.lx2 * (1 / 2) * c.dx2) c.x3
  let u := { u with E := u.E + dtodx2 * (s.lx2 * D.l2.d * (phic - phil) + s.rx2 * D.r2.d * (phir - phic)) }
  let phir := Φ c.x1 c.x2 (c.x3 + s.rx3 * (1 / 2) * c.dx3)
  let phil := Φ c.x1 c.x2 (c.x3 - s.lx3 * (1 / 2) * c.dx3)
  if 3 ≤ B.nd then { u with E := u.E + dtodx3 * (s.lx3 * D.l3.d * (phic - phil) + s.rx3 * D.r3.d * (phir - phic)) } else u

end

section
variable (B : Box) (G : Geo) (g : Rng) (dt : ℝ)

/-- `cc_pos` -/
noncomputable def cellAt (k j i : ℤ) : Cell := ⟨cc1 G g i, cc2 G g j, cc3 G g k, G.dx1, G.dx2, G.dx3, dt⟩

/-- The faces of zone `(k, j, i)`. -/
def facesAt (F1 F2 F3 : Arr (Cons1 ℝ ns)) (k j i : ℤ) : Faces ns := ⟨F1 k j i, F1 k j (i+1), F2 k j i, F2 k (j+1) i, F3 k j i, F3 (k+1) j i⟩

/-- The source terms, then the flux differences, over the active zones.  The potential is called in every active zone, without a test for `NULL`
(integrate_3d_vl.c:1396, integrate_3d_ctu.c:2937, integrate_2d_vl.c:938, integrate_2d_ctu.c:1722). -/
noncomputable def step (pot : Option PotFun) (fb : Arr Fb) (F1 F2 F3 : Arr (Cons1 ℝ ns)) (U : Arr (Cons ℝ ns)) : Res (Arr (Cons ℝ ns)) :=
  match pot with
  | none => if g.ks ≤ g.ke ∧ g.js ≤ g.je ∧ g.is ≤ g.ie then .ub else .ok U
  | some Φ =>
    let c := cellAt G g dt
    let f := facesAt F1 F2 F3
    let U := actLoop g (fun k j i u => heave B (c k j i) Φ (f k j i) (turn B (c k j i) (fb k j i) (f k j i) u)) U
    let U := actLoop g (fun k j i => back (fb k j i)) U
    .ok (actLoop g (fun k j i => flow B (c k j i) (f k j i)) U)

end

end Athena.ShearSrc
