import Verif.Integr.Vl3Cons

/-!
# src/integrators/integrate_3d_vl.c in cylindrical coordinates (`--with-coord=cylindrical`)

The 3D van Leer integrator with the blocks under `CYLINDRICAL`: the factors `rsf`, `lsf`, the ratio `dtodx2` that
depends on the radius, the geometric source term and the static gravitational potential.  Exact arithmetic.
Without `FARGO`, self-gravity and particles (configure refuses the last two with cylindrical coordinates),
cooling, explicit diffusion, H-correction, first-order flux correction and mesh refinement.  Without MHD the fields
are zero and without an energy equation `E` is never used.  The parts of the integrator that do not
contain the geometry are those of `Verif.Integr.Vl3`.  A work array is changed by whole loops, as there.
-/

namespace Athena.Cyl
open Athena.Vl3

/-- The Grid: `MinX[0]`, `MinX[1]`, `MinX[2]`, `dx1`, `dx2`, `dx3`. -/
structure Geo where
  x1min : ℝ
  x2min : ℝ
  x3min : ℝ
  dx1 : ℝ
  dx2 : ℝ
  dx3 : ℝ

/-- `pG->ri[i]`, init_grid.c:226: the radius of face `i`. -/
noncomputable def ri (G : Geo) (g : Rng) (i : ℤ) : ℝ := G.x1min + ((i - g.is : ℤ) : ℝ) * G.dx1
/-- `pG->r[i]`, init_grid.c:227: the radius of the centre of zone `i`. -/
noncomputable def r (G : Geo) (g : Rng) (i : ℤ) : ℝ := ri G g i + 1 / 2 * G.dx1
/-- `rsf`, integrate_3d_vl.c:1317. -/
noncomputable def rsf (G : Geo) (g : Rng) (i : ℤ) : ℝ := ri G g (i+1) / r G g i
/-- `lsf`, integrate_3d_vl.c:1317. -/
noncomputable def lsf (G : Geo) (g : Rng) (i : ℤ) : ℝ := ri G g i / r G g i

/-- `cc_pos`, cc_pos.c:36-43: the first coordinate. -/
noncomputable def cc1 (G : Geo) (g : Rng) (i : ℤ) : ℝ := G.x1min + (((i - g.is : ℤ) : ℝ) + 1 / 2) * G.dx1
/-- `cc_pos`, cc_pos.c:36-43: the second coordinate. -/
noncomputable def cc2 (G : Geo) (g : Rng) (j : ℤ) : ℝ := G.x2min + (((j - g.js : ℤ) : ℝ) + 1 / 2) * G.dx2
/-- `cc_pos`, cc_pos.c:36-43: the third coordinate. -/
noncomputable def cc3 (G : Geo) (g : Rng) (k : ℤ) : ℝ := G.x3min + (((k - g.ks : ℤ) : ℝ) + 1 / 2) * G.dx3

/-- The equation of state: `ADIABATIC` with `Gamma_1`, or `ISOTHERMAL` with `Iso_csound2`. -/
inductive Eos where
  | adiabatic (Gamma_1 : ℝ)
  | isothermal (cs2 : ℝ)

/-- The settings of a run: equation of state, `TINY_NUMBER`, `StaticGravPot` (or `NULL`). -/
structure Phys where
  eos : Eos
  tiny : ℝ
  pot : Option (ℝ → ℝ → ℝ → ℝ)

/-- The functions called by the integrator.  In cylindrical coordinates `lr_states` in the x1-direction depends on the
radius, so on the interface `i`: `lr1` takes the place of `lr 0`. -/
structure CMethod (W : Type) (ns : ℕ) extends Method ℝ W ns where
  /-- `lr_states` in direction 0 at interface `i` -/
  lr1 : ℤ → (ℤ → W) → (ℤ → ℝ) → W × W

section Formulas
variable {ns : ℕ} (P : Phys) (G : Geo) (g : Rng)

/-- Steps 4b, 11c: the change of `B1i` over the time `h`; `dtodx2` is `h/(ri[i]*dx2)`; :382-386, :1272-1276, :397-402,
:1287-1292. -/
noncomputable def cct1 (h : ℝ) (e2 e3 : Arr ℝ) (k j i : ℤ) : ℝ := ct1 (h / (ri G g i * G.dx2)) (h / G.dx3) e2 e3 k j i
/-- Steps 4b, 11c: the change of `B2i`; :387-388, :1277-1278, :404-407, :1294-1298. -/
noncomputable def cct2 (h : ℝ) (e1 e3 : Arr ℝ) (k j i : ℤ) : ℝ := ct2 (h / G.dx1) (h / G.dx3) e1 e3 k j i
/-- Steps 4b, 11c: the change of `B3i`; :389-394, :1279-1284, :410-416, :1300-1309. -/
noncomputable def cct3 (h : ℝ) (e1 e2 : Arr ℝ) (k j i : ℤ) : ℝ :=
  h / (r G g i * G.dx2) * (e1 k (j+1) i - e1 k j i) - h / G.dx1 * (rsf G g i * e2 k j (i+1) - lsf G g i * e2 k j i)

/-- Steps 4c, 11d; :426-431, :1316-1321. -/
noncomputable def cavgB (B1 B2 B3 : Arr ℝ) (k j i : ℤ) (u : Cons ℝ ns) : Cons ℝ ns :=
  { u with
    B1c := 1 / 2 * (lsf G g i * B1 k j i + rsf G g i * B1 k j (i+1))
    B2c := 1 / 2 * (B2 k j i + B2 k (j+1) i)
    B3c := 1 / 2 * (B3 k j i + B3 (k+1) j i) }

/-- Steps 5a, 13a over the time `h`: the x1-fluxes `b`, `a` on the outer and inner face; :446-462, :1661-1680. -/
noncomputable def cupd1 (h : ℝ) (b a : Cons1 ℝ ns) (i : ℤ) (u : Cons ℝ ns) : Cons ℝ ns :=
  let q := h / G.dx1
  let rs := rsf G g i
  let ls := lsf G g i
  { u with
    d := u.d - q * (rs * b.d - ls * a.d)
    M1 := u.M1 - q * (rs * b.Mx - ls * a.Mx)
    M2 := u.M2 - q * (rs ^ 2 * b.My - ls ^ 2 * a.My)
    M3 := u.M3 - q * (rs * b.Mz - ls * a.Mz)
    E := u.E - q * (rs * b.E - ls * a.E)
    s := fun n => u.s n - q * (rs * b.s n - ls * a.s n) }
/-- Steps 5b, 13b: the x2-fluxes, with `dtodx2` equal to `h/(r[i]*dx2)`; :470-486, :1688-1707. -/
noncomputable def cupd2 (h : ℝ) (b a : Cons1 ℝ ns) (i : ℤ) (u : Cons ℝ ns) : Cons ℝ ns :=
  upd2 (h / (r G g i * G.dx2)) b a u
/-- Steps 5c, 13c: the x3-fluxes; :498-509, :1714-1735. -/
noncomputable def cupd3 (h : ℝ) (b a : Cons1 ℝ ns) (u : Cons ℝ ns) : Cons ℝ ns := upd3 (h / G.dx3) b a u

/-- `Ptot`, :783-798, :1625-1642. -/
noncomputable def ptot (u : Cons ℝ ns) : ℝ :=
  let Ekin := 1 / 2 * (u.M1 ^ 2 + u.M2 ^ 2 + u.M3 ^ 2) / u.d
  let B2sq := u.B2c ^ 2
  let Emag := 1 / 2 * (u.B1c ^ 2 + B2sq + u.B3c ^ 2)
  let p := match P.eos with
    | .adiabatic g1 => g1 * (u.E - Ekin - Emag)
    | .isothermal c2 => c2 * u.d
  max p P.tiny + Emag

/-- Steps 6d, 12c: the geometric source term over the time `h` from the state `v`; :779-804, :1620-1648. -/
noncomputable def geom (h : ℝ) (v : Cons ℝ ns) (i : ℤ) (u : Cons ℝ ns) : Cons ℝ ns :=
  { u with M1 := u.M1 + h * (v.M2 ^ 2 / v.d - v.B2c ^ 2 + ptot P v) / r G g i }

/-- Steps 6a, 12a: the static potential over the time `h`, with the density `ρ` and the mass fluxes; :606-651,
:1422-1462. -/
noncomputable def grav (h ρ : ℝ) (F1 F2 F3 : Arr (Cons1 ℝ ns)) (k j i : ℤ) (u : Cons ℝ ns) : Cons ℝ ns :=
  match P.pot with
  | none => u
  | some Φ =>
    let x1 := cc1 G g i
    let x2 := cc2 G g j
    let x3 := cc3 G g k
    let phic := Φ x1 x2 x3
    let phir1 := Φ (x1 + 1 / 2 * G.dx1) x2 x3
    let phil1 := Φ (x1 - 1 / 2 * G.dx1) x2 x3
    let phir2 := Φ x1 (x2 + 1 / 2 * G.dx2) x3
    let phil2 := Φ x1 (x2 - 1 / 2 * G.dx2) x3
    let phir3 := Φ x1 x2 (x3 + 1 / 2 * G.dx3)
    let phil3 := Φ x1 x2 (x3 - 1 / 2 * G.dx3)
    let q2 := h / (r G g i * G.dx2)
    { u with
      M1 := u.M1 - h * ρ * ((phir1 - phil1) / G.dx1)
      M2 := u.M2 - q2 * (phir2 - phil2) * ρ
      M3 := u.M3 - h / G.dx3 * (phir3 - phil3) * ρ
      E := u.E - h / G.dx1 * (lsf G g i * (F1 k j i).d * (phic - phil1) + rsf G g i * (F1 k j (i+1)).d * (phir1 - phic))
        - q2 * ((F2 k j i).d * (phic - phil2) + (F2 k (j+1) i).d * (phir2 - phic))
        - h / G.dx3 * ((F3 k j i).d * (phic - phil3) + (F3 (k+1) j i).d * (phir3 - phic)) }

/-- `integrate_emf3_corner` at one corner, :2451-2497. -/
noncomputable def ccorner3 (F1 F2 : Arr (Cons1 ℝ ns)) (c : Arr ℝ) (k j i : ℤ) : ℝ :=
  let rs := ri G g i / r G g i
  let ls := ri G g i / r G g (i-1)
  let l2 := upwind (F1 k (j-1) i).d (((F2 k j (i-1)).Bz - c k (j-1) (i-1)) * ls) (((F2 k j i).Bz - c k (j-1) i) * rs)
    (1 / 2 * (((F2 k j (i-1)).Bz - c k (j-1) (i-1)) * ls + ((F2 k j i).Bz - c k (j-1) i) * rs))
  let r2 := upwind (F1 k j i).d (((F2 k j (i-1)).Bz - c k j (i-1)) * ls) (((F2 k j i).Bz - c k j i) * rs)
    (1 / 2 * (((F2 k j (i-1)).Bz - c k j (i-1)) * ls + ((F2 k j i).Bz - c k j i) * rs))
  let l1 := upwind (F2 k j (i-1)).d (-(F1 k (j-1) i).By - c k (j-1) (i-1)) (-(F1 k j i).By - c k j (i-1))
    (1 / 2 * (-(F1 k (j-1) i).By - c k (j-1) (i-1) - (F1 k j i).By - c k j (i-1)))
  let r1 := upwind (F2 k j i).d (-(F1 k (j-1) i).By - c k (j-1) i) (-(F1 k j i).By - c k j i)
    (1 / 2 * (-(F1 k (j-1) i).By - c k (j-1) i - (F1 k j i).By - c k j i))
  1 / 4 * ((F2 k j (i-1)).Bz + (F2 k j i).Bz - (F1 k (j-1) i).By - (F1 k j i).By + l1 + r1 + l2 + r2)

end Formulas

/-! ## The integrator -/

section Integrator
variable {W : Type} {ns : ℕ} (P : Phys) (G : Geo) (dt : ℝ) (M : CMethod W ns) (g : Rng) (S : St ℝ ns) (J : Work ℝ W ns)

/-- `integrate_emf3_corner`, :2438-2502. -/
noncomputable def ccornerLoop3 (F1 F2 : Arr (Cons1 ℝ ns)) (e old : Arr ℝ) : Arr ℝ :=
  loop3 (g.ks-(g.ng-1)) (g.ke+(g.ng-1)) (g.js-(g.ng-1)) (g.je+(g.ng-1)+1) (g.is-(g.ng-1)) (g.ie+(g.ng-1)+1)
    (ccorner3 G g F1 F2 e) old

/-- Step 4a: `emf3`, :373. -/
noncomputable def cEmf3 : Arr ℝ := ccornerLoop3 G g (xFlux1 M.toMethod g S J) (xFlux2 M.toMethod g S J) (xEcc3 M.toMethod g S J) J.emf3

/-- Step 4b: `B1_x1Face`, :379-403. -/
noncomputable def cB1F : Arr ℝ :=
  addFaces1 (g.ks-(g.ng-1)) (g.ke+(g.ng-1)) (g.js-(g.ng-1)) (g.je+(g.ng-1)) (g.is-(g.ng-1)) (g.ie+(g.ng-1))
    (cct1 G g (1 / 2 * dt) (xEmf2 M.toMethod g S J) (cEmf3 G M g S J)) (copyIn g S.B1i J.B1F)
/-- Step 4b: `B2_x2Face`, :379-407. -/
noncomputable def cB2F : Arr ℝ :=
  addFaces2 (g.ks-(g.ng-1)) (g.ke+(g.ng-1)) (g.js-(g.ng-1)) (g.je+(g.ng-1)) (g.is-(g.ng-1)) (g.ie+(g.ng-1))
    (cct2 G (1 / 2 * dt) (xEmf1 M.toMethod g S J) (cEmf3 G M g S J)) (copyIn g S.B2i J.B2F)
/-- Step 4b: `B3_x3Face`, :379-417. -/
noncomputable def cB3F : Arr ℝ :=
  addFaces3 (g.ks-(g.ng-1)) (g.ke+(g.ng-1)) (g.js-(g.ng-1)) (g.je+(g.ng-1)) (g.is-(g.ng-1)) (g.ie+(g.ng-1))
    (cct3 G g (1 / 2 * dt) (xEmf1 M.toMethod g S J) (xEmf2 M.toMethod g S J)) (copyIn g S.B3i J.B3F)

/-- Steps 4c-6d: `Uhalf`, :419-804. -/
noncomputable def cUhalf : Arr (Cons ℝ ns) :=
  let F1 := xFlux1 M.toMethod g S J
  let F2 := xFlux2 M.toMethod g S J
  let F3 := xFlux3 M.toMethod g S J
  let h := 1 / 2 * dt
  let U := copyIn g S.U J.Uhalf
  let U := halfLoop g (cavgB G g (cB1F G dt M g S J) (cB2F G dt M g S J) (cB3F G dt M g S J)) U
  let U := halfLoop g (fun k j i => cupd1 G g h (F1 k j (i+1)) (F1 k j i) i) U
  let U := halfLoop g (fun k j i => cupd2 G g h (F2 k (j+1) i) (F2 k j i) i) U
  let U := halfLoop g (fun k j i => cupd3 G h (F3 (k+1) j i) (F3 k j i)) U
  let U := halfLoop g (fun k j i => grav P G g h (S.U k j i).d F1 F2 F3 k j i) U
  halfLoop g (fun k j i => geom P G g h (S.U k j i) i) U

/-- Step 7 for one interface, :813-848. -/
noncomputable def cLR1 (k j i : ℤ) : W × W :=
  let Uh := cUhalf P G dt M g S J
  let Bxc := loop1 (g.is-(g.ng-1)) (g.ie+(g.ng-1)) (fun i => (Uh k j i).B1c) J.Bxc
  let W1d := loop1 (g.is-(g.ng-1)) (g.ie+(g.ng-1)) (fun i => M.c2p1 (load1 (Uh k j i)) (Bxc i)) J.W1d
  M.lr1 i (fun m => W1d (i + m)) (fun m => Bxc (i + m))
/-- Step 8, :857-896. -/
noncomputable def cLR2 (k j i : ℤ) : W × W :=
  let Uh := cUhalf P G dt M g S J
  let Bxc := loop1 (g.js-(g.ng-1)) (g.je+(g.ng-1)) (fun j => (Uh k j i).B2c) J.Bxc
  let W1d := loop1 (g.js-(g.ng-1)) (g.je+(g.ng-1)) (fun j => M.c2p1 (load2 (Uh k j i)) (Bxc j)) J.W1d
  M.lr 1 (fun m => W1d (j + m)) (fun m => Bxc (j + m))
/-- Step 9, :904-940. -/
noncomputable def cLR3 (k j i : ℤ) : W × W :=
  let Uh := cUhalf P G dt M g S J
  let Bxc := loop1 (g.ks-(g.ng-1)) (g.ke+(g.ng-1)) (fun k => (Uh k j i).B3c) J.Bxc
  let W1d := loop1 (g.ks-(g.ng-1)) (g.ke+(g.ng-1)) (fun k => M.c2p1 (load3 (Uh k j i)) (Bxc k)) J.W1d
  M.lr 2 (fun m => W1d (k + m)) (fun m => Bxc (k + m))

/-- Steps 7, 10b: `x1Flux`, :811-849, :1000-1044. -/
noncomputable def cFlux1 : Arr (Cons1 ℝ ns) :=
  loop3 (g.ks-1) (g.ke+1) (g.js-1) (g.je+1) g.is (g.ie+1)
    (fun k j i => flux2nd M.toMethod (cLR1 P G dt M g S J k j i).1 (cLR1 P G dt M g S J k j i).2 (cB1F G dt M g S J k j i))
    (xFlux1 M.toMethod g S J)
/-- Steps 8, 10c: `x2Flux`, :855-896, :1050-1094. -/
noncomputable def cFlux2 : Arr (Cons1 ℝ ns) :=
  loop3 (g.ks-1) (g.ke+1) g.js (g.je+1) (g.is-1) (g.ie+1)
    (fun k j i => flux2nd M.toMethod (cLR2 P G dt M g S J k j i).1 (cLR2 P G dt M g S J k j i).2 (cB2F G dt M g S J k j i))
    (xFlux2 M.toMethod g S J)
/-- Steps 9, 10d: `x3Flux`, :902-940, :1100-1144. -/
noncomputable def cFlux3 : Arr (Cons1 ℝ ns) :=
  loop3 g.ks (g.ke+1) (g.js-1) (g.je+1) (g.is-1) (g.ie+1)
    (fun k j i => flux2nd M.toMethod (cLR3 P G dt M g S J k j i).1 (cLR3 P G dt M g S J k j i).2 (cB3F G dt M g S J k j i))
    (xFlux3 M.toMethod g S J)

/-- Step 11a: `emf1_cc`, :1160-1169. -/
noncomputable def dEcc1 : Arr ℝ := loop3 (g.ks-1) (g.ke+1) (g.js-1) (g.je+1) (g.is-1) (g.ie+1)
  (fun k j i => ecc1 (M.c2p (cUhalf P G dt M g S J k j i))) (xEcc1 M.toMethod g S J)
/-- Step 11a: `emf2_cc`. -/
noncomputable def dEcc2 : Arr ℝ := loop3 (g.ks-1) (g.ke+1) (g.js-1) (g.je+1) (g.is-1) (g.ie+1)
  (fun k j i => ecc2 (M.c2p (cUhalf P G dt M g S J k j i))) (xEcc2 M.toMethod g S J)
/-- Step 11a: `emf3_cc`. -/
noncomputable def dEcc3 : Arr ℝ := loop3 (g.ks-1) (g.ke+1) (g.js-1) (g.je+1) (g.is-1) (g.ie+1)
  (fun k j i => ecc3 (M.c2p (cUhalf P G dt M g S J k j i))) (xEcc3 M.toMethod g S J)

/-- Step 11b: `emf1`, :1176-1180. -/
noncomputable def dEmf1 : Arr ℝ :=
  cornerLoop1 g (cFlux2 P G dt M g S J) (cFlux3 P G dt M g S J) (dEcc1 P G dt M g S J) (xEmf1 M.toMethod g S J)
/-- Step 11b: `emf2`. -/
noncomputable def dEmf2 : Arr ℝ :=
  cornerLoop2 g (cFlux1 P G dt M g S J) (cFlux3 P G dt M g S J) (dEcc2 P G dt M g S J) (xEmf2 M.toMethod g S J)
/-- Step 11b: `emf3`. -/
noncomputable def dEmf3 : Arr ℝ :=
  ccornerLoop3 G g (cFlux1 P G dt M g S J) (cFlux2 P G dt M g S J) (dEcc3 P G dt M g S J) (cEmf3 G M g S J)

/-- Step 11c: `B1i`, :1268-1293. -/
noncomputable def finB1 (e2 e3 : Arr ℝ) : Arr ℝ := addFaces1 g.ks g.ke g.js g.je g.is g.ie (cct1 G g dt e2 e3) S.B1i
/-- Step 11c: `B2i`, :1268-1298. -/
noncomputable def finB2 (e1 e3 : Arr ℝ) : Arr ℝ := addFaces2 g.ks g.ke g.js g.je g.is g.ie (cct2 G dt e1 e3) S.B2i
/-- Step 11c: `B3i`, :1268-1310. -/
noncomputable def finB3 (e1 e2 : Arr ℝ) : Arr ℝ := addFaces3 g.ks g.ke g.js g.je g.is g.ie (cct3 G g dt e1 e2) S.B3i

/-- Steps 11c-13: the new contents of the Grid from the fluxes, edge electric fields and `Uhalf`, :1264-1735. -/
noncomputable def cfinish (Uh : Arr (Cons ℝ ns)) (F1 F2 F3 : Arr (Cons1 ℝ ns)) (e1 e2 e3 : Arr ℝ) : St ℝ ns :=
  let B1 := finB1 G dt g S e2 e3
  let B2 := finB2 G dt g S e1 e3
  let B3 := finB3 G dt g S e1 e2
  let U := actLoop g (cavgB G g B1 B2 B3) S.U
  let U := actLoop g (fun k j i => grav P G g dt (Uh k j i).d F1 F2 F3 k j i) U
  let U := actLoop g (fun k j i => geom P G g dt (Uh k j i) i) U
  let U := actLoop g (fun k j i => cupd1 G g dt (F1 k j (i+1)) (F1 k j i) i) U
  let U := actLoop g (fun k j i => cupd2 G g dt (F2 k (j+1) i) (F2 k j i) i) U
  let U := actLoop g (fun k j i => cupd3 G dt (F3 (k+1) j i) (F3 k j i)) U
  ⟨U, B1, B2, B3⟩

/-- `integrate_3d_vl` in cylindrical coordinates, :108-2108. -/
noncomputable def integrateCyl : St ℝ ns :=
  cfinish P G dt g S (cUhalf P G dt M g S J) (cFlux1 P G dt M g S J) (cFlux2 P G dt M g S J) (cFlux3 P G dt M g S J)
    (dEmf1 P G dt M g S J) (dEmf2 P G dt M g S J) (dEmf3 P G dt M g S J)

end Integrator
end Athena.Cyl
