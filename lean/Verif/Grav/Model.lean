import Verif.Grav.Dft
import Verif.Integr.All

/-!
# Self-gravity: src/gravity/selfg_fft.c, selfg.c, bvals_grav.c, and the source terms of the integrators

Cartesian, adiabatic (with a barotropic equation of state the energy is absent and the rest is the same), without particles and shearing
box, all boundaries periodic, one Grid.  `float` casts of zone counts in `selfg_fft_1d` are exact for fewer than 2^24 zones and are left
out.  The real and imaginary parts of the array `work` are one complex number, and its flattened index `F3DI` is the triple it encodes.
-/

namespace Athena.Grav
open Finset Athena.Vl3 Athena.Gen

/-- `pG->dt`, `dx1`, `dx2`, `dx3`, and the global variables `four_pi_G`, `grav_mean_rho`. -/
structure Par where
  dt : ℝ
  dx1 : ℝ
  dx2 : ℝ
  dx3 : ℝ
  G4 : ℝ
  rho0 : ℝ

/-- A Grid with self-gravity: the gas, `Phi`, `Phi_old`, `x1MassFlux`, `x2MassFlux`, `x3MassFlux` (src/athena.h:304-307). -/
structure GSt (ns : ℕ) where
  U : Arr (Cons ℝ ns)
  Phi : Arr ℝ
  old : Arr ℝ
  m1 : Arr ℝ
  m2 : Arr ℝ
  m3 : Arr ℝ

/-- `x1Flux`, `x2Flux`, `x3Flux` of the integrator, from whatever states it computed them. -/
structure Flx (ns : ℕ) where
  F1 : Arr (Cons1 ℝ ns)
  F2 : Arr (Cons1 ℝ ns)
  F3 : Arr (Cons1 ℝ ns)

/-! ### Poisson's equation -/

section Solve
variable (q : Par)

/-- Number of zones of a Grid. -/
def n1 (g : Rng) : ℕ := (g.ie - g.is + 1).toNat
def n2 (g : Rng) : ℕ := (g.je - g.js + 1).toNat
def n3 (g : Rng) : ℕ := (g.ke - g.ks + 1).toNat

/-- `pcoeff` for the wave number `(a, b, c)` relative to the whole Domain, selfg_fft.c:465-467, 475-477, 491-493, 511-513. -/
noncomputable def pcoeff3 (N1 N2 N3 a b c : ℕ) : ℝ :=
  1 / ((2 * Real.cos (a * (2 * Real.pi / N1)) - 2) / (q.dx1 * q.dx1) + (2 * Real.cos (b * (2 * Real.pi / N2)) - 2) / (q.dx2 * q.dx2)
    + (2 * Real.cos (c * (2 * Real.pi / N3)) - 2) / (q.dx3 * q.dx3))

/-- Two dimensions, selfg_fft.c:313-314, 320-321, 332-333. -/
noncomputable def pcoeff2 (N1 N2 a b : ℕ) : ℝ :=
  1 / ((2 * Real.cos (a * (2 * Real.pi / N1)) - 2) / (q.dx1 * q.dx1) + (2 * Real.cos (b * (2 * Real.pi / N2)) - 2) / (q.dx2 * q.dx2))

/-- Where a Grid lies in its Domain (`Disp`) and how many zones it has. -/
structure Tile where
  D1 : ℕ
  D2 : ℕ
  D3 : ℕ

/-- The multiplications of `work` of one Grid by `pcoeff`, selfg_fft.c:453-517: one zone, then the line, the plane and the rest. -/
noncomputable def gridCoef3 (N1 N2 N3 : ℕ) (T : Tile) (W : ℕ → ℕ → ℕ → ℂ) : ℕ → ℕ → ℕ → ℂ :=
  let p := pcoeff3 q N1 N2 N3
  let W := fun i j k => if i = 0 ∧ j = 0 ∧ k = 0 then
    (if T.D3 = 0 ∧ T.D2 = 0 ∧ T.D1 = 0 then 0 else (p T.D1 T.D2 T.D3 : ℂ) * W 0 0 0) else W i j k
  let W := fun i j k => if i = 0 ∧ j = 0 ∧ 1 ≤ k then (p T.D1 T.D2 (k + T.D3) : ℂ) * W 0 0 k else W i j k
  let W := fun i j k => if i = 0 ∧ 1 ≤ j then (p T.D1 (j + T.D2) (k + T.D3) : ℂ) * W 0 j k else W i j k
  fun i j k => if 1 ≤ i then (p (i + T.D1) (j + T.D2) (k + T.D3) : ℂ) * W i j k else W i j k

/-- Two dimensions, selfg_fft.c:309-337. -/
noncomputable def gridCoef2 (N1 N2 : ℕ) (T : Tile) (W : ℕ → ℕ → ℂ) : ℕ → ℕ → ℂ :=
  let p := pcoeff2 q N1 N2
  let W := fun i j => if i = 0 ∧ j = 0 then (if T.D2 = 0 ∧ T.D1 = 0 then 0 else (p T.D1 T.D2 : ℂ) * W 0 0) else W i j
  let W := fun i j => if i = 0 ∧ 1 ≤ j then (p T.D1 (j + T.D2) : ℂ) * W 0 j else W i j
  fun i j => if 1 ≤ i then (p (i + T.D1) (j + T.D2) : ℂ) * W i j else W i j

/-- The array of the whole Domain after every Grid has done its part; `tile a b c` is the Grid that holds the zone. -/
noncomputable def domCoef3 (N1 N2 N3 : ℕ) (tile : ℕ → ℕ → ℕ → Tile) (W : ℕ → ℕ → ℕ → ℂ) (a b c : ℕ) : ℂ :=
  let T := tile a b c
  gridCoef3 q N1 N2 N3 T (fun i j k => W (i + T.D1) (j + T.D2) (k + T.D3)) (a - T.D1) (b - T.D2) (c - T.D3)

noncomputable def domCoef2 (N1 N2 : ℕ) (tile : ℕ → ℕ → Tile) (W : ℕ → ℕ → ℂ) (a b : ℕ) : ℂ :=
  let T := tile a b
  gridCoef2 q N1 N2 T (fun i j => W (i + T.D1) (j + T.D2)) (a - T.D1) (b - T.D2)

/-- `selfg_fft_3d` on a Domain of `N1 * N2 * N3` zones with density `d`, selfg_fft.c:414-432, 449, 451-517, 522-537; `gcnt` is the number
of zones of the Domain (ath_fft.c:116). -/
noncomputable def potential3 (N1 N2 N3 : ℕ) (tile : ℕ → ℕ → ℕ → Tile) (d : ℕ → ℕ → ℕ → ℝ) (i j k : ℕ) : ℝ :=
  q.G4 * (dft3 1 N1 N2 N3 (domCoef3 q N1 N2 N3 tile (dft3 (-1) N1 N2 N3 (fun i j k => ((d i j k - q.rho0 : ℝ) : ℂ)))) i j k).re
    / ((N3 * N2 * N1 : ℕ) : ℝ)

/-- `selfg_fft_2d`, selfg_fft.c:287-348. -/
noncomputable def potential2 (N1 N2 : ℕ) (tile : ℕ → ℕ → Tile) (d : ℕ → ℕ → ℝ) (i j : ℕ) : ℝ :=
  (dft2 1 N1 N2 (domCoef2 q N1 N2 tile (dft2 (-1) N1 N2 (fun i j => ((q.G4 * (d i j - q.rho0) : ℝ) : ℂ)))) i j).re / ((N2 * N1 : ℕ) : ℝ)

/-- The loop of `selfg_fft_1d` over `i = is+2 ... `, of which `n` turns have been made: selfg_fft.c:84-88. -/
noncomputable def febsLoop (is : ℤ) (S : ℤ → ℝ) (P : ℤ → ℝ) : ℕ → ℤ → ℝ
  | 0 => P
  | n + 1 => let P' := febsLoop is S P n
    Function.update P' (is + 2 + n) (S (is + 2 + n - 1) + 2 * P' (is + 2 + n - 1) - P' (is + 2 + n - 2))

/-- `selfg_fft_1d`, selfg_fft.c:74-100, with `S` the source `four_pi_G*dx_sq*drho`. -/
noncomputable def febs (is : ℤ) (N : ℕ) (S : ℤ → ℝ) (P : ℤ → ℝ) : ℤ → ℝ :=
  let A := (∑ m ∈ range N, ((m : ℝ) + 1) * S (is + m)) / N
  let P := Function.update P is A
  let P := Function.update P (is + 1) (2 * P is + S is)
  let P := febsLoop is S P (N - 2)
  let t := (∑ m ∈ range N, P (is + m)) / N
  fun i => if is ≤ i ∧ i ≤ is + N - 1 then P i - t else P i

variable {ns : ℕ}

/-- `(*SelfGrav)(pD)` without the copy into `Phi_old`: which solver is chosen in selfg.c:560-572. -/
noncomputable def solve (w : Which) (g : Rng) (U : Arr (Cons ℝ ns)) (P : Arr ℝ) : Arr ℝ :=
  match w with
  | .d1 => fun k j i => if k = g.ks ∧ j = g.js then
      febs g.is (n1 g) (fun i => q.G4 * (q.dx1 * q.dx1) * ((U g.ks g.js i).d - q.rho0)) (P g.ks g.js) i else P k j i
  | .d2 => loop3 g.ks g.ks g.js g.je g.is g.ie (fun _ j i => potential2 q (n1 g) (n2 g) (fun _ _ => ⟨0, 0, 0⟩)
      (fun a b => (U g.ks (g.js + b) (g.is + a)).d) (i - g.is).toNat (j - g.js).toNat) P
  | .d3 => loop3 g.ks g.ke g.js g.je g.is g.ie (fun k j i => potential3 q (n1 g) (n2 g) (n3 g) (fun _ _ _ => ⟨0, 0, 0⟩)
      (fun a b c => (U (g.ks + c) (g.js + b) (g.is + a)).d) (i - g.is).toNat (j - g.js).toNat (k - g.ks).toNat) P

end Solve

/-- `periodic_Phi_ix1`, `_ox1`, bvals_grav.c:978-1019 (zone `is-n` is set from `ie-(n-1)`). -/
def per1 (g : Rng) (P : Arr ℝ) : Arr ℝ :=
  let N := g.ie - g.is + 1
  let P := loop3 g.ks g.ke g.js g.je (g.is - g.ng) (g.is - 1) (fun k j i => P k j (i + N)) P
  loop3 g.ks g.ke g.js g.je (g.ie + 1) (g.ie + g.ng) (fun k j i => P k j (i - N)) P

/-- `periodic_Phi_ix2`, `_ox2`, bvals_grav.c:1024-1063. -/
def per2 (g : Rng) (P : Arr ℝ) : Arr ℝ :=
  let N := g.je - g.js + 1
  let P := loop3 g.ks g.ke (g.js - g.ng) (g.js - 1) (g.is - g.ng) (g.ie + g.ng) (fun k j i => P k (j + N) i) P
  loop3 g.ks g.ke (g.je + 1) (g.je + g.ng) (g.is - g.ng) (g.ie + g.ng) (fun k j i => P k (j - N) i) P

/-- `periodic_Phi_ix3`, `_ox3`, bvals_grav.c:1069-1110. -/
def per3 (g : Rng) (P : Arr ℝ) : Arr ℝ :=
  let N := g.ke - g.ks + 1
  let P := loop3 (g.ks - g.ng) (g.ks - 1) (g.js - g.ng) (g.je + g.ng) (g.is - g.ng) (g.ie + g.ng) (fun k j i => P (k + N) j i) P
  loop3 (g.ke + 1) (g.ke + g.ng) (g.js - g.ng) (g.je + g.ng) (g.is - g.ng) (g.ie + g.ng) (fun k j i => P (k - N) j i) P

/-- `bvals_grav` on the only Grid of a periodic Domain, bvals_grav.c:98-409.  (With at least `nghost` zones in every direction the zones
read are not among those written by the same loop.) -/
def bvalsG (w : Which) (g : Rng) (P : Arr ℝ) : Arr ℝ :=
  let P := per1 g P
  let P := if dims w 1 then per2 g P else P
  if dims w 2 then per3 g P else P

/-! ### Momentum and energy -/

section Flux
variable (q : Par) (w : Which) (P : Arr ℝ)

/-- Gravity at the x1-faces: `gxl`; `gxr` is the same at the next face.  integrate_3d_vl.c:1482-1483, selfg.c:258-259. -/
noncomputable def g11 : Arr ℝ := fun k j i => (P k j (i-1) - P k j i) / q.dx1
/-- `gyl` at the x1-faces, integrate_3d_vl.c:1485-1488, selfg.c:261-263. -/
noncomputable def g21 : Arr ℝ := fun k j i => 0.25 * ((P k (j-1) (i-1) - P k (j+1) (i-1)) + (P k (j-1) i - P k (j+1) i)) / q.dx2
/-- `gzl` at the x1-faces, integrate_3d_vl.c:1490-1493, selfg.c:269-271. -/
noncomputable def g31 : Arr ℝ := fun k j i => 0.25 * ((P (k-1) j (i-1) - P (k+1) j (i-1)) + (P (k-1) j i - P (k+1) j i)) / q.dx3
/-- `gxl` at the x2-faces, integrate_3d_vl.c:1527-1530, selfg.c:350-352. -/
noncomputable def g12 : Arr ℝ := fun k j i => 0.25 * ((P k (j-1) (i-1) - P k (j-1) (i+1)) + (P k j (i-1) - P k j (i+1))) / q.dx1
/-- `gyl` at the x2-faces, integrate_3d_vl.c:1532-1533, selfg.c:358-359. -/
noncomputable def g22 : Arr ℝ := fun k j i => (P k (j-1) i - P k j i) / q.dx2
/-- `gzl` at the x2-faces, integrate_3d_vl.c:1535-1538, selfg.c:361-363. -/
noncomputable def g32 : Arr ℝ := fun k j i => 0.25 * ((P (k-1) (j-1) i - P (k+1) (j-1) i) + (P (k-1) j i - P (k+1) j i)) / q.dx3
/-- `gxl` at the x3-faces, integrate_3d_vl.c:1572-1575, selfg.c:444-446. -/
noncomputable def g13 : Arr ℝ := fun k j i => 0.25 * ((P (k-1) j (i-1) - P (k-1) j (i+1)) + (P k j (i-1) - P k j (i+1))) / q.dx1
/-- `gyl` at the x3-faces, integrate_3d_vl.c:1577-1580, selfg.c:452-454. -/
noncomputable def g23 : Arr ℝ := fun k j i => 0.25 * ((P (k-1) (j-1) i - P (k-1) (j+1) i) + (P k (j-1) i - P k (j+1) i)) / q.dx2
/-- `gzl` at the x3-faces, integrate_3d_vl.c:1582-1583, selfg.c:460-461. -/
noncomputable def g33 : Arr ℝ := fun k j i => (P (k-1) j i - P k j i) / q.dx3

/-- Momentum fluxes `flx_m1l`, `flx_m2l`, `flx_m3l` through the x1-faces (`flx_m1r`, ... are those of the next face):
integrate_1d_vl.c:347-348, integrate_1d_ctu.c:503-504; integrate_2d_vl.c:1013-1017, integrate_2d_ctu.c:1803-1807;
integrate_3d_vl.c:1496-1503, integrate_3d_ctu.c:3040-3047; selfg.c:81-82, 132-136, 277-284. -/
noncomputable def T1 : Arr (ℝ × ℝ × ℝ) := fun k j i =>
  let phil := 0.5 * (P k j (i-1) + P k j i)
  match w with
  | .d1 => (0.5 * (g11 q P k j i * g11 q P k j i) / q.G4 + q.rho0 * phil, 0, 0)
  | .d2 => (0.5 * (g11 q P k j i * g11 q P k j i - g21 q P k j i * g21 q P k j i) / q.G4 + q.rho0 * phil,
      g11 q P k j i * g21 q P k j i / q.G4, 0)
  | .d3 => (0.5 * (g11 q P k j i * g11 q P k j i - g21 q P k j i * g21 q P k j i - g31 q P k j i * g31 q P k j i) / q.G4 + q.rho0 * phil,
      g11 q P k j i * g21 q P k j i / q.G4, g11 q P k j i * g31 q P k j i / q.G4)

/-- Momentum fluxes through the x2-faces: integrate_2d_vl.c:1047-1051, integrate_2d_ctu.c:1838-1842; integrate_3d_vl.c:1541-1548,
integrate_3d_ctu.c:3085-3092; selfg.c:193-197, 369-376. -/
noncomputable def T2 : Arr (ℝ × ℝ × ℝ) := fun k j i =>
  let phil := 0.5 * (P k (j-1) i + P k j i)
  if dims w 2 then
    (g22 q P k j i * g12 q P k j i / q.G4,
      0.5 * (g22 q P k j i * g22 q P k j i - g12 q P k j i * g12 q P k j i - g32 q P k j i * g32 q P k j i) / q.G4 + q.rho0 * phil,
      g22 q P k j i * g32 q P k j i / q.G4)
  else (g22 q P k j i * g12 q P k j i / q.G4,
      0.5 * (g22 q P k j i * g22 q P k j i - g12 q P k j i * g12 q P k j i) / q.G4 + q.rho0 * phil, 0)

/-- Momentum fluxes through the x3-faces: integrate_3d_vl.c:1586-1593, integrate_3d_ctu.c:3130-3137; selfg.c:463-470. -/
noncomputable def T3 : Arr (ℝ × ℝ × ℝ) := fun k j i =>
  let phil := 0.5 * (P (k-1) j i + P k j i)
  (g33 q P k j i * g13 q P k j i / q.G4, g33 q P k j i * g23 q P k j i / q.G4,
    0.5 * (g33 q P k j i * g33 q P k j i - g13 q P k j i * g13 q P k j i - g23 q P k j i * g23 q P k j i) / q.G4 + q.rho0 * phil)

end Flux

variable {ns : ℕ}

/-- `M1 -= c*(r.1 - l.1)` etc. and `E -= e`. -/
noncomputable def addG (c : ℝ) (r l : ℝ × ℝ × ℝ) (e : ℝ) (u : Cons ℝ ns) : Cons ℝ ns :=
  { u with
    M1 := u.M1 - c * (r.1 - l.1)
    M2 := u.M2 - c * (r.2.1 - l.2.1)
    M3 := u.M3 - c * (r.2.2 - l.2.2)
    E := u.E - e }

/-- The work of gravity in one direction: `c*(ml*(phic - phil) + mr*(phir - phic))`. -/
noncomputable def gwork (c ml mr phil phic phir : ℝ) : ℝ := c * (ml * (phic - phil) + mr * (phir - phic))

/-- Source terms of self-gravity in the integrators: integrate_1d_vl.c:334-359, integrate_1d_ctu.c:493-511; integrate_2d_vl.c:994-1060,
integrate_2d_ctu.c:1785-1851; integrate_3d_vl.c:1471-1605, integrate_3d_ctu.c:3015-3149. -/
noncomputable def source (w : Which) (q : Par) (g : Rng) (F : Flx ns) (P : Arr ℝ) (U : Arr (Cons ℝ ns)) : Arr (Cons ℝ ns) :=
  let U := mod3 g.ks g.ke g.js g.je g.is g.ie (fun k j i => addG (q.dt / q.dx1) (T1 q w P k j (i+1)) (T1 q w P k j i)
    (gwork (q.dt / q.dx1) (F.F1 k j i).d (F.F1 k j (i+1)).d (0.5 * (P k j (i-1) + P k j i)) (P k j i) (0.5 * (P k j i + P k j (i+1))))) U
  let U := if dims w 1 then mod3 g.ks g.ke g.js g.je g.is g.ie (fun k j i => addG (q.dt / q.dx2) (T2 q w P k (j+1) i) (T2 q w P k j i)
    (gwork (q.dt / q.dx2) (F.F2 k j i).d (F.F2 k (j+1) i).d (0.5 * (P k (j-1) i + P k j i)) (P k j i) (0.5 * (P k j i + P k (j+1) i)))) U
    else U
  if dims w 2 then mod3 g.ks g.ke g.js g.je g.is g.ie (fun k j i => addG (q.dt / q.dx3) (T3 q P (k+1) j i) (T3 q P k j i)
    (gwork (q.dt / q.dx3) (F.F3 k j i).d (F.F3 (k+1) j i).d (0.5 * (P (k-1) j i + P k j i)) (P k j i) (0.5 * (P k j i + P (k+1) j i)))) U
    else U

/-- The update of the gas with the fluxes, for example integrate_3d_vl.c:1655-1717 (`Cons1DS` in the rotated order of the sweep). -/
noncomputable def fluxes (w : Which) (q : Par) (g : Rng) (F : Flx ns) (U : Arr (Cons ℝ ns)) : Arr (Cons ℝ ns) :=
  let U := mod3 g.ks g.ke g.js g.je g.is g.ie (fun k j i => upd1 (q.dt / q.dx1) (F.F1 k j (i+1)) (F.F1 k j i)) U
  let U := if dims w 1 then mod3 g.ks g.ke g.js g.je g.is g.ie (fun k j i => upd2 (q.dt / q.dx2) (F.F2 k (j+1) i) (F.F2 k j i)) U else U
  if dims w 2 then mod3 g.ks g.ke g.js g.je g.is g.ie (fun k j i => upd3 (q.dt / q.dx3) (F.F3 (k+1) j i) (F.F3 k j i)) U else U

/-- One Grid through an integrator with the fluxes `F`: source terms, saved mass fluxes (integrate_3d_vl.c:1609-1617), update. -/
noncomputable def advanceG (w : Which) (q : Par) (g : Rng) (F : Flx ns) (S : GSt ns) : GSt ns :=
  let hj := g.je + wid (dims w 1) 1
  let hk := g.ke + wid (dims w 2) 1
  { S with
    U := fluxes w q g F (source w q g F S.Phi S.U)
    m1 := loop3 g.ks hk g.js hj g.is (g.ie+1) (fun k j i => (F.F1 k j i).d) S.m1
    m2 := if dims w 1 then loop3 g.ks hk g.js hj g.is (g.ie+1) (fun k j i => (F.F2 k j i).d) S.m2 else S.m2
    m3 := if dims w 2 then loop3 g.ks hk g.js hj g.is (g.ie+1) (fun k j i => (F.F3 k j i).d) S.m3 else S.m3 }

/-- `(*SelfGrav)(pD); bvals_grav(pD)`: main.c:446-447, 579-580; the copy into `Phi_old` is at selfg_fft.c:67-69, 279-283, 403-412. -/
noncomputable def solveG (w : Which) (q : Par) (g : Rng) (S : GSt ns) : GSt ns :=
  { S with
    old := loop3 (g.ks - wid (dims w 2) g.ng) (g.ke + wid (dims w 2) g.ng) (g.js - wid (dims w 1) g.ng) (g.je + wid (dims w 1) g.ng)
      (g.is - g.ng) (g.ie + g.ng) S.Phi S.old
    Phi := bvalsG w g (solve q w g S.U S.Phi) }

/-- Half the difference of the sources of the new and the old potential in one direction, selfg.c:86-99 (and repeatedly below).  `dphic` is
passed, as it is not everywhere what its name says. -/
noncomputable def addC (c : ℝ) (rn ln ro lo : ℝ × ℝ × ℝ) (ml mr dphil dphic dphir : ℝ) (u : Cons ℝ ns) : Cons ℝ ns :=
  addG (0.5 * c) (rn.1 - ro.1, rn.2.1 - ro.2.1, rn.2.2 - ro.2.2) (ln.1 - lo.1, ln.2.1 - lo.2.1, ln.2.2 - lo.2.2)
    (gwork (0.5 * c) ml mr dphil dphic dphir) u

/-- `selfg_fc`, selfg.c:36-521.  In two dimensions the x2-terms subtract `Phi`, not `Phi_old`, from `phic` (selfg.c:174), so that
`dphic` is zero there. -/
noncomputable def correct (w : Which) (q : Par) (g : Rng) (S : GSt ns) : GSt ns :=
  let P := S.Phi
  let O := S.old
  let U := mod3 g.ks g.ke g.js g.je g.is g.ie (fun k j i => addC (q.dt / q.dx1)
    (T1 q w P k j (i+1)) (T1 q w P k j i) (T1 q w O k j (i+1)) (T1 q w O k j i) (S.m1 k j i) (S.m1 k j (i+1))
    (0.5 * (P k j (i-1) + P k j i) - 0.5 * (O k j (i-1) + O k j i)) (P k j i - O k j i)
    (0.5 * (P k j i + P k j (i+1)) - 0.5 * (O k j i + O k j (i+1)))) S.U
  let U := if dims w 1 then mod3 g.ks g.ke g.js g.je g.is g.ie (fun k j i => addC (q.dt / q.dx2)
    (T2 q w P k (j+1) i) (T2 q w P k j i) (T2 q w O k (j+1) i) (T2 q w O k j i) (S.m2 k j i) (S.m2 k (j+1) i)
    (0.5 * (P k (j-1) i + P k j i) - 0.5 * (O k (j-1) i + O k j i)) (P k j i - (if dims w 2 then O k j i else P k j i))
    (0.5 * (P k j i + P k (j+1) i) - 0.5 * (O k j i + O k (j+1) i))) U else U
  let U := if dims w 2 then mod3 g.ks g.ke g.js g.je g.is g.ie (fun k j i => addC (q.dt / q.dx3)
    (T3 q P (k+1) j i) (T3 q P k j i) (T3 q O (k+1) j i) (T3 q O k j i) (S.m3 k j i) (S.m3 (k+1) j i)
    (0.5 * (P (k-1) j i + P k j i) - 0.5 * (O (k-1) j i + O k j i)) (P k j i - O k j i)
    (0.5 * (P k j i + P (k+1) j i) - 0.5 * (O k j i + O (k+1) j i))) U else U
  { S with U := U }

/-- One turn of the main loop: the integrator, then main.c:575-585. -/
noncomputable def cycleG (w : Which) (q : Par) (g : Rng) (F : Flx ns) (S : GSt ns) : GSt ns :=
  correct w q g (solveG w q g (advanceG w q g F S))

/-- A run: the potential of the initial state (main.c:441-452), then `n` turns of the main loop, each with its own time step and fluxes. -/
noncomputable def runG (w : Which) (q : ℕ → Par) (g : Rng) (F : ℕ → Flx ns) (S : GSt ns) : ℕ → GSt ns
  | 0 => solveG w (q 0) g S
  | n + 1 => cycleG w (q n) g (F n) (runG w q g F S n)

end Athena.Grav
