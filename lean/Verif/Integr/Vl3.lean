import Mathlib.Tactic.Linarith

/-!
# src/integrators/integrate_3d_vl.c: the 3D van Leer integrator

Newtonian, Cartesian, without source terms, `H_CORRECTION`, first-order flux correction and mesh
refinement; MHD and adiabatic with any number of scalars (without MHD or energy the corresponding members
are simply never used).

The arithmetic is that of an arbitrary type `R` with the operations the code uses, about which nothing is
assumed: it may be the machine's doubles.  The conversions of variables, the reconstruction and the Riemann
solver are parameters.  Arrays are functions of the indices `k`, `j`, `i`; a triple loop is `loop3`, which
leaves the old contents of the array outside its range.  The factors `rsf`, `lsf` are 1.0 in Cartesian
coordinates and are left out.  The work arrays are static, so they start with
whatever an earlier call left in them (`Work`).
-/

namespace Athena.Vl3

/-- The operations on `Real` that the integrator performs itself. -/
class Num (R : Type) extends Add R, Sub R, Mul R, Neg R where
  /-- `0.5` -/
  half : R
  /-- `0.25` -/
  quarter : R
  /-- `x > 0.0` -/
  gt0 : R → Bool
  /-- `x < 0.0` -/
  lt0 : R → Bool
open Num

/-- `ConsS`, src/athena.h:87-106. -/
@[ext] structure Cons (R : Type) (ns : ℕ) where
  d : R
  M1 : R
  M2 : R
  M3 : R
  E : R
  B1c : R
  B2c : R
  B3c : R
  s : Fin ns → R

/-- `Cons1DS`, src/athena.h:135-153. -/
@[ext] structure Cons1 (R : Type) (ns : ℕ) where
  d : R
  Mx : R
  My : R
  Mz : R
  E : R
  By : R
  Bz : R
  s : Fin ns → R

/-- The members of `PrimS` from which the cell-centred electric field is computed. -/
structure Prim (R : Type) where
  V1 : R
  V2 : R
  V3 : R
  B1c : R
  B2c : R
  B3c : R

/-- A 3D array, `a[k][j][i]`. -/
abbrev Arr (α : Type) := ℤ → ℤ → ℤ → α

/-- A triple loop `k = kl … ku`, `j = jl … ju`, `i = il … iu` that sets element `[k][j][i]` to `f k j i`. -/
def loop3 {α : Type} (kl ku jl ju il iu : ℤ) (f old : Arr α) : Arr α := fun k j i =>
  if (kl ≤ k ∧ k ≤ ku) ∧ (jl ≤ j ∧ j ≤ ju) ∧ (il ≤ i ∧ i ≤ iu) then f k j i else old k j i

/-- The functions called by the integrator.  `W` stands for `Prim1DS`.  `lr` is `lr_states` seen from one
interface: from the primitive variables and longitudinal field of the zones, relative to the
interface, to the states on its two sides. -/
structure Method (R W : Type) (ns : ℕ) where
  /-- `Cons1D_to_Prim1D` -/
  c2p1 : Cons1 R ns → R → W
  /-- `Prim1D_to_Cons1D` -/
  p2c1 : W → R → Cons1 R ns
  /-- `Cons_to_Prim` -/
  c2p : Cons R ns → Prim R
  /-- `fluxes` -/
  flux : Cons1 R ns → Cons1 R ns → W → W → R → Cons1 R ns
  /-- `lr_states` in direction 0, 1, 2 -/
  lr : Fin 3 → (ℤ → W) → (ℤ → R) → W × W

/-- `lr_states` uses the three zones on either side of the interface (donor cell: 1, piecewise linear: 2,
piecewise parabolic: 3). -/
def Method.Local {R W : Type} {ns : ℕ} (M : Method R W ns) : Prop :=
  ∀ d (w w' : ℤ → W) (b b' : ℤ → R), (∀ m, -3 ≤ m → m ≤ 2 → w m = w' m ∧ b m = b' m) →
    M.lr d w b = M.lr d w' b'

/-- `dtodx1`, `dtodx2`, `dtodx3` and `q1`, `q2`, `q3`, integrate_3d_vl.c:112-113. -/
structure Coef (R : Type) where
  dtodx1 : R
  dtodx2 : R
  dtodx3 : R

/-- Index ranges of the Grid and `nghost`. -/
structure Rng where
  is : ℤ
  ie : ℤ
  js : ℤ
  je : ℤ
  ks : ℤ
  ke : ℤ
  ng : ℤ

/-- Contents of the Grid: `U`, `B1i`, `B2i`, `B3i`. -/
structure St (R : Type) (ns : ℕ) where
  U : Arr (Cons R ns)
  B1i : Arr R
  B2i : Arr R
  B3i : Arr R

/-- The static work arrays. -/
structure Work (R W : Type) (ns : ℕ) where
  Uhalf : Arr (Cons R ns)
  B1F : Arr R
  B2F : Arr R
  B3F : Arr R
  x1Flux : Arr (Cons1 R ns)
  x2Flux : Arr (Cons1 R ns)
  x3Flux : Arr (Cons1 R ns)
  emf1cc : Arr R
  emf2cc : Arr R
  emf3cc : Arr R
  emf1 : Arr R
  emf2 : Arr R
  emf3 : Arr R
  WL : Fin 3 → Arr W
  WR : Fin 3 → Arr W
  W1d : ℤ → W
  Bxc : ℤ → R

section Formulas
variable {R W : Type} {ns : ℕ} [Num R]

/-! ## The expressions inside the loops -/

/-- Step 1a, 7a: integrate_3d_vl.c:188-207, 813-832. -/
def load1 (u : Cons R ns) : Cons1 R ns := ⟨u.d, u.M1, u.M2, u.M3, u.E, u.B2c, u.B3c, u.s⟩
/-- Step 2a, 8a: integrate_3d_vl.c:246-265, 857-876. -/
def load2 (u : Cons R ns) : Cons1 R ns := ⟨u.d, u.M2, u.M3, u.M1, u.E, u.B3c, u.B1c, u.s⟩
/-- Step 3a, 9a: integrate_3d_vl.c:304-323, 904-923. -/
def load3 (u : Cons R ns) : Cons1 R ns := ⟨u.d, u.M3, u.M1, u.M2, u.E, u.B1c, u.B2c, u.s⟩

/-- Steps 1b-1d for one interface: `l`, `r` are the zones on its sides (loaded for the direction) and `bl`, `br`
their longitudinal fields, `bi` the interface field; :208-233, :266-291, :324-349. -/
def flux1st (M : Method R W ns) (l r : Cons1 R ns) (bl br bi : R) : Cons1 R ns :=
  let wl := M.c2p1 l bl
  let wr := M.c2p1 r br
  M.flux (M.p2c1 wl bl) (M.p2c1 wr br) wl wr bi

/-- Steps 10b-10d for one interface, :1015-1022, :1065-1072, :1115-1122. -/
def flux2nd (M : Method R W ns) (wl wr : W) (bx : R) : Cons1 R ns :=
  M.flux (M.p2c1 wl bx) (M.p2c1 wr bx) wl wr bx

/-- Steps 4a, 11a: :364-368, :1163-1167. -/
def ecc1 (w : Prim R) : R := w.B2c * w.V3 - w.B3c * w.V2
/-- Steps 4a, 11a. -/
def ecc2 (w : Prim R) : R := w.B3c * w.V1 - w.B1c * w.V3
/-- Steps 4a, 11a. -/
def ecc3 (w : Prim R) : R := w.B1c * w.V2 - w.B2c * w.V1

/-- The choice by the sign of a mass flux in `integrate_emf*_corner`. -/
def upwind (m a b c : R) : R := if gt0 m then a else if lt0 m then b else c

/-- `integrate_emf1_corner` at one corner, :2308-2343. -/
def corner1 (F2 F3 : Arr (Cons1 R ns)) (c : Arr R) (k j i : ℤ) : R :=
  let l3 := upwind (F2 (k-1) j i).d ((F3 k (j-1) i).Bz - c (k-1) (j-1) i) ((F3 k j i).Bz - c (k-1) j i)
    (half * ((F3 k (j-1) i).Bz - c (k-1) (j-1) i + (F3 k j i).Bz - c (k-1) j i))
  let r3 := upwind (F2 k j i).d ((F3 k (j-1) i).Bz - c k (j-1) i) ((F3 k j i).Bz - c k j i)
    (half * ((F3 k (j-1) i).Bz - c k (j-1) i + (F3 k j i).Bz - c k j i))
  let l2 := upwind (F3 k (j-1) i).d (-(F2 (k-1) j i).By - c (k-1) (j-1) i) (-(F2 k j i).By - c k (j-1) i)
    (half * (-(F2 (k-1) j i).By - c (k-1) (j-1) i - (F2 k j i).By - c k (j-1) i))
  let r2 := upwind (F3 k j i).d (-(F2 (k-1) j i).By - c (k-1) j i) (-(F2 k j i).By - c k j i)
    (half * (-(F2 (k-1) j i).By - c (k-1) j i - (F2 k j i).By - c k j i))
  quarter * ((F3 k j i).Bz + (F3 k (j-1) i).Bz - (F2 k j i).By - (F2 (k-1) j i).By + l2 + r2 + l3 + r3)

/-- `integrate_emf2_corner` at one corner, :2380-2415. -/
def corner2 (F1 F3 : Arr (Cons1 R ns)) (c : Arr R) (k j i : ℤ) : R :=
  let l3 := upwind (F1 (k-1) j i).d (-(F3 k j (i-1)).By - c (k-1) j (i-1)) (-(F3 k j i).By - c (k-1) j i)
    (half * (-(F3 k j (i-1)).By - c (k-1) j (i-1) - (F3 k j i).By - c (k-1) j i))
  let r3 := upwind (F1 k j i).d (-(F3 k j (i-1)).By - c k j (i-1)) (-(F3 k j i).By - c k j i)
    (half * (-(F3 k j (i-1)).By - c k j (i-1) - (F3 k j i).By - c k j i))
  let l1 := upwind (F3 k j (i-1)).d ((F1 (k-1) j i).Bz - c (k-1) j (i-1)) ((F1 k j i).Bz - c k j (i-1))
    (half * ((F1 (k-1) j i).Bz - c (k-1) j (i-1) + (F1 k j i).Bz - c k j (i-1)))
  let r1 := upwind (F3 k j i).d ((F1 (k-1) j i).Bz - c (k-1) j i) ((F1 k j i).Bz - c k j i)
    (half * ((F1 (k-1) j i).Bz - c (k-1) j i + (F1 k j i).Bz - c k j i))
  quarter * ((F1 k j i).Bz + (F1 (k-1) j i).Bz - (F3 k j i).By - (F3 k j (i-1)).By + l1 + r1 + l3 + r3)

/-- `integrate_emf3_corner` at one corner (Cartesian), :2455-2497. -/
def corner3 (F1 F2 : Arr (Cons1 R ns)) (c : Arr R) (k j i : ℤ) : R :=
  let l2 := upwind (F1 k (j-1) i).d ((F2 k j (i-1)).Bz - c k (j-1) (i-1)) ((F2 k j i).Bz - c k (j-1) i)
    (half * ((F2 k j (i-1)).Bz - c k (j-1) (i-1) + ((F2 k j i).Bz - c k (j-1) i)))
  let r2 := upwind (F1 k j i).d ((F2 k j (i-1)).Bz - c k j (i-1)) ((F2 k j i).Bz - c k j i)
    (half * ((F2 k j (i-1)).Bz - c k j (i-1) + ((F2 k j i).Bz - c k j i)))
  let l1 := upwind (F2 k j (i-1)).d (-(F1 k (j-1) i).By - c k (j-1) (i-1)) (-(F1 k j i).By - c k j (i-1))
    (half * (-(F1 k (j-1) i).By - c k (j-1) (i-1) - (F1 k j i).By - c k j (i-1)))
  let r1 := upwind (F2 k j i).d (-(F1 k (j-1) i).By - c k (j-1) i) (-(F1 k j i).By - c k j i)
    (half * (-(F1 k (j-1) i).By - c k (j-1) i - (F1 k j i).By - c k j i))
  quarter * ((F2 k j (i-1)).Bz + (F2 k j i).Bz - (F1 k (j-1) i).By - (F1 k j i).By + l1 + r1 + l2 + r2)

/-- Change of `B1i` at one face in the constrained transport update with ratios `q2`, `q3`; :385-386, :1275-1276. -/
def ct1 (q2 q3 : R) (e2 e3 : Arr R) (k j i : ℤ) : R :=
  q3 * (e2 (k+1) j i - e2 k j i) - q2 * (e3 k (j+1) i - e3 k j i)
/-- Change of `B2i`; :387-388, :1277-1278. -/
def ct2 (q1 q3 : R) (e1 e3 : Arr R) (k j i : ℤ) : R :=
  q1 * (e3 k j (i+1) - e3 k j i) - q3 * (e1 (k+1) j i - e1 k j i)
/-- Change of `B3i`; :393-394, :1283-1284. -/
def ct3 (q1 q2 : R) (e1 e2 : Arr R) (k j i : ℤ) : R :=
  q2 * (e1 k (j+1) i - e1 k j i) - q1 * (e2 k j (i+1) - e2 k j i)

/-- Steps 4c, 11d: cell-centred fields from face-centred ones, :429-431, :1321-1323. -/
def avgB (B1 B2 B3 : Arr R) (k j i : ℤ) (u : Cons R ns) : Cons R ns :=
  { u with
    B1c := half * (B1 k j i + B1 k j (i+1))
    B2c := half * (B2 k j i + B2 k (j+1) i)
    B3c := half * (B3 k j i + B3 (k+1) j i) }

/-- Steps 5a, 13a: the difference of the x1-fluxes `r`, `l`; :449-460, :1655-1666. -/
def upd1 (q : R) (r l : Cons1 R ns) (u : Cons R ns) : Cons R ns :=
  { u with
    d := u.d - q * (r.d - l.d)
    M1 := u.M1 - q * (r.Mx - l.Mx)
    M2 := u.M2 - q * (r.My - l.My)
    M3 := u.M3 - q * (r.Mz - l.Mz)
    E := u.E - q * (r.E - l.E)
    s := fun n => u.s n - q * (r.s n - l.s n) }
/-- Steps 5b, 13b: the difference of the x2-fluxes; :475-486, :1682-1693. -/
def upd2 (q : R) (r l : Cons1 R ns) (u : Cons R ns) : Cons R ns :=
  { u with
    d := u.d - q * (r.d - l.d)
    M1 := u.M1 - q * (r.Mz - l.Mz)
    M2 := u.M2 - q * (r.Mx - l.Mx)
    M3 := u.M3 - q * (r.My - l.My)
    E := u.E - q * (r.E - l.E)
    s := fun n => u.s n - q * (r.s n - l.s n) }
/-- Steps 5c, 13c: the difference of the x3-fluxes; :498-509, :1706-1717. -/
def upd3 (q : R) (r l : Cons1 R ns) (u : Cons R ns) : Cons R ns :=
  { u with
    d := u.d - q * (r.d - l.d)
    M1 := u.M1 - q * (r.My - l.My)
    M2 := u.M2 - q * (r.Mz - l.Mz)
    M3 := u.M3 - q * (r.Mx - l.Mx)
    E := u.E - q * (r.E - l.E)
    s := fun n => u.s n - q * (r.s n - l.s n) }

end Formulas

/-! ## The integrator -/

section Integrator
variable {R W : Type} {ns : ℕ} [Num R] (M : Method R W ns) (c : Coef R) (g : Rng) (S : St R ns) (J : Work R W ns)

/-- Step 1: `x1Flux`, :182-235. -/
def xFlux1 : Arr (Cons1 R ns) :=
  loop3 (g.ks-g.ng) (g.ke+g.ng) (g.js-g.ng) (g.je+g.ng) (g.is-(g.ng-1)) (g.ie+g.ng) (fun k j i =>
    flux1st M (load1 (S.U k j (i-1))) (load1 (S.U k j i)) (S.U k j (i-1)).B1c (S.U k j i).B1c (S.B1i k j i)) J.x1Flux
/-- Step 2: `x2Flux`, :240-293. -/
def xFlux2 : Arr (Cons1 R ns) :=
  loop3 (g.ks-g.ng) (g.ke+g.ng) (g.js-(g.ng-1)) (g.je+g.ng) (g.is-g.ng) (g.ie+g.ng) (fun k j i =>
    flux1st M (load2 (S.U k (j-1) i)) (load2 (S.U k j i)) (S.U k (j-1) i).B2c (S.U k j i).B2c (S.B2i k j i)) J.x2Flux
/-- Step 3: `x3Flux`, :298-351. -/
def xFlux3 : Arr (Cons1 R ns) :=
  loop3 (g.ks-(g.ng-1)) (g.ke+g.ng) (g.js-g.ng) (g.je+g.ng) (g.is-g.ng) (g.ie+g.ng) (fun k j i =>
    flux1st M (load3 (S.U (k-1) j i)) (load3 (S.U k j i)) (S.U (k-1) j i).B3c (S.U k j i).B3c (S.B3i k j i)) J.x3Flux

/-- Step 4a: `emf1_cc`, :361-370. -/
def xEcc1 : Arr R := loop3 (g.ks-g.ng) (g.ke+g.ng) (g.js-g.ng) (g.je+g.ng) (g.is-g.ng) (g.ie+g.ng)
  (fun k j i => ecc1 (M.c2p (S.U k j i))) J.emf1cc
/-- Step 4a: `emf2_cc`. -/
def xEcc2 : Arr R := loop3 (g.ks-g.ng) (g.ke+g.ng) (g.js-g.ng) (g.je+g.ng) (g.is-g.ng) (g.ie+g.ng)
  (fun k j i => ecc2 (M.c2p (S.U k j i))) J.emf2cc
/-- Step 4a: `emf3_cc`. -/
def xEcc3 : Arr R := loop3 (g.ks-g.ng) (g.ke+g.ng) (g.js-g.ng) (g.je+g.ng) (g.is-g.ng) (g.ie+g.ng)
  (fun k j i => ecc3 (M.c2p (S.U k j i))) J.emf3cc

/-- `integrate_emf1_corner`, :2294-2350. -/
def cornerLoop1 (F2 F3 : Arr (Cons1 R ns)) (e old : Arr R) : Arr R :=
  loop3 (g.ks-(g.ng-1)) (g.ke+(g.ng-1)+1) (g.js-(g.ng-1)) (g.je+(g.ng-1)+1) (g.is-(g.ng-1)) (g.ie+(g.ng-1))
    (corner1 F2 F3 e) old
/-- `integrate_emf2_corner`, :2366-2422. -/
def cornerLoop2 (F1 F3 : Arr (Cons1 R ns)) (e old : Arr R) : Arr R :=
  loop3 (g.ks-(g.ng-1)) (g.ke+(g.ng-1)+1) (g.js-(g.ng-1)) (g.je+(g.ng-1)) (g.is-(g.ng-1)) (g.ie+(g.ng-1)+1)
    (corner2 F1 F3 e) old
/-- `integrate_emf3_corner`, :2438-2502. -/
def cornerLoop3 (F1 F2 : Arr (Cons1 R ns)) (e old : Arr R) : Arr R :=
  loop3 (g.ks-(g.ng-1)) (g.ke+(g.ng-1)) (g.js-(g.ng-1)) (g.je+(g.ng-1)+1) (g.is-(g.ng-1)) (g.ie+(g.ng-1)+1)
    (corner3 F1 F2 e) old

/-- Step 4a: `emf1`. -/
def xEmf1 : Arr R := cornerLoop1 g (xFlux2 M g S J) (xFlux3 M g S J) (xEcc1 M g S J) J.emf1
/-- Step 4a: `emf2`. -/
def xEmf2 : Arr R := cornerLoop2 g (xFlux1 M g S J) (xFlux3 M g S J) (xEcc2 M g S J) J.emf2
/-- Step 4a: `emf3`. -/
def xEmf3 : Arr R := cornerLoop3 g (xFlux1 M g S J) (xFlux2 M g S J) (xEcc3 M g S J) J.emf3

/-- The faces `k = kl…ku`, `j = jl…ju`, `i = il…iu` and `i = iu+1` in the update of `B1i`: the main loop and the loop
for the last face, :379-403, :1269-1294. -/
def addFaces1 (kl ku jl ju il iu : ℤ) (f : Arr R) (old : Arr R) : Arr R :=
  let B := loop3 kl ku jl ju il iu (fun k j i => old k j i + f k j i) old
  loop3 kl ku jl ju (iu+1) (iu+1) (fun k j i => B k j i + f k j i) B
/-- The update of `B2i`: main loop and face `ju+1`, :404-407, :1295-1299. -/
def addFaces2 (kl ku jl ju il iu : ℤ) (f : Arr R) (old : Arr R) : Arr R :=
  let B := loop3 kl ku jl ju il iu (fun k j i => old k j i + f k j i) old
  loop3 kl ku (ju+1) (ju+1) il iu (fun k j i => B k j i + f k j i) B
/-- The update of `B3i`: main loop and face `ku+1`, :408-416, :1300-1309. -/
def addFaces3 (kl ku jl ju il iu : ℤ) (f : Arr R) (old : Arr R) : Arr R :=
  let B := loop3 kl ku jl ju il iu (fun k j i => old k j i + f k j i) old
  loop3 (ku+1) (ku+1) jl ju il iu (fun k j i => B k j i + f k j i) B

/-- The copy of a Grid array into a work array at the start, :167-177. -/
def copyIn {α : Type} (a old : Arr α) : Arr α :=
  loop3 (g.ks-g.ng) (g.ke+g.ng) (g.js-g.ng) (g.je+g.ng) (g.is-g.ng) (g.ie+g.ng) a old

/-- Step 4b: `B1_x1Face`. -/
def xB1F : Arr R :=
  addFaces1 (g.ks-(g.ng-1)) (g.ke+(g.ng-1)) (g.js-(g.ng-1)) (g.je+(g.ng-1)) (g.is-(g.ng-1)) (g.ie+(g.ng-1))
    (ct1 (half * c.dtodx2) (half * c.dtodx3) (xEmf2 M g S J) (xEmf3 M g S J)) (copyIn g S.B1i J.B1F)
/-- Step 4b: `B2_x2Face`. -/
def xB2F : Arr R :=
  addFaces2 (g.ks-(g.ng-1)) (g.ke+(g.ng-1)) (g.js-(g.ng-1)) (g.je+(g.ng-1)) (g.is-(g.ng-1)) (g.ie+(g.ng-1))
    (ct2 (half * c.dtodx1) (half * c.dtodx3) (xEmf1 M g S J) (xEmf3 M g S J)) (copyIn g S.B2i J.B2F)
/-- Step 4b: `B3_x3Face`. -/
def xB3F : Arr R :=
  addFaces3 (g.ks-(g.ng-1)) (g.ke+(g.ng-1)) (g.js-(g.ng-1)) (g.je+(g.ng-1)) (g.is-(g.ng-1)) (g.ie+(g.ng-1))
    (ct3 (half * c.dtodx1) (half * c.dtodx2) (xEmf1 M g S J) (xEmf2 M g S J)) (copyIn g S.B3i J.B3F)

/-- A loop over `kl…ku`, `jl…ju`, `il…iu` changing the elements of `Uhalf`. -/
def halfLoop (f : ℤ → ℤ → ℤ → Cons R ns → Cons R ns) (old : Arr (Cons R ns)) : Arr (Cons R ns) :=
  loop3 (g.ks-(g.ng-1)) (g.ke+(g.ng-1)) (g.js-(g.ng-1)) (g.je+(g.ng-1)) (g.is-(g.ng-1)) (g.ie+(g.ng-1))
    (fun k j i => f k j i (old k j i)) old

/-- Steps 4c-5c: `Uhalf`, :418-512. -/
def xUhalf : Arr (Cons R ns) :=
  let F1 := xFlux1 M g S J
  let F2 := xFlux2 M g S J
  let F3 := xFlux3 M g S J
  let U := copyIn g S.U J.Uhalf
  let U := halfLoop g (avgB (xB1F M c g S J) (xB2F M c g S J) (xB3F M c g S J)) U
  let U := halfLoop g (fun k j i => upd1 (half * c.dtodx1) (F1 k j (i+1)) (F1 k j i)) U
  let U := halfLoop g (fun k j i => upd2 (half * c.dtodx2) (F2 k (j+1) i) (F2 k j i)) U
  halfLoop g (fun k j i => upd3 (half * c.dtodx3) (F3 (k+1) j i) (F3 k j i)) U

/-- `for (i=l; i<=u; i++) a[i] = f(i)` on a 1D work array. -/
def loop1 {α : Type} (l u : ℤ) (f old : ℤ → α) : ℤ → α := fun i => if l ≤ i ∧ i ≤ u then f i else old i

/-- Step 7 for one pencil and interface: the states on the sides of x1-interface `i`, :813-848. -/
def xLR1 (k j i : ℤ) : W × W :=
  let Uh := xUhalf M c g S J
  let Bxc := loop1 (g.is-(g.ng-1)) (g.ie+(g.ng-1)) (fun i => (Uh k j i).B1c) J.Bxc
  let W1d := loop1 (g.is-(g.ng-1)) (g.ie+(g.ng-1)) (fun i => M.c2p1 (load1 (Uh k j i)) (Bxc i)) J.W1d
  M.lr 0 (fun m => W1d (i + m)) (fun m => Bxc (i + m))
/-- Step 8, :857-896. -/
def xLR2 (k j i : ℤ) : W × W :=
  let Uh := xUhalf M c g S J
  let Bxc := loop1 (g.js-(g.ng-1)) (g.je+(g.ng-1)) (fun j => (Uh k j i).B2c) J.Bxc
  let W1d := loop1 (g.js-(g.ng-1)) (g.je+(g.ng-1)) (fun j => M.c2p1 (load2 (Uh k j i)) (Bxc j)) J.W1d
  M.lr 1 (fun m => W1d (j + m)) (fun m => Bxc (j + m))
/-- Step 9, :904-940. -/
def xLR3 (k j i : ℤ) : W × W :=
  let Uh := xUhalf M c g S J
  let Bxc := loop1 (g.ks-(g.ng-1)) (g.ke+(g.ng-1)) (fun k => (Uh k j i).B3c) J.Bxc
  let W1d := loop1 (g.ks-(g.ng-1)) (g.ke+(g.ng-1)) (fun k => M.c2p1 (load3 (Uh k j i)) (Bxc k)) J.W1d
  M.lr 2 (fun m => W1d (k + m)) (fun m => Bxc (k + m))

/-- `Wl_x1Face` (`true`) and `Wr_x1Face`, :811-849. -/
def xFace1 (l : Bool) : Arr W :=
  loop3 (g.ks-1) (g.ke+1) (g.js-1) (g.je+1) g.is (g.ie+1)
    (fun k j i => if l then (xLR1 M c g S J k j i).1 else (xLR1 M c g S J k j i).2) (if l then J.WL 0 else J.WR 0)
/-- `Wl_x2Face`, `Wr_x2Face`, :855-896. -/
def xFace2 (l : Bool) : Arr W :=
  loop3 (g.ks-1) (g.ke+1) g.js (g.je+1) (g.is-1) (g.ie+1)
    (fun k j i => if l then (xLR2 M c g S J k j i).1 else (xLR2 M c g S J k j i).2) (if l then J.WL 1 else J.WR 1)
/-- `Wl_x3Face`, `Wr_x3Face`, :902-940. -/
def xFace3 (l : Bool) : Arr W :=
  loop3 g.ks (g.ke+1) (g.js-1) (g.je+1) (g.is-1) (g.ie+1)
    (fun k j i => if l then (xLR3 M c g S J k j i).1 else (xLR3 M c g S J k j i).2) (if l then J.WL 2 else J.WR 2)

/-- Step 10b: `x1Flux`, :1000-1044. -/
def yFlux1 : Arr (Cons1 R ns) :=
  loop3 (g.ks-1) (g.ke+1) (g.js-1) (g.je+1) g.is (g.ie+1)
    (fun k j i => flux2nd M (xFace1 M c g S J true k j i) (xFace1 M c g S J false k j i) (xB1F M c g S J k j i))
    (xFlux1 M g S J)
/-- Step 10c: `x2Flux`, :1050-1094. -/
def yFlux2 : Arr (Cons1 R ns) :=
  loop3 (g.ks-1) (g.ke+1) g.js (g.je+1) (g.is-1) (g.ie+1)
    (fun k j i => flux2nd M (xFace2 M c g S J true k j i) (xFace2 M c g S J false k j i) (xB2F M c g S J k j i))
    (xFlux2 M g S J)
/-- Step 10d: `x3Flux`, :1100-1144. -/
def yFlux3 : Arr (Cons1 R ns) :=
  loop3 g.ks (g.ke+1) (g.js-1) (g.je+1) (g.is-1) (g.ie+1)
    (fun k j i => flux2nd M (xFace3 M c g S J true k j i) (xFace3 M c g S J false k j i) (xB3F M c g S J k j i))
    (xFlux3 M g S J)

/-- Step 11a: `emf1_cc`, :1160-1169. -/
def yEcc1 : Arr R := loop3 (g.ks-1) (g.ke+1) (g.js-1) (g.je+1) (g.is-1) (g.ie+1)
  (fun k j i => ecc1 (M.c2p (xUhalf M c g S J k j i))) (xEcc1 M g S J)
/-- Step 11a: `emf2_cc`. -/
def yEcc2 : Arr R := loop3 (g.ks-1) (g.ke+1) (g.js-1) (g.je+1) (g.is-1) (g.ie+1)
  (fun k j i => ecc2 (M.c2p (xUhalf M c g S J k j i))) (xEcc2 M g S J)
/-- Step 11a: `emf3_cc`. -/
def yEcc3 : Arr R := loop3 (g.ks-1) (g.ke+1) (g.js-1) (g.je+1) (g.is-1) (g.ie+1)
  (fun k j i => ecc3 (M.c2p (xUhalf M c g S J k j i))) (xEcc3 M g S J)

/-- Step 11b: `emf1`, :1176-1180. -/
def yEmf1 : Arr R := cornerLoop1 g (yFlux2 M c g S J) (yFlux3 M c g S J) (yEcc1 M c g S J) (xEmf1 M g S J)
/-- Step 11b: `emf2`. -/
def yEmf2 : Arr R := cornerLoop2 g (yFlux1 M c g S J) (yFlux3 M c g S J) (yEcc2 M c g S J) (xEmf2 M g S J)
/-- Step 11b: `emf3`. -/
def yEmf3 : Arr R := cornerLoop3 g (yFlux1 M c g S J) (yFlux2 M c g S J) (yEcc3 M c g S J) (xEmf3 M g S J)

/-- Step 11c: the interface fields from edge electric fields `e1`, `e2`, `e3`, :1268-1309. -/
def ctB1 (e2 e3 : Arr R) : Arr R := addFaces1 g.ks g.ke g.js g.je g.is g.ie (ct1 c.dtodx2 c.dtodx3 e2 e3) S.B1i
/-- Step 11c. -/
def ctB2 (e1 e3 : Arr R) : Arr R := addFaces2 g.ks g.ke g.js g.je g.is g.ie (ct2 c.dtodx1 c.dtodx3 e1 e3) S.B2i
/-- Step 11c. -/
def ctB3 (e1 e2 : Arr R) : Arr R := addFaces3 g.ks g.ke g.js g.je g.is g.ie (ct3 c.dtodx1 c.dtodx2 e1 e2) S.B3i

/-- A loop over the active zones changing the elements of `pG->U`. -/
def actLoop (f : ℤ → ℤ → ℤ → Cons R ns → Cons R ns) (old : Arr (Cons R ns)) : Arr (Cons R ns) :=
  loop3 g.ks g.ke g.js g.je g.is g.ie (fun k j i => f k j i (old k j i)) old

/-- Steps 11c-13: the new contents of the Grid from fluxes and edge electric fields, :1264-1721. -/
def update (F1 F2 F3 : Arr (Cons1 R ns)) (e1 e2 e3 : Arr R) : St R ns :=
  let B1 := ctB1 c g S e2 e3
  let B2 := ctB2 c g S e1 e3
  let B3 := ctB3 c g S e1 e2
  let U := actLoop g (avgB B1 B2 B3) S.U
  let U := actLoop g (fun k j i => upd1 c.dtodx1 (F1 k j (i+1)) (F1 k j i)) U
  let U := actLoop g (fun k j i => upd2 c.dtodx2 (F2 k (j+1) i) (F2 k j i)) U
  let U := actLoop g (fun k j i => upd3 c.dtodx3 (F3 (k+1) j i) (F3 k j i)) U
  ⟨U, B1, B2, B3⟩

/-- `integrate_3d_vl`, :108-2108. -/
def integrate : St R ns :=
  update c g S (yFlux1 M c g S J) (yFlux2 M c g S J) (yFlux3 M c g S J)
    (yEmf1 M c g S J) (yEmf2 M c g S J) (yEmf3 M c g S J)

end Integrator
end Athena.Vl3
