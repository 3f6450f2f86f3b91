import Verif.Integr.D3

/-!
# src/integrators/integrate_3d_ctu.c (the six-solve CTU+CT algorithm)

Newtonian, Cartesian (`rsf = lsf = 1.0`), without source terms, cooling, particles, `H_CORRECTION`, first-order flux
correction and mesh refinement; MHD, adiabatic, any number of scalars.  `il = is-2`, `iu = ie+2`, and alike for `j`, `k`.
`l = true` stands for the left state of an interface (`Ul`, `Wl`), which belongs to the zone below it.
-/

namespace Athena.Gen
open Athena.Bvals hiding Rng
open Athena.Vl3
open Num

/-- A triple loop that changes element `[k][j][i]`. -/
def mod3 {α : Type} (kl ku jl ju il iu : ℤ) (f : ℤ → ℤ → ℤ → α → α) (old : Arr α) : Arr α :=
  loop3 kl ku jl ju il iu (fun k j i => f k j i (old k j i)) old

theorem mod3_in {α : Type} {kl ku jl ju il iu : ℤ} (f : ℤ → ℤ → ℤ → α → α) (old : Arr α) {k j i : ℤ} (h1 : kl ≤ k) (h2 : k ≤ ku)
    (h3 : jl ≤ j) (h4 : j ≤ ju) (h5 : il ≤ i) (h6 : i ≤ iu) : mod3 kl ku jl ju il iu f old k j i = f k j i (old k j i) :=
  loop3_in _ _ h1 h2 h3 h4 h5 h6

section Formulas
variable {R : Type} {ns : ℕ} [NumC R]

/-- The limited field gradient of Steps 1b, 2b, 3b: `db` is the gradient along the sweep, `o` that in another direction, :284-299. -/
def lim (db o : R) : R :=
  if NumC.ge0 db then
    let l := if NumC.lt db (-o) then db else -o
    if gt0 l then l else NumC.zero
  else
    let l := if NumC.lt (-o) db then db else -o
    if lt0 l then l else NumC.zero

/-- `mdb` of Steps 5c, 6c, 7c: the minmod of `-a` and `b`, :1152-1167. -/
def mdb (a b : R) : R :=
  if gt0 a && lt0 b then (if NumC.lt (-a) b then b else -a)
  else if lt0 a && gt0 b then (if NumC.lt b (-a) then b else -a)
  else NumC.zero

/-- The gradient of `B1i` across zone `[k][j][i]`: `(pG->B1i[k][j][i+1] - pG->B1i[k][j][i])*dx1i`, :280. -/
def db1 (q : Step R) (S : St R ns) (k j i : ℤ) : R := (S.B1i k j (i+1) - S.B1i k j i) * (NumC.one / q.dx1)
/-- The gradient of `B2i`, :281. -/
def db2 (q : Step R) (S : St R ns) (k j i : ℤ) : R := (S.B2i k (j+1) i - S.B2i k j i) * (NumC.one / q.dx2)
/-- The gradient of `B3i`, :282. -/
def db3 (q : Step R) (S : St R ns) (k j i : ℤ) : R := (S.B3i (k+1) j i - S.B3i k j i) * (NumC.one / q.dx3)

/-- Step 1b for the state belonging to zone `[k][j][i]`, :272-334: `By` by `V2` and `Bz` by `V3`. -/
def src1 (q : Step R) (S : St R ns) (k j i : ℤ) (w : Prim1 R ns) : Prim1 R ns :=
  let u := S.U k j i
  { w with By := w.By + half * q.dt * (u.M2 / u.d * lim (db1 q S k j i) (db2 q S k j i))
           Bz := w.Bz + half * q.dt * (u.M3 / u.d * lim (db1 q S k j i) (db3 q S k j i)) }
/-- Step 2b, :595-672. -/
def src2 (q : Step R) (S : St R ns) (k j i : ℤ) (w : Prim1 R ns) : Prim1 R ns :=
  let u := S.U k j i
  { w with By := w.By + half * q.dt * (u.M3 / u.d * lim (db2 q S k j i) (db3 q S k j i))
           Bz := w.Bz + half * q.dt * (u.M1 / u.d * lim (db2 q S k j i) (db1 q S k j i)) }
/-- Step 3b, :793-871. -/
def src3 (q : Step R) (S : St R ns) (k j i : ℤ) (w : Prim1 R ns) : Prim1 R ns :=
  let u := S.U k j i
  { w with By := w.By + half * q.dt * (u.M1 / u.d * lim (db3 q S k j i) (db1 q S k j i))
           Bz := w.Bz + half * q.dt * (u.M2 / u.d * lim (db3 q S k j i) (db2 q S k j i)) }

/-- Steps 5a, 6b, 7a: transverse fluxes `r`, `l` of the next direction, and the sum `e` of differences of the electric field
along the edges, :1040-1076, :1397-1431, :1783-1817. -/
def rotA (q : R) (r l : Cons1 R ns) (e : R) (u : Cons1 R ns) : Cons1 R ns :=
  { d := u.d - q * (r.d - l.d)
    Mx := u.Mx - q * (r.Mz - l.Mz)
    My := u.My - q * (r.Mx - l.Mx)
    Mz := u.Mz - q * (r.My - l.My)
    E := u.E - q * (r.E - l.E)
    By := u.By
    Bz := u.Bz + q * half * e
    s := fun n => u.s n - q * (r.s n - l.s n) }
/-- Steps 5b, 6a, 7b: transverse fluxes of the other direction, :1087-1125, :1354-1388, :1826-1862. -/
def rotB (q : R) (r l : Cons1 R ns) (e : R) (u : Cons1 R ns) : Cons1 R ns :=
  { d := u.d - q * (r.d - l.d)
    Mx := u.Mx - q * (r.My - l.My)
    My := u.My - q * (r.Mz - l.Mz)
    Mz := u.Mz - q * (r.Mx - l.Mx)
    E := u.E - q * (r.E - l.E)
    By := u.By - q * half * e
    Bz := u.Bz
    s := fun n => u.s n - q * (r.s n - l.s n) }

/-- Step 5c for the state belonging to zone `[k][j][i]`, :1135-1219. -/
def mhdX1 (q : Step R) (S : St R ns) (k j i : ℤ) (u : Cons1 R ns) : Cons1 R ns :=
  let z := S.U k j i
  let a := db1 q S k j i
  let m2 := mdb a (db2 q S k j i)
  let m3 := mdb a (db3 q S k j i)
  let V2 := z.M2 / z.d
  let V3 := z.M3 / z.d
  let h := half * q.dt
  { u with
    Mx := u.Mx + h * z.B1c * a
    My := u.My + h * z.B2c * a
    Mz := u.Mz + h * z.B3c * a
    By := u.By + h * V2 * (-m3)
    Bz := u.Bz + h * V3 * (-m2)
    E := u.E + h * (z.B2c * V2 * (-m3) + z.B3c * V3 * (-m2)) }
/-- Step 6c, :1442-1522. -/
def mhdX2 (q : Step R) (S : St R ns) (k j i : ℤ) (u : Cons1 R ns) : Cons1 R ns :=
  let z := S.U k j i
  let a := db2 q S k j i
  let m1 := mdb a (db1 q S k j i)
  let m3 := mdb a (db3 q S k j i)
  let V1 := z.M1 / z.d
  let V3 := z.M3 / z.d
  let h := half * q.dt
  { u with
    Mz := u.Mz + h * z.B1c * a
    Mx := u.Mx + h * z.B2c * a
    My := u.My + h * z.B3c * a
    By := u.By + h * V3 * (-m1)
    Bz := u.Bz + h * V1 * (-m3)
    E := u.E + h * (z.B3c * V3 * (-m1) + z.B1c * V1 * (-m3)) }
/-- Step 7c, :1872-1952. -/
def mhdX3 (q : Step R) (S : St R ns) (k j i : ℤ) (u : Cons1 R ns) : Cons1 R ns :=
  let z := S.U k j i
  let a := db3 q S k j i
  let m1 := mdb a (db1 q S k j i)
  let m2 := mdb a (db2 q S k j i)
  let V1 := z.M1 / z.d
  let V2 := z.M2 / z.d
  let h := half * q.dt
  { u with
    My := u.My + h * z.B1c * a
    Mz := u.Mz + h * z.B2c * a
    Mx := u.Mx + h * z.B3c * a
    By := u.By + h * V1 * (-m2)
    Bz := u.Bz + h * V2 * (-m1)
    E := u.E + h * (z.B1c * V1 * (-m2) + z.B2c * V2 * (-m1)) }

/-- Step 4a, :968-978: `emf1_cc`. -/
def ecU1 (u : Cons R ns) : R := (u.B2c * u.M3 - u.B3c * u.M2) / u.d
/-- Step 4a: `emf2_cc`. -/
def ecU2 (u : Cons R ns) : R := (u.B3c * u.M1 - u.B1c * u.M3) / u.d
/-- Step 4a: `emf3_cc`. -/
def ecU3 (u : Cons R ns) : R := (u.B1c * u.M2 - u.B2c * u.M1) / u.d

/-- Step 8: the quantities of zone `u` at the half time step from the fluxes on its right and left sides and the
interface fields; density, momentum and field, :2250-2300. -/
def halfU (M : Funs R ns) (q1 q2 q3 : R) (u : Cons R ns) (r1 l1 r2 l2 r3 l3 : Cons1 R ns) (b1l b1r b2l b2r b3l b3r : R) : Cons R ns :=
  { u with
    d := floorD M (u.d - q1 * (r1.d - l1.d) - q2 * (r2.d - l2.d) - q3 * (r3.d - l3.d))
    M1 := u.M1 - q1 * (r1.Mx - l1.Mx) - q2 * (r2.Mz - l2.Mz) - q3 * (r3.My - l3.My)
    M2 := u.M2 - q1 * (r1.My - l1.My) - q2 * (r2.Mx - l2.Mx) - q3 * (r3.Mz - l3.Mz)
    M3 := u.M3 - q1 * (r1.Mz - l1.Mz) - q2 * (r2.My - l2.My) - q3 * (r3.Mx - l3.Mx)
    B1c := half * (b1l + b1r)
    B2c := half * (b2l + b2r)
    B3c := half * (b3l + b3r) }

/-- `q1 = 0.5*dtodx1`, :130-136. -/
def qh (q : Step R) (t : Fin 3) : R := half * (q.dt / q.dx t)

end Formulas

/-- The static work arrays.  `W`, `Bx` are the contents of the 1D arrays `W`, `Bxc` when a pencil is processed in Step 1, 2, 3. -/
structure WorkC3 (R : Type) (ns : ℕ) where
  B1F : Arr R
  B2F : Arr R
  B3F : Arr R
  x1Flux : Arr (Cons1 R ns)
  x2Flux : Arr (Cons1 R ns)
  x3Flux : Arr (Cons1 R ns)
  U1 : Bool → Arr (Cons1 R ns)
  U2 : Bool → Arr (Cons1 R ns)
  U3 : Bool → Arr (Cons1 R ns)
  emf1cc : Arr R
  emf2cc : Arr R
  emf3cc : Arr R
  emf1 : Arr R
  emf2 : Arr R
  emf3 : Arr R
  W : Fin 3 → ℤ → ℤ → ℤ → Prim1 R ns
  Bx : Fin 3 → ℤ → ℤ → ℤ → R

section Model
variable {R : Type} {ns : ℕ} [NumC R] (M : Funs R ns) (q : Step R) (g : Rng) (S : St R ns) (J : WorkC3 R ns)

/-- Step 1, :215-260: `Wl`, `Wr` of the interfaces in direction 1. -/
def c3W1 (l : Bool) (k j i : ℤ) : Prim1 R ns :=
  let Bxc := loop1 (g.is-g.ng) (g.ie+g.ng) (fun i => (S.U k j i).B1c) (J.Bx 0 k j)
  let W := loop1 (g.is-g.ng) (g.ie+g.ng) (fun i => M.c2p1 (load1 (S.U k j i)) (Bxc i)) (J.W 0 k j)
  let w := pick l (M.lr q.dt q.dx1 0 (fun m => W (i+m)) (fun m => Bxc (i+m)))
  src1 q S k j (i - off l) (floorW M w)
/-- Step 2, :568-607: `Wl`, `Wr` of the interfaces in direction 2. -/
def c3W2 (l : Bool) (k j i : ℤ) : Prim1 R ns :=
  let Bxc := loop1 (g.js-g.ng) (g.je+g.ng) (fun j => (S.U k j i).B2c) (J.Bx 1 k i)
  let W := loop1 (g.js-g.ng) (g.je+g.ng) (fun j => M.c2p1 (load2 (S.U k j i)) (Bxc j)) (J.W 1 k i)
  let w := pick l (M.lr q.dt q.dx2 1 (fun m => W (j+m)) (fun m => Bxc (j+m)))
  src2 q S k (j - off l) i (floorW M w)
/-- Step 3, :771-809: `Wl`, `Wr` of the interfaces in direction 3. -/
def c3W3 (l : Bool) (k j i : ℤ) : Prim1 R ns :=
  let Bxc := loop1 (g.ks-g.ng) (g.ke+g.ng) (fun k => (S.U k j i).B3c) (J.Bx 2 j i)
  let W := loop1 (g.ks-g.ng) (g.ke+g.ng) (fun k => M.c2p1 (load3 (S.U k j i)) (Bxc k)) (J.W 2 j i)
  let w := pick l (M.lr q.dt q.dx3 2 (fun m => W (k+m)) (fun m => Bxc (k+m)))
  src3 q S (k - off l) j i (floorW M w)
/-- Step 1d, :548-553: `Ul_x1Face`, `Ur_x1Face`. -/
def c3U1 (l : Bool) : Arr (Cons1 R ns) := loop3 (g.ks-2) (g.ke+2) (g.js-2) (g.je+2) (g.is-2+1) (g.ie+2)
  (fun k j i => M.p2c1 (c3W1 M q g S J l k j i) (S.B1i k j i)) (J.U1 l)
/-- Step 2d, :749-755: `Ul_x2Face`, `Ur_x2Face`. -/
def c3U2 (l : Bool) : Arr (Cons1 R ns) := loop3 (g.ks-2) (g.ke+2) (g.js-2+1) (g.je+2) (g.is-2) (g.ie+2)
  (fun k j i => M.p2c1 (c3W2 M q g S J l k j i) (S.B2i k j i)) (J.U2 l)
/-- Step 3d, :942-948: `Ul_x3Face`, `Ur_x3Face`. -/
def c3U3 (l : Bool) : Arr (Cons1 R ns) := loop3 (g.ks-2+1) (g.ke+2) (g.js-2) (g.je+2) (g.is-2) (g.ie+2)
  (fun k j i => M.p2c1 (c3W3 M q g S J l k j i) (S.B3i k j i)) (J.U3 l)
/-- Step 1a, :236: `B1_x1Face`. -/
def c3B1 : Arr R := loop3 (g.ks-2) (g.ke+2) (g.js-2) (g.je+2) (g.is-g.ng) (g.ie+g.ng) S.B1i J.B1F
/-- Step 2a, :589: `B2_x2Face`. -/
def c3B2 : Arr R := loop3 (g.ks-2) (g.ke+2) (g.js-g.ng) (g.je+g.ng) (g.is-2) (g.ie+2) S.B2i J.B2F
/-- Step 3a, :791: `B3_x3Face`. -/
def c3B3 : Arr R := loop3 (g.ks-g.ng) (g.ke+g.ng) (g.js-2) (g.je+2) (g.is-2) (g.ie+2) S.B3i J.B3F
/-- Step 1d, :554-556: `x1Flux`. -/
def c3F1 : Arr (Cons1 R ns) := loop3 (g.ks-2) (g.ke+2) (g.js-2) (g.je+2) (g.is-2+1) (g.ie+2) (fun k j i =>
  M.flux (c3U1 M q g S J true k j i) (c3U1 M q g S J false k j i) (c3W1 M q g S J true k j i) (c3W1 M q g S J false k j i)
    (c3B1 g S J k j i)) J.x1Flux
/-- Step 2d, :756-759: `x2Flux`. -/
def c3F2 : Arr (Cons1 R ns) := loop3 (g.ks-2) (g.ke+2) (g.js-2+1) (g.je+2) (g.is-2) (g.ie+2) (fun k j i =>
  M.flux (c3U2 M q g S J true k j i) (c3U2 M q g S J false k j i) (c3W2 M q g S J true k j i) (c3W2 M q g S J false k j i)
    (c3B2 g S J k j i)) J.x2Flux
/-- Step 3d, :949-952: `x3Flux`. -/
def c3F3 : Arr (Cons1 R ns) := loop3 (g.ks-2+1) (g.ke+2) (g.js-2) (g.je+2) (g.is-2) (g.ie+2) (fun k j i =>
  M.flux (c3U3 M q g S J true k j i) (c3U3 M q g S J false k j i) (c3W3 M q g S J true k j i) (c3W3 M q g S J false k j i)
    (c3B3 g S J k j i)) J.x3Flux
/-- Step 4a, :966-983: `emf1_cc`. -/
def c3Ecc1 : Arr R := loop3 (g.ks-2) (g.ke+2) (g.js-2) (g.je+2) (g.is-2) (g.ie+2) (fun k j i => ecU1 (S.U k j i)) J.emf1cc
/-- Step 4a, :966-983: `emf2_cc`. -/
def c3Ecc2 : Arr R := loop3 (g.ks-2) (g.ke+2) (g.js-2) (g.je+2) (g.is-2) (g.ie+2) (fun k j i => ecU2 (S.U k j i)) J.emf2cc
/-- Step 4a, :966-983: `emf3_cc`. -/
def c3Ecc3 : Arr R := loop3 (g.ks-2) (g.ke+2) (g.js-2) (g.je+2) (g.is-2) (g.ie+2) (fun k j i => ecU3 (S.U k j i)) J.emf3cc
/-- `integrate_emf1_corner`, :3798-3854. -/
def corn1 (F2 F3 : Arr (Cons1 R ns)) (c old : Arr R) : Arr R :=
  loop3 (g.ks-1) (g.ke+2) (g.js-1) (g.je+2) (g.is-2) (g.ie+2) (corner1 F2 F3 c) old
/-- `integrate_emf2_corner`, :3867-3924. -/
def corn2 (F1 F3 : Arr (Cons1 R ns)) (c old : Arr R) : Arr R :=
  loop3 (g.ks-1) (g.ke+2) (g.js-2) (g.je+2) (g.is-1) (g.ie+2) (corner2 F1 F3 c) old
/-- `integrate_emf3_corner`, :3936-3996. -/
def corn3 (F1 F2 : Arr (Cons1 R ns)) (c old : Arr R) : Arr R :=
  loop3 (g.ks-2) (g.ke+2) (g.js-1) (g.je+2) (g.is-1) (g.ie+2) (corner3 F1 F2 c) old
/-- Step 4a, :981-983: `emf1`. -/
def c3Emf1 : Arr R := corn1 g (c3F2 M q g S J) (c3F3 M q g S J) (c3Ecc1 g S J) J.emf1
/-- Step 4a, :981-983: `emf2`. -/
def c3Emf2 : Arr R := corn2 g (c3F1 M q g S J) (c3F3 M q g S J) (c3Ecc2 g S J) J.emf2
/-- Step 4a, :981-983: `emf3`. -/
def c3Emf3 : Arr R := corn3 g (c3F1 M q g S J) (c3F2 M q g S J) (c3Ecc3 g S J) J.emf3
/-- Step 4b, :989-1026: `B1_x1Face`. -/
def c3B1h : Arr R := addFaces1 (g.ks-2+1) (g.ke+2-1) (g.js-2+1) (g.je+2-1) (g.is-2+1) (g.ie+2-1)
  (ct1 (qh q 1) (qh q 2) (c3Emf2 M q g S J) (c3Emf3 M q g S J)) (c3B1 g S J)
/-- Step 4b, :989-1026: `B2_x2Face`. -/
def c3B2h : Arr R := addFaces2 (g.ks-2+1) (g.ke+2-1) (g.js-2+1) (g.je+2-1) (g.is-2+1) (g.ie+2-1)
  (ct2 (qh q 0) (qh q 2) (c3Emf1 M q g S J) (c3Emf3 M q g S J)) (c3B2 g S J)
/-- Step 4b, :989-1026: `B3_x3Face`. -/
def c3B3h : Arr R := addFaces3 (g.ks-2+1) (g.ke+2-1) (g.js-2+1) (g.je+2-1) (g.is-2+1) (g.ie+2-1)
  (ct3 (qh q 0) (qh q 1) (c3Emf1 M q g S J) (c3Emf2 M q g S J)) (c3B3 g S J)
/-- Steps 5a, 5b, 5c, 7e, :1036-1219, :2211-2238: the corrected `Ul_x1Face`, `Ur_x1Face`. -/
def c3U1' (l : Bool) : Arr (Cons1 R ns) :=
  let F2 := c3F2 M q g S J
  let F3 := c3F3 M q g S J
  let e := c3Emf1 M q g S J
  let U := c3U1 M q g S J l
  let U := mod3 (g.ks-2+1) (g.ke+2-1) (g.js-2+1) (g.je+2-1) (g.is-2+1) (g.ie+2) (fun k j i => rotA (qh q 1) (F2 k (j+1) (i - off l)) (F2 k j (i - off l))
    ((e k (j+1) (i - off l) - e k j (i - off l)) + (e (k+1) (j+1) (i - off l) - e (k+1) j (i - off l)))) U
  let U := mod3 (g.ks-2+1) (g.ke+2-1) (g.js-2+1) (g.je+2-1) (g.is-2+1) (g.ie+2) (fun k j i => rotB (qh q 2) (F3 (k+1) j (i - off l)) (F3 k j (i - off l))
    ((e (k+1) j (i - off l) - e k j (i - off l)) + (e (k+1) (j+1) (i - off l) - e k (j+1) (i - off l)))) U
  let U := mod3 (g.ks-2+1) (g.ke+2-1) (g.js-2+1) (g.je+2-1) (g.is-2+1) (g.ie+2) (fun k j i => mhdX1 q S k j (i - off l)) U
  mod3 (g.ks-2+1) (g.ke+2-1) (g.js-2+1) (g.je+2-1) (g.is-2+1) (g.ie+2-1) (fun _ _ _ => floorU M) U
/-- Steps 6a, 6b, 6c, 7e, :1350-1522, :2211-2238: the corrected `Ul_x2Face`, `Ur_x2Face`. -/
def c3U2' (l : Bool) : Arr (Cons1 R ns) :=
  let F3 := c3F3 M q g S J
  let F1 := c3F1 M q g S J
  let e := c3Emf2 M q g S J
  let U := c3U2 M q g S J l
  let U := mod3 (g.ks-2+1) (g.ke+2-1) (g.js-2+1) (g.je+2) (g.is-2+1) (g.ie+2-1) (fun k j i => rotB (qh q 0) (F1 k (j - off l) (i+1)) (F1 k (j - off l) i)
    ((e k (j - off l) (i+1) - e k (j - off l) i) + (e (k+1) (j - off l) (i+1) - e (k+1) (j - off l) i))) U
  let U := mod3 (g.ks-2+1) (g.ke+2-1) (g.js-2+1) (g.je+2) (g.is-2+1) (g.ie+2-1) (fun k j i => rotA (qh q 2) (F3 (k+1) (j - off l) i) (F3 k (j - off l) i)
    ((e (k+1) (j - off l) i - e k (j - off l) i) + (e (k+1) (j - off l) (i+1) - e k (j - off l) (i+1)))) U
  let U := mod3 (g.ks-2+1) (g.ke+2-1) (g.js-2+1) (g.je+2) (g.is-2+1) (g.ie+2-1) (fun k j i => mhdX2 q S k (j - off l) i) U
  mod3 (g.ks-2+1) (g.ke+2-1) (g.js-2+1) (g.je+2-1) (g.is-2+1) (g.ie+2-1) (fun _ _ _ => floorU M) U
/-- Steps 7a, 7b, 7c, 7e, :1779-1952, :2211-2238: the corrected `Ul_x3Face`, `Ur_x3Face`. -/
def c3U3' (l : Bool) : Arr (Cons1 R ns) :=
  let F1 := c3F1 M q g S J
  let F2 := c3F2 M q g S J
  let e := c3Emf3 M q g S J
  let U := c3U3 M q g S J l
  let U := mod3 (g.ks-2+1) (g.ke+2) (g.js-2+1) (g.je+2-1) (g.is-2+1) (g.ie+2-1) (fun k j i => rotA (qh q 0) (F1 (k - off l) j (i+1)) (F1 (k - off l) j i)
    ((e (k - off l) j (i+1) - e (k - off l) j i) + (e (k - off l) (j+1) (i+1) - e (k - off l) (j+1) i))) U
  let U := mod3 (g.ks-2+1) (g.ke+2) (g.js-2+1) (g.je+2-1) (g.is-2+1) (g.ie+2-1) (fun k j i => rotB (qh q 1) (F2 (k - off l) (j+1) i) (F2 (k - off l) j i)
    ((e (k - off l) (j+1) i - e (k - off l) j i) + (e (k - off l) (j+1) (i+1) - e (k - off l) j (i+1)))) U
  let U := mod3 (g.ks-2+1) (g.ke+2) (g.js-2+1) (g.je+2-1) (g.is-2+1) (g.ie+2-1) (fun k j i => mhdX3 q S (k - off l) j i) U
  mod3 (g.ks-2+1) (g.ke+2-1) (g.js-2+1) (g.je+2-1) (g.is-2+1) (g.ie+2-1) (fun _ _ _ => floorU M) U
/-- Step 8, :2250-2300: the zone at the half time step. -/
def c3H (k j i : ℤ) : Cons R ns :=
  halfU M (qh q 0) (qh q 1) (qh q 2) (S.U k j i) (c3F1 M q g S J k j (i+1)) (c3F1 M q g S J k j i)
    (c3F2 M q g S J k (j+1) i) (c3F2 M q g S J k j i) (c3F3 M q g S J (k+1) j i) (c3F3 M q g S J k j i)
    (c3B1h M q g S J k j i) (c3B1h M q g S J k j (i+1)) (c3B2h M q g S J k j i) (c3B2h M q g S J k (j+1) i)
    (c3B3h M q g S J k j i) (c3B3h M q g S J (k+1) j i)
/-- Step 8, :2420-2432: `emf1_cc`. -/
def c3Ecc1' : Arr R := loop3 (g.ks-2+1) (g.ke+2-1) (g.js-2+1) (g.je+2-1) (g.is-2+1) (g.ie+2-1) (fun k j i => ecU1 (c3H M q g S J k j i)) (c3Ecc1 g S J)
/-- Step 8, :2420-2432: `emf2_cc`. -/
def c3Ecc2' : Arr R := loop3 (g.ks-2+1) (g.ke+2-1) (g.js-2+1) (g.je+2-1) (g.is-2+1) (g.ie+2-1) (fun k j i => ecU2 (c3H M q g S J k j i)) (c3Ecc2 g S J)
/-- Step 8, :2420-2432: `emf3_cc`. -/
def c3Ecc3' : Arr R := loop3 (g.ks-2+1) (g.ke+2-1) (g.js-2+1) (g.je+2-1) (g.is-2+1) (g.ie+2-1) (fun k j i => ecU3 (c3H M q g S J k j i)) (c3Ecc3 g S J)
/-- Step 9, :2504-2530: `x1Flux`. -/
def c3G1 : Arr (Cons1 R ns) := loop3 (g.ks-1) (g.ke+1) (g.js-1) (g.je+1) (g.is) (g.ie+1) (fun k j i =>
  fluxC M (c3U1' M q g S J true k j i) (c3U1' M q g S J false k j i) (c3B1h M q g S J k j i)) (c3F1 M q g S J)
/-- Step 9, :2533-2560: `x2Flux`. -/
def c3G2 : Arr (Cons1 R ns) := loop3 (g.ks-1) (g.ke+1) (g.js) (g.je+1) (g.is-1) (g.ie+1) (fun k j i =>
  fluxC M (c3U2' M q g S J true k j i) (c3U2' M q g S J false k j i) (c3B2h M q g S J k j i)) (c3F2 M q g S J)
/-- Step 9, :2563-2591: `x3Flux`. -/
def c3G3 : Arr (Cons1 R ns) := loop3 (g.ks) (g.ke+1) (g.js-1) (g.je+1) (g.is-1) (g.ie+1) (fun k j i =>
  fluxC M (c3U3' M q g S J true k j i) (c3U3' M q g S J false k j i) (c3B3h M q g S J k j i)) (c3F3 M q g S J)
/-- Step 10a, :2600-2604: `emf1`. -/
def c3Emf1' : Arr R := corn1 g (c3G2 M q g S J) (c3G3 M q g S J) (c3Ecc1' M q g S J) (c3Emf1 M q g S J)
/-- Step 10a, :2600-2604: `emf2`. -/
def c3Emf2' : Arr R := corn2 g (c3G1 M q g S J) (c3G3 M q g S J) (c3Ecc2' M q g S J) (c3Emf2 M q g S J)
/-- Step 10a, :2600-2604: `emf3`. -/
def c3Emf3' : Arr R := corn3 g (c3G1 M q g S J) (c3G2 M q g S J) (c3Ecc3' M q g S J) (c3Emf3 M q g S J)
/-- Steps 10b-12, :2610-2731, :3206-3293: the new contents of the Grid from the fluxes and the edge electric fields. -/
def updC3 (F1 F2 F3 : Arr (Cons1 R ns)) (e1 e2 e3 : Arr R) : St R ns :=
  let c := coef q
  let B1 := ctB1 c g S e2 e3
  let B2 := ctB2 c g S e1 e3
  let B3 := ctB3 c g S e1 e2
  let U := actLoop g (fun k j i => upd1 c.dtodx1 (F1 k j (i+1)) (F1 k j i)) S.U
  let U := actLoop g (fun k j i => upd2 c.dtodx2 (F2 k (j+1) i) (F2 k j i)) U
  let U := actLoop g (fun k j i => upd3 c.dtodx3 (F3 (k+1) j i) (F3 k j i)) U
  ⟨actLoop g (avgB B1 B2 B3) U, B1, B2, B3⟩

/-- `integrate_3d_ctu`, :110-3500. -/
def ctu3 : St R ns :=
  updC3 q g S (c3G1 M q g S J) (c3G2 M q g S J) (c3G3 M q g S J) (c3Emf1' M q g S J) (c3Emf2' M q g S J) (c3Emf3' M q g S J)

end Model

/-! ## On the lattice -/

section Ideal
variable {R : Type} {ns : ℕ} [NumC R] (M : Funs R ns) (q : Step R) (L : St R ns)

def d3W1 (l : Bool) (k j i : ℤ) : Prim1 R ns :=
  let w := pick l (M.lr q.dt q.dx1 0 (fun m => M.c2p1 (load1 (L.U k j (i+m))) (L.U k j (i+m)).B1c) (fun m => (L.U k j (i+m)).B1c))
  src1 q L k j (i - off l) (floorW M w)
def d3W2 (l : Bool) (k j i : ℤ) : Prim1 R ns :=
  let w := pick l (M.lr q.dt q.dx2 1 (fun m => M.c2p1 (load2 (L.U k (j+m) i)) (L.U k (j+m) i).B2c) (fun m => (L.U k (j+m) i).B2c))
  src2 q L k (j - off l) i (floorW M w)
def d3W3 (l : Bool) (k j i : ℤ) : Prim1 R ns :=
  let w := pick l (M.lr q.dt q.dx3 2 (fun m => M.c2p1 (load3 (L.U (k+m) j i)) (L.U (k+m) j i).B3c) (fun m => (L.U (k+m) j i).B3c))
  src3 q L (k - off l) j i (floorW M w)
def d3U1 (l : Bool) : Arr (Cons1 R ns) := fun k j i => M.p2c1 (d3W1 M q L l k j i) (L.B1i k j i)
def d3F1 : Arr (Cons1 R ns) := fun k j i =>
  M.flux (d3U1 M q L true k j i) (d3U1 M q L false k j i) (d3W1 M q L true k j i) (d3W1 M q L false k j i) (L.B1i k j i)
def d3U2 (l : Bool) : Arr (Cons1 R ns) := fun k j i => M.p2c1 (d3W2 M q L l k j i) (L.B2i k j i)
def d3F2 : Arr (Cons1 R ns) := fun k j i =>
  M.flux (d3U2 M q L true k j i) (d3U2 M q L false k j i) (d3W2 M q L true k j i) (d3W2 M q L false k j i) (L.B2i k j i)
def d3U3 (l : Bool) : Arr (Cons1 R ns) := fun k j i => M.p2c1 (d3W3 M q L l k j i) (L.B3i k j i)
def d3F3 : Arr (Cons1 R ns) := fun k j i =>
  M.flux (d3U3 M q L true k j i) (d3U3 M q L false k j i) (d3W3 M q L true k j i) (d3W3 M q L false k j i) (L.B3i k j i)
def d3Emf1 : Arr R := corner1 (d3F2 M q L) (d3F3 M q L) (fun k j i => ecU1 (L.U k j i))
def d3Emf2 : Arr R := corner2 (d3F1 M q L) (d3F3 M q L) (fun k j i => ecU2 (L.U k j i))
def d3Emf3 : Arr R := corner3 (d3F1 M q L) (d3F2 M q L) (fun k j i => ecU3 (L.U k j i))
def d3B1h : Arr R := fun k j i => L.B1i k j i + ct1 (qh q 1) (qh q 2) (d3Emf2 M q L) (d3Emf3 M q L) k j i
def d3B2h : Arr R := fun k j i => L.B2i k j i + ct2 (qh q 0) (qh q 2) (d3Emf1 M q L) (d3Emf3 M q L) k j i
def d3B3h : Arr R := fun k j i => L.B3i k j i + ct3 (qh q 0) (qh q 1) (d3Emf1 M q L) (d3Emf2 M q L) k j i
def d3U1' (l : Bool) : Arr (Cons1 R ns) := fun k j i =>
  floorU M (mhdX1 q L k j (i - off l) (rotB (qh q 2) (d3F3 M q L (k+1) j (i - off l)) (d3F3 M q L k j (i - off l))
    ((d3Emf1 M q L (k+1) j (i - off l) - d3Emf1 M q L k j (i - off l)) + (d3Emf1 M q L (k+1) (j+1) (i - off l) - d3Emf1 M q L k (j+1) (i - off l))) (rotA (qh q 1) (d3F2 M q L k (j+1) (i - off l)) (d3F2 M q L k j (i - off l))
    ((d3Emf1 M q L k (j+1) (i - off l) - d3Emf1 M q L k j (i - off l)) + (d3Emf1 M q L (k+1) (j+1) (i - off l) - d3Emf1 M q L (k+1) j (i - off l))) (d3U1 M q L l k j i))))
def d3U2' (l : Bool) : Arr (Cons1 R ns) := fun k j i =>
  floorU M (mhdX2 q L k (j - off l) i (rotA (qh q 2) (d3F3 M q L (k+1) (j - off l) i) (d3F3 M q L k (j - off l) i)
    ((d3Emf2 M q L (k+1) (j - off l) i - d3Emf2 M q L k (j - off l) i) + (d3Emf2 M q L (k+1) (j - off l) (i+1) - d3Emf2 M q L k (j - off l) (i+1))) (rotB (qh q 0) (d3F1 M q L k (j - off l) (i+1)) (d3F1 M q L k (j - off l) i)
    ((d3Emf2 M q L k (j - off l) (i+1) - d3Emf2 M q L k (j - off l) i) + (d3Emf2 M q L (k+1) (j - off l) (i+1) - d3Emf2 M q L (k+1) (j - off l) i)) (d3U2 M q L l k j i))))
def d3U3' (l : Bool) : Arr (Cons1 R ns) := fun k j i =>
  floorU M (mhdX3 q L (k - off l) j i (rotB (qh q 1) (d3F2 M q L (k - off l) (j+1) i) (d3F2 M q L (k - off l) j i)
    ((d3Emf3 M q L (k - off l) (j+1) i - d3Emf3 M q L (k - off l) j i) + (d3Emf3 M q L (k - off l) (j+1) (i+1) - d3Emf3 M q L (k - off l) j (i+1))) (rotA (qh q 0) (d3F1 M q L (k - off l) j (i+1)) (d3F1 M q L (k - off l) j i)
    ((d3Emf3 M q L (k - off l) j (i+1) - d3Emf3 M q L (k - off l) j i) + (d3Emf3 M q L (k - off l) (j+1) (i+1) - d3Emf3 M q L (k - off l) (j+1) i)) (d3U3 M q L l k j i))))
def d3H (k j i : ℤ) : Cons R ns :=
  halfU M (qh q 0) (qh q 1) (qh q 2) (L.U k j i) (d3F1 M q L k j (i+1)) (d3F1 M q L k j i)
    (d3F2 M q L k (j+1) i) (d3F2 M q L k j i) (d3F3 M q L (k+1) j i) (d3F3 M q L k j i)
    (d3B1h M q L k j i) (d3B1h M q L k j (i+1)) (d3B2h M q L k j i) (d3B2h M q L k (j+1) i)
    (d3B3h M q L k j i) (d3B3h M q L (k+1) j i)
def d3G1 : Arr (Cons1 R ns) := fun k j i => fluxC M (d3U1' M q L true k j i) (d3U1' M q L false k j i) (d3B1h M q L k j i)
def d3G2 : Arr (Cons1 R ns) := fun k j i => fluxC M (d3U2' M q L true k j i) (d3U2' M q L false k j i) (d3B2h M q L k j i)
def d3G3 : Arr (Cons1 R ns) := fun k j i => fluxC M (d3U3' M q L true k j i) (d3U3' M q L false k j i) (d3B3h M q L k j i)
def d3Emf1' : Arr R := corner1 (d3G2 M q L) (d3G3 M q L) (fun k j i => ecU1 (d3H M q L k j i))
def d3Emf2' : Arr R := corner2 (d3G1 M q L) (d3G3 M q L) (fun k j i => ecU2 (d3H M q L k j i))
def d3Emf3' : Arr R := corner3 (d3G1 M q L) (d3G2 M q L) (fun k j i => ecU3 (d3H M q L k j i))

variable (a b d k j i : ℤ) (l : Bool)

theorem u3W1 : d3W1 M q (L.shift a b d) l k j i = d3W1 M q L l (k+a) (j+b) (i+d) := by
  simp only [d3W1, src1, db1, db2, db3, St.shift, pp, pr i _ d, pq i _ d]
theorem u3U1 : d3U1 M q (L.shift a b d) l k j i = d3U1 M q L l (k+a) (j+b) (i+d) := by
  simp only [d3U1, u3W1]; simp only [St.shift]
theorem u3F1 : d3F1 M q (L.shift a b d) k j i = d3F1 M q L (k+a) (j+b) (i+d) := by
  simp only [d3F1, u3W1, u3U1]; simp only [St.shift]
theorem u3W2 : d3W2 M q (L.shift a b d) l k j i = d3W2 M q L l (k+a) (j+b) (i+d) := by
  simp only [d3W2, src2, db1, db2, db3, St.shift, pp, pr j _ b, pq j _ b]
theorem u3U2 : d3U2 M q (L.shift a b d) l k j i = d3U2 M q L l (k+a) (j+b) (i+d) := by
  simp only [d3U2, u3W2]; simp only [St.shift]
theorem u3F2 : d3F2 M q (L.shift a b d) k j i = d3F2 M q L (k+a) (j+b) (i+d) := by
  simp only [d3F2, u3W2, u3U2]; simp only [St.shift]
theorem u3W3 : d3W3 M q (L.shift a b d) l k j i = d3W3 M q L l (k+a) (j+b) (i+d) := by
  simp only [d3W3, src3, db1, db2, db3, St.shift, pp, pr k _ a, pq k _ a]
theorem u3U3 : d3U3 M q (L.shift a b d) l k j i = d3U3 M q L l (k+a) (j+b) (i+d) := by
  simp only [d3U3, u3W3]; simp only [St.shift]
theorem u3F3 : d3F3 M q (L.shift a b d) k j i = d3F3 M q L (k+a) (j+b) (i+d) := by
  simp only [d3F3, u3W3, u3U3]; simp only [St.shift]
theorem u3Emf1 : d3Emf1 M q (L.shift a b d) k j i = d3Emf1 M q L (k+a) (j+b) (i+d) := by
  simp only [d3Emf1, corner1, u3F2, u3F3, pm]; simp only [St.shift, pm]
theorem u3Emf2 : d3Emf2 M q (L.shift a b d) k j i = d3Emf2 M q L (k+a) (j+b) (i+d) := by
  simp only [d3Emf2, corner2, u3F1, u3F3, pm]; simp only [St.shift, pm]
theorem u3Emf3 : d3Emf3 M q (L.shift a b d) k j i = d3Emf3 M q L (k+a) (j+b) (i+d) := by
  simp only [d3Emf3, corner3, u3F1, u3F2, pm]; simp only [St.shift, pm]
theorem u3B1h : d3B1h M q (L.shift a b d) k j i = d3B1h M q L (k+a) (j+b) (i+d) := by
  simp only [d3B1h, ct1, u3Emf2, u3Emf3, pp]; simp only [St.shift]
theorem u3B2h : d3B2h M q (L.shift a b d) k j i = d3B2h M q L (k+a) (j+b) (i+d) := by
  simp only [d3B2h, ct2, u3Emf1, u3Emf3, pp]; simp only [St.shift]
theorem u3B3h : d3B3h M q (L.shift a b d) k j i = d3B3h M q L (k+a) (j+b) (i+d) := by
  simp only [d3B3h, ct3, u3Emf1, u3Emf2, pp]; simp only [St.shift]
theorem u3U1' : d3U1' M q (L.shift a b d) l k j i = d3U1' M q L l (k+a) (j+b) (i+d) := by
  simp only [d3U1', u3F2, u3F3, u3U1, u3Emf1, pp, pr i _ d]
  simp only [mhdX1, db1, db2, db3, St.shift, pp, pr i _ d]
theorem u3U2' : d3U2' M q (L.shift a b d) l k j i = d3U2' M q L l (k+a) (j+b) (i+d) := by
  simp only [d3U2', u3F1, u3F3, u3U2, u3Emf2, pp, pr j _ b]
  simp only [mhdX2, db1, db2, db3, St.shift, pp, pr j _ b]
theorem u3U3' : d3U3' M q (L.shift a b d) l k j i = d3U3' M q L l (k+a) (j+b) (i+d) := by
  simp only [d3U3', u3F1, u3F2, u3U3, u3Emf3, pp, pr k _ a]
  simp only [mhdX3, db1, db2, db3, St.shift, pp, pr k _ a]
theorem u3H : d3H M q (L.shift a b d) k j i = d3H M q L (k+a) (j+b) (i+d) := by
  simp only [d3H, u3F1, u3F2, u3F3, u3B1h, u3B2h, u3B3h, pp]; simp only [St.shift]
theorem u3G1 : d3G1 M q (L.shift a b d) k j i = d3G1 M q L (k+a) (j+b) (i+d) := by simp only [d3G1, u3U1', u3B1h]
theorem u3G2 : d3G2 M q (L.shift a b d) k j i = d3G2 M q L (k+a) (j+b) (i+d) := by simp only [d3G2, u3U2', u3B2h]
theorem u3G3 : d3G3 M q (L.shift a b d) k j i = d3G3 M q L (k+a) (j+b) (i+d) := by simp only [d3G3, u3U3', u3B3h]
theorem u3Emf1' : d3Emf1' M q (L.shift a b d) k j i = d3Emf1' M q L (k+a) (j+b) (i+d) := by
  simp only [d3Emf1', corner1, u3G2, u3G3, u3H, pm]
theorem u3Emf2' : d3Emf2' M q (L.shift a b d) k j i = d3Emf2' M q L (k+a) (j+b) (i+d) := by
  simp only [d3Emf2', corner2, u3G1, u3G3, u3H, pm]
theorem u3Emf3' : d3Emf3' M q (L.shift a b d) k j i = d3Emf3' M q L (k+a) (j+b) (i+d) := by
  simp only [d3Emf3', corner3, u3G1, u3G2, u3H, pm]

end Ideal

/-! ## Agreement -/

section Agreement
variable {R : Type} {ns : ℕ} [NumC R] {M : Funs R ns} {q : Step R} {g : Rng} {S L : St R ns} {J : WorkC3 R ns}
variable (hM : M.Local) (hg : g.Ok) (h : Agree g S L)
include hM hg h

theorem e3W1 (l : Bool) {k j i : ℤ} (h1 : g.ks-2 ≤ k) (h2 : k ≤ g.ke+2) (h3 : g.js-2 ≤ j) (h4 : j ≤ g.je+2) (h5 : g.is-1 ≤ i) (h6 : i ≤ g.ie+2) :
    c3W1 M q g S J l k j i = d3W1 M q L l k j i := by
  have := hg.hng
  have := off_le l
  have e : M.lr q.dt q.dx1 0
      (fun m => loop1 (g.is-g.ng) (g.ie+g.ng) (fun i => M.c2p1 (load1 (S.U k j i))
        (loop1 (g.is-g.ng) (g.ie+g.ng) (fun i => (S.U k j i).B1c) (J.Bx 0 k j) i)) (J.W 0 k j) (i+m))
      (fun m => loop1 (g.is-g.ng) (g.ie+g.ng) (fun i => (S.U k j i).B1c) (J.Bx 0 k j) (i+m)) =
      M.lr q.dt q.dx1 0 (fun m => M.c2p1 (load1 (L.U k j (i+m))) (L.U k j (i+m)).B1c) (fun m => (L.U k j (i+m)).B1c) := by
    refine hM _ _ _ _ _ _ _ fun m hm hm' => ?_
    simp (disch := omega) only [loop1_in, h.U, and_self]
  simp only [c3W1, d3W1, e]
  simp (disch := omega) only [src1, db1, db2, db3, h.U, h.B1, h.B2, h.B3]
theorem e3U1 (l : Bool) {k j i : ℤ} (h1 : g.ks-2 ≤ k) (h2 : k ≤ g.ke+2) (h3 : g.js-2 ≤ j) (h4 : j ≤ g.je+2) (h5 : g.is-1 ≤ i) (h6 : i ≤ g.ie+2) :
    c3U1 M q g S J l k j i = d3U1 M q L l k j i := by
  have := hg.hng
  simp (disch := omega) only [c3U1, d3U1, loop3_in, e3W1 hM hg h, h.B1]
theorem e3F1 {k j i : ℤ} (h1 : g.ks-2 ≤ k) (h2 : k ≤ g.ke+2) (h3 : g.js-2 ≤ j) (h4 : j ≤ g.je+2) (h5 : g.is-1 ≤ i) (h6 : i ≤ g.ie+2) :
    c3F1 M q g S J k j i = d3F1 M q L k j i := by
  have := hg.hng
  simp (disch := omega) only [c3F1, d3F1, c3B1, loop3_in, e3U1 hM hg h, e3W1 hM hg h, h.B1]
theorem e3W2 (l : Bool) {k j i : ℤ} (h1 : g.ks-2 ≤ k) (h2 : k ≤ g.ke+2) (h3 : g.js-1 ≤ j) (h4 : j ≤ g.je+2) (h5 : g.is-2 ≤ i) (h6 : i ≤ g.ie+2) :
    c3W2 M q g S J l k j i = d3W2 M q L l k j i := by
  have := hg.hng
  have := off_le l
  have e : M.lr q.dt q.dx2 1
      (fun m => loop1 (g.js-g.ng) (g.je+g.ng) (fun j => M.c2p1 (load2 (S.U k j i))
        (loop1 (g.js-g.ng) (g.je+g.ng) (fun j => (S.U k j i).B2c) (J.Bx 1 k i) j)) (J.W 1 k i) (j+m))
      (fun m => loop1 (g.js-g.ng) (g.je+g.ng) (fun j => (S.U k j i).B2c) (J.Bx 1 k i) (j+m)) =
      M.lr q.dt q.dx2 1 (fun m => M.c2p1 (load2 (L.U k (j+m) i)) (L.U k (j+m) i).B2c) (fun m => (L.U k (j+m) i).B2c) := by
    refine hM _ _ _ _ _ _ _ fun m hm hm' => ?_
    simp (disch := omega) only [loop1_in, h.U, and_self]
  simp only [c3W2, d3W2, e]
  simp (disch := omega) only [src2, db1, db2, db3, h.U, h.B1, h.B2, h.B3]
theorem e3U2 (l : Bool) {k j i : ℤ} (h1 : g.ks-2 ≤ k) (h2 : k ≤ g.ke+2) (h3 : g.js-1 ≤ j) (h4 : j ≤ g.je+2) (h5 : g.is-2 ≤ i) (h6 : i ≤ g.ie+2) :
    c3U2 M q g S J l k j i = d3U2 M q L l k j i := by
  have := hg.hng
  simp (disch := omega) only [c3U2, d3U2, loop3_in, e3W2 hM hg h, h.B2]
theorem e3F2 {k j i : ℤ} (h1 : g.ks-2 ≤ k) (h2 : k ≤ g.ke+2) (h3 : g.js-1 ≤ j) (h4 : j ≤ g.je+2) (h5 : g.is-2 ≤ i) (h6 : i ≤ g.ie+2) :
    c3F2 M q g S J k j i = d3F2 M q L k j i := by
  have := hg.hng
  simp (disch := omega) only [c3F2, d3F2, c3B2, loop3_in, e3U2 hM hg h, e3W2 hM hg h, h.B2]
theorem e3W3 (l : Bool) {k j i : ℤ} (h1 : g.ks-1 ≤ k) (h2 : k ≤ g.ke+2) (h3 : g.js-2 ≤ j) (h4 : j ≤ g.je+2) (h5 : g.is-2 ≤ i) (h6 : i ≤ g.ie+2) :
    c3W3 M q g S J l k j i = d3W3 M q L l k j i := by
  have := hg.hng
  have := off_le l
  have e : M.lr q.dt q.dx3 2
      (fun m => loop1 (g.ks-g.ng) (g.ke+g.ng) (fun k => M.c2p1 (load3 (S.U k j i))
        (loop1 (g.ks-g.ng) (g.ke+g.ng) (fun k => (S.U k j i).B3c) (J.Bx 2 j i) k)) (J.W 2 j i) (k+m))
      (fun m => loop1 (g.ks-g.ng) (g.ke+g.ng) (fun k => (S.U k j i).B3c) (J.Bx 2 j i) (k+m)) =
      M.lr q.dt q.dx3 2 (fun m => M.c2p1 (load3 (L.U (k+m) j i)) (L.U (k+m) j i).B3c) (fun m => (L.U (k+m) j i).B3c) := by
    refine hM _ _ _ _ _ _ _ fun m hm hm' => ?_
    simp (disch := omega) only [loop1_in, h.U, and_self]
  simp only [c3W3, d3W3, e]
  simp (disch := omega) only [src3, db1, db2, db3, h.U, h.B1, h.B2, h.B3]
theorem e3U3 (l : Bool) {k j i : ℤ} (h1 : g.ks-1 ≤ k) (h2 : k ≤ g.ke+2) (h3 : g.js-2 ≤ j) (h4 : j ≤ g.je+2) (h5 : g.is-2 ≤ i) (h6 : i ≤ g.ie+2) :
    c3U3 M q g S J l k j i = d3U3 M q L l k j i := by
  have := hg.hng
  simp (disch := omega) only [c3U3, d3U3, loop3_in, e3W3 hM hg h, h.B3]
theorem e3F3 {k j i : ℤ} (h1 : g.ks-1 ≤ k) (h2 : k ≤ g.ke+2) (h3 : g.js-2 ≤ j) (h4 : j ≤ g.je+2) (h5 : g.is-2 ≤ i) (h6 : i ≤ g.ie+2) :
    c3F3 M q g S J k j i = d3F3 M q L k j i := by
  have := hg.hng
  simp (disch := omega) only [c3F3, d3F3, c3B3, loop3_in, e3U3 hM hg h, e3W3 hM hg h, h.B3]
theorem e3Emf1 {k j i : ℤ} (h1 : g.ks-1 ≤ k) (h2 : k ≤ g.ke+2) (h3 : g.js-1 ≤ j) (h4 : j ≤ g.je+2) (h5 : g.is-2 ≤ i) (h6 : i ≤ g.ie+2) :
    c3Emf1 M q g S J k j i = d3Emf1 M q L k j i := by
  have := hg.hng
  rw [c3Emf1, corn1, loop3_in _ _ h1 h2 h3 h4 h5 h6]
  simp (disch := omega) only [d3Emf1, corner1, e3F2 hM hg h, e3F3 hM hg h, c3Ecc1, loop3_in, h.U]
theorem e3Emf2 {k j i : ℤ} (h1 : g.ks-1 ≤ k) (h2 : k ≤ g.ke+2) (h3 : g.js-2 ≤ j) (h4 : j ≤ g.je+2) (h5 : g.is-1 ≤ i) (h6 : i ≤ g.ie+2) :
    c3Emf2 M q g S J k j i = d3Emf2 M q L k j i := by
  have := hg.hng
  rw [c3Emf2, corn2, loop3_in _ _ h1 h2 h3 h4 h5 h6]
  simp (disch := omega) only [d3Emf2, corner2, e3F1 hM hg h, e3F3 hM hg h, c3Ecc2, loop3_in, h.U]
theorem e3Emf3 {k j i : ℤ} (h1 : g.ks-2 ≤ k) (h2 : k ≤ g.ke+2) (h3 : g.js-1 ≤ j) (h4 : j ≤ g.je+2) (h5 : g.is-1 ≤ i) (h6 : i ≤ g.ie+2) :
    c3Emf3 M q g S J k j i = d3Emf3 M q L k j i := by
  have := hg.hng
  rw [c3Emf3, corn3, loop3_in _ _ h1 h2 h3 h4 h5 h6]
  simp (disch := omega) only [d3Emf3, corner3, e3F1 hM hg h, e3F2 hM hg h, c3Ecc3, loop3_in, h.U]
theorem e3B1h {k j i : ℤ} (h1 : g.ks-1 ≤ k) (h2 : k ≤ g.ke+1) (h3 : g.js-1 ≤ j) (h4 : j ≤ g.je+1) (h5 : g.is-1 ≤ i) (h6 : i ≤ g.ie+2) :
    c3B1h M q g S J k j i = d3B1h M q L k j i := by
  have := hg.hng
  rw [c3B1h, addFaces1_in _ _ (by omega) (by omega) (by omega) (by omega) (by omega) (by omega),
    c3B1, loop3_in _ _ (by omega) (by omega) (by omega) (by omega) (by omega) (by omega)]
  simp (disch := omega) only [d3B1h, ct1, e3Emf2 hM hg h, e3Emf3 hM hg h, h.B1]
theorem e3B2h {k j i : ℤ} (h1 : g.ks-1 ≤ k) (h2 : k ≤ g.ke+1) (h3 : g.js-1 ≤ j) (h4 : j ≤ g.je+2) (h5 : g.is-1 ≤ i) (h6 : i ≤ g.ie+1) :
    c3B2h M q g S J k j i = d3B2h M q L k j i := by
  have := hg.hng
  rw [c3B2h, addFaces2_in _ _ (by omega) (by omega) (by omega) (by omega) (by omega) (by omega),
    c3B2, loop3_in _ _ (by omega) (by omega) (by omega) (by omega) (by omega) (by omega)]
  simp (disch := omega) only [d3B2h, ct2, e3Emf1 hM hg h, e3Emf3 hM hg h, h.B2]
theorem e3B3h {k j i : ℤ} (h1 : g.ks-1 ≤ k) (h2 : k ≤ g.ke+2) (h3 : g.js-1 ≤ j) (h4 : j ≤ g.je+1) (h5 : g.is-1 ≤ i) (h6 : i ≤ g.ie+1) :
    c3B3h M q g S J k j i = d3B3h M q L k j i := by
  have := hg.hng
  rw [c3B3h, addFaces3_in _ _ (by omega) (by omega) (by omega) (by omega) (by omega) (by omega),
    c3B3, loop3_in _ _ (by omega) (by omega) (by omega) (by omega) (by omega) (by omega)]
  simp (disch := omega) only [d3B3h, ct3, e3Emf1 hM hg h, e3Emf2 hM hg h, h.B3]
theorem e3U1' (l : Bool) {k j i : ℤ} (h1 : g.ks-1 ≤ k) (h2 : k ≤ g.ke+1) (h3 : g.js-1 ≤ j) (h4 : j ≤ g.je+1) (h5 : g.is-1 ≤ i) (h6 : i ≤ g.ie+1) :
    c3U1' M q g S J l k j i = d3U1' M q L l k j i := by
  have := hg.hng
  have := off_le l
  simp (disch := omega) only [c3U1', mod3_in]
  simp (disch := omega) only [d3U1', mhdX1, db1, db2, db3, e3U1 hM hg h, e3F2 hM hg h, e3F3 hM hg h, e3Emf1 hM hg h,
    h.U, h.B1, h.B2, h.B3]
theorem e3U2' (l : Bool) {k j i : ℤ} (h1 : g.ks-1 ≤ k) (h2 : k ≤ g.ke+1) (h3 : g.js-1 ≤ j) (h4 : j ≤ g.je+1) (h5 : g.is-1 ≤ i) (h6 : i ≤ g.ie+1) :
    c3U2' M q g S J l k j i = d3U2' M q L l k j i := by
  have := hg.hng
  have := off_le l
  simp (disch := omega) only [c3U2', mod3_in]
  simp (disch := omega) only [d3U2', mhdX2, db1, db2, db3, e3U2 hM hg h, e3F1 hM hg h, e3F3 hM hg h, e3Emf2 hM hg h,
    h.U, h.B1, h.B2, h.B3]
theorem e3U3' (l : Bool) {k j i : ℤ} (h1 : g.ks-1 ≤ k) (h2 : k ≤ g.ke+1) (h3 : g.js-1 ≤ j) (h4 : j ≤ g.je+1) (h5 : g.is-1 ≤ i) (h6 : i ≤ g.ie+1) :
    c3U3' M q g S J l k j i = d3U3' M q L l k j i := by
  have := hg.hng
  have := off_le l
  simp (disch := omega) only [c3U3', mod3_in]
  simp (disch := omega) only [d3U3', mhdX3, db1, db2, db3, e3U3 hM hg h, e3F1 hM hg h, e3F2 hM hg h, e3Emf3 hM hg h,
    h.U, h.B1, h.B2, h.B3]
theorem e3H {k j i : ℤ} (h1 : g.ks-1 ≤ k) (h2 : k ≤ g.ke+1) (h3 : g.js-1 ≤ j) (h4 : j ≤ g.je+1) (h5 : g.is-1 ≤ i) (h6 : i ≤ g.ie+1) :
    c3H M q g S J k j i = d3H M q L k j i := by
  have := hg.hng
  simp (disch := omega) only [c3H, d3H, e3F1 hM hg h, e3F2 hM hg h, e3F3 hM hg h, e3B1h hM hg h, e3B2h hM hg h, e3B3h hM hg h, h.U]
theorem e3G1 {k j i : ℤ} (h1 : g.ks-1 ≤ k) (h2 : k ≤ g.ke+1) (h3 : g.js-1 ≤ j) (h4 : j ≤ g.je+1) (h5 : g.is ≤ i) (h6 : i ≤ g.ie+1) :
    c3G1 M q g S J k j i = d3G1 M q L k j i := by
  have := hg.hng
  simp (disch := omega) only [c3G1, d3G1, loop3_in, e3U1' hM hg h, e3B1h hM hg h]
theorem e3G2 {k j i : ℤ} (h1 : g.ks-1 ≤ k) (h2 : k ≤ g.ke+1) (h3 : g.js ≤ j) (h4 : j ≤ g.je+1) (h5 : g.is-1 ≤ i) (h6 : i ≤ g.ie+1) :
    c3G2 M q g S J k j i = d3G2 M q L k j i := by
  have := hg.hng
  simp (disch := omega) only [c3G2, d3G2, loop3_in, e3U2' hM hg h, e3B2h hM hg h]
theorem e3G3 {k j i : ℤ} (h1 : g.ks ≤ k) (h2 : k ≤ g.ke+1) (h3 : g.js-1 ≤ j) (h4 : j ≤ g.je+1) (h5 : g.is-1 ≤ i) (h6 : i ≤ g.ie+1) :
    c3G3 M q g S J k j i = d3G3 M q L k j i := by
  have := hg.hng
  simp (disch := omega) only [c3G3, d3G3, loop3_in, e3U3' hM hg h, e3B3h hM hg h]
theorem e3Emf1' {k j i : ℤ} (h1 : g.ks ≤ k) (h2 : k ≤ g.ke+1) (h3 : g.js ≤ j) (h4 : j ≤ g.je+1) (h5 : g.is ≤ i) (h6 : i ≤ g.ie) :
    c3Emf1' M q g S J k j i = d3Emf1' M q L k j i := by
  have := hg.hng
  rw [c3Emf1', corn1, loop3_in _ _ (by omega) (by omega) (by omega) (by omega) (by omega) (by omega)]
  simp (disch := omega) only [d3Emf1', corner1, e3G2 hM hg h, e3G3 hM hg h, c3Ecc1', loop3_in, e3H hM hg h]
theorem e3Emf2' {k j i : ℤ} (h1 : g.ks ≤ k) (h2 : k ≤ g.ke+1) (h3 : g.js ≤ j) (h4 : j ≤ g.je) (h5 : g.is ≤ i) (h6 : i ≤ g.ie+1) :
    c3Emf2' M q g S J k j i = d3Emf2' M q L k j i := by
  have := hg.hng
  rw [c3Emf2', corn2, loop3_in _ _ (by omega) (by omega) (by omega) (by omega) (by omega) (by omega)]
  simp (disch := omega) only [d3Emf2', corner2, e3G1 hM hg h, e3G3 hM hg h, c3Ecc2', loop3_in, e3H hM hg h]
theorem e3Emf3' {k j i : ℤ} (h1 : g.ks ≤ k) (h2 : k ≤ g.ke) (h3 : g.js ≤ j) (h4 : j ≤ g.je+1) (h5 : g.is ≤ i) (h6 : i ≤ g.ie+1) :
    c3Emf3' M q g S J k j i = d3Emf3' M q L k j i := by
  have := hg.hng
  rw [c3Emf3', corn3, loop3_in _ _ (by omega) (by omega) (by omega) (by omega) (by omega) (by omega)]
  simp (disch := omega) only [d3Emf3', corner3, e3G1 hM hg h, e3G2 hM hg h, c3Ecc3', loop3_in, e3H hM hg h]

end Agreement

section Results
variable {R : Type} {ns : ℕ} [NumC R]

/-- The order of the updates of Steps 11-13 (van Leer) and 10-12 (CTU) does not matter. -/
theorem updC3_eq (q : Step R) (g : Rng) (S : St R ns) (F1 F2 F3 : Arr (Cons1 R ns)) (e1 e2 e3 : Arr R) :
    updC3 q g S F1 F2 F3 e1 e2 e3 = update (coef q) g S F1 F2 F3 e1 e2 e3 := by
  simp only [updC3, update, St.mk.injEq, and_self, and_true]
  funext k j i
  by_cases h : (g.ks ≤ k ∧ k ≤ g.ke) ∧ (g.js ≤ j ∧ j ≤ g.je) ∧ (g.is ≤ i ∧ i ≤ g.ie)
  · obtain ⟨⟨h1, h2⟩, ⟨h3, h4⟩, h5, h6⟩ := h
    simp only [actLoop_in _ _ h1 h2 h3 h4 h5 h6]; rfl
  · simp only [actLoop, loop3_out _ _ h]

/-- The step of `integrate_3d_ctu` on a lattice. -/
def latC3 (M : Funs R ns) (q : Step R) (L : St R ns) : St R ns :=
  lat3 q L (d3G1 M q L) (d3G2 M q L) (d3G3 M q L) (d3Emf1' M q L) (d3Emf2' M q L) (d3Emf3' M q L)

theorem ctu3_lattice (M : Funs R ns) (hM : M.Local) :
    Lattice A3 (fun q g (S : St R ns) J => ctu3 M q g S J) (latC3 M) :=
  lattice_of (fun q L a b d => lat3_shift q (fun L => u3G1 M q L) (fun L => u3G2 M q L) (fun L => u3G3 M q L)
      (fun L => u3Emf1' M q L) (fun L => u3Emf2' M q L) (fun L => u3Emf3' M q L) L a b d)
    fun q g S L J hg ha => by
      obtain ⟨ho, h⟩ := agr3 hg ha
      have hn := ho.hng
      show ActEq A3 g (updC3 _ _ _ _ _ _ _ _ _) _
      rw [updC3_eq]
      refine act3 hg ha ?_ ?_ ?_ ?_ ?_ ?_ <;> intro k j i h1 h2 h3 h4 h5 h6
      · exact e3G1 hM ho h (by omega) (by omega) (by omega) (by omega) h5 h6
      · exact e3G2 hM ho h (by omega) (by omega) h3 h4 (by omega) (by omega)
      · exact e3G3 hM ho h h1 h2 (by omega) (by omega) (by omega) (by omega)
      · exact e3Emf1' hM ho h h1 h2 h3 h4 h5 h6
      · exact e3Emf2' hM ho h h1 h2 h3 h4 h5 h6
      · exact e3Emf3' hM ho h h1 h2 h3 h4 h5 h6

end Results
end Athena.Gen
