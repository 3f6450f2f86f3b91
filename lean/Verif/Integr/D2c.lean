import Verif.Integr.D2

/-!
# src/integrators/integrate_2d_ctu.c

Newtonian, Cartesian (`rsf = lsf = 1.0`), without source terms, cooling, particles, `H_CORRECTION` and mesh refinement;
MHD, adiabatic, any number of scalars.  `il = is-2`, `iu = ie+2`, `jl = js-2`, `ju = je+2`.  The states on the two sides
of an interface are treated alike; `l = true` stands for the left one (`Ul`, `Wl`), which belongs to the zone below the
interface.
-/

namespace Athena.Gen
open Athena.Bvals hiding Rng
open Athena.Vl3
open Num

/-- The zone to which the left (right) state of interface `i` belongs is `i-1` (`i`). -/
def off (l : Bool) : ℤ := if l then 1 else 0
theorem off_le (l : Bool) : 0 ≤ off l ∧ off l ≤ 1 := by cases l <;> simp [off]
/-- The state on one side. -/
def pick {α : Type} (l : Bool) (p : α × α) : α := if l then p.1 else p.2

section Formulas
variable {R : Type} {ns : ℕ} [NumC R]

/-- The "MHD source term" of Step 1b for the state belonging to zone `u` with face fields `bl`, `br`, :256-265. -/
def srcW1 (hdt dxi : R) (u : Cons R ns) (bl br : R) (w : Prim1 R ns) : Prim1 R ns :=
  { w with By := w.By + hdt * (u.M2 / u.d * (br - bl) * dxi) }
/-- Step 2b, :563-569. -/
def srcW2 (hdt dxi : R) (u : Cons R ns) (bl br : R) (w : Prim1 R ns) : Prim1 R ns :=
  { w with Bz := w.Bz + hdt * (u.M1 / u.d * (br - bl) * dxi) }

/-- Step 5a, :712-744: x1-interface states corrected with x2-fluxes. -/
def trans1 (q : R) (r l : Cons1 R ns) (u : Cons1 R ns) : Cons1 R ns :=
  { d := u.d - q * (r.d - l.d)
    Mx := u.Mx - q * (r.Mz - l.Mz)
    My := u.My - q * (r.Mx - l.Mx)
    Mz := u.Mz - q * (r.My - l.My)
    E := u.E - q * (r.E - l.E)
    By := u.By
    Bz := u.Bz - q * (r.By - l.By)
    s := fun n => u.s n - q * (r.s n - l.s n) }
/-- Step 6a, :890-915: x2-interface states corrected with x1-fluxes. -/
def trans2 (q : R) (r l : Cons1 R ns) (u : Cons1 R ns) : Cons1 R ns :=
  { d := u.d - q * (r.d - l.d)
    Mx := u.Mx - q * (r.My - l.My)
    My := u.My - q * (r.Mz - l.Mz)
    Mz := u.Mz - q * (r.Mx - l.Mx)
    E := u.E - q * (r.E - l.E)
    By := u.By - q * (r.Bz - l.Bz)
    Bz := u.Bz
    s := fun n => u.s n - q * (r.s n - l.s n) }
/-- Step 5c, :761-791, for the state belonging to zone `z`. -/
def mhd1 (q : R) (z : Cons R ns) (db : R) (u : Cons1 R ns) : Cons1 R ns :=
  let V3 := z.M3 / z.d
  { u with
    Mx := u.Mx + q * z.B1c * db
    My := u.My + q * z.B2c * db
    Mz := u.Mz + q * z.B3c * db
    Bz := u.Bz + q * V3 * db
    E := u.E + q * z.B3c * V3 * db }
/-- Step 6c, :932-957. -/
def mhd2 (q : R) (z : Cons R ns) (db : R) (u : Cons1 R ns) : Cons1 R ns :=
  let V3 := z.M3 / z.d
  { u with
    Mz := u.Mz + q * z.B1c * db
    Mx := u.Mx + q * z.B2c * db
    My := u.My + q * z.B3c * db
    By := u.By + q * V3 * db
    E := u.E + q * z.B3c * V3 * db }

/-- `if ((x < d_MIN) || (x != x)) x = d_MIN;` -/
def floorD (M : Funs R ns) (x : R) : R := if NumC.lt x M.dMin || NumC.nan x then M.dMin else x
/-- Step 6e, :1171-1186. -/
def floorU (M : Funs R ns) (u : Cons1 R ns) : Cons1 R ns := { u with d := floorD M u.d }

/-- `(B1c*M2 - B2c*M1)/d`, :670-672. -/
def eccC (u : Cons R ns) : R := (u.B1c * u.M2 - u.B2c * u.M1) / u.d

/-- Steps 8a, 8b for one zone: the cell-centred electric field at the half time step, :1203-1370. -/
def eccH (M : Funs R ns) (q1 q2 : R) (u : Cons R ns) (r1 l1 r2 l2 : Cons1 R ns) (b1l b1r b2l b2r : R) : R :=
  let dh := floorD M (u.d - q1 * (r1.d - l1.d) - q2 * (r2.d - l2.d))
  let M1h := u.M1 - q1 * (r1.Mx - l1.Mx) - q2 * (r2.Mz - l2.Mz)
  let M2h := u.M2 - q1 * (r1.My - l1.My) - q2 * (r2.Mx - l2.Mx)
  let B1ch := half * (b1l + b1r)
  let B2ch := half * (b2l + b2r)
  (B1ch * M2h - B2ch * M1h) / dh

/-- Steps 9b, 9c for one interface, :1430-1435, :1453-1458. -/
def fluxC (M : Funs R ns) (ul ur : Cons1 R ns) (bx : R) : Cons1 R ns :=
  M.flux ul ur (M.c2p1 ul bx) (M.c2p1 ur bx) bx

end Formulas

/-- The static work arrays.  `W1`, `Bx1` (`W2`, `Bx2`) are the contents of `W`, `Bxc` when row `j` (column `i`) is
processed in Step 1 (2). -/
structure WorkC2 (R : Type) (ns : ℕ) where
  B1F : Pla R
  B2F : Pla R
  x1Flux : Pla (Cons1 R ns)
  x2Flux : Pla (Cons1 R ns)
  U1 : Bool → Pla (Cons1 R ns)
  U2 : Bool → Pla (Cons1 R ns)
  emf3cc : Pla R
  emf3 : Pla R
  W1 : ℤ → ℤ → Prim1 R ns
  Bx1 : ℤ → ℤ → R
  W2 : ℤ → ℤ → Prim1 R ns
  Bx2 : ℤ → ℤ → R

section Model
variable {R : Type} {ns : ℕ} [NumC R] (M : Funs R ns) (q : Step R) (g : Rng) (P : Pl R ns) (J : WorkC2 R ns)

/-- Step 1, :194-266: `Wl[i]`, `Wr[i]` of row `j`. -/
def c2W1 (l : Bool) (j i : ℤ) : Prim1 R ns :=
  let Bxc := loop1 (g.is-g.ng) (g.ie+g.ng) (fun i => (P.U j i).B1c) (J.Bx1 j)
  let W := loop1 (g.is-g.ng) (g.ie+g.ng) (fun i => M.c2p1 (load1 (P.U j i)) (Bxc i)) (J.W1 j)
  let w := pick l (M.lr q.dt q.dx1 0 (fun m => W (i+m)) (fun m => Bxc (i+m)))
  srcW1 (half * q.dt) (NumC.one / q.dx1) (P.U j (i - off l)) (P.B1i j (i - off l)) (P.B1i j (i - off l + 1)) (floorW M w)
/-- Step 2, :514-570: `Wl[j]`, `Wr[j]` of column `i`. -/
def c2W2 (l : Bool) (j i : ℤ) : Prim1 R ns :=
  let Bxc := loop1 (g.js-g.ng) (g.je+g.ng) (fun j => (P.U j i).B2c) (J.Bx2 i)
  let W := loop1 (g.js-g.ng) (g.je+g.ng) (fun j => M.c2p1 (load2 (P.U j i)) (Bxc j)) (J.W2 i)
  let w := pick l (M.lr q.dt q.dx2 1 (fun m => W (j+m)) (fun m => Bxc (j+m)))
  srcW2 (half * q.dt) (NumC.one / q.dx2) (P.U (j - off l) i) (P.B2i (j - off l) i) (P.B2i (j - off l + 1) i) (floorW M w)
/-- Step 1d, :496-504: `Ul_x1Face`, `Ur_x1Face`. -/
def c2U1 (l : Bool) : Pla (Cons1 R ns) := loop2 (g.js-2) (g.je+2) (g.is-2+1) (g.ie+2)
  (fun j i => M.p2c1 (c2W1 M q g P J l j i) (P.B1i j i)) (J.U1 l)
/-- Step 2d, :648-655. -/
def c2U2 (l : Bool) : Pla (Cons1 R ns) := loop2 (g.js-2+1) (g.je+2) (g.is-2) (g.ie+2)
  (fun j i => M.p2c1 (c2W2 M q g P J l j i) (P.B2i j i)) (J.U2 l)
/-- Step 1a, :208: `B1_x1Face`. -/
def c2B1 : Pla R := loop2 (g.js-2) (g.je+2) (g.is-g.ng) (g.ie+g.ng) P.B1i J.B1F
/-- Step 2a, :534: `B2_x2Face`. -/
def c2B2 : Pla R := loop2 (g.js-g.ng) (g.je+g.ng) (g.is-2) (g.ie+2) P.B2i J.B2F
/-- Step 1d, :501-503: `x1Flux`. -/
def c2F1 : Pla (Cons1 R ns) := loop2 (g.js-2) (g.je+2) (g.is-2+1) (g.ie+2) (fun j i =>
  M.flux (c2U1 M q g P J true j i) (c2U1 M q g P J false j i) (c2W1 M q g P J true j i) (c2W1 M q g P J false j i)
    (c2B1 g P J j i)) J.x1Flux
/-- Step 2d, :652-654: `x2Flux`. -/
def c2F2 : Pla (Cons1 R ns) := loop2 (g.js-2+1) (g.je+2) (g.is-2) (g.ie+2) (fun j i =>
  M.flux (c2U2 M q g P J true j i) (c2U2 M q g P J false j i) (c2W2 M q g P J true j i) (c2W2 M q g P J false j i)
    (c2B2 g P J j i)) J.x2Flux
/-- Step 4a, :668-674. -/
def c2Ecc : Pla R := loop2 (g.js-2) (g.je+2) (g.is-2) (g.ie+2) (fun j i => eccC (P.U j i)) J.emf3cc
/-- `integrate_emf3_corner`, :2278-2352. -/
def cornC (F1 F2 : Pla (Cons1 R ns)) (c old : Pla R) : Pla R :=
  loop2 (g.js-1) (g.je+2) (g.is-1) (g.ie+2) (corner2d F1 F2 c) old
/-- Step 4a, :676. -/
def c2Emf : Pla R := cornC g (c2F1 M q g P J) (c2F2 M q g P J) (c2Ecc g P J) J.emf3
/-- Step 4b, :682-694. -/
def c2B1h : Pla R := facesI (g.js-2+1) (g.je+2-1) (g.is-2+1) (g.ie+2-1) (cB1 (half * (q.dt / q.dx2)) (c2Emf M q g P J)) (c2B1 g P J)
/-- Step 4b, :682-697. -/
def c2B2h : Pla R := facesJ (g.js-2+1) (g.je+2-1) (g.is-2+1) (g.ie+2-1) (cB2 (half * (q.dt / q.dx1)) (c2Emf M q g P J)) (c2B2 g P J)
/-- Steps 5a, 5c, 6e, :707-794, :1169-1187. -/
def c2U1' (l : Bool) : Pla (Cons1 R ns) :=
  let F2 := c2F2 M q g P J
  let U := mod2 (g.js-2+1) (g.je+2-1) (g.is-2+1) (g.ie+2)
    (fun j i => trans1 (half * (q.dt / q.dx2)) (F2 (j+1) (i - off l)) (F2 j (i - off l))) (c2U1 M q g P J l)
  let U := mod2 (g.js-2+1) (g.je+2-1) (g.is-2+1) (g.ie+2)
    (fun j i => mhd1 (half * (q.dt / q.dx1)) (P.U j (i - off l)) (P.B1i j (i - off l + 1) - P.B1i j (i - off l))) U
  mod2 (g.js-2+1) (g.je+2-1) (g.is-2+1) (g.ie+2-1) (fun _ _ => floorU M) U
/-- Steps 6a, 6c, 6e, :885-960, :1169-1187. -/
def c2U2' (l : Bool) : Pla (Cons1 R ns) :=
  let F1 := c2F1 M q g P J
  let U := mod2 (g.js-2+1) (g.je+2) (g.is-2+1) (g.ie+2-1)
    (fun j i => trans2 (half * (q.dt / q.dx1)) (F1 (j - off l) (i+1)) (F1 (j - off l) i)) (c2U2 M q g P J l)
  let U := mod2 (g.js-2+1) (g.je+2) (g.is-2+1) (g.ie+2-1)
    (fun j i => mhd2 (half * (q.dt / q.dx2)) (P.U (j - off l) i) (P.B2i (j - off l + 1) i - P.B2i (j - off l) i)) U
  mod2 (g.js-2+1) (g.je+2-1) (g.is-2+1) (g.ie+2-1) (fun _ _ => floorU M) U
/-- Step 8, :1203-1370. -/
def c2Ecc' : Pla R := loop2 (g.js-2+1) (g.je+2-1) (g.is-2+1) (g.ie+2-1) (fun j i =>
  eccH M (half * (q.dt / q.dx1)) (half * (q.dt / q.dx2)) (P.U j i) (c2F1 M q g P J j (i+1)) (c2F1 M q g P J j i)
    (c2F2 M q g P J (j+1) i) (c2F2 M q g P J j i) (c2B1h M q g P J j i) (c2B1h M q g P J j (i+1))
    (c2B2h M q g P J j i) (c2B2h M q g P J (j+1) i)) (c2Ecc g P J)
/-- Step 9b, :1421-1437. -/
def c2G1 : Pla (Cons1 R ns) := loop2 (g.js-1) (g.je+1) g.is (g.ie+1) (fun j i =>
  fluxC M (c2U1' M q g P J true j i) (c2U1' M q g P J false j i) (c2B1h M q g P J j i)) (c2F1 M q g P J)
/-- Step 9c, :1444-1460. -/
def c2G2 : Pla (Cons1 R ns) := loop2 g.js (g.je+1) (g.is-1) (g.ie+1) (fun j i =>
  fluxC M (c2U2' M q g P J true j i) (c2U2' M q g P J false j i) (c2B2h M q g P J j i)) (c2F2 M q g P J)
/-- Step 10a, :1469. -/
def c2Emf' : Pla R := cornC g (c2G1 M q g P J) (c2G2 M q g P J) (c2Ecc' M q g P J) (c2Emf M q g P J)

/-- Steps 10b-12, :1475-1969: the new contents of the Grid from the fluxes and the edge electric field. -/
def updC2 (S : St R ns) (F1 F2 : Pla (Cons1 R ns)) (e : Pla R) : St R ns :=
  let B1 := facesI g.js g.je g.is g.ie (cB1 (q.dt / q.dx2) e) (S.B1i g.ks)
  let B2 := facesJ g.js g.je g.is g.ie (cB2 (q.dt / q.dx1) e) (S.B2i g.ks)
  let U := mod2 g.js g.je g.is g.ie (fun j i => updA1 (q.dt / q.dx1) (F1 j (i+1)) (F1 j i)) (S.U g.ks)
  let U := mod2 g.js g.je g.is g.ie (fun j i => updA2 (q.dt / q.dx2) (F2 (j+1) i) (F2 j i)) U
  let U := mod2 g.js g.je g.is g.ie (avg2 B1 B2) U
  ⟨setPl g.ks U S.U, setPl g.ks B1 S.B1i, setPl g.ks B2 S.B2i,
   setPl g.ks (loop2 g.js g.je g.is g.ie (fun j i => (U j i).B3c) (S.B3i g.ks)) S.B3i⟩

/-- `integrate_2d_ctu`, :96-2130. -/
def ctu2 (S : St R ns) : St R ns :=
  updC2 q g S (c2G1 M q g (plane S g.ks) J) (c2G2 M q g (plane S g.ks) J) (c2Emf' M q g (plane S g.ks) J)

end Model

/-! ## On the lattice -/

section Ideal
variable {R : Type} {ns : ℕ} [NumC R] (M : Funs R ns) (q : Step R) (P : Pl R ns)

def d2W1 (l : Bool) (j i : ℤ) : Prim1 R ns :=
  let w := pick l (M.lr q.dt q.dx1 0 (fun m => M.c2p1 (load1 (P.U j (i+m))) (P.U j (i+m)).B1c) (fun m => (P.U j (i+m)).B1c))
  srcW1 (half * q.dt) (NumC.one / q.dx1) (P.U j (i - off l)) (P.B1i j (i - off l)) (P.B1i j (i - off l + 1)) (floorW M w)
def d2W2 (l : Bool) (j i : ℤ) : Prim1 R ns :=
  let w := pick l (M.lr q.dt q.dx2 1 (fun m => M.c2p1 (load2 (P.U (j+m) i)) (P.U (j+m) i).B2c) (fun m => (P.U (j+m) i).B2c))
  srcW2 (half * q.dt) (NumC.one / q.dx2) (P.U (j - off l) i) (P.B2i (j - off l) i) (P.B2i (j - off l + 1) i) (floorW M w)
def d2U1 (l : Bool) : Pla (Cons1 R ns) := fun j i => M.p2c1 (d2W1 M q P l j i) (P.B1i j i)
def d2U2 (l : Bool) : Pla (Cons1 R ns) := fun j i => M.p2c1 (d2W2 M q P l j i) (P.B2i j i)
def d2F1 : Pla (Cons1 R ns) := fun j i =>
  M.flux (d2U1 M q P true j i) (d2U1 M q P false j i) (d2W1 M q P true j i) (d2W1 M q P false j i) (P.B1i j i)
def d2F2 : Pla (Cons1 R ns) := fun j i =>
  M.flux (d2U2 M q P true j i) (d2U2 M q P false j i) (d2W2 M q P true j i) (d2W2 M q P false j i) (P.B2i j i)
def d2Emf : Pla R := corner2d (d2F1 M q P) (d2F2 M q P) (fun j i => eccC (P.U j i))
def d2B1h : Pla R := fun j i => cB1 (half * (q.dt / q.dx2)) (d2Emf M q P) j i (P.B1i j i)
def d2B2h : Pla R := fun j i => cB2 (half * (q.dt / q.dx1)) (d2Emf M q P) j i (P.B2i j i)
def d2U1' (l : Bool) : Pla (Cons1 R ns) := fun j i =>
  floorU M (mhd1 (half * (q.dt / q.dx1)) (P.U j (i - off l)) (P.B1i j (i - off l + 1) - P.B1i j (i - off l))
    (trans1 (half * (q.dt / q.dx2)) (d2F2 M q P (j+1) (i - off l)) (d2F2 M q P j (i - off l)) (d2U1 M q P l j i)))
def d2U2' (l : Bool) : Pla (Cons1 R ns) := fun j i =>
  floorU M (mhd2 (half * (q.dt / q.dx2)) (P.U (j - off l) i) (P.B2i (j - off l + 1) i - P.B2i (j - off l) i)
    (trans2 (half * (q.dt / q.dx1)) (d2F1 M q P (j - off l) (i+1)) (d2F1 M q P (j - off l) i) (d2U2 M q P l j i)))
def d2Ecc' : Pla R := fun j i =>
  eccH M (half * (q.dt / q.dx1)) (half * (q.dt / q.dx2)) (P.U j i) (d2F1 M q P j (i+1)) (d2F1 M q P j i)
    (d2F2 M q P (j+1) i) (d2F2 M q P j i) (d2B1h M q P j i) (d2B1h M q P j (i+1)) (d2B2h M q P j i) (d2B2h M q P (j+1) i)
def d2G1 : Pla (Cons1 R ns) := fun j i => fluxC M (d2U1' M q P true j i) (d2U1' M q P false j i) (d2B1h M q P j i)
def d2G2 : Pla (Cons1 R ns) := fun j i => fluxC M (d2U2' M q P true j i) (d2U2' M q P false j i) (d2B2h M q P j i)
def d2Emf' : Pla R := corner2d (d2G1 M q P) (d2G2 M q P) (d2Ecc' M q P)

theorem pr (a m o : ℤ) : a - m + o = a + o - m := by omega

variable (b d j i : ℤ) (l : Bool)
theorem u2W1 : d2W1 M q (P.sh b d) l j i = d2W1 M q P l (j+b) (i+d) := by
  simp only [d2W1, Pl.sh, pp, pr i _ d, pq i _ d]
theorem u2W2 : d2W2 M q (P.sh b d) l j i = d2W2 M q P l (j+b) (i+d) := by
  simp only [d2W2, Pl.sh, pp, pr j _ b, pq j _ b]
theorem u2U1 : d2U1 M q (P.sh b d) l j i = d2U1 M q P l (j+b) (i+d) := by
  simp only [d2U1, u2W1]; simp only [Pl.sh]
theorem u2U2 : d2U2 M q (P.sh b d) l j i = d2U2 M q P l (j+b) (i+d) := by
  simp only [d2U2, u2W2]; simp only [Pl.sh]
theorem u2F1 : d2F1 M q (P.sh b d) j i = d2F1 M q P (j+b) (i+d) := by
  simp only [d2F1, u2W1, u2U1]; simp only [Pl.sh]
theorem u2F2 : d2F2 M q (P.sh b d) j i = d2F2 M q P (j+b) (i+d) := by
  simp only [d2F2, u2W2, u2U2]; simp only [Pl.sh]
theorem u2Emf : d2Emf M q (P.sh b d) j i = d2Emf M q P (j+b) (i+d) := by
  simp only [d2Emf, corner2d, u2F1, u2F2, pm]; simp only [Pl.sh, pm]
theorem u2B1h : d2B1h M q (P.sh b d) j i = d2B1h M q P (j+b) (i+d) := by
  simp only [d2B1h, cB1, u2Emf, pp]; simp only [Pl.sh]
theorem u2B2h : d2B2h M q (P.sh b d) j i = d2B2h M q P (j+b) (i+d) := by
  simp only [d2B2h, cB2, u2Emf, pp]; simp only [Pl.sh]
theorem u2U1' : d2U1' M q (P.sh b d) l j i = d2U1' M q P l (j+b) (i+d) := by
  simp only [d2U1', u2F2, u2U1, pp, pr i _ d]; simp only [Pl.sh, pp, pr i _ d]
theorem u2U2' : d2U2' M q (P.sh b d) l j i = d2U2' M q P l (j+b) (i+d) := by
  simp only [d2U2', u2F1, u2U2, pp, pr j _ b]; simp only [Pl.sh, pp, pr j _ b]
theorem u2Ecc' : d2Ecc' M q (P.sh b d) j i = d2Ecc' M q P (j+b) (i+d) := by
  simp only [d2Ecc', u2F1, u2F2, u2B1h, u2B2h, pp]; simp only [Pl.sh]
theorem u2G1 : d2G1 M q (P.sh b d) j i = d2G1 M q P (j+b) (i+d) := by simp only [d2G1, u2U1', u2B1h]
theorem u2G2 : d2G2 M q (P.sh b d) j i = d2G2 M q P (j+b) (i+d) := by simp only [d2G2, u2U2', u2B2h]
theorem u2Emf' : d2Emf' M q (P.sh b d) j i = d2Emf' M q P (j+b) (i+d) := by
  simp only [d2Emf', corner2d, u2G1, u2G2, u2Ecc', pm]

end Ideal

/-! ## Agreement -/

section Agreement
variable {R : Type} {ns : ℕ} [NumC R] {M : Funs R ns} {q : Step R} {g : Rng} {P Q : Pl R ns} {J : WorkC2 R ns}
variable (hM : M.Local) (h : Agr2 g P Q)
include hM h

theorem e2W1 (l : Bool) {j i : ℤ} (h3 : g.js-2 ≤ j) (h4 : j ≤ g.je+2) (h5 : g.is-1 ≤ i) (h6 : i ≤ g.ie+2) :
    c2W1 M q g P J l j i = d2W1 M q Q l j i := by
  have := h.hng
  have := off_le l
  have e : M.lr q.dt q.dx1 0
      (fun m => loop1 (g.is-g.ng) (g.ie+g.ng) (fun i => M.c2p1 (load1 (P.U j i))
        (loop1 (g.is-g.ng) (g.ie+g.ng) (fun i => (P.U j i).B1c) (J.Bx1 j) i)) (J.W1 j) (i+m))
      (fun m => loop1 (g.is-g.ng) (g.ie+g.ng) (fun i => (P.U j i).B1c) (J.Bx1 j) (i+m)) =
      M.lr q.dt q.dx1 0 (fun m => M.c2p1 (load1 (Q.U j (i+m))) (Q.U j (i+m)).B1c) (fun m => (Q.U j (i+m)).B1c) := by
    refine hM _ _ _ _ _ _ _ fun m hm hm' => ?_
    simp (disch := omega) only [loop1_in, h.U, and_self]
  simp only [c2W1, d2W1, e]
  simp (disch := omega) only [h.U, h.B1]
theorem e2W2 (l : Bool) {j i : ℤ} (h3 : g.js-1 ≤ j) (h4 : j ≤ g.je+2) (h5 : g.is-2 ≤ i) (h6 : i ≤ g.ie+2) :
    c2W2 M q g P J l j i = d2W2 M q Q l j i := by
  have := h.hng
  have := off_le l
  have e : M.lr q.dt q.dx2 1
      (fun m => loop1 (g.js-g.ng) (g.je+g.ng) (fun j => M.c2p1 (load2 (P.U j i))
        (loop1 (g.js-g.ng) (g.je+g.ng) (fun j => (P.U j i).B2c) (J.Bx2 i) j)) (J.W2 i) (j+m))
      (fun m => loop1 (g.js-g.ng) (g.je+g.ng) (fun j => (P.U j i).B2c) (J.Bx2 i) (j+m)) =
      M.lr q.dt q.dx2 1 (fun m => M.c2p1 (load2 (Q.U (j+m) i)) (Q.U (j+m) i).B2c) (fun m => (Q.U (j+m) i).B2c) := by
    refine hM _ _ _ _ _ _ _ fun m hm hm' => ?_
    simp (disch := omega) only [loop1_in, h.U, and_self]
  simp only [c2W2, d2W2, e]
  simp (disch := omega) only [h.U, h.B2]
theorem e2U1 (l : Bool) {j i : ℤ} (h3 : g.js-2 ≤ j) (h4 : j ≤ g.je+2) (h5 : g.is-1 ≤ i) (h6 : i ≤ g.ie+2) :
    c2U1 M q g P J l j i = d2U1 M q Q l j i := by
  have := h.hng
  simp (disch := omega) only [c2U1, d2U1, loop2_in, e2W1 hM h, h.B1]
theorem e2U2 (l : Bool) {j i : ℤ} (h3 : g.js-1 ≤ j) (h4 : j ≤ g.je+2) (h5 : g.is-2 ≤ i) (h6 : i ≤ g.ie+2) :
    c2U2 M q g P J l j i = d2U2 M q Q l j i := by
  have := h.hng
  simp (disch := omega) only [c2U2, d2U2, loop2_in, e2W2 hM h, h.B2]
theorem e2F1 {j i : ℤ} (h3 : g.js-2 ≤ j) (h4 : j ≤ g.je+2) (h5 : g.is-1 ≤ i) (h6 : i ≤ g.ie+2) :
    c2F1 M q g P J j i = d2F1 M q Q j i := by
  have := h.hng
  simp (disch := omega) only [c2F1, d2F1, c2B1, loop2_in, e2U1 hM h, e2W1 hM h, h.B1]
theorem e2F2 {j i : ℤ} (h3 : g.js-1 ≤ j) (h4 : j ≤ g.je+2) (h5 : g.is-2 ≤ i) (h6 : i ≤ g.ie+2) :
    c2F2 M q g P J j i = d2F2 M q Q j i := by
  have := h.hng
  simp (disch := omega) only [c2F2, d2F2, c2B2, loop2_in, e2U2 hM h, e2W2 hM h, h.B2]
theorem e2Emf {j i : ℤ} (h3 : g.js-1 ≤ j) (h4 : j ≤ g.je+2) (h5 : g.is-1 ≤ i) (h6 : i ≤ g.ie+2) :
    c2Emf M q g P J j i = d2Emf M q Q j i := by
  have := h.hng
  rw [c2Emf, cornC, loop2_in _ _ h3 h4 h5 h6]
  simp (disch := omega) only [d2Emf, corner2d, e2F1 hM h, e2F2 hM h, c2Ecc, loop2_in, h.U]
theorem e2B1h {j i : ℤ} (h3 : g.js-1 ≤ j) (h4 : j ≤ g.je+1) (h5 : g.is-1 ≤ i) (h6 : i ≤ g.ie+2) :
    c2B1h M q g P J j i = d2B1h M q Q j i := by
  have := h.hng
  rw [c2B1h, facesI_in _ _ (by omega) (by omega) (by omega) (by omega), c2B1, loop2_in _ _ (by omega) (by omega) (by omega) (by omega)]
  simp (disch := omega) only [d2B1h, cB1, e2Emf hM h, h.B1]
theorem e2B2h {j i : ℤ} (h3 : g.js-1 ≤ j) (h4 : j ≤ g.je+2) (h5 : g.is-1 ≤ i) (h6 : i ≤ g.ie+1) :
    c2B2h M q g P J j i = d2B2h M q Q j i := by
  have := h.hng
  rw [c2B2h, facesJ_in _ _ (by omega) (by omega) (by omega) (by omega), c2B2, loop2_in _ _ (by omega) (by omega) (by omega) (by omega)]
  simp (disch := omega) only [d2B2h, cB2, e2Emf hM h, h.B2]
theorem e2U1' (l : Bool) {j i : ℤ} (h3 : g.js-1 ≤ j) (h4 : j ≤ g.je+1) (h5 : g.is-1 ≤ i) (h6 : i ≤ g.ie+1) :
    c2U1' M q g P J l j i = d2U1' M q Q l j i := by
  have := h.hng
  have := off_le l
  simp (disch := omega) only [c2U1', mod2_in]
  simp (disch := omega) only [d2U1', e2U1 hM h, e2F2 hM h, h.U, h.B1]
theorem e2U2' (l : Bool) {j i : ℤ} (h3 : g.js-1 ≤ j) (h4 : j ≤ g.je+1) (h5 : g.is-1 ≤ i) (h6 : i ≤ g.ie+1) :
    c2U2' M q g P J l j i = d2U2' M q Q l j i := by
  have := h.hng
  have := off_le l
  simp (disch := omega) only [c2U2', mod2_in]
  simp (disch := omega) only [d2U2', e2U2 hM h, e2F1 hM h, h.U, h.B2]
theorem e2Ecc' {j i : ℤ} (h3 : g.js-1 ≤ j) (h4 : j ≤ g.je+1) (h5 : g.is-1 ≤ i) (h6 : i ≤ g.ie+1) :
    c2Ecc' M q g P J j i = d2Ecc' M q Q j i := by
  have := h.hng
  rw [c2Ecc', loop2_in _ _ (by omega) (by omega) (by omega) (by omega)]
  simp (disch := omega) only [d2Ecc', e2F1 hM h, e2F2 hM h, e2B1h hM h, e2B2h hM h, h.U]
theorem e2G1 {j i : ℤ} (h3 : g.js-1 ≤ j) (h4 : j ≤ g.je+1) (h5 : g.is ≤ i) (h6 : i ≤ g.ie+1) :
    c2G1 M q g P J j i = d2G1 M q Q j i := by
  have := h.hng
  simp (disch := omega) only [c2G1, d2G1, loop2_in, e2U1' hM h, e2B1h hM h]
theorem e2G2 {j i : ℤ} (h3 : g.js ≤ j) (h4 : j ≤ g.je+1) (h5 : g.is-1 ≤ i) (h6 : i ≤ g.ie+1) :
    c2G2 M q g P J j i = d2G2 M q Q j i := by
  have := h.hng
  simp (disch := omega) only [c2G2, d2G2, loop2_in, e2U2' hM h, e2B2h hM h]
theorem e2Emf' {j i : ℤ} (h3 : g.js ≤ j) (h4 : j ≤ g.je+1) (h5 : g.is ≤ i) (h6 : i ≤ g.ie+1) :
    c2Emf' M q g P J j i = d2Emf' M q Q j i := by
  have := h.hng
  rw [c2Emf', cornC, loop2_in _ _ (by omega) (by omega) (by omega) (by omega)]
  simp (disch := omega) only [d2Emf', corner2d, e2G1 hM h, e2G2 hM h, e2Ecc' hM h]

end Agreement

section Results
variable {R : Type} {ns : ℕ} [NumC R]

/-- The order of the updates of Steps 11-13 (van Leer) and 10-12 (CTU) does not matter. -/
theorem updC2_eq (q : Step R) (g : Rng) (S : St R ns) (F1 F2 : Pla (Cons1 R ns)) (e : Pla R) :
    updC2 q g S F1 F2 e = updV2 q g S F1 F2 e := by
  have : ∀ j i,
      mod2 g.js g.je g.is g.ie (avg2 (facesI g.js g.je g.is g.ie (cB1 (q.dt / q.dx2) e) (S.B1i g.ks))
          (facesJ g.js g.je g.is g.ie (cB2 (q.dt / q.dx1) e) (S.B2i g.ks)))
        (mod2 g.js g.je g.is g.ie (fun j i => updA2 (q.dt / q.dx2) (F2 (j+1) i) (F2 j i))
          (mod2 g.js g.je g.is g.ie (fun j i => updA1 (q.dt / q.dx1) (F1 j (i+1)) (F1 j i)) (S.U g.ks))) j i =
      mod2 g.js g.je g.is g.ie (fun j i => updB2 (q.dt / q.dx2) (F2 (j+1) i) (F2 j i))
        (mod2 g.js g.je g.is g.ie (fun j i => updB1 (q.dt / q.dx1) (F1 j (i+1)) (F1 j i))
          (mod2 g.js g.je g.is g.ie (avg2 (facesI g.js g.je g.is g.ie (cB1 (q.dt / q.dx2) e) (S.B1i g.ks))
          (facesJ g.js g.je g.is g.ie (cB2 (q.dt / q.dx1) e) (S.B2i g.ks))) (S.U g.ks))) j i := by
    intro j i
    by_cases h : (g.js ≤ j ∧ j ≤ g.je) ∧ (g.is ≤ i ∧ i ≤ g.ie)
    · obtain ⟨⟨h1, h2⟩, h3, h4⟩ := h
      simp only [mod2_in _ _ h1 h2 h3 h4]; rfl
    · simp only [mod2, loop2_out _ _ h]
  have e' := funext fun j => funext fun i => this j i
  simp only [updC2, updV2]
  rw [e']

/-- The step of `integrate_2d_ctu` on a lattice. -/
def latC2 (M : Funs R ns) (q : Step R) (L : St R ns) : St R ns :=
  lat2 q L (fun k => d2G1 M q (plane L k)) (fun k => d2G2 M q (plane L k)) (fun k => d2Emf' M q (plane L k))

theorem ctu2_lattice (M : Funs R ns) (hM : M.Local) :
    Lattice A2 (fun q g (S : St R ns) J => ctu2 M q g J S) (latC2 M) :=
  lattice_of (fun q L a b d => lat2_shift q b d L a _ _ _ _ _ _ (fun k j i => u2G1 M q (plane L (k+a)) b d j i)
      (fun k j i => u2G2 M q (plane L (k+a)) b d j i) (fun k j i => u2Emf' M q (plane L (k+a)) b d j i))
    fun q g S L J hg ha => by
      have h := agr2 hg ha
      have := hg.hng
      show ActEq A2 g (updC2 _ _ _ _ _ _) _
      rw [updC2_eq]
      exact act2 hg ha (fun j i h3 h4 h5 h6 => e2G1 hM h (by omega) (by omega) h5 h6)
        (fun j i h3 h4 h5 h6 => e2G2 hM h h3 h4 (by omega) (by omega)) (fun j i h3 h4 h5 h6 => e2Emf' hM h h3 h4 h5 h6)

end Results
end Athena.Gen
