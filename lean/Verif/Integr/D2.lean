import Verif.Integr.D1

/-!
# src/integrators/integrate_2d_vl.c, and what it shares with integrate_2d_ctu.c

Newtonian, Cartesian (`rsf = lsf = 1.0`), without source terms, `H_CORRECTION`, first-order flux correction and mesh
refinement; MHD, adiabatic, any number of scalars.  The work arrays of the 2D integrators have the indices `j`, `i`;
the Grid is used at `k = ks`.
-/

namespace Athena.Gen
open Athena.Bvals hiding Rng
open Athena.Vl3
open Num

/-- A 2D array, `a[j][i]`. -/
abbrev Pla (α : Type) := ℤ → ℤ → α

/-- A double loop `j = jl … ju`, `i = il … iu` that sets element `[j][i]` to `f j i`. -/
def loop2 {α : Type} (jl ju il iu : ℤ) (f old : Pla α) : Pla α := fun j i =>
  if (jl ≤ j ∧ j ≤ ju) ∧ (il ≤ i ∧ i ≤ iu) then f j i else old j i
/-- A double loop that changes element `[j][i]`. -/
def mod2 {α : Type} (jl ju il iu : ℤ) (f : ℤ → ℤ → α → α) (old : Pla α) : Pla α :=
  loop2 jl ju il iu (fun j i => f j i (old j i)) old
/-- `j = jl…ju`, `i = il…iu`, and after each row `i = iu+1`. -/
def facesI {α : Type} (jl ju il iu : ℤ) (f : ℤ → ℤ → α → α) (old : Pla α) : Pla α :=
  mod2 jl ju (iu+1) (iu+1) f (mod2 jl ju il iu f old)
/-- `j = jl…ju`, `i = il…iu`, and then the row `j = ju+1`. -/
def facesJ {α : Type} (jl ju il iu : ℤ) (f : ℤ → ℤ → α → α) (old : Pla α) : Pla α :=
  mod2 (ju+1) (ju+1) il iu f (mod2 jl ju il iu f old)
/-- Plane `ks` of a Grid array replaced. -/
def setPl {α : Type} (ks : ℤ) (p : Pla α) (a : Arr α) : Arr α := fun k j i => if k = ks then p j i else a k j i

/-- One plane of the Grid: what the 2D integrators read. -/
structure Pl (R : Type) (ns : ℕ) where
  U : Pla (Cons R ns)
  B1i : Pla R
  B2i : Pla R

/-- The plane `k` of the Grid. -/
def plane {R : Type} {ns : ℕ} (S : St R ns) (k : ℤ) : Pl R ns := ⟨S.U k, S.B1i k, S.B2i k⟩

section Formulas
variable {R : Type} {ns : ℕ} [NumC R]

/-- `integrate_emf3_corner` at one corner (Cartesian), integrate_2d_vl.c:1544-1598, integrate_2d_ctu.c:2293-2347. -/
def corner2d (F1 F2 : Pla (Cons1 R ns)) (c : Pla R) (j i : ℤ) : R :=
  let l2 := upwind (F1 (j-1) i).d (-(F1 (j-1) i).By + ((F2 j (i-1)).Bz - c (j-1) (i-1)))
    (-(F1 (j-1) i).By + ((F2 j i).Bz - c (j-1) i))
    (-(F1 (j-1) i).By + half * (((F2 j (i-1)).Bz - c (j-1) (i-1)) + ((F2 j i).Bz - c (j-1) i)))
  let r2 := upwind (F1 j i).d (-(F1 j i).By + ((F2 j (i-1)).Bz - c j (i-1)))
    (-(F1 j i).By + ((F2 j i).Bz - c j i))
    (-(F1 j i).By + half * (((F2 j (i-1)).Bz - c j (i-1)) + ((F2 j i).Bz - c j i)))
  let l1 := upwind (F2 j (i-1)).d ((F2 j (i-1)).Bz + (-(F1 (j-1) i).By - c (j-1) (i-1)))
    ((F2 j (i-1)).Bz + (-(F1 j i).By - c j (i-1)))
    ((F2 j (i-1)).Bz + half * (-(F1 (j-1) i).By - c (j-1) (i-1) - (F1 j i).By - c j (i-1)))
  let r1 := upwind (F2 j i).d ((F2 j i).Bz + (-(F1 (j-1) i).By - c (j-1) i))
    ((F2 j i).Bz + (-(F1 j i).By - c j i))
    ((F2 j i).Bz + half * (-(F1 (j-1) i).By - c (j-1) i - (F1 j i).By - c j i))
  quarter * (l1 + r1 + l2 + r2)

/-- `B1 -= q2*(emf3[j+1][i] - emf3[j][i])`, integrate_2d_vl.c:302, 308, 818, 824, integrate_2d_ctu.c:687, 693, 1480, 1486. -/
def cB1 (q2 : R) (e : Pla R) (j i : ℤ) (b : R) : R := b - q2 * (e (j+1) i - e j i)
/-- `B2 += q1*(emf3[j][i+1] - emf3[j][i])`, integrate_2d_vl.c:303, 311, 819, 827, integrate_2d_ctu.c:688, 696, 1481, 1489. -/
def cB2 (q1 : R) (e : Pla R) (j i : ℤ) (b : R) : R := b + q1 * (e j (i+1) - e j i)

/-- `B1c`, `B2c` from the faces, integrate_2d_vl.c:324-325, 839-840, integrate_2d_ctu.c:1964-1965. -/
def avg2 (B1 B2 : Pla R) (j i : ℤ) (u : Cons R ns) : Cons R ns :=
  { u with
    B1c := half * (B1 j i + B1 j (i+1))
    B2c := half * (B2 j i + B2 (j+1) i) }

/-- The x1-fluxes with `B3c`, integrate_2d_vl.c:341-353, 1124-1137. -/
def updB1 (q : R) (r l : Cons1 R ns) (u : Cons R ns) : Cons R ns :=
  { upd1 q r l u with B3c := u.B3c - q * (r.Bz - l.Bz) }
/-- The x2-fluxes with `B3c`, integrate_2d_vl.c:367-379, 1151-1164. -/
def updB2 (q : R) (r l : Cons1 R ns) (u : Cons R ns) : Cons R ns :=
  { upd2 q r l u with B3c := u.B3c - q * (r.By - l.By) }
/-- The x2-fluxes with `B1c`, `B3c`, integrate_2d_ctu.c:1934-1948. -/
def updA2 (q : R) (r l : Cons1 R ns) (u : Cons R ns) : Cons R ns :=
  { upd2 q r l u with
    B3c := u.B3c - q * (r.By - l.By)
    B1c := u.B1c - q * (r.Bz - l.Bz) }

/-- Steps 1b-1d for one interface, integrate_2d_vl.c:196-217, 251-272. -/
def fluxA (M : Funs R ns) (l r : Cons1 R ns) (bl br bi : R) : Cons1 R ns :=
  let wl := M.c2p1 l bl
  let wr := M.c2p1 r br
  M.flux (M.p2c1 wl bl) (M.p2c1 wr br) wl wr bi

end Formulas

/-! ## integrate_2d_vl -/

/-- The static work arrays.  `W1`, `Bx1` (`W2`, `Bx2`) are the contents of `W1d`, `Bxc` when row `j` (column `i`) is
processed in Step 7 (8).  `Wl_x1Face`, … are set and read over the same range and are left out. -/
structure WorkV2 (R : Type) (ns : ℕ) where
  Uhalf : Pla (Cons R ns)
  B1F : Pla R
  B2F : Pla R
  x1Flux : Pla (Cons1 R ns)
  x2Flux : Pla (Cons1 R ns)
  emf3cc : Pla R
  emf3 : Pla R
  W1 : ℤ → ℤ → Prim1 R ns
  Bx1 : ℤ → ℤ → R
  W2 : ℤ → ℤ → Prim1 R ns
  Bx2 : ℤ → ℤ → R

section Model
variable {R : Type} {ns : ℕ} [NumC R] (M : Funs R ns) (q : Step R) (g : Rng) (P : Pl R ns) (J : WorkV2 R ns)

/-- Step 1, :173-218. -/
def p2F1 : Pla (Cons1 R ns) := loop2 (g.js-g.ng) (g.je+g.ng) (g.is-(g.ng-1)) (g.ie+g.ng) (fun j i =>
  fluxA M (load1 (P.U j (i-1))) (load1 (P.U j i)) (P.U j (i-1)).B1c (P.U j i).B1c (P.B1i j i)) J.x1Flux
/-- Step 2, :228-273. -/
def p2F2 : Pla (Cons1 R ns) := loop2 (g.js-(g.ng-1)) (g.je+g.ng) (g.is-g.ng) (g.ie+g.ng) (fun j i =>
  fluxA M (load2 (P.U (j-1) i)) (load2 (P.U j i)) (P.U (j-1) i).B2c (P.U j i).B2c (P.B2i j i)) J.x2Flux
/-- Step 4a, :285-290. -/
def p2Ecc : Pla R := loop2 (g.js-g.ng) (g.je+g.ng) (g.is-g.ng) (g.ie+g.ng) (fun j i => ecc3 (M.c2p (P.U j i))) J.emf3cc
/-- `integrate_emf3_corner`, :1529-1603. -/
def cornV (F1 F2 : Pla (Cons1 R ns)) (c old : Pla R) : Pla R :=
  loop2 (g.js-(g.ng-1)) (g.je+(g.ng-1)+1) (g.is-(g.ng-1)) (g.ie+(g.ng-1)+1) (corner2d F1 F2 c) old
/-- Step 4a, :291. -/
def p2Emf : Pla R := cornV g (p2F1 M g P J) (p2F2 M g P J) (p2Ecc M g P J) J.emf3
/-- :155-163 and Step 4b, :297-312. -/
def p2B1F : Pla R := facesI (g.js-(g.ng-1)) (g.je+(g.ng-1)) (g.is-(g.ng-1)) (g.ie+(g.ng-1))
  (cB1 (half * (q.dt / q.dx2)) (p2Emf M g P J)) (loop2 (g.js-g.ng) (g.je+g.ng) (g.is-g.ng) (g.ie+g.ng) P.B1i J.B1F)
/-- :155-163 and Step 4b, :297-312. -/
def p2B2F : Pla R := facesJ (g.js-(g.ng-1)) (g.je+(g.ng-1)) (g.is-(g.ng-1)) (g.ie+(g.ng-1))
  (cB2 (half * (q.dt / q.dx1)) (p2Emf M g P J)) (loop2 (g.js-g.ng) (g.je+g.ng) (g.is-g.ng) (g.ie+g.ng) P.B2i J.B2F)
/-- A loop over `jl…ju`, `il…iu` changing `Uhalf`. -/
def halfV (f : ℤ → ℤ → Cons R ns → Cons R ns) (old : Pla (Cons R ns)) : Pla (Cons R ns) :=
  mod2 (g.js-(g.ng-1)) (g.je+(g.ng-1)) (g.is-(g.ng-1)) (g.ie+(g.ng-1)) f old
/-- :155-163 and Steps 4c-5b, :319-382. -/
def p2Uh : Pla (Cons R ns) :=
  let U := loop2 (g.js-g.ng) (g.je+g.ng) (g.is-g.ng) (g.ie+g.ng) P.U J.Uhalf
  let U := halfV g (avg2 (p2B1F M q g P J) (p2B2F M q g P J)) U
  let U := halfV g (fun j i => updB1 (half * (q.dt / q.dx1)) (p2F1 M g P J j (i+1)) (p2F1 M g P J j i)) U
  halfV g (fun j i => updB2 (half * (q.dt / q.dx2)) (p2F2 M g P J (j+1) i) (p2F2 M g P J j i)) U
/-- Step 7, :583-617. -/
def p2LR1 (j i : ℤ) : Prim1 R ns × Prim1 R ns :=
  let Bxc := loop1 (g.is-(g.ng-1)) (g.ie+(g.ng-1)) (fun i => (p2Uh M q g P J j i).B1c) (J.Bx1 j)
  let W1d := loop1 (g.is-(g.ng-1)) (g.ie+(g.ng-1)) (fun i => M.c2p1 (load1 (p2Uh M q g P J j i)) (Bxc i)) (J.W1 j)
  M.lr q.dt q.dx1 0 (fun m => W1d (i+m)) (fun m => Bxc (i+m))
/-- Step 8, :626-662. -/
def p2LR2 (j i : ℤ) : Prim1 R ns × Prim1 R ns :=
  let Bxc := loop1 (g.js-(g.ng-1)) (g.je+(g.ng-1)) (fun j => (p2Uh M q g P J j i).B2c) (J.Bx2 i)
  let W1d := loop1 (g.js-(g.ng-1)) (g.je+(g.ng-1)) (fun j => M.c2p1 (load2 (p2Uh M q g P J j i)) (Bxc j)) (J.W2 i)
  M.lr q.dt q.dx2 1 (fun m => W1d (j+m)) (fun m => Bxc (j+m))
/-- Step 10b, :705-739. -/
def p2G1 : Pla (Cons1 R ns) := loop2 (g.js-1) (g.je+1) g.is (g.ie+1)
  (fun j i => side M (p2LR1 M q g P J j i) (p2B1F M q g P J j i)) (p2F1 M g P J)
/-- Step 10c, :745-779. -/
def p2G2 : Pla (Cons1 R ns) := loop2 g.js (g.je+1) (g.is-1) (g.ie+1)
  (fun j i => side M (p2LR2 M q g P J j i) (p2B2F M q g P J j i)) (p2F2 M g P J)
/-- Step 11a, :796-801. -/
def p2Ecc' : Pla R := loop2 (g.js-1) (g.je+1) (g.is-1) (g.ie+1) (fun j i => ecc3 (M.c2p (p2Uh M q g P J j i))) (p2Ecc M g P J)
/-- Step 11b, :807. -/
def p2Emf' : Pla R := cornV g (p2G1 M q g P J) (p2G2 M q g P J) (p2Ecc' M q g P J) (p2Emf M g P J)

/-- Steps 11c-13, :813-1177: the new contents of the Grid from the fluxes and the edge electric field. -/
def updV2 (S : St R ns) (F1 F2 : Pla (Cons1 R ns)) (e : Pla R) : St R ns :=
  let B1 := facesI g.js g.je g.is g.ie (cB1 (q.dt / q.dx2) e) (S.B1i g.ks)
  let B2 := facesJ g.js g.je g.is g.ie (cB2 (q.dt / q.dx1) e) (S.B2i g.ks)
  let U := mod2 g.js g.je g.is g.ie (avg2 B1 B2) (S.U g.ks)
  let U := mod2 g.js g.je g.is g.ie (fun j i => updB1 (q.dt / q.dx1) (F1 j (i+1)) (F1 j i)) U
  let U := mod2 g.js g.je g.is g.ie (fun j i => updB2 (q.dt / q.dx2) (F2 (j+1) i) (F2 j i)) U
  ⟨setPl g.ks U S.U, setPl g.ks B1 S.B1i, setPl g.ks B2 S.B2i,
   setPl g.ks (loop2 g.js g.je g.is g.ie (fun j i => (U j i).B3c) (S.B3i g.ks)) S.B3i⟩

/-- `integrate_2d_vl`, :98-1381. -/
def vl2 (S : St R ns) : St R ns :=
  updV2 q g S (p2G1 M q g (plane S g.ks) J) (p2G2 M q g (plane S g.ks) J) (p2Emf' M q g (plane S g.ks) J)

end Model

/-! ## On the lattice -/

section Ideal
variable {R : Type} {ns : ℕ} [NumC R] (M : Funs R ns) (q : Step R) (P : Pl R ns)

def o2F1 : Pla (Cons1 R ns) := fun j i =>
  fluxA M (load1 (P.U j (i-1))) (load1 (P.U j i)) (P.U j (i-1)).B1c (P.U j i).B1c (P.B1i j i)
def o2F2 : Pla (Cons1 R ns) := fun j i =>
  fluxA M (load2 (P.U (j-1) i)) (load2 (P.U j i)) (P.U (j-1) i).B2c (P.U j i).B2c (P.B2i j i)
def o2Ecc : Pla R := fun j i => ecc3 (M.c2p (P.U j i))
def o2Emf : Pla R := corner2d (o2F1 M P) (o2F2 M P) (o2Ecc M P)
def o2B1F : Pla R := fun j i => cB1 (half * (q.dt / q.dx2)) (o2Emf M P) j i (P.B1i j i)
def o2B2F : Pla R := fun j i => cB2 (half * (q.dt / q.dx1)) (o2Emf M P) j i (P.B2i j i)
def o2Uh : Pla (Cons R ns) := fun j i =>
  updB2 (half * (q.dt / q.dx2)) (o2F2 M P (j+1) i) (o2F2 M P j i)
   (updB1 (half * (q.dt / q.dx1)) (o2F1 M P j (i+1)) (o2F1 M P j i)
    (avg2 (o2B1F M q P) (o2B2F M q P) j i (P.U j i)))
def o2LR1 (j i : ℤ) : Prim1 R ns × Prim1 R ns :=
  M.lr q.dt q.dx1 0 (fun m => M.c2p1 (load1 (o2Uh M q P j (i+m))) (o2Uh M q P j (i+m)).B1c)
    (fun m => (o2Uh M q P j (i+m)).B1c)
def o2LR2 (j i : ℤ) : Prim1 R ns × Prim1 R ns :=
  M.lr q.dt q.dx2 1 (fun m => M.c2p1 (load2 (o2Uh M q P (j+m) i)) (o2Uh M q P (j+m) i).B2c)
    (fun m => (o2Uh M q P (j+m) i).B2c)
def o2G1 : Pla (Cons1 R ns) := fun j i => side M (o2LR1 M q P j i) (o2B1F M q P j i)
def o2G2 : Pla (Cons1 R ns) := fun j i => side M (o2LR2 M q P j i) (o2B2F M q P j i)
def o2Ecc' : Pla R := fun j i => ecc3 (M.c2p (o2Uh M q P j i))
def o2Emf' : Pla R := corner2d (o2G1 M q P) (o2G2 M q P) (o2Ecc' M q P)

/-- The step of either integrator on a lattice, given the fluxes and electric field of a plane. -/
def lat2 (L : St R ns) (F1 F2 : Arr (Cons1 R ns)) (e : Arr R) : St R ns :=
  let B1 : Arr R := fun k j i => cB1 (q.dt / q.dx2) (e k) j i (L.B1i k j i)
  let B2 : Arr R := fun k j i => cB2 (q.dt / q.dx1) (e k) j i (L.B2i k j i)
  let U : Arr (Cons R ns) := fun k j i => updB2 (q.dt / q.dx2) (F2 k (j+1) i) (F2 k j i)
    (updB1 (q.dt / q.dx1) (F1 k j (i+1)) (F1 k j i) (avg2 (B1 k) (B2 k) j i (L.U k j i)))
  ⟨U, B1, B2, fun k j i => (U k j i).B3c⟩

/-- Translation of a plane. -/
def Pl.sh (b d : ℤ) : Pl R ns :=
  ⟨fun j i => P.U (j+b) (i+d), fun j i => P.B1i (j+b) (i+d), fun j i => P.B2i (j+b) (i+d)⟩

variable (b d j i : ℤ)
theorem s2F1 : o2F1 M (P.sh b d) j i = o2F1 M P (j+b) (i+d) := by simp only [o2F1, Pl.sh, pm]
theorem s2F2 : o2F2 M (P.sh b d) j i = o2F2 M P (j+b) (i+d) := by simp only [o2F2, Pl.sh, pm]
theorem s2Emf : o2Emf M (P.sh b d) j i = o2Emf M P (j+b) (i+d) := by
  simp only [o2Emf, corner2d, s2F1, s2F2, pm]; simp only [o2Ecc, Pl.sh, pm]
theorem s2B1F : o2B1F M q (P.sh b d) j i = o2B1F M q P (j+b) (i+d) := by
  simp only [o2B1F, cB1, s2Emf, pp]; simp only [Pl.sh]
theorem s2B2F : o2B2F M q (P.sh b d) j i = o2B2F M q P (j+b) (i+d) := by
  simp only [o2B2F, cB2, s2Emf, pp]; simp only [Pl.sh]
theorem s2Uh : o2Uh M q (P.sh b d) j i = o2Uh M q P (j+b) (i+d) := by
  simp only [o2Uh, avg2, s2F1, s2F2, s2B1F, s2B2F, pp]; simp only [Pl.sh]
theorem s2LR1 : o2LR1 M q (P.sh b d) j i = o2LR1 M q P (j+b) (i+d) := by simp only [o2LR1, s2Uh, pq i _ d]
theorem s2LR2 : o2LR2 M q (P.sh b d) j i = o2LR2 M q P (j+b) (i+d) := by simp only [o2LR2, s2Uh, pq j _ b]
theorem s2G1 : o2G1 M q (P.sh b d) j i = o2G1 M q P (j+b) (i+d) := by simp only [o2G1, s2LR1, s2B1F]
theorem s2G2 : o2G2 M q (P.sh b d) j i = o2G2 M q P (j+b) (i+d) := by simp only [o2G2, s2LR2, s2B2F]
theorem s2Emf' : o2Emf' M q (P.sh b d) j i = o2Emf' M q P (j+b) (i+d) := by
  simp only [o2Emf', corner2d, s2G1, s2G2, o2Ecc', s2Uh, pm]

theorem lat2_shift (L : St R ns) (a : ℤ) (F1 F1' F2 F2' : Arr (Cons1 R ns)) (e e' : Arr R)
    (h1 : ∀ k j i, F1' k j i = F1 (k+a) (j+b) (i+d)) (h2 : ∀ k j i, F2' k j i = F2 (k+a) (j+b) (i+d))
    (he : ∀ k j i, e' k j i = e (k+a) (j+b) (i+d)) :
    (lat2 q L F1 F2 e).shift a b d = lat2 q (L.shift a b d) F1' F2' e' := by
  have e1 : F1' = fun k j i => F1 (k+a) (j+b) (i+d) := by funext k j i; exact h1 k j i
  have e2 : F2' = fun k j i => F2 (k+a) (j+b) (i+d) := by funext k j i; exact h2 k j i
  have e3 : e' = fun k j i => e (k+a) (j+b) (i+d) := by funext k j i; exact he k j i
  subst e1 e2 e3
  simp only [lat2, St.shift, avg2, cB1, cB2, pp]

theorem plane_shift (L : St R ns) (a k : ℤ) : plane (L.shift a b d) k = (plane L (k+a)).sh b d := rfl

end Ideal

/-! ## Agreement -/

section Loops
variable {α : Type} {jl ju il iu : ℤ} {j i : ℤ}
theorem loop2_in (f old : Pla α) (h3 : jl ≤ j) (h4 : j ≤ ju) (h5 : il ≤ i) (h6 : i ≤ iu) :
    loop2 jl ju il iu f old j i = f j i := if_pos ⟨⟨h3, h4⟩, ⟨h5, h6⟩⟩
theorem loop2_out (f old : Pla α) (h : ¬ ((jl ≤ j ∧ j ≤ ju) ∧ (il ≤ i ∧ i ≤ iu))) :
    loop2 jl ju il iu f old j i = old j i := if_neg h
theorem mod2_in (f : ℤ → ℤ → α → α) (old : Pla α) (h3 : jl ≤ j) (h4 : j ≤ ju) (h5 : il ≤ i) (h6 : i ≤ iu) :
    mod2 jl ju il iu f old j i = f j i (old j i) := if_pos ⟨⟨h3, h4⟩, ⟨h5, h6⟩⟩
theorem facesI_in (f : ℤ → ℤ → α → α) (old : Pla α) (h3 : jl ≤ j) (h4 : j ≤ ju) (h5 : il ≤ i) (h6 : i ≤ iu+1) :
    facesI jl ju il iu f old j i = f j i (old j i) := by
  unfold facesI
  by_cases h : i = iu+1
  · rw [mod2_in _ _ h3 h4 (by omega) h6, mod2, loop2_out _ _ (by omega)]
  · rw [mod2, loop2_out _ _ (by omega), mod2_in _ _ h3 h4 h5 (by omega)]
theorem facesJ_in (f : ℤ → ℤ → α → α) (old : Pla α) (h3 : jl ≤ j) (h4 : j ≤ ju+1) (h5 : il ≤ i) (h6 : i ≤ iu) :
    facesJ jl ju il iu f old j i = f j i (old j i) := by
  unfold facesJ
  by_cases h : j = ju+1
  · rw [mod2_in _ _ (by omega) h4 h5 h6, mod2, loop2_out _ _ (by omega)]
  · rw [mod2, loop2_out _ _ (by omega), mod2_in _ _ h3 (by omega) h5 h6]
theorem setPl_in (ks : ℤ) (p : Pla α) (a : Arr α) : setPl ks p a ks j i = p j i := if_pos rfl
end Loops

section Agreement
variable {R : Type} {ns : ℕ} [NumC R] {M : Funs R ns} {q : Step R} {g : Rng} {P Q : Pl R ns} {J : WorkV2 R ns}

/-- What is needed of the Grid. -/
structure Agr2 (g : Rng) (P Q : Pl R ns) : Prop where
  hng : 4 ≤ g.ng
  U : ∀ j i, g.js-g.ng ≤ j → j ≤ g.je+g.ng → g.is-g.ng ≤ i → i ≤ g.ie+g.ng → P.U j i = Q.U j i
  B1 : ∀ j i, g.js-g.ng ≤ j → j ≤ g.je+g.ng → g.is-g.ng+1 ≤ i → i ≤ g.ie+g.ng → P.B1i j i = Q.B1i j i
  B2 : ∀ j i, g.js-g.ng+1 ≤ j → j ≤ g.je+g.ng → g.is-g.ng ≤ i → i ≤ g.ie+g.ng → P.B2i j i = Q.B2i j i

theorem agr2 {S L : St R ns} (hg : RngOk A2 g) (ha : AgreeA A2 g S L) : Agr2 g (plane S g.ks) (plane L g.ks) where
  hng := hg.hng
  U j i h1 h2 h3 h4 := by
    refine ha.U _ _ _ ?_ ?_ ?_ ?_ ?_ ?_ <;> simp only [w2, sub_zero, add_zero, le_refl, hg.hk, h1, h2, h3, h4]
  B1 j i h1 h2 h3 h4 := by
    refine ha.B1 _ _ _ ?_ ?_ ?_ ?_ ?_ ?_ <;> simp only [w2, sub_zero, add_zero, le_refl, hg.hk, h1, h2, h3, h4]
  B2 j i h1 h2 h3 h4 := by
    refine ha.B2 _ _ _ ?_ ?_ ?_ ?_ ?_ ?_ <;> simp only [w2, sub_zero, add_zero, le_refl, hg.hk, h1, h2, h3, h4]

variable (h : Agr2 g P Q)
include h

theorem a2F1 {j i : ℤ} (h3 : g.js-g.ng ≤ j) (h4 : j ≤ g.je+g.ng) (h5 : g.is-g.ng+1 ≤ i) (h6 : i ≤ g.ie+g.ng) :
    p2F1 M g P J j i = o2F1 M Q j i := by
  have := h.hng
  rw [p2F1, loop2_in _ _ h3 h4 (by omega) h6]; simp (disch := omega) only [o2F1, h.U, h.B1]
theorem a2F2 {j i : ℤ} (h3 : g.js-g.ng+1 ≤ j) (h4 : j ≤ g.je+g.ng) (h5 : g.is-g.ng ≤ i) (h6 : i ≤ g.ie+g.ng) :
    p2F2 M g P J j i = o2F2 M Q j i := by
  have := h.hng
  rw [p2F2, loop2_in _ _ (by omega) h4 h5 h6]; simp (disch := omega) only [o2F2, h.U, h.B2]
theorem a2Ecc {j i : ℤ} (h3 : g.js-g.ng ≤ j) (h4 : j ≤ g.je+g.ng) (h5 : g.is-g.ng ≤ i) (h6 : i ≤ g.ie+g.ng) :
    p2Ecc M g P J j i = o2Ecc M Q j i := by
  rw [p2Ecc, loop2_in _ _ h3 h4 h5 h6, h.U _ _ h3 h4 h5 h6]; rfl
theorem a2Emf {j i : ℤ} (h3 : g.js-g.ng+1 ≤ j) (h4 : j ≤ g.je+g.ng) (h5 : g.is-g.ng+1 ≤ i) (h6 : i ≤ g.ie+g.ng) :
    p2Emf M g P J j i = o2Emf M Q j i := by
  rw [p2Emf, cornV, loop2_in _ _ (by omega) (by omega) (by omega) (by omega)]
  simp (disch := omega) only [o2Emf, corner2d, a2F1 h, a2F2 h, a2Ecc h]
theorem a2B1F {j i : ℤ} (h3 : g.js-g.ng+1 ≤ j) (h4 : j ≤ g.je+g.ng-1) (h5 : g.is-g.ng+1 ≤ i) (h6 : i ≤ g.ie+g.ng) :
    p2B1F M q g P J j i = o2B1F M q Q j i := by
  rw [p2B1F, facesI_in _ _ (by omega) (by omega) (by omega) (by omega), loop2_in _ _ (by omega) (by omega) (by omega) (by omega)]
  simp (disch := omega) only [o2B1F, cB1, a2Emf h, h.B1]
theorem a2B2F {j i : ℤ} (h3 : g.js-g.ng+1 ≤ j) (h4 : j ≤ g.je+g.ng) (h5 : g.is-g.ng+1 ≤ i) (h6 : i ≤ g.ie+g.ng-1) :
    p2B2F M q g P J j i = o2B2F M q Q j i := by
  rw [p2B2F, facesJ_in _ _ (by omega) (by omega) (by omega) (by omega), loop2_in _ _ (by omega) (by omega) (by omega) (by omega)]
  simp (disch := omega) only [o2B2F, cB2, a2Emf h, h.B2]
theorem a2Uh {j i : ℤ} (h3 : g.js-g.ng+1 ≤ j) (h4 : j ≤ g.je+g.ng-1) (h5 : g.is-g.ng+1 ≤ i) (h6 : i ≤ g.ie+g.ng-1) :
    p2Uh M q g P J j i = o2Uh M q Q j i := by
  have := h.hng
  simp (disch := omega) only [p2Uh, halfV, mod2_in, loop2_in]
  simp (disch := omega) only [o2Uh, avg2, a2F1 h, a2F2 h, a2B1F h, a2B2F h, h.U]
theorem a2LR1 (hM : M.Local) {j i : ℤ} (h3 : g.js-1 ≤ j) (h4 : j ≤ g.je+1) (h5 : g.is ≤ i) (h6 : i ≤ g.ie+1) :
    p2LR1 M q g P J j i = o2LR1 M q Q j i := by
  have := h.hng
  refine hM _ _ _ _ _ _ _ fun m hm hm' => ?_
  simp (disch := omega) only [loop1_in, a2Uh h, and_self]
theorem a2LR2 (hM : M.Local) {j i : ℤ} (h3 : g.js ≤ j) (h4 : j ≤ g.je+1) (h5 : g.is-1 ≤ i) (h6 : i ≤ g.ie+1) :
    p2LR2 M q g P J j i = o2LR2 M q Q j i := by
  have := h.hng
  refine hM _ _ _ _ _ _ _ fun m hm hm' => ?_
  simp (disch := omega) only [loop1_in, a2Uh h, and_self]
theorem a2G1 (hM : M.Local) {j i : ℤ} (h3 : g.js-1 ≤ j) (h4 : j ≤ g.je+1) (h5 : g.is ≤ i) (h6 : i ≤ g.ie+1) :
    p2G1 M q g P J j i = o2G1 M q Q j i := by
  have := h.hng
  simp (disch := omega) only [p2G1, loop2_in, o2G1, a2LR1 h hM, a2B1F h]
theorem a2G2 (hM : M.Local) {j i : ℤ} (h3 : g.js ≤ j) (h4 : j ≤ g.je+1) (h5 : g.is-1 ≤ i) (h6 : i ≤ g.ie+1) :
    p2G2 M q g P J j i = o2G2 M q Q j i := by
  have := h.hng
  simp (disch := omega) only [p2G2, loop2_in, o2G2, a2LR2 h hM, a2B2F h]
theorem a2Ecc' {j i : ℤ} (h3 : g.js-1 ≤ j) (h4 : j ≤ g.je+1) (h5 : g.is-1 ≤ i) (h6 : i ≤ g.ie+1) :
    p2Ecc' M q g P J j i = o2Ecc' M q Q j i := by
  have := h.hng
  simp (disch := omega) only [p2Ecc', loop2_in, o2Ecc', a2Uh h]
theorem a2Emf' (hM : M.Local) {j i : ℤ} (h3 : g.js ≤ j) (h4 : j ≤ g.je+1) (h5 : g.is ≤ i) (h6 : i ≤ g.ie+1) :
    p2Emf' M q g P J j i = o2Emf' M q Q j i := by
  have := h.hng
  rw [p2Emf', cornV, loop2_in _ _ (by omega) (by omega) (by omega) (by omega)]
  simp (disch := omega) only [o2Emf', corner2d, a2G1 h hM, a2G2 h hM, a2Ecc' h]

omit h in
/-- The updates of the active zones. -/
theorem act2 {S L : St R ns} (hg : RngOk A2 g) (ha : AgreeA A2 g S L) {F1 F2 : Pla (Cons1 R ns)} {e : Pla R}
    {F1' F2' : Arr (Cons1 R ns)} {e' : Arr R}
    (h1 : ∀ j i, g.js ≤ j → j ≤ g.je → g.is ≤ i → i ≤ g.ie+1 → F1 j i = F1' g.ks j i)
    (h2 : ∀ j i, g.js ≤ j → j ≤ g.je+1 → g.is ≤ i → i ≤ g.ie → F2 j i = F2' g.ks j i)
    (he : ∀ j i, g.js ≤ j → j ≤ g.je+1 → g.is ≤ i → i ≤ g.ie+1 → e j i = e' g.ks j i) :
    ActEq A2 g (updV2 q g S F1 F2 e) (lat2 q L F1' F2' e') := by
  have h := agr2 hg ha
  have ek : ∀ k, g.ks ≤ k → k ≤ g.ke → k = g.ks := fun k h1 h2 => by have := hg.ck rfl; omega
  have hn := hg.hng
  have eB1 : ∀ j i, g.js ≤ j → j ≤ g.je → g.is ≤ i → i ≤ g.ie+1 →
      facesI g.js g.je g.is g.ie (cB1 (q.dt / q.dx2) e) (S.B1i g.ks) j i = cB1 (q.dt / q.dx2) (e' g.ks) j i (L.B1i g.ks j i) := by
    intro j i h3 h4 h5 h6
    rw [facesI_in _ _ h3 h4 h5 h6, cB1, he _ _ (by omega) (by omega) h5 h6, he _ _ h3 (by omega) h5 h6]
    have := h.B1 j i (by omega) (by omega) (by omega) (by omega)
    simp only [plane] at this
    rw [this]; rfl
  have eB2 : ∀ j i, g.js ≤ j → j ≤ g.je+1 → g.is ≤ i → i ≤ g.ie →
      facesJ g.js g.je g.is g.ie (cB2 (q.dt / q.dx1) e) (S.B2i g.ks) j i = cB2 (q.dt / q.dx1) (e' g.ks) j i (L.B2i g.ks j i) := by
    intro j i h3 h4 h5 h6
    rw [facesJ_in _ _ h3 h4 h5 h6, cB2, he _ _ h3 h4 (by omega) (by omega), he _ _ h3 h4 h5 (by omega)]
    have := h.B2 j i (by omega) (by omega) (by omega) (by omega)
    simp only [plane] at this
    rw [this]; rfl
  have eU : ∀ j i, g.js ≤ j → j ≤ g.je → g.is ≤ i → i ≤ g.ie →
      (updV2 q g S F1 F2 e).U g.ks j i = (lat2 q L F1' F2' e').U g.ks j i := by
    intro j i h3 h4 h5 h6
    have hU := h.U j i (by omega) (by omega) (by omega) (by omega)
    simp only [plane] at hU
    simp (disch := omega) only [updV2, lat2, setPl_in, mod2_in, avg2, eB1, eB2, h1, h2, hU]
  refine ⟨?_, ?_, ?_, ?_⟩
  · intro k j i h1 h2 h3 h4 h5 h6
    obtain rfl := ek k h1 h2
    exact eU j i h3 h4 h5 h6
  · intro k j i h1 h2 h3 h4 h5 h6
    obtain rfl := ek k h1 h2
    rw [(w2 1).1] at h6
    simp only [updV2, lat2, setPl_in]; exact eB1 j i h3 h4 h5 h6
  · intro k j i h1 h2 h3 h4 h5 h6
    obtain rfl := ek k h1 h2
    rw [(w2 1).2.1] at h4
    simp only [updV2, lat2, setPl_in]; exact eB2 j i h3 h4 h5 h6
  · intro k j i h1 h2 h3 h4 h5 h6
    rw [(w2 1).2.2, add_zero] at h2
    obtain rfl := ek k h1 h2
    have := eU j i h3 h4 h5 h6
    simp only [updV2, lat2, setPl_in] at this ⊢
    rw [loop2_in _ _ h3 h4 h5 h6, this]

end Agreement

section Results
variable {R : Type} {ns : ℕ} [NumC R]

/-- The step of `integrate_2d_vl` on a lattice. -/
def latV2 (M : Funs R ns) (q : Step R) (L : St R ns) : St R ns :=
  lat2 q L (fun k => o2G1 M q (plane L k)) (fun k => o2G2 M q (plane L k)) (fun k => o2Emf' M q (plane L k))

theorem vl2_lattice (M : Funs R ns) (hM : M.Local) :
    Lattice A2 (fun q g (S : St R ns) J => vl2 M q g J S) (latV2 M) :=
  lattice_of (fun q L a b d => lat2_shift q b d L a _ _ _ _ _ _ (fun k j i => s2G1 M q (plane L (k+a)) b d j i)
      (fun k j i => s2G2 M q (plane L (k+a)) b d j i) (fun k j i => s2Emf' M q (plane L (k+a)) b d j i))
    fun q g S L J hg ha => by
      have h := agr2 hg ha
      have := hg.hng
      exact act2 hg ha (fun j i h3 h4 h5 h6 => a2G1 h hM (by omega) (by omega) h5 h6)
        (fun j i h3 h4 h5 h6 => a2G2 h hM h3 h4 (by omega) (by omega)) (fun j i h3 h4 h5 h6 => a2Emf' h hM h3 h4 h5 h6)

end Results

section Real
variable {ns : ℕ}

/-- The x2-flux of a conserved field. -/
def flx2 (f : Fld) (F : Cons1 ℝ ns) : ℝ :=
  match f with
  | .cell .d => F.d
  | .cell (.M n) => if n = 0 then F.Mz else if n = 1 then F.Mx else F.My
  | .cell .E => F.E
  | .cell (.Bc n) => if n = 2 then F.By else 0
  | .cell (.s n) => if h : n < ns then F.s ⟨n, h⟩ else 0
  | .face _ => 0

theorem lat2_conserves (q : Step ℝ) (F1 F2 : St ℝ ns → Arr (Cons1 ℝ ns)) (e : St ℝ ns → Arr ℝ)
    (h1 : ∀ L a b d k j i, F1 (L.shift a b d) k j i = F1 L (k+a) (j+b) (i+d))
    (h2 : ∀ L a b d k j i, F2 (L.shift a b d) k j i = F2 L (k+a) (j+b) (i+d))
    (he : ∀ L a b d k j i, e (L.shift a b d) k j i = e L (k+a) (j+b) (i+d)) :
    Conserves A2 (fun L => lat2 q L (F1 L) (F2 L) (e L)) := by
  intro N L hL hN f hf is js ks
  cases f with
  | face n =>
    rcases three n with rfl | rfl | rfl
    · refine zsum_step (fun _ _ _ => 0) (e L) (fun _ _ _ => 0) 0 (q.dt / q.dx2) 0 ?_ (by intros; rfl) ?_ (by intros; rfl)
      · intro k j i; simp [lval, lat2, cB1]
      · exact per2 hL e he
    · refine zsum_step (e L) (fun _ _ _ => 0) (fun _ _ _ => 0) (-(q.dt / q.dx1)) 0 0 ?_ ?_ (by intros; rfl) (by intros; rfl)
      · intro k j i; simp [lval, lat2, cB2]
      · exact per1 hL e he
    · simp [Kept, A2] at hf
  | cell v =>
    refine zsum_step (fun k j i => flx1 (.cell v) (F1 L k j i)) (fun k j i => flx2 (.cell v) (F2 L k j i)) (fun _ _ _ => 0)
      (q.dt / q.dx1) (q.dt / q.dx2) 0 ?_ ?_ ?_ (by intros; rfl)
    · intro k j i
      cases v with
      | s n =>
        have hn : n < ns := hf
        simp only [lval, lat2, updB1, updB2, upd1, upd2, avg2, Cons.get, flx1, flx2, dif_pos hn]; ring
      | M n => rcases three n with rfl | rfl | rfl <;> simp [lval, lat2, updB1, updB2, upd1, upd2, avg2, Cons.get, flx1, flx2]
      | Bc n =>
        rcases three n with rfl | rfl | rfl
        · simp [Kept, A2] at hf
        · simp [Kept, A2] at hf
        · simp [lval, lat2, updB1, updB2, upd1, upd2, avg2, Cons.get, flx1, flx2]
      | _ => simp [lval, lat2, updB1, updB2, upd1, upd2, avg2, Cons.get, flx1, flx2]
    · intro k j i; rw [per1 hL F1 h1]
    · intro k j i; rw [per2 hL F2 h2]

theorem updV2_divB (dt : ℝ) (dx : Fin 3 → ℝ) {Wk : Type} (F1 F2 : Rng → St ℝ ns → Wk → Pla (Cons1 ℝ ns))
    (e : Rng → St ℝ ns → Wk → Pla ℝ) :
    KeepsDivB A2 dx (fun g S J => updV2 ⟨dt, dx 0, dx 1, dx 2⟩ g S (F1 g S J) (F2 g S J) (e g S J)) := by
  intro g S J k j i hg h1 h2 h3 h4 h5 h6
  have : k = g.ks := by have := hg.ck rfl; omega
  subst this
  simp (disch := omega) only [divA, A2, updV2, setPl_in, facesI_in, facesJ_in, cB1, cB2]
  simp
  ring

end Real
end Athena.Gen
