import Mathlib.Analysis.SpecialFunctions.Trigonometric.Basic
import Mathlib.Algebra.BigOperators.Intervals
import Mathlib.Data.Int.Interval

/-!
# Self-gravity by multigrid: src/gravity/selfg_multigrid.c

One Grid, no MPI, three-dimensional problem, physical boundaries on all sides (`lx1_id`, …, `rx3_id` negative).  Reals for doubles.  Arrays
are functions of the indices in the order of the code, `Phi k j i`; a value outside an allocated array is never used by what is proved.  The
code's Grid has `is = js = ks = nghost`; here the first active zone has index 1 in the Grid too, as it has in an `MGrid`.
-/

namespace Athena.Mg

/-- `Real ***`. -/
abbrev A3 := ℤ → ℤ → ℤ → ℝ

/-- `MGrid`, selfg_multigrid.c:45-55.  `is`, `js`, `ks` are 1 and `ie`, `je`, `ke` are `Nx1`, `Nx2`, `Nx3` at every level (236-238,
322-324), so they are not kept; the neighbour ids are all negative. -/
structure MGrid where
  N1 : ℕ
  N2 : ℕ
  N3 : ℕ
  dx1 : ℝ
  dx2 : ℝ
  dx3 : ℝ
  rhs : A3
  Phi : A3

/-- The zones over which `for (k=ks; k<=ke; k++) for (j=js; j<=je; j++) for (i=is; i<=ie; i++)` runs. -/
def Inside (N1 N2 N3 : ℕ) (k j i : ℤ) : Prop := (1 ≤ k ∧ k ≤ N3) ∧ (1 ≤ j ∧ j ≤ N2) ∧ (1 ≤ i ∧ i ≤ N1)

instance (N1 N2 N3 : ℕ) (k j i : ℤ) : Decidable (Inside N1 N2 N3 k j i) := by unfold Inside; infer_instance

/-- `error[k][j][i]/(2.0/dx1sq + 2.0/dx2sq + 2.0/dx3sq)`, selfg_multigrid.c:397-400, 408. -/
noncomputable def update3 (g : MGrid) (k j i : ℤ) : ℝ :=
  let dx1sq := g.dx1 * g.dx1
  let dx2sq := g.dx2 * g.dx2
  let dx3sq := g.dx3 * g.dx3
  let error := - g.rhs k j i
  let error := error + (g.Phi k j (i+1) + g.Phi k j (i-1)) / dx1sq
  let error := error + (g.Phi k (j+1) i + g.Phi k (j-1) i) / dx2sq
  let error := error + (g.Phi (k+1) j i + g.Phi (k-1) j i) / dx3sq
  error / (2 / dx1sq + 2 / dx2sq + 2 / dx3sq)

/-- `error[ks][j][i]/(2.0/dx1sq + 2.0/dx2sq)`, selfg_multigrid.c:424-426, 432. -/
noncomputable def update2 (g : MGrid) (k j i : ℤ) : ℝ :=
  let dx1sq := g.dx1 * g.dx1
  let dx2sq := g.dx2 * g.dx2
  let error := - g.rhs k j i
  let error := error + (g.Phi k j (i+1) + g.Phi k j (i-1)) / dx1sq
  let error := error + (g.Phi k (j+1) i + g.Phi k (j-1) i) / dx2sq
  error / (2 / dx1sq + 2 / dx2sq)

/-- One pass of the loop over `n`, selfg_multigrid.c:394-411, 422-434: all of `error` is computed before `Phi` is written.  The
two-dimensional branch (`Nx3 == 1`) has `k = ks` only. -/
noncomputable def sweep (g : MGrid) : MGrid :=
  if 1 < g.N3 then { g with Phi := fun k j i => if Inside g.N1 g.N2 g.N3 k j i then update3 g k j i else g.Phi k j i }
  else if g.N3 = 1 then { g with Phi := fun k j i => if Inside g.N1 g.N2 g.N3 k j i then update2 g k j i else g.Phi k j i }
  else g

/-- `Jacobi`, selfg_multigrid.c:380-442: `for (n=0; n<=10; n++)`. -/
noncomputable def jacobi (g : MGrid) : MGrid := sweep^[11] g

/-- `error` of `Restriction_3d`, selfg_multigrid.c:461-467. -/
noncomputable def residual (g : MGrid) (k j i : ℤ) : ℝ :=
  let dx1sq := g.dx1 * g.dx1
  let dx2sq := g.dx2 * g.dx2
  let dx3sq := g.dx3 * g.dx3
  let error := g.rhs k j i
  let error := error - (g.Phi k j (i+1) + g.Phi k j (i-1) - 2 * g.Phi k j i) / dx1sq
  let error := error - (g.Phi k (j+1) i + g.Phi k (j-1) i - 2 * g.Phi k j i) / dx2sq
  error - (g.Phi (k+1) j i + g.Phi (k-1) j i - 2 * g.Phi k j i) / dx3sq

/-- The average over eight zones, selfg_multigrid.c:476-479, 481-484. -/
noncomputable def eight (a : A3) (k j i : ℤ) : ℝ :=
  (a (2*k) (2*j) (2*i) + a (2*k) (2*j) (2*i-1) + a (2*k) (2*j-1) (2*i) + a (2*k) (2*j-1) (2*i-1)
    + a (2*k-1) (2*j) (2*i) + a (2*k-1) (2*j) (2*i-1) + a (2*k-1) (2*j-1) (2*i) + a (2*k-1) (2*j-1) (2*i-1)) / 8

/-- `Coarse_grid` after its set-up (selfg_multigrid.c:319-343; `calloc_3d_array` clears the arrays) and `Restriction_3d` (449-490). -/
noncomputable def restrict (g : MGrid) : MGrid where
  N1 := g.N1 / 2
  N2 := g.N2 / 2
  N3 := g.N3 / 2
  dx1 := 2 * g.dx1
  dx2 := 2 * g.dx2
  dx3 := 2 * g.dx3
  rhs := fun k j i => if Inside (g.N1 / 2) (g.N2 / 2) (g.N3 / 2) k j i then eight (residual g) k j i else 0
  Phi := fun k j i => if Inside (g.N1 / 2) (g.N2 / 2) (g.N3 / 2) k j i then eight g.Phi k j i else 0

/-- The second coarse index of the interpolation: `k+1` for the fine index `2*k`, `k-1` for `2*k-1`. -/
def side (f : ℤ) : ℤ := if 2 ∣ f then f / 2 + 1 else (f + 1) / 2 - 1

/-- `Prolongation_3d`, selfg_multigrid.c:496-532.  A fine zone `(K, J, I)` is `(2*k or 2*k-1, …)` for exactly one coarse zone
`(k, j, i) = ((K+1)/2, (J+1)/2, (I+1)/2)`, so that its two updates are written here in one place; zones without a coarse zone (the last
ones of an odd number) are not changed. -/
noncomputable def prolong (c g : MGrid) : MGrid :=
  { g with
    Phi := fun K J I =>
      if Inside c.N1 c.N2 c.N3 ((K+1)/2) ((J+1)/2) ((I+1)/2) then
        g.Phi K J I + 3/4 * c.Phi ((K+1)/2) ((J+1)/2) ((I+1)/2) + 1/4 * c.Phi (side K) (side J) (side I)
      else g.Phi K J I }

/-- `multig_3d`, selfg_multigrid.c:298-371, with the depth of the recursion bounded by the first argument: `none` if the call has not
returned within that depth. -/
noncomputable def multig : ℕ → MGrid → Option MGrid
  | 0, _ => none
  | d + 1, g =>
    if g.N1 = 4 ∨ g.N2 = 4 ∨ g.N3 = 4 then some (jacobi g)
    else (multig d (restrict (jacobi g))).map fun c => jacobi (prolong c (jacobi g))

/-- What `selfg_multig_3d` reads: zone numbers and sizes, `nghost`, `four_pi_G`, the zone centres (`cc_pos`), `U.d` and `Phi`. -/
structure Grid where
  N1 : ℕ
  N2 : ℕ
  N3 : ℕ
  ng : ℕ
  dx1 : ℝ
  dx2 : ℝ
  dx3 : ℝ
  G4 : ℝ
  x1 : ℤ → ℝ
  x2 : ℤ → ℝ
  x3 : ℤ → ℝ
  d : A3
  Phi : A3

/-- `tmass`, selfg_multigrid.c:136-151. -/
noncomputable def mass (G : Grid) : ℝ :=
  ∑ k ∈ Finset.Icc (1 : ℤ) G.N3, ∑ j ∈ Finset.Icc (1 : ℤ) G.N2, ∑ i ∈ Finset.Icc (1 : ℤ) G.N1, G.d k j i * (G.dx1 * G.dx2 * G.dx3)

/-- `-Grav_const*tmass/rad`, selfg_multigrid.c:119, 159-161. -/
noncomputable def wall (G : Grid) (k j i : ℤ) : ℝ :=
  - (G.G4 / (4 * Real.pi)) * mass G / Real.sqrt (G.x1 i * G.x1 i + G.x2 j * G.x2 j + G.x3 k * G.x3 k)

/-- Ghost zones next to `1..N`. -/
def Ghost (ng N : ℕ) (i : ℤ) : Prop := (1 - ng ≤ i ∧ i ≤ 0) ∨ (N + 1 ≤ i ∧ i ≤ N + ng)

instance (ng N : ℕ) (i : ℤ) : Decidable (Ghost ng N i) := by unfold Ghost; infer_instance

/-- `Phi` with the values at the boundaries, selfg_multigrid.c:153-229. -/
noncomputable def walls (G : Grid) : A3 :=
  let P : A3 := G.Phi
  let P : A3 := fun k j i => if (1 ≤ k ∧ k ≤ G.N3) ∧ (1 ≤ j ∧ j ≤ G.N2) ∧ Ghost G.ng G.N1 i then wall G k j i else P k j i
  let P : A3 := fun k j i =>
    if (1 ≤ k ∧ k ≤ G.N3) ∧ Ghost G.ng G.N2 j ∧ (1 - G.ng ≤ i ∧ i ≤ G.N1 + G.ng) then wall G k j i else P k j i
  fun k j i => if Ghost G.ng G.N3 k ∧ (1 - G.ng ≤ j ∧ j ≤ G.N2 + G.ng) ∧ (1 - G.ng ≤ i ∧ i ≤ G.N1 + G.ng) then wall G k j i else P k j i

/-- `Root_grid`, selfg_multigrid.c:233-267: zones `0..N+1`. -/
noncomputable def root (G : Grid) : MGrid where
  N1 := G.N1
  N2 := G.N2
  N3 := G.N3
  dx1 := G.dx1
  dx2 := G.dx2
  dx3 := G.dx3
  rhs := fun k j i => if (0 ≤ k ∧ k ≤ G.N3 + 1) ∧ (0 ≤ j ∧ j ≤ G.N2 + 1) ∧ (0 ≤ i ∧ i ≤ G.N1 + 1) then G.G4 * G.d k j i else 0
  Phi := fun k j i => if (0 ≤ k ∧ k ≤ G.N3 + 1) ∧ (0 ≤ j ∧ j ≤ G.N2 + 1) ∧ (0 ≤ i ∧ i ≤ G.N1 + 1) then walls G k j i else 0

/-- `selfg_multig_3d`, selfg_multigrid.c:110-291: the new `Phi` (and `Phi_old`, 126-132), or `none` if the recursion has not ended at depth
`d`. -/
noncomputable def selfg (d : ℕ) (G : Grid) : Option (A3 × A3) :=
  (multig d (root G)).map fun r =>
    (fun k j i => if Inside G.N1 G.N2 G.N3 k j i then r.Phi k j i else walls G k j i, G.Phi)

end Athena.Mg
