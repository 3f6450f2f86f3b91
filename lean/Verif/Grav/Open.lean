import Verif.Grav.Solve

/-!
# Self-gravity without periodic boundaries: src/gravity/selfg_fft_disk.c and selfg_fft_obc.c

Cartesian, no star particles, no shearing box.  Arrays of the whole Domain: every Grid works on its own zones with coefficients that depend on
the indices relative to the Domain, and the transforms are those of the whole Domain (C112).  The real and imaginary parts of an element of `work`
are one complex number, and its flattened index is the triple (pair) it encodes.
-/

namespace Athena.Grav
open Finset

variable (q : Par)

/-! ### selfg_fft_disk.c -/

/-- `KCOMP`, src/fftsrc/prototypes.h:54 (the division is one of integers). -/
def kcomp (a N : ℕ) : ℤ := (a : ℤ) - ((2 * a / N : ℕ) : ℤ) * N

/-- `exp(-sqrt(SQR(kxtdx)/dx1sq+SQR(kydy)/dx2sq)*Lperp)`, selfg_fft_disk.c:290-302. -/
noncomputable def diskExp (L : ℝ) (N1 N2 a b : ℕ) : ℝ :=
  let kxtdx := kcomp a N1 * (2 * Real.pi / N1)
  let kydy := kcomp b N2 * (2 * Real.pi / N2)
  Real.exp (- Real.sqrt (kxtdx ^ 2 / (q.dx1 * q.dx1) + kydy ^ 2 / (q.dx2 * q.dx2)) * L)

/-- `Acoeff`, selfg_fft_disk.c:298-306. -/
noncomputable def diskA (L : ℝ) (N1 N2 N3 a b c : ℕ) : ℝ :=
  if c = 0 ∧ b = 0 ∧ a = 0 then 0
  else 0.5 * (1 - diskExp q L N1 N2 a b)
    / ((2 * Real.cos (kcomp a N1 * (2 * Real.pi / N1)) - 2) / (q.dx1 * q.dx1) + (2 * Real.cos (kcomp b N2 * (2 * Real.pi / N2)) - 2) / (q.dx2 * q.dx2)
      + (2 * Real.cos (c * (2 * Real.pi / N3)) - 2) / (q.dx3 * q.dx3))

/-- `Bcoeff`, selfg_fft_disk.c:307-311. -/
noncomputable def diskB (L : ℝ) (N1 N2 N3 a b c : ℕ) : ℝ :=
  0.5 * (1 + diskExp q L N1 N2 a b)
    / ((2 * Real.cos (kcomp a N1 * (2 * Real.pi / N1)) - 2) / (q.dx1 * q.dx1) + (2 * Real.cos (kcomp b N2 * (2 * Real.pi / N2)) - 2) / (q.dx2 * q.dx2)
      + (2 * Real.cos ((0.5 + c) * (2 * Real.pi / N3)) - 2) / (q.dx3 * q.dx3))

/-- `selfg_fft_disk_3d` without `SHEARING_BOX`, selfg_fft_disk.c:339-371, 398-441; `L` is `Lperp`, `RootMaxX[2]-RootMinX[2]`. -/
noncomputable def disk3 (L : ℝ) (N1 N2 N3 : ℕ) (d : ℕ → ℕ → ℕ → ℝ) (i j k : ℕ) : ℝ :=
  let dkz := 2 * Real.pi / N3
  let work : ℕ → ℕ → ℕ → ℂ := fun i j k => ⟨d i j k * q.G4, 0⟩
  let work2 : ℕ → ℕ → ℕ → ℂ := fun i j k => ⟨Real.cos (0.5 * k * dkz) * (work i j k).re, -Real.sin (0.5 * k * dkz) * (work i j k).re⟩
  let work := dft3 (-1) N1 N2 N3 work
  let work2 := dft3 (-1) N1 N2 N3 work2
  let work := fun a b c => (diskA q L N1 N2 N3 a b c : ℂ) * work a b c
  let work2 := fun a b c => (diskB q L N1 N2 N3 a b c : ℂ) * work2 a b c
  let work := dft3 1 N1 N2 N3 work
  let work2 := dft3 1 N1 N2 N3 work2
  ((work i j k).re + Real.cos (0.5 * k * dkz) * (work2 i j k).re - Real.sin (0.5 * k * dkz) * (work2 i j k).im) / ((N3 * N2 * N1 : ℕ) : ℝ)

/-- `exp(-fabs(ip*dkx/pG->dx1)*Lperp)`, selfg_fft_disk.c:146, 150, 154. -/
noncomputable def diskExp2 (L : ℝ) (N1 a : ℕ) : ℝ := Real.exp (- |kcomp a N1 * (2 * Real.pi / N1) / q.dx1| * L)

/-- `Acoeff` in two dimensions, selfg_fft_disk.c:147-153. -/
noncomputable def diskA2 (L : ℝ) (N1 N2 a b : ℕ) : ℝ :=
  if b = 0 ∧ a = 0 then 0
  else 0.5 * (1 - diskExp2 q L N1 a)
    / ((2 * Real.cos (a * (2 * Real.pi / N1)) - 2) / (q.dx1 * q.dx1) + (2 * Real.cos (b * (2 * Real.pi / N2)) - 2) / (q.dx2 * q.dx2))

/-- `Bcoeff` in two dimensions, selfg_fft_disk.c:154-156. -/
noncomputable def diskB2 (L : ℝ) (N1 N2 a b : ℕ) : ℝ :=
  0.5 * (1 + diskExp2 q L N1 a)
    / ((2 * Real.cos (a * (2 * Real.pi / N1)) - 2) / (q.dx1 * q.dx1) + (2 * Real.cos ((0.5 + b) * (2 * Real.pi / N2)) - 2) / (q.dx2 * q.dx2))

/-- `selfg_fft_disk_2d`, selfg_fft_disk.c:170-219; `L` is `Lperp`, `RootMaxX[1]-RootMinX[1]`.  (`Acoeff`, `Bcoeff`, `dky` are static, computed by the
first call from quantities that do not change.) -/
noncomputable def disk2 (L : ℝ) (N1 N2 : ℕ) (d : ℕ → ℕ → ℝ) (i j : ℕ) : ℝ :=
  let dky := 2 * Real.pi / N2
  let work : ℕ → ℕ → ℂ := fun i j => ⟨q.G4 * d i j, 0⟩
  let work2 : ℕ → ℕ → ℂ := fun i j => ⟨q.G4 * d i j * Real.cos (0.5 * j * dky), q.G4 * d i j * -Real.sin (0.5 * j * dky)⟩
  let work := dft2 (-1) N1 N2 work
  let work2 := dft2 (-1) N1 N2 work2
  let work := fun a b => (diskA2 q L N1 N2 a b : ℂ) * work a b
  let work2 := fun a b => (diskB2 q L N1 N2 a b : ℂ) * work2 a b
  let work := dft2 1 N1 N2 work
  let work2 := dft2 1 N1 N2 work2
  ((work i j).re + Real.cos (0.5 * j * dky) * (work2 i j).re - Real.sin (0.5 * j * dky) * (work2 i j).im) / ((N2 * N1 : ℕ) : ℝ)

/-- The loop of `selfg_fft_disk_1d` over `i = is+2 ...`, of which `n` turns have been made: selfg_fft_disk.c:89-92. -/
noncomputable def disk1Loop (is : ℤ) (d : ℤ → ℝ) (P : ℤ → ℝ) : ℕ → ℤ → ℝ
  | 0 => P
  | n + 1 => let P' := disk1Loop is d P n
    Function.update P' (is + 2 + n) (q.G4 * (q.dx1 * q.dx1) * d (is + 2 + n - 1) + 2 * P' (is + 2 + n - 1) - P' (is + 2 + n - 2))

/-- `selfg_fft_disk_1d` without the copy into `Phi_old`, selfg_fft_disk.c:78-97: `N` zones from `is` on. -/
noncomputable def disk1 (is : ℤ) (N : ℕ) (d P : ℤ → ℝ) : ℤ → ℝ :=
  let dx1sq := q.dx1 * q.dx1
  let P := Function.update P is (∑ m ∈ range N, d (is + m))
  let P := Function.update P is (P is * (0.25 * q.G4 * dx1sq * ((N : ℝ) - 1)))
  let P := Function.update P (is + 1) (P is + q.G4 * dx1sq * d is - 2 * P is / ((N : ℝ) - 1))
  let P := disk1Loop q is d P (N - 2)
  let ie := is + N - 1
  let P := Function.update P (ie + 1) (2 * P ie - P (ie - 1) + dx1sq * q.G4 * d ie)
  Function.update P (is - 1) (2 * P is - P (is + 1) + dx1sq * q.G4 * d is)

/-! ### selfg_fft_obc.c -/

/-- `pcoeff`, selfg_fft_obc.c:269-271, 277-279, 286-288, 297-299; `f` are `ioff`, `joff`, `koff`. -/
noncomputable def pcoeffO (N1 N2 N3 f1 f2 f3 a b c : ℕ) : ℝ :=
  -0.5 / ((1 - Real.cos ((a + 0.5 * f1) * (2 * Real.pi / N1))) * (1 / (q.dx1 ^ 2)) + (1 - Real.cos ((b + 0.5 * f2) * (2 * Real.pi / N2))) * (1 / (q.dx2 ^ 2))
    + (1 - Real.cos ((c + 0.5 * f3) * (2 * Real.pi / N3))) * (1 / (q.dx3 ^ 2)))

/-- The multiplications of `work` of one Grid, selfg_fft_obc.c:264-304: one zone, then the line, the plane and the rest. -/
noncomputable def gridCoefO (N1 N2 N3 f1 f2 f3 : ℕ) (T : Tile) (W : ℕ → ℕ → ℕ → ℂ) : ℕ → ℕ → ℕ → ℂ :=
  let p := pcoeffO q N1 N2 N3 f1 f2 f3
  let W := fun i j k => if i = 0 ∧ j = 0 ∧ k = 0 then
    (if (T.D1 = 0 ∧ T.D2 = 0 ∧ T.D3 = 0) ∧ f1 = 0 ∧ f2 = 0 ∧ f3 = 0 then 0 else (p T.D1 T.D2 T.D3 : ℂ) * W 0 0 0) else W i j k
  let W := fun i j k => if i = 0 ∧ j = 0 ∧ 1 ≤ k then (p T.D1 T.D2 (k + T.D3) : ℂ) * W 0 0 k else W i j k
  let W := fun i j k => if i = 0 ∧ 1 ≤ j then (p T.D1 (j + T.D2) (k + T.D3) : ℂ) * W 0 j k else W i j k
  fun i j k => if 1 ≤ i then (p (i + T.D1) (j + T.D2) (k + T.D3) : ℂ) * W i j k else W i j k

/-- All Grids of the Domain; `tile a b c` is the Grid that holds the zone. -/
noncomputable def domCoefO (N1 N2 N3 f1 f2 f3 : ℕ) (tile : ℕ → ℕ → ℕ → Tile) (W : ℕ → ℕ → ℕ → ℂ) (a b c : ℕ) : ℂ :=
  let T := tile a b c
  gridCoefO q N1 N2 N3 f1 f2 f3 T (fun i j k => W (i + T.D1) (j + T.D2) (k + T.D3)) (a - T.D1) (b - T.D2) (c - T.D3)

/-- `offset`, selfg_fft_obc.c:248-250, 315-317. -/
noncomputable def offsetO (N1 N2 N3 f1 f2 f3 i j k : ℕ) : ℝ :=
  0.5 * (i * f1 * (2 * Real.pi / N1) + j * f2 * (2 * Real.pi / N2) + k * f3 * (2 * Real.pi / N3))

/-- What one turn of the loops over `koff`, `joff`, `ioff` adds to `Phi`, selfg_fft_obc.c:225-323. -/
noncomputable def turnO (N1 N2 N3 : ℕ) (tile : ℕ → ℕ → ℕ → Tile) (d : ℕ → ℕ → ℕ → ℝ) (f1 f2 f3 i j k : ℕ) : ℝ :=
  let off := offsetO N1 N2 N3 f1 f2 f3
  let work : ℕ → ℕ → ℕ → ℂ := fun i j k => ⟨d i j k * Real.cos (off i j k), d i j k * -Real.sin (off i j k)⟩
  let work := dft3 (-1) N1 N2 N3 work
  let work := domCoefO q N1 N2 N3 f1 f2 f3 tile work
  let work := dft3 1 N1 N2 N3 work
  Real.cos (off i j k) * (work i j k).re - Real.sin (off i j k) * (work i j k).im

/-- `selfg_fft_obc_3d`, selfg_fft_obc.c:210-337. -/
noncomputable def obc3 (N1 N2 N3 : ℕ) (tile : ℕ → ℕ → ℕ → Tile) (d : ℕ → ℕ → ℕ → ℝ) (i j k : ℕ) : ℝ :=
  (∑ f3 ∈ range 2, ∑ f2 ∈ range 2, ∑ f1 ∈ range 2, turnO q N1 N2 N3 tile d f1 f2 f3 i j k) * (q.G4 / (8 * ((N3 * N2 * N1 : ℕ) : ℝ)))

/-! ### bvals_grav.c, open boundaries -/

/-- `obc_fft_Phi_ix3`, bvals_grav.c:1211-1228, on a column whose first active zone is `ks`, with linear extrapolation: `nghost` zones. -/
def obcLow (ks : ℤ) (P : ℤ → ℝ) : ℕ → ℤ → ℝ
  | 0 => P
  | n + 1 => let P' := obcLow ks P n
    Function.update P' (ks - (n + 1 : ℕ)) (2 * P' (ks - (n + 1 : ℕ) + 1) - P' (ks - (n + 1 : ℕ) + 2))

/-- `obc_fft_Phi_ox3`, bvals_grav.c:1233-1250. -/
def obcHigh (ke : ℤ) (P : ℤ → ℝ) : ℕ → ℤ → ℝ
  | 0 => P
  | n + 1 => let P' := obcHigh ke P n
    Function.update P' (ke + (n + 1 : ℕ)) (2 * P' (ke + (n + 1 : ℕ) - 1) - P' (ke + (n + 1 : ℕ) - 2))

end Athena.Grav
