import Verif.Integr.Flat

/-!
# C68 for the CTU integrators in three and two dimensions

Here the field must be divergence-free and averaged to the zone centres, and the densities above the floor: the 3D
integrator limits its source terms by the gradients in the other directions, and it solves a Riemann problem between
the states corrected by the transverse fluxes where the 2D one uses the zone's state at the half time step.
-/

namespace Athena.Gen
open Athena.Bvals hiding Rng
open Athena.Vl3
open Num

variable {ns : ℕ}

/-- The divergence of the field in the plane is zero, the fields at the zone centres are the averages of those on the
faces, and the densities are not below `dMin`. -/
structure Pl.Good (q : Step ℝ) (dMin : ℝ) (P : Pl ℝ ns) : Prop where
  div : ∀ j i, (P.B1i j (i+1) - P.B1i j i) / q.dx1 + (P.B2i (j+1) i - P.B2i j i) / q.dx2 = 0
  c1 : ∀ j i, (P.U j i).B1c = (P.B1i j i + P.B1i j (i+1)) / 2
  c2 : ∀ j i, (P.U j i).B2c = (P.B2i j i + P.B2i (j+1) i) / 2
  d : ∀ j i, dMin ≤ (P.U j i).d

/-! ## The limited source terms -/

theorem lim_neg (a : ℝ) : lim a (-a) = a := by
  simp only [lim, NumC.ge0, NumC.lt, NumC.zero, gt0, lt0, neg_neg, lt_irrefl, decide_eq_true_eq]
  split_ifs <;> first | rfl | linarith
theorem lim_zero (a : ℝ) : lim a 0 = 0 := by
  simp only [lim, NumC.ge0, NumC.lt, NumC.zero, gt0, lt0, neg_zero, decide_eq_true_eq]
  split_ifs <;> first | rfl | linarith
theorem zero_lim (a : ℝ) : lim 0 a = 0 := by
  simp only [lim, NumC.ge0, NumC.lt, NumC.zero, gt0, lt0, decide_eq_true_eq]
  split_ifs <;> first | rfl | linarith
theorem mdb_neg (a : ℝ) : mdb a (-a) = -a := by
  simp only [mdb, NumC.lt, NumC.zero, gt0, lt0, decide_eq_true_eq, Bool.and_eq_true, lt_irrefl]
  rcases lt_trichotomy a 0 with h | h | h
  · rw [if_neg (by rintro ⟨h', _⟩; linarith), if_pos ⟨h, by linarith⟩, ite_self]
  · subst h; simp
  · rw [if_pos ⟨h, by linarith⟩, ite_self]
theorem mdb_zero (a : ℝ) : mdb a 0 = 0 := by
  simp only [mdb, NumC.lt, NumC.zero, gt0, lt0, decide_eq_true_eq, Bool.and_eq_true, lt_irrefl, gt_iff_lt, and_false]
  simp
theorem zero_mdb (a : ℝ) : mdb 0 a = 0 := by
  simp only [mdb, NumC.lt, NumC.zero, gt0, lt0, decide_eq_true_eq, Bool.and_eq_true, lt_irrefl, gt_iff_lt, false_and]
  simp

theorem floorW_id (M : Funs ℝ ns) {w : Prim1 ℝ ns} (h : M.dMin ≤ w.d) : floorW M w = w := by
  simp only [floorW, NumC.lt, decide_eq_true_eq]
  rw [if_neg (not_lt.mpr h)]

section Ctu
variable {M : Funs ℝ ns} (q : Step ℝ) {P : Pl ℝ ns} (hP : P.Good q M.dMin)

theorem flat_db3 (P : Pl ℝ ns) (k j i : ℤ) : db3 q P.ext k j i = 0 := by simp only [db3, Pl.ext, sub_self, zero_mul]
include hP
theorem flat_db2 (k j i : ℤ) : db2 q P.ext k j i = -db1 q P.ext k j i := by
  have := hP.div j i
  simp only [db1, db2, Pl.ext, NumC.one]
  rw [div_eq_mul_one_div (P.B1i j (i+1) - P.B1i j i), div_eq_mul_one_div (P.B2i (j+1) i - P.B2i j i)] at this
  linarith
theorem flat_db1 (k j i : ℤ) : db1 q P.ext k j i = -db2 q P.ext k j i := by rw [flat_db2 q hP, neg_neg]

theorem flat_src1 (k j i : ℤ) (w : Prim1 ℝ ns) : src1 q P.ext k j i w =
    srcW1 (half * q.dt) (NumC.one / q.dx1) (P.U j i) (P.B1i j i) (P.B1i j (i+1)) w := by
  simp only [src1, flat_db2 q hP, flat_db3, lim_neg, lim_zero, mul_zero, add_zero, srcW1]
  simp only [db1, Pl.ext]
  ext <;> simp only [] <;> ring
theorem flat_src2 (k j i : ℤ) (w : Prim1 ℝ ns) : src2 q P.ext k j i w =
    srcW2 (half * q.dt) (NumC.one / q.dx2) (P.U j i) (P.B2i j i) (P.B2i (j+1) i) w := by
  simp only [src2, flat_db1 q hP, flat_db3, lim_neg, lim_zero, mul_zero, add_zero, srcW2]
  simp only [db2, Pl.ext]
  ext <;> simp only [] <;> ring
omit hP in
theorem flat_src3 (P : Pl ℝ ns) (k j i : ℤ) (w : Prim1 ℝ ns) : src3 q P.ext k j i w = w := by
  simp only [src3, flat_db3, zero_lim, mul_zero, add_zero]

theorem flat_mhd1 (k j i : ℤ) (u : Cons1 ℝ ns) : mhdX1 q P.ext k j i u =
    mhd1 (half * (q.dt / q.dx1)) (P.U j i) (P.B1i j (i+1) - P.B1i j i) u := by
  simp only [mhdX1, flat_db2 q hP, flat_db3, mdb_neg, mdb_zero, mhd1]
  simp only [db1, Pl.ext, NumC.one]
  ext <;> simp only [] <;> ring
theorem flat_mhd2 (k j i : ℤ) (u : Cons1 ℝ ns) : mhdX2 q P.ext k j i u =
    mhd2 (half * (q.dt / q.dx2)) (P.U j i) (P.B2i (j+1) i - P.B2i j i) u := by
  simp only [mhdX2, flat_db1 q hP, flat_db3, mdb_neg, mdb_zero, mhd2]
  simp only [db2, Pl.ext, NumC.one]
  ext <;> simp only [] <;> ring
omit hP in
theorem flat_mhd3 (P : Pl ℝ ns) (k j i : ℤ) (u : Cons1 ℝ ns) : mhdX3 q P.ext k j i u = u := by
  simp only [mhdX3, flat_db3, zero_mdb, mul_zero, add_zero, neg_zero]

/-! ## The states and fluxes of the first part -/

theorem flatc_W1 (l : Bool) (k j i : ℤ) : d3W1 M q P.ext l k j i = d2W1 M q P l j i := by
  simp only [d3W1, flat_src1 q hP]; rfl
theorem flatc_W2 (l : Bool) (k j i : ℤ) : d3W2 M q P.ext l k j i = d2W2 M q P l j i := by
  simp only [d3W2, flat_src2 q hP]; rfl
theorem flatc_W3 (hM : M.Plain) (l : Bool) (k j i : ℤ) :
    d3W3 M q P.ext l k j i = M.c2p1 (load3 (P.U j i)) (P.U j i).B3c := by
  have e : pick l (M.lr q.dt q.dx3 2 (fun _ => M.c2p1 (load3 (P.U j i)) (P.U j i).B3c) (fun _ => (P.U j i).B3c)) =
      M.c2p1 (load3 (P.U j i)) (P.U j i).B3c := by rw [hM.lr]; cases l <;> rfl
  simp only [d3W3, flat_src3]
  exact (congrArg (floorW M) e).trans (floorW_id M (by rw [hM.d]; exact hP.d j i))
theorem flatc_U1 (l : Bool) : d3U1 M q P.ext l = fun _ => d2U1 M q P l := by
  funext k j i; simp only [d3U1, flatc_W1 q hP]; rfl
theorem flatc_U2 (l : Bool) : d3U2 M q P.ext l = fun _ => d2U2 M q P l := by
  funext k j i; simp only [d3U2, flatc_W2 q hP]; rfl
theorem flatc_U3 (hM : M.Plain) (hX : M.Exact) (l : Bool) (k j i : ℤ) : d3U3 M q P.ext l k j i = load3 (P.U j i) := by
  simp only [d3U3, flatc_W3 q hP hM]; exact hX.back _ _ (hP.d j i)
theorem flatc_F1 : d3F1 M q P.ext = fun _ => d2F1 M q P := by
  funext k j i; simp only [d3F1, flatc_W1 q hP, flatc_U1 q hP]; rfl
theorem flatc_F2 : d3F2 M q P.ext = fun _ => d2F2 M q P := by
  funext k j i; simp only [d3F2, flatc_W2 q hP, flatc_U2 q hP]; rfl
omit hP in
/-- The x3-fluxes of the plane. -/
noncomputable def fcF3 (M : Funs ℝ ns) (P : Pl ℝ ns) : Pla (Cons1 ℝ ns) := fun j i =>
  M.flux (load3 (P.U j i)) (load3 (P.U j i)) (M.c2p1 (load3 (P.U j i)) (P.U j i).B3c)
    (M.c2p1 (load3 (P.U j i)) (P.U j i).B3c) (P.U j i).B3c
theorem flatc_F3 (hM : M.Plain) (hX : M.Exact) : d3F3 M q P.ext = fun _ => fcF3 M P := by
  funext k j i; simp only [d3F3, flatc_W3 q hP hM, flatc_U3 q hP hM hX]; rfl

theorem flatc_emf1 (hM : M.Plain) (hX : M.Exact) (k j i : ℤ) : d3Emf1 M q P.ext k j i = -(d2F2 M q P j i).By := by
  rw [d3Emf1, flatc_F2 q hP, flatc_F3 q hP hM hX]
  refine corner1_flat _ _ (fun j i => ecU1 (P.U j i)) (fun j i => ?_) k j i
  simp only [fcF3, hM.fluxZ, hM.Bz, hM.x, hM.z, ecU1, load3]
  ring
theorem flatc_emf2 (hM : M.Plain) (hX : M.Exact) (k j i : ℤ) : d3Emf2 M q P.ext k j i = (d2F1 M q P j i).Bz := by
  rw [d3Emf2, flatc_F1 q hP, flatc_F3 q hP hM hX]
  refine corner2_flat _ _ (fun j i => ecU2 (P.U j i)) (fun j i => ?_) k j i
  simp only [fcF3, hM.fluxY, hM.By, hM.x, hM.y, ecU2, load3]
  ring
theorem flatc_emf3 (k j i : ℤ) : d3Emf3 M q P.ext k j i = d2Emf M q P j i := by
  rw [d3Emf3, flatc_F1 q hP, flatc_F2 q hP]
  exact corner3_flat _ _ (fun j i => eccC (P.U j i)) k j i

omit hP in
theorem qh0 : qh q 0 = half * (q.dt / q.dx1) := rfl
omit hP in
theorem qh1 : qh q 1 = half * (q.dt / q.dx2) := rfl

theorem flatc_B1h (hM : M.Plain) (hX : M.Exact) : d3B1h M q P.ext = fun _ => d2B1h M q P := by
  funext k j i
  simp only [d3B1h, ct1, flatc_emf2 q hP hM hX, flatc_emf3 q hP]
  simp only [d2B1h, cB1, qh1, Pl.ext]; ring
theorem flatc_B2h (hM : M.Plain) (hX : M.Exact) : d3B2h M q P.ext = fun _ => d2B2h M q P := by
  funext k j i
  simp only [d3B2h, ct2, flatc_emf1 q hP hM hX, flatc_emf3 q hP]
  simp only [d2B2h, cB2, qh0, Pl.ext]; ring

/-! ## The states corrected by the transverse fluxes -/

theorem flatc_U1' (hM : M.Plain) (hX : M.Exact) (l : Bool) : d3U1' M q P.ext l = fun _ => d2U1' M q P l := by
  funext k j i
  simp only [d3U1', flat_mhd1 q hP, flatc_F2 q hP, flatc_F3 q hP hM hX, flatc_emf1 q hP hM hX, flatc_U1 q hP, d2U1']
  refine congrArg (fun u => floorU M (mhd1 _ _ _ u)) ?_
  simp only [rotA, rotB, trans1, qh1, sub_self, mul_zero, sub_zero, add_zero]
  ext <;> simp only [hlf] <;> ring
theorem flatc_U2' (hM : M.Plain) (hX : M.Exact) (l : Bool) : d3U2' M q P.ext l = fun _ => d2U2' M q P l := by
  funext k j i
  simp only [d3U2', flat_mhd2 q hP, flatc_F1 q hP, flatc_F3 q hP hM hX, flatc_emf2 q hP hM hX, flatc_U2 q hP, d2U2']
  refine congrArg (fun u => floorU M (mhd2 _ _ _ u)) ?_
  simp only [rotA, rotB, trans2, qh0, sub_self, mul_zero, sub_zero, add_zero]
  ext <;> simp only [hlf] <;> ring

/-- The x3-interface states corrected by the transverse fluxes are the zone at the half time step. -/
theorem flatc_U3' (hM : M.Plain) (hX : M.Exact) (l : Bool) (k j i : ℤ) :
    d3U3' M q P.ext l k j i = { load3 (d3H M q P.ext k j i) with
      E := (d3U3' M q P.ext true 0 j i).E
      s := (d3U3' M q P.ext true 0 j i).s } := by
  simp only [d3U3', d3H, flat_mhd3, flatc_F1 q hP, flatc_F2 q hP, flatc_F3 q hP hM hX, flatc_emf3 q hP, flatc_U3 q hP hM hX,
    flatc_B1h q hP hM hX, flatc_B2h q hP hM hX]
  simp only [halfU, rotA, rotB, floorU, load3, sub_self, mul_zero, sub_zero, hP.c1, hP.c2, d2B1h, d2B2h, cB1, cB2, qh0, qh1]
  ext <;> simp only [Pl.ext, hP.c1, hP.c2, hlf] <;> ring

/-- The field along x3 at the half time step. -/
theorem flatc_B3h (hM : M.Plain) (hX : M.Exact) (k j i : ℤ) : d3B3h M q P.ext k j i = (d3H M q P.ext k j i).B3c := by
  simp only [d3H, halfU, d3B3h, ct3, flatc_emf1 q hP hM hX, flatc_emf2 q hP hM hX]
  simp only [Pl.ext, hlf]; ring

theorem flatc_H (hM : M.Plain) (hX : M.Exact) (k j i : ℤ) : d3H M q P.ext k j i = d3H M q P.ext 0 j i := by
  simp only [d3H, flatc_F1 q hP, flatc_F2 q hP, flatc_F3 q hP hM hX, flatc_B1h q hP hM hX, flatc_B2h q hP hM hX]
  simp only [d3B3h, ct3, flatc_emf1 q hP hM hX, flatc_emf2 q hP hM hX]
  rfl

theorem flatc_Ecc (hM : M.Plain) (hX : M.Exact) (k j i : ℤ) : ecU3 (d3H M q P.ext k j i) = d2Ecc' M q P j i := by
  simp only [d3H, flatc_F1 q hP, flatc_F2 q hP, flatc_F3 q hP hM hX, flatc_B1h q hP hM hX, flatc_B2h q hP hM hX]
  simp only [ecU3, halfU, d2Ecc', eccH, sub_self, mul_zero, sub_zero, qh0, qh1, Pl.ext]

theorem flatc_G1 (hM : M.Plain) (hX : M.Exact) : d3G1 M q P.ext = fun _ => d2G1 M q P := by
  funext k j i; simp only [d3G1, flatc_U1' q hP hM hX, flatc_B1h q hP hM hX]; rfl
theorem flatc_G2 (hM : M.Plain) (hX : M.Exact) : d3G2 M q P.ext = fun _ => d2G2 M q P := by
  funext k j i; simp only [d3G2, flatc_U2' q hP hM hX, flatc_B2h q hP hM hX]; rfl
theorem flatc_G3 (hM : M.Plain) (hX : M.Exact) : d3G3 M q P.ext = fun _ => d3G3 M q P.ext 0 := by
  funext k j i
  simp only [d3G3, flatc_B3h q hP hM hX]
  rw [flatc_U3' q hP hM hX true k, flatc_U3' q hP hM hX false k, flatc_U3' q hP hM hX false 0, flatc_H q hP hM hX k,
    ← flatc_U3' q hP hM hX true 0]
theorem flatc_Gz (hM : M.Plain) (hX : M.Exact) (j i : ℤ) : (d3G3 M q P.ext 0 j i).Bz = ecU1 (d3H M q P.ext 0 j i) := by
  have e : d3U3' M q P.ext false 0 j i = d3U3' M q P.ext true 0 j i := by
    rw [flatc_U3' q hP hM hX false 0, ← flatc_U3' q hP hM hX true 0]
  simp only [d3G3, fluxC, e, hM.fluxZ, hM.Bz, hM.x, hM.z, flatc_B3h q hP hM hX]
  rw [flatc_U3' q hP hM hX true 0]
  simp only [load3, ecU1]; ring
theorem flatc_Gy (hM : M.Plain) (hX : M.Exact) (j i : ℤ) : -(d3G3 M q P.ext 0 j i).By = ecU2 (d3H M q P.ext 0 j i) := by
  have e : d3U3' M q P.ext false 0 j i = d3U3' M q P.ext true 0 j i := by
    rw [flatc_U3' q hP hM hX false 0, ← flatc_U3' q hP hM hX true 0]
  simp only [d3G3, fluxC, e, hM.fluxY, hM.By, hM.x, hM.y, flatc_B3h q hP hM hX]
  rw [flatc_U3' q hP hM hX true 0]
  simp only [load3, ecU2]; ring

theorem flatc_emf1' (hM : M.Plain) (hX : M.Exact) (k j i : ℤ) : d3Emf1' M q P.ext k j i = -(d2G2 M q P j i).By := by
  have e : (fun k j i => ecU1 (d3H M q P.ext k j i)) = fun _ j i => ecU1 (d3H M q P.ext 0 j i) := by
    funext k j i; rw [flatc_H q hP hM hX k]
  rw [d3Emf1', flatc_G2 q hP hM hX, flatc_G3 q hP hM hX, e]
  exact corner1_flat _ _ _ (flatc_Gz q hP hM hX) k j i
theorem flatc_emf2' (hM : M.Plain) (hX : M.Exact) (k j i : ℤ) : d3Emf2' M q P.ext k j i = (d2G1 M q P j i).Bz := by
  have e : (fun k j i => ecU2 (d3H M q P.ext k j i)) = fun _ j i => ecU2 (d3H M q P.ext 0 j i) := by
    funext k j i; rw [flatc_H q hP hM hX k]
  rw [d3Emf2', flatc_G1 q hP hM hX, flatc_G3 q hP hM hX, e]
  exact corner2_flat _ _ _ (flatc_Gy q hP hM hX) k j i
theorem flatc_emf3' (hM : M.Plain) (hX : M.Exact) (k j i : ℤ) : d3Emf3' M q P.ext k j i = d2Emf' M q P j i := by
  have e : (fun k j i => ecU3 (d3H M q P.ext k j i)) = fun _ => d2Ecc' M q P := by
    funext k j i; exact flatc_Ecc q hP hM hX k j i
  rw [d3Emf3', flatc_G1 q hP hM hX, flatc_G2 q hP hM hX, e]
  exact corner3_flat _ _ _ k j i

/-- **C68, CTU**: one step of the 3D integrator on data independent of x3 is one step of the 2D integrator. -/
theorem latC3_flat (hM : M.Plain) (hX : M.Exact) : latC3 M q P.ext = latC2 M q P.ext := by
  rw [latC3, flatc_G1 q hP hM hX, flatc_G2 q hP hM hX, flatc_G3 q hP hM hX]
  exact lat3_flat q P _ _ _ _ _ _ (fun _ => d2Emf' M q P) (flatc_emf1' q hP hM hX) (flatc_emf2' q hP hM hX) (flatc_emf3' q hP hM hX)
    (fun _ _ _ _ => rfl)

end Ctu

end Athena.Gen
