import Verif.Integr.All

/-!
# C68: on data that do not depend on x3 the 3D integrators do what the 2D ones do

The 2D integrators update `B3c` with the fluxes; the 3D ones update `B3i` with the electric field along the edges, which
`integrate_emf1_corner`, `integrate_emf2_corner` assemble from the fluxes in two directions and the electric field in the
zones, and average it to `B3c`.  In exact arithmetic the results are the same.
-/

namespace Athena.Gen
open Athena.Bvals hiding Rng
open Athena.Vl3
open Num

/-- What is used of the functions the integrators call: the fluxes of the transverse fields between equal states are those of
the induction equation; the reconstruction of equal zones (of primitive variables that come from the conversion) is exact; the conversions divide the momentum by the density and
leave the field alone.  (In the code the solvers satisfy this for physical states; here for all.) -/
structure Funs.Plain {ns : ℕ} (M : Funs ℝ ns) : Prop where
  fluxY : ∀ u w b, (M.flux u u w w b).By = w.By * w.Vx - b * w.Vy
  fluxZ : ∀ u w b, (M.flux u u w w b).Bz = w.Bz * w.Vx - b * w.Vz
  lr : ∀ dt dx t u b, M.lr dt dx t (fun _ => M.c2p1 u b) (fun _ => b) = (M.c2p1 u b, M.c2p1 u b)
  d : ∀ u b, (M.c2p1 u b).d = u.d
  x : ∀ u b, (M.c2p1 u b).Vx = u.Mx / u.d
  y : ∀ u b, (M.c2p1 u b).Vy = u.My / u.d
  z : ∀ u b, (M.c2p1 u b).Vz = u.Mz / u.d
  By : ∀ u b, (M.c2p1 u b).By = u.By
  Bz : ∀ u b, (M.c2p1 u b).Bz = u.Bz
  c2p : ∀ u, M.c2p u = ⟨u.M1 / u.d, u.M2 / u.d, u.M3 / u.d, u.B1c, u.B2c, u.B3c⟩

/-- For densities not below `d_MIN` the two conversions undo each other (true of the code with the isothermal equation of state; with the
adiabatic one where the pressure is not below `TINY_NUMBER`). -/
structure Funs.Exact {ns : ℕ} (M : Funs ℝ ns) : Prop where
  dens : ∀ w b, (M.p2c1 w b).d = w.d
  back : ∀ u b, M.dMin ≤ u.d → M.p2c1 (M.c2p1 u b) b = u
  forth : ∀ w b, M.dMin ≤ w.d → M.c2p1 (M.p2c1 w b) b = w

/-- The plane repeated in x3, with the field normal to it. -/
def Pl.ext {R : Type} {ns : ℕ} (P : Pl R ns) : St R ns :=
  ⟨fun _ => P.U, fun _ => P.B1i, fun _ => P.B2i, fun _ j i => (P.U j i).B3c⟩

variable {ns : ℕ}

theorem hlf : (half : ℝ) = 1 / 2 := rfl
theorem qtr : (quarter : ℝ) = 1 / 4 := rfl

/-! ## The corners -/

theorem corner1_flat (F2 F3 : Pla (Cons1 ℝ ns)) (c : Pla ℝ) (h : ∀ j i, (F3 j i).Bz = c j i) (k j i : ℤ) :
    corner1 (fun _ => F2) (fun _ => F3) (fun _ => c) k j i = -(F2 j i).By := by
  simp only [corner1, upwind, h, hlf, qtr]
  split_ifs <;> ring

theorem corner2_flat (F1 F3 : Pla (Cons1 ℝ ns)) (c : Pla ℝ) (h : ∀ j i, -(F3 j i).By = c j i) (k j i : ℤ) :
    corner2 (fun _ => F1) (fun _ => F3) (fun _ => c) k j i = (F1 j i).Bz := by
  have h' : ∀ j i, (F3 j i).By = - c j i := fun j i => by rw [← h]; ring
  simp only [corner2, upwind, h', hlf, qtr]
  split_ifs <;> ring

theorem corner3_flat (F1 F2 : Pla (Cons1 ℝ ns)) (c : Pla ℝ) (k j i : ℤ) :
    corner3 (fun _ => F1) (fun _ => F2) (fun _ => c) k j i = corner2d F1 F2 c j i := by
  simp only [corner3, corner2d, upwind, hlf, qtr]
  split_ifs <;> ring

/-! ## One step -/

/-- The last part of the step. -/
theorem lat3_flat (q : Step ℝ) (P : Pl ℝ ns) (G1 G2 G3 : Pla (Cons1 ℝ ns)) (e1 e2 e3 e : Arr ℝ)
    (h1 : ∀ k j i, e1 k j i = -(G2 j i).By) (h2 : ∀ k j i, e2 k j i = (G1 j i).Bz) (h3 : ∀ k j i, e3 k j i = e k j i)
    (he : ∀ k k' j i, e k j i = e k' j i) :
    lat3 q P.ext (fun _ => G1) (fun _ => G2) (fun _ => G3) e1 e2 e3 = lat2 q P.ext (fun _ => G1) (fun _ => G2) e := by
  have q1 : e1 = fun _ j i => -(G2 j i).By := by funext k j i; exact h1 k j i
  have q2 : e2 = fun _ j i => (G1 j i).Bz := by funext k j i; exact h2 k j i
  have q3 : e3 = fun _ => e 0 := by funext k j i; rw [h3, he k 0]
  have q4 : e = fun _ => e 0 := by funext k j i; rw [he k 0]
  rw [q1, q2, q3, q4]
  simp only [lat3, lat2, coef, Pl.ext, ct1, ct2, ct3, cB1, cB2, avgB, avg2, upd1, upd2, upd3, updB1, updB2, St.mk.injEq,
    sub_self, mul_zero, sub_zero, zero_sub, hlf]
  refine ⟨?_, ?_, trivial, ?_⟩ <;> funext k j i
  · ext <;> simp only [] <;> ring
  all_goals ring

section VanLeer
variable {M : Funs ℝ ns} (hM : M.Plain) (q : Step ℝ) (P : Pl ℝ ns)

theorem flat_F1 : iFlux1 (M.vl q) P.ext = fun _ => o2F1 M P := rfl
theorem flat_F2 : iFlux2 (M.vl q) P.ext = fun _ => o2F2 M P := rfl
/-- The x3-fluxes of a plane repeated in x3. -/
noncomputable def flF3 (M : Funs ℝ ns) (P : Pl ℝ ns) : Pla (Cons1 ℝ ns) := fun j i =>
  fluxA M (load3 (P.U j i)) (load3 (P.U j i)) (P.U j i).B3c (P.U j i).B3c (P.U j i).B3c
theorem flat_F3 : iFlux3 (M.vl q) P.ext = fun _ => flF3 M P := rfl

include hM
theorem flat_emf1 (k j i : ℤ) : iEmf1 (M.vl q) P.ext k j i = -(o2F2 M P j i).By := by
  rw [iEmf1, flat_F2, flat_F3]
  refine corner1_flat _ _ (fun j i => ecc1 (M.c2p (P.U j i))) (fun j i => ?_) k j i
  simp only [flF3, fluxA, hM.fluxZ, hM.Bz, hM.x, hM.z, hM.c2p, ecc1, load3]
theorem flat_emf2 (k j i : ℤ) : iEmf2 (M.vl q) P.ext k j i = (o2F1 M P j i).Bz := by
  rw [iEmf2, flat_F1, flat_F3]
  refine corner2_flat _ _ (fun j i => ecc2 (M.c2p (P.U j i))) (fun j i => ?_) k j i
  simp only [flF3, fluxA, hM.fluxY, hM.By, hM.x, hM.y, hM.c2p, ecc2, load3]
  ring
omit hM in
theorem flat_emf3 (k j i : ℤ) : iEmf3 (M.vl q) P.ext k j i = o2Emf M P j i := by
  rw [iEmf3, flat_F1, flat_F2]
  exact corner3_flat _ _ (o2Ecc M P) k j i

theorem flat_B1F : iB1F (M.vl q) (coef q) P.ext = fun _ => o2B1F M q P := by
  funext k j i
  simp only [iB1F, ct1, flat_emf2 hM, flat_emf3]
  simp only [o2B1F, cB1, coef, Pl.ext]; ring
theorem flat_B2F : iB2F (M.vl q) (coef q) P.ext = fun _ => o2B2F M q P := by
  funext k j i
  simp only [iB2F, ct2, flat_emf1 hM, flat_emf3]
  simp only [o2B2F, cB2, coef, Pl.ext]; ring
theorem flat_B3F : iB3F (M.vl q) (coef q) P.ext = fun _ j i => (o2Uh M q P j i).B3c := by
  funext k j i
  simp only [iB3F, ct3, flat_emf1 hM, flat_emf2 hM]
  simp only [o2Uh, updB1, updB2, upd1, upd2, avg2, coef, Pl.ext]; ring
theorem flat_Uh : iUhalf (M.vl q) (coef q) P.ext = fun _ => o2Uh M q P := by
  funext k j i
  simp only [iUhalf, flat_F1, flat_F2, flat_F3, flat_B1F hM, flat_B2F hM, flat_B3F hM, avgB]
  simp only [o2Uh, updB1, updB2, upd1, upd2, upd3, avg2, coef, Pl.ext, hlf]
  ext <;> simp only [] <;> ring

theorem flat_G1 : jFlux1 (M.vl q) (coef q) P.ext = fun _ => o2G1 M q P := by
  funext k j i
  simp only [jFlux1, iLR1, flat_Uh hM, flat_B1F hM]
  rfl
theorem flat_G2 : jFlux2 (M.vl q) (coef q) P.ext = fun _ => o2G2 M q P := by
  funext k j i
  simp only [jFlux2, iLR2, flat_Uh hM, flat_B2F hM]
  rfl
/-- The x3-fluxes at the half time step. -/
noncomputable def flG3 (M : Funs ℝ ns) (q : Step ℝ) (P : Pl ℝ ns) : Pla (Cons1 ℝ ns) := fun j i =>
  side M (M.c2p1 (load3 (o2Uh M q P j i)) (o2Uh M q P j i).B3c, M.c2p1 (load3 (o2Uh M q P j i)) (o2Uh M q P j i).B3c)
    (o2Uh M q P j i).B3c
theorem flat_G3 : jFlux3 (M.vl q) (coef q) P.ext = fun _ => flG3 M q P := by
  funext k j i
  have e : (M.vl q).lr 2 (fun _ => (M.vl q).c2p1 (load3 (o2Uh M q P j i)) (o2Uh M q P j i).B3c)
      (fun _ => (o2Uh M q P j i).B3c) = _ := hM.lr q.dt (q.dx 2) 2 _ _
  simp only [jFlux3, iLR3, flat_Uh hM, flat_B3F hM, e]
  rfl

theorem flat_emf1' (k j i : ℤ) : jEmf1 (M.vl q) (coef q) P.ext k j i = -(o2G2 M q P j i).By := by
  have e : jEcc1 (M.vl q) (coef q) P.ext = fun _ j i => ecc1 (M.c2p (o2Uh M q P j i)) := by
    funext k j i; simp only [jEcc1, flat_Uh hM]; rfl
  rw [jEmf1, flat_G2 hM, flat_G3 hM, e]
  refine corner1_flat _ _ _ (fun j i => ?_) k j i
  simp only [flG3, side, hM.fluxZ, hM.Bz, hM.x, hM.z, hM.c2p, ecc1, load3]
theorem flat_emf2' (k j i : ℤ) : jEmf2 (M.vl q) (coef q) P.ext k j i = (o2G1 M q P j i).Bz := by
  have e : jEcc2 (M.vl q) (coef q) P.ext = fun _ j i => ecc2 (M.c2p (o2Uh M q P j i)) := by
    funext k j i; simp only [jEcc2, flat_Uh hM]; rfl
  rw [jEmf2, flat_G1 hM, flat_G3 hM, e]
  refine corner2_flat _ _ _ (fun j i => ?_) k j i
  simp only [flG3, side, hM.fluxY, hM.By, hM.x, hM.y, hM.c2p, ecc2, load3]
  ring
theorem flat_emf3' (k j i : ℤ) : jEmf3 (M.vl q) (coef q) P.ext k j i = o2Emf' M q P j i := by
  have e : jEcc3 (M.vl q) (coef q) P.ext = fun _ => o2Ecc' M q P := by
    funext k j i; simp only [jEcc3, flat_Uh hM]; rfl
  rw [jEmf3, flat_G1 hM, flat_G2 hM, e]
  exact corner3_flat _ _ _ k j i

/-- **C68, van Leer**: one step of the 3D integrator on data independent of x3 is one step of the 2D integrator. -/
theorem latV3_flat : latV3 M q P.ext = latV2 M q P.ext := by
  rw [latV3, flat_G1 hM, flat_G2 hM, flat_G3 hM]
  exact lat3_flat q P _ _ _ _ _ _ (fun _ => o2Emf' M q P) (flat_emf1' hM q P) (flat_emf2' hM q P) (flat_emf3' hM q P) (fun _ _ _ _ => rfl)

end VanLeer

/-- A step of the 2D integrators keeps data independent of x3. -/
theorem lat2_ext (q : Step ℝ) (P : Pl ℝ ns) (G1 G2 : Pla (Cons1 ℝ ns)) (e : Pla ℝ) :
    lat2 q P.ext (fun _ => G1) (fun _ => G2) (fun _ => e) =
      Pl.ext (plane (lat2 q P.ext (fun _ => G1) (fun _ => G2) (fun _ => e)) 0) := rfl

theorem latV2_ext (M : Funs ℝ ns) (q : Step ℝ) (P : Pl ℝ ns) : latV2 M q P.ext = Pl.ext (plane (latV2 M q P.ext) 0) := rfl
theorem latC2_ext (M : Funs ℝ ns) (q : Step ℝ) (P : Pl ℝ ns) : latC2 M q P.ext = Pl.ext (plane (latC2 M q P.ext) 0) := rfl

end Athena.Gen
