import Verif.Integr.FlatC

/-!
# C68: on data that do not depend on x2 the 2D integrators do what the 1D ones do
-/

namespace Athena.Gen
open Athena.Bvals hiding Rng
open Athena.Vl3
open Num

variable {ns : ℕ}

/-- A row with the field `b` along it, repeated in x2. -/
def rowPl {R : Type} (u : ℤ → Cons R ns) (b : R) : Pl R ns := ⟨fun _ => u, fun _ _ => b, fun _ i => (u i).B2c⟩

theorem corner2d_flat (F1 F2 : ℤ → Cons1 ℝ ns) (c : ℤ → ℝ) (h : ∀ i, (F2 i).Bz = c i) (j i : ℤ) :
    corner2d (fun _ => F1) (fun _ => F2) (fun _ => c) j i = -(F1 i).By := by
  simp only [corner2d, upwind, h, hlf, qtr]
  split_ifs <;> ring

/-- The last part of the step. -/
theorem lat2_flat (q : Step ℝ) {u : ℤ → Cons ℝ ns} {b : ℝ} (hb : ∀ i, (u i).B1c = b) (G1 G2 : ℤ → Cons1 ℝ ns) (e : Arr ℝ)
    (he : ∀ k j i, e k j i = -(G1 i).By) :
    lat2 q (rowPl u b).ext (fun _ _ => G1) (fun _ _ => G2) e = lat1 q (rowPl u b).ext (fun _ _ => G1) := by
  have q1 : e = fun _ _ i => -(G1 i).By := by funext k j i; exact he k j i
  rw [q1]
  simp only [lat2, lat1, Pl.ext, rowPl, cB1, cB2, avg2, upd1, upd2, updB1, updB2, updA1, St.mk.injEq,
    sub_self, mul_zero, sub_zero, hlf]
  refine ⟨?_, trivial, ?_, trivial⟩ <;> funext k j i
  · ext <;> simp only [hb] <;> ring
  all_goals ring

variable {M : Funs ℝ ns} (hM : M.Plain) (q : Step ℝ) {u : ℤ → Cons ℝ ns} {b : ℝ} (hb : ∀ i, (u i).B1c = b)

/-! ## van Leer -/

section VanLeer

variable (hf : ∀ i, M.p2c1 (M.c2p1 (load1 (u i)) (u i).B1c) (u i).B1c = load1 (u i))
include hM hf
theorem row_F1 : o2F1 M (rowPl u b) = fun _ => lvFlux M (rowPl u b).ext 0 0 := by
  funext j i
  simp only [o2F1, fluxA, rowPl, hf]; rfl
/-- The x2-fluxes of a row. -/
noncomputable def rwF2 (M : Funs ℝ ns) (u : ℤ → Cons ℝ ns) (i : ℤ) : Cons1 ℝ ns :=
  fluxA M (load2 (u i)) (load2 (u i)) (u i).B2c (u i).B2c (u i).B2c
omit hM hf in
theorem row_F2 : o2F2 M (rowPl u b) = fun _ => rwF2 M u := rfl
theorem row_emf (j i : ℤ) : o2Emf M (rowPl u b) j i = -(lvFlux M (rowPl u b).ext 0 0 i).By := by
  rw [o2Emf, row_F1 hM hf, row_F2]
  refine corner2d_flat _ _ (fun i => ecc3 (M.c2p (u i))) (fun i => ?_) j i
  simp only [rwF2, fluxA, hM.fluxZ, hM.Bz, hM.x, hM.z, hM.c2p, ecc3, load2]
theorem row_B1F : o2B1F M q (rowPl u b) = fun _ _ => b := by
  funext j i
  simp only [o2B1F, cB1, row_emf hM hf, sub_self, mul_zero, sub_zero]; rfl
theorem row_B2F : o2B2F M q (rowPl u b) = fun _ i => (lvUhalf M q (rowPl u b).ext 0 0 i).B2c := by
  funext j i
  simp only [o2B2F, cB2, row_emf hM hf, lvUhalf, updA1]
  simp only [rowPl, Pl.ext]; ring
include hb
theorem row_Uh : o2Uh M q (rowPl u b) = fun _ => lvUhalf M q (rowPl u b).ext 0 0 := by
  funext j i
  simp only [o2Uh, row_F1 hM hf, row_F2, row_B1F hM q hf, row_B2F hM q hf, lvUhalf, updA1, updB1, updB2, upd1, upd2, avg2]
  ext <;> simp only [rowPl, Pl.ext, hb, hlf] <;> ring
theorem row_G1 : o2G1 M q (rowPl u b) = fun _ => lvFlux' M q (rowPl u b).ext 0 0 := by
  funext j i
  simp only [o2G1, o2LR1, row_Uh hM q hb hf, row_B1F hM q hf]; rfl
/-- The x2-fluxes at the half time step. -/
noncomputable def rwG2 (M : Funs ℝ ns) (v : ℤ → Cons ℝ ns) (i : ℤ) : Cons1 ℝ ns :=
  side M (M.c2p1 (load2 (v i)) (v i).B2c, M.c2p1 (load2 (v i)) (v i).B2c) (v i).B2c
theorem row_G2 : o2G2 M q (rowPl u b) = fun _ => rwG2 M (lvUhalf M q (rowPl u b).ext 0 0) := by
  funext j i
  simp only [o2G2, o2LR2, row_Uh hM q hb hf, row_B2F hM q hf, hM.lr]; rfl
theorem row_emf' (j i : ℤ) : o2Emf' M q (rowPl u b) j i = -(lvFlux' M q (rowPl u b).ext 0 0 i).By := by
  have e : o2Ecc' M q (rowPl u b) = fun _ i => ecc3 (M.c2p (lvUhalf M q (rowPl u b).ext 0 0 i)) := by
    funext j i; simp only [o2Ecc', row_Uh hM q hb hf]
  rw [o2Emf', row_G1 hM q hb hf, row_G2 hM q hb hf, e]
  refine corner2d_flat _ _ _ (fun i => ?_) j i
  simp only [rwG2, side, hM.fluxZ, hM.Bz, hM.x, hM.z, hM.c2p, ecc3, load2]

/-- **C68, van Leer**: one step of the 2D integrator on data independent of x2 and x3 is one step of the 1D integrator. -/
theorem latV2_flat : latV2 M q (rowPl u b).ext = lat1 q (rowPl u b).ext (lvFlux' M q (rowPl u b).ext) := by
  have e1 : (fun k => o2G1 M q (plane (rowPl u b).ext k)) = fun _ _ => lvFlux' M q (rowPl u b).ext 0 0 := by
    funext k; exact row_G1 hM q hb hf
  have e2 : (fun k => o2G2 M q (plane (rowPl u b).ext k)) = fun _ _ => rwG2 M (lvUhalf M q (rowPl u b).ext 0 0) := by
    funext k; exact row_G2 hM q hb hf
  rw [latV2, e1, e2]
  exact lat2_flat q hb _ _ _ (fun _ j i => row_emf' hM q hb hf j i)

end VanLeer

/-! ## CTU -/

section Ctu

theorem floorW_ge (M : Funs ℝ ns) (w : Prim1 ℝ ns) : M.dMin ≤ (floorW M w).d := by
  simp only [floorW, NumC.lt, decide_eq_true_eq]
  split_ifs with h
  · exact le_refl _
  · exact not_lt.mp h
theorem floorU_id (M : Funs ℝ ns) {v : Cons1 ℝ ns} (h : M.dMin ≤ v.d) : floorU M v = v := by
  simp [floorU, floorD, NumC.lt, NumC.nan, not_lt.mpr h]

theorem lcLR_ge (M : Funs ℝ ns) (q : Step ℝ) (L : St ℝ ns) (l : Bool) (k j i : ℤ) : M.dMin ≤ (pick l (lcLR M q L k j i)).d := by
  cases l <;> exact floorW_ge M _
theorem rowc_W1 (l : Bool) (j i : ℤ) : d2W1 M q (rowPl u b) l j i = pick l (lcLR M q (rowPl u b).ext 0 0 i) := by
  cases l <;> simp only [d2W1, srcW1, rowPl, sub_self, mul_zero, zero_mul, add_zero, lcLR, pick] <;> rfl
theorem rowc_F1 : d2F1 M q (rowPl u b) = fun _ => lcFlux M q (rowPl u b).ext 0 0 := by
  funext j i
  simp only [d2F1, d2U1, rowc_W1]; rfl

include hM
variable (hX : M.Exact) (hd : ∀ i, M.dMin ≤ (u i).d)
include hd
theorem rowc_W2 (l : Bool) (j i : ℤ) : d2W2 M q (rowPl u b) l j i = M.c2p1 (load2 (u i)) (u i).B2c := by
  have e : pick l (M.lr q.dt q.dx2 1 (fun _ => M.c2p1 (load2 (u i)) (u i).B2c) (fun _ => (u i).B2c)) =
      M.c2p1 (load2 (u i)) (u i).B2c := by rw [hM.lr]; cases l <;> rfl
  simp only [d2W2, srcW2, rowPl, sub_self, mul_zero, zero_mul, add_zero]
  exact (congrArg (floorW M) e).trans (floorW_id M (by rw [hM.d]; exact hd i))
include hX
theorem rowc_U2 (l : Bool) (j i : ℤ) : d2U2 M q (rowPl u b) l j i = load2 (u i) := by
  simp only [d2U2, rowc_W2 hM q hd]; exact hX.back _ _ (hd i)
omit hM hd hX in
/-- The x2-fluxes of a row. -/
noncomputable def rcF2 (M : Funs ℝ ns) (u : ℤ → Cons ℝ ns) (i : ℤ) : Cons1 ℝ ns :=
  M.flux (load2 (u i)) (load2 (u i)) (M.c2p1 (load2 (u i)) (u i).B2c) (M.c2p1 (load2 (u i)) (u i).B2c) (u i).B2c
theorem rowc_F2 : d2F2 M q (rowPl u b) = fun _ => rcF2 M u := by
  funext j i
  simp only [d2F2, rowc_U2 hM q hX hd, rowc_W2 hM q hd]; rfl
theorem rowc_emf (j i : ℤ) : d2Emf M q (rowPl u b) j i = -(lcFlux M q (rowPl u b).ext 0 0 i).By := by
  rw [d2Emf, rowc_F1, rowc_F2 hM q hX hd]
  refine corner2d_flat _ _ (fun i => eccC (u i)) (fun i => ?_) j i
  simp only [rcF2, hM.fluxZ, hM.Bz, hM.x, hM.z, eccC, load2]; ring
theorem rowc_B1h : d2B1h M q (rowPl u b) = fun _ _ => b := by
  funext j i
  simp only [d2B1h, cB1, rowc_emf hM q hX hd, sub_self, mul_zero, sub_zero]; rfl
theorem rowc_B2h (j j' i : ℤ) : d2B2h M q (rowPl u b) j i = d2B2h M q (rowPl u b) j' i := by
  simp only [d2B2h, cB2, rowc_emf hM q hX hd]; rfl

theorem rowc_U1' (l : Bool) (j i : ℤ) :
    d2U1' M q (rowPl u b) l j i = M.p2c1 (pick l (lcLR M q (rowPl u b).ext 0 0 i)) b := by
  have e : d2U1' M q (rowPl u b) l j i = floorU M (M.p2c1 (pick l (lcLR M q (rowPl u b).ext 0 0 i)) b) := by
    simp only [d2U1', rowc_F2 hM q hX hd, trans1, mhd1, d2U1, rowc_W1]
    simp only [rowPl, sub_self, mul_zero, sub_zero, add_zero]
  rw [e, floorU_id]
  rw [hX.dens]
  exact lcLR_ge M q _ l _ _ _
theorem rowc_G1 : d2G1 M q (rowPl u b) = fun _ => lcFlux M q (rowPl u b).ext 0 0 := by
  funext j i
  simp only [d2G1, rowc_U1' hM q hX hd, rowc_B1h hM q hX hd, fluxC, hX.forth _ _ (lcLR_ge M q _ _ _ _ _)]; rfl
theorem rowc_U2' (l : Bool) (j i : ℤ) : d2U2' M q (rowPl u b) l j i = d2U2' M q (rowPl u b) true 0 i := by
  simp only [d2U2', rowc_F1, rowc_U2 hM q hX hd]
  simp only [rowPl, sub_self]
theorem rowc_G2 : d2G2 M q (rowPl u b) = fun _ => d2G2 M q (rowPl u b) 0 := by
  funext j i
  simp only [d2G2]
  rw [rowc_U2' hM q hX hd true j, rowc_U2' hM q hX hd false j, rowc_U2' hM q hX hd false 0, rowc_B2h hM q hX hd j 0]
theorem rowc_Ecc' : d2Ecc' M q (rowPl u b) = fun _ => d2Ecc' M q (rowPl u b) 0 := by
  funext j i
  simp only [d2Ecc', rowc_F1, rowc_F2 hM q hX hd, rowc_B1h hM q hX hd]
  rw [rowc_B2h hM q hX hd j 0, rowc_B2h hM q hX hd (j+1) (0+1)]; rfl
include hb
theorem rowc_Gz (i : ℤ) : (d2G2 M q (rowPl u b) 0 i).Bz = d2Ecc' M q (rowPl u b) 0 i := by
  simp only [d2G2, fluxC, rowc_U2' hM q hX hd false 0, hM.fluxZ, hM.Bz, hM.x, hM.z]
  simp only [d2Ecc', eccH, rowc_F2 hM q hX hd, rowc_B1h hM q hX hd]
  rw [rowc_B2h hM q hX hd (0+1) 0]
  simp only [d2U2', rowc_U2 hM q hX hd, rowc_F1, floorU, mhd2, trans2, load2]
  simp only [rowPl, sub_self, mul_zero, sub_zero, add_zero, hb, hlf]
  ring
theorem rowc_emf' (j i : ℤ) : d2Emf' M q (rowPl u b) j i = -(lcFlux M q (rowPl u b).ext 0 0 i).By := by
  rw [d2Emf', rowc_G1 hM q hX hd, rowc_G2 hM q hX hd, rowc_Ecc' hM q hX hd]
  exact corner2d_flat _ _ _ (rowc_Gz hM q hb hX hd) j i

/-- **C68, CTU**: one step of the 2D integrator on data independent of x2 and x3 is one step of the 1D integrator. -/
theorem latC2_flat : latC2 M q (rowPl u b).ext = lat1 q (rowPl u b).ext (lcFlux M q (rowPl u b).ext) := by
  have e1 : (fun k => d2G1 M q (plane (rowPl u b).ext k)) = fun _ _ => lcFlux M q (rowPl u b).ext 0 0 := by
    funext k; exact rowc_G1 hM q hX hd
  have e2 : (fun k => d2G2 M q (plane (rowPl u b).ext k)) = fun _ _ => d2G2 M q (rowPl u b) 0 := by
    funext k; exact rowc_G2 hM q hX hd
  rw [latC2, e1, e2]
  exact lat2_flat q hb _ _ _ (fun _ j i => rowc_emf' hM q hb hX hd j i)

end Ctu

end Athena.Gen
