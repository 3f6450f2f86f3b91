import Verif.Integr.All
import Mathlib.Tactic.Ring

/-!
# Relabelling the axes

The three-dimensional integrators treat the three directions alike: on data whose axes are renamed cyclically
(the old x2-direction becomes x1, x3 becomes x2, x1 becomes x3) they do what they did on the old data, in exact arithmetic.
(The order of the additions differs from direction to direction, so this is not bit for bit.)
-/

namespace Athena.Gen
open Athena.Bvals hiding Rng
open Athena.Vl3
open Num

variable {ns : ℕ}

/-- A zone in the new axes. -/
def rotU {R : Type} (u : Cons R ns) : Cons R ns := ⟨u.d, u.M2, u.M3, u.M1, u.E, u.B2c, u.B3c, u.B1c, u.s⟩
/-- Primitive variables in the new axes. -/
def rotP {R : Type} (w : Prim R) : Prim R := ⟨w.V2, w.V3, w.V1, w.B2c, w.B3c, w.B1c⟩
/-- An array in the new axes: the new index `i` is the old `j`, the new `j` the old `k`, the new `k` the old `i`. -/
def rotA3 {α : Type} (a : Arr α) : Arr α := fun k j i => a j i k
/-- Contents of a Grid in the new axes. -/
def _root_.Athena.Vl3.St.rot {R : Type} (L : St R ns) : St R ns :=
  ⟨fun k j i => rotU (L.U j i k), rotA3 L.B2i, rotA3 L.B3i, rotA3 L.B1i⟩
/-- Zone sizes in the new axes. -/
def Step.rot {R : Type} (q : Step R) : Step R := ⟨q.dt, q.dx2, q.dx3, q.dx1⟩
/-- Index ranges in the new axes. -/
def _root_.Athena.Vl3.Rng.rot (g : Rng) : Rng := ⟨g.js, g.je, g.ks, g.ke, g.is, g.ie, g.ng⟩

/-- The functions called by the integrator do not distinguish the directions: `lr_states` ignores its argument `dir` (it is used in
cylindrical coordinates only), `Cons_to_Prim` commutes with the relabelling. -/
structure Funs.Isotropic {R : Type} (M : Funs R ns) : Prop where
  lr : ∀ dt dx d d' w b, M.lr dt dx d w b = M.lr dt dx d' w b
  c2p : ∀ u, M.c2p (rotU u) = rotP (M.c2p u)

theorem hassoc (a b c d : ℝ) : half * (a - b + c - d) = half * (a - b + (c - d)) := by ring_nf

theorem corner1_rot (F1 F3 : Arr (Cons1 ℝ ns)) (c : Arr ℝ) (k j i : ℤ) :
    corner1 (rotA3 F3) (rotA3 F1) (rotA3 c) k j i = corner2 F1 F3 c j i k := by
  simp only [corner1, corner2, rotA3, hassoc]; ring
theorem corner2_rot (F1 F2 : Arr (Cons1 ℝ ns)) (c : Arr ℝ) (k j i : ℤ) :
    corner2 (rotA3 F2) (rotA3 F1) (rotA3 c) k j i = corner3 F1 F2 c j i k := by
  simp only [corner2, corner3, rotA3, hassoc]; ring
theorem corner3_rot (F2 F3 : Arr (Cons1 ℝ ns)) (c : Arr ℝ) (k j i : ℤ) :
    corner3 (rotA3 F2) (rotA3 F3) (rotA3 c) k j i = corner1 F2 F3 c j i k := by
  simp only [corner3, corner1, rotA3, hassoc]; ring

theorem ct1_rot (p q : ℝ) (e1 e3 : Arr ℝ) (k j i : ℤ) : ct1 q p (rotA3 e3) (rotA3 e1) k j i = ct2 p q e1 e3 j i k := by
  simp only [ct1, ct2, rotA3]
theorem ct2_rot (p q : ℝ) (e1 e2 : Arr ℝ) (k j i : ℤ) : ct2 q p (rotA3 e2) (rotA3 e1) k j i = ct3 p q e1 e2 j i k := by
  simp only [ct2, ct3, rotA3]
theorem ct3_rot (p q : ℝ) (e2 e3 : Arr ℝ) (k j i : ℤ) : ct3 p q (rotA3 e2) (rotA3 e3) k j i = ct1 p q e2 e3 j i k := by
  simp only [ct3, ct1, rotA3]

/-- The step on a lattice from fluxes and electric fields in the new axes. -/
theorem lat3_rot (q : Step ℝ) (L : St ℝ ns) (F1 F2 F3 : Arr (Cons1 ℝ ns)) (e1 e2 e3 : Arr ℝ) :
    lat3 q.rot L.rot (rotA3 F2) (rotA3 F3) (rotA3 F1) (rotA3 e2) (rotA3 e3) (rotA3 e1) = (lat3 q L F1 F2 F3 e1 e2 e3).rot := by
  simp only [lat3, St.rot, St.mk.injEq]
  refine ⟨?_, ?_, ?_, ?_⟩
  · funext k j i
    simp only [upd1, upd2, upd3, avgB, rotU, rotA3, coef, Step.rot, ct1, ct2, ct3, Cons.mk.injEq, true_and]
    refine ⟨by ring, by ring, by ring, by ring, by ring, ?_⟩
    funext n; ring
  · funext k j i; simp only [rotA3, ct1, ct2, coef, Step.rot]
  · funext k j i; simp only [rotA3, ct2, ct3, coef, Step.rot]
  · funext k j i; simp only [rotA3, ct3, ct1, coef, Step.rot]

section VL
variable {M : Funs ℝ ns} (hM : M.Isotropic) (q : Step ℝ) (L : St ℝ ns)

theorem rFlux1 : iFlux1 (M.vl q.rot) L.rot = rotA3 (iFlux2 (M.vl q) L) := rfl
theorem rFlux2 : iFlux2 (M.vl q.rot) L.rot = rotA3 (iFlux3 (M.vl q) L) := rfl
theorem rFlux3 : iFlux3 (M.vl q.rot) L.rot = rotA3 (iFlux1 (M.vl q) L) := rfl
include hM
theorem rEcc1 : iEcc1 (M.vl q.rot) L.rot = rotA3 (iEcc2 (M.vl q) L) := by
  funext k j i; simp only [iEcc1, iEcc2, rotA3, Funs.vl, St.rot, hM.c2p]; rfl
theorem rEcc2 : iEcc2 (M.vl q.rot) L.rot = rotA3 (iEcc3 (M.vl q) L) := by
  funext k j i; simp only [iEcc2, iEcc3, rotA3, Funs.vl, St.rot, hM.c2p]; rfl
theorem rEcc3 : iEcc3 (M.vl q.rot) L.rot = rotA3 (iEcc1 (M.vl q) L) := by
  funext k j i; simp only [iEcc3, iEcc1, rotA3, Funs.vl, St.rot, hM.c2p]; rfl
theorem rEmf1 : iEmf1 (M.vl q.rot) L.rot = rotA3 (iEmf2 (M.vl q) L) := by
  funext k j i; rw [iEmf1, rFlux2, rFlux3, rEcc1 hM, corner1_rot]; rfl
theorem rEmf2 : iEmf2 (M.vl q.rot) L.rot = rotA3 (iEmf3 (M.vl q) L) := by
  funext k j i; rw [iEmf2, rFlux1, rFlux3, rEcc2 hM, corner2_rot]; rfl
theorem rEmf3 : iEmf3 (M.vl q.rot) L.rot = rotA3 (iEmf1 (M.vl q) L) := by
  funext k j i; rw [iEmf3, rFlux1, rFlux2, rEcc3 hM, corner3_rot]; rfl
theorem rB1F : iB1F (M.vl q.rot) (coef q.rot) L.rot = rotA3 (iB2F (M.vl q) (coef q) L) := by
  funext k j i; simp only [iB1F, rEmf2 hM, rEmf3 hM, ct1_rot]; rfl
theorem rB2F : iB2F (M.vl q.rot) (coef q.rot) L.rot = rotA3 (iB3F (M.vl q) (coef q) L) := by
  funext k j i; simp only [iB2F, rEmf1 hM, rEmf3 hM, ct2_rot]; rfl
theorem rB3F : iB3F (M.vl q.rot) (coef q.rot) L.rot = rotA3 (iB1F (M.vl q) (coef q) L) := by
  funext k j i; simp only [iB3F, rEmf1 hM, rEmf2 hM, ct3_rot]; rfl
theorem rUhalf (k j i : ℤ) : iUhalf (M.vl q.rot) (coef q.rot) L.rot k j i = rotU (iUhalf (M.vl q) (coef q) L j i k) := by
  simp only [iUhalf, rFlux1, rFlux2, rFlux3, rB1F hM, rB2F hM, rB3F hM]
  simp only [upd1, upd2, upd3, avgB, rotU, rotA3, coef, Step.rot, St.rot, Cons.mk.injEq, true_and]
  refine ⟨by ring, by ring, by ring, by ring, by ring, ?_⟩
  funext n; ring
theorem rLR1 (k j i : ℤ) : iLR1 (M.vl q.rot) (coef q.rot) L.rot k j i = iLR2 (M.vl q) (coef q) L j i k := by
  simp only [iLR1, iLR2, rUhalf hM]
  exact hM.lr q.dt (q.dx 1) 0 1 _ _
theorem rLR2 (k j i : ℤ) : iLR2 (M.vl q.rot) (coef q.rot) L.rot k j i = iLR3 (M.vl q) (coef q) L j i k := by
  simp only [iLR2, iLR3, rUhalf hM]
  exact hM.lr q.dt (q.dx 2) 1 2 _ _
theorem rLR3 (k j i : ℤ) : iLR3 (M.vl q.rot) (coef q.rot) L.rot k j i = iLR1 (M.vl q) (coef q) L j i k := by
  simp only [iLR3, iLR1, rUhalf hM]
  exact hM.lr q.dt (q.dx 0) 2 0 _ _
theorem rjFlux1 : jFlux1 (M.vl q.rot) (coef q.rot) L.rot = rotA3 (jFlux2 (M.vl q) (coef q) L) := by
  funext k j i; simp only [jFlux1, rLR1 hM, rB1F hM]; rfl
theorem rjFlux2 : jFlux2 (M.vl q.rot) (coef q.rot) L.rot = rotA3 (jFlux3 (M.vl q) (coef q) L) := by
  funext k j i; simp only [jFlux2, rLR2 hM, rB2F hM]; rfl
theorem rjFlux3 : jFlux3 (M.vl q.rot) (coef q.rot) L.rot = rotA3 (jFlux1 (M.vl q) (coef q) L) := by
  funext k j i; simp only [jFlux3, rLR3 hM, rB3F hM]; rfl
theorem rjEcc1 : jEcc1 (M.vl q.rot) (coef q.rot) L.rot = rotA3 (jEcc2 (M.vl q) (coef q) L) := by
  funext k j i; simp only [jEcc1, rUhalf hM, jEcc2, rotA3]; simp only [Funs.vl, hM.c2p]; rfl
theorem rjEcc2 : jEcc2 (M.vl q.rot) (coef q.rot) L.rot = rotA3 (jEcc3 (M.vl q) (coef q) L) := by
  funext k j i; simp only [jEcc2, rUhalf hM, jEcc3, rotA3]; simp only [Funs.vl, hM.c2p]; rfl
theorem rjEcc3 : jEcc3 (M.vl q.rot) (coef q.rot) L.rot = rotA3 (jEcc1 (M.vl q) (coef q) L) := by
  funext k j i; simp only [jEcc3, rUhalf hM, jEcc1, rotA3]; simp only [Funs.vl, hM.c2p]; rfl
theorem rjEmf1 : jEmf1 (M.vl q.rot) (coef q.rot) L.rot = rotA3 (jEmf2 (M.vl q) (coef q) L) := by
  funext k j i; rw [jEmf1, rjFlux2 hM, rjFlux3 hM, rjEcc1 hM, corner1_rot]; rfl
theorem rjEmf2 : jEmf2 (M.vl q.rot) (coef q.rot) L.rot = rotA3 (jEmf3 (M.vl q) (coef q) L) := by
  funext k j i; rw [jEmf2, rjFlux1 hM, rjFlux3 hM, rjEcc2 hM, corner2_rot]; rfl
theorem rjEmf3 : jEmf3 (M.vl q.rot) (coef q.rot) L.rot = rotA3 (jEmf1 (M.vl q) (coef q) L) := by
  funext k j i; rw [jEmf3, rjFlux1 hM, rjFlux2 hM, rjEcc3 hM, corner3_rot]; rfl

theorem latV3_rot : latV3 M q.rot L.rot = (latV3 M q L).rot := by
  rw [latV3, rjFlux1 hM, rjFlux2 hM, rjFlux3 hM, rjEmf1 hM, rjEmf2 hM, rjEmf3 hM, lat3_rot]; rfl
end VL

section CTU
variable {M : Funs ℝ ns} (hM : M.Isotropic) (q : Step ℝ) (L : St ℝ ns)

theorem rW1' (hM : M.Isotropic) (l : Bool) (k j i : ℤ) : d3W1 M q.rot L.rot l k j i = d3W2 M q L l j i k := by
  simp only [d3W1, d3W2, hM.lr q.rot.dt q.rot.dx1 0 1]; rfl
theorem rW2' (hM : M.Isotropic) (l : Bool) (k j i : ℤ) : d3W2 M q.rot L.rot l k j i = d3W3 M q L l j i k := by
  simp only [d3W2, d3W3, hM.lr q.rot.dt q.rot.dx2 1 2]; rfl
theorem rW3' (hM : M.Isotropic) (l : Bool) (k j i : ℤ) : d3W3 M q.rot L.rot l k j i = d3W1 M q L l j i k := by
  simp only [d3W3, d3W1, hM.lr q.rot.dt q.rot.dx3 2 0]; rfl
include hM
theorem rdU1 (l : Bool) : d3U1 M q.rot L.rot l = rotA3 (d3U2 M q L l) := by
  funext k j i; simp only [d3U1, rW1' q L hM]; rfl
theorem rdU2 (l : Bool) : d3U2 M q.rot L.rot l = rotA3 (d3U3 M q L l) := by
  funext k j i; simp only [d3U2, rW2' q L hM]; rfl
theorem rdU3 (l : Bool) : d3U3 M q.rot L.rot l = rotA3 (d3U1 M q L l) := by
  funext k j i; simp only [d3U3, rW3' q L hM]; rfl
theorem rdF1 : d3F1 M q.rot L.rot = rotA3 (d3F2 M q L) := by
  funext k j i; simp only [d3F1, rW1' q L hM, rdU1 hM]; rfl
theorem rdF2 : d3F2 M q.rot L.rot = rotA3 (d3F3 M q L) := by
  funext k j i; simp only [d3F2, rW2' q L hM, rdU2 hM]; rfl
theorem rdF3 : d3F3 M q.rot L.rot = rotA3 (d3F1 M q L) := by
  funext k j i; simp only [d3F3, rW3' q L hM, rdU3 hM]; rfl
theorem rdEmf1 : d3Emf1 M q.rot L.rot = rotA3 (d3Emf2 M q L) := by
  funext k j i
  have : (fun k j i => ecU1 (L.rot.U k j i)) = rotA3 (fun k j i => ecU2 (L.U k j i)) := rfl
  rw [d3Emf1, rdF2 hM, rdF3 hM, this, corner1_rot]; rfl
theorem rdEmf2 : d3Emf2 M q.rot L.rot = rotA3 (d3Emf3 M q L) := by
  funext k j i
  have : (fun k j i => ecU2 (L.rot.U k j i)) = rotA3 (fun k j i => ecU3 (L.U k j i)) := rfl
  rw [d3Emf2, rdF1 hM, rdF3 hM, this, corner2_rot]; rfl
theorem rdEmf3 : d3Emf3 M q.rot L.rot = rotA3 (d3Emf1 M q L) := by
  funext k j i
  have : (fun k j i => ecU3 (L.rot.U k j i)) = rotA3 (fun k j i => ecU1 (L.U k j i)) := rfl
  rw [d3Emf3, rdF1 hM, rdF2 hM, this, corner3_rot]; rfl
omit hM in
theorem qh_rot : qh q.rot 0 = qh q 1 ∧ qh q.rot 1 = qh q 2 ∧ qh q.rot 2 = qh q 0 := ⟨rfl, rfl, rfl⟩
theorem rdB1h : d3B1h M q.rot L.rot = rotA3 (d3B2h M q L) := by
  funext k j i; simp only [d3B1h, rdEmf2 hM, rdEmf3 hM, ct1_rot]; rfl
theorem rdB2h : d3B2h M q.rot L.rot = rotA3 (d3B3h M q L) := by
  funext k j i; simp only [d3B2h, rdEmf1 hM, rdEmf3 hM, ct2_rot]; rfl
theorem rdB3h : d3B3h M q.rot L.rot = rotA3 (d3B1h M q L) := by
  funext k j i; simp only [d3B3h, rdEmf1 hM, rdEmf2 hM, ct3_rot]; rfl
omit hM in
theorem rotAB (p p' e e' : ℝ) (a b c d u : Cons1 ℝ ns) : rotA p a b e (rotB p' c d e' u) = rotB p' c d e' (rotA p a b e u) := by
  simp only [rotA, rotB, Cons1.mk.injEq, true_and, and_true]
  refine ⟨by ring, by ring, by ring, by ring, by ring, ?_⟩
  funext n; ring
theorem rdU1' (l : Bool) : d3U1' M q.rot L.rot l = rotA3 (d3U2' M q L l) := by
  funext k j i
  simp only [d3U1', rdF2 hM, rdF3 hM, rdU1 hM, rdEmf1 hM, rotAB]
  simp only [d3U2', rotA3, rotAB]; rfl
theorem rdU2' (l : Bool) : d3U2' M q.rot L.rot l = rotA3 (d3U3' M q L l) := by
  funext k j i
  simp only [d3U2', rdF1 hM, rdF3 hM, rdU2 hM, rdEmf2 hM, rotAB]
  simp only [d3U3', rotA3, rotAB]; rfl
theorem rdU3' (l : Bool) : d3U3' M q.rot L.rot l = rotA3 (d3U1' M q L l) := by
  funext k j i
  simp only [d3U3', rdF1 hM, rdF2 hM, rdU3 hM, rdEmf3 hM, rotAB]
  simp only [d3U1', rotA3, rotAB]; rfl
theorem rdH (k j i : ℤ) : d3H M q.rot L.rot k j i = rotU (d3H M q L j i k) := by
  simp only [d3H, rdF1 hM, rdF2 hM, rdF3 hM, rdB1h hM, rdB2h hM, rdB3h hM]
  simp only [halfU, rotU, rotA3, St.rot, qh_rot, Cons.mk.injEq, true_and, and_true]
  refine ⟨by congr 1; ring, by ring, by ring, by ring⟩
theorem rdG1 : d3G1 M q.rot L.rot = rotA3 (d3G2 M q L) := by
  funext k j i; simp only [d3G1, rdU1' hM, rdB1h hM]; rfl
theorem rdG2 : d3G2 M q.rot L.rot = rotA3 (d3G3 M q L) := by
  funext k j i; simp only [d3G2, rdU2' hM, rdB2h hM]; rfl
theorem rdG3 : d3G3 M q.rot L.rot = rotA3 (d3G1 M q L) := by
  funext k j i; simp only [d3G3, rdU3' hM, rdB3h hM]; rfl
theorem rdEmf1' : d3Emf1' M q.rot L.rot = rotA3 (d3Emf2' M q L) := by
  funext k j i
  have : (fun k j i => ecU1 (d3H M q.rot L.rot k j i)) = rotA3 (fun k j i => ecU2 (d3H M q L k j i)) := by
    funext k j i; rw [rdH hM]; rfl
  rw [d3Emf1', rdG2 hM, rdG3 hM, this, corner1_rot]; rfl
theorem rdEmf2' : d3Emf2' M q.rot L.rot = rotA3 (d3Emf3' M q L) := by
  funext k j i
  have : (fun k j i => ecU2 (d3H M q.rot L.rot k j i)) = rotA3 (fun k j i => ecU3 (d3H M q L k j i)) := by
    funext k j i; rw [rdH hM]; rfl
  rw [d3Emf2', rdG1 hM, rdG3 hM, this, corner2_rot]; rfl
theorem rdEmf3' : d3Emf3' M q.rot L.rot = rotA3 (d3Emf1' M q L) := by
  funext k j i
  have : (fun k j i => ecU3 (d3H M q.rot L.rot k j i)) = rotA3 (fun k j i => ecU1 (d3H M q L k j i)) := by
    funext k j i; rw [rdH hM]; rfl
  rw [d3Emf3', rdG1 hM, rdG2 hM, this, corner3_rot]; rfl

theorem latC3_rot : latC3 M q.rot L.rot = (latC3 M q L).rot := by
  rw [latC3, rdG1 hM, rdG2 hM, rdG3 hM, rdEmf1' hM, rdEmf2' hM, rdEmf3' hM, lat3_rot]; rfl
end CTU

end Athena.Gen
