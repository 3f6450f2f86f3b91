import Verif.Integr.Rot

/-!
# Mirror images

The integrators on the mirror image of the data do what they did on the data, in exact arithmetic: the zones along one direction in the
opposite order, velocity and field in that direction with the opposite sign (the field is treated as `reflect_ix1` … treat it; reversing the
whole field is a symmetry of its own).  The sweeps visit the zones in a fixed order, the left and right states change places.
-/

namespace Athena.Gen
open Athena.Bvals hiding Rng
open Athena.Vl3
open Num

variable {ns : ℕ}

/-! ## Images of the values -/

/-- Conserved variables for a sweep, the direction of the sweep reversed. -/
def _root_.Athena.Vl3.Cons1.mX (u : Cons1 ℝ ns) : Cons1 ℝ ns := { u with Mx := -u.Mx }
/-- Conserved variables, or fluxes, for a sweep, the first transverse direction reversed. -/
def _root_.Athena.Vl3.Cons1.nY (u : Cons1 ℝ ns) : Cons1 ℝ ns := { u with My := -u.My, By := -u.By }
/-- The second transverse direction reversed. -/
def _root_.Athena.Vl3.Cons1.nZ (u : Cons1 ℝ ns) : Cons1 ℝ ns := { u with Mz := -u.Mz, Bz := -u.Bz }
/-- Fluxes, the direction of the sweep reversed: all change sign but that of the longitudinal momentum. -/
def _root_.Athena.Vl3.Cons1.fX (u : Cons1 ℝ ns) : Cons1 ℝ ns := ⟨-u.d, u.Mx, -u.My, -u.Mz, -u.E, -u.By, -u.Bz, fun n => -u.s n⟩
/-- Primitive variables, the direction of the sweep reversed. -/
def Prim1.mX (w : Prim1 ℝ ns) : Prim1 ℝ ns := { w with Vx := -w.Vx }
/-- Primitive variables, the first transverse direction reversed. -/
def Prim1.nY (w : Prim1 ℝ ns) : Prim1 ℝ ns := { w with Vy := -w.Vy, By := -w.By }
/-- The second transverse direction reversed. -/
def Prim1.nZ (w : Prim1 ℝ ns) : Prim1 ℝ ns := { w with Vz := -w.Vz, Bz := -w.Bz }
/-- A zone, x1 reversed. -/
def _root_.Athena.Vl3.Cons.m1 (u : Cons ℝ ns) : Cons ℝ ns := { u with M1 := -u.M1, B1c := -u.B1c }
/-- A zone, x2 reversed. -/
def _root_.Athena.Vl3.Cons.m2 (u : Cons ℝ ns) : Cons ℝ ns := { u with M2 := -u.M2, B2c := -u.B2c }
/-- A zone, x3 reversed. -/
def _root_.Athena.Vl3.Cons.m3 (u : Cons ℝ ns) : Cons ℝ ns := { u with M3 := -u.M3, B3c := -u.B3c }
/-- Primitive variables, x1 reversed. -/
def _root_.Athena.Vl3.Prim.m1 (w : Prim ℝ) : Prim ℝ := { w with V1 := -w.V1, B1c := -w.B1c }
/-- Primitive variables, x2 reversed. -/
def _root_.Athena.Vl3.Prim.m2 (w : Prim ℝ) : Prim ℝ := { w with V2 := -w.V2, B2c := -w.B2c }
/-- Primitive variables, x3 reversed. -/
def _root_.Athena.Vl3.Prim.m3 (w : Prim ℝ) : Prim ℝ := { w with V3 := -w.V3, B3c := -w.B3c }

/-- The functions called by the integrators do not distinguish left from right nor the two senses of a transverse direction. -/
structure Funs.Mirror (M : Funs ℝ ns) : Prop where
  toX : ∀ u b, M.c2p1 u.mX (-b) = (M.c2p1 u b).mX
  toY : ∀ u b, M.c2p1 u.nY b = (M.c2p1 u b).nY
  toZ : ∀ u b, M.c2p1 u.nZ b = (M.c2p1 u b).nZ
  ofX : ∀ w b, M.p2c1 w.mX (-b) = (M.p2c1 w b).mX
  ofY : ∀ w b, M.p2c1 w.nY b = (M.p2c1 w b).nY
  ofZ : ∀ w b, M.p2c1 w.nZ b = (M.p2c1 w b).nZ
  to1 : ∀ u, M.c2p u.m1 = (M.c2p u).m1
  to2 : ∀ u, M.c2p u.m2 = (M.c2p u).m2
  to3 : ∀ u, M.c2p u.m3 = (M.c2p u).m3
  fluxX : ∀ ul ur wl wr b, M.flux ur.mX ul.mX wr.mX wl.mX (-b) = (M.flux ul ur wl wr b).fX
  fluxY : ∀ ul ur wl wr b, M.flux ul.nY ur.nY wl.nY wr.nY b = (M.flux ul ur wl wr b).nY
  fluxZ : ∀ ul ur wl wr b, M.flux ul.nZ ur.nZ wl.nZ wr.nZ b = (M.flux ul ur wl wr b).nZ
  lrX : ∀ dt dx t w b, M.lr dt dx t (fun m => (w (-1 - m)).mX) (fun m => -b (-1 - m)) =
    ((M.lr dt dx t w b).2.mX, (M.lr dt dx t w b).1.mX)
  lrY : ∀ dt dx t w b, M.lr dt dx t (fun m => (w m).nY) b = ((M.lr dt dx t w b).1.nY, (M.lr dt dx t w b).2.nY)
  lrZ : ∀ dt dx t w b, M.lr dt dx t (fun m => (w m).nZ) b = ((M.lr dt dx t w b).1.nZ, (M.lr dt dx t w b).2.nZ)

/-- A lattice, x1 reversed: zone `i` holds the image of what zone `N-1-i` held, face `i` that of face `N-i`. -/
def _root_.Athena.Vl3.St.mir1 (N : ℤ) (L : St ℝ ns) : St ℝ ns :=
  ⟨fun k j i => (L.U k j (N-1-i)).m1, fun k j i => -L.B1i k j (N-i), fun k j i => L.B2i k j (N-1-i), fun k j i => L.B3i k j (N-1-i)⟩
/-- A lattice, x2 reversed. -/
def _root_.Athena.Vl3.St.mir2 (N : ℤ) (L : St ℝ ns) : St ℝ ns :=
  ⟨fun k j i => (L.U k (N-1-j) i).m2, fun k j i => L.B1i k (N-1-j) i, fun k j i => -L.B2i k (N-j) i, fun k j i => L.B3i k (N-1-j) i⟩
/-- A lattice, x3 reversed. -/
def _root_.Athena.Vl3.St.mir3 (N : ℤ) (L : St ℝ ns) : St ℝ ns :=
  ⟨fun k j i => (L.U (N-1-k) j i).m3, fun k j i => L.B1i (N-1-k) j i, fun k j i => L.B2i (N-1-k) j i, fun k j i => -L.B3i (N-k) j i⟩
/-- A lattice on which nothing depends on x2, x2 reversed. -/
def _root_.Athena.Vl3.St.flip2 (L : St ℝ ns) : St ℝ ns :=
  ⟨fun k j i => (L.U k j i).m2, L.B1i, fun k j i => -L.B2i k j i, L.B3i⟩
/-- A lattice on which nothing depends on x3, x3 reversed. -/
def _root_.Athena.Vl3.St.flip3 (L : St ℝ ns) : St ℝ ns :=
  ⟨fun k j i => (L.U k j i).m3, L.B1i, L.B2i, fun k j i => -L.B3i k j i⟩

/-! ## Auxiliary -/

theorem ix1 (N x : ℤ) : N - 1 - x = N - x - 1 := by ring
theorem ix2 (N x : ℤ) : N - (x + 1) = N - x - 1 := by ring
theorem ix3 (N x : ℤ) : N - (x - 1) = N - x + 1 := by ring
theorem ix4 (x : ℤ) : x - 1 + 1 = x := by ring
theorem ix5 (x : ℤ) : x + 1 - 1 = x := by ring
theorem ix6 (N x m : ℤ) : N - (x + m) - 1 = N - x + (-1 - m) := by ring

theorem load1_m1 (u : Cons ℝ ns) : load1 u.m1 = (load1 u).mX := rfl
theorem load2_m1 (u : Cons ℝ ns) : load2 u.m1 = (load2 u).nZ := rfl
theorem load3_m1 (u : Cons ℝ ns) : load3 u.m1 = (load3 u).nY := rfl
theorem load1_m2 (u : Cons ℝ ns) : load1 u.m2 = (load1 u).nY := rfl
theorem load2_m2 (u : Cons ℝ ns) : load2 u.m2 = (load2 u).mX := rfl
theorem load1_m3 (u : Cons ℝ ns) : load1 u.m3 = (load1 u).nZ := rfl
theorem load2_m3 (u : Cons ℝ ns) : load2 u.m3 = (load2 u).nY := rfl

/-- The upwind choice with the sense of the flow reversed. -/
theorem up_rev {m a b c a' b' c' : ℝ} (ha : a' = -b) (hb : b' = -a) (hc : c' = -c) : upwind (-m) a' b' c' = -upwind m a b c := by
  subst ha hb hc
  simp only [upwind, Num.gt0, Num.lt0, decide_eq_true_eq, Left.neg_pos_iff, Left.neg_neg_iff]
  split_ifs <;> first | rfl | linarith
theorem up_neg {m a b c a' b' c' : ℝ} (ha : a' = -a) (hb : b' = -b) (hc : c' = -c) : upwind m a' b' c' = -upwind m a b c := by
  subst ha hb hc
  simp only [upwind]
  split_ifs <;> rfl
theorem up_id {m a b c a' b' c' : ℝ} (ha : a' = a) (hb : b' = b) (hc : c' = c) : upwind m a' b' c' = upwind m a b c := by
  subst ha hb hc; rfl

theorem sum_rev {q a b c d e f g h a' b' c' d' e' f' g' h' : ℝ} (h1 : a' = -b) (h2 : b' = -a) (h3 : c' = -c) (h4 : d' = -d)
    (h5 : e' = -f) (h6 : f' = -e) (h7 : g' = -g) (h8 : h' = -h) :
    q * (a' + b' - c' - d' + e' + f' + g' + h') = -(q * (a + b - c - d + e + f + g + h)) := by
  subst h1 h2 h3 h4 h5 h6 h7 h8; ring
theorem sum_rev' {q a b c d e f g h a' b' c' d' e' f' g' h' : ℝ} (h1 : a' = -a) (h2 : b' = -b) (h3 : c' = -d) (h4 : d' = -c)
    (h5 : e' = -f) (h6 : f' = -e) (h7 : g' = -g) (h8 : h' = -h) :
    q * (a' + b' - c' - d' + e' + f' + g' + h') = -(q * (a + b - c - d + e + f + g + h)) := by
  subst h1 h2 h3 h4 h5 h6 h7 h8; ring

section Mir1
variable (N : ℤ)

theorem corner3_m1 {F1 F2 F1' F2' : Arr (Cons1 ℝ ns)} {c c' : Arr ℝ} (h1 : ∀ k j i, F1' k j i = (F1 k j (N-i)).fX)
    (h2 : ∀ k j i, F2' k j i = (F2 k j (N-1-i)).nZ) (h3 : ∀ k j i, c' k j i = -c k j (N-1-i)) (k j i : ℤ) :
    corner3 F1' F2' c' k j i = -corner3 F1 F2 c k j (N-i) := by
  simp only [corner3, h1, h2, h3, ix1, ix3, ix4, ix5]
  simp only [Cons1.fX, Cons1.nZ]
  refine sum_rev rfl rfl rfl rfl ?_ ?_ ?_ ?_
  · exact up_neg (by ring) (by ring) (by ring)
  · exact up_neg (by ring) (by ring) (by ring)
  · exact up_rev (by ring) (by ring) (by ring)
  · exact up_rev (by ring) (by ring) (by ring)

theorem corner2_m1 {F1 F3 F1' F3' : Arr (Cons1 ℝ ns)} {c c' : Arr ℝ} (h1 : ∀ k j i, F1' k j i = (F1 k j (N-i)).fX)
    (h2 : ∀ k j i, F3' k j i = (F3 k j (N-1-i)).nY) (h3 : ∀ k j i, c' k j i = -c k j (N-1-i)) (k j i : ℤ) :
    corner2 F1' F3' c' k j i = -corner2 F1 F3 c k j (N-i) := by
  simp only [corner2, h1, h2, h3, ix1, ix3, ix4, ix5]
  simp only [Cons1.fX, Cons1.nY]
  refine sum_rev' rfl rfl rfl rfl ?_ ?_ ?_ ?_
  · exact up_neg (by ring) (by ring) (by ring)
  · exact up_neg (by ring) (by ring) (by ring)
  · exact up_rev (by ring) (by ring) (by ring)
  · exact up_rev (by ring) (by ring) (by ring)

theorem corner1_m1 {F2 F3 F2' F3' : Arr (Cons1 ℝ ns)} {c c' : Arr ℝ} (h1 : ∀ k j i, F2' k j i = (F2 k j (N-1-i)).nZ)
    (h2 : ∀ k j i, F3' k j i = (F3 k j (N-1-i)).nY) (h3 : ∀ k j i, c' k j i = c k j (N-1-i)) (k j i : ℤ) :
    corner1 F2' F3' c' k j i = corner1 F2 F3 c k j (N-1-i) := by
  simp only [corner1, h1, h2, h3]; rfl

/-- The step on a lattice from fluxes and electric fields of the image. -/
theorem lat3_m1 (q : Step ℝ) (L : St ℝ ns) {F1 F2 F3 F1' F2' F3' : Arr (Cons1 ℝ ns)} {e1 e2 e3 e1' e2' e3' : Arr ℝ}
    (h1 : ∀ k j i, F1' k j i = (F1 k j (N-i)).fX) (h2 : ∀ k j i, F2' k j i = (F2 k j (N-1-i)).nZ)
    (h3 : ∀ k j i, F3' k j i = (F3 k j (N-1-i)).nY) (g1 : ∀ k j i, e1' k j i = e1 k j (N-1-i))
    (g2 : ∀ k j i, e2' k j i = -e2 k j (N-i)) (g3 : ∀ k j i, e3' k j i = -e3 k j (N-i)) :
    lat3 q (L.mir1 N) F1' F2' F3' e1' e2' e3' = (lat3 q L F1 F2 F3 e1 e2 e3).mir1 N := by
  simp only [lat3, St.mir1, St.mk.injEq]
  refine ⟨?_, ?_, ?_, ?_⟩
  · funext k j i
    simp only [upd1, upd2, upd3, avgB, ct1, ct2, ct3, h1, h2, h3, g1, g2, g3, ix1, ix2, ix4]
    simp only [Cons.m1, Cons1.fX, Cons1.nY, Cons1.nZ, Cons.mk.injEq]
    refine ⟨by ring, by ring, by ring, by ring, by ring, by ring, by ring, by ring, ?_⟩
    funext n; ring
  · funext k j i; simp only [ct1, g2, g3]; ring
  · funext k j i; simp only [ct2, g1, g3, ix1, ix2, ix4]; ring
  · funext k j i; simp only [ct3, g1, g2, ix1, ix2, ix4]; ring

section VL
variable {M : Funs ℝ ns} (hM : M.Mirror) (q : Step ℝ) (L : St ℝ ns)
include hM

theorem flux1st_X (l r : Cons1 ℝ ns) (bl br bi : ℝ) :
    flux1st (M.vl q) r.mX l.mX (-br) (-bl) (-bi) = (flux1st (M.vl q) l r bl br bi).fX := by
  simp only [flux1st, Funs.vl, hM.toX, hM.ofX, hM.fluxX]
theorem flux1st_Y (l r : Cons1 ℝ ns) (bl br bi : ℝ) : flux1st (M.vl q) l.nY r.nY bl br bi = (flux1st (M.vl q) l r bl br bi).nY := by
  simp only [flux1st, Funs.vl, hM.toY, hM.ofY, hM.fluxY]
theorem flux1st_Z (l r : Cons1 ℝ ns) (bl br bi : ℝ) : flux1st (M.vl q) l.nZ r.nZ bl br bi = (flux1st (M.vl q) l r bl br bi).nZ := by
  simp only [flux1st, Funs.vl, hM.toZ, hM.ofZ, hM.fluxZ]
theorem flux2nd_X (wl wr : Prim1 ℝ ns) (b : ℝ) : flux2nd (M.vl q) wr.mX wl.mX (-b) = (flux2nd (M.vl q) wl wr b).fX := by
  simp only [flux2nd, Funs.vl, hM.ofX, hM.fluxX]
theorem flux2nd_Y (wl wr : Prim1 ℝ ns) (b : ℝ) : flux2nd (M.vl q) wl.nY wr.nY b = (flux2nd (M.vl q) wl wr b).nY := by
  simp only [flux2nd, Funs.vl, hM.ofY, hM.fluxY]
theorem flux2nd_Z (wl wr : Prim1 ℝ ns) (b : ℝ) : flux2nd (M.vl q) wl.nZ wr.nZ b = (flux2nd (M.vl q) wl wr b).nZ := by
  simp only [flux2nd, Funs.vl, hM.ofZ, hM.fluxZ]

theorem m1Flux1 (k j i : ℤ) : iFlux1 (M.vl q) (L.mir1 N) k j i = (iFlux1 (M.vl q) L k j (N-i)).fX := by
  simp only [iFlux1, St.mir1, load1_m1, ix1, ix3, ix5]
  exact flux1st_X hM q _ _ _ _ _
theorem m1Flux2 (k j i : ℤ) : iFlux2 (M.vl q) (L.mir1 N) k j i = (iFlux2 (M.vl q) L k j (N-1-i)).nZ := by
  simp only [iFlux2, St.mir1, load2_m1]
  exact flux1st_Z hM q _ _ _ _ _
theorem m1Flux3 (k j i : ℤ) : iFlux3 (M.vl q) (L.mir1 N) k j i = (iFlux3 (M.vl q) L k j (N-1-i)).nY := by
  simp only [iFlux3, St.mir1, load3_m1]
  exact flux1st_Y hM q _ _ _ _ _
theorem m1Ecc1 (k j i : ℤ) : iEcc1 (M.vl q) (L.mir1 N) k j i = iEcc1 (M.vl q) L k j (N-1-i) := by
  simp only [iEcc1, St.mir1, Funs.vl, hM.to1]; rfl
theorem m1Ecc2 (k j i : ℤ) : iEcc2 (M.vl q) (L.mir1 N) k j i = -iEcc2 (M.vl q) L k j (N-1-i) := by
  simp only [iEcc2, St.mir1, Funs.vl, hM.to1, ecc2, Prim.m1]; ring
theorem m1Ecc3 (k j i : ℤ) : iEcc3 (M.vl q) (L.mir1 N) k j i = -iEcc3 (M.vl q) L k j (N-1-i) := by
  simp only [iEcc3, St.mir1, Funs.vl, hM.to1, ecc3, Prim.m1]; ring
theorem m1Emf1 (k j i : ℤ) : iEmf1 (M.vl q) (L.mir1 N) k j i = iEmf1 (M.vl q) L k j (N-1-i) :=
  corner1_m1 N (m1Flux2 N hM q L) (m1Flux3 N hM q L) (m1Ecc1 N hM q L) k j i
theorem m1Emf2 (k j i : ℤ) : iEmf2 (M.vl q) (L.mir1 N) k j i = -iEmf2 (M.vl q) L k j (N-i) :=
  corner2_m1 N (m1Flux1 N hM q L) (m1Flux3 N hM q L) (m1Ecc2 N hM q L) k j i
theorem m1Emf3 (k j i : ℤ) : iEmf3 (M.vl q) (L.mir1 N) k j i = -iEmf3 (M.vl q) L k j (N-i) :=
  corner3_m1 N (m1Flux1 N hM q L) (m1Flux2 N hM q L) (m1Ecc3 N hM q L) k j i
theorem m1B1F (k j i : ℤ) : iB1F (M.vl q) (coef q) (L.mir1 N) k j i = -iB1F (M.vl q) (coef q) L k j (N-i) := by
  simp only [iB1F, ct1, m1Emf2 N hM, m1Emf3 N hM]; simp only [St.mir1, ix1]; ring
theorem m1B2F (k j i : ℤ) : iB2F (M.vl q) (coef q) (L.mir1 N) k j i = iB2F (M.vl q) (coef q) L k j (N-1-i) := by
  simp only [iB2F, ct2, m1Emf1 N hM, m1Emf3 N hM, ix1, ix2, ix4]; simp only [St.mir1, ix1]; ring
theorem m1B3F (k j i : ℤ) : iB3F (M.vl q) (coef q) (L.mir1 N) k j i = iB3F (M.vl q) (coef q) L k j (N-1-i) := by
  simp only [iB3F, ct3, m1Emf1 N hM, m1Emf2 N hM, ix1, ix2, ix4]; simp only [St.mir1, ix1]; ring
theorem m1Uhalf (k j i : ℤ) : iUhalf (M.vl q) (coef q) (L.mir1 N) k j i = (iUhalf (M.vl q) (coef q) L k j (N-1-i)).m1 := by
  simp only [iUhalf, upd1, upd2, upd3, avgB, m1Flux1 N hM, m1Flux2 N hM, m1Flux3 N hM, m1B1F N hM, m1B2F N hM, m1B3F N hM, ix1, ix2, ix4]
  simp only [St.mir1, Cons.m1, Cons1.fX, Cons1.nY, Cons1.nZ, Cons.mk.injEq, ix1]
  refine ⟨by ring, by ring, by ring, by ring, by ring, by ring, trivial, trivial, ?_⟩
  funext n; ring
theorem m1LR1 (k j i : ℤ) : iLR1 (M.vl q) (coef q) (L.mir1 N) k j i =
    ((iLR1 (M.vl q) (coef q) L k j (N-i)).2.mX, (iLR1 (M.vl q) (coef q) L k j (N-i)).1.mX) := by
  simp only [iLR1, m1Uhalf N hM, ix1, ix6]
  simp only [Funs.vl, load1_m1]
  refine Eq.trans ?_ (hM.lrX q.dt (q.dx 0) 0 _ _)
  simp only [← hM.toX]; rfl
theorem m1LR2 (k j i : ℤ) : iLR2 (M.vl q) (coef q) (L.mir1 N) k j i =
    ((iLR2 (M.vl q) (coef q) L k j (N-1-i)).1.nZ, (iLR2 (M.vl q) (coef q) L k j (N-1-i)).2.nZ) := by
  simp only [iLR2, m1Uhalf N hM]
  simp only [Funs.vl, load2_m1]
  refine Eq.trans ?_ (hM.lrZ q.dt (q.dx 1) 1 _ _)
  simp only [← hM.toZ]; rfl
theorem m1LR3 (k j i : ℤ) : iLR3 (M.vl q) (coef q) (L.mir1 N) k j i =
    ((iLR3 (M.vl q) (coef q) L k j (N-1-i)).1.nY, (iLR3 (M.vl q) (coef q) L k j (N-1-i)).2.nY) := by
  simp only [iLR3, m1Uhalf N hM]
  simp only [Funs.vl, load3_m1]
  refine Eq.trans ?_ (hM.lrY q.dt (q.dx 2) 2 _ _)
  simp only [← hM.toY]; rfl
theorem m1jFlux1 (k j i : ℤ) : jFlux1 (M.vl q) (coef q) (L.mir1 N) k j i = (jFlux1 (M.vl q) (coef q) L k j (N-i)).fX := by
  simp only [jFlux1, m1LR1 N hM, m1B1F N hM, flux2nd_X hM]
theorem m1jFlux2 (k j i : ℤ) : jFlux2 (M.vl q) (coef q) (L.mir1 N) k j i = (jFlux2 (M.vl q) (coef q) L k j (N-1-i)).nZ := by
  simp only [jFlux2, m1LR2 N hM, m1B2F N hM, flux2nd_Z hM]
theorem m1jFlux3 (k j i : ℤ) : jFlux3 (M.vl q) (coef q) (L.mir1 N) k j i = (jFlux3 (M.vl q) (coef q) L k j (N-1-i)).nY := by
  simp only [jFlux3, m1LR3 N hM, m1B3F N hM, flux2nd_Y hM]
theorem m1jEcc1 (k j i : ℤ) : jEcc1 (M.vl q) (coef q) (L.mir1 N) k j i = jEcc1 (M.vl q) (coef q) L k j (N-1-i) := by
  simp only [jEcc1, m1Uhalf N hM]; simp only [Funs.vl, hM.to1]; rfl
theorem m1jEcc2 (k j i : ℤ) : jEcc2 (M.vl q) (coef q) (L.mir1 N) k j i = -jEcc2 (M.vl q) (coef q) L k j (N-1-i) := by
  simp only [jEcc2, m1Uhalf N hM]; simp only [Funs.vl, hM.to1, ecc2, Prim.m1]; ring
theorem m1jEcc3 (k j i : ℤ) : jEcc3 (M.vl q) (coef q) (L.mir1 N) k j i = -jEcc3 (M.vl q) (coef q) L k j (N-1-i) := by
  simp only [jEcc3, m1Uhalf N hM]; simp only [Funs.vl, hM.to1, ecc3, Prim.m1]; ring
theorem m1jEmf1 (k j i : ℤ) : jEmf1 (M.vl q) (coef q) (L.mir1 N) k j i = jEmf1 (M.vl q) (coef q) L k j (N-1-i) :=
  corner1_m1 N (m1jFlux2 N hM q L) (m1jFlux3 N hM q L) (m1jEcc1 N hM q L) k j i
theorem m1jEmf2 (k j i : ℤ) : jEmf2 (M.vl q) (coef q) (L.mir1 N) k j i = -jEmf2 (M.vl q) (coef q) L k j (N-i) :=
  corner2_m1 N (m1jFlux1 N hM q L) (m1jFlux3 N hM q L) (m1jEcc2 N hM q L) k j i
theorem m1jEmf3 (k j i : ℤ) : jEmf3 (M.vl q) (coef q) (L.mir1 N) k j i = -jEmf3 (M.vl q) (coef q) L k j (N-i) :=
  corner3_m1 N (m1jFlux1 N hM q L) (m1jFlux2 N hM q L) (m1jEcc3 N hM q L) k j i

theorem latV3_m1 : latV3 M q (L.mir1 N) = (latV3 M q L).mir1 N :=
  lat3_m1 N q L (m1jFlux1 N hM q L) (m1jFlux2 N hM q L) (m1jFlux3 N hM q L) (m1jEmf1 N hM q L) (m1jEmf2 N hM q L) (m1jEmf3 N hM q L)
end VL

section CTU
variable {M : Funs ℝ ns} (hM : M.Mirror) (q : Step ℝ) (L : St ℝ ns)

theorem m1db1 (k j i : ℤ) : db1 q (L.mir1 N) k j i = db1 q L k j (N-1-i) := by
  simp only [db1, St.mir1, ix1, ix2, ix4]; ring
theorem m1db2 (k j i : ℤ) : db2 q (L.mir1 N) k j i = db2 q L k j (N-1-i) := rfl
theorem m1db3 (k j i : ℤ) : db3 q (L.mir1 N) k j i = db3 q L k j (N-1-i) := rfl

theorem floorW_X (M : Funs ℝ ns) (w : Prim1 ℝ ns) : floorW M w.mX = (floorW M w).mX := by
  by_cases h : NumC.lt w.d M.dMin = true
  · rw [floorW, floorW, if_pos h, if_pos (show NumC.lt w.mX.d M.dMin = true from h)]; rfl
  · rw [floorW, floorW, if_neg h, if_neg (show ¬ NumC.lt w.mX.d M.dMin = true from h)]
theorem floorW_Y (M : Funs ℝ ns) (w : Prim1 ℝ ns) : floorW M w.nY = (floorW M w).nY := by
  by_cases h : NumC.lt w.d M.dMin = true
  · rw [floorW, floorW, if_pos h, if_pos (show NumC.lt w.nY.d M.dMin = true from h)]; rfl
  · rw [floorW, floorW, if_neg h, if_neg (show ¬ NumC.lt w.nY.d M.dMin = true from h)]
theorem floorW_Z (M : Funs ℝ ns) (w : Prim1 ℝ ns) : floorW M w.nZ = (floorW M w).nZ := by
  by_cases h : NumC.lt w.d M.dMin = true
  · rw [floorW, floorW, if_pos h, if_pos (show NumC.lt w.nZ.d M.dMin = true from h)]; rfl
  · rw [floorW, floorW, if_neg h, if_neg (show ¬ NumC.lt w.nZ.d M.dMin = true from h)]

theorem m1src1 (k j i : ℤ) (w : Prim1 ℝ ns) : src1 q (L.mir1 N) k j i w.mX = (src1 q L k j (N-1-i) w).mX := by
  simp only [src1, m1db1, m1db2, m1db3]; rfl
theorem m1src2 (k j i : ℤ) (w : Prim1 ℝ ns) : src2 q (L.mir1 N) k j i w.nZ = (src2 q L k j (N-1-i) w).nZ := by
  simp only [src2, m1db1, m1db2, m1db3]
  simp only [St.mir1, Cons.m1, Prim1.nZ, Prim1.mk.injEq, true_and, and_true]
  ring
theorem m1src3 (k j i : ℤ) (w : Prim1 ℝ ns) : src3 q (L.mir1 N) k j i w.nY = (src3 q L k j (N-1-i) w).nY := by
  simp only [src3, m1db1, m1db2, m1db3]
  simp only [St.mir1, Cons.m1, Prim1.nY, Prim1.mk.injEq, true_and, and_true]
  ring
theorem m1mhd1 (k j i : ℤ) (u : Cons1 ℝ ns) : mhdX1 q (L.mir1 N) k j i u.mX = (mhdX1 q L k j (N-1-i) u).mX := by
  simp only [mhdX1, m1db1, m1db2, m1db3]
  simp only [St.mir1, Cons.m1, Cons1.mX, Cons1.mk.injEq, true_and, and_true]
  ring
theorem m1mhd2 (k j i : ℤ) (u : Cons1 ℝ ns) : mhdX2 q (L.mir1 N) k j i u.nZ = (mhdX2 q L k j (N-1-i) u).nZ := by
  simp only [mhdX2, m1db1, m1db2, m1db3]
  simp only [St.mir1, Cons.m1, Cons1.nZ, Cons1.mk.injEq, true_and, and_true]
  refine ⟨?_, ?_, ?_⟩ <;> ring
theorem m1mhd3 (k j i : ℤ) (u : Cons1 ℝ ns) : mhdX3 q (L.mir1 N) k j i u.nY = (mhdX3 q L k j (N-1-i) u).nY := by
  simp only [mhdX3, m1db1, m1db2, m1db3]
  simp only [St.mir1, Cons.m1, Cons1.nY, Cons1.mk.injEq, true_and, and_true]
  refine ⟨?_, ?_, ?_⟩ <;> ring
theorem floorU_X (M : Funs ℝ ns) (u : Cons1 ℝ ns) : floorU M u.mX = (floorU M u).mX := rfl
theorem floorU_Y (M : Funs ℝ ns) (u : Cons1 ℝ ns) : floorU M u.nY = (floorU M u).nY := rfl
theorem floorU_Z (M : Funs ℝ ns) (u : Cons1 ℝ ns) : floorU M u.nZ = (floorU M u).nZ := rfl

theorem mirOff (l : Bool) (i : ℤ) : N - 1 - (i - off l) = N - i - off (!l) := by cases l <;> simp only [off] <;> simp <;> ring

include hM
theorem m1W1 (l : Bool) (k j i : ℤ) : d3W1 M q (L.mir1 N) l k j i = (d3W1 M q L (!l) k j (N-i)).mX := by
  have e : M.lr q.dt q.dx1 0 (fun m => M.c2p1 (load1 ((L.mir1 N).U k j (i+m))) ((L.mir1 N).U k j (i+m)).B1c) (fun m => ((L.mir1 N).U k j (i+m)).B1c) =
      ((M.lr q.dt q.dx1 0 (fun m => M.c2p1 (load1 (L.U k j (N-i+m))) (L.U k j (N-i+m)).B1c) (fun m => (L.U k j (N-i+m)).B1c)).2.mX,
       (M.lr q.dt q.dx1 0 (fun m => M.c2p1 (load1 (L.U k j (N-i+m))) (L.U k j (N-i+m)).B1c) (fun m => (L.U k j (N-i+m)).B1c)).1.mX) := by
    rw [← hM.lrX]
    simp only [St.mir1, ix1, ix6, load1_m1, ← hM.toX]; rfl
  have hp : ∀ p : Prim1 ℝ ns × Prim1 ℝ ns, pick l (p.2.mX, p.1.mX) = (pick (!l) p).mX := by intro p; cases l <;> rfl
  simp only [d3W1]
  rw [e, hp, floorW_X, m1src1, mirOff]
theorem m1W2 (l : Bool) (k j i : ℤ) : d3W2 M q (L.mir1 N) l k j i = (d3W2 M q L l k j (N-1-i)).nZ := by
  have e : M.lr q.dt q.dx2 1 (fun m => M.c2p1 (load2 ((L.mir1 N).U k (j+m) i)) ((L.mir1 N).U k (j+m) i).B2c) (fun m => ((L.mir1 N).U k (j+m) i).B2c) =
      ((M.lr q.dt q.dx2 1 (fun m => M.c2p1 (load2 (L.U k (j+m) (N-1-i))) (L.U k (j+m) (N-1-i)).B2c) (fun m => (L.U k (j+m) (N-1-i)).B2c)).1.nZ,
       (M.lr q.dt q.dx2 1 (fun m => M.c2p1 (load2 (L.U k (j+m) (N-1-i))) (L.U k (j+m) (N-1-i)).B2c) (fun m => (L.U k (j+m) (N-1-i)).B2c)).2.nZ) := by
    rw [← hM.lrZ]
    simp only [St.mir1, load2_m1, ← hM.toZ]; rfl
  have hp : ∀ p : Prim1 ℝ ns × Prim1 ℝ ns, pick l (p.1.nZ, p.2.nZ) = (pick l p).nZ := by intro p; cases l <;> rfl
  simp only [d3W2]
  rw [e, hp, floorW_Z, m1src2]
theorem m1W3 (l : Bool) (k j i : ℤ) : d3W3 M q (L.mir1 N) l k j i = (d3W3 M q L l k j (N-1-i)).nY := by
  have e : M.lr q.dt q.dx3 2 (fun m => M.c2p1 (load3 ((L.mir1 N).U (k+m) j i)) ((L.mir1 N).U (k+m) j i).B3c) (fun m => ((L.mir1 N).U (k+m) j i).B3c) =
      ((M.lr q.dt q.dx3 2 (fun m => M.c2p1 (load3 (L.U (k+m) j (N-1-i))) (L.U (k+m) j (N-1-i)).B3c) (fun m => (L.U (k+m) j (N-1-i)).B3c)).1.nY,
       (M.lr q.dt q.dx3 2 (fun m => M.c2p1 (load3 (L.U (k+m) j (N-1-i))) (L.U (k+m) j (N-1-i)).B3c) (fun m => (L.U (k+m) j (N-1-i)).B3c)).2.nY) := by
    rw [← hM.lrY]
    simp only [St.mir1, load3_m1, ← hM.toY]; rfl
  have hp : ∀ p : Prim1 ℝ ns × Prim1 ℝ ns, pick l (p.1.nY, p.2.nY) = (pick l p).nY := by intro p; cases l <;> rfl
  simp only [d3W3]
  rw [e, hp, floorW_Y, m1src3]
theorem m1U1 (l : Bool) (k j i : ℤ) : d3U1 M q (L.mir1 N) l k j i = (d3U1 M q L (!l) k j (N-i)).mX := by
  simp only [d3U1, m1W1 N hM]; exact hM.ofX _ _
theorem m1U2 (l : Bool) (k j i : ℤ) : d3U2 M q (L.mir1 N) l k j i = (d3U2 M q L l k j (N-1-i)).nZ := by
  simp only [d3U2, m1W2 N hM]; exact hM.ofZ _ _
theorem m1U3 (l : Bool) (k j i : ℤ) : d3U3 M q (L.mir1 N) l k j i = (d3U3 M q L l k j (N-1-i)).nY := by
  simp only [d3U3, m1W3 N hM]; exact hM.ofY _ _
theorem m1F1 (k j i : ℤ) : d3F1 M q (L.mir1 N) k j i = (d3F1 M q L k j (N-i)).fX := by
  simp only [d3F1, m1U1 N hM, m1W1 N hM]; exact hM.fluxX _ _ _ _ _
theorem m1F2 (k j i : ℤ) : d3F2 M q (L.mir1 N) k j i = (d3F2 M q L k j (N-1-i)).nZ := by
  simp only [d3F2, m1U2 N hM, m1W2 N hM]; exact hM.fluxZ _ _ _ _ _
theorem m1F3 (k j i : ℤ) : d3F3 M q (L.mir1 N) k j i = (d3F3 M q L k j (N-1-i)).nY := by
  simp only [d3F3, m1U3 N hM, m1W3 N hM]; exact hM.fluxY _ _ _ _ _
omit hM in
theorem ecU1_m1 (u : Cons ℝ ns) : ecU1 u.m1 = ecU1 u := rfl
omit hM in
theorem ecU2_m1 (u : Cons ℝ ns) : ecU2 u.m1 = -ecU2 u := by simp only [ecU2, Cons.m1]; ring
omit hM in
theorem ecU3_m1 (u : Cons ℝ ns) : ecU3 u.m1 = -ecU3 u := by simp only [ecU3, Cons.m1]; ring
theorem m1dEmf1 (k j i : ℤ) : d3Emf1 M q (L.mir1 N) k j i = d3Emf1 M q L k j (N-1-i) :=
  corner1_m1 N (m1F2 N hM q L) (m1F3 N hM q L) (fun _ _ _ => ecU1_m1 _) k j i
theorem m1dEmf2 (k j i : ℤ) : d3Emf2 M q (L.mir1 N) k j i = -d3Emf2 M q L k j (N-i) :=
  corner2_m1 N (m1F1 N hM q L) (m1F3 N hM q L) (fun _ _ _ => ecU2_m1 _) k j i
theorem m1dEmf3 (k j i : ℤ) : d3Emf3 M q (L.mir1 N) k j i = -d3Emf3 M q L k j (N-i) :=
  corner3_m1 N (m1F1 N hM q L) (m1F2 N hM q L) (fun _ _ _ => ecU3_m1 _) k j i
theorem m1B1h (k j i : ℤ) : d3B1h M q (L.mir1 N) k j i = -d3B1h M q L k j (N-i) := by
  simp only [d3B1h, ct1, m1dEmf2 N hM, m1dEmf3 N hM]; simp only [St.mir1, ix1]; ring
theorem m1B2h (k j i : ℤ) : d3B2h M q (L.mir1 N) k j i = d3B2h M q L k j (N-1-i) := by
  simp only [d3B2h, ct2, m1dEmf1 N hM, m1dEmf3 N hM, ix1, ix2, ix4]; simp only [St.mir1, ix1]; ring
theorem m1B3h (k j i : ℤ) : d3B3h M q (L.mir1 N) k j i = d3B3h M q L k j (N-1-i) := by
  simp only [d3B3h, ct3, m1dEmf1 N hM, m1dEmf2 N hM, ix1, ix2, ix4]; simp only [St.mir1, ix1]; ring
omit hM in
theorem rotA_X (p e : ℝ) (r l u : Cons1 ℝ ns) : rotA p r.nZ l.nZ e u.mX = (rotA p r l e u).mX := by
  simp only [rotA, Cons1.nZ, Cons1.mX, Cons1.mk.injEq, true_and, and_true]; ring
omit hM in
theorem rotB_X (p e : ℝ) (r l u : Cons1 ℝ ns) : rotB p r.nY l.nY e u.mX = (rotB p r l e u).mX := by
  simp only [rotB, Cons1.nY, Cons1.mX, Cons1.mk.injEq, true_and, and_true]; ring
theorem m1U1' (l : Bool) (k j i : ℤ) : d3U1' M q (L.mir1 N) l k j i = (d3U1' M q L (!l) k j (N-i)).mX := by
  simp only [d3U1', m1F2 N hM, m1F3 N hM, m1dEmf1 N hM, m1U1 N hM, rotA_X, rotB_X, m1mhd1, floorU_X, mirOff]
omit hM in
theorem rotB_Z (p e e' : ℝ) (he : e' = e) (r l u : Cons1 ℝ ns) : rotB p l.fX r.fX e' u.nZ = (rotB p r l e u).nZ := by
  subst he
  simp only [rotB, Cons1.nZ, Cons1.fX, Cons1.mk.injEq, true_and, and_true]
  refine ⟨by ring, by ring, by ring, by ring, by ring, ?_⟩
  funext n; ring
omit hM in
theorem rotA_Z (p e e' : ℝ) (he : e' = -e) (r l u : Cons1 ℝ ns) : rotA p r.nY l.nY e' u.nZ = (rotA p r l e u).nZ := by
  subst he
  simp only [rotA, Cons1.nZ, Cons1.nY, Cons1.mk.injEq, true_and, and_true]
  refine ⟨by ring, by ring⟩
omit hM in
theorem rotA_Y (p e e' : ℝ) (he : e' = e) (r l u : Cons1 ℝ ns) : rotA p l.fX r.fX e' u.nY = (rotA p r l e u).nY := by
  subst he
  simp only [rotA, Cons1.nY, Cons1.fX, Cons1.mk.injEq, true_and, and_true]
  refine ⟨by ring, by ring, by ring, by ring, by ring, ?_⟩
  funext n; ring
omit hM in
theorem rotB_Y (p e e' : ℝ) (he : e' = -e) (r l u : Cons1 ℝ ns) : rotB p r.nZ l.nZ e' u.nY = (rotB p r l e u).nY := by
  subst he
  simp only [rotB, Cons1.nZ, Cons1.nY, Cons1.mk.injEq, true_and, and_true]
  refine ⟨by ring, by ring⟩
theorem m1U2' (l : Bool) (k j i : ℤ) : d3U2' M q (L.mir1 N) l k j i = (d3U2' M q L l k j (N-1-i)).nZ := by
  simp only [d3U2', m1F1 N hM, m1F3 N hM, m1dEmf2 N hM, m1U2 N hM, ix1, ix2, ix4]
  rw [rotB_Z _ _ _ ?_, rotA_Z _ _ _ ?_, m1mhd2, floorU_Z, ix1]
  · ring
  · ring
theorem m1U3' (l : Bool) (k j i : ℤ) : d3U3' M q (L.mir1 N) l k j i = (d3U3' M q L l k j (N-1-i)).nY := by
  simp only [d3U3', m1F1 N hM, m1F2 N hM, m1dEmf3 N hM, m1U3 N hM, ix1, ix2, ix4]
  rw [rotA_Y _ _ _ ?_, rotB_Y _ _ _ ?_, m1mhd3, floorU_Y, ix1]
  · ring
  · ring
theorem m1H (k j i : ℤ) : d3H M q (L.mir1 N) k j i = (d3H M q L k j (N-1-i)).m1 := by
  simp only [d3H, m1F1 N hM, m1F2 N hM, m1F3 N hM, m1B1h N hM, m1B2h N hM, m1B3h N hM, ix1, ix2, ix4]
  simp only [halfU, St.mir1, Cons.m1, Cons1.fX, Cons1.nY, Cons1.nZ, Cons.mk.injEq, ix1, true_and, and_true]
  refine ⟨by congr 1; ring, by ring, by ring, by ring, by ring⟩
omit hM in
theorem fluxC_X (hM : M.Mirror) (ul ur : Cons1 ℝ ns) (b : ℝ) : fluxC M ur.mX ul.mX (-b) = (fluxC M ul ur b).fX := by
  simp only [fluxC, hM.toX, hM.fluxX]
omit hM in
theorem fluxC_Y (hM : M.Mirror) (ul ur : Cons1 ℝ ns) (b : ℝ) : fluxC M ul.nY ur.nY b = (fluxC M ul ur b).nY := by
  simp only [fluxC, hM.toY, hM.fluxY]
omit hM in
theorem fluxC_Z (hM : M.Mirror) (ul ur : Cons1 ℝ ns) (b : ℝ) : fluxC M ul.nZ ur.nZ b = (fluxC M ul ur b).nZ := by
  simp only [fluxC, hM.toZ, hM.fluxZ]
theorem m1G1 (k j i : ℤ) : d3G1 M q (L.mir1 N) k j i = (d3G1 M q L k j (N-i)).fX := by
  simp only [d3G1, m1U1' N hM, m1B1h N hM]; exact fluxC_X hM _ _ _
theorem m1G2 (k j i : ℤ) : d3G2 M q (L.mir1 N) k j i = (d3G2 M q L k j (N-1-i)).nZ := by
  simp only [d3G2, m1U2' N hM, m1B2h N hM]; exact fluxC_Z hM _ _ _
theorem m1G3 (k j i : ℤ) : d3G3 M q (L.mir1 N) k j i = (d3G3 M q L k j (N-1-i)).nY := by
  simp only [d3G3, m1U3' N hM, m1B3h N hM]; exact fluxC_Y hM _ _ _
theorem m1dEmf1' (k j i : ℤ) : d3Emf1' M q (L.mir1 N) k j i = d3Emf1' M q L k j (N-1-i) :=
  corner1_m1 N (m1G2 N hM q L) (m1G3 N hM q L) (fun _ _ _ => by rw [m1H N hM, ecU1_m1]) k j i
theorem m1dEmf2' (k j i : ℤ) : d3Emf2' M q (L.mir1 N) k j i = -d3Emf2' M q L k j (N-i) :=
  corner2_m1 N (m1G1 N hM q L) (m1G3 N hM q L) (fun _ _ _ => by rw [m1H N hM, ecU2_m1]) k j i
theorem m1dEmf3' (k j i : ℤ) : d3Emf3' M q (L.mir1 N) k j i = -d3Emf3' M q L k j (N-i) :=
  corner3_m1 N (m1G1 N hM q L) (m1G2 N hM q L) (fun _ _ _ => by rw [m1H N hM, ecU3_m1]) k j i

theorem latC3_m1 : latC3 M q (L.mir1 N) = (latC3 M q L).mir1 N :=
  lat3_m1 N q L (m1G1 N hM q L) (m1G2 N hM q L) (m1G3 N hM q L) (m1dEmf1' N hM q L) (m1dEmf2' N hM q L) (m1dEmf3' N hM q L)
end CTU
end Mir1

/-! ## The other directions -/

theorem rot_inj {L L' : St ℝ ns} (h : L.rot = L'.rot) : L = L' := by
  have h2 : L.rot.rot.rot = L'.rot.rot.rot := by rw [h]
  exact h2

theorem latt3_m1 {M : Funs ℝ ns} (hM : M.Mirror) (K : Kind) (q : Step ℝ) (N : ℤ) (L : St ℝ ns) :
    latt M K .d3 q (L.mir1 N) = (latt M K .d3 q L).mir1 N := by
  cases K
  · exact latV3_m1 N hM q L
  · exact latC3_m1 N hM q L
end Athena.Gen
