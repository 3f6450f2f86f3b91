import Verif.Integr.Mirror

/-!
# Mirror images: one and two dimensions

In a direction that the integrator does not treat, reversing the direction is a change of sign of the components in that direction.
-/

namespace Athena.Gen
open Athena.Bvals hiding Rng
open Athena.Vl3
open Num

variable {ns : ℕ}

/-! ## Three dimensions -/

theorem latt3_m2 {M : Funs ℝ ns} (hI : M.Isotropic) (hM : M.Mirror) (K : Kind) (q : Step ℝ) (N : ℤ) (L : St ℝ ns) :
    latt M K .d3 q (L.mir2 N) = (latt M K .d3 q L).mir2 N := by
  have hr : ∀ q (L : St ℝ ns), latt M K .d3 q.rot L.rot = (latt M K .d3 q L).rot := by
    intro q L; cases K
    · exact latV3_rot hI q L
    · exact latC3_rot hI q L
  apply rot_inj
  rw [← hr]
  show latt M K .d3 q.rot (L.rot.mir1 N) = (latt M K .d3 q L).rot.mir1 N
  rw [latt3_m1 hM, hr]

theorem latt3_m3 {M : Funs ℝ ns} (hI : M.Isotropic) (hM : M.Mirror) (K : Kind) (q : Step ℝ) (N : ℤ) (L : St ℝ ns) :
    latt M K .d3 q (L.mir3 N) = (latt M K .d3 q L).mir3 N := by
  have hr : ∀ q (L : St ℝ ns), latt M K .d3 q.rot L.rot = (latt M K .d3 q L).rot := by
    intro q L; cases K
    · exact latV3_rot hI q L
    · exact latC3_rot hI q L
  apply rot_inj
  rw [← hr]
  show latt M K .d3 q.rot (L.rot.mir2 N) = (latt M K .d3 q L).rot.mir2 N
  rw [latt3_m2 hI hM, hr]

/-! ## One dimension -/

section D1
variable {M : Funs ℝ ns} (hM : M.Mirror) (q : Step ℝ) (L : St ℝ ns) (N : ℤ)

theorem lat1_m1 {F F' : Arr (Cons1 ℝ ns)} (h : ∀ k j i, F' k j i = (F k j (N-i)).fX) : lat1 q (L.mir1 N) F' = (lat1 q L F).mir1 N := by
  simp only [lat1, St.mir1, St.mk.injEq]
  have e : ∀ k j i, updA1 (q.dt / q.dx1) (F' k j (i+1)) (F' k j i) (L.U k j (N-1-i)).m1 =
      (updA1 (q.dt / q.dx1) (F k j (N-1-i+1)) (F k j (N-1-i)) (L.U k j (N-1-i))).m1 := by
    intro k j i
    simp only [h, ix1, ix2, ix4, updA1, upd1, Cons.m1, Cons1.fX, Cons.mk.injEq]
    refine ⟨by ring, by ring, by ring, by ring, by ring, trivial, by ring, by ring, ?_⟩
    funext n; ring
  refine ⟨?_, trivial, ?_, ?_⟩ <;> funext k j i <;> rw [e] <;> rfl
theorem side_X (f : Prim1 ℝ ns × Prim1 ℝ ns) (b : ℝ) (hM : M.Mirror) : side M (f.2.mX, f.1.mX) (-b) = (side M f b).fX := by
  simp only [side, hM.ofX, hM.fluxX]
theorem side_Y (f : Prim1 ℝ ns × Prim1 ℝ ns) (b : ℝ) (hM : M.Mirror) : side M (f.1.nY, f.2.nY) b = (side M f b).nY := by
  simp only [side, hM.ofY, hM.fluxY]
theorem side_Z (f : Prim1 ℝ ns × Prim1 ℝ ns) (b : ℝ) (hM : M.Mirror) : side M (f.1.nZ, f.2.nZ) b = (side M f b).nZ := by
  simp only [side, hM.ofZ, hM.fluxZ]
include hM
theorem e1W (k j i : ℤ) : lW M (L.mir1 N) k j i = (lW M L k j (N-1-i)).mX := hM.toX (load1 (L.U k j (N-1-i))) _
theorem e1vFlux (k j i : ℤ) : lvFlux M (L.mir1 N) k j i = (lvFlux M L k j (N-i)).fX := by
  simp only [lvFlux, e1W hM, ix1, ix3, ix5]; simp only [St.mir1, load1_m1, ix1, ix3, ix4, ix5]
  exact hM.fluxX _ _ _ _ _
theorem e1vUhalf (k j i : ℤ) : lvUhalf M q (L.mir1 N) k j i = (lvUhalf M q L k j (N-1-i)).m1 := by
  simp only [lvUhalf, e1vFlux hM, ix1, ix2, ix4]
  simp only [St.mir1, ix1, updA1, upd1, Cons.m1, Cons1.fX, Cons.mk.injEq]
  refine ⟨by ring, by ring, by ring, by ring, by ring, trivial, by ring, by ring, ?_⟩
  funext n; ring
theorem e1vLR (k j i : ℤ) : lvLR M q (L.mir1 N) k j i = ((lvLR M q L k j (N-i)).2.mX, (lvLR M q L k j (N-i)).1.mX) := by
  simp only [lvLR, e1vUhalf hM, ix1, ix6, load1_m1]
  rw [← hM.lrX]
  simp only [← hM.toX]; rfl
theorem e1vFlux' (k j i : ℤ) : lvFlux' M q (L.mir1 N) k j i = (lvFlux' M q L k j (N-i)).fX := by
  simp only [lvFlux', e1vLR hM]; exact side_X _ _ hM
theorem e1cLR (k j i : ℤ) : lcLR M q (L.mir1 N) k j i = ((lcLR M q L k j (N-i)).2.mX, (lcLR M q L k j (N-i)).1.mX) := by
  have e : M.lr q.dt q.dx1 0 (fun m => lW M (L.mir1 N) k j (i+m)) (fun m => ((L.mir1 N).U k j (i+m)).B1c) =
      ((M.lr q.dt q.dx1 0 (fun m => lW M L k j (N-i+m)) (fun m => (L.U k j (N-i+m)).B1c)).2.mX,
       (M.lr q.dt q.dx1 0 (fun m => lW M L k j (N-i+m)) (fun m => (L.U k j (N-i+m)).B1c)).1.mX) := by
    rw [← hM.lrX]
    simp only [e1W hM]; simp only [St.mir1, ix1, ix6]; rfl
  simp only [lcLR]
  rw [e]
  simp only [floorW_X]
theorem e1cFlux (k j i : ℤ) : lcFlux M q (L.mir1 N) k j i = (lcFlux M q L k j (N-i)).fX := by
  simp only [lcFlux, e1cLR hM]; exact side_X _ _ hM
theorem latt1_m1 (K : Kind) : latt M K .d1 q (L.mir1 N) = (latt M K .d1 q L).mir1 N := by
  cases K
  · exact lat1_m1 q L N (e1vFlux' hM q L N)
  · exact lat1_m1 q L N (e1cFlux hM q L N)

theorem latt1_f2 (K : Kind) : latt M K .d1 q L.flip2 = (latt M K .d1 q L).flip2 := by
  have hl : ∀ {F F' : Arr (Cons1 ℝ ns)}, (∀ k j i, F' k j i = (F k j i).nY) → lat1 q L.flip2 F' = (lat1 q L F).flip2 := by
    intro F F' h
    simp only [lat1, St.flip2, St.mk.injEq]
    have e : ∀ k j i, updA1 (q.dt / q.dx1) (F' k j (i+1)) (F' k j i) (L.U k j i).m2 =
        (updA1 (q.dt / q.dx1) (F k j (i+1)) (F k j i) (L.U k j i)).m2 := by
      intro k j i
      simp only [h, updA1, upd1, Cons.m2, Cons1.nY, Cons.mk.injEq, true_and, and_true]
      exact ⟨by ring, by ring⟩
    refine ⟨?_, trivial, ?_, ?_⟩ <;> funext k j i <;> rw [e] <;> rfl
  have hW : ∀ k j i, lW M L.flip2 k j i = (lW M L k j i).nY := fun k j i => hM.toY (load1 (L.U k j i)) _
  have hF : ∀ k j i, lvFlux M L.flip2 k j i = (lvFlux M L k j i).nY := by
    intro k j i; simp only [lvFlux, hW]; exact hM.fluxY (load1 (L.U k j (i-1))) (load1 (L.U k j i)) _ _ _
  have hU : ∀ k j i, lvUhalf M q L.flip2 k j i = (lvUhalf M q L k j i).m2 := by
    intro k j i
    simp only [lvUhalf, hF]
    simp only [St.flip2, updA1, upd1, Cons.m2, Cons1.nY, Cons.mk.injEq, true_and, and_true]
    exact ⟨by ring, by ring⟩
  cases K
  · refine hl fun k j i => ?_
    have hLR : lvLR M q L.flip2 k j i = ((lvLR M q L k j i).1.nY, (lvLR M q L k j i).2.nY) := by
      simp only [lvLR, hU, load1_m2]
      rw [← hM.lrY]
      simp only [← hM.toY]; rfl
    simp only [lvFlux', hLR]; exact side_Y _ _ hM
  · refine hl fun k j i => ?_
    have e : M.lr q.dt q.dx1 0 (fun m => lW M L.flip2 k j (i+m)) (fun m => (L.flip2.U k j (i+m)).B1c) =
        ((M.lr q.dt q.dx1 0 (fun m => lW M L k j (i+m)) (fun m => (L.U k j (i+m)).B1c)).1.nY,
         (M.lr q.dt q.dx1 0 (fun m => lW M L k j (i+m)) (fun m => (L.U k j (i+m)).B1c)).2.nY) := by
      rw [← hM.lrY]; simp only [hW]; rfl
    have hLR : lcLR M q L.flip2 k j i = ((lcLR M q L k j i).1.nY, (lcLR M q L k j i).2.nY) := by
      simp only [lcLR]; rw [e]; simp only [floorW_Y]
    simp only [lcFlux, hLR]; exact side_Y _ _ hM

theorem latt1_f3 (K : Kind) : latt M K .d1 q L.flip3 = (latt M K .d1 q L).flip3 := by
  have hl : ∀ {F F' : Arr (Cons1 ℝ ns)}, (∀ k j i, F' k j i = (F k j i).nZ) → lat1 q L.flip3 F' = (lat1 q L F).flip3 := by
    intro F F' h
    simp only [lat1, St.flip3, St.mk.injEq]
    have e : ∀ k j i, updA1 (q.dt / q.dx1) (F' k j (i+1)) (F' k j i) (L.U k j i).m3 =
        (updA1 (q.dt / q.dx1) (F k j (i+1)) (F k j i) (L.U k j i)).m3 := by
      intro k j i
      simp only [h, updA1, upd1, Cons.m3, Cons1.nZ, Cons.mk.injEq, true_and, and_true]
      exact ⟨by ring, by ring⟩
    refine ⟨?_, trivial, ?_, ?_⟩ <;> funext k j i <;> rw [e] <;> rfl
  have hW : ∀ k j i, lW M L.flip3 k j i = (lW M L k j i).nZ := fun k j i => hM.toZ (load1 (L.U k j i)) _
  have hF : ∀ k j i, lvFlux M L.flip3 k j i = (lvFlux M L k j i).nZ := by
    intro k j i; simp only [lvFlux, hW]; exact hM.fluxZ (load1 (L.U k j (i-1))) (load1 (L.U k j i)) _ _ _
  have hU : ∀ k j i, lvUhalf M q L.flip3 k j i = (lvUhalf M q L k j i).m3 := by
    intro k j i
    simp only [lvUhalf, hF]
    simp only [St.flip3, updA1, upd1, Cons.m3, Cons1.nZ, Cons.mk.injEq, true_and, and_true]
    exact ⟨by ring, by ring⟩
  cases K
  · refine hl fun k j i => ?_
    have hLR : lvLR M q L.flip3 k j i = ((lvLR M q L k j i).1.nZ, (lvLR M q L k j i).2.nZ) := by
      simp only [lvLR, hU, load1_m3]
      rw [← hM.lrZ]
      simp only [← hM.toZ]; rfl
    simp only [lvFlux', hLR]; exact side_Z _ _ hM
  · refine hl fun k j i => ?_
    have e : M.lr q.dt q.dx1 0 (fun m => lW M L.flip3 k j (i+m)) (fun m => (L.flip3.U k j (i+m)).B1c) =
        ((M.lr q.dt q.dx1 0 (fun m => lW M L k j (i+m)) (fun m => (L.U k j (i+m)).B1c)).1.nZ,
         (M.lr q.dt q.dx1 0 (fun m => lW M L k j (i+m)) (fun m => (L.U k j (i+m)).B1c)).2.nZ) := by
      rw [← hM.lrZ]; simp only [hW]; rfl
    have hLR : lcLR M q L.flip3 k j i = ((lcLR M q L k j i).1.nZ, (lcLR M q L k j i).2.nZ) := by
      simp only [lcLR]; rw [e]; simp only [floorW_Z]
    simp only [lcFlux, hLR]; exact side_Z _ _ hM
end D1

/-! ## Two dimensions -/

/-- A plane, x1 reversed. -/
def Pl.m1 (N : ℤ) (P : Pl ℝ ns) : Pl ℝ ns := ⟨fun j i => (P.U j (N-1-i)).m1, fun j i => -P.B1i j (N-i), fun j i => P.B2i j (N-1-i)⟩
/-- A plane, x2 reversed. -/
def Pl.m2 (N : ℤ) (P : Pl ℝ ns) : Pl ℝ ns := ⟨fun j i => (P.U (N-1-j) i).m2, fun j i => P.B1i (N-1-j) i, fun j i => -P.B2i (N-j) i⟩
/-- A plane, the direction normal to it reversed. -/
def Pl.f3 (P : Pl ℝ ns) : Pl ℝ ns := ⟨fun j i => (P.U j i).m3, P.B1i, P.B2i⟩

theorem sum4_rev {q e f g h e' f' g' h' : ℝ} (h5 : e' = -f) (h6 : f' = -e) (h7 : g' = -g) (h8 : h' = -h) :
    q * (e' + f' + g' + h') = -(q * (e + f + g + h)) := by subst h5 h6 h7 h8; ring
theorem sum4_rev' {q e f g h e' f' g' h' : ℝ} (h5 : e' = -e) (h6 : f' = -f) (h7 : g' = -h) (h8 : h' = -g) :
    q * (e' + f' + g' + h') = -(q * (e + f + g + h)) := by subst h5 h6 h7 h8; ring
theorem fluxA_X {M : Funs ℝ ns} (hM : M.Mirror) (l r : Cons1 ℝ ns) (bl br bi : ℝ) : fluxA M r.mX l.mX (-br) (-bl) (-bi) = (fluxA M l r bl br bi).fX := by
  simp only [fluxA, hM.toX, hM.ofX, hM.fluxX]
theorem fluxA_Y {M : Funs ℝ ns} (hM : M.Mirror) (l r : Cons1 ℝ ns) (bl br bi : ℝ) : fluxA M l.nY r.nY bl br bi = (fluxA M l r bl br bi).nY := by
  simp only [fluxA, hM.toY, hM.ofY, hM.fluxY]
theorem fluxA_Z {M : Funs ℝ ns} (hM : M.Mirror) (l r : Cons1 ℝ ns) (bl br bi : ℝ) : fluxA M l.nZ r.nZ bl br bi = (fluxA M l r bl br bi).nZ := by
  simp only [fluxA, hM.toZ, hM.ofZ, hM.fluxZ]

theorem trans1_X (q : ℝ) (r l u : Cons1 ℝ ns) : trans1 q r.nZ l.nZ u.mX = (trans1 q r l u).mX := by
  simp only [trans1, Cons1.mX, Cons1.nY, Cons1.nZ, Cons1.fX, Cons1.mk.injEq]
  refine ⟨?_, ?_, ?_, ?_, ?_, ?_, ?_, ?_⟩ <;> first | trivial | ring1 | (funext n; ring1)
theorem mhd1_X {q db db' : ℝ} {z z' : Cons ℝ ns} {u u' : Cons1 ℝ ns} (hz : z' = z.m1) (hd : db' = db) (hu : u' = u.mX) :
    mhd1 q z' db' u' = (mhd1 q z db u).mX := by
  subst hz hd hu
  simp only [mhd1, Cons.m1, Cons1.mX, Cons1.nY, Cons1.nZ, Cons1.mk.injEq]
  refine ⟨?_, ?_, ?_, ?_, ?_, ?_, ?_, ?_⟩ <;> first | trivial | ring1
theorem trans1_Y (q : ℝ) (r l u : Cons1 ℝ ns) : trans1 q l.fX r.fX u.nY = (trans1 q r l u).nY := by
  simp only [trans1, Cons1.mX, Cons1.nY, Cons1.nZ, Cons1.fX, Cons1.mk.injEq]
  refine ⟨?_, ?_, ?_, ?_, ?_, ?_, ?_, ?_⟩ <;> first | trivial | ring1 | (funext n; ring1)
theorem mhd1_Y {q db db' : ℝ} {z z' : Cons ℝ ns} {u u' : Cons1 ℝ ns} (hz : z' = z.m2) (hd : db' = db) (hu : u' = u.nY) :
    mhd1 q z' db' u' = (mhd1 q z db u).nY := by
  subst hz hd hu
  simp only [mhd1, Cons.m2, Cons1.mX, Cons1.nY, Cons1.nZ, Cons1.mk.injEq]
  refine ⟨?_, ?_, ?_, ?_, ?_, ?_, ?_, ?_⟩ <;> first | trivial | ring1
theorem trans1_Z (q : ℝ) (r l u : Cons1 ℝ ns) : trans1 q r.nY l.nY u.nZ = (trans1 q r l u).nZ := by
  simp only [trans1, Cons1.mX, Cons1.nY, Cons1.nZ, Cons1.fX, Cons1.mk.injEq]
  refine ⟨?_, ?_, ?_, ?_, ?_, ?_, ?_, ?_⟩ <;> first | trivial | ring1 | (funext n; ring1)
theorem mhd1_Z {q db db' : ℝ} {z z' : Cons ℝ ns} {u u' : Cons1 ℝ ns} (hz : z' = z.m3) (hd : db' = db) (hu : u' = u.nZ) :
    mhd1 q z' db' u' = (mhd1 q z db u).nZ := by
  subst hz hd hu
  simp only [mhd1, Cons.m3, Cons1.mX, Cons1.nY, Cons1.nZ, Cons1.mk.injEq]
  refine ⟨?_, ?_, ?_, ?_, ?_, ?_, ?_, ?_⟩ <;> first | trivial | ring1
theorem trans2_X (q : ℝ) (r l u : Cons1 ℝ ns) : trans2 q r.nY l.nY u.mX = (trans2 q r l u).mX := by
  simp only [trans2, Cons1.mX, Cons1.nY, Cons1.nZ, Cons1.fX, Cons1.mk.injEq]
  refine ⟨?_, ?_, ?_, ?_, ?_, ?_, ?_, ?_⟩ <;> first | trivial | ring1 | (funext n; ring1)
theorem mhd2_X {q db db' : ℝ} {z z' : Cons ℝ ns} {u u' : Cons1 ℝ ns} (hz : z' = z.m2) (hd : db' = db) (hu : u' = u.mX) :
    mhd2 q z' db' u' = (mhd2 q z db u).mX := by
  subst hz hd hu
  simp only [mhd2, Cons.m2, Cons1.mX, Cons1.nY, Cons1.nZ, Cons1.mk.injEq]
  refine ⟨?_, ?_, ?_, ?_, ?_, ?_, ?_, ?_⟩ <;> first | trivial | ring1
theorem trans2_Y (q : ℝ) (r l u : Cons1 ℝ ns) : trans2 q r.nZ l.nZ u.nY = (trans2 q r l u).nY := by
  simp only [trans2, Cons1.mX, Cons1.nY, Cons1.nZ, Cons1.fX, Cons1.mk.injEq]
  refine ⟨?_, ?_, ?_, ?_, ?_, ?_, ?_, ?_⟩ <;> first | trivial | ring1 | (funext n; ring1)
theorem mhd2_Y {q db db' : ℝ} {z z' : Cons ℝ ns} {u u' : Cons1 ℝ ns} (hz : z' = z.m3) (hd : db' = db) (hu : u' = u.nY) :
    mhd2 q z' db' u' = (mhd2 q z db u).nY := by
  subst hz hd hu
  simp only [mhd2, Cons.m3, Cons1.mX, Cons1.nY, Cons1.nZ, Cons1.mk.injEq]
  refine ⟨?_, ?_, ?_, ?_, ?_, ?_, ?_, ?_⟩ <;> first | trivial | ring1
theorem trans2_Z (q : ℝ) (r l u : Cons1 ℝ ns) : trans2 q l.fX r.fX u.nZ = (trans2 q r l u).nZ := by
  simp only [trans2, Cons1.mX, Cons1.nY, Cons1.nZ, Cons1.fX, Cons1.mk.injEq]
  refine ⟨?_, ?_, ?_, ?_, ?_, ?_, ?_, ?_⟩ <;> first | trivial | ring1 | (funext n; ring1)
theorem mhd2_Z {q db db' : ℝ} {z z' : Cons ℝ ns} {u u' : Cons1 ℝ ns} (hz : z' = z.m1) (hd : db' = db) (hu : u' = u.nZ) :
    mhd2 q z' db' u' = (mhd2 q z db u).nZ := by
  subst hz hd hu
  simp only [mhd2, Cons.m1, Cons1.mX, Cons1.nY, Cons1.nZ, Cons1.mk.injEq]
  refine ⟨?_, ?_, ?_, ?_, ?_, ?_, ?_, ?_⟩ <;> first | trivial | ring1
section Sm1
variable {M : Funs ℝ ns} (hM : M.Mirror) (q : Step ℝ) (P : Pl ℝ ns) (N : ℤ)

theorem pm1corner {F1 F2 F1' F2' : Pla (Cons1 ℝ ns)} {c c' : Pla ℝ} (h1 : ∀ j i, F1' j i = (F1 j (N-i)).fX) (h2 : ∀ j i, F2' j i = (F2 j (N-1-i)).nZ)
    (h3 : ∀ j i, c' j i = -c j (N-1-i)) (j i : ℤ) : corner2d F1' F2' c' j i = -corner2d F1 F2 c j (N-i) := by
  simp only [corner2d, h1, h2, h3, ix1, ix2, ix3, ix4, ix5]
  simp only [Cons1.fX, Cons1.nZ, Cons1.nY]
  refine sum4_rev ?_ ?_ ?_ ?_
  · exact up_neg (by ring) (by ring) (by ring)
  · exact up_neg (by ring) (by ring) (by ring)
  · exact up_rev (by ring) (by ring) (by ring)
  · exact up_rev (by ring) (by ring) (by ring)

theorem pm1lat (L : St ℝ ns) {F1 F2 F1' F2' : Arr (Cons1 ℝ ns)} {e e' : Arr ℝ} (h1 : ∀ k j i, F1' k j i = (F1 k j (N-i)).fX)
    (h2 : ∀ k j i, F2' k j i = (F2 k j (N-1-i)).nZ) (h3 : ∀ k j i, e' k j i = -e k j (N-i)) :
    lat2 q (L.mir1 N) F1' F2' e' = (lat2 q L F1 F2 e).mir1 N := by
  simp only [lat2, St.mir1, St.mk.injEq]
  refine ⟨?_, ?_, ?_, ?_⟩
  · funext k j i
    simp only [updB1, updB2, upd1, upd2, avg2, cB1, cB2, h1, h2, h3, ix1, ix2, ix3, ix4, ix5]
    simp only [Cons.m1, Cons1.fX, Cons1.nY, Cons1.nZ, Cons.mk.injEq]
    refine ⟨?_, ?_, ?_, ?_, ?_, ?_, ?_, ?_, ?_⟩
    · first | trivial | ring1
    · first | trivial | ring1
    · first | trivial | ring1
    · first | trivial | ring1
    · first | trivial | ring1
    · first | trivial | ring1
    · first | trivial | ring1
    · first | trivial | ring1
    · first | trivial | (funext n; ring)
  · funext k j i; simp only [cB1, h3, ix1, ix2, ix3, ix4, ix5]; ring1
  · funext k j i; simp only [cB2, h3, ix1, ix2, ix3, ix4, ix5]; ring1
  · funext k j i
    simp only [updB1, updB2, upd1, upd2, avg2, h1, h2, ix1, ix2, ix3, ix4, ix5]
    simp only [Cons.m1, Cons1.fX, Cons1.nY, Cons1.nZ]
    ring1
include hM
theorem pm1F1 (j i : ℤ) : o2F1 M (P.m1 N) j i = (o2F1 M P j (N-i)).fX := by
  simp only [o2F1, Pl.m1, load1_m1, ix1, ix2, ix3, ix4, ix5]; exact fluxA_X hM _ _ _ _ _
theorem pm1F2 (j i : ℤ) : o2F2 M (P.m1 N) j i = (o2F2 M P j (N-1-i)).nZ := by
  simp only [o2F2, Pl.m1, load2_m1, ix1, ix2, ix3, ix4, ix5]; exact fluxA_Z hM _ _ _ _ _
theorem pm1Ecc (j i : ℤ) : o2Ecc M (P.m1 N) j i = -o2Ecc M P j (N-1-i) := by
  simp only [o2Ecc, Pl.m1, hM.to1, ecc3, Prim.m1]; ring
theorem pm1Emf (j i : ℤ) : o2Emf M (P.m1 N) j i = -o2Emf M P j (N-i) := pm1corner N (pm1F1 hM P N) (pm1F2 hM P N) (pm1Ecc hM P N) j i
theorem pm1B1F (j i : ℤ) : o2B1F M q (P.m1 N) j i = -o2B1F M q P j (N-i) := by
  simp only [o2B1F, cB1, pm1Emf hM, ix1, ix2, ix3, ix4, ix5]; simp only [Pl.m1, ix1]; ring
theorem pm1B2F (j i : ℤ) : o2B2F M q (P.m1 N) j i = o2B2F M q P j (N-1-i) := by
  simp only [o2B2F, cB2, pm1Emf hM, ix1, ix2, ix3, ix4, ix5]; simp only [Pl.m1, ix1]; ring
theorem pm1Uh (j i : ℤ) : o2Uh M q (P.m1 N) j i = (o2Uh M q P j (N-1-i)).m1 := by
  simp only [o2Uh, updB1, updB2, upd1, upd2, avg2, pm1F1 hM, pm1F2 hM, pm1B1F hM, pm1B2F hM, ix1, ix2, ix3, ix4, ix5]
  simp only [Pl.m1, Cons.m1, Cons1.fX, Cons1.nY, Cons1.nZ, Cons.mk.injEq, ix1]
  refine ⟨?_, ?_, ?_, ?_, ?_, ?_, ?_, ?_, ?_⟩
  · first | trivial | ring1
  · first | trivial | ring1
  · first | trivial | ring1
  · first | trivial | ring1
  · first | trivial | ring1
  · first | trivial | ring1
  · first | trivial | ring1
  · first | trivial | ring1
  · first | trivial | (funext n; ring)
theorem pm1LR1 (j i : ℤ) : o2LR1 M q (P.m1 N) j i = ((o2LR1 M q P j (N-i)).2.mX, (o2LR1 M q P j (N-i)).1.mX) := by
  simp only [o2LR1, pm1Uh hM, load1_m1, ix1, ix6]
  rw [← hM.lrX]
  simp only [← hM.toX]; rfl
theorem pm1LR2 (j i : ℤ) : o2LR2 M q (P.m1 N) j i = ((o2LR2 M q P j (N-1-i)).1.nZ, (o2LR2 M q P j (N-1-i)).2.nZ) := by
  simp only [o2LR2, pm1Uh hM, load2_m1]
  rw [← hM.lrZ]
  simp only [← hM.toZ]; rfl
theorem pm1G1 (j i : ℤ) : o2G1 M q (P.m1 N) j i = (o2G1 M q P j (N-i)).fX := by
  simp only [o2G1, pm1LR1 hM, pm1B1F hM]; exact side_X _ _ hM
theorem pm1G2 (j i : ℤ) : o2G2 M q (P.m1 N) j i = (o2G2 M q P j (N-1-i)).nZ := by
  simp only [o2G2, pm1LR2 hM, pm1B2F hM]; exact side_Z _ _ hM
theorem pm1Ecc' (j i : ℤ) : o2Ecc' M q (P.m1 N) j i = -(o2Ecc' M q P) j (N-1-i) := by
  simp only [o2Ecc', pm1Uh hM, hM.to1, ecc3, Prim.m1]; ring
theorem pm1Emf' (j i : ℤ) : o2Emf' M q (P.m1 N) j i = -o2Emf' M q P j (N-i) := pm1corner N (pm1G1 hM q P N) (pm1G2 hM q P N) (pm1Ecc' hM q P N) j i
theorem pm1W1 (l : Bool) (j i : ℤ) : d2W1 M q (P.m1 N) l j i = (d2W1 M q P (!l) j (N-i)).mX := by
  have e : M.lr q.dt q.dx1 0 (fun m => M.c2p1 (load1 (((P.m1 N)).U j (i+m))) (((P.m1 N)).U j (i+m)).B1c) (fun m => (((P.m1 N)).U j (i+m)).B1c) =
      ((M.lr q.dt q.dx1 0 (fun m => M.c2p1 (load1 (P.U j ((N-i)+m))) (P.U j ((N-i)+m)).B1c) (fun m => (P.U j ((N-i)+m)).B1c)).2.mX, (M.lr q.dt q.dx1 0 (fun m => M.c2p1 (load1 (P.U j ((N-i)+m))) (P.U j ((N-i)+m)).B1c) (fun m => (P.U j ((N-i)+m)).B1c)).1.mX) := by
    rw [← hM.lrX]
    simp only [Pl.m1, load1_m1, ← hM.toX, ix1, ix6]; rfl
  have hp : ∀ p : Prim1 ℝ ns × Prim1 ℝ ns, pick l (p.2.mX, p.1.mX) = (pick (!l) p).mX := by intro p; cases l <;> rfl
  simp only [d2W1]
  rw [e, hp, floorW_X]
  cases l <;> simp only [srcW1, Pl.m1, Cons.m1, Prim1.mX, Prim1.nY, Prim1.nZ, Prim1.mk.injEq, off, Bool.not_true, Bool.not_false, if_true, if_false, Bool.false_eq_true, sub_zero, ix1, ix2, ix3, ix4, ix5, true_and, and_true] <;> ring1
theorem pm1W2 (l : Bool) (j i : ℤ) : d2W2 M q (P.m1 N) l j i = (d2W2 M q P l j (N-1-i)).nZ := by
  have e : M.lr q.dt q.dx2 1 (fun m => M.c2p1 (load2 (((P.m1 N)).U (j+m) i)) (((P.m1 N)).U (j+m) i).B2c) (fun m => (((P.m1 N)).U (j+m) i).B2c) =
      ((M.lr q.dt q.dx2 1 (fun m => M.c2p1 (load2 (P.U (j+m) (N-1-i))) (P.U (j+m) (N-1-i)).B2c) (fun m => (P.U (j+m) (N-1-i)).B2c)).1.nZ, (M.lr q.dt q.dx2 1 (fun m => M.c2p1 (load2 (P.U (j+m) (N-1-i))) (P.U (j+m) (N-1-i)).B2c) (fun m => (P.U (j+m) (N-1-i)).B2c)).2.nZ) := by
    rw [← hM.lrZ]
    simp only [Pl.m1, load2_m1, ← hM.toZ]; rfl
  have hp : ∀ p : Prim1 ℝ ns × Prim1 ℝ ns, pick l (p.1.nZ, p.2.nZ) = (pick l p).nZ := by intro p; cases l <;> rfl
  simp only [d2W2]
  rw [e, hp, floorW_Z]
  cases l <;> simp only [srcW2, Pl.m1, Cons.m1, Prim1.mX, Prim1.nY, Prim1.nZ, Prim1.mk.injEq, off, Bool.not_true, Bool.not_false, if_true, if_false, Bool.false_eq_true, sub_zero, ix1, ix2, ix3, ix4, ix5, true_and, and_true] <;> ring1
theorem pm1U1 (l : Bool) (j i : ℤ) : d2U1 M q (P.m1 N) l j i = (d2U1 M q P (!l) j (N-i)).mX := by
  simp only [d2U1, pm1W1 hM]; exact hM.ofX _ _
theorem pm1U2 (l : Bool) (j i : ℤ) : d2U2 M q (P.m1 N) l j i = (d2U2 M q P l j (N-1-i)).nZ := by
  simp only [d2U2, pm1W2 hM]; exact hM.ofZ _ _
theorem pm1D1 (j i : ℤ) : d2F1 M q (P.m1 N) j i = (d2F1 M q P j (N-i)).fX := by
  simp only [d2F1, pm1U1 hM, pm1W1 hM]; exact hM.fluxX _ _ _ _ _
theorem pm1D2 (j i : ℤ) : d2F2 M q (P.m1 N) j i = (d2F2 M q P j (N-1-i)).nZ := by
  simp only [d2F2, pm1U2 hM, pm1W2 hM]; exact hM.fluxZ _ _ _ _ _
theorem pm1dEmf (j i : ℤ) : d2Emf M q (P.m1 N) j i = -d2Emf M q P j (N-i) := 
  pm1corner N (c := fun j i => eccC (P.U j i)) (pm1D1 hM q P N) (pm1D2 hM q P N) (fun j i => by simp only [Pl.m1, eccC, Cons.m1]; ring) j i
theorem pm1B1h (j i : ℤ) : d2B1h M q (P.m1 N) j i = -d2B1h M q P j (N-i) := by
  simp only [d2B1h, cB1, pm1dEmf hM, ix1, ix2, ix3, ix4, ix5]; simp only [Pl.m1, ix1]; ring
theorem pm1B2h (j i : ℤ) : d2B2h M q (P.m1 N) j i = d2B2h M q P j (N-1-i) := by
  simp only [d2B2h, cB2, pm1dEmf hM, ix1, ix2, ix3, ix4, ix5]; simp only [Pl.m1, ix1]; ring
theorem pm1U1' (l : Bool) (j i : ℤ) : d2U1' M q (P.m1 N) l j i = (d2U1' M q P (!l) j (N-i)).mX := by
  simp only [d2U1', pm1D2 hM, pm1U1 hM]
  rw [← floorU_X]
  refine congrArg (floorU M) (mhd1_X (u := _) ?_ ?_ ?_)
  · cases l <;> simp only [Pl.m1, off, Bool.not_true, Bool.not_false, if_true, if_false, Bool.false_eq_true, sub_zero, ix1, ix2, ix3, ix4, ix5]
  · cases l <;> simp only [Pl.m1, off, Bool.not_true, Bool.not_false, if_true, if_false, Bool.false_eq_true, sub_zero, ix1, ix2, ix3, ix4, ix5] <;> ring
  · rw [← trans1_X]; cases l <;> simp only [off, Bool.not_true, Bool.not_false, if_true, if_false, Bool.false_eq_true, sub_zero, ix1, ix2, ix3, ix4, ix5]
theorem pm1U2' (l : Bool) (j i : ℤ) : d2U2' M q (P.m1 N) l j i = (d2U2' M q P l j (N-1-i)).nZ := by
  simp only [d2U2', pm1D1 hM, pm1U2 hM]
  rw [← floorU_Z]
  refine congrArg (floorU M) (mhd2_Z (u := _) ?_ ?_ ?_)
  · cases l <;> simp only [Pl.m1, off, Bool.not_true, Bool.not_false, if_true, if_false, Bool.false_eq_true, sub_zero, ix1, ix2, ix3, ix4, ix5]
  · cases l <;> simp only [Pl.m1, off, Bool.not_true, Bool.not_false, if_true, if_false, Bool.false_eq_true, sub_zero, ix1, ix2, ix3, ix4, ix5]
  · rw [← trans2_Z]; cases l <;> simp only [off, Bool.not_true, Bool.not_false, if_true, if_false, Bool.false_eq_true, sub_zero, ix1, ix2, ix3, ix4, ix5]
theorem pm1Ech (j i : ℤ) : d2Ecc' M q (P.m1 N) j i = -(d2Ecc' M q P) j (N-1-i) := by
  simp only [d2Ecc', pm1D1 hM, pm1D2 hM, pm1B1h hM, pm1B2h hM, ix1, ix2, ix3, ix4, ix5]
  simp only [eccH, Pl.m1, Cons.m1, Cons1.fX, Cons1.nY, Cons1.nZ, ix1]
  first | (rw [← neg_div]; congr 1 <;> first | ring1 | (congr 1; ring1)) | (congr 1 <;> first | ring1 | (congr 1; ring1))
theorem pm1H1 (j i : ℤ) : d2G1 M q (P.m1 N) j i = (d2G1 M q P j (N-i)).fX := by
  simp only [d2G1, pm1U1' hM, pm1B1h hM]; exact fluxC_X hM _ _ _
theorem pm1H2 (j i : ℤ) : d2G2 M q (P.m1 N) j i = (d2G2 M q P j (N-1-i)).nZ := by
  simp only [d2G2, pm1U2' hM, pm1B2h hM]; exact fluxC_Z hM _ _ _
theorem pm1dEmf' (j i : ℤ) : d2Emf' M q (P.m1 N) j i = -d2Emf' M q P j (N-i) := 
  pm1corner N (pm1H1 hM q P N) (pm1H2 hM q P N) (pm1Ech hM q P N) j i

omit P in
theorem latt2_m1 (K : Kind) (L : St ℝ ns) : latt M K .d2 q (L.mir1 N) = (latt M K .d2 q L).mir1 N := by
  cases K
  · exact pm1lat q N L (fun k => pm1G1 hM q (plane L k) N) (fun k => pm1G2 hM q (plane L k) N) (fun k => pm1Emf' hM q (plane L k) N)
  · exact pm1lat q N L (fun k => pm1H1 hM q (plane L k) N) (fun k => pm1H2 hM q (plane L k) N) (fun k => pm1dEmf' hM q (plane L k) N)
end Sm1

section Sm2
variable {M : Funs ℝ ns} (hM : M.Mirror) (q : Step ℝ) (P : Pl ℝ ns) (N : ℤ)

theorem pm2corner {F1 F2 F1' F2' : Pla (Cons1 ℝ ns)} {c c' : Pla ℝ} (h1 : ∀ j i, F1' j i = (F1 (N-1-j) i).nY) (h2 : ∀ j i, F2' j i = (F2 (N-j) i).fX)
    (h3 : ∀ j i, c' j i = -c (N-1-j) i) (j i : ℤ) : corner2d F1' F2' c' j i = -corner2d F1 F2 c (N-j) i := by
  simp only [corner2d, h1, h2, h3, ix1, ix2, ix3, ix4, ix5]
  simp only [Cons1.fX, Cons1.nZ, Cons1.nY]
  refine sum4_rev' ?_ ?_ ?_ ?_
  · exact up_rev (by ring) (by ring) (by ring)
  · exact up_rev (by ring) (by ring) (by ring)
  · exact up_neg (by ring) (by ring) (by ring)
  · exact up_neg (by ring) (by ring) (by ring)

theorem pm2lat (L : St ℝ ns) {F1 F2 F1' F2' : Arr (Cons1 ℝ ns)} {e e' : Arr ℝ} (h1 : ∀ k j i, F1' k j i = (F1 k (N-1-j) i).nY)
    (h2 : ∀ k j i, F2' k j i = (F2 k (N-j) i).fX) (h3 : ∀ k j i, e' k j i = -e k (N-j) i) :
    lat2 q (L.mir2 N) F1' F2' e' = (lat2 q L F1 F2 e).mir2 N := by
  simp only [lat2, St.mir2, St.mk.injEq]
  refine ⟨?_, ?_, ?_, ?_⟩
  · funext k j i
    simp only [updB1, updB2, upd1, upd2, avg2, cB1, cB2, h1, h2, h3, ix1, ix2, ix3, ix4, ix5]
    simp only [Cons.m2, Cons1.fX, Cons1.nY, Cons1.nZ, Cons.mk.injEq]
    refine ⟨?_, ?_, ?_, ?_, ?_, ?_, ?_, ?_, ?_⟩
    · first | trivial | ring1
    · first | trivial | ring1
    · first | trivial | ring1
    · first | trivial | ring1
    · first | trivial | ring1
    · first | trivial | ring1
    · first | trivial | ring1
    · first | trivial | ring1
    · first | trivial | (funext n; ring)
  · funext k j i; simp only [cB1, h3, ix1, ix2, ix3, ix4, ix5]; ring1
  · funext k j i; simp only [cB2, h3, ix1, ix2, ix3, ix4, ix5]; ring1
  · funext k j i
    simp only [updB1, updB2, upd1, upd2, avg2, h1, h2, ix1, ix2, ix3, ix4, ix5]
    simp only [Cons.m2, Cons1.fX, Cons1.nY, Cons1.nZ]
    ring1
include hM
theorem pm2F1 (j i : ℤ) : o2F1 M (P.m2 N) j i = (o2F1 M P (N-1-j) i).nY := by
  simp only [o2F1, Pl.m2, load1_m2, ix1, ix2, ix3, ix4, ix5]; exact fluxA_Y hM _ _ _ _ _
theorem pm2F2 (j i : ℤ) : o2F2 M (P.m2 N) j i = (o2F2 M P (N-j) i).fX := by
  simp only [o2F2, Pl.m2, load2_m2, ix1, ix2, ix3, ix4, ix5]; exact fluxA_X hM _ _ _ _ _
theorem pm2Ecc (j i : ℤ) : o2Ecc M (P.m2 N) j i = -o2Ecc M P (N-1-j) i := by
  simp only [o2Ecc, Pl.m2, hM.to2, ecc3, Prim.m2]; ring
theorem pm2Emf (j i : ℤ) : o2Emf M (P.m2 N) j i = -o2Emf M P (N-j) i := pm2corner N (pm2F1 hM P N) (pm2F2 hM P N) (pm2Ecc hM P N) j i
theorem pm2B1F (j i : ℤ) : o2B1F M q (P.m2 N) j i = o2B1F M q P (N-1-j) i := by
  simp only [o2B1F, cB1, pm2Emf hM, ix1, ix2, ix3, ix4, ix5]; simp only [Pl.m2, ix1]; ring
theorem pm2B2F (j i : ℤ) : o2B2F M q (P.m2 N) j i = -o2B2F M q P (N-j) i := by
  simp only [o2B2F, cB2, pm2Emf hM, ix1, ix2, ix3, ix4, ix5]; simp only [Pl.m2, ix1]; ring
theorem pm2Uh (j i : ℤ) : o2Uh M q (P.m2 N) j i = (o2Uh M q P (N-1-j) i).m2 := by
  simp only [o2Uh, updB1, updB2, upd1, upd2, avg2, pm2F1 hM, pm2F2 hM, pm2B1F hM, pm2B2F hM, ix1, ix2, ix3, ix4, ix5]
  simp only [Pl.m2, Cons.m2, Cons1.fX, Cons1.nY, Cons1.nZ, Cons.mk.injEq, ix1]
  refine ⟨?_, ?_, ?_, ?_, ?_, ?_, ?_, ?_, ?_⟩
  · first | trivial | ring1
  · first | trivial | ring1
  · first | trivial | ring1
  · first | trivial | ring1
  · first | trivial | ring1
  · first | trivial | ring1
  · first | trivial | ring1
  · first | trivial | ring1
  · first | trivial | (funext n; ring)
theorem pm2LR1 (j i : ℤ) : o2LR1 M q (P.m2 N) j i = ((o2LR1 M q P (N-1-j) i).1.nY, (o2LR1 M q P (N-1-j) i).2.nY) := by
  simp only [o2LR1, pm2Uh hM, load1_m2]
  rw [← hM.lrY]
  simp only [← hM.toY]; rfl
theorem pm2LR2 (j i : ℤ) : o2LR2 M q (P.m2 N) j i = ((o2LR2 M q P (N-j) i).2.mX, (o2LR2 M q P (N-j) i).1.mX) := by
  simp only [o2LR2, pm2Uh hM, load2_m2, ix1, ix6]
  rw [← hM.lrX]
  simp only [← hM.toX]; rfl
theorem pm2G1 (j i : ℤ) : o2G1 M q (P.m2 N) j i = (o2G1 M q P (N-1-j) i).nY := by
  simp only [o2G1, pm2LR1 hM, pm2B1F hM]; exact side_Y _ _ hM
theorem pm2G2 (j i : ℤ) : o2G2 M q (P.m2 N) j i = (o2G2 M q P (N-j) i).fX := by
  simp only [o2G2, pm2LR2 hM, pm2B2F hM]; exact side_X _ _ hM
theorem pm2Ecc' (j i : ℤ) : o2Ecc' M q (P.m2 N) j i = -(o2Ecc' M q P) (N-1-j) i := by
  simp only [o2Ecc', pm2Uh hM, hM.to2, ecc3, Prim.m2]; ring
theorem pm2Emf' (j i : ℤ) : o2Emf' M q (P.m2 N) j i = -o2Emf' M q P (N-j) i := pm2corner N (pm2G1 hM q P N) (pm2G2 hM q P N) (pm2Ecc' hM q P N) j i
theorem pm2W1 (l : Bool) (j i : ℤ) : d2W1 M q (P.m2 N) l j i = (d2W1 M q P l (N-1-j) i).nY := by
  have e : M.lr q.dt q.dx1 0 (fun m => M.c2p1 (load1 (((P.m2 N)).U j (i+m))) (((P.m2 N)).U j (i+m)).B1c) (fun m => (((P.m2 N)).U j (i+m)).B1c) =
      ((M.lr q.dt q.dx1 0 (fun m => M.c2p1 (load1 (P.U (N-1-j) (i+m))) (P.U (N-1-j) (i+m)).B1c) (fun m => (P.U (N-1-j) (i+m)).B1c)).1.nY, (M.lr q.dt q.dx1 0 (fun m => M.c2p1 (load1 (P.U (N-1-j) (i+m))) (P.U (N-1-j) (i+m)).B1c) (fun m => (P.U (N-1-j) (i+m)).B1c)).2.nY) := by
    rw [← hM.lrY]
    simp only [Pl.m2, load1_m2, ← hM.toY]; rfl
  have hp : ∀ p : Prim1 ℝ ns × Prim1 ℝ ns, pick l (p.1.nY, p.2.nY) = (pick l p).nY := by intro p; cases l <;> rfl
  simp only [d2W1]
  rw [e, hp, floorW_Y]
  cases l <;> simp only [srcW1, Pl.m2, Cons.m2, Prim1.mX, Prim1.nY, Prim1.nZ, Prim1.mk.injEq, off, Bool.not_true, Bool.not_false, if_true, if_false, Bool.false_eq_true, sub_zero, ix1, ix2, ix3, ix4, ix5, true_and, and_true] <;> ring1
theorem pm2W2 (l : Bool) (j i : ℤ) : d2W2 M q (P.m2 N) l j i = (d2W2 M q P (!l) (N-j) i).mX := by
  have e : M.lr q.dt q.dx2 1 (fun m => M.c2p1 (load2 (((P.m2 N)).U (j+m) i)) (((P.m2 N)).U (j+m) i).B2c) (fun m => (((P.m2 N)).U (j+m) i).B2c) =
      ((M.lr q.dt q.dx2 1 (fun m => M.c2p1 (load2 (P.U ((N-j)+m) i)) (P.U ((N-j)+m) i).B2c) (fun m => (P.U ((N-j)+m) i).B2c)).2.mX, (M.lr q.dt q.dx2 1 (fun m => M.c2p1 (load2 (P.U ((N-j)+m) i)) (P.U ((N-j)+m) i).B2c) (fun m => (P.U ((N-j)+m) i).B2c)).1.mX) := by
    rw [← hM.lrX]
    simp only [Pl.m2, load2_m2, ← hM.toX, ix1, ix6]; rfl
  have hp : ∀ p : Prim1 ℝ ns × Prim1 ℝ ns, pick l (p.2.mX, p.1.mX) = (pick (!l) p).mX := by intro p; cases l <;> rfl
  simp only [d2W2]
  rw [e, hp, floorW_X]
  cases l <;> simp only [srcW2, Pl.m2, Cons.m2, Prim1.mX, Prim1.nY, Prim1.nZ, Prim1.mk.injEq, off, Bool.not_true, Bool.not_false, if_true, if_false, Bool.false_eq_true, sub_zero, ix1, ix2, ix3, ix4, ix5, true_and, and_true] <;> ring1
theorem pm2U1 (l : Bool) (j i : ℤ) : d2U1 M q (P.m2 N) l j i = (d2U1 M q P l (N-1-j) i).nY := by
  simp only [d2U1, pm2W1 hM]; exact hM.ofY _ _
theorem pm2U2 (l : Bool) (j i : ℤ) : d2U2 M q (P.m2 N) l j i = (d2U2 M q P (!l) (N-j) i).mX := by
  simp only [d2U2, pm2W2 hM]; exact hM.ofX _ _
theorem pm2D1 (j i : ℤ) : d2F1 M q (P.m2 N) j i = (d2F1 M q P (N-1-j) i).nY := by
  simp only [d2F1, pm2U1 hM, pm2W1 hM]; exact hM.fluxY _ _ _ _ _
theorem pm2D2 (j i : ℤ) : d2F2 M q (P.m2 N) j i = (d2F2 M q P (N-j) i).fX := by
  simp only [d2F2, pm2U2 hM, pm2W2 hM]; exact hM.fluxX _ _ _ _ _
theorem pm2dEmf (j i : ℤ) : d2Emf M q (P.m2 N) j i = -d2Emf M q P (N-j) i := 
  pm2corner N (c := fun j i => eccC (P.U j i)) (pm2D1 hM q P N) (pm2D2 hM q P N) (fun j i => by simp only [Pl.m2, eccC, Cons.m2]; ring) j i
theorem pm2B1h (j i : ℤ) : d2B1h M q (P.m2 N) j i = d2B1h M q P (N-1-j) i := by
  simp only [d2B1h, cB1, pm2dEmf hM, ix1, ix2, ix3, ix4, ix5]; simp only [Pl.m2, ix1]; ring
theorem pm2B2h (j i : ℤ) : d2B2h M q (P.m2 N) j i = -d2B2h M q P (N-j) i := by
  simp only [d2B2h, cB2, pm2dEmf hM, ix1, ix2, ix3, ix4, ix5]; simp only [Pl.m2, ix1]; ring
theorem pm2U1' (l : Bool) (j i : ℤ) : d2U1' M q (P.m2 N) l j i = (d2U1' M q P l (N-1-j) i).nY := by
  simp only [d2U1', pm2D2 hM, pm2U1 hM]
  rw [← floorU_Y]
  refine congrArg (floorU M) (mhd1_Y (u := _) ?_ ?_ ?_)
  · cases l <;> simp only [Pl.m2, off, Bool.not_true, Bool.not_false, if_true, if_false, Bool.false_eq_true, sub_zero, ix1, ix2, ix3, ix4, ix5]
  · cases l <;> simp only [Pl.m2, off, Bool.not_true, Bool.not_false, if_true, if_false, Bool.false_eq_true, sub_zero, ix1, ix2, ix3, ix4, ix5]
  · rw [← trans1_Y]; cases l <;> simp only [off, Bool.not_true, Bool.not_false, if_true, if_false, Bool.false_eq_true, sub_zero, ix1, ix2, ix3, ix4, ix5]
theorem pm2U2' (l : Bool) (j i : ℤ) : d2U2' M q (P.m2 N) l j i = (d2U2' M q P (!l) (N-j) i).mX := by
  simp only [d2U2', pm2D1 hM, pm2U2 hM]
  rw [← floorU_X]
  refine congrArg (floorU M) (mhd2_X (u := _) ?_ ?_ ?_)
  · cases l <;> simp only [Pl.m2, off, Bool.not_true, Bool.not_false, if_true, if_false, Bool.false_eq_true, sub_zero, ix1, ix2, ix3, ix4, ix5]
  · cases l <;> simp only [Pl.m2, off, Bool.not_true, Bool.not_false, if_true, if_false, Bool.false_eq_true, sub_zero, ix1, ix2, ix3, ix4, ix5] <;> ring
  · rw [← trans2_X]; cases l <;> simp only [off, Bool.not_true, Bool.not_false, if_true, if_false, Bool.false_eq_true, sub_zero, ix1, ix2, ix3, ix4, ix5]
theorem pm2Ech (j i : ℤ) : d2Ecc' M q (P.m2 N) j i = -(d2Ecc' M q P) (N-1-j) i := by
  simp only [d2Ecc', pm2D1 hM, pm2D2 hM, pm2B1h hM, pm2B2h hM, ix1, ix2, ix3, ix4, ix5]
  simp only [eccH, Pl.m2, Cons.m2, Cons1.fX, Cons1.nY, Cons1.nZ, ix1]
  first | (rw [← neg_div]; congr 1 <;> first | ring1 | (congr 1; ring1)) | (congr 1 <;> first | ring1 | (congr 1; ring1))
theorem pm2H1 (j i : ℤ) : d2G1 M q (P.m2 N) j i = (d2G1 M q P (N-1-j) i).nY := by
  simp only [d2G1, pm2U1' hM, pm2B1h hM]; exact fluxC_Y hM _ _ _
theorem pm2H2 (j i : ℤ) : d2G2 M q (P.m2 N) j i = (d2G2 M q P (N-j) i).fX := by
  simp only [d2G2, pm2U2' hM, pm2B2h hM]; exact fluxC_X hM _ _ _
theorem pm2dEmf' (j i : ℤ) : d2Emf' M q (P.m2 N) j i = -d2Emf' M q P (N-j) i := 
  pm2corner N (pm2H1 hM q P N) (pm2H2 hM q P N) (pm2Ech hM q P N) j i

omit P in
theorem latt2_m2 (K : Kind) (L : St ℝ ns) : latt M K .d2 q (L.mir2 N) = (latt M K .d2 q L).mir2 N := by
  cases K
  · exact pm2lat q N L (fun k => pm2G1 hM q (plane L k) N) (fun k => pm2G2 hM q (plane L k) N) (fun k => pm2Emf' hM q (plane L k) N)
  · exact pm2lat q N L (fun k => pm2H1 hM q (plane L k) N) (fun k => pm2H2 hM q (plane L k) N) (fun k => pm2dEmf' hM q (plane L k) N)
end Sm2

section Sf3
variable {M : Funs ℝ ns} (hM : M.Mirror) (q : Step ℝ) (P : Pl ℝ ns) 

theorem pf3corner {F1 F2 F1' F2' : Pla (Cons1 ℝ ns)} {c c' : Pla ℝ} (h1 : ∀ j i, F1' j i = (F1 j i).nZ) (h2 : ∀ j i, F2' j i = (F2 j i).nY)
    (h3 : ∀ j i, c' j i = c j i) (j i : ℤ) : corner2d F1' F2' c' j i = corner2d F1 F2 c j i := by
  simp only [corner2d, h1, h2, h3]
  rfl

theorem pf3lat (L : St ℝ ns) {F1 F2 F1' F2' : Arr (Cons1 ℝ ns)} {e e' : Arr ℝ} (h1 : ∀ k j i, F1' k j i = (F1 k j i).nZ)
    (h2 : ∀ k j i, F2' k j i = (F2 k j i).nY) (h3 : ∀ k j i, e' k j i = e k j i) :
    lat2 q L.flip3 F1' F2' e' = (lat2 q L F1 F2 e).flip3 := by
  simp only [lat2, St.flip3, St.mk.injEq]
  refine ⟨?_, ?_, ?_, ?_⟩
  · funext k j i
    simp only [updB1, updB2, upd1, upd2, avg2, cB1, cB2, h1, h2, h3]
    simp only [Cons.m3, Cons1.fX, Cons1.nY, Cons1.nZ, Cons.mk.injEq]
    refine ⟨?_, ?_, ?_, ?_, ?_, ?_, ?_, ?_, ?_⟩
    · first | trivial | ring1
    · first | trivial | ring1
    · first | trivial | ring1
    · first | trivial | ring1
    · first | trivial | ring1
    · first | trivial | ring1
    · first | trivial | ring1
    · first | trivial | ring1
    · first | trivial | (funext n; ring)
  · funext k j i; simp only [cB1, h3]
  · funext k j i; simp only [cB2, h3]
  · funext k j i
    simp only [updB1, updB2, upd1, upd2, avg2, h1, h2]
    simp only [Cons.m3, Cons1.fX, Cons1.nY, Cons1.nZ]
    ring1
include hM
theorem pf3F1 (j i : ℤ) : o2F1 M P.f3 j i = (o2F1 M P j i).nZ := by
  simp only [o2F1, Pl.f3, load1_m3]; exact fluxA_Z hM _ _ _ _ _
theorem pf3F2 (j i : ℤ) : o2F2 M P.f3 j i = (o2F2 M P j i).nY := by
  simp only [o2F2, Pl.f3, load2_m3]; exact fluxA_Y hM _ _ _ _ _
theorem pf3Ecc (j i : ℤ) : o2Ecc M P.f3 j i = o2Ecc M P j i := by
  simp only [o2Ecc, Pl.f3, hM.to3, ecc3, Prim.m3]
theorem pf3Emf (j i : ℤ) : o2Emf M P.f3 j i = o2Emf M P j i := pf3corner (pf3F1 hM P) (pf3F2 hM P) (pf3Ecc hM P) j i
theorem pf3B1F (j i : ℤ) : o2B1F M q P.f3 j i = o2B1F M q P j i := by
  simp only [o2B1F, cB1, pf3Emf hM]; simp only [Pl.f3]
theorem pf3B2F (j i : ℤ) : o2B2F M q P.f3 j i = o2B2F M q P j i := by
  simp only [o2B2F, cB2, pf3Emf hM]; simp only [Pl.f3]
theorem pf3Uh (j i : ℤ) : o2Uh M q P.f3 j i = (o2Uh M q P j i).m3 := by
  simp only [o2Uh, updB1, updB2, upd1, upd2, avg2, pf3F1 hM, pf3F2 hM, pf3B1F hM, pf3B2F hM]
  simp only [Pl.f3, Cons.m3, Cons1.fX, Cons1.nY, Cons1.nZ, Cons.mk.injEq]
  refine ⟨?_, ?_, ?_, ?_, ?_, ?_, ?_, ?_, ?_⟩
  · first | trivial | ring1
  · first | trivial | ring1
  · first | trivial | ring1
  · first | trivial | ring1
  · first | trivial | ring1
  · first | trivial | ring1
  · first | trivial | ring1
  · first | trivial | ring1
  · first | trivial | (funext n; ring)
theorem pf3LR1 (j i : ℤ) : o2LR1 M q P.f3 j i = ((o2LR1 M q P j i).1.nZ, (o2LR1 M q P j i).2.nZ) := by
  simp only [o2LR1, pf3Uh hM, load1_m3]
  rw [← hM.lrZ]
  simp only [← hM.toZ]; rfl
theorem pf3LR2 (j i : ℤ) : o2LR2 M q P.f3 j i = ((o2LR2 M q P j i).1.nY, (o2LR2 M q P j i).2.nY) := by
  simp only [o2LR2, pf3Uh hM, load2_m3]
  rw [← hM.lrY]
  simp only [← hM.toY]; rfl
theorem pf3G1 (j i : ℤ) : o2G1 M q P.f3 j i = (o2G1 M q P j i).nZ := by
  simp only [o2G1, pf3LR1 hM, pf3B1F hM]; exact side_Z _ _ hM
theorem pf3G2 (j i : ℤ) : o2G2 M q P.f3 j i = (o2G2 M q P j i).nY := by
  simp only [o2G2, pf3LR2 hM, pf3B2F hM]; exact side_Y _ _ hM
theorem pf3Ecc' (j i : ℤ) : o2Ecc' M q P.f3 j i = (o2Ecc' M q P) j i := by
  simp only [o2Ecc', pf3Uh hM, hM.to3, ecc3, Prim.m3]
theorem pf3Emf' (j i : ℤ) : o2Emf' M q P.f3 j i = o2Emf' M q P j i := pf3corner (pf3G1 hM q P) (pf3G2 hM q P) (pf3Ecc' hM q P) j i
theorem pf3W1 (l : Bool) (j i : ℤ) : d2W1 M q P.f3 l j i = (d2W1 M q P l j i).nZ := by
  have e : M.lr q.dt q.dx1 0 (fun m => M.c2p1 (load1 ((P.f3).U j (i+m))) ((P.f3).U j (i+m)).B1c) (fun m => ((P.f3).U j (i+m)).B1c) =
      ((M.lr q.dt q.dx1 0 (fun m => M.c2p1 (load1 (P.U j (i+m))) (P.U j (i+m)).B1c) (fun m => (P.U j (i+m)).B1c)).1.nZ, (M.lr q.dt q.dx1 0 (fun m => M.c2p1 (load1 (P.U j (i+m))) (P.U j (i+m)).B1c) (fun m => (P.U j (i+m)).B1c)).2.nZ) := by
    rw [← hM.lrZ]
    simp only [Pl.f3, load1_m3, ← hM.toZ]; rfl
  have hp : ∀ p : Prim1 ℝ ns × Prim1 ℝ ns, pick l (p.1.nZ, p.2.nZ) = (pick l p).nZ := by intro p; cases l <;> rfl
  simp only [d2W1]
  rw [e, hp, floorW_Z]
  cases l <;> simp only [srcW1, Pl.f3, Cons.m3, Prim1.mX, Prim1.nY, Prim1.nZ, Prim1.mk.injEq, off, Bool.not_true, Bool.not_false, if_true, if_false, Bool.false_eq_true, sub_zero, true_and, and_true] <;> ring1
theorem pf3W2 (l : Bool) (j i : ℤ) : d2W2 M q P.f3 l j i = (d2W2 M q P l j i).nY := by
  have e : M.lr q.dt q.dx2 1 (fun m => M.c2p1 (load2 ((P.f3).U (j+m) i)) ((P.f3).U (j+m) i).B2c) (fun m => ((P.f3).U (j+m) i).B2c) =
      ((M.lr q.dt q.dx2 1 (fun m => M.c2p1 (load2 (P.U (j+m) i)) (P.U (j+m) i).B2c) (fun m => (P.U (j+m) i).B2c)).1.nY, (M.lr q.dt q.dx2 1 (fun m => M.c2p1 (load2 (P.U (j+m) i)) (P.U (j+m) i).B2c) (fun m => (P.U (j+m) i).B2c)).2.nY) := by
    rw [← hM.lrY]
    simp only [Pl.f3, load2_m3, ← hM.toY]; rfl
  have hp : ∀ p : Prim1 ℝ ns × Prim1 ℝ ns, pick l (p.1.nY, p.2.nY) = (pick l p).nY := by intro p; cases l <;> rfl
  simp only [d2W2]
  rw [e, hp, floorW_Y]
  cases l <;> simp only [srcW2, Pl.f3, Cons.m3, Prim1.mX, Prim1.nY, Prim1.nZ, Prim1.mk.injEq, off, Bool.not_true, Bool.not_false, if_true, if_false, Bool.false_eq_true, sub_zero, true_and, and_true] <;> ring1
theorem pf3U1 (l : Bool) (j i : ℤ) : d2U1 M q P.f3 l j i = (d2U1 M q P l j i).nZ := by
  simp only [d2U1, pf3W1 hM]; exact hM.ofZ _ _
theorem pf3U2 (l : Bool) (j i : ℤ) : d2U2 M q P.f3 l j i = (d2U2 M q P l j i).nY := by
  simp only [d2U2, pf3W2 hM]; exact hM.ofY _ _
theorem pf3D1 (j i : ℤ) : d2F1 M q P.f3 j i = (d2F1 M q P j i).nZ := by
  simp only [d2F1, pf3U1 hM, pf3W1 hM]; exact hM.fluxZ _ _ _ _ _
theorem pf3D2 (j i : ℤ) : d2F2 M q P.f3 j i = (d2F2 M q P j i).nY := by
  simp only [d2F2, pf3U2 hM, pf3W2 hM]; exact hM.fluxY _ _ _ _ _
theorem pf3dEmf (j i : ℤ) : d2Emf M q P.f3 j i = d2Emf M q P j i := 
  pf3corner (c := fun j i => eccC (P.U j i)) (pf3D1 hM q P) (pf3D2 hM q P) (fun j i => by simp only [Pl.f3, eccC, Cons.m3]) j i
theorem pf3B1h (j i : ℤ) : d2B1h M q P.f3 j i = d2B1h M q P j i := by
  simp only [d2B1h, cB1, pf3dEmf hM]; simp only [Pl.f3]
theorem pf3B2h (j i : ℤ) : d2B2h M q P.f3 j i = d2B2h M q P j i := by
  simp only [d2B2h, cB2, pf3dEmf hM]; simp only [Pl.f3]
theorem pf3U1' (l : Bool) (j i : ℤ) : d2U1' M q P.f3 l j i = (d2U1' M q P l j i).nZ := by
  simp only [d2U1', pf3D2 hM, pf3U1 hM]
  rw [← floorU_Z]
  refine congrArg (floorU M) (mhd1_Z (u := _) ?_ ?_ ?_)
  · cases l <;> simp only [Pl.f3, off, Bool.not_true, Bool.not_false, if_true, if_false, Bool.false_eq_true, sub_zero]
  · cases l <;> simp only [Pl.f3, off, Bool.not_true, Bool.not_false, if_true, if_false, Bool.false_eq_true, sub_zero]
  · rw [← trans1_Z]
theorem pf3U2' (l : Bool) (j i : ℤ) : d2U2' M q P.f3 l j i = (d2U2' M q P l j i).nY := by
  simp only [d2U2', pf3D1 hM, pf3U2 hM]
  rw [← floorU_Y]
  refine congrArg (floorU M) (mhd2_Y (u := _) ?_ ?_ ?_)
  · cases l <;> simp only [Pl.f3, off, Bool.not_true, Bool.not_false, if_true, if_false, Bool.false_eq_true, sub_zero]
  · cases l <;> simp only [Pl.f3, off, Bool.not_true, Bool.not_false, if_true, if_false, Bool.false_eq_true, sub_zero]
  · rw [← trans2_Y]
theorem pf3Ech (j i : ℤ) : d2Ecc' M q P.f3 j i = (d2Ecc' M q P) j i := by
  simp only [d2Ecc', pf3D1 hM, pf3D2 hM, pf3B1h hM, pf3B2h hM]
  simp only [eccH, Pl.f3, Cons.m3, Cons1.fX, Cons1.nY, Cons1.nZ]
theorem pf3H1 (j i : ℤ) : d2G1 M q P.f3 j i = (d2G1 M q P j i).nZ := by
  simp only [d2G1, pf3U1' hM, pf3B1h hM]; exact fluxC_Z hM _ _ _
theorem pf3H2 (j i : ℤ) : d2G2 M q P.f3 j i = (d2G2 M q P j i).nY := by
  simp only [d2G2, pf3U2' hM, pf3B2h hM]; exact fluxC_Y hM _ _ _
theorem pf3dEmf' (j i : ℤ) : d2Emf' M q P.f3 j i = d2Emf' M q P j i := 
  pf3corner (pf3H1 hM q P) (pf3H2 hM q P) (pf3Ech hM q P) j i

omit P in
theorem latt2_f3 (K : Kind) (L : St ℝ ns) : latt M K .d2 q L.flip3 = (latt M K .d2 q L).flip3 := by
  cases K
  · exact pf3lat q L (fun k => pf3G1 hM q (plane L k)) (fun k => pf3G2 hM q (plane L k)) (fun k => pf3Emf' hM q (plane L k))
  · exact pf3lat q L (fun k => pf3H1 hM q (plane L k)) (fun k => pf3H2 hM q (plane L k)) (fun k => pf3dEmf' hM q (plane L k))
end Sf3

end Athena.Gen
