import Verif.Cyl.Vl3Props
import Mathlib.Tactic.SplitIfs

/-!
# C91: a uniform medium at rest stays at rest in cylindrical coordinates

The outward push of the pressure in a wedge, `(rsf - lsf)·P`, must cancel the geometric source term exactly, in the
predictor and in the corrector.
-/

namespace Athena.Cyl
open Athena.Vl3

variable {W : Type} {ns : ℕ}

/-! ## Specification -/

/-- The flux through a face of a medium at rest: only the pressure. -/
def push (p : ℝ) : Cons1 ℝ ns := ⟨0, p, 0, 0, 0, 0, 0, fun _ => 0⟩

/-- The zone is at rest, with no field but a vertical one. -/
structure AtRest (u : Cons ℝ ns) : Prop where
  M1 : u.M1 = 0
  M2 : u.M2 = 0
  M3 : u.M3 = 0
  B1 : u.B1c = 0
  B2 : u.B2c = 0

/-- What the functions called by the integrator must do with the medium `u`: the conversions to primitive variables find
no velocity and keep the vertical field out of the way, the reconstruction of constant data returns them, and the
Riemann solver between equal states at rest returns the total pressure, which across the field is that of
the geometric source term. -/
structure Sound (P : Phys) (M : CMethod W ns) (u : Cons ℝ ns) (w1 w2 w3 : W) (p3 : ℝ) : Prop where
  v1 : (M.c2p u).V1 = 0
  v2 : (M.c2p u).V2 = 0
  v3 : (M.c2p u).V3 = 0
  c1 : M.c2p1 (load1 u) 0 = w1
  c2 : M.c2p1 (load2 u) 0 = w2
  c3 : M.c2p1 (load3 u) u.B3c = w3
  f1 : M.flux (M.p2c1 w1 0) (M.p2c1 w1 0) w1 w1 0 = push (ptot P u)
  f2 : M.flux (M.p2c1 w2 0) (M.p2c1 w2 0) w2 w2 0 = push (ptot P u)
  f3 : M.flux (M.p2c1 w3 u.B3c) (M.p2c1 w3 u.B3c) w3 w3 u.B3c = push p3
  l1 : ∀ i w b, (∀ m : ℤ, -3 ≤ m → m ≤ 2 → w m = w1 ∧ b m = 0) → M.lr1 i w b = (w1, w1)
  l2 : ∀ w b, (∀ m : ℤ, -3 ≤ m → m ≤ 2 → w m = w2 ∧ b m = 0) → M.lr 1 w b = (w2, w2)
  l3 : ∀ w b, (∀ m : ℤ, -3 ≤ m → m ≤ 2 → w m = w3 ∧ b m = u.B3c) → M.lr 2 w b = (w3, w3)

/-- Index `a` is in the range of active zones extended by `n`. -/
def Near (l u n a : ℤ) : Prop := l - n ≤ a ∧ a ≤ u + n

/-- All active and ghost zones hold the medium `u`. -/
structure Filled (g : Rng) (S : St ℝ ns) (u : Cons ℝ ns) : Prop where
  U : ∀ k j i, Near g.ks g.ke g.ng k → Near g.js g.je g.ng j → Near g.is g.ie g.ng i → S.U k j i = u
  B1 : ∀ k j i, Near g.ks g.ke g.ng k → Near g.js g.je g.ng j → g.is - (g.ng - 1) ≤ i → i ≤ g.ie + g.ng → S.B1i k j i = 0
  B2 : ∀ k j i, Near g.ks g.ke g.ng k → g.js - (g.ng - 1) ≤ j → j ≤ g.je + g.ng → Near g.is g.ie g.ng i → S.B2i k j i = 0
  B3 : ∀ k j i, g.ks - (g.ng - 1) ≤ k → k ≤ g.ke + g.ng → Near g.js g.je g.ng j → Near g.is g.ie g.ng i → S.B3i k j i = u.B3c

/-! ## The formulas on the medium -/

theorem upwind_zero (m : ℝ) : upwind m 0 0 0 = (0:ℝ) := by unfold upwind; split_ifs <;> rfl

theorem rsf_lsf {G : Geo} {g : Rng} {i : ℤ} (hr : r G g i ≠ 0) : rsf G g i - lsf G g i = G.dx1 / r G g i := by
  unfold rsf lsf; rw [ri_succ]; field_simp; ring

theorem zone_rest (P : Phys) {G : Geo} {g : Rng} {i : ℤ} (hr : r G g i ≠ 0) (h1 : G.dx1 ≠ 0) (h : ℝ) {u : Cons ℝ ns} (hu : AtRest u)
    (p3 : ℝ) (B1 B2 B3 : Arr ℝ) {k j : ℤ} (hB1 : B1 k j i = 0) (hB1' : B1 k j (i+1) = 0) (hB2 : B2 k j i = 0) (hB2' : B2 k (j+1) i = 0)
    (hB3 : B3 k j i = u.B3c) (hB3' : B3 (k+1) j i = u.B3c) :
    geom P G g h u i (cupd3 G h (push p3) (push p3) (cupd2 G g h (push (ptot P u)) (push (ptot P u)) i
      (cupd1 G g h (push (ptot P u)) (push (ptot P u)) i (cavgB G g B1 B2 B3 k j i u)))) = u := by
  have e := rsf_lsf (G := G) (g := g) (i := i) hr
  have hm : h / G.dx1 * (rsf G g i * ptot P u - lsf G g i * ptot P u) = h * ptot P u / r G g i := by
    rw [← sub_mul, e]; field_simp
  ext
  · simp [geom, cupd3, cupd2, cupd1, cavgB, upd3, upd2, push]
  · simp only [geom, cupd3, cupd2, cupd1, cavgB, upd3, upd2, push, hm, hu.M1, hu.M2, hu.B2]; ring
  · simp [geom, cupd3, cupd2, cupd1, cavgB, upd3, upd2, push]
  · simp [geom, cupd3, cupd2, cupd1, cavgB, upd3, upd2, push]
  · simp [geom, cupd3, cupd2, cupd1, cavgB, upd3, upd2, push]
  · simp [geom, cupd3, cupd2, cupd1, cavgB, upd3, upd2, hB1, hB1', hu.B1]
  · simp [geom, cupd3, cupd2, cupd1, cavgB, upd3, upd2, hB2, hB2', hu.B2]
  · simp only [geom, cupd3, cupd2, cupd1, cavgB, upd3, upd2, hB3, hB3']; ring
  · simp [geom, cupd3, cupd2, cupd1, cavgB, upd3, upd2, push]

/-- The same in the order of the last steps. -/
theorem zone_rest' (P : Phys) {G : Geo} {g : Rng} {i : ℤ} (hr : r G g i ≠ 0) (h1 : G.dx1 ≠ 0) (h : ℝ) {u : Cons ℝ ns} (hu : AtRest u)
    (p3 : ℝ) (B1 B2 B3 : Arr ℝ) {k j : ℤ} (hB1 : B1 k j i = 0) (hB1' : B1 k j (i+1) = 0) (hB2 : B2 k j i = 0) (hB2' : B2 k (j+1) i = 0)
    (hB3 : B3 k j i = u.B3c) (hB3' : B3 (k+1) j i = u.B3c) :
    cupd3 G h (push p3) (push p3) (cupd2 G g h (push (ptot P u)) (push (ptot P u)) i
      (cupd1 G g h (push (ptot P u)) (push (ptot P u)) i (geom P G g h u i (cavgB G g B1 B2 B3 k j i u)))) = u := by
  refine Eq.trans ?_ (zone_rest P hr h1 h hu p3 B1 B2 B3 hB1 hB1' hB2 hB2' hB3 hB3')
  ext <;> simp only [geom, cupd3, cupd2, cupd1, cavgB, upd3, upd2]
  ring

/-! ## The arrays of the integrator -/

section
variable {P : Phys} {G : Geo} {dt : ℝ} {M : CMethod W ns} {g : Rng} {S : St ℝ ns} {J : Work ℝ W ns} {u : Cons ℝ ns}
  {w1 w2 w3 : W} {p3 : ℝ} (hM : Sound P M u w1 w2 w3 p3) (hu : AtRest u) (hg : g.Ok) (hS : Filled g S u)
include hM hu hg hS

theorem rFlux1 {k j i : ℤ} (h1 : g.ks - g.ng ≤ k) (h2 : k ≤ g.ke + g.ng) (h3 : g.js - g.ng ≤ j) (h4 : j ≤ g.je + g.ng)
    (h5 : g.is - (g.ng - 1) ≤ i) (h6 : i ≤ g.ie + g.ng) : xFlux1 M.toMethod g S J k j i = push (ptot P u) := by
  rw [xFlux1, loop3_in _ _ h1 h2 h3 h4 h5 h6, hS.U k j (i-1) ⟨h1, h2⟩ ⟨h3, h4⟩ ⟨by omega, by omega⟩,
    hS.U k j i ⟨h1, h2⟩ ⟨h3, h4⟩ ⟨by omega, h6⟩, hS.B1 k j i ⟨h1, h2⟩ ⟨h3, h4⟩ h5 h6, hu.B1]
  simp only [flux1st, hM.c1, hM.f1]
theorem rFlux2 {k j i : ℤ} (h1 : g.ks - g.ng ≤ k) (h2 : k ≤ g.ke + g.ng) (h3 : g.js - (g.ng - 1) ≤ j) (h4 : j ≤ g.je + g.ng)
    (h5 : g.is - g.ng ≤ i) (h6 : i ≤ g.ie + g.ng) : xFlux2 M.toMethod g S J k j i = push (ptot P u) := by
  rw [xFlux2, loop3_in _ _ h1 h2 h3 h4 h5 h6, hS.U k (j-1) i ⟨h1, h2⟩ ⟨by omega, by omega⟩ ⟨h5, h6⟩,
    hS.U k j i ⟨h1, h2⟩ ⟨by omega, h4⟩ ⟨h5, h6⟩, hS.B2 k j i ⟨h1, h2⟩ h3 h4 ⟨h5, h6⟩, hu.B2]
  simp only [flux1st, hM.c2, hM.f2]
theorem rFlux3 {k j i : ℤ} (h1 : g.ks - (g.ng - 1) ≤ k) (h2 : k ≤ g.ke + g.ng) (h3 : g.js - g.ng ≤ j) (h4 : j ≤ g.je + g.ng)
    (h5 : g.is - g.ng ≤ i) (h6 : i ≤ g.ie + g.ng) : xFlux3 M.toMethod g S J k j i = push p3 := by
  rw [xFlux3, loop3_in _ _ h1 h2 h3 h4 h5 h6, hS.U (k-1) j i ⟨by omega, by omega⟩ ⟨h3, h4⟩ ⟨h5, h6⟩,
    hS.U k j i ⟨by omega, h2⟩ ⟨h3, h4⟩ ⟨h5, h6⟩, hS.B3 k j i h1 h2 ⟨h3, h4⟩ ⟨h5, h6⟩]
  simp only [flux1st, hM.c3, hM.f3]

theorem rEcc {k j i : ℤ} (h1 : g.ks - g.ng ≤ k) (h2 : k ≤ g.ke + g.ng) (h3 : g.js - g.ng ≤ j) (h4 : j ≤ g.je + g.ng)
    (h5 : g.is - g.ng ≤ i) (h6 : i ≤ g.ie + g.ng) : xEcc1 M.toMethod g S J k j i = 0 ∧ xEcc2 M.toMethod g S J k j i = 0 ∧
      xEcc3 M.toMethod g S J k j i = 0 := by
  refine ⟨?_, ?_, ?_⟩
  · rw [xEcc1, loop3_in _ _ h1 h2 h3 h4 h5 h6, hS.U k j i ⟨h1, h2⟩ ⟨h3, h4⟩ ⟨h5, h6⟩, ecc1, hM.v3, hM.v2]; ring
  · rw [xEcc2, loop3_in _ _ h1 h2 h3 h4 h5 h6, hS.U k j i ⟨h1, h2⟩ ⟨h3, h4⟩ ⟨h5, h6⟩, ecc2, hM.v1, hM.v3]; ring
  · rw [xEcc3, loop3_in _ _ h1 h2 h3 h4 h5 h6, hS.U k j i ⟨h1, h2⟩ ⟨h3, h4⟩ ⟨h5, h6⟩, ecc3, hM.v1, hM.v2]; ring

omit hM hu hg hS in
theorem corner1_zero {F2 F3 : Arr (Cons1 ℝ ns)} {c : Arr ℝ} {k j i : ℤ} {p q : ℝ} (a1 : F2 (k-1) j i = push p) (a2 : F2 k j i = push p)
    (b1 : F3 k (j-1) i = push q) (b2 : F3 k j i = push q) (c1 : c (k-1) (j-1) i = 0) (c2 : c (k-1) j i = 0) (c3 : c k (j-1) i = 0)
    (c4 : c k j i = 0) : corner1 F2 F3 c k j i = 0 := by
  simp [corner1, a1, a2, b1, b2, c1, c2, c3, c4, push, upwind_zero]
omit hM hu hg hS in
theorem corner2_zero {F1 F3 : Arr (Cons1 ℝ ns)} {c : Arr ℝ} {k j i : ℤ} {p q : ℝ} (a1 : F1 (k-1) j i = push p) (a2 : F1 k j i = push p)
    (b1 : F3 k j (i-1) = push q) (b2 : F3 k j i = push q) (c1 : c (k-1) j (i-1) = 0) (c2 : c (k-1) j i = 0) (c3 : c k j (i-1) = 0)
    (c4 : c k j i = 0) : corner2 F1 F3 c k j i = 0 := by
  simp [corner2, a1, a2, b1, b2, c1, c2, c3, c4, push, upwind_zero]
omit hM hu hg hS in
theorem corner3_zero {F1 F2 : Arr (Cons1 ℝ ns)} {c : Arr ℝ} {k j i : ℤ} {p q : ℝ} (a1 : F1 k (j-1) i = push p) (a2 : F1 k j i = push p)
    (b1 : F2 k j (i-1) = push q) (b2 : F2 k j i = push q) (c1 : c k (j-1) (i-1) = 0) (c2 : c k (j-1) i = 0) (c3 : c k j (i-1) = 0)
    (c4 : c k j i = 0) : ccorner3 G g F1 F2 c k j i = 0 := by
  simp [ccorner3, a1, a2, b1, b2, c1, c2, c3, c4, push, upwind_zero]

theorem rEmf1 {k j i : ℤ} (h1 : g.ks - (g.ng - 1) ≤ k) (h2 : k ≤ g.ke + g.ng) (h3 : g.js - (g.ng - 1) ≤ j) (h4 : j ≤ g.je + g.ng)
    (h5 : g.is - (g.ng - 1) ≤ i) (h6 : i ≤ g.ie + (g.ng - 1)) : xEmf1 M.toMethod g S J k j i = 0 := by
  rw [xEmf1, cornerLoop1, loop3_in _ _ h1 (by omega) h3 (by omega) h5 h6]
  have f2 := @rFlux2 W ns P M g S J u w1 w2 w3 p3 hM hu hg hS
  have f3 := @rFlux3 W ns P M g S J u w1 w2 w3 p3 hM hu hg hS
  have e := @rEcc W ns P M g S J u w1 w2 w3 p3 hM hu hg hS
  apply corner1_zero (p := ptot P u) (q := p3)
  · exact f2 (by omega) (by omega) (by omega) (by omega) (by omega) (by omega)
  · exact f2 (by omega) (by omega) (by omega) (by omega) (by omega) (by omega)
  · exact f3 (by omega) (by omega) (by omega) (by omega) (by omega) (by omega)
  · exact f3 (by omega) (by omega) (by omega) (by omega) (by omega) (by omega)
  · exact (e (by omega) (by omega) (by omega) (by omega) (by omega) (by omega)).1
  · exact (e (by omega) (by omega) (by omega) (by omega) (by omega) (by omega)).1
  · exact (e (by omega) (by omega) (by omega) (by omega) (by omega) (by omega)).1
  · exact (e (by omega) (by omega) (by omega) (by omega) (by omega) (by omega)).1
theorem rEmf2 {k j i : ℤ} (h1 : g.ks - (g.ng - 1) ≤ k) (h2 : k ≤ g.ke + g.ng) (h3 : g.js - (g.ng - 1) ≤ j) (h4 : j ≤ g.je + (g.ng - 1))
    (h5 : g.is - (g.ng - 1) ≤ i) (h6 : i ≤ g.ie + g.ng) : xEmf2 M.toMethod g S J k j i = 0 := by
  rw [xEmf2, cornerLoop2, loop3_in _ _ h1 (by omega) h3 (by omega) h5 (by omega)]
  have f1 := @rFlux1 W ns P M g S J u w1 w2 w3 p3 hM hu hg hS
  have f3 := @rFlux3 W ns P M g S J u w1 w2 w3 p3 hM hu hg hS
  have e := @rEcc W ns P M g S J u w1 w2 w3 p3 hM hu hg hS
  apply corner2_zero (p := ptot P u) (q := p3)
  · exact f1 (by omega) (by omega) (by omega) (by omega) (by omega) (by omega)
  · exact f1 (by omega) (by omega) (by omega) (by omega) (by omega) (by omega)
  · exact f3 (by omega) (by omega) (by omega) (by omega) (by omega) (by omega)
  · exact f3 (by omega) (by omega) (by omega) (by omega) (by omega) (by omega)
  · exact (e (by omega) (by omega) (by omega) (by omega) (by omega) (by omega)).2.1
  · exact (e (by omega) (by omega) (by omega) (by omega) (by omega) (by omega)).2.1
  · exact (e (by omega) (by omega) (by omega) (by omega) (by omega) (by omega)).2.1
  · exact (e (by omega) (by omega) (by omega) (by omega) (by omega) (by omega)).2.1
theorem rEmf3 {k j i : ℤ} (h1 : g.ks - (g.ng - 1) ≤ k) (h2 : k ≤ g.ke + (g.ng - 1)) (h3 : g.js - (g.ng - 1) ≤ j) (h4 : j ≤ g.je + g.ng)
    (h5 : g.is - (g.ng - 1) ≤ i) (h6 : i ≤ g.ie + g.ng) : cEmf3 G M g S J k j i = 0 := by
  rw [cEmf3, ccornerLoop3, loop3_in _ _ h1 h2 h3 (by omega) h5 (by omega)]
  have f1 := @rFlux1 W ns P M g S J u w1 w2 w3 p3 hM hu hg hS
  have f2 := @rFlux2 W ns P M g S J u w1 w2 w3 p3 hM hu hg hS
  have e := @rEcc W ns P M g S J u w1 w2 w3 p3 hM hu hg hS
  apply corner3_zero (p := ptot P u) (q := ptot P u)
  · exact f1 (by omega) (by omega) (by omega) (by omega) (by omega) (by omega)
  · exact f1 (by omega) (by omega) (by omega) (by omega) (by omega) (by omega)
  · exact f2 (by omega) (by omega) (by omega) (by omega) (by omega) (by omega)
  · exact f2 (by omega) (by omega) (by omega) (by omega) (by omega) (by omega)
  · exact (e (by omega) (by omega) (by omega) (by omega) (by omega) (by omega)).2.2
  · exact (e (by omega) (by omega) (by omega) (by omega) (by omega) (by omega)).2.2
  · exact (e (by omega) (by omega) (by omega) (by omega) (by omega) (by omega)).2.2
  · exact (e (by omega) (by omega) (by omega) (by omega) (by omega) (by omega)).2.2

theorem rB1F {k j i : ℤ} (h1 : g.ks - (g.ng - 1) ≤ k) (h2 : k ≤ g.ke + (g.ng - 1)) (h3 : g.js - (g.ng - 1) ≤ j) (h4 : j ≤ g.je + (g.ng - 1))
    (h5 : g.is - (g.ng - 1) ≤ i) (h6 : i ≤ g.ie + g.ng) : cB1F G dt M g S J k j i = 0 := by
  have e2 := @rEmf2 W ns P M g S J u w1 w2 w3 p3 hM hu hg hS
  have e3 := @rEmf3 W ns P G M g S J u w1 w2 w3 p3 hM hu hg hS
  rw [cB1F, addFaces1_in _ _ h1 h2 h3 h4 h5 (by omega), copyIn, loop3_in _ _ (by omega) (by omega) (by omega) (by omega) (by omega) (by omega),
    hS.B1 k j i ⟨by omega, by omega⟩ ⟨by omega, by omega⟩ h5 h6, cct1, ct1,
    e2 (k := k+1) (by omega) (by omega) h3 h4 h5 h6, e2 (k := k) (by omega) (by omega) h3 h4 h5 h6,
    e3 (j := j+1) h1 h2 (by omega) (by omega) h5 h6, e3 (j := j) h1 h2 (by omega) (by omega) h5 h6]
  ring
theorem rB2F {k j i : ℤ} (h1 : g.ks - (g.ng - 1) ≤ k) (h2 : k ≤ g.ke + (g.ng - 1)) (h3 : g.js - (g.ng - 1) ≤ j) (h4 : j ≤ g.je + g.ng)
    (h5 : g.is - (g.ng - 1) ≤ i) (h6 : i ≤ g.ie + (g.ng - 1)) : cB2F G dt M g S J k j i = 0 := by
  have e1 := @rEmf1 W ns P M g S J u w1 w2 w3 p3 hM hu hg hS
  have e3 := @rEmf3 W ns P G M g S J u w1 w2 w3 p3 hM hu hg hS
  rw [cB2F, addFaces2_in _ _ h1 h2 h3 (by omega) h5 h6, copyIn, loop3_in _ _ (by omega) (by omega) (by omega) (by omega) (by omega) (by omega),
    hS.B2 k j i ⟨by omega, by omega⟩ h3 h4 ⟨by omega, by omega⟩, cct2, ct2,
    e3 (i := i+1) h1 h2 h3 h4 (by omega) (by omega), e3 (i := i) h1 h2 h3 h4 (by omega) (by omega),
    e1 (k := k+1) (by omega) (by omega) h3 h4 h5 h6, e1 (k := k) (by omega) (by omega) h3 h4 h5 h6]
  ring
theorem rB3F {k j i : ℤ} (h1 : g.ks - (g.ng - 1) ≤ k) (h2 : k ≤ g.ke + g.ng) (h3 : g.js - (g.ng - 1) ≤ j) (h4 : j ≤ g.je + (g.ng - 1))
    (h5 : g.is - (g.ng - 1) ≤ i) (h6 : i ≤ g.ie + (g.ng - 1)) : cB3F G dt M g S J k j i = u.B3c := by
  have e1 := @rEmf1 W ns P M g S J u w1 w2 w3 p3 hM hu hg hS
  have e2 := @rEmf2 W ns P M g S J u w1 w2 w3 p3 hM hu hg hS
  rw [cB3F, addFaces3_in _ _ h1 (by omega) h3 h4 h5 h6, copyIn, loop3_in _ _ (by omega) (by omega) (by omega) (by omega) (by omega) (by omega),
    hS.B3 k j i h1 h2 ⟨by omega, by omega⟩ ⟨by omega, by omega⟩, cct3,
    e1 (j := j+1) h1 h2 (by omega) (by omega) h5 h6, e1 (j := j) h1 h2 (by omega) (by omega) h5 h6,
    e2 (i := i+1) h1 h2 h3 h4 (by omega) (by omega), e2 (i := i) h1 h2 h3 h4 (by omega) (by omega)]
  ring

variable (hP : P.pot = none) (h1' : G.dx1 ≠ 0) (hr : ∀ i, g.is - (g.ng - 1) ≤ i → i ≤ g.ie + (g.ng - 1) → r G g i ≠ 0)
include hP h1' hr

theorem rUhalf {k j i : ℤ} (h1 : g.ks - (g.ng - 1) ≤ k) (h2 : k ≤ g.ke + (g.ng - 1)) (h3 : g.js - (g.ng - 1) ≤ j) (h4 : j ≤ g.je + (g.ng - 1))
    (h5 : g.is - (g.ng - 1) ≤ i) (h6 : i ≤ g.ie + (g.ng - 1)) : cUhalf P G dt M g S J k j i = u := by
  have f1 := @rFlux1 W ns P M g S J u w1 w2 w3 p3 hM hu hg hS
  have f2 := @rFlux2 W ns P M g S J u w1 w2 w3 p3 hM hu hg hS
  have f3 := @rFlux3 W ns P M g S J u w1 w2 w3 p3 hM hu hg hS
  have b1 := @rB1F W ns P G dt M g S J u w1 w2 w3 p3 hM hu hg hS
  have b2 := @rB2F W ns P G dt M g S J u w1 w2 w3 p3 hM hu hg hS
  have b3 := @rB3F W ns P G dt M g S J u w1 w2 w3 p3 hM hu hg hS
  simp only [cUhalf]
  rw [halfLoop_in _ _ (by omega) (by omega) (by omega) (by omega) (by omega) (by omega), halfLoop_in _ _ (by omega) (by omega) (by omega) (by omega) (by omega) (by omega), halfLoop_in _ _ (by omega) (by omega) (by omega) (by omega) (by omega) (by omega),
    halfLoop_in _ _ (by omega) (by omega) (by omega) (by omega) (by omega) (by omega), halfLoop_in _ _ (by omega) (by omega) (by omega) (by omega) (by omega) (by omega), halfLoop_in _ _ (by omega) (by omega) (by omega) (by omega) (by omega) (by omega),
    copyIn, loop3_in _ _ (by omega) (by omega) (by omega) (by omega) (by omega) (by omega),
    hS.U k j i ⟨by omega, by omega⟩ ⟨by omega, by omega⟩ ⟨by omega, by omega⟩,
    f1 (i := i+1) (by omega) (by omega) (by omega) (by omega) (by omega) (by omega),
    f1 (i := i) (by omega) (by omega) (by omega) (by omega) (by omega) (by omega),
    f2 (j := j+1) (by omega) (by omega) (by omega) (by omega) (by omega) (by omega),
    f2 (j := j) (by omega) (by omega) (by omega) (by omega) (by omega) (by omega),
    f3 (k := k+1) (by omega) (by omega) (by omega) (by omega) (by omega) (by omega),
    f3 (k := k) (by omega) (by omega) (by omega) (by omega) (by omega) (by omega)]
  simp only [grav, hP]
  exact zone_rest P (hr i h5 h6) h1' _ hu p3 _ _ _ (b1 h1 h2 h3 h4 h5 (by omega)) (b1 h1 h2 h3 h4 (by omega) (by omega))
    (b2 h1 h2 h3 (by omega) h5 h6) (b2 h1 h2 (by omega) (by omega) h5 h6) (b3 h1 (by omega) h3 h4 h5 h6)
    (b3 (by omega) (by omega) h3 h4 h5 h6)

theorem sFlux1c {k j i : ℤ} (h1 : g.ks - 1 ≤ k) (h2 : k ≤ g.ke + 1) (h3 : g.js - 1 ≤ j) (h4 : j ≤ g.je + 1)
    (h5 : g.is ≤ i) (h6 : i ≤ g.ie + 1) : cFlux1 P G dt M g S J k j i = push (ptot P u) := by
  have hng := hg.hng
  have U := @rUhalf W ns P G dt M g S J u w1 w2 w3 p3 hM hu hg hS hP h1' hr
  have b1 := @rB1F W ns P G dt M g S J u w1 w2 w3 p3 hM hu hg hS
  have L : cLR1 P G dt M g S J k j i = (w1, w1) := by
    simp only [cLR1]
    refine hM.l1 i _ _ fun m m1 m2 => ?_
    rw [loop1_in _ _ (by omega) (by omega), loop1_in _ _ (by omega) (by omega)]
    rw [U (by omega) (by omega) (by omega) (by omega) (by omega) (by omega), hu.B1]
    exact ⟨hM.c1, rfl⟩
  rw [cFlux1, loop3_in _ _ h1 h2 h3 h4 h5 h6, L, b1 (by omega) (by omega) (by omega) (by omega) (by omega) (by omega), flux2nd, hM.f1]
theorem sFlux2c {k j i : ℤ} (h1 : g.ks - 1 ≤ k) (h2 : k ≤ g.ke + 1) (h3 : g.js ≤ j) (h4 : j ≤ g.je + 1)
    (h5 : g.is - 1 ≤ i) (h6 : i ≤ g.ie + 1) : cFlux2 P G dt M g S J k j i = push (ptot P u) := by
  have hng := hg.hng
  have U := @rUhalf W ns P G dt M g S J u w1 w2 w3 p3 hM hu hg hS hP h1' hr
  have b2 := @rB2F W ns P G dt M g S J u w1 w2 w3 p3 hM hu hg hS
  have L : cLR2 P G dt M g S J k j i = (w2, w2) := by
    simp only [cLR2]
    refine hM.l2 _ _ fun m m1 m2 => ?_
    rw [loop1_in _ _ (by omega) (by omega), loop1_in _ _ (by omega) (by omega)]
    rw [U (by omega) (by omega) (by omega) (by omega) (by omega) (by omega), hu.B2]
    exact ⟨hM.c2, rfl⟩
  rw [cFlux2, loop3_in _ _ h1 h2 h3 h4 h5 h6, L, b2 (by omega) (by omega) (by omega) (by omega) (by omega) (by omega), flux2nd, hM.f2]
theorem sFlux3c {k j i : ℤ} (h1 : g.ks ≤ k) (h2 : k ≤ g.ke + 1) (h3 : g.js - 1 ≤ j) (h4 : j ≤ g.je + 1)
    (h5 : g.is - 1 ≤ i) (h6 : i ≤ g.ie + 1) : cFlux3 P G dt M g S J k j i = push p3 := by
  have hng := hg.hng
  have U := @rUhalf W ns P G dt M g S J u w1 w2 w3 p3 hM hu hg hS hP h1' hr
  have b3 := @rB3F W ns P G dt M g S J u w1 w2 w3 p3 hM hu hg hS
  have L : cLR3 P G dt M g S J k j i = (w3, w3) := by
    simp only [cLR3]
    refine hM.l3 _ _ fun m m1 m2 => ?_
    rw [loop1_in _ _ (by omega) (by omega), loop1_in _ _ (by omega) (by omega)]
    rw [U (by omega) (by omega) (by omega) (by omega) (by omega) (by omega)]
    exact ⟨hM.c3, rfl⟩
  rw [cFlux3, loop3_in _ _ h1 h2 h3 h4 h5 h6, L, b3 (by omega) (by omega) (by omega) (by omega) (by omega) (by omega), flux2nd, hM.f3]

theorem sEcc {k j i : ℤ} (h1 : g.ks - 1 ≤ k) (h2 : k ≤ g.ke + 1) (h3 : g.js - 1 ≤ j) (h4 : j ≤ g.je + 1)
    (h5 : g.is - 1 ≤ i) (h6 : i ≤ g.ie + 1) : dEcc1 P G dt M g S J k j i = 0 ∧ dEcc2 P G dt M g S J k j i = 0 ∧
      dEcc3 P G dt M g S J k j i = 0 := by
  have hng := hg.hng
  have U := @rUhalf W ns P G dt M g S J u w1 w2 w3 p3 hM hu hg hS hP h1' hr
  refine ⟨?_, ?_, ?_⟩
  · rw [dEcc1, loop3_in _ _ h1 h2 h3 h4 h5 h6, U (by omega) (by omega) (by omega) (by omega) (by omega) (by omega), ecc1, hM.v3, hM.v2]; ring
  · rw [dEcc2, loop3_in _ _ h1 h2 h3 h4 h5 h6, U (by omega) (by omega) (by omega) (by omega) (by omega) (by omega), ecc2, hM.v1, hM.v3]; ring
  · rw [dEcc3, loop3_in _ _ h1 h2 h3 h4 h5 h6, U (by omega) (by omega) (by omega) (by omega) (by omega) (by omega), ecc3, hM.v1, hM.v2]; ring

theorem sEmf1c {k j i : ℤ} (h1 : g.ks ≤ k) (h2 : k ≤ g.ke + 1) (h3 : g.js ≤ j) (h4 : j ≤ g.je + 1)
    (h5 : g.is ≤ i) (h6 : i ≤ g.ie) : dEmf1 P G dt M g S J k j i = 0 := by
  have hng := hg.hng
  have f2 := @sFlux2c W ns P G dt M g S J u w1 w2 w3 p3 hM hu hg hS hP h1' hr
  have f3 := @sFlux3c W ns P G dt M g S J u w1 w2 w3 p3 hM hu hg hS hP h1' hr
  have e := @sEcc W ns P G dt M g S J u w1 w2 w3 p3 hM hu hg hS hP h1' hr
  rw [dEmf1, cornerLoop1, loop3_in _ _ (by omega) (by omega) (by omega) (by omega) (by omega) (by omega)]
  apply corner1_zero (p := ptot P u) (q := p3)
  · exact f2 (by omega) (by omega) (by omega) (by omega) (by omega) (by omega)
  · exact f2 (by omega) (by omega) (by omega) (by omega) (by omega) (by omega)
  · exact f3 (by omega) (by omega) (by omega) (by omega) (by omega) (by omega)
  · exact f3 (by omega) (by omega) (by omega) (by omega) (by omega) (by omega)
  · exact (e (by omega) (by omega) (by omega) (by omega) (by omega) (by omega)).1
  · exact (e (by omega) (by omega) (by omega) (by omega) (by omega) (by omega)).1
  · exact (e (by omega) (by omega) (by omega) (by omega) (by omega) (by omega)).1
  · exact (e (by omega) (by omega) (by omega) (by omega) (by omega) (by omega)).1
theorem sEmf2c {k j i : ℤ} (h1 : g.ks ≤ k) (h2 : k ≤ g.ke + 1) (h3 : g.js ≤ j) (h4 : j ≤ g.je)
    (h5 : g.is ≤ i) (h6 : i ≤ g.ie + 1) : dEmf2 P G dt M g S J k j i = 0 := by
  have hng := hg.hng
  have f1 := @sFlux1c W ns P G dt M g S J u w1 w2 w3 p3 hM hu hg hS hP h1' hr
  have f3 := @sFlux3c W ns P G dt M g S J u w1 w2 w3 p3 hM hu hg hS hP h1' hr
  have e := @sEcc W ns P G dt M g S J u w1 w2 w3 p3 hM hu hg hS hP h1' hr
  rw [dEmf2, cornerLoop2, loop3_in _ _ (by omega) (by omega) (by omega) (by omega) (by omega) (by omega)]
  apply corner2_zero (p := ptot P u) (q := p3)
  · exact f1 (by omega) (by omega) (by omega) (by omega) (by omega) (by omega)
  · exact f1 (by omega) (by omega) (by omega) (by omega) (by omega) (by omega)
  · exact f3 (by omega) (by omega) (by omega) (by omega) (by omega) (by omega)
  · exact f3 (by omega) (by omega) (by omega) (by omega) (by omega) (by omega)
  · exact (e (by omega) (by omega) (by omega) (by omega) (by omega) (by omega)).2.1
  · exact (e (by omega) (by omega) (by omega) (by omega) (by omega) (by omega)).2.1
  · exact (e (by omega) (by omega) (by omega) (by omega) (by omega) (by omega)).2.1
  · exact (e (by omega) (by omega) (by omega) (by omega) (by omega) (by omega)).2.1
theorem sEmf3c {k j i : ℤ} (h1 : g.ks ≤ k) (h2 : k ≤ g.ke) (h3 : g.js ≤ j) (h4 : j ≤ g.je + 1)
    (h5 : g.is ≤ i) (h6 : i ≤ g.ie + 1) : dEmf3 P G dt M g S J k j i = 0 := by
  have hng := hg.hng
  have f1 := @sFlux1c W ns P G dt M g S J u w1 w2 w3 p3 hM hu hg hS hP h1' hr
  have f2 := @sFlux2c W ns P G dt M g S J u w1 w2 w3 p3 hM hu hg hS hP h1' hr
  have e := @sEcc W ns P G dt M g S J u w1 w2 w3 p3 hM hu hg hS hP h1' hr
  rw [dEmf3, ccornerLoop3, loop3_in _ _ (by omega) (by omega) (by omega) (by omega) (by omega) (by omega)]
  apply corner3_zero (p := ptot P u) (q := ptot P u)
  · exact f1 (by omega) (by omega) (by omega) (by omega) (by omega) (by omega)
  · exact f1 (by omega) (by omega) (by omega) (by omega) (by omega) (by omega)
  · exact f2 (by omega) (by omega) (by omega) (by omega) (by omega) (by omega)
  · exact f2 (by omega) (by omega) (by omega) (by omega) (by omega) (by omega)
  · exact (e (by omega) (by omega) (by omega) (by omega) (by omega) (by omega)).2.2
  · exact (e (by omega) (by omega) (by omega) (by omega) (by omega) (by omega)).2.2
  · exact (e (by omega) (by omega) (by omega) (by omega) (by omega) (by omega)).2.2
  · exact (e (by omega) (by omega) (by omega) (by omega) (by omega) (by omega)).2.2

theorem sB1 {k j i : ℤ} (h1 : g.ks ≤ k) (h2 : k ≤ g.ke) (h3 : g.js ≤ j) (h4 : j ≤ g.je) (h5 : g.is ≤ i) (h6 : i ≤ g.ie + 1) :
    (integrateCyl P G dt M g S J).B1i k j i = 0 := by
  have hng := hg.hng
  have e2 := @sEmf2c W ns P G dt M g S J u w1 w2 w3 p3 hM hu hg hS hP h1' hr
  have e3 := @sEmf3c W ns P G dt M g S J u w1 w2 w3 p3 hM hu hg hS hP h1' hr
  simp only [integrateCyl, cfinish, finB1]
  rw [addFaces1_in _ _ h1 h2 h3 h4 h5 h6, hS.B1 k j i ⟨by omega, by omega⟩ ⟨by omega, by omega⟩ (by omega) (by omega), cct1, ct1,
    e2 (k := k+1) (by omega) (by omega) h3 h4 h5 h6, e2 (k := k) (by omega) (by omega) h3 h4 h5 h6,
    e3 (j := j+1) h1 h2 (by omega) (by omega) h5 h6, e3 (j := j) h1 h2 (by omega) (by omega) h5 h6]
  ring
theorem sB2 {k j i : ℤ} (h1 : g.ks ≤ k) (h2 : k ≤ g.ke) (h3 : g.js ≤ j) (h4 : j ≤ g.je + 1) (h5 : g.is ≤ i) (h6 : i ≤ g.ie) :
    (integrateCyl P G dt M g S J).B2i k j i = 0 := by
  have hng := hg.hng
  have e1 := @sEmf1c W ns P G dt M g S J u w1 w2 w3 p3 hM hu hg hS hP h1' hr
  have e3 := @sEmf3c W ns P G dt M g S J u w1 w2 w3 p3 hM hu hg hS hP h1' hr
  simp only [integrateCyl, cfinish, finB2]
  rw [addFaces2_in _ _ h1 h2 h3 h4 h5 h6, hS.B2 k j i ⟨by omega, by omega⟩ (by omega) (by omega) ⟨by omega, by omega⟩, cct2, ct2,
    e3 (i := i+1) h1 h2 h3 h4 (by omega) (by omega), e3 (i := i) h1 h2 h3 h4 (by omega) (by omega),
    e1 (k := k+1) (by omega) (by omega) h3 h4 h5 h6, e1 (k := k) (by omega) (by omega) h3 h4 h5 h6]
  ring
theorem sB3 {k j i : ℤ} (h1 : g.ks ≤ k) (h2 : k ≤ g.ke + 1) (h3 : g.js ≤ j) (h4 : j ≤ g.je) (h5 : g.is ≤ i) (h6 : i ≤ g.ie) :
    (integrateCyl P G dt M g S J).B3i k j i = u.B3c := by
  have hng := hg.hng
  have e1 := @sEmf1c W ns P G dt M g S J u w1 w2 w3 p3 hM hu hg hS hP h1' hr
  have e2 := @sEmf2c W ns P G dt M g S J u w1 w2 w3 p3 hM hu hg hS hP h1' hr
  simp only [integrateCyl, cfinish, finB3]
  rw [addFaces3_in _ _ h1 h2 h3 h4 h5 h6, hS.B3 k j i (by omega) (by omega) ⟨by omega, by omega⟩ ⟨by omega, by omega⟩, cct3,
    e1 (j := j+1) h1 h2 (by omega) (by omega) h5 h6, e1 (j := j) h1 h2 (by omega) (by omega) h5 h6,
    e2 (i := i+1) h1 h2 h3 h4 (by omega) (by omega), e2 (i := i) h1 h2 h3 h4 (by omega) (by omega)]
  ring

/-- **C91.** A uniform medium at rest, with uniform pressure and a uniform vertical field, is exactly unchanged by a step
in cylindrical coordinates: zones and interface fields. -/
theorem cyl_rest {k j i : ℤ} (h1 : g.ks ≤ k) (h2 : k ≤ g.ke) (h3 : g.js ≤ j) (h4 : j ≤ g.je) (h5 : g.is ≤ i) (h6 : i ≤ g.ie) :
    (integrateCyl P G dt M g S J).U k j i = u ∧
    (integrateCyl P G dt M g S J).B1i k j i = 0 ∧ (integrateCyl P G dt M g S J).B1i k j (i+1) = 0 ∧
    (integrateCyl P G dt M g S J).B2i k j i = 0 ∧ (integrateCyl P G dt M g S J).B2i k (j+1) i = 0 ∧
    (integrateCyl P G dt M g S J).B3i k j i = u.B3c ∧ (integrateCyl P G dt M g S J).B3i (k+1) j i = u.B3c := by
  have hng := hg.hng
  have f1 := @sFlux1c W ns P G dt M g S J u w1 w2 w3 p3 hM hu hg hS hP h1' hr
  have f2 := @sFlux2c W ns P G dt M g S J u w1 w2 w3 p3 hM hu hg hS hP h1' hr
  have f3 := @sFlux3c W ns P G dt M g S J u w1 w2 w3 p3 hM hu hg hS hP h1' hr
  have U := @rUhalf W ns P G dt M g S J u w1 w2 w3 p3 hM hu hg hS hP h1' hr
  have b1 := @sB1 W ns P G dt M g S J u w1 w2 w3 p3 hM hu hg hS hP h1' hr
  have b2 := @sB2 W ns P G dt M g S J u w1 w2 w3 p3 hM hu hg hS hP h1' hr
  have b3 := @sB3 W ns P G dt M g S J u w1 w2 w3 p3 hM hu hg hS hP h1' hr
  refine ⟨?_, b1 h1 h2 h3 h4 h5 (by omega), b1 h1 h2 h3 h4 (by omega) (by omega), b2 h1 h2 h3 (by omega) h5 h6,
    b2 h1 h2 (by omega) (by omega) h5 h6, b3 h1 (by omega) h3 h4 h5 h6, b3 (by omega) (by omega) h3 h4 h5 h6⟩
  rw [integrateCyl, cfinish_in _ _ _ _ _ _ _ _ _ _ _ _ h1 h2 h3 h4 h5 h6,
    hS.U k j i ⟨by omega, by omega⟩ ⟨by omega, by omega⟩ ⟨by omega, by omega⟩,
    U (by omega) (by omega) (by omega) (by omega) (by omega) (by omega),
    f1 (i := i+1) (by omega) (by omega) (by omega) (by omega) (by omega) (by omega),
    f1 (i := i) (by omega) (by omega) (by omega) (by omega) (by omega) (by omega),
    f2 (j := j+1) (by omega) (by omega) (by omega) (by omega) (by omega) (by omega),
    f2 (j := j) (by omega) (by omega) (by omega) (by omega) (by omega) (by omega),
    f3 (k := k+1) (by omega) (by omega) (by omega) (by omega) (by omega) (by omega),
    f3 (k := k) (by omega) (by omega) (by omega) (by omega) (by omega) (by omega)]
  simp only [grav, hP]
  exact zone_rest' P (hr i (by omega) (by omega)) h1' _ hu p3 _ _ _ (b1 h1 h2 h3 h4 h5 (by omega)) (b1 h1 h2 h3 h4 (by omega) (by omega))
    (b2 h1 h2 h3 (by omega) h5 h6) (b2 h1 h2 (by omega) (by omega) h5 h6) (b3 h1 (by omega) h3 h4 h5 h6)
    (b3 (by omega) (by omega) h3 h4 h5 h6)

end

end Athena.Cyl
