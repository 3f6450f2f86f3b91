import Verif.Micro.Visc
import Verif.Micro.ConductEx

/-!
# What explicit viscosity does to the state
-/

namespace Athena.Micro
open Athena.Bvals hiding Rng
open Athena.Vl3 Athena.Gen

variable {ns : ℕ}

/-- The state of an active zone after the viscous update. -/
theorem viscous_eq {w : Which} {q : Diff ns} {g : Rng} (hg : RngOk (dims w) g) (S : St ℝ ns) (J : WorkV) {k j i : ℤ} (h : Active g k j i) :
    (viscous w q g S J).U k j i = lVisc w q S k j i :=
  viscous_U (agV_of hg (agree_self _ g S)) rfl h.k0 h.k1 h.j0 h.j1 h.i0 h.i1

/-- The viscous update changes nothing but momentum and energy. -/
theorem viscous_only_ME {w : Which} {q : Diff ns} {g : Rng} (hg : RngOk (dims w) g) (S : St ℝ ns) (J : WorkV) {k j i : ℤ} (h : Active g k j i) :
    (∃ m1 m2 m3 e, (viscous w q g S J).U k j i = { S.U k j i with M1 := m1, M2 := m2, M3 := m3, E := e }) ∧
      (viscous w q g S J).B1i = S.B1i ∧ (viscous w q g S J).B2i = S.B2i ∧ (viscous w q g S J).B3i = S.B3i := by
  refine ⟨?_, rfl, rfl, rfl⟩
  rw [viscous_eq hg S J h]
  unfold lVisc addF
  dsimp only
  split_ifs <;> exact ⟨_, _, _, _, rfl⟩

/-! ### Linear flows -/

/-- Velocity gradient. -/
abbrev Grad := Fin 3 → Fin 3 → ℝ

/-- The Navier–Stokes stress over density and viscosity: twice the traceless symmetric part of the velocity gradient. -/
noncomputable def stress (G : Grad) (a b : Fin 3) : ℝ := G a b + G b a - if a = b then 2/3 * (G 0 0 + G 1 1 + G 2 2) else 0

/-- Rate of heating per density and viscosity. -/
noncomputable def heating (G : Grad) : ℝ := ∑ a, ∑ b, stress G a b * G a b

/-- The velocity is `c + G x` on the Grid, and nothing varies along directions with a single zone. -/
structure Linear (w : Which) (q : Diff ns) (c : Fin 3 → ℝ) (G : Grad) (S : St ℝ ns) : Prop where
  off : ∀ a b, dims w b = false → G a b = 0
  v1 : ∀ k j i : ℤ, (vel (S.U k j i)).x1 = c 0 + G 0 0 * (i * q.dx1) + G 0 1 * (j * q.dx2) + G 0 2 * (k * q.dx3)
  v2 : ∀ k j i : ℤ, (vel (S.U k j i)).x2 = c 1 + G 1 0 * (i * q.dx1) + G 1 1 * (j * q.dx2) + G 1 2 * (k * q.dx3)
  v3 : ∀ k j i : ℤ, (vel (S.U k j i)).x3 = c 2 + G 2 0 * (i * q.dx1) + G 2 1 * (j * q.dx2) + G 2 2 * (k * q.dx3)

theorem divv_linear {w : Which} {q : Diff ns} {c : Fin 3 → ℝ} {G : Grad} {S : St ℝ ns} (h1 : q.dx1 ≠ 0) (h2 : q.dx2 ≠ 0) (h3 : q.dx3 ≠ 0)
    (h : Linear w q c G S) (k j i : ℤ) : lDivv w q S k j i = G 0 0 + G 1 1 + G 2 2 := by
  have o1 : (if dims w 1 = true then G 1 1 else 0) = G 1 1 := by
    by_cases hw : dims w 1 = true
    · rw [if_pos hw]
    · rw [if_neg hw]; exact (h.off 1 1 (by simpa using hw)).symm
  have o2 : (if dims w 2 = true then G 2 2 else 0) = G 2 2 := by
    by_cases hw : dims w 2 = true
    · rw [if_pos hw]
    · rw [if_neg hw]; exact (h.off 2 2 (by simpa using hw)).symm
  simp only [lDivv, lVel, h.v1, h.v2, h.v3]
  push_cast
  rw [← o1, ← o2]
  congr 1
  · congr 1
    · field_simp; ring
    · by_cases hw : dims w 1 = true
      · simp only [if_pos hw]; field_simp; ring
      · simp only [if_neg hw]
  · by_cases hw : dims w 2 = true
    · simp only [if_pos hw]; field_simp; ring
    · simp only [if_neg hw]

/-- Flux of momentum and energy belonging to a stress at a point where the velocity is `v`. -/
noncomputable def spec (rho : ℝ) (t : Fin 3 → ℝ) (v : Fin 3 → ℝ) : VF :=
  ⟨rho * t 0, rho * t 1, rho * t 2, rho * (v 0 * t 0 + v 1 * t 1 + v 2 * t 2)⟩

/-- Velocity of the linear flow at a point given in zone widths. -/
noncomputable def lin (q : Diff ns) (c : Fin 3 → ℝ) (G : Grad) (z y x : ℝ) (a : Fin 3) : ℝ :=
  c a + G a 0 * (x * q.dx1) + G a 1 * (y * q.dx2) + G a 2 * (z * q.dx3)

section
variable {w : Which} {q : Diff ns} {c : Fin 3 → ℝ} {G : Grad} {S : St ℝ ns} (hn : 0 < q.nuIso) (h1 : q.dx1 ≠ 0) (h2 : q.dx2 ≠ 0) (h3 : q.dx3 ≠ 0)
  (h : Linear w q c G S)
include hn h1 h2 h3 h

/-- In a linear flow the discrete stress is the exact one, and the energy flux is the work done by it: x1-interfaces. -/
theorem linear_F1 (k j i : ℤ) : lF1 w q S k j i =
    spec (q.nuIso * (((S.U k j i).d + (S.U k j (i-1)).d) / 2)) (stress G 0) (lin q c G k j (i - 1/2)) := by
  rw [lF1, if_pos hn]
  have e : ∀ a b : ℝ, a = b → ∀ A : ℝ, A * a = A * b := fun a b h A => by rw [h]
  have sy : (if dims w 1 = true then ((lVel S k j i).x2 - (lVel S k j (i-1)).x2) / q.dx1 + 0.25 / q.dx2 * (((lVel S k (j+1) i).x1
      + (lVel S k (j+1) (i-1)).x1) - ((lVel S k (j-1) i).x1 + (lVel S k (j-1) (i-1)).x1)) else ((lVel S k j i).x2 - (lVel S k j (i-1)).x2) / q.dx1)
      = stress G 0 1 := by
    simp only [lVel, h.v1, h.v2, stress]
    push_cast
    by_cases hw : dims w 1 = true
    · rw [if_pos hw]; field_simp; norm_num; ring
    · rw [if_neg hw, h.off 0 1 (by simpa using hw)]; field_simp; norm_num; ring
  have sz : (if dims w 2 = true then ((lVel S k j i).x3 - (lVel S k j (i-1)).x3) / q.dx1 + 0.25 / q.dx3 * (((lVel S (k+1) j i).x1
      + (lVel S (k+1) j (i-1)).x1) - ((lVel S (k-1) j i).x1 + (lVel S (k-1) j (i-1)).x1)) else ((lVel S k j i).x3 - (lVel S k j (i-1)).x3) / q.dx1)
      = stress G 0 2 := by
    simp only [lVel, h.v1, h.v3, stress]
    push_cast
    by_cases hw : dims w 2 = true
    · rw [if_pos hw]; field_simp; norm_num; ring
    · rw [if_neg hw, h.off 0 2 (by simpa using hw)]; field_simp; norm_num; ring
  have sx : 2 * ((lVel S k j i).x1 - (lVel S k j (i-1)).x1) / q.dx1 - 1/3 * (lDivv w q S k j i + lDivv w q S k j (i-1)) = stress G 0 0 := by
    simp only [divv_linear h1 h2 h3 h, lVel, h.v1, stress]
    push_cast
    field_simp
    norm_num
    ring
  simp only [vis1, sx, sy, sz, stressFlux, spec]
  ext
  · ring
  · ring
  · ring
  · simp only [lVel, h.v1, h.v2, h.v3, lin]
    push_cast
    ring

/-- x2-interfaces. -/
theorem linear_F2 (hw : dims w 1 = true) (k j i : ℤ) : lF2 w q S k j i =
    spec (q.nuIso * (((S.U k j i).d + (S.U k (j-1) i).d) / 2)) (stress G 1) (lin q c G k (j - 1/2) i) := by
  rw [lF2, if_pos ⟨hn, hw⟩]
  have sx : ((lVel S k j i).x1 - (lVel S k (j-1) i).x1) / q.dx2
    + (((lVel S k j (i+1)).x2 + (lVel S k (j-1) (i+1)).x2) - ((lVel S k j (i-1)).x2 + (lVel S k (j-1) (i-1)).x2)) / (4 * q.dx1) = stress G 1 0 := by
    simp only [lVel, h.v1, h.v2, stress]
    push_cast
    field_simp; norm_num; ring
  have sy : 2 * ((lVel S k j i).x2 - (lVel S k (j-1) i).x2) / q.dx2 - 1/3 * (lDivv w q S k j i + lDivv w q S k (j-1) i) = stress G 1 1 := by
    simp only [divv_linear h1 h2 h3 h, lVel, h.v2, stress]
    push_cast
    field_simp
    norm_num
    ring
  have sz : (if dims w 2 = true then ((lVel S k j i).x3 - (lVel S k (j-1) i).x3) / q.dx2 + (((lVel S (k+1) j i).x2 + (lVel S (k+1) (j-1) i).x2)
      - ((lVel S (k-1) j i).x2 + (lVel S (k-1) (j-1) i).x2)) / (4 * q.dx3) else ((lVel S k j i).x3 - (lVel S k (j-1) i).x3) / q.dx2)
      = stress G 1 2 := by
    simp only [lVel, h.v2, h.v3, stress]
    push_cast
    by_cases hz : dims w 2 = true
    · rw [if_pos hz]; field_simp; norm_num; ring
    · rw [if_neg hz, h.off 1 2 (by simpa using hz)]; field_simp; norm_num; ring
  simp only [vis2, sx, sy, sz, stressFlux, spec]
  ext
  · ring
  · ring
  · ring
  · simp only [lVel, h.v1, h.v2, h.v3, lin]
    push_cast
    ring

/-- x3-interfaces. -/
theorem linear_F3 (hw : dims w 2 = true) (k j i : ℤ) : lF3 w q S k j i =
    spec (q.nuIso * (((S.U k j i).d + (S.U (k-1) j i).d) / 2)) (stress G 2) (lin q c G (k - 1/2) j i) := by
  rw [lF3, if_pos ⟨hn, hw⟩]
  have sx : ((lVel S k j i).x1 - (lVel S (k-1) j i).x1) / q.dx3
    + (((lVel S k j (i+1)).x3 + (lVel S (k-1) j (i+1)).x3) - ((lVel S k j (i-1)).x3 + (lVel S (k-1) j (i-1)).x3)) / (4 * q.dx1) = stress G 2 0 := by
    simp only [lVel, h.v1, h.v3, stress]
    push_cast
    field_simp; norm_num; ring
  have sy : ((lVel S k j i).x2 - (lVel S (k-1) j i).x2) / q.dx3
    + (((lVel S k (j+1) i).x3 + (lVel S (k-1) (j+1) i).x3) - ((lVel S k (j-1) i).x3 + (lVel S (k-1) (j-1) i).x3)) / (4 * q.dx2) = stress G 2 1 := by
    simp only [lVel, h.v2, h.v3, stress]
    push_cast
    field_simp; norm_num; ring
  have sz : 2 * ((lVel S k j i).x3 - (lVel S (k-1) j i).x3) / q.dx3 - 1/3 * (lDivv w q S k j i + lDivv w q S (k-1) j i) = stress G 2 2 := by
    simp only [divv_linear h1 h2 h3 h, lVel, h.v3, stress]
    push_cast
    field_simp
    norm_num
    ring
  simp only [vis3, sx, sy, sz, stressFlux, spec]
  ext
  · ring
  · ring
  · ring
  · simp only [lVel, h.v1, h.v2, h.v3, lin]
    push_cast
    ring

end

/-- **Linear flows.**  In a gas of uniform density whose velocity is a linear function of position the viscous update leaves every
momentum as it is and heats at the rate given by the Navier–Stokes equations. -/
theorem linear_flow {w : Which} {q : Diff ns} {g : Rng} (hg : RngOk (dims w) g) (hn : 0 < q.nuIso) (h1 : q.dx1 ≠ 0) (h2 : q.dx2 ≠ 0) (h3 : q.dx3 ≠ 0)
    {c : Fin 3 → ℝ} {G : Grad} (S : St ℝ ns) (J : WorkV) (h : Linear w q c G S) (D : ℝ) (hD : ∀ k j i, (S.U k j i).d = D) {k j i : ℤ}
    (ha : Active g k j i) :
    (viscous w q g S J).U k j i = { S.U k j i with E := (S.U k j i).E + q.dt * (q.nuIso * D * heating G) } := by
  rw [viscous_eq hg S J ha]
  have r : q.nuIso * ((D + D) / 2) = q.nuIso * D := by ring
  have f1 := linear_F1 hn h1 h2 h3 h
  simp only [hD, r] at f1
  have hh : heating G = stress G 0 0 * G 0 0 + stress G 0 1 * G 0 1 + stress G 0 2 * G 0 2 + (stress G 1 0 * G 1 0 + stress G 1 1 * G 1 1 + stress G 1 2 * G 1 2)
      + (stress G 2 0 * G 2 0 + stress G 2 1 * G 2 1 + stress G 2 2 * G 2 2) := by
    simp only [heating, Fin.sum_univ_three]
  have t10 : stress G 1 0 = stress G 0 1 := by simp [stress]; ring
  have t20 : stress G 2 0 = stress G 0 2 := by simp [stress]; ring
  have t21 : stress G 2 1 = stress G 1 2 := by simp [stress]; ring
  by_cases hw : dims w 1 = true
  · have f2 := linear_F2 hn h1 h2 h3 h hw
    simp only [hD, r] at f2
    by_cases hz : dims w 2 = true
    · have f3 := linear_F3 hn h1 h2 h3 h hz
      simp only [hD, r] at f3
      simp only [lVisc, hw, hz, if_true, f1, f2, f3, addF, spec, lin]
      rw [hh, t10, t20, t21]
      push_cast
      ext <;> simp only [sub_self, mul_zero, add_zero]
      field_simp
      ring
    · have o : ∀ a, G a 2 = 0 := fun a => h.off a 2 (by simpa using hz)
      simp only [lVisc, hw, hz, if_true, if_false, f1, f2, addF, spec, lin, Bool.false_eq_true]
      rw [hh, t10, t20, t21, o, o, o]
      push_cast
      ext <;> simp only [sub_self, mul_zero, add_zero]
      field_simp
      ring
  · have hz : ¬ dims w 2 = true := by cases w <;> simp at hw ⊢
    have o : ∀ a, G a 2 = 0 := fun a => h.off a 2 (by simpa using hz)
    have o' : ∀ a, G a 1 = 0 := fun a => h.off a 1 (by simpa using hw)
    simp only [lVisc, hw, hz, if_false, f1, addF, spec, lin, Bool.false_eq_true]
    rw [hh, t10, t20, t21, o, o, o, o', o', o']
    push_cast
    ext <;> simp only [sub_self, mul_zero, add_zero]
    field_simp
    ring

theorem heating_eq (G : Grad) : heating G = (G 0 1 + G 1 0) ^ 2 + (G 0 2 + G 2 0) ^ 2 + (G 1 2 + G 2 1) ^ 2
    + 2/3 * ((G 0 0 - G 1 1) ^ 2 + (G 0 0 - G 2 2) ^ 2 + (G 1 1 - G 2 2) ^ 2) := by
  have n1 : ((0:Fin 3) = 1) = False := by decide
  have n2 : ((0:Fin 3) = 2) = False := by decide
  have n3 : ((1:Fin 3) = 2) = False := by decide
  have n4 : ((1:Fin 3) = 0) = False := by decide
  have n5 : ((2:Fin 3) = 0) = False := by decide
  have n6 : ((2:Fin 3) = 1) = False := by decide
  simp only [heating, Fin.sum_univ_three, stress, n1, n2, n3, n4, n5, n6, if_false, if_true]
  ring

/-- Viscosity heats: the rate is never negative, ... -/
theorem heating_nonneg (G : Grad) : 0 ≤ heating G := by
  rw [heating_eq]; positivity

/-- ... and it is zero only for motions without shear (an expansion, the same in all directions, with a rotation). -/
theorem heating_zero (G : Grad) : heating G = 0 ↔ ∀ a b, stress G a b = 0 := by
  constructor
  · intro h
    rw [heating_eq] at h
    have a1 := sq_nonneg (G 0 1 + G 1 0); have a2 := sq_nonneg (G 0 2 + G 2 0); have a3 := sq_nonneg (G 1 2 + G 2 1)
    have b1 := sq_nonneg (G 0 0 - G 1 1); have b2 := sq_nonneg (G 0 0 - G 2 2); have b3 := sq_nonneg (G 1 1 - G 2 2)
    have c1 : (G 0 1 + G 1 0) ^ 2 = 0 := by linarith
    have c2 : (G 0 2 + G 2 0) ^ 2 = 0 := by linarith
    have c3 : (G 1 2 + G 2 1) ^ 2 = 0 := by linarith
    have c4 : (G 0 0 - G 1 1) ^ 2 = 0 := by linarith
    have c5 : (G 0 0 - G 2 2) ^ 2 = 0 := by linarith
    have d1 := pow_eq_zero_iff (two_ne_zero) |>.1 c1
    have d2 := pow_eq_zero_iff (two_ne_zero) |>.1 c2
    have d3 := pow_eq_zero_iff (two_ne_zero) |>.1 c3
    have d4 := pow_eq_zero_iff (two_ne_zero) |>.1 c4
    have d5 := pow_eq_zero_iff (two_ne_zero) |>.1 c5
    intro a b
    rcases three a with rfl | rfl | rfl <;> rcases three b with rfl | rfl | rfl <;> simp [stress] <;> linarith
  · intro h
    simp [heating, h]

/-- **Rigid motion.**  If the gas moves like a rigid body, the viscous update changes nothing, whatever the density. -/
theorem rigid_unchanged {w : Which} {q : Diff ns} {g : Rng} (hg : RngOk (dims w) g) (h1 : q.dx1 ≠ 0) (h2 : q.dx2 ≠ 0) (h3 : q.dx3 ≠ 0)
    {c : Fin 3 → ℝ} {G : Grad} (hG : ∀ a b, G b a = -G a b) (S : St ℝ ns) (J : WorkV) (h : Linear w q c G S) {k j i : ℤ}
    (ha : Active g k j i) : (viscous w q g S J).U k j i = S.U k j i := by
  rw [viscous_eq hg S J ha]
  have g0 : ∀ a, G a a = 0 := fun a => by have := hG a a; linarith
  have t : ∀ a, stress G a = fun _ => 0 := fun a => by
    funext b
    simp only [stress, g0, hG a b]
    split_ifs <;> ring
  by_cases hn : 0 < q.nuIso
  · have f1 : ∀ k j i, lF1 w q S k j i = VF.zero := fun k j i => by rw [linear_F1 hn h1 h2 h3 h, t]; simp [spec, VF.zero]
    have f2 : ∀ k j i, lF2 w q S k j i = VF.zero := fun k j i => by
      by_cases hw : dims w 1 = true
      · rw [linear_F2 hn h1 h2 h3 h hw, t]; simp [spec, VF.zero]
      · simp [lF2, hw]
    have f3 : ∀ k j i, lF3 w q S k j i = VF.zero := fun k j i => by
      by_cases hw : dims w 2 = true
      · rw [linear_F3 hn h1 h2 h3 h hw, t]; simp [spec, VF.zero]
      · simp [lF3, hw]
    simp [lVisc, f1, f2, f3, addF]
  · have hn' : ¬ q.nuIso > 0 := hn
    simp [lVisc, lF1, lF2, lF3, hn', addF]

/-! ### Moving frames -/

/-- The state seen from a frame that moves with velocity `-V`; the energies are changed by anything. -/
noncomputable def boost (V : V3) (e : Arr ℝ) (S : St ℝ ns) : St ℝ ns :=
  { S with
    U := fun k j i =>
      { S.U k j i with
        M1 := (S.U k j i).M1 + (S.U k j i).d * V.x1
        M2 := (S.U k j i).M2 + (S.U k j i).d * V.x2
        M3 := (S.U k j i).M3 + (S.U k j i).d * V.x3
        E := (S.U k j i).E + e k j i } }

/-- The flux in the moving frame. -/
noncomputable def VF.boost (V : V3) (f : VF) : VF := ⟨f.Mx, f.My, f.Mz, f.E + V.x1 * f.Mx + V.x2 * f.My + V.x3 * f.Mz⟩

theorem boost_vel (V : V3) (e : Arr ℝ) (S : St ℝ ns) (hd : ∀ k j i, (S.U k j i).d ≠ 0) (k j i : ℤ) :
    lVel (boost V e S) k j i = ⟨(lVel S k j i).x1 + V.x1, (lVel S k j i).x2 + V.x2, (lVel S k j i).x3 + V.x3⟩ := by
  have := hd k j i
  simp only [lVel, vel, boost]
  congr 1 <;> field_simp

theorem boost_divv (w : Which) (q : Diff ns) (V : V3) (e : Arr ℝ) (S : St ℝ ns) (hd : ∀ k j i, (S.U k j i).d ≠ 0) (k j i : ℤ) :
    lDivv w q (boost V e S) k j i = lDivv w q S k j i := by
  simp only [lDivv, boost_vel V e S hd, add_sub_add_right_eq_sub]

theorem boost_F1 (w : Which) (q : Diff ns) (V : V3) (e : Arr ℝ) (S : St ℝ ns) (hd : ∀ k j i, (S.U k j i).d ≠ 0) (k j i : ℤ) :
    lF1 w q (boost V e S) k j i = (lF1 w q S k j i).boost V := by
  have d : ∀ k j i, ((boost V e S).U k j i).d = (S.U k j i).d := fun _ _ _ => rfl
  have a : ∀ a b c d v : ℝ, a + v + (b + v) - (c + v + (d + v)) = a + b - (c + d) := fun _ _ _ _ _ => by ring
  have b : ∀ a b c : ℝ, a + c - (b + c) = a - b := fun _ _ _ => by ring
  simp only [lF1, vis1, boost_vel V e S hd, boost_divv w q V e S hd, d, b, a]
  split_ifs <;> (ext <;> simp [stressFlux, VF.boost, VF.zero]; try ring)

theorem boost_F2 (w : Which) (q : Diff ns) (V : V3) (e : Arr ℝ) (S : St ℝ ns) (hd : ∀ k j i, (S.U k j i).d ≠ 0) (k j i : ℤ) :
    lF2 w q (boost V e S) k j i = (lF2 w q S k j i).boost V := by
  have d : ∀ k j i, ((boost V e S).U k j i).d = (S.U k j i).d := fun _ _ _ => rfl
  have a : ∀ a b c d v : ℝ, a + v + (b + v) - (c + v + (d + v)) = a + b - (c + d) := fun _ _ _ _ _ => by ring
  have b : ∀ a b c : ℝ, a + c - (b + c) = a - b := fun _ _ _ => by ring
  simp only [lF2, vis2, boost_vel V e S hd, boost_divv w q V e S hd, d, b, a]
  split_ifs <;> (ext <;> simp [stressFlux, VF.boost, VF.zero]; try ring)

theorem boost_F3 (w : Which) (q : Diff ns) (V : V3) (e : Arr ℝ) (S : St ℝ ns) (hd : ∀ k j i, (S.U k j i).d ≠ 0) (k j i : ℤ) :
    lF3 w q (boost V e S) k j i = (lF3 w q S k j i).boost V := by
  have d : ∀ k j i, ((boost V e S).U k j i).d = (S.U k j i).d := fun _ _ _ => rfl
  have a : ∀ a b c d v : ℝ, a + v + (b + v) - (c + v + (d + v)) = a + b - (c + d) := fun _ _ _ _ _ => by ring
  have b : ∀ a b c : ℝ, a + c - (b + c) = a - b := fun _ _ _ => by ring
  simp only [lF3, vis3, boost_vel V e S hd, boost_divv w q V e S hd, d, b, a]
  split_ifs <;> (ext <;> simp [stressFlux, VF.boost, VF.zero]; try ring)

/-- **Galilean invariance.**  Seen from a moving frame, the viscous update changes the momenta by the same amounts and the energy
by the amount the change of momentum requires. -/
theorem galilean {w : Which} {q : Diff ns} {g : Rng} (hg : RngOk (dims w) g) (V : V3) (e : Arr ℝ) (S : St ℝ ns) (J J' : WorkV)
    (hd : ∀ k j i, (S.U k j i).d ≠ 0) {k j i : ℤ} (h : Active g k j i) :
    let a := (viscous w q g S J).U k j i
    let b := (viscous w q g (boost V e S) J').U k j i
    let u := S.U k j i
    let v := (boost V e S).U k j i
    b.d = a.d ∧ b.M1 - v.M1 = a.M1 - u.M1 ∧ b.M2 - v.M2 = a.M2 - u.M2 ∧ b.M3 - v.M3 = a.M3 - u.M3 ∧
      b.E - v.E = a.E - u.E + V.x1 * (a.M1 - u.M1) + V.x2 * (a.M2 - u.M2) + V.x3 * (a.M3 - u.M3) := by
  dsimp only
  rw [viscous_eq hg S J h, viscous_eq hg (boost V e S) J' h]
  simp only [lVisc, boost_F1 w q V e S hd, boost_F2 w q V e S hd, boost_F3 w q V e S hd, VF.boost]
  by_cases hw : dims w 1 = true <;> by_cases hz : dims w 2 = true <;>
    simp only [hw, hz, if_true, if_false, addF, Bool.false_eq_true] <;>
    refine ⟨?_, ?_, ?_, ?_, ?_⟩ <;> first | rfl | ring

/-! ### Examples -/

/-- Unit viscosity. -/
noncomputable def exV : Diff 0 := { exQ with nuIso := 1 }

/-- Plane shear flow `v1 = x2`, density 2. -/
noncomputable def shear : St ℝ 0 where
  U := fun _ j _ => ⟨2, 2 * j, 0, 0, 100, 0, 0, 0, fun i => i.elim0⟩
  B1i := fun _ _ _ => 0
  B2i := fun _ _ _ => 0
  B3i := fun _ _ _ => 0

noncomputable def shearG : Grad := fun a b => if a = 0 ∧ b = 1 then 1 else 0

theorem shear_linear : Linear .d2 exV (fun _ => 0) shearG shear := by
  constructor
  · intro a b hb
    have : b ≠ 1 := fun h => by subst h; simp at hb
    simp [shearG, this]
  all_goals intro k j i; simp [vel, shear, shearG, exV, exQ]

/-- The shear flow heats at rate `ν ρ (dv1/dx2)² = 2`. -/
example (J : WorkV) : (viscous .d2 exV exG2 shear J).U 0 4 4 = { shear.U 0 4 4 with E := 100 + exV.dt * 2 } := by
  rw [linear_flow exG2_ok (by norm_num [exV]) (by norm_num [exV, exQ]) (by norm_num [exV, exQ]) (by norm_num [exV, exQ]) shear J shear_linear 2
    (fun _ _ _ => rfl) exG2_act]
  have : heating shearG = 1 := by simp [heating, Fin.sum_univ_three, stress, shearG]
  rw [this]
  simp [shear, exV]

/-- Rigid rotation about the x3-axis, with density growing outwards. -/
noncomputable def rot : St ℝ 0 where
  U := fun _ j i => ⟨1 + j^2 + i^2, -(1 + j^2 + i^2) * j, (1 + j^2 + i^2) * i, 0, 100, 0, 0, 0, fun i => i.elim0⟩
  B1i := fun _ _ _ => 0
  B2i := fun _ _ _ => 0
  B3i := fun _ _ _ => 0

noncomputable def rotG : Grad := fun a b => if a = 0 ∧ b = 1 then -1 else if a = 1 ∧ b = 0 then 1 else 0

theorem rot_linear : Linear .d2 exV (fun _ => 0) rotG rot := by
  constructor
  · intro a b hb
    have h1 : b ≠ 1 := fun h => by subst h; simp at hb
    have h0 : b ≠ 0 := fun h => by subst h; simp [dims, A2] at hb
    simp [rotG, h1, h0]
  all_goals
    intro k j i
    have : (1 + (j:ℝ)^2 + (i:ℝ)^2) ≠ 0 := by positivity
    simp [vel, rot, rotG, exV, exQ]
    try (field_simp; try ring)

example (J : WorkV) : (viscous .d2 exV exG2 rot J).U 0 4 4 = rot.U 0 4 4 :=
  rigid_unchanged exG2_ok (by norm_num [exV, exQ]) (by norm_num [exV, exQ]) (by norm_num [exV, exQ])
    (by intro a b; rcases three a with rfl | rfl | rfl <;> rcases three b with rfl | rfl | rfl <;> simp [rotG]) rot J rot_linear exG2_act

/-- The hypotheses of `galilean` hold for the shear flow, which the update does change. -/
example (J J' : WorkV) : ((viscous .d2 exV exG2 (boost ⟨3, 0, 0⟩ (fun _ _ _ => 0) shear) J').U 0 4 4).d = 2 := by
  have := (galilean (q := exV) exG2_ok ⟨3, 0, 0⟩ (fun _ _ _ => 0) shear J J' (fun _ _ _ => by norm_num [shear]) exG2_act).1
  rw [this, viscous_eq exG2_ok shear J exG2_act]
  simp [lVisc, addF, shear]

end Athena.Micro
