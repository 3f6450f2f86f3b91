import Verif.Micro.ConductEx

/-!
# Conduction: what the temperature and the fluxes are

The temperature is pressure over density, and in a temperature that is linear in the position with a uniform field the flux along the field is
`κ ρ b (b·∇T)` exactly.
-/

namespace Athena.Micro
open Athena.Bvals hiding Rng
open Athena.Vl3 Athena.Gen

variable {ns : ℕ}

/-- A zone with density `d`, velocity, pressure `p` and field. -/
noncomputable def gasOf (q : Diff ns) (d v1 v2 v3 p b1 b2 b3 : ℝ) (s : Fin ns → ℝ) : Cons ℝ ns :=
  ⟨d, d * v1, d * v2, d * v3, p / q.gm1 + d * (v1 ^ 2 + v2 ^ 2 + v3 ^ 2) / 2 + (b1 ^ 2 + b2 ^ 2 + b3 ^ 2) / 2, b1, b2, b3, s⟩

/-- The temperature is pressure over density, whatever velocity and field are. -/
theorem temp_gas (q : Diff ns) (hg : q.gm1 ≠ 0) {d : ℝ} (hd : d ≠ 0) (v1 v2 v3 p b1 b2 b3 : ℝ) (s : Fin ns → ℝ) :
    temp q (gasOf q d v1 v2 v3 p b1 b2 b3 s) = p / d := by
  unfold temp gasOf
  field_simp
  ring

theorem lim4_same (s : ℝ) : limiter4 s s s s = s := by
  have h : limiter2 s s = s := by
    unfold limiter2
    by_cases hs : s = 0
    · simp [hs]
    · rw [if_pos (mul_self_pos.mpr hs)]; field_simp; ring
  unfold limiter4; rw [h, h]

/-- A temperature that is linear in the position. -/
noncomputable def linT (q : Diff ns) (t a b c : ℝ) : Arr ℝ := fun k j i => t + a * (i * q.dx1) + b * (j * q.dx2) + c * (k * q.dx3)

/-- In three dimensions the anisotropic fluxes through the three faces of a zone are the face density times `κ B (B·∇T)/B²`. -/
theorem aniso_linear_3d (q : Diff ns) (h1 : q.dx1 ≠ 0) (h2 : q.dx2 ≠ 0) (h3 : q.dx3 ≠ 0) (S : St ℝ ns) (B1 B2 B3 : ℝ)
    (hu : ∀ k j i, (S.U k j i).B1c = B1 ∧ (S.U k j i).B2c = B2 ∧ (S.U k j i).B3c = B3)
    (hb : ∀ k j i, S.B1i k j i = B1 ∧ S.B2i k j i = B2 ∧ S.B3i k j i = B3) (ht : q.tiny ≤ B1 ^ 2 + B2 ^ 2 + B3 ^ 2) (t a b c : ℝ) (k j i : ℤ) :
    ani1 .d3 q S (linT q t a b c) k j i = q.kAni * (((S.U k j i).d + (S.U k j (i-1)).d) / 2) * (B1 * (B1 * a + B2 * b + B3 * c) / (B1 ^ 2 + B2 ^ 2 + B3 ^ 2)) ∧
    ani2 .d3 q S (linT q t a b c) k j i = q.kAni * (((S.U k j i).d + (S.U k (j-1) i).d) / 2) * (B2 * (B1 * a + B2 * b + B3 * c) / (B1 ^ 2 + B2 ^ 2 + B3 ^ 2)) ∧
    ani3 q S (linT q t a b c) k j i = q.kAni * (((S.U k j i).d + (S.U (k-1) j i).d) / 2) * (B3 * (B1 * a + B2 * b + B3 * c) / (B1 ^ 2 + B2 ^ 2 + B3 ^ 2)) := by
  have dx : ∀ k j i : ℤ, linT q t a b c k j (i+1) - linT q t a b c k j i = a * q.dx1 := by intro k j i; unfold linT; push_cast; ring
  have dx' : ∀ k j i : ℤ, linT q t a b c k j i - linT q t a b c k j (i-1) = a * q.dx1 := by intro k j i; unfold linT; push_cast; ring
  have dy : ∀ k j i : ℤ, linT q t a b c k (j+1) i - linT q t a b c k j i = b * q.dx2 := by intro k j i; unfold linT; push_cast; ring
  have dy' : ∀ k j i : ℤ, linT q t a b c k j i - linT q t a b c k (j-1) i = b * q.dx2 := by intro k j i; unfold linT; push_cast; ring
  have dz : ∀ k j i : ℤ, linT q t a b c (k+1) j i - linT q t a b c k j i = c * q.dx3 := by intro k j i; unfold linT; push_cast; ring
  have dz' : ∀ k j i : ℤ, linT q t a b c k j i - linT q t a b c (k-1) j i = c * q.dx3 := by intro k j i; unfold linT; push_cast; ring
  have av : ∀ x : ℝ, 0.5 * (x + x) = x := by intro x; ring
  have e1 : a * q.dx1 / q.dx1 = a := by field_simp
  have e2 : b * q.dx2 / q.dx2 = b := by field_simp
  have e3 : c * q.dx3 / q.dx3 = c := by field_simp
  have f1 : B1 * (a * q.dx1) / q.dx1 = B1 * a := by field_simp
  have f2 : B2 * (b * q.dx2) / q.dx2 = B2 * b := by field_simp
  have f3 : B3 * (c * q.dx3) / q.dx3 = B3 * c := by field_simp
  refine ⟨?_, ?_, ?_⟩
  · simp only [ani1, dim32, reduceIte, (hb k j i).1, (hu _ _ _).2.1, (hu _ _ _).2.2, dx', dy, dy', dz, dz', lim4_same, av, e2, e3, f1, max_eq_left ht]
    ring
  · simp only [ani2, dim32, reduceIte, (hb k j i).2.1, (hu _ _ _).1, (hu _ _ _).2.2, dx, dx', dy', dz, dz', lim4_same, av, e1, e3, f2, max_eq_left ht]
    ring
  · simp only [ani3, (hb k j i).2.2, (hu _ _ _).1, (hu _ _ _).2.1, dx, dx', dy, dy', dz', lim4_same, av, e1, e2, f3, max_eq_left ht]
    ring

/-- In two dimensions the same with the field strength in the plane (B3 is left out, see `conduct_2d_3d_false`). -/
theorem aniso_linear_2d (q : Diff ns) (h1 : q.dx1 ≠ 0) (h2 : q.dx2 ≠ 0) (S : St ℝ ns) (B1 B2 : ℝ)
    (hu : ∀ k j i, (S.U k j i).B1c = B1 ∧ (S.U k j i).B2c = B2)
    (hb : ∀ k j i, S.B1i k j i = B1 ∧ S.B2i k j i = B2) (ht : q.tiny ≤ B1 ^ 2 + B2 ^ 2) (t a b c : ℝ) (k j i : ℤ) :
    ani1 .d2 q S (linT q t a b c) k j i = q.kAni * (((S.U k j i).d + (S.U k j (i-1)).d) / 2) * (B1 * (B1 * a + B2 * b) / (B1 ^ 2 + B2 ^ 2)) ∧
    ani2 .d2 q S (linT q t a b c) k j i = q.kAni * (((S.U k j i).d + (S.U k (j-1) i).d) / 2) * (B2 * (B1 * a + B2 * b) / (B1 ^ 2 + B2 ^ 2)) := by
  have dx : ∀ k j i : ℤ, linT q t a b c k j (i+1) - linT q t a b c k j i = a * q.dx1 := by intro k j i; unfold linT; push_cast; ring
  have dx' : ∀ k j i : ℤ, linT q t a b c k j i - linT q t a b c k j (i-1) = a * q.dx1 := by intro k j i; unfold linT; push_cast; ring
  have dy : ∀ k j i : ℤ, linT q t a b c k (j+1) i - linT q t a b c k j i = b * q.dx2 := by intro k j i; unfold linT; push_cast; ring
  have dy' : ∀ k j i : ℤ, linT q t a b c k j i - linT q t a b c k (j-1) i = b * q.dx2 := by intro k j i; unfold linT; push_cast; ring
  have av : ∀ x : ℝ, 0.5 * (x + x) = x := by intro x; ring
  have e1 : a * q.dx1 / q.dx1 = a := by field_simp
  have e2 : b * q.dx2 / q.dx2 = b := by field_simp
  have f1 : B1 * (a * q.dx1) / q.dx1 = B1 * a := by field_simp
  have f2 : B2 * (b * q.dx2) / q.dx2 = B2 * b := by field_simp
  refine ⟨?_, ?_⟩
  · simp only [ani1, dim22, reduceIte, Bool.false_eq_true, (hb k j i).1, (hu _ _ _).2, dx', dy, dy', lim4_same, av, e2, f1, max_eq_left ht]
    ring
  · simp only [ani2, dim22, reduceIte, Bool.false_eq_true, (hb k j i).2, (hu _ _ _).1, dx, dx', dy', lim4_same, av, e1, f2, max_eq_left ht]
    ring

/-- The isotropic fluxes in the same temperature. -/
theorem iso_linear (q : Diff ns) (h1 : q.dx1 ≠ 0) (h2 : q.dx2 ≠ 0) (h3 : q.dx3 ≠ 0) (U : Arr (Cons ℝ ns)) (t a b c : ℝ) (k j i : ℤ) :
    iso1 q U (linT q t a b c) k j i = q.kIso * (((U k j i).d + (U k j (i-1)).d) / 2) * a ∧
    iso2 q U (linT q t a b c) k j i = q.kIso * (((U k j i).d + (U k (j-1) i).d) / 2) * b ∧
    iso3 q U (linT q t a b c) k j i = q.kIso * (((U k j i).d + (U (k-1) j i).d) / 2) * c := by
  refine ⟨?_, ?_, ?_⟩
  · simp only [iso1, linT]; push_cast; field_simp; ring
  · simp only [iso2, linT]; push_cast; field_simp; ring
  · simp only [iso3, linT]; push_cast; field_simp; ring

/-- A uniform oblique field. -/
noncomputable def oblique : St ℝ 0 :=
  ⟨fun _ _ _ => ⟨1, 0, 0, 0, 9, 1, 2, 2, fun _ => 0⟩, fun _ _ _ => 1, fun _ _ _ => 2, fun _ _ _ => 2⟩

/-- It meets the hypotheses; the heat flux along x3 is not zero although the temperature does not depend on x3. -/
example (t : ℝ) (ht : exA.tiny ≤ 9) (h1 : exA.dx1 ≠ 0) (h2 : exA.dx2 ≠ 0) (h3 : exA.dx3 ≠ 0) (k j i : ℤ) :
    ani3 exA oblique (linT exA t 1 1 0) k j i = 2 / 3 := by
  rw [(aniso_linear_3d exA h1 h2 h3 oblique 1 2 2 (fun _ _ _ => ⟨rfl, rfl, rfl⟩) (fun _ _ _ => ⟨rfl, rfl, rfl⟩) (by norm_num; exact ht) t 1 1 0 k j i).2.2]
  norm_num [exA, oblique]
example : exA.tiny ≤ 9 ∧ exA.dx1 ≠ 0 ∧ exA.dx2 ≠ 0 ∧ exA.dx3 ≠ 0 ∧ exA.gm1 ≠ 0 := by norm_num [exA, exQ]

end Athena.Micro
