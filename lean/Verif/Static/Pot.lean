import Verif.Cyl.Vl3Props

/-!
# Static gravitational potential in Cartesian coordinates

The last steps of the six integrators with `StaticGravPot`: integrate_1d_vl.c:310-326, 404-417; integrate_2d_vl.c:955-987, 1078-1150;
integrate_3d_vl.c:1422-1462, 1661-1735; integrate_1d_ctu.c:464-485, 554-567; integrate_2d_ctu.c:1738-1777, 1903-1960;
integrate_3d_ctu.c:2963-3007, 3200-3270.  They are the same formulas, in one, two or three directions (`nd`); the
fluxes and the half-step density `ρ` (`Uhalf.d` or `dhalf`) are arbitrary.  `lsf` and `rsf` are 1.  The magnetic fields are left out:
neither step reads them.  Exact arithmetic.
-/

namespace Athena.Static
open Athena.Vl3
open Athena.Cyl (Geo cc1 cc2 cc3 fc2 fc3)

variable {ns : ℕ}

section
variable (Φ : ℝ → ℝ → ℝ → ℝ) (nd : ℕ) (G : Geo) (dt : ℝ) (g : Rng)

/-- The potential on zone `(k, j, i)`. -/
noncomputable def pull (ρ : ℝ) (F1 F2 F3 : Arr (Cons1 ℝ ns)) (k j i : ℤ) (u : Cons ℝ ns) : Cons ℝ ns :=
  let x1 := cc1 G g i
  let x2 := cc2 G g j
  let x3 := cc3 G g k
  let phic := Φ x1 x2 x3
  let phir := Φ (x1 + 1 / 2 * G.dx1) x2 x3
  let phil := Φ (x1 - 1 / 2 * G.dx1) x2 x3
  let u := { u with
    M1 := u.M1 - dt / G.dx1 * ρ * (phir - phil)
    E := u.E - dt / G.dx1 * ((F1 k j i).d * (phic - phil) + (F1 k j (i+1)).d * (phir - phic)) }
  let phir := Φ x1 (x2 + 1 / 2 * G.dx2) x3
  let phil := Φ x1 (x2 - 1 / 2 * G.dx2) x3
  let u := if 2 ≤ nd then { u with
    M2 := u.M2 - dt / G.dx2 * (phir - phil) * ρ
    E := u.E - dt / G.dx2 * ((F2 k j i).d * (phic - phil) + (F2 k (j+1) i).d * (phir - phic)) } else u
  let phir := Φ x1 x2 (x3 + 1 / 2 * G.dx3)
  let phil := Φ x1 x2 (x3 - 1 / 2 * G.dx3)
  if 3 ≤ nd then { u with
    M3 := u.M3 - dt / G.dx3 * (phir - phil) * ρ
    E := u.E - dt / G.dx3 * ((F3 k j i).d * (phic - phil) + (F3 (k+1) j i).d * (phir - phic)) } else u

/-- The potential, then the flux differences, over the active zones. -/
noncomputable def potUpdate (ρ : Arr ℝ) (F1 F2 F3 : Arr (Cons1 ℝ ns)) (U : Arr (Cons ℝ ns)) : Arr (Cons ℝ ns) :=
  let U := actLoop g (fun k j i => pull Φ nd G dt g (ρ k j i) F1 F2 F3 k j i) U
  let U := actLoop g (fun k j i => upd1 (dt / G.dx1) (F1 k j (i+1)) (F1 k j i)) U
  let U := if 2 ≤ nd then actLoop g (fun k j i => upd2 (dt / G.dx2) (F2 k (j+1) i) (F2 k j i)) U else U
  if 3 ≤ nd then actLoop g (fun k j i => upd3 (dt / G.dx3) (F3 (k+1) j i) (F3 k j i)) U else U

end

/-! ## Specification -/

/-- The first coordinate of face `i`. -/
noncomputable def fc1 (G : Geo) (g : Rng) (i : ℤ) : ℝ := G.x1min + ((i - g.is : ℤ) : ℝ) * G.dx1

/-- What is conserved in a potential: mass, a component of momentum along which the potential is constant, energy including that in the
potential, scalars. -/
inductive Kept (ns : ℕ) where
  | mass
  | mom1
  | mom2
  | mom3
  | energy
  | scalar (n : Fin ns)

section
variable (Φ : ℝ → ℝ → ℝ → ℝ) (G : Geo) (g : Rng)

/-- The amount per unit volume in zone `(k, j, i)`. -/
noncomputable def Kept.dens (k j i : ℤ) : Kept ns → Cons ℝ ns → ℝ
  | .mass, u => u.d
  | .mom1, u => u.M1
  | .mom2, u => u.M2
  | .mom3, u => u.M3
  | .energy, u => u.E + Φ (cc1 G g i) (cc2 G g j) (cc3 G g k) * u.d
  | .scalar n, u => u.s n

/-- The flux through x1-face `i`. -/
noncomputable def Kept.flux1 (k j i : ℤ) : Kept ns → Cons1 ℝ ns → ℝ
  | .mass, f => f.d
  | .mom1, f => f.Mx
  | .mom2, f => f.My
  | .mom3, f => f.Mz
  | .energy, f => f.E + Φ (fc1 G g i) (cc2 G g j) (cc3 G g k) * f.d
  | .scalar n, f => f.s n
/-- The flux through x2-face `j`. -/
noncomputable def Kept.flux2 (k j i : ℤ) : Kept ns → Cons1 ℝ ns → ℝ
  | .mass, f => f.d
  | .mom1, f => f.Mz
  | .mom2, f => f.Mx
  | .mom3, f => f.My
  | .energy, f => f.E + Φ (cc1 G g i) (fc2 G g j) (cc3 G g k) * f.d
  | .scalar n, f => f.s n
/-- The flux through x3-face `k`. -/
noncomputable def Kept.flux3 (k j i : ℤ) : Kept ns → Cons1 ℝ ns → ℝ
  | .mass, f => f.d
  | .mom1, f => f.My
  | .mom2, f => f.Mz
  | .mom3, f => f.Mx
  | .energy, f => f.E + Φ (cc1 G g i) (cc2 G g j) (fc3 G g k) * f.d
  | .scalar n, f => f.s n

/-- A component of momentum is kept if the potential is constant along it, or the direction is not computed. -/
def Kept.Free (nd : ℕ) : Kept ns → Prop
  | .mom1 => ∀ x y z x', Φ x y z = Φ x' y z
  | .mom2 => 2 ≤ nd → ∀ x y z y', Φ x y z = Φ x y' z
  | .mom3 => 3 ≤ nd → ∀ x y z z', Φ x y z = Φ x y z'
  | _ => True

end

/-! ## Theorems -/

theorem pot_zone_balance (Φ : ℝ → ℝ → ℝ → ℝ) (nd : ℕ) (G : Geo) (dt : ℝ) (g : Rng) (ρ : Arr ℝ) (F1 F2 F3 : Arr (Cons1 ℝ ns))
    (U : Arr (Cons ℝ ns)) (q : Kept ns) (hq : q.Free Φ nd)
    {k j i : ℤ} (hk : g.ks ≤ k) (hk' : k ≤ g.ke) (hj : g.js ≤ j) (hj' : j ≤ g.je) (hi : g.is ≤ i) (hi' : i ≤ g.ie) :
    q.dens Φ G g k j i (potUpdate Φ nd G dt g ρ F1 F2 F3 U k j i) = q.dens Φ G g k j i (U k j i)
      - dt / G.dx1 * (q.flux1 Φ G g k j (i+1) (F1 k j (i+1)) - q.flux1 Φ G g k j i (F1 k j i))
      - (if 2 ≤ nd then dt / G.dx2 else 0) * (q.flux2 Φ G g k (j+1) i (F2 k (j+1) i) - q.flux2 Φ G g k j i (F2 k j i))
      - (if 3 ≤ nd then dt / G.dx3 else 0) * (q.flux3 Φ G g (k+1) j i (F3 (k+1) j i) - q.flux3 Φ G g k j i (F3 k j i)) := by
  have a1 : cc1 G g i + 1 / 2 * G.dx1 = fc1 G g (i+1) := by unfold cc1 fc1; push_cast; ring
  have a2 : cc1 G g i - 1 / 2 * G.dx1 = fc1 G g i := by unfold cc1 fc1; ring
  by_cases h2 : 2 ≤ nd
  · by_cases h3 : 3 ≤ nd
    · simp only [if_pos h2, if_pos h3, potUpdate]
      rw [actLoop_in _ _ hk hk' hj hj' hi hi', actLoop_in _ _ hk hk' hj hj' hi hi', actLoop_in _ _ hk hk' hj hj' hi hi',
        actLoop_in _ _ hk hk' hj hj' hi hi']
      simp only [pull, if_pos h2, if_pos h3, a1, a2, Cyl.cc2_add, Cyl.cc2_sub, Cyl.cc3_add, Cyl.cc3_sub]
      cases q <;> simp only [Kept.dens, Kept.flux1, Kept.flux2, Kept.flux3, upd1, upd2, upd3]
      · rw [hq (fc1 G g (i+1)) _ _ (fc1 G g i)]; ring
      · rw [hq h2 _ (fc2 G g (j+1)) _ (fc2 G g j)]; ring
      · rw [hq h3 _ _ (fc3 G g (k+1)) (fc3 G g k)]; ring
      · ring
    · simp only [if_pos h2, if_neg h3, potUpdate]
      rw [actLoop_in _ _ hk hk' hj hj' hi hi', actLoop_in _ _ hk hk' hj hj' hi hi', actLoop_in _ _ hk hk' hj hj' hi hi']
      simp only [pull, if_pos h2, if_neg h3, a1, a2, Cyl.cc2_add, Cyl.cc2_sub]
      cases q <;> simp only [Kept.dens, Kept.flux1, Kept.flux2, Kept.flux3, upd1, upd2]
      · ring
      · rw [hq (fc1 G g (i+1)) _ _ (fc1 G g i)]; ring
      · rw [hq h2 _ (fc2 G g (j+1)) _ (fc2 G g j)]; ring
      · ring
      · ring
      · ring
  · have h3 : ¬ 3 ≤ nd := by omega
    simp only [if_neg h2, if_neg h3, potUpdate]
    rw [actLoop_in _ _ hk hk' hj hj' hi hi', actLoop_in _ _ hk hk' hj hj' hi hi']
    simp only [pull, if_neg h2, if_neg h3, a1, a2]
    cases q <;> simp only [Kept.dens, Kept.flux1, Kept.flux2, Kept.flux3, upd1]
    · ring
    · rw [hq (fc1 G g (i+1)) _ _ (fc1 G g i)]; ring
    · ring
    · ring
    · ring
    · ring

/-- **C78.** In a static potential, whatever the fluxes, the half-step density and the potential, the totals of mass, of energy
including that in the potential, of scalars, and of momentum along directions in which the potential is constant, change by the flow
through the sides of the Grid, in one, two and three dimensions.  Here the flow of energy includes the potential on the face. -/
theorem potential_conserves (Φ : ℝ → ℝ → ℝ → ℝ) (nd : ℕ) (G : Geo) (dt : ℝ) {g : Rng} {n1 n2 n3 : ℕ} (hg : Size g n1 n2 n3)
    (ρ : Arr ℝ) (F1 F2 F3 : Arr (Cons1 ℝ ns)) (U : Arr (Cons ℝ ns)) (q : Kept ns) (hq : q.Free Φ nd) :
    zsum n1 n2 n3 g.is g.js g.ks (fun k j i => q.dens Φ G g k j i (potUpdate Φ nd G dt g ρ F1 F2 F3 U k j i)) =
      zsum n1 n2 n3 g.is g.js g.ks (fun k j i => q.dens Φ G g k j i (U k j i))
        - dt / G.dx1 * (fsum1 n2 n3 g.js g.ks (g.ie+1) (fun k j i => q.flux1 Φ G g k j i (F1 k j i))
            - fsum1 n2 n3 g.js g.ks g.is (fun k j i => q.flux1 Φ G g k j i (F1 k j i)))
        - (if 2 ≤ nd then dt / G.dx2 else 0) * (fsum2 n1 n3 g.is g.ks (g.je+1) (fun k j i => q.flux2 Φ G g k j i (F2 k j i))
            - fsum2 n1 n3 g.is g.ks g.js (fun k j i => q.flux2 Φ G g k j i (F2 k j i)))
        - (if 3 ≤ nd then dt / G.dx3 else 0) * (fsum3 n1 n2 g.is g.js (g.ke+1) (fun k j i => q.flux3 Φ G g k j i (F3 k j i))
            - fsum3 n1 n2 g.is g.js g.ks (fun k j i => q.flux3 Φ G g k j i (F3 k j i))) := by
  rw [hg.h1, hg.h2, hg.h3, ← zsum_flux]
  refine zsum_congr fun k j i a1 a2 a3 a4 a5 a6 => ?_
  have := hg.h1; have := hg.h2; have := hg.h3
  exact pot_zone_balance Φ nd G dt g ρ F1 F2 F3 U q hq a1 (by omega) a3 (by omega) a5 (by omega)

/-- **C78.** If mass does not cross the sides and neither does energy, mass, energy with potential energy and scalars are kept exactly. -/
theorem potential_closed (Φ : ℝ → ℝ → ℝ → ℝ) (nd : ℕ) (G : Geo) (dt : ℝ) {g : Rng} {n1 n2 n3 : ℕ} (hg : Size g n1 n2 n3)
    (ρ : Arr ℝ) (F1 F2 F3 : Arr (Cons1 ℝ ns)) (U : Arr (Cons ℝ ns))
    (h1 : ∀ k j i, i = g.is ∨ i = g.ie + 1 → (F1 k j i).d = 0 ∧ (F1 k j i).E = 0)
    (h2 : ∀ k j i, j = g.js ∨ j = g.je + 1 → (F2 k j i).d = 0 ∧ (F2 k j i).E = 0)
    (h3 : ∀ k j i, k = g.ks ∨ k = g.ke + 1 → (F3 k j i).d = 0 ∧ (F3 k j i).E = 0) :
    zsum n1 n2 n3 g.is g.js g.ks (fun k j i => (potUpdate Φ nd G dt g ρ F1 F2 F3 U k j i).E
        + Φ (cc1 G g i) (cc2 G g j) (cc3 G g k) * (potUpdate Φ nd G dt g ρ F1 F2 F3 U k j i).d) =
      zsum n1 n2 n3 g.is g.js g.ks (fun k j i => (U k j i).E + Φ (cc1 G g i) (cc2 G g j) (cc3 G g k) * (U k j i).d) := by
  have h := potential_conserves Φ nd G dt hg ρ F1 F2 F3 U (.energy : Kept ns) trivial
  simp only [Kept.dens, Kept.flux1, Kept.flux2, Kept.flux3] at h
  rw [h]
  simp only [fsum1, fsum2, fsum3]
  simp only [(h1 _ _ g.is (.inl rfl)).1, (h1 _ _ g.is (.inl rfl)).2, (h1 _ _ (g.ie+1) (.inr rfl)).1, (h1 _ _ (g.ie+1) (.inr rfl)).2,
    (h2 _ g.js _ (.inl rfl)).1, (h2 _ g.js _ (.inl rfl)).2, (h2 _ (g.je+1) _ (.inr rfl)).1, (h2 _ (g.je+1) _ (.inr rfl)).2,
    (h3 g.ks _ _ (.inl rfl)).1, (h3 g.ks _ _ (.inl rfl)).2, (h3 (g.ke+1) _ _ (.inr rfl)).1, (h3 (g.ke+1) _ _ (.inr rfl)).2]
  simp

/-- The hypotheses can be met: a column in the potential `x3²` with mass falling inside it, closed at the sides. -/
example : ∃ (g : Rng) (F1 F2 F3 : Arr (Cons1 ℝ 0)), Size g 2 2 3 ∧ (F3 5 4 4).d ≠ 0 ∧
    (∀ k j i, i = g.is ∨ i = g.ie + 1 → (F1 k j i).d = 0 ∧ (F1 k j i).E = 0) ∧
    (∀ k j i, j = g.js ∨ j = g.je + 1 → (F2 k j i).d = 0 ∧ (F2 k j i).E = 0) ∧
    (∀ k j i, k = g.ks ∨ k = g.ke + 1 → (F3 k j i).d = 0 ∧ (F3 k j i).E = 0) ∧
    (Kept.mom1 : Kept 0).Free (fun _ _ z => z ^ 2) 3 := by
  refine ⟨⟨4, 5, 4, 5, 4, 6, 4⟩, fun _ _ _ => ⟨0, 1, 0, 0, 0, 0, 0, fun _ => 0⟩, fun _ _ _ => ⟨0, 1, 0, 0, 0, 0, 0, fun _ => 0⟩,
    fun k _ _ => ⟨if k = 5 ∨ k = 6 then -1 else 0, 1, 0, 0, if k = 5 ∨ k = 6 then -3 else 0, 0, 0, fun _ => 0⟩, by constructor <;> decide,
    by norm_num, by simp, by simp, ?_, by simp [Kept.Free]⟩
  intro k j i h
  have : ¬ (k = 5 ∨ k = 6) := by simp only at h; omega
  simp [this]

end Athena.Static
