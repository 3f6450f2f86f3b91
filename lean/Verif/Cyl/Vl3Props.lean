import Verif.Cyl.Vl3
import Mathlib.Tactic.FieldSimp
import Mathlib.Tactic.Positivity

/-!
# C91: conservation, angular momentum and div B in cylindrical coordinates (3D van Leer integrator)
-/

namespace Athena.Cyl
open Athena.Vl3

variable {W : Type} {ns : ℕ}

/-! ## Specification -/

/-- The Grid lies outside the axis. -/
structure Outside (G : Geo) : Prop where
  x1 : 0 < G.x1min
  dx1 : 0 < G.dx1
  dx2 : 0 < G.dx2
  dx3 : 0 < G.dx3

/-- The potential, zero if there is none. -/
noncomputable def phi (P : Phys) (x1 x2 x3 : ℝ) : ℝ := match P.pot with
  | none => 0
  | some Φ => Φ x1 x2 x3

/-- The angular coordinate of face `j`. -/
noncomputable def fc2 (G : Geo) (g : Rng) (j : ℤ) : ℝ := G.x2min + ((j - g.js : ℤ) : ℝ) * G.dx2
/-- The vertical coordinate of face `k`. -/
noncomputable def fc3 (G : Geo) (g : Rng) (k : ℤ) : ℝ := G.x3min + ((k - g.ks : ℤ) : ℝ) * G.dx3

/-- What a cylindrical run conserves: mass, angular momentum about the axis, vertical momentum, energy including that
in the potential, scalars. -/
inductive Quant (ns : ℕ) where
  | mass
  | angular
  | vertical
  | energy
  | scalar (n : Fin ns)

/-- The amount of it per unit volume in the zone `(k, j, i)`. -/
noncomputable def Quant.dens (P : Phys) (G : Geo) (g : Rng) (k j i : ℤ) : Quant ns → Cons ℝ ns → ℝ
  | .mass, u => u.d
  | .angular, u => r G g i * u.M2
  | .vertical, u => u.M3
  | .energy, u => u.E + phi P (r G g i) (cc2 G g j) (cc3 G g k) * u.d
  | .scalar n, u => u.s n

/-- The amount of it carried per unit area and time through the x1-face `(k, j, i)`. -/
noncomputable def Quant.flux1 (P : Phys) (G : Geo) (g : Rng) (k j i : ℤ) : Quant ns → Cons1 ℝ ns → ℝ
  | .mass, f => f.d
  | .angular, f => ri G g i * f.My
  | .vertical, f => f.Mz
  | .energy, f => f.E + phi P (ri G g i) (cc2 G g j) (cc3 G g k) * f.d
  | .scalar n, f => f.s n
/-- Through the x2-face; the directions of the momenta in an x2-flux are 2, 3, 1. -/
noncomputable def Quant.flux2 (P : Phys) (G : Geo) (g : Rng) (k j i : ℤ) : Quant ns → Cons1 ℝ ns → ℝ
  | .mass, f => f.d
  | .angular, f => r G g i * f.Mx
  | .vertical, f => f.My
  | .energy, f => f.E + phi P (r G g i) (fc2 G g j) (cc3 G g k) * f.d
  | .scalar n, f => f.s n
/-- Through the x3-face; the directions of the momenta in an x3-flux are 3, 1, 2. -/
noncomputable def Quant.flux3 (P : Phys) (G : Geo) (g : Rng) (k j i : ℤ) : Quant ns → Cons1 ℝ ns → ℝ
  | .mass, f => f.d
  | .angular, f => r G g i * f.Mz
  | .vertical, f => f.Mx
  | .energy, f => f.E + phi P (r G g i) (cc2 G g j) (fc3 G g k) * f.d
  | .scalar n, f => f.s n

/-- The potential exerts no torque (angular momentum) or no vertical force (vertical momentum). -/
def Quant.Free (P : Phys) : Quant ns → Prop
  | .angular => ∀ x1 x2 x2' x3, phi P x1 x2 x3 = phi P x1 x2' x3
  | .vertical => ∀ x1 x2 x3 x3', phi P x1 x2 x3 = phi P x1 x2 x3'
  | _ => True

/-- The total on a Grid of `n1 × n2 × n3` zones: zone `i` has the volume `r[i]·dx1·dx2·dx3`. -/
noncomputable def total (P : Phys) (G : Geo) (g : Rng) (n1 n2 n3 : ℕ) (q : Quant ns) (S : St ℝ ns) : ℝ :=
  zsum n1 n2 n3 g.is g.js g.ks (fun k j i => r G g i * G.dx1 * G.dx2 * G.dx3 * q.dens P G g k j i (S.U k j i))

/-- The amount that flows out through the six sides per unit time: an x1-face has the area `ri·dx2·dx3`, an x2-face
`dx1·dx3`, an x3-face `r·dx1·dx2`. -/
noncomputable def outflow (P : Phys) (G : Geo) (g : Rng) (n1 n2 n3 : ℕ) (q : Quant ns) (F1 F2 F3 : Arr (Cons1 ℝ ns)) : ℝ :=
  let A1 : Arr ℝ := fun k j i => ri G g i * G.dx2 * G.dx3 * q.flux1 P G g k j i (F1 k j i)
  let A2 : Arr ℝ := fun k j i => G.dx1 * G.dx3 * q.flux2 P G g k j i (F2 k j i)
  let A3 : Arr ℝ := fun k j i => r G g i * G.dx1 * G.dx2 * q.flux3 P G g k j i (F3 k j i)
  (fsum1 n2 n3 g.js g.ks (g.ie+1) A1 - fsum1 n2 n3 g.js g.ks g.is A1)
    + (fsum2 n1 n3 g.is g.ks (g.je+1) A2 - fsum2 n1 n3 g.is g.ks g.js A2)
    + (fsum3 n1 n2 g.is g.js (g.ke+1) A3 - fsum3 n1 n2 g.is g.js g.ks A3)

/-- The divergence of the interface fields of zone `(k, j, i)` in cylindrical coordinates: the flux out of the zone over
its volume. -/
noncomputable def divCyl (G : Geo) (g : Rng) (S : St ℝ ns) (k j i : ℤ) : ℝ :=
  (ri G g (i+1) * S.B1i k j (i+1) - ri G g i * S.B1i k j i) / (r G g i * G.dx1)
    + (S.B2i k (j+1) i - S.B2i k j i) / (r G g i * G.dx2) + (S.B3i (k+1) j i - S.B3i k j i) / G.dx3

/-! ## Lemmas -/

theorem ri_pos {G : Geo} (hG : Outside G) {g : Rng} {i : ℤ} (hi : g.is ≤ i) : 0 < ri G g i := by
  have h : (0:ℝ) ≤ ((i - g.is : ℤ) : ℝ) := by exact_mod_cast (by omega : 0 ≤ i - g.is)
  have := mul_nonneg h hG.dx1.le
  have := hG.x1
  unfold ri; linarith

theorem r_pos {G : Geo} (hG : Outside G) {g : Rng} {i : ℤ} (hi : g.is ≤ i) : 0 < r G g i := by
  have := ri_pos hG hi
  have := hG.dx1
  unfold r; linarith

theorem ri_succ (G : Geo) (g : Rng) (i : ℤ) : ri G g (i+1) = ri G g i + G.dx1 := by
  unfold ri; push_cast; ring

theorem cc1_r (G : Geo) (g : Rng) (i : ℤ) : cc1 G g i = r G g i := by unfold cc1 r ri; ring

theorem cc1_add (G : Geo) (g : Rng) (i : ℤ) : r G g i + 1 / 2 * G.dx1 = ri G g (i+1) := by
  rw [ri_succ]; unfold r; ring
theorem cc1_sub (G : Geo) (g : Rng) (i : ℤ) : r G g i - 1 / 2 * G.dx1 = ri G g i := by unfold r; ring
theorem cc2_add (G : Geo) (g : Rng) (j : ℤ) : cc2 G g j + 1 / 2 * G.dx2 = fc2 G g (j+1) := by
  unfold cc2 fc2; push_cast; ring
theorem cc2_sub (G : Geo) (g : Rng) (j : ℤ) : cc2 G g j - 1 / 2 * G.dx2 = fc2 G g j := by unfold cc2 fc2; ring
theorem cc3_add (G : Geo) (g : Rng) (k : ℤ) : cc3 G g k + 1 / 2 * G.dx3 = fc3 G g (k+1) := by
  unfold cc3 fc3; push_cast; ring
theorem cc3_sub (G : Geo) (g : Rng) (k : ℤ) : cc3 G g k - 1 / 2 * G.dx3 = fc3 G g k := by unfold cc3 fc3; ring

/-- The potential step with `phi`. -/
theorem grav_eq (P : Phys) (G : Geo) (g : Rng) (h ρ : ℝ) (F1 F2 F3 : Arr (Cons1 ℝ ns)) (k j i : ℤ) (u : Cons ℝ ns) :
    grav P G g h ρ F1 F2 F3 k j i u =
      { u with
        M1 := u.M1 - h * ρ * ((phi P (ri G g (i+1)) (cc2 G g j) (cc3 G g k) - phi P (ri G g i) (cc2 G g j) (cc3 G g k)) / G.dx1)
        M2 := u.M2 - h / (r G g i * G.dx2) * (phi P (r G g i) (fc2 G g (j+1)) (cc3 G g k) - phi P (r G g i) (fc2 G g j) (cc3 G g k)) * ρ
        M3 := u.M3 - h / G.dx3 * (phi P (r G g i) (cc2 G g j) (fc3 G g (k+1)) - phi P (r G g i) (cc2 G g j) (fc3 G g k)) * ρ
        E := u.E - h / G.dx1 * (lsf G g i * (F1 k j i).d * (phi P (r G g i) (cc2 G g j) (cc3 G g k) - phi P (ri G g i) (cc2 G g j) (cc3 G g k))
              + rsf G g i * (F1 k j (i+1)).d * (phi P (ri G g (i+1)) (cc2 G g j) (cc3 G g k) - phi P (r G g i) (cc2 G g j) (cc3 G g k)))
          - h / (r G g i * G.dx2) * ((F2 k j i).d * (phi P (r G g i) (cc2 G g j) (cc3 G g k) - phi P (r G g i) (fc2 G g j) (cc3 G g k))
              + (F2 k (j+1) i).d * (phi P (r G g i) (fc2 G g (j+1)) (cc3 G g k) - phi P (r G g i) (cc2 G g j) (cc3 G g k)))
          - h / G.dx3 * ((F3 k j i).d * (phi P (r G g i) (cc2 G g j) (cc3 G g k) - phi P (r G g i) (cc2 G g j) (fc3 G g k))
              + (F3 (k+1) j i).d * (phi P (r G g i) (cc2 G g j) (fc3 G g (k+1)) - phi P (r G g i) (cc2 G g j) (cc3 G g k))) } := by
  unfold grav phi
  cases P.pot with
  | none => ext <;> simp
  | some Φ => simp only [cc1_r, cc1_add, cc1_sub, cc2_add, cc2_sub, cc3_add, cc3_sub]

/-- What the last steps do to one active zone. -/
theorem cfinish_in (P : Phys) (G : Geo) (dt : ℝ) (g : Rng) (S : St ℝ ns) (Uh : Arr (Cons ℝ ns)) (F1 F2 F3 : Arr (Cons1 ℝ ns))
    (e1 e2 e3 : Arr ℝ) {k j i : ℤ} (hk : g.ks ≤ k) (hk' : k ≤ g.ke) (hj : g.js ≤ j) (hj' : j ≤ g.je) (hi : g.is ≤ i) (hi' : i ≤ g.ie) :
    (cfinish P G dt g S Uh F1 F2 F3 e1 e2 e3).U k j i =
      cupd3 G dt (F3 (k+1) j i) (F3 k j i) (cupd2 G g dt (F2 k (j+1) i) (F2 k j i) i (cupd1 G g dt (F1 k j (i+1)) (F1 k j i) i
        (geom P G g dt (Uh k j i) i (grav P G g dt (Uh k j i).d F1 F2 F3 k j i
          (cavgB G g (finB1 G dt g S e2 e3) (finB2 G dt g S e1 e3) (finB3 G dt g S e1 e2) k j i (S.U k j i)))))) := by
  simp (disch := omega) only [cfinish, actLoop_in]

/-- The balance of one zone. -/
theorem zone_balance (P : Phys) {G : Geo} (hG : Outside G) (dt : ℝ) (g : Rng) (S : St ℝ ns) (Uh : Arr (Cons ℝ ns))
    (F1 F2 F3 : Arr (Cons1 ℝ ns)) (e1 e2 e3 : Arr ℝ) (q : Quant ns) (hq : q.Free P)
    {k j i : ℤ} (hk : g.ks ≤ k) (hk' : k ≤ g.ke) (hj : g.js ≤ j) (hj' : j ≤ g.je) (hi : g.is ≤ i) (hi' : i ≤ g.ie) :
    r G g i * G.dx1 * G.dx2 * G.dx3 * q.dens P G g k j i ((cfinish P G dt g S Uh F1 F2 F3 e1 e2 e3).U k j i) =
      r G g i * G.dx1 * G.dx2 * G.dx3 * q.dens P G g k j i (S.U k j i)
        - dt * (ri G g (i+1) * G.dx2 * G.dx3 * q.flux1 P G g k j (i+1) (F1 k j (i+1)) - ri G g i * G.dx2 * G.dx3 * q.flux1 P G g k j i (F1 k j i))
        - dt * (G.dx1 * G.dx3 * q.flux2 P G g k (j+1) i (F2 k (j+1) i) - G.dx1 * G.dx3 * q.flux2 P G g k j i (F2 k j i))
        - dt * (r G g i * G.dx1 * G.dx2 * q.flux3 P G g (k+1) j i (F3 (k+1) j i) - r G g i * G.dx1 * G.dx2 * q.flux3 P G g k j i (F3 k j i)) := by
  rw [cfinish_in P G dt g S Uh F1 F2 F3 e1 e2 e3 hk hk' hj hj' hi hi', grav_eq]
  have hr := (r_pos hG hi).ne'
  have h1 := hG.dx1.ne'
  have h2 := hG.dx2.ne'
  have h3 := hG.dx3.ne'
  cases q with
  | mass =>
    simp only [Quant.dens, Quant.flux1, Quant.flux2, Quant.flux3, cupd3, cupd2, cupd1, upd3, upd2, geom, cavgB, rsf, lsf]
    field_simp
  | scalar n =>
    simp only [Quant.dens, Quant.flux1, Quant.flux2, Quant.flux3, cupd3, cupd2, cupd1, upd3, upd2, geom, cavgB, rsf, lsf]
    field_simp
  | vertical =>
    simp only [Quant.dens, Quant.flux1, Quant.flux2, Quant.flux3, cupd3, cupd2, cupd1, upd3, upd2, geom, cavgB, rsf, lsf]
    rw [hq _ _ (fc3 G g (k+1)) (fc3 G g k)]
    field_simp
    ring
  | angular =>
    simp only [Quant.dens, Quant.flux1, Quant.flux2, Quant.flux3, cupd3, cupd2, cupd1, upd3, upd2, geom, cavgB, rsf, lsf]
    rw [hq _ (fc2 G g (j+1)) (fc2 G g j)]
    field_simp
    ring
  | energy =>
    simp only [Quant.dens, Quant.flux1, Quant.flux2, Quant.flux3, cupd3, cupd2, cupd1, upd3, upd2, geom, cavgB, rsf, lsf]
    generalize phi P (r G g i) (cc2 G g j) (cc3 G g k) = pc
    generalize phi P (ri G g i) (cc2 G g j) (cc3 G g k) = pl1
    generalize phi P (ri G g (i+1)) (cc2 G g j) (cc3 G g k) = pr1
    generalize phi P (r G g i) (fc2 G g j) (cc3 G g k) = pl2
    generalize phi P (r G g i) (fc2 G g (j+1)) (cc3 G g k) = pr2
    generalize phi P (r G g i) (cc2 G g j) (fc3 G g k) = pl3
    generalize phi P (r G g i) (cc2 G g j) (fc3 G g (k+1)) = pr3
    field_simp
    ring

/-! ## Theorems -/

/-- **C91.** Whatever the fluxes, electric fields and half-step states, the totals of mass, angular momentum, vertical
momentum, energy and scalars on a Grid in cylindrical coordinates change by exactly what flows through its six
sides; angular momentum if the potential is axisymmetric, vertical momentum if it has no vertical force. -/
theorem cyl_update_conserves (P : Phys) {G : Geo} (hG : Outside G) (dt : ℝ) {g : Rng} {n1 n2 n3 : ℕ} (hg : Size g n1 n2 n3)
    (S : St ℝ ns) (Uh : Arr (Cons ℝ ns)) (F1 F2 F3 : Arr (Cons1 ℝ ns)) (e1 e2 e3 : Arr ℝ) (q : Quant ns) (hq : q.Free P) :
    total P G g n1 n2 n3 q (cfinish P G dt g S Uh F1 F2 F3 e1 e2 e3) =
      total P G g n1 n2 n3 q S - dt * outflow P G g n1 n2 n3 q F1 F2 F3 := by
  have key := zsum_flux n1 n2 n3 g.is g.js g.ks (fun k j i => r G g i * G.dx1 * G.dx2 * G.dx3 * q.dens P G g k j i (S.U k j i))
    (fun k j i => ri G g i * G.dx2 * G.dx3 * q.flux1 P G g k j i (F1 k j i))
    (fun k j i => G.dx1 * G.dx3 * q.flux2 P G g k j i (F2 k j i))
    (fun k j i => r G g i * G.dx1 * G.dx2 * q.flux3 P G g k j i (F3 k j i)) dt dt dt
  unfold total outflow
  rw [hg.h1, hg.h2, hg.h3, mul_add, mul_add, ← sub_sub, ← sub_sub, ← key]
  refine zsum_congr fun k j i a1 a2 a3 a4 a5 a6 => ?_
  have := hg.h1; have := hg.h2; have := hg.h3
  exact zone_balance P hG dt g S Uh F1 F2 F3 e1 e2 e3 q hq a1 (by omega) a3 (by omega) a5 (by omega)

/-- **C91.** A whole step of the integrator. -/
theorem cyl_conserves (P : Phys) {G : Geo} (hG : Outside G) (dt : ℝ) (M : CMethod W ns) {g : Rng} {n1 n2 n3 : ℕ}
    (hg : Size g n1 n2 n3) (S : St ℝ ns) (J : Work ℝ W ns) (q : Quant ns) (hq : q.Free P) :
    total P G g n1 n2 n3 q (integrateCyl P G dt M g S J) =
      total P G g n1 n2 n3 q S
        - dt * outflow P G g n1 n2 n3 q (cFlux1 P G dt M g S J) (cFlux2 P G dt M g S J) (cFlux3 P G dt M g S J) :=
  cyl_update_conserves P hG dt hg S _ _ _ _ _ _ _ q hq

/-- **C91.** Whatever the electric fields, the divergence of the field of every active zone is unchanged. -/
theorem cyl_update_divB (P : Phys) {G : Geo} (hG : Outside G) (dt : ℝ) (g : Rng) (S : St ℝ ns) (Uh : Arr (Cons ℝ ns))
    (F1 F2 F3 : Arr (Cons1 ℝ ns)) (e1 e2 e3 : Arr ℝ) {k j i : ℤ} (hk : g.ks ≤ k) (hk' : k ≤ g.ke) (hj : g.js ≤ j) (hj' : j ≤ g.je)
    (hi : g.is ≤ i) (hi' : i ≤ g.ie) :
    divCyl G g (cfinish P G dt g S Uh F1 F2 F3 e1 e2 e3) k j i = divCyl G g S k j i := by
  simp only [divCyl, cfinish, finB1, finB2, finB3]
  rw [addFaces1_in _ _ hk hk' hj hj' (by omega) (by omega), addFaces1_in _ _ hk hk' hj hj' hi (by omega),
    addFaces2_in _ _ hk hk' (by omega) (by omega) hi hi', addFaces2_in _ _ hk hk' hj (by omega) hi hi',
    addFaces3_in _ _ (by omega) (by omega) hj hj' hi hi', addFaces3_in _ _ hk (by omega) hj hj' hi hi']
  simp only [cct1, cct2, cct3, ct1, ct2, rsf, lsf]
  have hr := (r_pos hG hi).ne'
  have ha := (ri_pos hG hi).ne'
  have hb := (ri_pos hG (show g.is ≤ i + 1 by omega)).ne'
  have h1 := hG.dx1.ne'
  have h2 := hG.dx2.ne'
  have h3 := hG.dx3.ne'
  field_simp
  ring

/-- **C91.** A whole step keeps the divergence. -/
theorem cyl_divB (P : Phys) {G : Geo} (hG : Outside G) (dt : ℝ) (M : CMethod W ns) (g : Rng) (S : St ℝ ns) (J : Work ℝ W ns)
    {k j i : ℤ} (hk : g.ks ≤ k) (hk' : k ≤ g.ke) (hj : g.js ≤ j) (hj' : j ≤ g.je) (hi : g.is ≤ i) (hi' : i ≤ g.ie) :
    divCyl G g (integrateCyl P G dt M g S J) k j i = divCyl G g S k j i :=
  cyl_update_divB P hG dt g S _ _ _ _ _ _ _ hk hk' hj hj' hi hi'

end Athena.Cyl
