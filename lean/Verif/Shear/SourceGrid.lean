import Verif.Shear.SourceProps

/-!
# C125: the shearing-box source terms on a Grid
-/

namespace Athena.ShearSrc
open Athena.Vl3
open Athena.Cyl (Geo cc1 cc2 cc3 fc2 fc3)
open Athena.Static (fc1)

variable {ns : ℕ}

theorem step_zone {B : Box} {G : Geo} {g : Rng} {dt : ℝ} {Φ : PotFun} {fb : Arr Fb} {F1 F2 F3 : Arr (Cons1 ℝ ns)} {U U' : Arr (Cons ℝ ns)}
    (h : step B G g dt (some Φ) fb F1 F2 F3 U = .ok U')
    {k j i : ℤ} (hk : g.ks ≤ k) (hk' : k ≤ g.ke) (hj : g.js ≤ j) (hj' : j ≤ g.je) (hi : g.is ≤ i) (hi' : i ≤ g.ie) :
    U' k j i = zone B (cellAt G g dt k j i) Φ (fb k j i) (facesAt F1 F2 F3 k j i) (U k j i) := by
  unfold step at h
  simp only [Res.ok.injEq] at h
  rw [← h, actLoop_in _ _ hk hk' hj hj' hi hi', actLoop_in _ _ hk hk' hj hj' hi hi', actLoop_in _ _ hk hk' hj hj' hi hi']
  rfl

/-! ## Specification: totals over the Grid -/

/-- What has no source in the shearing box: mass, momentum along the axis, energy with that in the potential, scalars. -/
inductive Kept (ns : ℕ) where
  | mass
  | axial
  | energy
  | scalar (n : Fin ns)

section
variable (B : Box) (Φ : PotFun) (G : Geo) (g : Rng)

/-- The amount per unit volume in zone `(k, j, i)`. -/
noncomputable def Kept.dens (k j i : ℤ) : Kept ns → Cons ℝ ns → ℝ
  | .mass, u => u.d
  | .axial, u => if B.az then u.M2 else u.M3
  | .energy, u => u.E + Φ (cc1 G g i) (cc2 G g j) (cc3 G g k) * u.d
  | .scalar n, u => u.s n

/-- The fluxes through the faces. -/
noncomputable def Kept.flux1 (k j i : ℤ) : Kept ns → Cons1 ℝ ns → ℝ
  | .mass, f => f.d
  | .axial, f => if B.az then f.My else f.Mz
  | .energy, f => f.E + Φ (fc1 G g i) (cc2 G g j) (cc3 G g k) * f.d
  | .scalar n, f => f.s n
noncomputable def Kept.flux2 (k j i : ℤ) : Kept ns → Cons1 ℝ ns → ℝ
  | .mass, f => f.d
  | .axial, f => if B.az then f.Mx else f.My
  | .energy, f => f.E + Φ (cc1 G g i) (fc2 G g j) (cc3 G g k) * f.d
  | .scalar n, f => f.s n
noncomputable def Kept.flux3 (k j i : ℤ) : Kept ns → Cons1 ℝ ns → ℝ
  | .mass, f => f.d
  | .axial, f => f.Mx
  | .energy, f => f.E + Φ (cc1 G g i) (cc2 G g j) (fc3 G g k) * f.d
  | .scalar n, f => f.s n

/-- The flux of relative azimuthal momentum, with the shear at the face. -/
noncomputable def rel1 (F : Arr (Cons1 ℝ ns)) : Arr ℝ := fun k j i => relFlux B (fc1 G g i) (B.fx1 (F k j i)) (F k j i).d
noncomputable def rel2 (F : Arr (Cons1 ℝ ns)) : Arr ℝ := fun k j i => relFlux B (cc1 G g i) (B.fx2 (F k j i)) (F k j i).d
noncomputable def rel3 (F : Arr (Cons1 ℝ ns)) : Arr ℝ := fun k j i => relFlux B (cc1 G g i) (F k j i).Mz (F k j i).d

end

theorem face_hi (G : Geo) (g : Rng) (i : ℤ) : cc1 G g i + G.dx1 / 2 = fc1 G g (i+1) := by unfold cc1 fc1; push_cast; ring
theorem face_lo (G : Geo) (g : Rng) (i : ℤ) : cc1 G g i - G.dx1 / 2 = fc1 G g i := by unfold cc1 fc1; ring
theorem face_hi' (G : Geo) (g : Rng) (i : ℤ) : cc1 G g i + 1 / 2 * G.dx1 = fc1 G g (i+1) := by unfold cc1 fc1; push_cast; ring
theorem face_lo' (G : Geo) (g : Rng) (i : ℤ) : cc1 G g i - 1 / 2 * G.dx1 = fc1 G g i := by unfold cc1 fc1; ring

theorem zone_kept (B : Box) (Φ : PotFun) (G : Geo) (g : Rng) (dt : ℝ) (F1 F2 F3 : Arr (Cons1 ℝ ns)) (k j i : ℤ) (u : Cons ℝ ns) (q : Kept ns) :
    q.dens B Φ G g k j i (zone B (cellAt G g dt k j i) Φ ⟨0, 0, 0⟩ (facesAt F1 F2 F3 k j i) u) = q.dens B Φ G g k j i u
      - dt / G.dx1 * (q.flux1 B Φ G g k j (i+1) (F1 k j (i+1)) - q.flux1 B Φ G g k j i (F1 k j i))
      - dt / G.dx2 * (q.flux2 B Φ G g k (j+1) i (F2 k (j+1) i) - q.flux2 B Φ G g k j i (F2 k j i))
      - (if 3 ≤ B.nd then dt / G.dx3 else 0) * (q.flux3 Φ G g (k+1) j i (F3 (k+1) j i) - q.flux3 Φ G g k j i (F3 k j i)) := by
  unfold zone flow back heave turn Box.addMom cellAt facesAt
  simp only [face_hi', face_lo', Cyl.cc2_add, Cyl.cc2_sub, Cyl.cc3_add, Cyl.cc3_sub]
  by_cases ha : B.az = true
  · have h3 := xz_flat ha
    by_cases hf : B.fargo = true <;> cases q <;>
      simp only [Kept.dens, Kept.flux1, Kept.flux2, Kept.flux3, h3, hf, ha, if_true, if_false, Bool.false_eq_true, upd1, upd2, upd3] <;> ring
  · by_cases h3 : 3 ≤ B.nd <;> by_cases hf : B.fargo = true <;> cases q <;>
      simp only [Kept.dens, Kept.flux1, Kept.flux2, Kept.flux3, h3, hf, ha, if_true, if_false, Bool.false_eq_true, upd1, upd2, upd3] <;> ring

/-- **C125, conservation.**  In the shearing box the totals of mass, of momentum along the axis, of scalars, and of energy including that in
`ShearingBoxPot`, change by the flow through the sides of the Grid only. -/
theorem shear_conserves (B : Box) (Φ : PotFun) (G : Geo) (dt : ℝ) {g : Rng} {n1 n2 n3 : ℕ} (hg : Size g n1 n2 n3)
    (F1 F2 F3 : Arr (Cons1 ℝ ns)) (U U' : Arr (Cons ℝ ns)) (h : step B G g dt (some Φ) (fun _ _ _ => ⟨0, 0, 0⟩) F1 F2 F3 U = .ok U') (q : Kept ns) :
    zsum n1 n2 n3 g.is g.js g.ks (fun k j i => q.dens B Φ G g k j i (U' k j i)) =
      zsum n1 n2 n3 g.is g.js g.ks (fun k j i => q.dens B Φ G g k j i (U k j i))
        - dt / G.dx1 * (fsum1 n2 n3 g.js g.ks (g.ie+1) (fun k j i => q.flux1 B Φ G g k j i (F1 k j i))
            - fsum1 n2 n3 g.js g.ks g.is (fun k j i => q.flux1 B Φ G g k j i (F1 k j i)))
        - dt / G.dx2 * (fsum2 n1 n3 g.is g.ks (g.je+1) (fun k j i => q.flux2 B Φ G g k j i (F2 k j i))
            - fsum2 n1 n3 g.is g.ks g.js (fun k j i => q.flux2 B Φ G g k j i (F2 k j i)))
        - (if 3 ≤ B.nd then dt / G.dx3 else 0) * (fsum3 n1 n2 g.is g.js (g.ke+1) (fun k j i => q.flux3 Φ G g k j i (F3 k j i))
            - fsum3 n1 n2 g.is g.js g.ks (fun k j i => q.flux3 Φ G g k j i (F3 k j i))) := by
  rw [hg.h1, hg.h2, hg.h3, ← zsum_flux]
  refine zsum_congr fun k j i a1 a2 a3 a4 a5 a6 => ?_
  have := hg.h1; have := hg.h2; have := hg.h3
  rw [step_zone h a1 (by omega) a3 (by omega) a5 (by omega)]
  exact zone_kept B Φ G g dt F1 F2 F3 k j i (U k j i) q

theorem zsum_axpy (n1 n2 n3 : ℕ) (is js ks : ℤ) (f h : Arr ℝ) (a : ℝ) :
    zsum n1 n2 n3 is js ks (fun k j i => f k j i + a * h k j i) = zsum n1 n2 n3 is js ks f + a * zsum n1 n2 n3 is js ks h := by
  simp only [zsum, Finset.sum_add_distrib, Finset.mul_sum]

/-- The totals of the momentum along x1 and of the relative azimuthal momentum. -/
noncomputable def tot1 (g : Rng) (n1 n2 n3 : ℕ) (U : Arr (Cons ℝ ns)) : ℝ := zsum n1 n2 n3 g.is g.js g.ks (fun k j i => (U k j i).M1)
noncomputable def totRel (B : Box) (G : Geo) (g : Rng) (n1 n2 n3 : ℕ) (U : Arr (Cons ℝ ns)) : ℝ :=
  zsum n1 n2 n3 g.is g.js g.ks (fun k j i => rel B (cc1 G g i) (U k j i))

/-- No net flow of the two momenta through the sides of the Grid, as with the boundary conditions of the shearing box on one Grid. -/
structure Closed (B : Box) (G : Geo) (g : Rng) (n1 n2 n3 : ℕ) (F1 F2 F3 : Arr (Cons1 ℝ ns)) : Prop where
  a1 : fsum1 n2 n3 g.js g.ks (g.ie+1) (fun k j i => (F1 k j i).Mx) = fsum1 n2 n3 g.js g.ks g.is (fun k j i => (F1 k j i).Mx)
  a2 : fsum2 n1 n3 g.is g.ks (g.je+1) (fun k j i => (F2 k j i).Mz) = fsum2 n1 n3 g.is g.ks g.js (fun k j i => (F2 k j i).Mz)
  a3 : 3 ≤ B.nd → fsum3 n1 n2 g.is g.js (g.ke+1) (fun k j i => (F3 k j i).My) = fsum3 n1 n2 g.is g.js g.ks (fun k j i => (F3 k j i).My)
  b1 : fsum1 n2 n3 g.js g.ks (g.ie+1) (rel1 B G g F1) = fsum1 n2 n3 g.js g.ks g.is (rel1 B G g F1)
  b2 : fsum2 n1 n3 g.is g.ks (g.je+1) (rel2 B G g F2) = fsum2 n1 n3 g.is g.ks g.js (rel2 B G g F2)
  b3 : 3 ≤ B.nd → fsum3 n1 n2 g.is g.js (g.ke+1) (rel3 B G g F3) = fsum3 n1 n2 g.is g.js g.ks (rel3 B G g F3)

/-- **C125, the mean motion.**  If there is no net flow of momentum through the sides, then whatever goes on inside the Grid the total momenta of the
box solve the Crank-Nicholson equations of one epicycle. -/
theorem box_epicycle (B : Box) (Φ : PotFun) (G : Geo) (dt : ℝ) {g : Rng} {n1 n2 n3 : ℕ} (hg : Size g n1 n2 n3) (hx : G.dx1 ≠ 0) (hq : B.q ≤ 2)
    (F1 F2 F3 : Arr (Cons1 ℝ ns)) (hc : Closed B G g n1 n2 n3 F1 F2 F3) (U U' : Arr (Cons ℝ ns))
    (h : step B G g dt (some Φ) (fun _ _ _ => ⟨0, 0, 0⟩) F1 F2 F3 U = .ok U') :
    tot1 g n1 n2 n3 U' - tot1 g n1 n2 n3 U = dt * B.Om * 2 * ((totRel B G g n1 n2 n3 U + totRel B G g n1 n2 n3 U') / 2) ∧
    totRel B G g n1 n2 n3 U' - totRel B G g n1 n2 n3 U = dt * B.Om * (B.q - 2) * ((tot1 g n1 n2 n3 U + tot1 g n1 n2 n3 U') / 2) := by
  have h1 := hg.h1; have h2 := hg.h2; have h3 := hg.h3
  have hb : B.fb ⟨0, 0, 0⟩ = 0 := by unfold Box.fb; split_ifs <;> rfl
  have hz : ∀ k j i, g.ks ≤ k → k < g.ks + n3 → g.js ≤ j → j < g.js + n2 → g.is ≤ i → i < g.is + n1 → _ := fun k j i a1 a2 a3 a4 a5 a6 =>
    (step_zone h a1 (by omega : k ≤ g.ke) a3 (by omega : j ≤ g.je) a5 (by omega : i ≤ g.ie) :
      U' k j i = zone B (cellAt G g dt k j i) Φ ⟨0, 0, 0⟩ (facesAt F1 F2 F3 k j i) (U k j i))
  constructor
  · have e : tot1 g n1 n2 n3 U' = zsum n1 n2 n3 g.is g.js g.ks (fun k j i =>
        ((U k j i).M1 + dt * B.Om * (rel B (cc1 G g i) (U k j i) + 1 * rel B (cc1 G g i) (U' k j i)))
        - dt / G.dx1 * ((F1 k j (i+1)).Mx - (F1 k j i).Mx) - dt / G.dx2 * ((F2 k (j+1) i).Mz - (F2 k j i).Mz)
        - (if 3 ≤ B.nd then dt / G.dx3 else 0) * ((F3 (k+1) j i).My - (F3 k j i).My)) := by
      refine zsum_congr fun k j i a1 a2 a3 a4 a5 a6 => ?_
      have := (crank_nicholson B (cellAt G g dt k j i) Φ ⟨0, 0, 0⟩ (facesAt F1 F2 F3 k j i) (U k j i) hx (denom_pos hq)).1
      rw [← hz k j i a1 a2 a3 a4 a5 a6] at this
      unfold net1 cellAt facesAt at this
      dsimp only at this
      split_ifs at this ⊢ with q3 <;> linear_combination this
    rw [zsum_flux n1 n2 n3 g.is g.js g.ks (fun k j i => (U k j i).M1 + dt * B.Om * (rel B (cc1 G g i) (U k j i) + 1 * rel B (cc1 G g i) (U' k j i)))
      (fun k j i => (F1 k j i).Mx) (fun k j i => (F2 k j i).Mz) (fun k j i => (F3 k j i).My), zsum_axpy, zsum_axpy, ← h1, ← h2, ← h3, hc.a1, hc.a2] at e
    have e3 : (if 3 ≤ B.nd then dt / G.dx3 else 0) * (fsum3 n1 n2 g.is g.js (g.ke+1) (fun k j i => (F3 k j i).My)
        - fsum3 n1 n2 g.is g.js g.ks (fun k j i => (F3 k j i).My)) = 0 := by
      split_ifs with q3
      · rw [hc.a3 q3]; ring
      · ring
    unfold totRel
    rw [e]
    unfold tot1
    linear_combination -e3
  · have e : totRel B G g n1 n2 n3 U' = zsum n1 n2 n3 g.is g.js g.ks (fun k j i =>
        (rel B (cc1 G g i) (U k j i) + dt * B.Om * (B.q - 2) / 2 * ((U k j i).M1 + 1 * (U' k j i).M1))
        - dt / G.dx1 * (rel1 B G g F1 k j (i+1) - rel1 B G g F1 k j i) - dt / G.dx2 * (rel2 B G g F2 k (j+1) i - rel2 B G g F2 k j i)
        - (if 3 ≤ B.nd then dt / G.dx3 else 0) * (rel3 B G g F3 (k+1) j i - rel3 B G g F3 k j i)) := by
      refine zsum_congr fun k j i a1 a2 a3 a4 a5 a6 => ?_
      have := (crank_nicholson B (cellAt G g dt k j i) Φ ⟨0, 0, 0⟩ (facesAt F1 F2 F3 k j i) (U k j i) hx (denom_pos hq)).2
      rw [← hz k j i a1 a2 a3 a4 a5 a6, hb] at this
      unfold netRel cellAt facesAt at this
      dsimp only at this
      rw [face_hi, face_lo] at this
      unfold rel1 rel2 rel3
      split_ifs at this ⊢ with q3 <;> linear_combination this
    rw [zsum_flux n1 n2 n3 g.is g.js g.ks (fun k j i => rel B (cc1 G g i) (U k j i) + dt * B.Om * (B.q - 2) / 2 * ((U k j i).M1 + 1 * (U' k j i).M1))
      (rel1 B G g F1) (rel2 B G g F2) (rel3 B G g F3), zsum_axpy, zsum_axpy, ← h1, ← h2, ← h3, hc.b1, hc.b2] at e
    have e3 : (if 3 ≤ B.nd then dt / G.dx3 else 0) * (fsum3 n1 n2 g.is g.js (g.ke+1) (rel3 B G g F3) - fsum3 n1 n2 g.is g.js g.ks (rel3 B G g F3)) = 0 := by
      split_ifs with q3
      · rw [hc.b3 q3]; ring
      · ring
    unfold tot1
    rw [e]
    unfold totRel
    linear_combination -e3

/-- Any number of steps with any time steps and fluxes without net flow through the sides; between them the boundary conditions may set the ghost zones:
only the active zones are carried on. -/
inductive Runs (B : Box) (G : Geo) (g : Rng) (n1 n2 n3 : ℕ) : Arr (Cons ℝ ns) → Arr (Cons ℝ ns) → Prop
  | stop (U) : Runs B G g n1 n2 n3 U U
  | more {U V V' W} (Φ dt) (F1 F2 F3 : Arr (Cons1 ℝ ns)) (r : Runs B G g n1 n2 n3 U V)
      (b : ∀ k j i, g.ks ≤ k → k ≤ g.ke → g.js ≤ j → j ≤ g.je → g.is ≤ i → i ≤ g.ie → V' k j i = V k j i)
      (hc : Closed B G g n1 n2 n3 F1 F2 F3) (h : step B G g dt (some Φ) (fun _ _ _ => ⟨0, 0, 0⟩) F1 F2 F3 V' = .ok W) : Runs B G g n1 n2 n3 U W

/-- **C125, the epicyclic energy of the box** is kept exactly by every run, however long and whatever its time steps. -/
theorem box_epicyclic_energy (B : Box) (G : Geo) {g : Rng} {n1 n2 n3 : ℕ} (hg : Size g n1 n2 n3) (hx : G.dx1 ≠ 0) (hq : B.q ≤ 2)
    {U W : Arr (Cons ℝ ns)} (r : Runs B G g n1 n2 n3 U W) :
    (2 - B.q) * tot1 g n1 n2 n3 W ^ 2 + 2 * totRel B G g n1 n2 n3 W ^ 2 = (2 - B.q) * tot1 g n1 n2 n3 U ^ 2 + 2 * totRel B G g n1 n2 n3 U ^ 2 := by
  have h1 := hg.h1; have h2 := hg.h2; have h3 := hg.h3
  induction r with
  | stop => rfl
  | @more V V' W Φ dt F1 F2 F3 _ b hc h ih =>
    have e1 : tot1 g n1 n2 n3 V' = tot1 g n1 n2 n3 V :=
      zsum_congr fun k j i a1 a2 a3 a4 a5 a6 => by rw [b k j i a1 (by omega) a3 (by omega) a5 (by omega)]
    have e2 : totRel B G g n1 n2 n3 V' = totRel B G g n1 n2 n3 V :=
      zsum_congr fun k j i a1 a2 a3 a4 a5 a6 => by rw [b k j i a1 (by omega) a3 (by omega) a5 (by omega)]
    obtain ⟨c1, c2⟩ := box_epicycle B Φ G dt hg hx hq F1 F2 F3 hc V' W h
    rw [ellipse c1 c2, e1, e2, ih]

/-! ## The predictor -/

/-- The tide, `UnstratifiedDisk` of prob/hgb.c:716-723. -/
noncomputable def tide (B : Box) : PotFun := fun x _ _ => if B.fargo then 0 else -(B.q * B.Om * B.Om * x * x)

/-- **C125, the predictor.**  With the potential of the tide the predictor gives each zone, for half a time step, the same forces as the equations of
motion: `2ΩδM` along x1 at the beginning of the step; along the azimuth `-2ΩM1`, or `(q-2)ΩM1` with FARGO. -/
theorem predictor_forces (B : Box) (c : Cell) (hx : c.dx1 ≠ 0) (f : Faces ns) (u v : Cons ℝ ns) :
    let w := half B c (some (tide B)) f u v
    w.M1 = v.M1 + c.dt / 2 * (2 * B.Om * rel B c.x1 u) ∧
    B.mom w = B.mom v + c.dt / 2 * ((if B.fargo then B.q - 2 else -2) * B.Om * u.M1) ∧
    w.d = v.d ∧ (if B.az then w.M2 = v.M2 else w.M3 = v.M3) := by
  have key : c.dt / c.dx1 * c.dx1 = c.dt := div_mul_cancel₀ _ hx
  intro w
  by_cases ha : B.az = true
  · have h3 := xz_flat ha
    by_cases hf : B.fargo = true <;> refine ⟨?_, ?_, ?_, ?_⟩ <;>
      simp only [w, half, tide, rel, Box.mom, Box.addMom, omdt, h3, hf, ha, if_true, if_false, Bool.false_eq_true] <;>
      first | ring1 | linear_combination (B.q * B.Om ^ 2 * c.x1 * u.d) * key
  · by_cases h3 : 3 ≤ B.nd <;> by_cases hf : B.fargo = true <;> refine ⟨?_, ?_, ?_, ?_⟩ <;>
      simp only [w, half, tide, rel, Box.mom, Box.addMom, omdt, h3, hf, ha, if_true, if_false, Bool.false_eq_true] <;>
      first | ring1 | linear_combination (B.q * B.Om ^ 2 * c.x1 * u.d) * key

/-! ## The force of the potential -/

/-- **C126, for the potential of the tide.**  Without FARGO the gas feels, in the mean of the old and the new state, the Coriolis force and the force
`-ρ∇Φ` of the potential of the tide.  Missing: every other potential (`potential_no_force`, `stratified_false`), and none (`null_potential_false`). -/
theorem tide_force_partial (B : Box) (hf : B.fargo = false) (c : Cell) (f : Faces ns) (u : Cons ℝ ns) (hx : c.dx1 ≠ 0) (hq : B.q ≤ 2) :
    let u' := zone B c (tide B) ⟨0, 0, 0⟩ f u
    u'.M1 - u.M1 = -(net1 B c f) + c.dt * (2 * B.Om * ((B.mom u + B.mom u') / 2)
      - (u.d + u'.d) / 2 * ((tide B (c.x1 + c.dx1 / 2) c.x2 c.x3 - tide B (c.x1 - c.dx1 / 2) c.x2 c.x3) / c.dx1)) := by
  intro u'
  have h := (crank_nicholson B c (tide B) ⟨0, 0, 0⟩ f u hx (denom_pos hq)).1
  have ht : (tide B (c.x1 + c.dx1 / 2) c.x2 c.x3 - tide B (c.x1 - c.dx1 / 2) c.x2 c.x3) / c.dx1 = -(2 * B.q * B.Om ^ 2 * c.x1) := by
    simp only [tide, hf, Bool.false_eq_true, if_false]
    field_simp
    ring
  rw [ht]
  simp only [rel, hf, Bool.false_eq_true, if_false] at h
  linear_combination h

/-! ## Findings -/

/-- **C126, finding.**  The predictor allows for a `NULL` `ShearingBoxPot`, its initial value (globals.h:32); the last step calls it: a run of the
shearing box whose problem does not set it has undefined behaviour in its first step, even a barotropic one, which does not use the values. -/
theorem null_potential_false (B : Box) (G : Geo) (g : Rng) (dt : ℝ) (fb : Arr Fb) (F1 F2 F3 : Arr (Cons1 ℝ ns)) (U : Arr (Cons ℝ ns))
    (h : g.ks ≤ g.ke ∧ g.js ≤ g.je ∧ g.is ≤ g.ie) : step B G g dt none fb F1 F2 F3 U = .ub := by
  unfold step; rw [if_pos h]

/-- **C126, finding.**  The momenta after the step do not depend on `ShearingBoxPot`: of its force only the tide `2qΩ²x` is there, hard-coded. -/
theorem potential_no_force (B : Box) (c : Cell) (Φ Ψ : PotFun) (b : Fb) (f : Faces ns) (u : Cons ℝ ns) :
    (zone B c Φ b f u).M1 = (zone B c Ψ b f u).M1 ∧ (zone B c Φ b f u).M2 = (zone B c Ψ b f u).M2 ∧
    (zone B c Φ b f u).M3 = (zone B c Ψ b f u).M3 := by
  unfold zone flow back heave turn Box.addMom
  by_cases ha : B.az = true <;> by_cases h3 : 3 ≤ B.nd <;> by_cases hf : B.fargo = true <;>
    simp only [h3, hf, ha, if_true, if_false, Bool.false_eq_true, upd1, upd2, upd3, and_self]

/-- The problem prob/par_strat3d.c puts the vertical gravity `Ω²z²/2` into `ShearingBoxPot` (:485-510; here without the smoothing at the edges). -/
noncomputable def strat (B : Box) : PotFun := fun x y z => tide B x y z + 1 / 2 * B.Om ^ 2 * z ^ 2

/-- A zone at rest in a column in hydrostatic equilibrium: the pressure on its lower and upper face holds the weight of the gas. -/
noncomputable def rest (ρ : ℝ) : Cons ℝ 0 := ⟨ρ, 0, 0, 0, 1, 0, 0, 0, fun n => n.elim0⟩
noncomputable def press (p : ℝ) : Cons1 ℝ 0 := ⟨0, p, 0, 0, 0, 0, 0, fun n => n.elim0⟩
noncomputable def column (ρ p g dz : ℝ) : Faces 0 := ⟨press p, press p, press p, press p, press (p + 1 / 2 * ρ * g * dz), press (p - 1 / 2 * ρ * g * dz)⟩

/-- **C126, finding.**  Such a disk is not in equilibrium: in hydrostatic balance with the gravity of `ShearingBoxPot`, at height `z`, the gas gains the
momentum `ρΩ²z dt` in a step, as if there were no gravity.  (With FARGO, so that the zone is at rest in the variables used.) -/
theorem stratified_false (c : Cell) (hz : c.dx3 ≠ 0) (B : Box) (hB : B.fargo = true ∧ B.nd = 3) (ρ p : ℝ) :
    (zone B c (strat B) ⟨0, 0, 0⟩ (column ρ p (B.Om ^ 2 * c.x3) c.dx3) (rest ρ)).M3 = c.dt * (ρ * (B.Om ^ 2 * c.x3)) ∧
    (half B c (some (strat B)) (column ρ p (B.Om ^ 2 * c.x3) c.dx3) (rest ρ)
      (flow B { c with dt := c.dt / 2 } (column ρ p (B.Om ^ 2 * c.x3) c.dx3) (rest ρ))).M3 = 0 := by
  have key : c.dt / c.dx3 * c.dx3 = c.dt := div_mul_cancel₀ _ hz
  have k2 : c.dt / 2 / c.dx3 * c.dx3 = c.dt / 2 := div_mul_cancel₀ _ hz
  have ha : B.az = false := by unfold Box.az; simp [hB.2]
  have h3 : 3 ≤ B.nd := by omega
  constructor
  · simp only [zone, flow, back, heave, turn, Box.addMom, hB.1, ha, h3, if_true, if_false, Bool.false_eq_true, upd1, upd2, upd3, rest, column, press]
    linear_combination (ρ * B.Om ^ 2 * c.x3) * key
  · simp only [half, flow, strat, tide, Box.addMom, Box.mom, hB.1, ha, h3, if_true, if_false, Bool.false_eq_true, upd1, upd2, upd3, rest, column, press]
    linear_combination (ρ * B.Om ^ 2 * c.x3) * k2 - (1 / 2 * ρ * B.Om ^ 2 * c.x3) * key

/-! ## Witnesses -/

/-- A Keplerian box. -/
noncomputable def kepler : Box := ⟨3 / 2, 1, false, false, 3⟩

/-- The equilibrium flow of `shear_steady` at `x1 = 1`, density 2, pressure 5: mass moves along x2. -/
example : ∃ (c : Cell) (f : Faces 0) (u : Cons ℝ 0), c.dx1 ≠ 0 ∧ kepler.q < 2 ∧ net1 kepler c f = 0 ∧ netRel kepler c f = 0 ∧ u.M1 = 0 ∧
    rel kepler c.x1 u = 0 ∧ u.M2 = -3 ∧ f.r2.d = -3 := by
  refine ⟨⟨1, 0, 0, 1, 1, 1, 1 / 10⟩, ⟨⟨0, 5, 0, 0, 0, 0, 0, fun _ => 0⟩, ⟨0, 5, 0, 0, 0, 0, 0, fun _ => 0⟩, ⟨-3, 19 / 2, 0, 0, 0, 0, 0, fun _ => 0⟩,
    ⟨-3, 19 / 2, 0, 0, 0, 0, 0, fun _ => 0⟩, ⟨0, 5, 0, 0, 0, 0, 0, fun _ => 0⟩, ⟨0, 5, 0, 0, 0, 0, 0, fun _ => 0⟩⟩, ⟨2, 0, -3, 0, 20, 0, 0, 0, fun _ => 0⟩, ?_⟩
  have : kepler.az = false := by simp [Box.az, kepler]
  refine ⟨by norm_num, by norm_num [kepler], ?_, ?_, rfl, ?_, rfl, rfl⟩
  · norm_num [net1]
  · simp [netRel, relFlux, Box.fx1, Box.fx2, this]
  · simp [rel, Box.mom, this]; norm_num [kepler]

/-- `Closed` and `Size`: uniform fluxes across a 2 by 2 by 2 Grid with FARGO. -/
example : Size ⟨4, 5, 4, 5, 4, 5, 4⟩ 2 2 2 ∧ Closed ⟨3 / 2, 1, true, false, 3⟩ ⟨0, 0, 0, 1, 1, 1⟩ ⟨4, 5, 4, 5, 4, 5, 4⟩ 2 2 2
    (fun _ _ _ => (⟨1, 5, 7, 2, 3, 0, 0, fun _ => 0⟩ : Cons1 ℝ 0)) (fun _ _ _ => ⟨1, 5, 7, 2, 3, 0, 0, fun _ => 0⟩) (fun _ _ _ => ⟨1, 5, 7, 2, 3, 0, 0, fun _ => 0⟩) := by
  refine ⟨by constructor <;> decide, ?_⟩
  constructor <;> intros <;> simp [fsum1, fsum2, fsum3, rel1, rel2, rel3, relFlux]

/-- A run of one step. -/
example (U : Arr (Cons ℝ 0)) : ∃ W, Runs ⟨3 / 2, 1, true, false, 3⟩ ⟨0, 0, 0, 1, 1, 1⟩ ⟨4, 5, 4, 5, 4, 5, 4⟩ 2 2 2 U W :=
  ⟨_, .more (fun _ _ _ => 0) (1 / 10) (fun _ _ _ => ⟨1, 5, 7, 2, 3, 0, 0, fun _ => 0⟩) (fun _ _ _ => ⟨1, 5, 7, 2, 3, 0, 0, fun _ => 0⟩)
    (fun _ _ _ => ⟨1, 5, 7, 2, 3, 0, 0, fun _ => 0⟩) (.stop U) (fun _ _ _ _ _ _ _ _ _ => rfl)
    (by constructor <;> intros <;> simp [fsum1, fsum2, fsum3, rel1, rel2, rel3, relFlux]) rfl⟩

example (Φ : PotFun) (fb : Arr Fb) (F1 F2 F3 : Arr (Cons1 ℝ 0)) (U : Arr (Cons ℝ 0)) (G : Geo) (g : Rng) :
    ∃ U', step kepler G g 1 (some Φ) fb F1 F2 F3 U = .ok U' := ⟨_, rfl⟩

end Athena.ShearSrc
