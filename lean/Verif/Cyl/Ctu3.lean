import Verif.Cyl.Vl3Props
import Verif.Fofc.Fix3

/-!
# src/integrators/integrate_3d_ctu.c in cylindrical coordinates: the last steps

Steps 10b-12d of the 3D CTU integrator under `CYLINDRICAL`, from arbitrary fluxes and electric fields; without
`FARGO`, self-gravity, particles, cooling and mesh refinement, with or without `ROTATING_FRAME`.  Exact arithmetic.
Cell-centred fields are not used between steps 10b and 12d, where they are set from the interface fields.
-/

namespace Athena.Cyl
open Athena.Vl3
open Athena.Fofc (zones InGrid)

variable {ns : ℕ}

/-- What the earlier steps leave behind: the final fluxes with their `Pflux`, the corner electric fields, and from the
half-step the interface fields and the geometric source term. -/
structure CtuIn (ns : ℕ) where
  F1 : Arr (Cons1 ℝ ns)
  F2 : Arr (Cons1 ℝ ns)
  F3 : Arr (Cons1 ℝ ns)
  Pflux : Arr ℝ
  e1 : Arr ℝ
  e2 : Arr ℝ
  e3 : Arr ℝ
  B1F : Arr ℝ
  B2F : Arr ℝ
  B3F : Arr ℝ
  geom : Arr ℝ

section
variable (P : Phys) (Om0 : Option ℝ) (G : Geo) (dt : ℝ) (g : Rng) (X : CtuIn ns)

/-- `dhalf`, integrate_3d_ctu.c:2746-2749. -/
noncomputable def dhalf (U : Arr (Cons ℝ ns)) (k j i : ℤ) : ℝ :=
  let hdt := 1 / 2 * dt
  (U k j i).d - hdt / G.dx1 * (rsf G g i * (X.F1 k j (i+1)).d - lsf G g i * (X.F1 k j i).d)
    - hdt / (r G g i * G.dx2) * ((X.F2 k (j+1) i).d - (X.F2 k j i).d) - hdt / G.dx3 * ((X.F3 (k+1) j i).d - (X.F3 k j i).d)

/-- `M1h`, integrate_3d_ctu.c:2800-2804, 2810-2816, 2821: the potential acts on the density of plane `ks`. -/
noncomputable def m1h (U : Arr (Cons ℝ ns)) (k j i : ℤ) : ℝ :=
  let hdt := 1 / 2 * dt
  let m := (U k j i).M1 - hdt / G.dx1 * (rsf G g i * (X.F1 k j (i+1)).Mx - lsf G g i * (X.F1 k j i).Mx)
    - hdt / (r G g i * G.dx2) * ((X.F2 k (j+1) i).Mz - (X.F2 k j i).Mz) - hdt / G.dx3 * ((X.F3 (k+1) j i).My - (X.F3 k j i).My)
    + hdt * X.geom k j i
  let m := match P.pot with
    | none => m
    | some Φ => m - hdt * (U g.ks j i).d * ((Φ (cc1 G g i + 1 / 2 * G.dx1) (cc2 G g j) (cc3 G g k)
        - Φ (cc1 G g i - 1 / 2 * G.dx1) (cc2 G g j) (cc3 G g k)) / G.dx1)
  match Om0 with
  | none => m
  | some Om => m + dt * Om * (U g.ks j i).M2

/-- `M2h`, integrate_3d_ctu.c:2805-2808, 2817-2819, 2822. -/
noncomputable def m2h (U : Arr (Cons ℝ ns)) (k j i : ℤ) : ℝ :=
  let hdt := 1 / 2 * dt
  let q2 := hdt / (r G g i * G.dx2)
  let m := (U k j i).M2 - hdt / G.dx1 * (rsf G g i ^ 2 * (X.F1 k j (i+1)).My - lsf G g i ^ 2 * (X.F1 k j i).My)
    - q2 * ((X.F2 k (j+1) i).Mx - (X.F2 k j i).Mx) - hdt / G.dx3 * ((X.F3 (k+1) j i).Mz - (X.F3 k j i).Mz)
  let m := match P.pot with
    | none => m
    | some Φ => m - q2 * (Φ (cc1 G g i) (cc2 G g j + 1 / 2 * G.dx2) (cc3 G g k)
        - Φ (cc1 G g i) (cc2 G g j - 1 / 2 * G.dx2) (cc3 G g k)) * (U k j i).d
  match Om0 with
  | none => m
  | some Om => m - dt * Om * (U g.ks j i).M1

/-- `geom_src`, integrate_3d_ctu.c:2826-2844. -/
noncomputable def geoSrc (U : Arr (Cons ℝ ns)) (k j i : ℤ) : ℝ :=
  let dh := dhalf G dt g X U k j i
  let B2ch := 1 / 2 * (X.B2F k j i + X.B2F k (j+1) i)
  let p := match P.eos with
    | .isothermal cs2 =>
      let B1ch := 1 / 2 * (lsf G g i * X.B1F k j i + rsf G g i * X.B1F k j (i+1))
      let B3ch := 1 / 2 * (X.B3F k j i + X.B3F (k+1) j i)
      cs2 * dh + 1 / 2 * (B1ch ^ 2 + B2ch ^ 2 + B3ch ^ 2)
    | .adiabatic _ => 1 / 2 * (lsf G g i * X.Pflux k j i + rsf G g i * X.Pflux k j (i+1))
  (m2h P Om0 G dt g X U k j i ^ 2 / dh - B2ch ^ 2 + p) / r G g i

/-- The zone `(k, j, i)` of `U` changed by `f`. -/
def change (f : Cons ℝ ns → Cons ℝ ns) (k j i : ℤ) (U : Arr (Cons ℝ ns)) : Arr (Cons ℝ ns) :=
  fun k' j' i' => if k' = k ∧ j' = j ∧ i' = i then f (U k' j' i') else U k' j' i'

/-- Step 11, geometric source term and Coriolis force, one turn of the loop; the Coriolis force is added in the plane
`ks` whatever `k` is; integrate_3d_ctu.c:2739-2863. -/
noncomputable def geoTurn (U : Arr (Cons ℝ ns)) (z : ℤ × ℤ × ℤ) : Arr (Cons ℝ ns) :=
  let (k, j, i) := z
  let src := geoSrc P Om0 G dt g X U k j i
  let M1h := m1h P Om0 G dt g X U k j i
  let M2h := m2h P Om0 G dt g X U k j i
  let U := change (fun u => { u with M1 := u.M1 + dt * src }) k j i U
  match Om0 with
  | none => U
  | some Om =>
    change (fun u => { u with M1 := u.M1 + dt * 2 * Om * M2h, M2 := u.M2 - dt * 2 * Om * M1h }) g.ks j i U

/-- Step 11a: the static potential; the energy equation in the x1-direction differs from the van Leer integrator's;
integrate_3d_ctu.c:2963-3010. -/
noncomputable def ctuGrav (ρ : ℝ) (k j i : ℤ) (u : Cons ℝ ns) : Cons ℝ ns :=
  match P.pot with
  | none => u
  | some Φ =>
    let x1 := cc1 G g i
    let x2 := cc2 G g j
    let x3 := cc3 G g k
    let phic := Φ x1 x2 x3
    let phir1 := Φ (x1 + 1 / 2 * G.dx1) x2 x3
    let phil1 := Φ (x1 - 1 / 2 * G.dx1) x2 x3
    let phir2 := Φ x1 (x2 + 1 / 2 * G.dx2) x3
    let phil2 := Φ x1 (x2 - 1 / 2 * G.dx2) x3
    let phir3 := Φ x1 x2 (x3 + 1 / 2 * G.dx3)
    let phil3 := Φ x1 x2 (x3 - 1 / 2 * G.dx3)
    let q2 := dt / (r G g i * G.dx2)
    let acc := (phir1 - phil1) / G.dx1
    { u with
      M1 := u.M1 - dt * ρ * acc
      M2 := u.M2 - q2 * (phir2 - phil2) * ρ
      M3 := u.M3 - dt / G.dx3 * (phir3 - phil3) * ρ
      E := u.E - 1 / 2 * dt * acc * (lsf G g i * (X.F1 k j i).d + rsf G g i * (X.F1 k j (i+1)).d)
        - q2 * ((X.F2 k j i).d * (phic - phil2) + (X.F2 k (j+1) i).d * (phir2 - phic))
        - dt / G.dx3 * ((X.F3 k j i).d * (phic - phil3) + (X.F3 (k+1) j i).d * (phir3 - phic)) }

/-- The loop of step 11 over the active zones. -/
noncomputable def geoLoop (U : Arr (Cons ℝ ns)) : Arr (Cons ℝ ns) := (zones g).foldl (geoTurn P Om0 G dt g X) U

/-- Steps 10b-12d, integrate_3d_ctu.c:2680-3296. -/
noncomputable def ctuFinish (S : St ℝ ns) : St ℝ ns :=
  let B1 := finB1 G dt g S X.e2 X.e3
  let B2 := finB2 G dt g S X.e1 X.e3
  let B3 := finB3 G dt g S X.e1 X.e2
  let U := geoLoop P Om0 G dt g X S.U
  let U := actLoop g (fun k j i => ctuGrav P G dt g X (dhalf G dt g X S.U k j i) k j i) U
  let U := actLoop g (fun k j i => cupd1 G g dt (X.F1 k j (i+1)) (X.F1 k j i) i) U
  let U := actLoop g (fun k j i => cupd2 G g dt (X.F2 k (j+1) i) (X.F2 k j i) i) U
  let U := actLoop g (fun k j i => cupd3 G dt (X.F3 (k+1) j i) (X.F3 k j i)) U
  let U := actLoop g (cavgB G g B1 B2 B3) U
  ⟨U, B1, B2, B3⟩

end

/-! ## Lemmas -/

section
variable (P : Phys) (Om0 : Option ℝ) (G : Geo) (dt : ℝ) (g : Rng) (X : CtuIn ns)

/-- The geometric source term changes no variable but the two momenta. -/
theorem geoTurn_keep (U : Arr (Cons ℝ ns)) (z : ℤ × ℤ × ℤ) (k j i : ℤ) :
    (geoTurn P Om0 G dt g X U z k j i).d = (U k j i).d ∧ (geoTurn P Om0 G dt g X U z k j i).M3 = (U k j i).M3 ∧
    (geoTurn P Om0 G dt g X U z k j i).E = (U k j i).E ∧ (geoTurn P Om0 G dt g X U z k j i).s = (U k j i).s ∧
    (Om0 = none → (geoTurn P Om0 G dt g X U z k j i).M2 = (U k j i).M2) := by
  obtain ⟨k', j', i'⟩ := z
  cases Om0 with
  | none =>
    simp only [geoTurn, change]
    by_cases h : k = k' ∧ j = j' ∧ i = i'
    · simp [if_pos h]
    · simp [if_neg h]
  | some Om =>
    simp only [geoTurn, change]
    by_cases h : k = k' ∧ j = j' ∧ i = i' <;> by_cases h' : k = g.ks ∧ j = j' ∧ i = i'
    · simp [if_pos h, if_pos h']
    · simp [if_pos h, if_neg h']
    · simp [if_neg h, if_pos h']
    · simp [if_neg h, if_neg h']

theorem geoFold_keep (l : List (ℤ × ℤ × ℤ)) (U : Arr (Cons ℝ ns)) (k j i : ℤ) :
    (l.foldl (geoTurn P Om0 G dt g X) U k j i).d = (U k j i).d ∧ (l.foldl (geoTurn P Om0 G dt g X) U k j i).M3 = (U k j i).M3 ∧
    (l.foldl (geoTurn P Om0 G dt g X) U k j i).E = (U k j i).E ∧ (l.foldl (geoTurn P Om0 G dt g X) U k j i).s = (U k j i).s ∧
    (Om0 = none → (l.foldl (geoTurn P Om0 G dt g X) U k j i).M2 = (U k j i).M2) := by
  induction l generalizing U with
  | nil => simp
  | cons z l ih =>
    have a := geoTurn_keep P Om0 G dt g X U z k j i
    have b := ih (geoTurn P Om0 G dt g X U z)
    simp only [List.foldl_cons]
    exact ⟨b.1.trans a.1, b.2.1.trans a.2.1, b.2.2.1.trans a.2.2.1, b.2.2.2.1.trans a.2.2.2.1,
      fun h => (b.2.2.2.2 h).trans (a.2.2.2.2 h)⟩

/-- The potential step with `phi`. -/
theorem ctuGrav_eq (ρ : ℝ) (k j i : ℤ) (u : Cons ℝ ns) :
    ctuGrav P G dt g X ρ k j i u =
      { u with
        M1 := u.M1 - dt * ρ * ((phi P (ri G g (i+1)) (cc2 G g j) (cc3 G g k) - phi P (ri G g i) (cc2 G g j) (cc3 G g k)) / G.dx1)
        M2 := u.M2 - dt / (r G g i * G.dx2) * (phi P (r G g i) (fc2 G g (j+1)) (cc3 G g k) - phi P (r G g i) (fc2 G g j) (cc3 G g k)) * ρ
        M3 := u.M3 - dt / G.dx3 * (phi P (r G g i) (cc2 G g j) (fc3 G g (k+1)) - phi P (r G g i) (cc2 G g j) (fc3 G g k)) * ρ
        E := u.E - 1 / 2 * dt * ((phi P (ri G g (i+1)) (cc2 G g j) (cc3 G g k) - phi P (ri G g i) (cc2 G g j) (cc3 G g k)) / G.dx1)
              * (lsf G g i * (X.F1 k j i).d + rsf G g i * (X.F1 k j (i+1)).d)
          - dt / (r G g i * G.dx2) * ((X.F2 k j i).d * (phi P (r G g i) (cc2 G g j) (cc3 G g k) - phi P (r G g i) (fc2 G g j) (cc3 G g k))
              + (X.F2 k (j+1) i).d * (phi P (r G g i) (fc2 G g (j+1)) (cc3 G g k) - phi P (r G g i) (cc2 G g j) (cc3 G g k)))
          - dt / G.dx3 * ((X.F3 k j i).d * (phi P (r G g i) (cc2 G g j) (cc3 G g k) - phi P (r G g i) (cc2 G g j) (fc3 G g k))
              + (X.F3 (k+1) j i).d * (phi P (r G g i) (cc2 G g j) (fc3 G g (k+1)) - phi P (r G g i) (cc2 G g j) (cc3 G g k))) } := by
  unfold ctuGrav phi
  cases P.pot with
  | none => ext <;> simp
  | some Φ => simp only [cc1_r, cc1_add, cc1_sub, cc2_add, cc2_sub, cc3_add, cc3_sub]

theorem ctuFinish_in (S : St ℝ ns) {k j i : ℤ} (hk : g.ks ≤ k) (hk' : k ≤ g.ke) (hj : g.js ≤ j) (hj' : j ≤ g.je) (hi : g.is ≤ i) (hi' : i ≤ g.ie) :
    (ctuFinish P Om0 G dt g X S).U k j i =
      cavgB G g (finB1 G dt g S X.e2 X.e3) (finB2 G dt g S X.e1 X.e3) (finB3 G dt g S X.e1 X.e2) k j i
        (cupd3 G dt (X.F3 (k+1) j i) (X.F3 k j i) (cupd2 G g dt (X.F2 k (j+1) i) (X.F2 k j i) i (cupd1 G g dt (X.F1 k j (i+1)) (X.F1 k j i) i
          (ctuGrav P G dt g X (dhalf G dt g X S.U k j i) k j i (geoLoop P Om0 G dt g X S.U k j i))))) := by
  simp (disch := omega) only [ctuFinish, actLoop_in]

end

/-! ## Specification -/

/-- For energy: in every zone the potential in the centre is the mean of its values on the two x1-faces. -/
def Straight (P : Phys) (G : Geo) (g : Rng) : Quant ns → Prop
  | .energy => ∀ k j i : ℤ, phi P (r G g i) (cc2 G g j) (cc3 G g k) =
      1 / 2 * (phi P (ri G g i) (cc2 G g j) (cc3 G g k) + phi P (ri G g (i+1)) (cc2 G g j) (cc3 G g k))
  | _ => True

/-- For angular momentum: the frame does not rotate. -/
def Inertial (Om0 : Option ℝ) : Quant ns → Prop
  | .angular => Om0 = none
  | _ => True

/-! ## Theorems -/

theorem ctu_zone_balance (P : Phys) (Om0 : Option ℝ) {G : Geo} (hG : Outside G) (dt : ℝ) (g : Rng) (X : CtuIn ns) (S : St ℝ ns)
    (q : Quant ns) (hq : q.Free P) (hs : Straight P G g q) (ho : Inertial Om0 q)
    {k j i : ℤ} (hk : g.ks ≤ k) (hk' : k ≤ g.ke) (hj : g.js ≤ j) (hj' : j ≤ g.je) (hi : g.is ≤ i) (hi' : i ≤ g.ie) :
    r G g i * G.dx1 * G.dx2 * G.dx3 * q.dens P G g k j i ((ctuFinish P Om0 G dt g X S).U k j i) =
      r G g i * G.dx1 * G.dx2 * G.dx3 * q.dens P G g k j i (S.U k j i)
        - dt * (ri G g (i+1) * G.dx2 * G.dx3 * q.flux1 P G g k j (i+1) (X.F1 k j (i+1)) - ri G g i * G.dx2 * G.dx3 * q.flux1 P G g k j i (X.F1 k j i))
        - dt * (G.dx1 * G.dx3 * q.flux2 P G g k (j+1) i (X.F2 k (j+1) i) - G.dx1 * G.dx3 * q.flux2 P G g k j i (X.F2 k j i))
        - dt * (r G g i * G.dx1 * G.dx2 * q.flux3 P G g (k+1) j i (X.F3 (k+1) j i) - r G g i * G.dx1 * G.dx2 * q.flux3 P G g k j i (X.F3 k j i)) := by
  rw [ctuFinish_in P Om0 G dt g X S hk hk' hj hj' hi hi', ctuGrav_eq]
  obtain ⟨kd, k3, kE, ks', k2⟩ := geoFold_keep P Om0 G dt g X (zones g) S.U k j i
  change (geoLoop P Om0 G dt g X S.U k j i).d = _ at kd
  change (geoLoop P Om0 G dt g X S.U k j i).M3 = _ at k3
  change (geoLoop P Om0 G dt g X S.U k j i).E = _ at kE
  change (geoLoop P Om0 G dt g X S.U k j i).s = _ at ks'
  change Om0 = none → (geoLoop P Om0 G dt g X S.U k j i).M2 = _ at k2
  have hr := (r_pos hG hi).ne'
  have h1 := hG.dx1.ne'
  have h2 := hG.dx2.ne'
  have h3 := hG.dx3.ne'
  cases q with
  | mass =>
    simp only [Quant.dens, Quant.flux1, Quant.flux2, Quant.flux3, cupd3, cupd2, cupd1, upd3, upd2, cavgB, rsf, lsf, kd]
    field_simp
  | scalar n =>
    simp only [Quant.dens, Quant.flux1, Quant.flux2, Quant.flux3, cupd3, cupd2, cupd1, upd3, upd2, cavgB, rsf, lsf, ks']
    field_simp
  | vertical =>
    simp only [Quant.dens, Quant.flux1, Quant.flux2, Quant.flux3, cupd3, cupd2, cupd1, upd3, upd2, cavgB, rsf, lsf, k3]
    rw [hq _ _ (fc3 G g (k+1)) (fc3 G g k)]
    field_simp
    ring
  | angular =>
    simp only [Quant.dens, Quant.flux1, Quant.flux2, Quant.flux3, cupd3, cupd2, cupd1, upd3, upd2, cavgB, rsf, lsf, k2 ho]
    rw [hq _ (fc2 G g (j+1)) (fc2 G g j)]
    field_simp
    ring
  | energy =>
    simp only [Quant.dens, Quant.flux1, Quant.flux2, Quant.flux3, cupd3, cupd2, cupd1, upd3, upd2, cavgB, rsf, lsf, kE, kd]
    rw [hs k j i]
    generalize phi P (ri G g i) (cc2 G g j) (cc3 G g k) = pl1
    generalize phi P (ri G g (i+1)) (cc2 G g j) (cc3 G g k) = pr1
    generalize phi P (r G g i) (fc2 G g j) (cc3 G g k) = pl2
    generalize phi P (r G g i) (fc2 G g (j+1)) (cc3 G g k) = pr2
    generalize phi P (r G g i) (cc2 G g j) (fc3 G g k) = pl3
    generalize phi P (r G g i) (cc2 G g j) (fc3 G g (k+1)) = pr3
    field_simp
    ring

/-- **C91, CTU.** Whatever the fluxes and electric fields, mass, vertical momentum and scalars, and angular momentum if the
frame does not rotate, change by what flows through the sides; energy too, if there is no potential or it is
linear in the radius across a zone.  What is missing is energy in any other potential. -/
theorem ctu_conserves_partial (P : Phys) (Om0 : Option ℝ) {G : Geo} (hG : Outside G) (dt : ℝ) {g : Rng} {n1 n2 n3 : ℕ} (hg : Size g n1 n2 n3)
    (X : CtuIn ns) (S : St ℝ ns) (q : Quant ns) (hq : q.Free P) (hs : Straight P G g q) (ho : Inertial Om0 q) :
    total P G g n1 n2 n3 q (ctuFinish P Om0 G dt g X S) =
      total P G g n1 n2 n3 q S - dt * outflow P G g n1 n2 n3 q X.F1 X.F2 X.F3 := by
  have key := zsum_flux n1 n2 n3 g.is g.js g.ks (fun k j i => r G g i * G.dx1 * G.dx2 * G.dx3 * q.dens P G g k j i (S.U k j i))
    (fun k j i => ri G g i * G.dx2 * G.dx3 * q.flux1 P G g k j i (X.F1 k j i))
    (fun k j i => G.dx1 * G.dx3 * q.flux2 P G g k j i (X.F2 k j i))
    (fun k j i => r G g i * G.dx1 * G.dx2 * q.flux3 P G g k j i (X.F3 k j i)) dt dt dt
  unfold total outflow
  rw [hg.h1, hg.h2, hg.h3, mul_add, mul_add, ← sub_sub, ← sub_sub, ← key]
  refine zsum_congr fun k j i a1 a2 a3 a4 a5 a6 => ?_
  have := hg.h1; have := hg.h2; have := hg.h3
  exact ctu_zone_balance P Om0 hG dt g X S q hq hs ho a1 (by omega) a3 (by omega) a5 (by omega)

/-- **C91, CTU.** The divergence of the field of every active zone is unchanged. -/
theorem ctu_divB (P : Phys) (Om0 : Option ℝ) {G : Geo} (hG : Outside G) (dt : ℝ) (g : Rng) (X : CtuIn ns) (S : St ℝ ns)
    {k j i : ℤ} (hk : g.ks ≤ k) (hk' : k ≤ g.ke) (hj : g.js ≤ j) (hj' : j ≤ g.je) (hi : g.is ≤ i) (hi' : i ≤ g.ie) :
    divCyl G g (ctuFinish P Om0 G dt g X S) k j i = divCyl G g S k j i :=
  cyl_update_divB P hG dt g S (fun _ _ _ => S.U k j i) X.F1 X.F2 X.F3 X.e1 X.e2 X.e3 hk hk' hj hj' hi hi'

end Athena.Cyl
