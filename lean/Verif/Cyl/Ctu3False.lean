import Verif.Cyl.Ctu3
import Verif.Fofc.Fix3Props

/-!
# C91: what fails in the 3D CTU integrator in cylindrical coordinates
-/

namespace Athena.Cyl
open Athena.Vl3
open Athena.Fofc (zones InGrid mem_zones span)

variable {ns : ℕ}

/-! ## Step 8b -/

section
variable (P : Phys) (G : Geo) (dt : ℝ) (g : Rng) (F1 F2 F3 : Arr (Cons1 ℝ ns)) (src : Arr ℝ) (U : Arr (Cons ℝ ns))

/-- `q2` of step 8b, integrate_3d_ctu.c:2289: `hdt/(r[i]/pG->dx2)`. -/
noncomputable def q2b (i : ℤ) : ℝ := 1 / 2 * dt / (r G g i / G.dx2)

/-- `M1h`, `M2h`, `M3h` of step 8b without rotation of the frame, from the fluxes of the predictor; integrate_3d_ctu.c:2288-2341, 2399. -/
noncomputable def half8b (k j i : ℤ) : ℝ × ℝ × ℝ :=
  let hdt := 1 / 2 * dt
  let q1 := hdt / G.dx1
  let q2 := q2b G dt g i
  let q3 := hdt / G.dx3
  let u := U k j i
  let m1 := u.M1 - q1 * (rsf G g i * (F1 k j (i+1)).Mx - lsf G g i * (F1 k j i).Mx)
    - q2 * ((F2 k (j+1) i).Mz - (F2 k j i).Mz) - q3 * ((F3 (k+1) j i).My - (F3 k j i).My)
  let m2 := u.M2 - q1 * (rsf G g i ^ 2 * (F1 k j (i+1)).My - lsf G g i ^ 2 * (F1 k j i).My)
    - q2 * ((F2 k (j+1) i).Mx - (F2 k j i).Mx) - q3 * ((F3 (k+1) j i).Mz - (F3 k j i).Mz)
  let m3 := u.M3 - q1 * (rsf G g i * (F1 k j (i+1)).Mz - lsf G g i * (F1 k j i).Mz)
    - q2 * ((F2 k (j+1) i).My - (F2 k j i).My) - q3 * ((F3 (k+1) j i).Mx - (F3 k j i).Mx)
  let (m1, m2, m3) := match P.pot with
    | none => (m1, m2, m3)
    | some Φ =>
      let x1 := cc1 G g i
      let x2 := cc2 G g j
      let x3 := cc3 G g k
      (m1 - hdt * u.d * ((Φ (x1 + 1 / 2 * G.dx1) x2 x3 - Φ (x1 - 1 / 2 * G.dx1) x2 x3) / G.dx1),
       m2 - q2 * (Φ x1 (x2 + 1 / 2 * G.dx2) x3 - Φ x1 (x2 - 1 / 2 * G.dx2) x3) * u.d,
       m3 - q3 * (Φ x1 x2 (x3 + 1 / 2 * G.dx3) - Φ x1 x2 (x3 - 1 / 2 * G.dx3)) * u.d)
  (m1 + hdt * src k j i, m2, m3)

/-- **Specification.** The vertical momentum in the zone after half a step: what it was, less what has flowed out through
the faces divided by the volume, and the pull of the potential. -/
noncomputable def vertHalf (k j i : ℤ) : ℝ :=
  let V := r G g i * G.dx1 * G.dx2 * G.dx3
  (U k j i).M3
    - 1 / 2 * dt * (ri G g (i+1) * G.dx2 * G.dx3 * (F1 k j (i+1)).Mz - ri G g i * G.dx2 * G.dx3 * (F1 k j i).Mz) / V
    - 1 / 2 * dt * (G.dx1 * G.dx3 * (F2 k (j+1) i).My - G.dx1 * G.dx3 * (F2 k j i).My) / V
    - 1 / 2 * dt * (r G g i * G.dx1 * G.dx2 * (F3 (k+1) j i).Mx - r G g i * G.dx1 * G.dx2 * (F3 k j i).Mx) / V
    - 1 / 2 * dt * (U k j i).d * (phi P (r G g i) (cc2 G g j) (fc3 G g (k+1)) - phi P (r G g i) (cc2 G g j) (fc3 G g k)) / G.dx3

/-- **C91, CTU.** The half-step vertical momentum of step 8b is right if the zones are one radian wide, or the x2-flux is
uniform.  Missing: zones of any other width. -/
theorem ctu_half_partial {G : Geo} (hG : Outside G) (dt : ℝ) (g : Rng) {k j i : ℤ} (hi : g.is ≤ i)
    (h : G.dx2 = 1 ∨ (F2 k (j+1) i).My = (F2 k j i).My) :
    (half8b P G dt g F1 F2 F3 src U k j i).2.2 = vertHalf P G dt g F1 F2 F3 U k j i := by
  have hr := (r_pos hG hi).ne'
  have h1 := hG.dx1.ne'
  have h2 := hG.dx2.ne'
  have h3 := hG.dx3.ne'
  have e : (half8b P G dt g F1 F2 F3 src U k j i).2.2 =
      (U k j i).M3 - 1 / 2 * dt / G.dx1 * (rsf G g i * (F1 k j (i+1)).Mz - lsf G g i * (F1 k j i).Mz)
      - q2b G dt g i * ((F2 k (j+1) i).My - (F2 k j i).My) - 1 / 2 * dt / G.dx3 * ((F3 (k+1) j i).Mx - (F3 k j i).Mx)
      - 1 / 2 * dt / G.dx3 * (phi P (r G g i) (cc2 G g j) (fc3 G g (k+1)) - phi P (r G g i) (cc2 G g j) (fc3 G g k)) * (U k j i).d := by
    unfold half8b phi
    cases P.pot with
    | none => simp
    | some Φ => simp only [cc1_r, cc3_add, cc3_sub]
  rw [e]
  unfold vertHalf q2b rsf lsf
  rcases h with h | h
  · rw [h]; field_simp
  · rw [h]; field_simp; ring

end

/-- One zone of height, width and depth 1/2 at radius 1 to 3/2. -/
noncomputable def wedge : Geo := ⟨1, 0, 0, 1/2, 1/2, 1/2⟩

theorem wedge_out : Outside wedge := by constructor <;> norm_num [wedge]

/-- One zone. -/
def oneZ : Rng := ⟨4, 4, 4, 4, 4, 4, 4⟩

theorem oneZ_size : Size oneZ 1 1 1 := by constructor <;> decide

/-- Gas without potential. -/
noncomputable def noPh : Phys := ⟨.isothermal 1, 1/1000, none⟩
/-- Gas in the potential `r²`. -/
noncomputable def bowl : Phys := ⟨.adiabatic (2/3), 1/1000, some fun x _ _ => x ^ 2⟩

/-- A flux of `d` mass. -/
noncomputable def massF (d : ℝ) : Cons1 ℝ 0 := ⟨d, 0, 0, 0, 0, 0, 0, fun _ => 0⟩
/-- A flux of `m` of the second momentum. -/
noncomputable def momF (m : ℝ) : Cons1 ℝ 0 := ⟨0, 0, m, 0, 0, 0, 0, fun _ => 0⟩
/-- Gas at rest. -/
noncomputable def gas : Cons ℝ 0 := ⟨1, 0, 0, 0, 1, 0, 0, 0, fun _ => 0⟩
/-- Gas moving around the axis. -/
noncomputable def wind : Cons ℝ 0 := ⟨1, 0, 1, 0, 2, 0, 0, 0, fun _ => 0⟩

/-- **C91 is false for the half step of the 3D CTU integrator**: in zones half a radian wide the x2-flux is given a quarter of its
weight. -/
theorem ctu_half_false : ¬ ∀ (P : Phys) (G : Geo) (_ : Outside G) (dt : ℝ) (g : Rng) (F1 F2 F3 : Arr (Cons1 ℝ 0)) (src : Arr ℝ)
    (U : Arr (Cons ℝ 0)) (k j i : ℤ), g.ks ≤ k → k ≤ g.ke → g.js ≤ j → j ≤ g.je → g.is ≤ i → i ≤ g.ie →
      (half8b P G dt g F1 F2 F3 src U k j i).2.2 = vertHalf P G dt g F1 F2 F3 U k j i := by
  intro h
  have := h noPh wedge wedge_out 1 oneZ (fun _ _ _ => massF 0) (fun _ j _ => momF j) (fun _ _ _ => massF 0) (fun _ _ _ => 0)
    (fun _ _ _ => gas) 4 4 4 (by decide) (by decide) (by decide) (by decide) (by decide) (by decide)
  norm_num [half8b, vertHalf, q2b, phi, noPh, wedge, oneZ, massF, momF, gas, r, ri] at this

/-! ## Energy -/

/-- Fluxes of mass through the outer x1-face and nothing else. -/
noncomputable def leak : CtuIn 0 where
  F1 := fun _ _ i => massF (i - 4)
  F2 := fun _ _ _ => massF 0
  F3 := fun _ _ _ => massF 0
  Pflux := fun _ _ _ => 0
  e1 := fun _ _ _ => 0
  e2 := fun _ _ _ => 0
  e3 := fun _ _ _ => 0
  B1F := fun _ _ _ => 0
  B2F := fun _ _ _ => 0
  B3F := fun _ _ _ => 0
  geom := fun _ _ _ => 0

/-- Gas at rest everywhere. -/
noncomputable def still : St ℝ 0 := ⟨fun _ _ _ => gas, fun _ _ _ => 0, fun _ _ _ => 0, fun _ _ _ => 0⟩

/-- **C91 is false for energy in the CTU integrator**: mass leaving through the outer face of a zone in the potential `r²` changes the
total of energy and potential energy by another amount than it carries out. -/
theorem ctu_energy_false : ¬ ∀ (P : Phys) (G : Geo) (_ : Outside G) (dt : ℝ) (g : Rng) (n1 n2 n3 : ℕ) (_ : Size g n1 n2 n3) (X : CtuIn 0)
    (S : St ℝ 0), total P G g n1 n2 n3 .energy (ctuFinish P none G dt g X S) =
      total P G g n1 n2 n3 .energy S - dt * outflow P G g n1 n2 n3 .energy X.F1 X.F2 X.F3 := by
  intro h
  have h := h bowl wedge wedge_out 1 oneZ 1 1 1 oneZ_size leak still
  simp only [total, outflow, zsum, fsum1, fsum2, fsum3, Finset.sum_range_one, Nat.cast_zero, add_zero] at h
  rw [ctuFinish_in bowl none wedge 1 oneZ leak still (by decide) (by decide) (by decide) (by decide) (by decide) (by decide), ctuGrav_eq] at h
  obtain ⟨kd, -, kE, -⟩ := geoFold_keep bowl none wedge 1 oneZ leak (zones oneZ) still.U 4 4 4
  change (geoLoop bowl none wedge 1 oneZ leak still.U 4 4 4).d = _ at kd
  change (geoLoop bowl none wedge 1 oneZ leak still.U 4 4 4).E = _ at kE
  simp only [Quant.dens, Quant.flux1, Quant.flux2, Quant.flux3, cupd3, cupd2, cupd1, upd3, upd2, cavgB, kE, kd, oneZ] at h
  change (geoLoop bowl none wedge 1 oneZ leak still.U 4 4 4).d = _ at kd
  change (geoLoop bowl none wedge 1 oneZ leak still.U 4 4 4).E = _ at kE
  simp only [oneZ] at kd kE
  simp only [kd, kE] at h
  norm_num [phi, bowl, wedge, oneZ, leak, still, gas, massF, r, ri, rsf, lsf, cc2, cc3, fc2, fc3] at h

/-! ## Rotation of the frame -/

theorem geoTurn_m2_above (P : Phys) (Om0 : Option ℝ) (G : Geo) (dt : ℝ) (g : Rng) (X : CtuIn ns) (U : Arr (Cons ℝ ns)) (z : ℤ × ℤ × ℤ)
    {k j i : ℤ} (hk : k ≠ g.ks) : (geoTurn P Om0 G dt g X U z k j i).M2 = (U k j i).M2 := by
  obtain ⟨k', j', i'⟩ := z
  cases Om0 with
  | none =>
    simp only [geoTurn, change]
    by_cases h : k = k' ∧ j = j' ∧ i = i'
    · simp [if_pos h]
    · simp [if_neg h]
  | some Om =>
    simp only [geoTurn, change]
    have h' : ¬ (k = g.ks ∧ j = j' ∧ i = i') := fun h => hk h.1
    by_cases h : k = k' ∧ j = j' ∧ i = i'
    · simp [if_pos h, if_neg h']
    · simp [if_neg h, if_neg h']

theorem geoFold_m2_above (P : Phys) (Om0 : Option ℝ) (G : Geo) (dt : ℝ) (g : Rng) (X : CtuIn ns) (l : List (ℤ × ℤ × ℤ)) (U : Arr (Cons ℝ ns))
    {k j i : ℤ} (hk : k ≠ g.ks) : (l.foldl (geoTurn P Om0 G dt g X) U k j i).M2 = (U k j i).M2 := by
  induction l generalizing U with
  | nil => rfl
  | cons z l ih => rw [List.foldl_cons, ih, geoTurn_m2_above P Om0 G dt g X U z hk]

/-- **C91 is false in a rotating frame**, for every run: above the lowest plane of the Grid the azimuthal momentum is what it is
in a frame that does not rotate, whatever the angular velocity `Om`. -/
theorem ctu_coriolis_missing (P : Phys) (Om : ℝ) (G : Geo) (dt : ℝ) (g : Rng) (X : CtuIn ns) (S : St ℝ ns)
    {k j i : ℤ} (hk : g.ks < k) (hk' : k ≤ g.ke) (hj : g.js ≤ j) (hj' : j ≤ g.je) (hi : g.is ≤ i) (hi' : i ≤ g.ie) :
    ((ctuFinish P (some Om) G dt g X S).U k j i).M2 = ((ctuFinish P none G dt g X S).U k j i).M2 := by
  rw [ctuFinish_in P _ G dt g X S hk.le hk' hj hj' hi hi', ctuFinish_in P _ G dt g X S hk.le hk' hj hj' hi hi']
  have a := geoFold_m2_above P (some Om) G dt g X (zones g) S.U (j := j) (i := i) hk.ne'
  have b := geoFold_m2_above P none G dt g X (zones g) S.U (j := j) (i := i) hk.ne'
  change (geoLoop P (some Om) G dt g X S.U k j i).M2 = _ at a
  change (geoLoop P none G dt g X S.U k j i).M2 = _ at b
  rw [ctuGrav_eq, ctuGrav_eq]
  simp only [cavgB, cupd3, cupd2, cupd1, upd3, upd2, a, b]

/-- The array does not depend on the height. -/
def Flat {α : Type} (A : Arr α) : Prop := ∀ k k' j i, A k j i = A k' j i

/-- Nothing that enters the last steps depends on the height. -/
structure FlatIn (X : CtuIn ns) (S : St ℝ ns) : Prop where
  F1 : Flat X.F1
  F2 : Flat X.F2
  F3 : Flat X.F3
  Pf : Flat X.Pflux
  e1 : Flat X.e1
  e2 : Flat X.e2
  e3 : Flat X.e3
  b1 : Flat X.B1F
  b2 : Flat X.B2F
  b3 : Flat X.B3F
  ge : Flat X.geom
  U : Flat S.U
  B1 : Flat S.B1i
  B2 : Flat S.B2i
  B3 : Flat S.B3i

/-- One zone in the plane, two in height. -/
def tower : Rng := ⟨4, 4, 4, 4, 4, 5, 4⟩

/-- No fluxes, no fields. -/
noncomputable def calm : CtuIn 0 where
  F1 := fun _ _ _ => massF 0
  F2 := fun _ _ _ => massF 0
  F3 := fun _ _ _ => massF 0
  Pflux := fun _ _ _ => 0
  e1 := fun _ _ _ => 0
  e2 := fun _ _ _ => 0
  e3 := fun _ _ _ => 0
  B1F := fun _ _ _ => 0
  B2F := fun _ _ _ => 0
  B3F := fun _ _ _ => 0
  geom := fun _ _ _ => 0

/-- Gas at rest in the frame but for a motion inwards. -/
noncomputable def infall : St ℝ 0 := ⟨fun _ _ _ => ⟨1, 1, 0, 0, 2, 0, 0, 0, fun _ => 0⟩, fun _ _ _ => 0, fun _ _ _ => 0, fun _ _ _ => 0⟩

theorem tower_zones : zones tower = [(4, 4, 4), (5, 4, 4)] := by decide

/-- **C91 is false in a rotating frame**: data that do not depend on the height come to depend on it. -/
theorem ctu_flat_false : ¬ ∀ (Om : ℝ) (G : Geo) (_ : Outside G) (dt : ℝ) (g : Rng) (X : CtuIn 0) (S : St ℝ 0), FlatIn X S →
    ∀ k k' j i, g.ks ≤ k → k ≤ g.ke → g.ks ≤ k' → k' ≤ g.ke → g.js ≤ j → j ≤ g.je → g.is ≤ i → i ≤ g.ie →
      (ctuFinish noPh (some Om) G dt g X S).U k j i = (ctuFinish noPh (some Om) G dt g X S).U k' j i := by
  intro h
  have h := h 1 wedge wedge_out (1/2) tower calm infall (by constructor <;> intro _ _ _ _ <;> rfl) 4 5 4 4 (by decide) (by decide) (by decide)
    (by decide) (by decide) (by decide) (by decide) (by decide)
  have e := congrArg Cons.M2 h
  have b := geoFold_m2_above noPh (some 1) wedge (1/2) tower calm (zones tower) infall.U (k := 5) (j := 4) (i := 4) (by decide)
  change (geoLoop noPh (some 1) wedge (1/2) tower calm infall.U 5 4 4).M2 = _ at b
  rw [ctuFinish_in noPh _ wedge (1/2) tower calm infall (by decide) (by decide) (by decide) (by decide) (by decide) (by decide),
    ctuFinish_in noPh _ wedge (1/2) tower calm infall (by decide) (by decide) (by decide) (by decide) (by decide) (by decide), ctuGrav_eq, ctuGrav_eq] at e
  simp only [cavgB, cupd3, cupd2, cupd1, upd3, upd2, b] at e
  simp only [geoLoop, tower_zones] at e
  simp only [List.foldl_cons, List.foldl_nil, geoTurn, change, tower] at e
  norm_num [phi, noPh, calm, infall, massF, m1h, m2h, geoSrc, dhalf, wedge, r, ri, rsf, lsf, change] at e

end Athena.Cyl
