import Verif.Cyl.Ctu3Flat
import Verif.Cyl.Ex

/-!
# C91: the radial momentum in cylindrical coordinates

The radial momentum of a zone changes by what flows through its sides, by the hoop stress of the half-step state and by the pull of
the potential; in the 3D CTU integrator the half-step state is that of the conservation laws over half the step, and in a rotating frame
one plane of zones feels the Coriolis force.
-/

namespace Athena.Cyl
open Athena.Vl3
open Athena.Fofc (zones InGrid mem_zones)

variable {ns : ℕ}

/-! ## Specification -/

/-- The gas pressure of a state: of an ideal gas what the kinetic and magnetic energies leave, or `ρ·c²`. -/
noncomputable def pGas : Eos → Cons ℝ ns → ℝ
  | .adiabatic g1, u => g1 * (u.E - (u.M1 ^ 2 + u.M2 ^ 2 + u.M3 ^ 2) / (2 * u.d) - (u.B1c ^ 2 + u.B2c ^ 2 + u.B3c ^ 2) / 2)
  | .isothermal c2, u => c2 * u.d

/-- The hoop stress `ρ v_φ² − B_φ² + p + B²/2` of a state, its pressure at least `tiny`. -/
noncomputable def hoop (P : Phys) (u : Cons ℝ ns) : ℝ :=
  u.M2 ^ 2 / u.d - u.B2c ^ 2 + max (pGas P.eos u) P.tiny + (u.B1c ^ 2 + u.B2c ^ 2 + u.B3c ^ 2) / 2

/-- What flows out of the zone `(k, j, i)` per unit time: `f1`, `f2`, `f3` per unit area through its faces. -/
noncomputable def zoneOut (G : Geo) (g : Rng) (f1 f2 f3 : Arr ℝ) (k j i : ℤ) : ℝ :=
  (ri G g (i+1) * G.dx2 * G.dx3 * f1 k j (i+1) - ri G g i * G.dx2 * G.dx3 * f1 k j i)
    + (G.dx1 * G.dx3 * f2 k (j+1) i - G.dx1 * G.dx3 * f2 k j i)
    + (r G g i * G.dx1 * G.dx2 * f3 (k+1) j i - r G g i * G.dx1 * G.dx2 * f3 k j i)

/-- The volume of the zone. -/
noncomputable def vol (G : Geo) (g : Rng) (i : ℤ) : ℝ := r G g i * G.dx1 * G.dx2 * G.dx3

/-- The radial slope of the potential across the zone. -/
noncomputable def pull1 (P : Phys) (G : Geo) (g : Rng) (k j i : ℤ) : ℝ :=
  (phi P (ri G g (i+1)) (cc2 G g j) (cc3 G g k) - phi P (ri G g i) (cc2 G g j) (cc3 G g k)) / G.dx1
/-- The difference of the potential between the two x2-faces over the angle. -/
noncomputable def pull2 (P : Phys) (G : Geo) (g : Rng) (k j i : ℤ) : ℝ :=
  (phi P (r G g i) (fc2 G g (j+1)) (cc3 G g k) - phi P (r G g i) (fc2 G g j) (cc3 G g k)) / G.dx2

/-- `Ω`, zero in a frame that does not rotate. -/
noncomputable def omega (Om0 : Option ℝ) : ℝ := Om0.getD 0

/-- `ρ`, `m1` and `m2` are the density, radial and angular momentum that the zone has after the time `h` under the fluxes, the potential, the
earlier hoop stress and the Coriolis force. -/
structure Half (P : Phys) (Om0 : Option ℝ) (G : Geo) (g : Rng) (X : CtuIn ns) (u : Cons ℝ ns) (h : ℝ) (k j i : ℤ) (ρ m1 m2 : ℝ) : Prop where
  mass : vol G g i * ρ = vol G g i * u.d - h * zoneOut G g (fun k j i => (X.F1 k j i).d) (fun k j i => (X.F2 k j i).d)
    (fun k j i => (X.F3 k j i).d) k j i
  radial : vol G g i * m1 = vol G g i * u.M1 - h * zoneOut G g (fun k j i => (X.F1 k j i).Mx) (fun k j i => (X.F2 k j i).Mz)
    (fun k j i => (X.F3 k j i).My) k j i + h * vol G g i * (X.geom k j i - u.d * pull1 P G g k j i + 2 * omega Om0 * u.M2)
  angular : vol G g i * (r G g i * m2) = vol G g i * (r G g i * u.M2)
    - h * zoneOut G g (fun k j i => ri G g i * (X.F1 k j i).My) (fun k j i => r G g i * (X.F2 k j i).Mx)
      (fun k j i => r G g i * (X.F3 k j i).Mz) k j i
    - h * vol G g i * (u.d * pull2 P G g k j i + 2 * omega Om0 * (r G g i * u.M1))

/-- The pressure in the hoop stress of the CTU integrator: of the half-step density and fields if isothermal, else the mean of the two Riemann
problems', over the areas of the faces. -/
noncomputable def ctuPress (P : Phys) (G : Geo) (g : Rng) (X : CtuIn ns) (k j i : ℤ) (ρ : ℝ) : ℝ :=
  match P.eos with
  | .isothermal c2 => c2 * ρ + (((ri G g i * X.B1F k j i + ri G g (i+1) * X.B1F k j (i+1)) / (2 * r G g i)) ^ 2
      + ((X.B2F k j i + X.B2F k (j+1) i) / 2) ^ 2 + ((X.B3F k j i + X.B3F (k+1) j i) / 2) ^ 2) / 2
  | .adiabatic _ => (ri G g i * X.Pflux k j i + ri G g (i+1) * X.Pflux k j (i+1)) / (2 * r G g i)

/-! ## Lemmas -/

theorem hoop_eq (P : Phys) (u : Cons ℝ ns) : u.M2 ^ 2 / u.d - u.B2c ^ 2 + ptot P u = hoop P u := by
  unfold ptot hoop pGas
  cases P.eos with
  | adiabatic g1 =>
    have : 1 / 2 * (u.M1 ^ 2 + u.M2 ^ 2 + u.M3 ^ 2) / u.d = (u.M1 ^ 2 + u.M2 ^ 2 + u.M3 ^ 2) / (2 * u.d) := by
      rw [div_mul_eq_mul_div, one_mul, div_div]
    simp only [this]
    have e : g1 * (u.E - (u.M1 ^ 2 + u.M2 ^ 2 + u.M3 ^ 2) / (2 * u.d) - 1 / 2 * (u.B1c ^ 2 + u.B2c ^ 2 + u.B3c ^ 2)) =
      g1 * (u.E - (u.M1 ^ 2 + u.M2 ^ 2 + u.M3 ^ 2) / (2 * u.d) - (u.B1c ^ 2 + u.B2c ^ 2 + u.B3c ^ 2) / 2) := by ring
    rw [e]
    ring
  | isothermal c2 => ring

/-- A loop that changes each zone once. -/
theorem changeFold_out (f : ℤ × ℤ × ℤ → Cons ℝ ns → Cons ℝ ns) (l : List (ℤ × ℤ × ℤ)) (U : Arr (Cons ℝ ns)) {k j i : ℤ} (h : (k, j, i) ∉ l) :
    l.foldl (fun U z => change (f z) z.1 z.2.1 z.2.2 U) U k j i = U k j i := by
  induction l generalizing U with
  | nil => rfl
  | cons z l ih =>
    obtain ⟨k', j', i'⟩ := z
    rw [List.foldl_cons, ih _ (fun h' => h (List.mem_cons_of_mem _ h'))]
    refine if_neg fun e => h ?_
    obtain ⟨rfl, rfl, rfl⟩ := e
    exact List.mem_cons_self

theorem changeFold_at (f : ℤ × ℤ × ℤ → Cons ℝ ns → Cons ℝ ns) (l : List (ℤ × ℤ × ℤ)) (hl : l.Nodup) (U : Arr (Cons ℝ ns)) {k j i : ℤ}
    (h : (k, j, i) ∈ l) : l.foldl (fun U z => change (f z) z.1 z.2.1 z.2.2 U) U k j i = f (k, j, i) (U k j i) := by
  induction l generalizing U with
  | nil => simp at h
  | cons z l ih =>
    rw [List.nodup_cons] at hl
    rw [List.foldl_cons]
    rcases List.mem_cons.1 h with h' | h'
    · subst h'
      rw [changeFold_out f l _ hl.1]
      exact if_pos ⟨rfl, rfl, rfl⟩
    · rw [ih hl.2 _ h']
      obtain ⟨k', j', i'⟩ := z
      congr 1
      refine if_neg fun e => hl.1 ?_
      obtain ⟨rfl, rfl, rfl⟩ := e
      exact h'

section
variable (P : Phys) (Om0 : Option ℝ) (G : Geo) (dt : ℝ) (g : Rng) (X : CtuIn ns)

/-- One turn of the loop in the plane `ks` on the zone it is at. -/
noncomputable def turnOf (z : ℤ × ℤ × ℤ) (u : Cons ℝ ns) : Cons ℝ ns :=
  { u with
    M1 := u.M1 + dt * geoSrc P Om0 G dt g X (fun _ _ _ => u) z.1 z.2.1 z.2.2
      + dt * 2 * omega Om0 * m2h P Om0 G dt g X (fun _ _ _ => u) z.1 z.2.1 z.2.2
    M2 := u.M2 - dt * 2 * omega Om0 * m1h P Om0 G dt g X (fun _ _ _ => u) z.1 z.2.1 z.2.2 }

theorem geoTurn_plane (U : Arr (Cons ℝ ns)) (z : ℤ × ℤ × ℤ) (h : Om0 = none ∨ z.1 = g.ks) :
    geoTurn P Om0 G dt g X U z = change (turnOf P Om0 G dt g X z) z.1 z.2.1 z.2.2 U := by
  obtain ⟨k, j, i⟩ := z
  funext k' j' i'
  cases Om0 with
  | none =>
    rw [geoTurn_local]
    simp only [change]
    by_cases h' : k' = k ∧ j' = j ∧ i' = i
    · rw [if_pos h', if_pos h']
      obtain ⟨rfl, rfl, rfl⟩ := h'
      ext <;> simp [turnOf, geoOf, omega]
    · rw [if_neg h', if_neg h']
  | some Om =>
    rcases h with h | h
    · cases h
    · change k = g.ks at h
      subst h
      simp only [geoTurn, change]
      by_cases h' : k' = g.ks ∧ j' = j ∧ i' = i
      · rw [if_pos h', if_pos h', if_pos h']
        obtain ⟨rfl, rfl, rfl⟩ := h'
        rfl
      · rw [if_neg h', if_neg h', if_neg h']

theorem geoLoop_plane (hp : Om0 = none ∨ g.ke = g.ks) (U : Arr (Cons ℝ ns)) {k j i : ℤ} (h : InGrid g k j i) :
    geoLoop P Om0 G dt g X U k j i = turnOf P Om0 G dt g X (k, j, i) (U k j i) := by
  have e : ∀ (l : List (ℤ × ℤ × ℤ)) (U : Arr (Cons ℝ ns)), (∀ z ∈ l, Om0 = none ∨ z.1 = g.ks) → l.foldl (geoTurn P Om0 G dt g X) U =
      l.foldl (fun U z => change (turnOf P Om0 G dt g X z) z.1 z.2.1 z.2.2 U) U := by
    intro l
    induction l with
    | nil => intros; rfl
    | cons z l ih =>
      intro U hz
      rw [List.foldl_cons, List.foldl_cons, ih _ fun z' h' => hz z' (List.mem_cons_of_mem _ h'),
        geoTurn_plane P Om0 G dt g X U z (hz z List.mem_cons_self)]
  unfold geoLoop
  rw [e, changeFold_at _ _ (zones_nodup g) U (mem_zones.2 h)]
  intro z hz
  rcases hp with hp | hp
  · exact .inl hp
  · obtain ⟨k', j', i'⟩ := z
    obtain ⟨⟨a, b⟩, -⟩ := mem_zones.1 hz
    right
    change k' = g.ks
    omega

end

/-- The half-step values of the code are those of the conservation laws. -/
theorem half_unique (P : Phys) (Om0 : Option ℝ) {G : Geo} (hG : Outside G) (g : Rng) (X : CtuIn ns) (u : Cons ℝ ns) (dt : ℝ) {k j i : ℤ} (hi : g.is ≤ i)
    {ρ m1 m2 : ℝ} (H : Half P Om0 G g X u (1 / 2 * dt) k j i ρ m1 m2) :
    dhalf G dt g X (fun _ _ _ => u) k j i = ρ ∧ m1h P Om0 G dt g X (fun _ _ _ => u) k j i = m1 ∧
    m2h P Om0 G dt g X (fun _ _ _ => u) k j i = m2 := by
  have hr := (r_pos hG hi).ne'
  have h1 := hG.dx1.ne'
  have h2 := hG.dx2.ne'
  have h3 := hG.dx3.ne'
  have hv : vol G g i ≠ 0 := by unfold vol; positivity
  have p1 : m1h P Om0 G dt g X (fun _ _ _ => u) k j i = u.M1
      - 1 / 2 * dt / G.dx1 * (rsf G g i * (X.F1 k j (i+1)).Mx - lsf G g i * (X.F1 k j i).Mx)
      - 1 / 2 * dt / (r G g i * G.dx2) * ((X.F2 k (j+1) i).Mz - (X.F2 k j i).Mz)
      - 1 / 2 * dt / G.dx3 * ((X.F3 (k+1) j i).My - (X.F3 k j i).My)
      + 1 / 2 * dt * X.geom k j i - 1 / 2 * dt * u.d * pull1 P G g k j i + dt * omega Om0 * u.M2 := by
    unfold m1h pull1 phi omega
    cases P.pot with
    | none => cases Om0 <;> simp
    | some Φ => cases Om0 <;> simp only [cc1_r, cc1_add, cc1_sub, Option.getD] <;> ring
  have p2 : m2h P Om0 G dt g X (fun _ _ _ => u) k j i = u.M2
      - 1 / 2 * dt / G.dx1 * (rsf G g i ^ 2 * (X.F1 k j (i+1)).My - lsf G g i ^ 2 * (X.F1 k j i).My)
      - 1 / 2 * dt / (r G g i * G.dx2) * ((X.F2 k (j+1) i).Mx - (X.F2 k j i).Mx)
      - 1 / 2 * dt / G.dx3 * ((X.F3 (k+1) j i).Mz - (X.F3 k j i).Mz)
      - 1 / 2 * dt / r G g i * pull2 P G g k j i * u.d - dt * omega Om0 * u.M1 := by
    unfold m2h pull2 phi omega
    cases P.pot with
    | none => cases Om0 <;> simp
    | some Φ =>
      cases Om0 <;> simp only [cc1_r, cc2_add, cc2_sub, Option.getD] <;> field_simp <;> ring
  have q1 := H.radial
  have q2 := H.angular
  refine ⟨mul_left_cancel₀ hv ?_, mul_left_cancel₀ hv ?_, mul_left_cancel₀ (mul_ne_zero hv hr) ?_⟩
  · rw [H.mass]
    simp only [vol, zoneOut, dhalf, rsf, lsf]
    field_simp
    ring
  · rw [q1, p1]
    simp only [vol, zoneOut, rsf, lsf]
    field_simp
    ring
  · rw [mul_assoc, mul_assoc, q2, p2]
    simp only [vol, zoneOut, rsf, lsf]
    field_simp
    ring

/-! ## Theorems -/

/-- **C91, van Leer.** Whatever the fluxes and half-step states: the radial momentum of a zone changes by what flows through its six sides, by the hoop
stress over the radius, and by the pull of the potential on the half-step density. -/
theorem cyl_radial_momentum (P : Phys) {G : Geo} (hG : Outside G) (dt : ℝ) (g : Rng) (S : St ℝ ns) (Uh : Arr (Cons ℝ ns))
    (F1 F2 F3 : Arr (Cons1 ℝ ns)) (e1 e2 e3 : Arr ℝ)
    {k j i : ℤ} (hk : g.ks ≤ k) (hk' : k ≤ g.ke) (hj : g.js ≤ j) (hj' : j ≤ g.je) (hi : g.is ≤ i) (hi' : i ≤ g.ie) :
    vol G g i * ((cfinish P G dt g S Uh F1 F2 F3 e1 e2 e3).U k j i).M1 = vol G g i * (S.U k j i).M1
      - dt * zoneOut G g (fun k j i => (F1 k j i).Mx) (fun k j i => (F2 k j i).Mz) (fun k j i => (F3 k j i).My) k j i
      + dt * vol G g i * (hoop P (Uh k j i) / r G g i - (Uh k j i).d * pull1 P G g k j i) := by
  rw [cfinish_in P G dt g S Uh F1 F2 F3 e1 e2 e3 hk hk' hj hj' hi hi', grav_eq]
  have hr := (r_pos hG hi).ne'
  have h1 := hG.dx1.ne'
  have h2 := hG.dx2.ne'
  have h3 := hG.dx3.ne'
  simp only [cupd3, cupd2, cupd1, upd3, upd2, geom, cavgB, rsf, lsf, hoop_eq, vol, zoneOut, pull1]
  field_simp
  ring

/-- **C91, CTU.** Let `ρ`, `m1`, `m2` be the density, radial and angular momentum of a zone after half the step by the conservation laws.  If the frame does not
rotate, or the Grid is one plane high, the radial momentum of the zone changes by what flows through its sides, by the hoop stress of `ρ`, `m2` and
the half-step fields and pressure, by the pull of the potential on `ρ` and by the Coriolis force on `m2`; its angular momentum by what flows through its
sides, by the torque of the potential on `ρ` and by the Coriolis force on `m1`.  Missing: rotating frames of more than one plane, where it is false. -/
theorem ctu_momentum_partial (P : Phys) (Om0 : Option ℝ) {G : Geo} (hG : Outside G) (dt : ℝ) (g : Rng) (hp : Om0 = none ∨ g.ke = g.ks) (X : CtuIn ns)
    (S : St ℝ ns) {k j i : ℤ} (hz : InGrid g k j i) {ρ m1 m2 : ℝ} (H : Half P Om0 G g X (S.U k j i) (1 / 2 * dt) k j i ρ m1 m2) :
    (vol G g i * ((ctuFinish P Om0 G dt g X S).U k j i).M1 = vol G g i * (S.U k j i).M1
      - dt * zoneOut G g (fun k j i => (X.F1 k j i).Mx) (fun k j i => (X.F2 k j i).Mz) (fun k j i => (X.F3 k j i).My) k j i
      + dt * vol G g i * ((m2 ^ 2 / ρ - ((X.B2F k j i + X.B2F k (j+1) i) / 2) ^ 2 + ctuPress P G g X k j i ρ) / r G g i
          - ρ * pull1 P G g k j i + 2 * omega Om0 * m2)) ∧
    vol G g i * (r G g i * ((ctuFinish P Om0 G dt g X S).U k j i).M2) = vol G g i * (r G g i * (S.U k j i).M2)
      - dt * zoneOut G g (fun k j i => ri G g i * (X.F1 k j i).My) (fun k j i => r G g i * (X.F2 k j i).Mx)
        (fun k j i => r G g i * (X.F3 k j i).Mz) k j i
      - dt * vol G g i * (ρ * pull2 P G g k j i + 2 * omega Om0 * (r G g i * m1)) := by
  obtain ⟨⟨a1, a2⟩, ⟨a3, a4⟩, ⟨a5, a6⟩⟩ := hz
  obtain ⟨e1, e2, e3⟩ := half_unique P Om0 hG g X (S.U k j i) dt a5 H
  have e1' : dhalf G dt g X S.U k j i = ρ := e1
  have hr := (r_pos hG a5).ne'
  have h1 := hG.dx1.ne'
  have h2 := hG.dx2.ne'
  have h3 := hG.dx3.ne'
  have es : geoSrc P Om0 G dt g X (fun _ _ _ => S.U k j i) k j i =
      (m2 ^ 2 / ρ - ((X.B2F k j i + X.B2F k (j+1) i) / 2) ^ 2 + ctuPress P G g X k j i ρ) / r G g i := by
    simp only [geoSrc, e1, e3, ctuPress, rsf, lsf]
    have b2 : 1 / 2 * (X.B2F k j i + X.B2F k (j+1) i) = (X.B2F k j i + X.B2F k (j+1) i) / 2 := by ring
    have w : ∀ x y : ℝ, 1 / 2 * (ri G g i / r G g i * x + ri G g (i+1) / r G g i * y) = (ri G g i * x + ri G g (i+1) * y) / (2 * r G g i) := by
      intro x y; field_simp
    cases P.eos with
    | isothermal c2 => simp only [b2, w]; ring
    | adiabatic g1 => simp only [b2, w]
  rw [ctuFinish_in P Om0 G dt g X S a1 a2 a3 a4 a5 a6, ctuGrav_eq, geoLoop_plane P Om0 G dt g X hp S.U ⟨⟨a1, a2⟩, ⟨a3, a4⟩, ⟨a5, a6⟩⟩, e1']
  simp only [turnOf, es, e2, e3, cupd3, cupd2, cupd1, upd3, upd2, cavgB, rsf, lsf, vol, zoneOut, pull1, pull2]
  generalize ctuPress P G g X k j i ρ = p
  generalize m2 ^ 2 / ρ = w
  constructor
  · field_simp
    ring
  · field_simp
    ring

/-- There always are such half-step values. -/
theorem half_exists (P : Phys) (Om0 : Option ℝ) {G : Geo} (hG : Outside G) (g : Rng) (X : CtuIn ns) (u : Cons ℝ ns) (h : ℝ) (k j : ℤ) {i : ℤ} (hi : g.is ≤ i) :
    ∃ ρ m1 m2, Half P Om0 G g X u h k j i ρ m1 m2 := by
  have hr := (r_pos hG hi).ne'
  have hv : vol G g i ≠ 0 := by
    have h1 := hG.dx1.ne'
    have h2 := hG.dx2.ne'
    have h3 := hG.dx3.ne'
    unfold vol; positivity
  refine ⟨_, _, _, ⟨mul_div_cancel₀ _ hv, mul_div_cancel₀ _ hv, (mul_assoc _ _ _).symm.trans (mul_div_cancel₀ _ (mul_ne_zero hv hr))⟩⟩

/-- A concrete case: one zone of gas moving outwards at speed 1 in a frame rotating with `Ω = 1`; over the time 1/2 its angular velocity becomes -1. -/
example : ((ctuFinish noPh (some 1) wedge (1/2) oneZ calm infall).U 4 4 4).M2 = -1 := by
  have H : Half noPh (some 1) wedge oneZ calm (infall.U 4 4 4) (1 / 2 * (1/2)) 4 4 4 1 1 (-1/2) := by
    constructor <;> norm_num [vol, zoneOut, calm, infall, massF, wedge, oneZ, r, ri, pull1, pull2, phi, noPh, omega]
  have h := (ctu_momentum_partial noPh (some 1) wedge_out (1/2) oneZ (.inr rfl) calm infall (k := 4) (j := 4) (i := 4) (by unfold InGrid; decide) H).2
  norm_num [vol, zoneOut, calm, infall, massF, wedge, oneZ, r, ri, pull2, phi, noPh, omega] at h
  simp only [calm, infall, wedge, oneZ, massF, noPh]
  linarith

end Athena.Cyl
