import Verif.Prob.Spec

/-!
# Initial states of field_loop.c, orszag-tang.c, rotor.c, blast.c and current_sheet.c
-/

namespace Athena.Prob
open Athena.Pos
noncomputable section

theorem fill_in {k0 k1 j0 j1 i0 i1 : ℤ} (f old : Arr) {k j i : ℤ}
    (h : (k0 ≤ k ∧ k ≤ k1) ∧ (j0 ≤ j ∧ j ≤ j1) ∧ (i0 ≤ i ∧ i ≤ i1)) :
    fill k0 k1 j0 j1 i0 i1 f old k j i = f k j i := if_pos h

theorem zones_in {G : Grd} (f : Arr) {k j i : ℤ} (h : Active G k j i) : zones G f k j i = f k j i := if_pos h

theorem up_of {a : Axis} (h : a.e > a.s) : up a = a.e + 1 := if_pos h
theorem up_of' {a : Axis} (h : ¬ a.e > a.s) : up a = a.e := if_neg h

theorem edges_in {G : Grd} (f : Arr) {k j i : ℤ} (hk : G.x3.s ≤ k ∧ k ≤ G.x3.e + 1)
    (hj : G.x2.s ≤ j ∧ j ≤ G.x2.e + 1) (hi : G.x1.s ≤ i ∧ i ≤ G.x1.e + 1) :
    edges G f k j i = f k j i := if_pos ⟨hk, hj, hi⟩

theorem low_succ (a : Axis) (i : ℤ) : low a (i + 1) = low a i + a.dx := by
  unfold low ccPos; push_cast; ring

theorem cc_low (a : Axis) (i : ℤ) : ccPos a i = low a i + 1/2 * a.dx := by
  unfold low; ring

/-! ## field_loop.c -/

theorem loop_divergence (G : Grd) (p : LoopPar) (gamma1 : ℝ) (h2 : G.x2.e > G.x2.s)
    (h3 : G.x3.e > G.x3.s) : Solenoidal G (fieldLoop G p gamma1) := by
  intro k j i hz
  obtain ⟨⟨a, b⟩, ⟨c, d⟩, ⟨e, f⟩⟩ := hz
  unfold divB
  rw [if_pos h2, if_pos h3]
  show (loopB1 G p k j (i+1) - loopB1 G p k j i) / _ + (loopB2 G p k (j+1) i - loopB2 G p k j i) / _
    + (loopB3 G p (k+1) j i - loopB3 G p k j i) / _ = 0
  have hu := up_of h3
  unfold loopB1 loopB2 loopB3
  rw [fill_in _ _ (by omega), fill_in _ _ (by omega), fill_in _ _ (by omega), fill_in _ _ (by omega),
    fill_in _ _ (by omega), fill_in _ _ (by omega)]
  ring

/-- **C127** (`field_loop`, three dimensions): the initial field of every variant has no divergence. -/
theorem field_loop_solenoidal (G : Grd) (p : LoopPar) (gamma1 : ℝ) (h2 : G.x2.e > G.x2.s)
    (h3 : G.x3.e > G.x3.s) : Solenoidal G (fieldLoop G p gamma1) := loop_divergence G p gamma1 h2 h3

theorem loopAy_one {p : LoopPar} (h : p.iprob = 1) (a b c d e f : ℝ) : loopAy p a b c d e f = 0 := by
  unfold loopAy; rw [if_pos h]

theorem loopAx_one {p : LoopPar} (h : p.iprob = 1) (a b c d e f : ℝ) : loopAx p a b c d e f = 0 := by
  unfold loopAx; rw [if_pos h]

theorem loopArr_zero {G : Grd} {A : ℝ → ℝ → ℝ → ℝ → ℝ → ℝ → ℝ} (h : ∀ a b c d e f, A a b c d e f = 0)
    (k j i : ℤ) : loopArr G A k j i = 0 := by
  unfold loopArr edges fill
  split
  · exact h ..
  · rfl

/-- **C127** (`field_loop`, two dimensions), for the loop in the plane of the Grid.  The other variants are
refuted by `field_loop_plane_false`. -/
theorem field_loop_plane_partial (G : Grd) (p : LoopPar) (gamma1 : ℝ) (h2 : G.x2.e > G.x2.s)
    (h3 : G.x3.e = G.x3.s) (hp : p.iprob = 1) : Solenoidal G (fieldLoop G p gamma1) := by
  intro k j i hz
  obtain ⟨⟨a, b⟩, ⟨c, d⟩, ⟨e, f⟩⟩ := hz
  unfold divB
  rw [if_pos h2, if_neg (by omega)]
  show (loopB1 G p k j (i+1) - loopB1 G p k j i) / _ + (loopB2 G p k (j+1) i - loopB2 G p k j i) / _
    + 0 = 0
  unfold loopB1 loopB2
  rw [fill_in _ _ (by omega), fill_in _ _ (by omega), fill_in _ _ (by omega), fill_in _ _ (by omega)]
  simp only [loopArr_zero (loopAy_one hp), loopArr_zero (loopAx_one hp)]
  ring

/-- The potential of field_loop.c as a function of the position of the edge it belongs to: edges along x1 have
their own first coordinate at the centre of a zone and the others at faces, and so on. -/
def potX (p : LoopPar) (x1 x2 x3 : ℝ) : ℝ := loopAx p x1 0 0 0 x2 x3
/-- Edges along x2. -/
def potY (p : LoopPar) (x1 x2 x3 : ℝ) : ℝ := loopAy p 0 x2 0 x1 0 x3
/-- Edges along x3. -/
def potZ (p : LoopPar) (x1 x2 x3 : ℝ) : ℝ := loopAz p 0 0 x3 x1 x2 0

theorem loopAx_pot (p : LoopPar) (a b c d e f : ℝ) : loopAx p a b c d e f = potX p a e f := rfl
theorem loopAy_pot (p : LoopPar) (a b c d e f : ℝ) : loopAy p a b c d e f = potY p d b f := rfl
theorem loopAz_pot (p : LoopPar) (a b c d e f : ℝ) : loopAz p a b c d e f = potZ p d e c := rfl

/-- **C127**: the face field at every active face is the curl of one potential, taken at the position of the
face: it does not depend on the Grid the face is in. -/
theorem field_loop_curl (G : Grd) (p : LoopPar) (gamma1 : ℝ) (k j i : ℤ) (hk : G.x3.s ≤ k ∧ k ≤ G.x3.e)
    (hj : G.x2.s ≤ j ∧ j ≤ G.x2.e) (hi : G.x1.s ≤ i ∧ i ≤ G.x1.e + 1) :
    (fieldLoop G p gamma1).b1 k j i =
      (potZ p (low G.x1 i) (low G.x2 j + G.x2.dx) (ccPos G.x3 k)
        - potZ p (low G.x1 i) (low G.x2 j) (ccPos G.x3 k)) / G.x2.dx
      - (potY p (low G.x1 i) (ccPos G.x2 j) (low G.x3 k + G.x3.dx)
        - potY p (low G.x1 i) (ccPos G.x2 j) (low G.x3 k)) / G.x3.dx := by
  show loopB1 G p k j i = _
  unfold loopB1
  rw [fill_in _ _ (by omega)]
  unfold loopArr
  rw [edges_in _ (by omega) (by omega) (by omega), edges_in _ (by omega) (by omega) (by omega),
    edges_in _ (by omega) (by omega) (by omega), edges_in _ (by omega) (by omega) (by omega)]
  simp only [loopAz_pot, loopAy_pot, low_succ]

theorem field_loop_curl2 (G : Grd) (p : LoopPar) (gamma1 : ℝ) (k j i : ℤ) (hk : G.x3.s ≤ k ∧ k ≤ G.x3.e)
    (hj : G.x2.s ≤ j ∧ j ≤ G.x2.e + 1) (hi : G.x1.s ≤ i ∧ i ≤ G.x1.e) :
    (fieldLoop G p gamma1).b2 k j i =
      (potX p (ccPos G.x1 i) (low G.x2 j) (low G.x3 k + G.x3.dx)
        - potX p (ccPos G.x1 i) (low G.x2 j) (low G.x3 k)) / G.x3.dx
      - (potZ p (low G.x1 i + G.x1.dx) (low G.x2 j) (ccPos G.x3 k)
        - potZ p (low G.x1 i) (low G.x2 j) (ccPos G.x3 k)) / G.x1.dx := by
  show loopB2 G p k j i = _
  unfold loopB2
  rw [fill_in _ _ (by omega)]
  unfold loopArr
  rw [edges_in _ (by omega) (by omega) (by omega), edges_in _ (by omega) (by omega) (by omega),
    edges_in _ (by omega) (by omega) (by omega), edges_in _ (by omega) (by omega) (by omega)]
  simp only [loopAz_pot, loopAx_pot, low_succ]

theorem field_loop_curl3 (G : Grd) (p : LoopPar) (gamma1 : ℝ) (k j i : ℤ)
    (hk : G.x3.s ≤ k ∧ (k ≤ G.x3.e ∨ G.x3.e > G.x3.s ∧ k = G.x3.e + 1))
    (hj : G.x2.s ≤ j ∧ j ≤ G.x2.e) (hi : G.x1.s ≤ i ∧ i ≤ G.x1.e) :
    (fieldLoop G p gamma1).b3 k j i =
      (potY p (low G.x1 i + G.x1.dx) (ccPos G.x2 j) (low G.x3 k)
        - potY p (low G.x1 i) (ccPos G.x2 j) (low G.x3 k)) / G.x1.dx
      - (potX p (ccPos G.x1 i) (low G.x2 j + G.x2.dx) (low G.x3 k)
        - potX p (ccPos G.x1 i) (low G.x2 j) (low G.x3 k)) / G.x2.dx := by
  show loopB3 G p k j i = _
  have hu : k ≤ up G.x3 := by unfold up; split <;> omega
  unfold loopB3
  rw [fill_in _ _ (by omega)]
  unfold loopArr
  rw [edges_in _ (by omega) (by omega) (by omega), edges_in _ (by omega) (by omega) (by omega),
    edges_in _ (by omega) (by omega) (by omega), edges_in _ (by omega) (by omega) (by omega)]
  simp only [loopAy_pot, loopAx_pot, low_succ]

/-- **C127**: two Grids of a Domain give a face they share the same field. -/
theorem field_loop_shared (G H : Grd) (p : LoopPar) (gamma1 : ℝ)
    (hd : G.x1.dx = H.x1.dx ∧ G.x2.dx = H.x2.dx ∧ G.x3.dx = H.x3.dx) (k j i k' j' i' : ℤ)
    (hk : G.x3.s ≤ k ∧ k ≤ G.x3.e) (hj : G.x2.s ≤ j ∧ j ≤ G.x2.e) (hi : G.x1.s ≤ i ∧ i ≤ G.x1.e + 1)
    (hk' : H.x3.s ≤ k' ∧ k' ≤ H.x3.e) (hj' : H.x2.s ≤ j' ∧ j' ≤ H.x2.e) (hi' : H.x1.s ≤ i' ∧ i' ≤ H.x1.e + 1)
    (pos : ccPos G.x1 i = ccPos H.x1 i' ∧ ccPos G.x2 j = ccPos H.x2 j' ∧ ccPos G.x3 k = ccPos H.x3 k') :
    (fieldLoop G p gamma1).b1 k j i = (fieldLoop H p gamma1).b1 k' j' i' := by
  have hl : ∀ (a b : Axis) (m n : ℤ), a.dx = b.dx → ccPos a m = ccPos b n → low a m = low b n := by
    intro a b m n h h'
    unfold low
    rw [h, h']
  rw [field_loop_curl G p gamma1 k j i hk hj hi, field_loop_curl H p gamma1 k' j' i' hk' hj' hi',
    hl _ _ _ _ hd.1 pos.1, hl _ _ _ _ hd.2.1 pos.2.1, hl _ _ _ _ hd.2.2 pos.2.2, pos.2.1, pos.2.2, hd.2.1,
    hd.2.2]

theorem field_loop_shared2 (G H : Grd) (p : LoopPar) (gamma1 : ℝ)
    (hd : G.x1.dx = H.x1.dx ∧ G.x2.dx = H.x2.dx ∧ G.x3.dx = H.x3.dx) (k j i k' j' i' : ℤ)
    (hk : G.x3.s ≤ k ∧ k ≤ G.x3.e) (hj : G.x2.s ≤ j ∧ j ≤ G.x2.e + 1) (hi : G.x1.s ≤ i ∧ i ≤ G.x1.e)
    (hk' : H.x3.s ≤ k' ∧ k' ≤ H.x3.e) (hj' : H.x2.s ≤ j' ∧ j' ≤ H.x2.e + 1) (hi' : H.x1.s ≤ i' ∧ i' ≤ H.x1.e)
    (pos : ccPos G.x1 i = ccPos H.x1 i' ∧ ccPos G.x2 j = ccPos H.x2 j' ∧ ccPos G.x3 k = ccPos H.x3 k') :
    (fieldLoop G p gamma1).b2 k j i = (fieldLoop H p gamma1).b2 k' j' i' := by
  have hl : ∀ (a b : Axis) (m n : ℤ), a.dx = b.dx → ccPos a m = ccPos b n → low a m = low b n := by
    intro a b m n h h'
    unfold low
    rw [h, h']
  rw [field_loop_curl2 G p gamma1 k j i hk hj hi, field_loop_curl2 H p gamma1 k' j' i' hk' hj' hi',
    hl _ _ _ _ hd.1 pos.1, hl _ _ _ _ hd.2.1 pos.2.1, hl _ _ _ _ hd.2.2 pos.2.2, pos.1, pos.2.2, hd.1,
    hd.2.2]

theorem field_loop_centred (G : Grd) (p : LoopPar) (gamma1 : ℝ) (h2 : G.x2.e > G.x2.s) :
    Centred G (fieldLoop G p gamma1) := by
  intro k j i hz
  unfold fieldLoop
  dsimp only
  rw [zones_in _ hz, zones_in _ hz, zones_in _ hz, if_pos h2]
  refine ⟨by ring, by ring, ?_⟩
  by_cases h : G.x3.e > G.x3.s
  · rw [if_pos h, if_pos h]; ring
  · rw [if_neg h, if_neg h]

theorem pressure_energy {g : ℝ} {S : St} {k j i : ℤ} {p : ℝ} (hg : g ≠ 0)
    (h : S.e k j i = energy (p / g) (S.d k j i) (S.m1 k j i) (S.m2 k j i) (S.m3 k j i) (S.b1c k j i)
      (S.b2c k j i) (S.b3c k j i)) : pressure g S k j i = p := by
  unfold pressure
  rw [h]
  unfold energy
  generalize S.d k j i = d
  generalize S.m1 k j i ^ 2 + S.m2 k j i ^ 2 + S.m3 k j i ^ 2 = m
  generalize S.b1c k j i ^ 2 + S.b2c k j i ^ 2 + S.b3c k j i ^ 2 = b
  have e : m / (2 * d) = 1/2 * m / d := by
    by_cases hd : d = 0
    · subst hd; simp
    · field_simp
  rw [e]
  have : g * (p / g) = p := by field_simp
  linear_combination this

/-- **C128** (`field_loop`): the gas pressure is 1 everywhere, the field does not disturb it. -/
theorem field_loop_pressure (G : Grd) (p : LoopPar) (gamma1 : ℝ) (hg : gamma1 ≠ 0) (k j i : ℤ)
    (hz : Active G k j i) : pressure gamma1 (fieldLoop G p gamma1) k j i = 1 := by
  apply pressure_energy hg
  exact zones_in (G := G) (fun k j i => energy (1 / gamma1) ((fieldLoop G p gamma1).d k j i)
    ((fieldLoop G p gamma1).m1 k j i) ((fieldLoop G p gamma1).m2 k j i) ((fieldLoop G p gamma1).m3 k j i)
    ((fieldLoop G p gamma1).b1c k j i) ((fieldLoop G p gamma1).b2c k j i) ((fieldLoop G p gamma1).b3c k j i)) hz

/-! ## orszag-tang.c -/

/-- **C127** (`orszag-tang`). -/
theorem orszag_tang_solenoidal (G : Grd) (gamma1 : ℝ) (h2 : G.x2.e > G.x2.s) (h3 : G.x3.e = G.x3.s) :
    Solenoidal G (orszagTang G gamma1) := by
  intro k j i hz
  obtain ⟨⟨a, b⟩, ⟨c, d⟩, ⟨e, f⟩⟩ := hz
  unfold divB orszagTang
  rw [if_pos h2, if_neg (by omega)]
  dsimp only
  rw [fill_in _ _ (by omega), fill_in _ _ (by omega), fill_in _ _ (by omega), fill_in _ _ (by omega)]
  ring

theorem orszag_tang_centred (G : Grd) (gamma1 : ℝ) (h2 : G.x2.e > G.x2.s) (h3 : G.x3.e = G.x3.s) :
    Centred G (orszagTang G gamma1) := by
  intro k j i hz
  obtain ⟨⟨a, b⟩, ⟨c, d⟩, ⟨e, f⟩⟩ := hz
  unfold orszagTang
  rw [if_pos h2, if_neg (by omega)]
  dsimp only
  refine ⟨?_, ?_, rfl⟩
  · rw [fill_in (k0 := G.x3.s) (k1 := G.x3.s) (j0 := G.x2.s) (j1 := G.x2.e) (i0 := G.x1.s) (i1 := G.x1.e) _ _
      (by omega)]
    ring
  · rw [fill_in (k0 := G.x3.s) (k1 := G.x3.s) (j0 := G.x2.s) (j1 := G.x2.e) (i0 := G.x1.s) (i1 := G.x1.e) _ _
      (by omega)]
    ring

/-- **C127** (`orszag-tang`): the field on every face of the Grid, the last ones included, is the difference of the potential
`B0/4π cos 4πx + B0/2π cos 2πy` between the ends of the face. -/
theorem orszag_tang_field (G : Grd) (gamma1 : ℝ) (j i : ℤ) :
    (G.x2.s ≤ j ∧ j ≤ G.x2.e → G.x1.s ≤ i ∧ i ≤ G.x1.e + 1 → (orszagTang G gamma1).b1 G.x3.s j i =
      1 / Real.sqrt (4 * Real.pi) / (2 * Real.pi) * (Real.cos (2 * Real.pi * low G.x2 (j+1)) - Real.cos (2 * Real.pi * low G.x2 j)) / G.x2.dx) ∧
    (G.x2.s ≤ j ∧ j ≤ G.x2.e + 1 → G.x1.s ≤ i ∧ i ≤ G.x1.e → (orszagTang G gamma1).b2 G.x3.s j i =
      -(1 / Real.sqrt (4 * Real.pi) / (4 * Real.pi) * (Real.cos (4 * Real.pi * low G.x1 (i+1)) - Real.cos (4 * Real.pi * low G.x1 i))) / G.x1.dx) := by
  refine ⟨fun a b => ?_, fun a b => ?_⟩ <;>
  · unfold orszagTang
    dsimp only
    rw [fill_in _ _ (by omega)]
    unfold otAz
    rw [if_pos (by omega), if_pos (by omega)]
    ring

/-- **C128** (`orszag-tang`): pressure 5/12π. -/
theorem orszag_tang_pressure (G : Grd) (gamma1 : ℝ) (hg : gamma1 ≠ 0) (h3 : G.x3.e = G.x3.s) (k j i : ℤ)
    (hz : Active G k j i) : pressure gamma1 (orszagTang G gamma1) k j i = 5 / (12 * Real.pi) := by
  obtain ⟨⟨a, b⟩, ⟨c, d⟩, ⟨e, f⟩⟩ := hz
  apply pressure_energy hg
  exact fill_in (k0 := G.x3.s) (k1 := G.x3.s) (j0 := G.x2.s) (j1 := G.x2.e) (i0 := G.x1.s) (i1 := G.x1.e)
    (fun k j i => energy (5 / (12 * Real.pi) / gamma1) ((orszagTang G gamma1).d k j i)
    ((orszagTang G gamma1).m1 k j i) ((orszagTang G gamma1).m2 k j i) 0
    ((orszagTang G gamma1).b1c k j i) ((orszagTang G gamma1).b2c k j i) 0) zeros (by omega)

/-! ## rotor.c -/

/-- **C127** (`rotor`). -/
theorem rotor_solenoidal (G : Grd) (p : RotorPar) (gamma1 : ℝ) : Solenoidal G (rotor G p gamma1) := by
  intro k j i hz
  obtain ⟨⟨a, b⟩, ⟨c, d⟩, ⟨e, f⟩⟩ := hz
  have hb : ∀ m, G.x1.s ≤ m → m ≤ G.x1.e + 1 → (rotor G p gamma1).b1 k j m = p.bx0 := by
    intro m h h'
    unfold rotor
    dsimp only
    by_cases hm : m = G.x1.e + 1
    · rw [fill_in _ _ (by omega)]
    · unfold fill
      rw [if_neg (by omega)]
      exact zones_in _ ⟨⟨a, b⟩, ⟨c, d⟩, by omega⟩
  unfold divB
  rw [hb i e (by omega), hb (i+1) (by omega) (by omega)]
  simp [rotor, zeros]

/-- **C128** (`rotor`): the pressure is the one asked for. -/
theorem rotor_pressure (G : Grd) (p : RotorPar) (gamma1 : ℝ) (hg : gamma1 ≠ 0) (k j i : ℤ)
    (hz : Active G k j i) : pressure gamma1 (rotor G p gamma1) k j i = p.p0 := by
  apply pressure_energy hg
  have hb : (rotor G p gamma1).b1c k j i = p.bx0 := zones_in (G := G) (fun _ _ _ => p.bx0) hz
  rw [hb]
  have he : (rotor G p gamma1).e k j i = p.p0 / gamma1 + 1/2 * p.bx0 * p.bx0
      + 1/2 * ((rotor G p gamma1).m1 k j i ^ 2 + (rotor G p gamma1).m2 k j i ^ 2) / (rotor G p gamma1).d k j i :=
    zones_in (G := G) (fun k j i => p.p0 / gamma1 + 1/2 * p.bx0 * p.bx0
      + 1/2 * ((rotor G p gamma1).m1 k j i ^ 2 + (rotor G p gamma1).m2 k j i ^ 2) / (rotor G p gamma1).d k j i) hz
  have h3 : (rotor G p gamma1).m3 k j i = 0 ∧ (rotor G p gamma1).b2c k j i = 0 ∧ (rotor G p gamma1).b3c k j i = 0 :=
    ⟨rfl, rfl, rfl⟩
  rw [he, h3.1, h3.2.1, h3.2.2]
  unfold energy
  ring

/-- **C128** (`rotor`), the density of the disk and of its taper, for tapers that end within radius 0.115: at
least 1, the density outside.  Missing: other radii, see `rotor_density_false`. -/
theorem rotor_density_partial (G : Grd) (p : RotorPar) (gamma1 : ℝ) (hr : p.r1 ≤ 0.115) (k j i : ℤ)
    (hz : Active G k j i) : 1 ≤ (rotor G p gamma1).d k j i := by
  unfold rotor
  dsimp only
  rw [zones_in _ hz]
  unfold rotorD
  split
  · norm_num
  · split
    · rename_i h
      have : 0 ≤ ((0.115:ℝ) - Real.sqrt (ccPos G.x1 i * ccPos G.x1 i + ccPos G.x2 j * ccPos G.x2 j)) / 0.015 := by
        apply div_nonneg
        · linarith
        · norm_num
      linarith
    · norm_num

/-- A Grid of one zone whose centre is at (3/20, 0). -/
def spot : Grd := ⟨⟨1/10, 1/10, 4, 4⟩, ⟨-1/20, 1/10, 4, 4⟩, ⟨0, 1, 0, 0⟩⟩

/-- **C128** is false of `rotor.c`: the taper is computed with the radii 0.1 and 0.115, whatever radii the input
file gives; with `r1 = 0.2` there are zones with negative density. -/
theorem rotor_density_false : ¬ ∀ (G : Grd) (p : RotorPar) (gamma1 : ℝ) (k j i : ℤ), 0 < p.r0 → p.r0 < p.r1 →
    Active G k j i → 0 < (rotor G p gamma1).d k j i := by
  intro h
  have h := h spot ⟨1, 1, 1, 0.1, 0.2⟩ 1 0 4 4 (by norm_num) (by norm_num) (by unfold Active spot; norm_num)
  have e : (rotor spot ⟨1, 1, 1, 0.1, 0.2⟩ 1).d 0 4 4 = -20 := by
    unfold rotor
    dsimp only
    rw [zones_in _ (by unfold Active spot; norm_num)]
    have r : Real.sqrt (ccPos spot.x1 4 * ccPos spot.x1 4 + ccPos spot.x2 4 * ccPos spot.x2 4) = 3/20 := by
      rw [show ccPos spot.x1 4 * ccPos spot.x1 4 + ccPos spot.x2 4 * ccPos spot.x2 4 = (3/20 : ℝ) ^ 2 by
        simp only [ccPos, spot]; norm_num]
      exact Real.sqrt_sq (by norm_num)
    rw [r]
    unfold rotorD
    norm_num
  rw [e] at h
  norm_num at h

/-! ## blast.c -/

/-- **C127** (`blast`). -/
theorem blast_solenoidal (G : Grd) (p : BlastPar) (gamma1 : ℝ) (h1 : G.x1.e > G.x1.s) :
    Solenoidal G (blast G p gamma1) := by
  intro k j i hz
  obtain ⟨⟨a, b⟩, ⟨c, d⟩, ⟨e, f⟩⟩ := hz
  unfold divB blast
  dsimp only
  have u1 := up_of h1
  rw [fill_in _ _ (by omega), fill_in _ _ (by omega)]
  by_cases h2 : G.x2.e > G.x2.s
  · have u2 := up_of h2
    rw [if_pos h2, fill_in _ _ (by omega), fill_in _ _ (by omega)]
    simp [fill, zeros]
  · rw [if_neg h2]
    simp [fill, zeros]

theorem blast_centred (G : Grd) (p : BlastPar) (gamma1 : ℝ) (h1 : G.x1.e > G.x1.s) :
    Centred G (blast G p gamma1) := by
  intro k j i hz
  obtain ⟨⟨a, b⟩, ⟨c, d⟩, ⟨e, f⟩⟩ := hz
  have hz : Active G k j i := ⟨⟨a, b⟩, ⟨c, d⟩, ⟨e, f⟩⟩
  have u1 := up_of h1
  unfold blast
  dsimp only
  rw [zones_in _ hz, zones_in _ hz, zones_in _ hz]
  refine ⟨?_, ?_, ?_⟩
  · rw [fill_in _ _ (by omega), fill_in _ _ (by omega)]; ring
  · by_cases h2 : G.x2.e > G.x2.s
    · have u2 := up_of h2
      rw [if_pos h2, fill_in _ _ (by omega), fill_in _ _ (by omega)]; ring
    · have u2 := up_of' h2
      rw [if_neg h2, fill_in _ _ (by omega)]
  · simp [fill, zeros]

/-- **C128** (`blast`): inside the given radius the pressure is `prat` times that outside, whatever the field. -/
theorem blast_pressure (G : Grd) (p : BlastPar) (gamma1 : ℝ) (hg : gamma1 ≠ 0) (k j i : ℤ)
    (hz : Active G k j i) : pressure gamma1 (blast G p gamma1) k j i
      = if radius G k j i < p.rin then p.prat * p.pa else p.pa := by
  unfold pressure blast
  dsimp only
  simp only [zones_in _ hz]
  have : gamma1 * (blastP G p k j i / gamma1) = blastP G p k j i := by field_simp
  simp only [consE, mul_zero, ne_eq, OfNat.ofNat_ne_zero, not_false_eq_true, zero_pow, add_zero, zero_div, sub_zero]
  change _ = blastP G p k j i
  linear_combination this

/-! ## current_sheet.c -/

/-- **C127** (`current_sheet`). -/
theorem current_sheet_solenoidal (G : Grd) (p : SheetPar) (gamma1 : ℝ) :
    Solenoidal G (currentSheet G p gamma1) := by
  intro k j i hz
  obtain ⟨⟨a, b⟩, ⟨c, d⟩, ⟨e, f⟩⟩ := hz
  unfold divB currentSheet
  dsimp only
  rw [fill_in _ _ (by omega), fill_in _ _ (by omega), fill_in _ _ (by omega), fill_in _ _ (by omega)]
  simp [fill, zeros]

/-- **C128** (`current_sheet`). -/
theorem current_sheet_pressure (G : Grd) (p : SheetPar) (gamma1 : ℝ) (hg : gamma1 ≠ 0) (k j i : ℤ)
    (hz : Active G k j i) : pressure gamma1 (currentSheet G p gamma1) k j i = p.beta := by
  have hf : flip (ccPos G.x1 i) ^ 2 = 1 := by unfold flip; split <;> norm_num
  unfold pressure currentSheet
  dsimp only
  simp only [zones_in _ hz]
  rw [hf]
  have : gamma1 * (p.beta / gamma1) = p.beta := by field_simp
  simp only [consE]
  linear_combination this

/-- **C127**: the generator of the blast wave writes the rows of the arrays only, in every dimension. -/
theorem blast_bounds (ng nx2 : ℤ) (x dx : ℝ) (G : Grd) (hn : 0 < ng) (h2 : 0 < nx2)
    (hG : G.x2 = gridAxis ng x dx [] nx2) (row : ℤ) (h : blastRows G row) : 0 ≤ row ∧ row < rows ng G.x2 := by
  unfold blastRows up at h
  unfold rows nx
  rw [hG] at h ⊢
  unfold gridAxis at h ⊢
  dsimp only at h ⊢
  split_ifs at h ⊢ <;> omega

/-- The rows written by the current sheet problem are rows of the arrays, in two and three dimensions.  Missing:
one dimension, see `current_sheet_bounds_false`. -/
theorem current_sheet_bounds_partial (ng nx2 : ℤ) (x dx : ℝ) (G : Grd) (hn : 0 < ng) (h2 : 1 < nx2)
    (hG : G.x2 = gridAxis ng x dx [] nx2) (row : ℤ) (h : sheetRows G row) : 0 ≤ row ∧ row < rows ng G.x2 := by
  unfold sheetRows at h
  unfold rows nx
  rw [hG] at h ⊢
  unfold gridAxis at h ⊢
  dsimp only at h ⊢
  split_ifs at h ⊢ <;> omega

/-- In one dimension, `current_sheet.c` writes row 1 of arrays that have row 0 only. -/
theorem current_sheet_bounds_false : ¬ ∀ (ng nx2 : ℤ) (x dx : ℝ) (G : Grd), 0 < ng → 0 < nx2 →
    G.x2 = gridAxis ng x dx [] nx2 → ∀ row, sheetRows G row → 0 ≤ row ∧ row < rows ng G.x2 := by
  intro h
  have h := h 4 1 0 1 ⟨gridAxis 4 0 1 [] 8, gridAxis 4 0 1 [] 1, gridAxis 4 0 1 [] 1⟩ (by norm_num) (by norm_num)
    rfl 1 (by unfold sheetRows gridAxis; norm_num)
  unfold rows nx gridAxis at h
  norm_num at h

/-! ## Refutation in the plane and concrete cases -/

/-- 8 by 2 zones of a plane at the third coordinate 0 to 1. -/
def plate : Grd := ⟨gridAxis 4 0 1 [] 8, gridAxis 4 0 1 [] 2, gridAxis 4 0 1 [] 1⟩

/-- A loop of radius 3/2 in the plane of the second and third coordinate. -/
def hoop : LoopPar := ⟨3/2, 1, 1, 1, 2, 8, 2, 1⟩

/-- **C127** is false of `field_loop.c` in two dimensions with the loop in another plane, which the generator
accepts: the difference across the single zone of the third direction gives a field with divergence. -/
theorem field_loop_plane_false : ¬ ∀ (G : Grd) (p : LoopPar) (gamma1 : ℝ), G.x2.e > G.x2.s → G.x3.e = G.x3.s →
    (1 ≤ p.iprob ∧ p.iprob ≤ 5) → Solenoidal G (fieldLoop G p gamma1) := by
  intro h
  have h := h plate hoop 1 (by unfold plate gridAxis; norm_num) (by unfold plate gridAxis; norm_num)
    (by unfold hoop; norm_num) 0 4 4 (by unfold Active plate gridAxis; norm_num)
  have r0 : ∀ j : ℤ, low plate.x2 j = j - 4 := by intro j; unfold low ccPos plate gridAxis; norm_num
  have k0 : low plate.x3 0 = 0 := by unfold low ccPos plate gridAxis; norm_num
  have k1 : low plate.x3 1 = 1 := by unfold low ccPos plate gridAxis; norm_num
  have x2 : plate.x2.dx = 1 ∧ plate.x3.dx = 1 := by unfold plate gridAxis; norm_num
  have s0 : Real.sqrt (0 * 0 + 0 * 0) = 0 := by norm_num
  have s1 : Real.sqrt (0 * 0 + 1 * 1) = 1 := by norm_num
  have s2 : Real.sqrt (1 * 1 + 0 * 0) = 1 := by norm_num
  have py : ∀ a b c, potY hoop a b c = 0 := fun _ _ _ => rfl
  have pz : ∀ a b c, potZ hoop a b c = 0 := fun _ _ _ => rfl
  have px : ∀ a b c, potX hoop a b c = cone hoop (b * b + c * c) := fun _ _ _ => rfl
  unfold divB at h
  rw [if_pos (by unfold plate gridAxis; norm_num), if_neg (by unfold plate gridAxis; norm_num)] at h
  have i1 := field_loop_curl plate hoop 1 0 4 4 (by unfold plate gridAxis; norm_num)
    (by unfold plate gridAxis; norm_num) (by unfold plate gridAxis; norm_num)
  have i2 := field_loop_curl plate hoop 1 0 4 (4+1) (by unfold plate gridAxis; norm_num)
    (by unfold plate gridAxis; norm_num) (by unfold plate gridAxis; norm_num)
  have i3 := field_loop_curl2 plate hoop 1 0 4 4 (by unfold plate gridAxis; norm_num)
    (by unfold plate gridAxis; norm_num) (by unfold plate gridAxis; norm_num)
  have i4 := field_loop_curl2 plate hoop 1 0 (4+1) 4 (by unfold plate gridAxis; norm_num)
    (by unfold plate gridAxis; norm_num) (by unfold plate gridAxis; norm_num)
  rw [i1, i2, i3, i4] at h
  simp only [py, pz, px, r0, k0, x2.1, x2.2] at h
  have c0 : cone hoop (0 * 0 + 0 * 0) = 3/2 := by unfold cone hoop; rw [s0]; norm_num
  have c1 : cone hoop (0 * 0 + 1 * 1) = 1/2 := by unfold cone hoop; rw [s1]; norm_num
  have c2 : cone hoop (1 * 1 + 0 * 0) = 1/2 := by unfold cone hoop; rw [s2]; norm_num
  have c3 : 0 < cone hoop (1 * 1 + 1 * 1) := by
    have : Real.sqrt (1 * 1 + 1 * 1) < 3/2 := by
      rw [Real.sqrt_lt' (by norm_num)]; norm_num
    unfold cone hoop
    rw [if_pos (by norm_num)]
    dsimp only
    linarith
  norm_num at h c0 c1 c2 c3
  linarith

/-- A loop in three dimensions, on the second of two Grids of 8 by 4 by 4 zones. -/
example : Solenoidal ⟨gridAxis 4 (-1) (1/8) [8] 8, gridAxis 4 (-1/2) (1/4) [] 4, gridAxis 4 (-1/2) (1/4) [] 4⟩
    (fieldLoop ⟨gridAxis 4 (-1) (1/8) [8] 8, gridAxis 4 (-1/2) (1/4) [] 4, gridAxis 4 (-1/2) (1/4) [] 4⟩
      ⟨3/10, 1/1000, 1, 1, 4, 2, 1, 1⟩ (2/3)) :=
  field_loop_solenoidal _ _ _ (by unfold gridAxis; norm_num) (by unfold gridAxis; norm_num)

/-- The face between the two Grids. -/
example : (fieldLoop ⟨gridAxis 4 (-1) (1/8) [] 8, gridAxis 4 (-1/2) (1/4) [] 4, gridAxis 4 (-1/2) (1/4) [] 4⟩
      ⟨3/10, 1/1000, 1, 1, 5, 2, 1, 1⟩ (2/3)).b1 5 6 12
    = (fieldLoop ⟨gridAxis 4 (-1) (1/8) [8] 8, gridAxis 4 (-1/2) (1/4) [] 4, gridAxis 4 (-1/2) (1/4) [] 4⟩
      ⟨3/10, 1/1000, 1, 1, 5, 2, 1, 1⟩ (2/3)).b1 5 6 4 :=
  field_loop_shared
    ⟨gridAxis 4 (-1) (1/8) [] 8, gridAxis 4 (-1/2) (1/4) [] 4, gridAxis 4 (-1/2) (1/4) [] 4⟩
    ⟨gridAxis 4 (-1) (1/8) [8] 8, gridAxis 4 (-1/2) (1/4) [] 4, gridAxis 4 (-1/2) (1/4) [] 4⟩
    ⟨3/10, 1/1000, 1, 1, 5, 2, 1, 1⟩ (2/3) ⟨rfl, rfl, rfl⟩ 5 6 12 5 6 4
    (by unfold gridAxis; norm_num) (by unfold gridAxis; norm_num)
    (by unfold gridAxis; norm_num) (by unfold gridAxis; norm_num) (by unfold gridAxis; norm_num)
    (by unfold gridAxis; norm_num) ⟨by unfold ccPos gridAxis; norm_num, rfl, rfl⟩

example : 1 ≤ (rotor spot ⟨1, 1, 1, 0.1, 0.115⟩ 1).d 0 4 4 :=
  rotor_density_partial spot ⟨1, 1, 1, 0.1, 0.115⟩ 1 (by norm_num) 0 4 4 (by unfold Active spot; norm_num)

example : Solenoidal plate (orszagTang plate (2/3)) :=
  orszag_tang_solenoidal _ _ (by unfold plate gridAxis; norm_num) (by unfold plate gridAxis; norm_num)

example : pressure (2/3) (blast plate ⟨2, 1/10, 1, 1, 100, 1, 1⟩ (2/3)) 0 5 6
    = if radius plate 0 5 6 < 2 then 100 * (1/10) else 1/10 :=
  blast_pressure plate ⟨2, 1/10, 1, 1, 100, 1, 1⟩ (2/3) (by norm_num) 0 5 6
    (by unfold Active plate gridAxis; norm_num)

end
end Athena.Prob
