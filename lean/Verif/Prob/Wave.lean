import Verif.Prob.Loop

/-!
# Initial states of linear_wave.c and cpaw.c
-/

namespace Athena.Prob
open Athena.Pos
noncomputable section

theorem nx_gt {a : Axis} : nx a > 1 ↔ a.e > a.s := by unfold nx; omega

/-! ## The potentials under a shift by whole wavelengths -/

/-- A shift of the position that changes the potential by constants only. -/
structure Per (n : Ang) (q : Pot) (v1 v2 v3 : ℝ) : Prop where
  y : ∃ α, ∀ x, q.ay (x + along n v1 v2 v3) = q.ay x + α
  z : ∃ β, ∀ x y, q.az (x + along n v1 v2 v3) (y + across n v1 v2) = q.az x y + β

theorem cos_shift {k d : ℝ} {m : ℤ} (h : k * d = m * (2 * Real.pi)) (x : ℝ) :
    Real.cos (k * (x + d - 0)) = Real.cos (k * (x - 0)) := by
  rw [show k * (x + d - 0) = k * (x - 0) + m * (2 * Real.pi) by rw [← h]; ring]
  exact Real.cos_add_int_mul_two_pi _ _

theorem sin_shift {k d : ℝ} {m : ℤ} (h : k * d = m * (2 * Real.pi)) (x : ℝ) :
    Real.sin (k * (x + d)) = Real.sin (k * x) := by
  rw [show k * (x + d) = k * x + m * (2 * Real.pi) by rw [← h]; ring]
  exact Real.sin_add_int_mul_two_pi _ _

theorem lin_per (p : WavePar) {v1 v2 v3 : ℝ} {m : ℤ} (h : p.kp * along p.an v1 v2 v3 = m * (2 * Real.pi)) :
    Per p.an (linPot p) v1 v2 v3 where
  y := ⟨p.bz * along p.an v1 v2 v3, fun x => by
    show linAy p _ = linAy p _ + _
    unfold linAy; rw [cos_shift h]; ring⟩
  z := ⟨-p.by' * along p.an v1 v2 v3 + p.bx * across p.an v1 v2, fun x y => by
    show linAz p _ _ = linAz p _ _ + _
    unfold linAz; rw [cos_shift h]; ring⟩

theorem cp_per (p : WavePar) {v1 v2 v3 : ℝ} {m : ℤ} (h : p.kp * along p.an v1 v2 v3 = m * (2 * Real.pi)) :
    Per p.an (cpPot p) v1 v2 v3 where
  y := ⟨0, fun x => by
    show cpAy p _ = cpAy p _ + _
    unfold cpAy
    rw [show x + along p.an v1 v2 v3 - 0 = (x - 0) + along p.an v1 v2 v3 by ring, sin_shift h]; ring⟩
  z := ⟨p.bx * across p.an v1 v2, fun x y => by
    show cpAz p _ _ = cpAz p _ _ + _
    unfold cpAz; rw [cos_shift h]; ring⟩

theorem along_add (n : Ang) (a b c d e f : ℝ) : along n (a + d) (b + e) (c + f) = along n a b c + along n d e f := by
  unfold along; ring
/-- The coordinates `x` and `y` of the wave belong to perpendicular directions of unit length. -/
theorem wave_axes (n : Ang) (h2 : n.c2 ^ 2 + n.s2 ^ 2 = 1) (h3 : n.c3 ^ 2 + n.s3 ^ 2 = 1) :
    along n (n.c2 * n.c3) (n.c2 * n.s3) n.s2 = 1 ∧ across n (n.c2 * n.c3) (n.c2 * n.s3) = 0 ∧ along n (-n.s3) n.c3 0 = 0 ∧ across n (-n.s3) n.c3 = 1 := by
  unfold along across
  refine ⟨?_, by ring, by ring, ?_⟩
  · linear_combination n.c2 ^ 2 * h3 + h2
  · linear_combination h3

theorem across_add (n : Ang) (a b d e : ℝ) : across n (a + d) (b + e) = across n a b + across n d e := by
  unfold across; ring

theorem Per.a1 {n : Ang} {q : Pot} {v1 v2 v3 : ℝ} (h : Per n q v1 v2 v3) :
    ∃ c, ∀ a b d, A1 n q (a + v1) (b + v2) (d + v3) = A1 n q a b d + c := by
  obtain ⟨⟨α, hy⟩, ⟨β, hz⟩⟩ := h
  refine ⟨-α * n.s3 - β * n.s2 * n.c3, fun a b d => ?_⟩
  unfold A1
  rw [along_add, across_add, hy, hz]
  ring

theorem Per.a2 {n : Ang} {q : Pot} {v1 v2 v3 : ℝ} (h : Per n q v1 v2 v3) :
    ∃ c, ∀ a b d, A2 n q (a + v1) (b + v2) (d + v3) = A2 n q a b d + c := by
  obtain ⟨⟨α, hy⟩, ⟨β, hz⟩⟩ := h
  refine ⟨α * n.c3 - β * n.s2 * n.s3, fun a b d => ?_⟩
  unfold A2
  rw [along_add, across_add, hy, hz]
  ring

theorem Per.a3 {n : Ang} {q : Pot} {v1 v2 v3 : ℝ} (h : Per n q v1 v2 v3) :
    ∃ c, ∀ a b d, A3 n q (a + v1) (b + v2) (d + v3) = A3 n q a b d + c := by
  obtain ⟨_, ⟨β, hz⟩⟩ := h
  refine ⟨β * n.c2, fun a b d => ?_⟩
  unfold A3
  rw [along_add, across_add, hz]
  ring

/-! ## The face fields as curls -/

/-- The curl of the potential at the position `(x1, x2, x3)` of the lower corner of a zone. -/
def curl1 (G : Grd) (n : Ang) (q : Pot) (x1 x2 x3 : ℝ) : ℝ :=
  (A3 n q x1 (x2 + G.x2.dx) (x3 + 1/2 * G.x3.dx) - A3 n q x1 x2 (x3 + 1/2 * G.x3.dx)) / G.x2.dx
  - (A2 n q x1 (x2 + 1/2 * G.x2.dx) (x3 + G.x3.dx) - A2 n q x1 (x2 + 1/2 * G.x2.dx) x3) / G.x3.dx
/-- Second component. -/
def curl2 (G : Grd) (n : Ang) (q : Pot) (x1 x2 x3 : ℝ) : ℝ :=
  (A1 n q (x1 + 1/2 * G.x1.dx) x2 (x3 + G.x3.dx) - A1 n q (x1 + 1/2 * G.x1.dx) x2 x3) / G.x3.dx
  - (A3 n q (x1 + G.x1.dx) x2 (x3 + 1/2 * G.x3.dx) - A3 n q x1 x2 (x3 + 1/2 * G.x3.dx)) / G.x1.dx
/-- Third component. -/
def curl3 (G : Grd) (n : Ang) (q : Pot) (x1 x2 x3 : ℝ) : ℝ :=
  (A2 n q (x1 + G.x1.dx) (x2 + 1/2 * G.x2.dx) x3 - A2 n q x1 (x2 + 1/2 * G.x2.dx) x3) / G.x1.dx
  - (A1 n q (x1 + 1/2 * G.x1.dx) (x2 + G.x2.dx) x3 - A1 n q (x1 + 1/2 * G.x1.dx) x2 x3) / G.x2.dx

/-- The faces of a Grid carry the curls of a potential. -/
structure Curled (G : Grd) (n : Ang) (q : Pot) (F : Fld) : Prop where
  b1 : ∀ k j i, (G.x3.s ≤ k ∧ k ≤ G.x3.e) → (G.x2.s ≤ j ∧ j ≤ G.x2.e) → (G.x1.s ≤ i ∧ i ≤ G.x1.e + 1) →
    F.b1 k j i = curl1 G n q (low G.x1 i) (low G.x2 j) (low G.x3 k)
  b2 : G.x2.e > G.x2.s → ∀ k j i, (G.x3.s ≤ k ∧ k ≤ G.x3.e) → (G.x2.s ≤ j ∧ j ≤ G.x2.e + 1) →
    (G.x1.s ≤ i ∧ i ≤ G.x1.e) → F.b2 k j i = curl2 G n q (low G.x1 i) (low G.x2 j) (low G.x3 k)
  b3 : G.x3.e > G.x3.s → ∀ k j i, (G.x3.s ≤ k ∧ k ≤ G.x3.e + 1) → (G.x2.s ≤ j ∧ j ≤ G.x2.e) →
    (G.x1.s ≤ i ∧ i ≤ G.x1.e) → F.b3 k j i = curl3 G n q (low G.x1 i) (low G.x2 j) (low G.x3 k)

theorem lin_curled (G : Grd) (n : Ang) (q : Pot) : Curled G n q (linFld G n q) where
  b1 k j i hk hj hi := by
    unfold linFld
    dsimp only
    rw [fill_in _ _ (by omega), edges_in _ (by omega) (by omega) (by omega),
      edges_in _ (by omega) (by omega) (by omega), edges_in _ (by omega) (by omega) (by omega),
      edges_in _ (by omega) (by omega) (by omega)]
    simp only [low_succ, cc_low, curl1]
  b2 h k j i hk hj hi := by
    unfold linFld
    dsimp only
    rw [if_pos (nx_gt.mpr h), fill_in _ _ (by omega), edges_in _ (by omega) (by omega) (by omega),
      edges_in _ (by omega) (by omega) (by omega), edges_in _ (by omega) (by omega) (by omega),
      edges_in _ (by omega) (by omega) (by omega)]
    simp only [low_succ, cc_low, curl2]
  b3 h k j i hk hj hi := by
    unfold linFld
    dsimp only
    rw [if_pos (nx_gt.mpr h), fill_in _ _ (by omega), edges_in _ (by omega) (by omega) (by omega),
      edges_in _ (by omega) (by omega) (by omega), edges_in _ (by omega) (by omega) (by omega),
      edges_in _ (by omega) (by omega) (by omega)]
    simp only [low_succ, cc_low, curl3]

theorem cp_curled (G : Grd) (n : Ang) (q : Pot) : Curled G n q (cpFld G n q) where
  b1 k j i hk hj hi := by
    unfold cpFld
    dsimp only
    rw [fill_in _ _ (by omega)]
    simp only [curl1]
  b2 h k j i hk hj hi := by
    unfold cpFld
    dsimp only
    rw [if_pos (nx_gt.mpr h), fill_in _ _ (by omega)]
    simp only [curl2]
  b3 h k j i hk hj hi := by
    unfold cpFld
    dsimp only
    rw [if_pos (nx_gt.mpr h), fill_in _ _ (by omega)]
    simp only [curl3]

/-- Every direction of a single zone spans whole wavelengths (or is perpendicular to the wave vector). -/
def Fits (G : Grd) (n : Ang) (kp : ℝ) : Prop :=
  (G.x2.e > G.x2.s ∨ ∃ m : ℤ, kp * along n 0 G.x2.dx 0 = m * (2 * Real.pi))
  ∧ (G.x3.e > G.x3.s ∨ ∃ m : ℤ, kp * along n 0 0 G.x3.dx = m * (2 * Real.pi))

theorem div_curl {G : Grd} {n : Ang} {q : Pot} {S : St} (h : Curled G n q ⟨S.b1, S.b2, S.b3⟩)
    (p2 : G.x2.e > G.x2.s ∨ Per n q 0 G.x2.dx 0) (p3 : G.x3.e > G.x3.s ∨ Per n q 0 0 G.x3.dx) :
    Solenoidal G S := by
  intro k j i hz
  obtain ⟨⟨a, b⟩, ⟨c, d⟩, ⟨e, f⟩⟩ := hz
  unfold divB
  have e1 := h.b1 k j i (by omega) (by omega) (by omega)
  have e2 := h.b1 k j (i+1) (by omega) (by omega) (by omega)
  rw [low_succ] at e2
  dsimp only at e1 e2
  rw [e1, e2]
  by_cases h2 : G.x2.e > G.x2.s
  · have e3 := h.b2 h2 k j i (by omega) (by omega) (by omega)
    have e4 := h.b2 h2 k (j+1) i (by omega) (by omega) (by omega)
    rw [low_succ] at e4
    dsimp only at e3 e4
    rw [if_pos h2, e3, e4]
    by_cases h3 : G.x3.e > G.x3.s
    · have e5 := h.b3 h3 k j i (by omega) (by omega) (by omega)
      have e6 := h.b3 h3 (k+1) j i (by omega) (by omega) (by omega)
      rw [low_succ] at e6
      dsimp only at e5 e6
      rw [if_pos h3, e5, e6]
      unfold curl1 curl2 curl3
      ring
    · rw [if_neg h3]
      have P := p3.resolve_left h3
      obtain ⟨c1, H1⟩ := P.a1
      obtain ⟨c2, H2⟩ := P.a2
      simp only [add_zero] at H1 H2
      unfold curl1 curl2
      rw [H1, H1, H2, H2]
      ring
  · rw [if_neg h2]
    obtain ⟨c3, H3⟩ := (p2.resolve_left h2).a3
    simp only [add_zero] at H3
    by_cases h3 : G.x3.e > G.x3.s
    · have e5 := h.b3 h3 k j i (by omega) (by omega) (by omega)
      have e6 := h.b3 h3 (k+1) j i (by omega) (by omega) (by omega)
      rw [low_succ] at e6
      dsimp only at e5 e6
      rw [if_pos h3, e5, e6]
      obtain ⟨c1, H1⟩ := (p2.resolve_left h2).a1
      simp only [add_zero] at H1
      unfold curl1 curl3
      rw [H3, H3, H1, H1]
      ring
    · rw [if_neg h3]
      obtain ⟨c2, H2⟩ := (p3.resolve_left h3).a2
      simp only [add_zero] at H2
      unfold curl1
      rw [H2, H2, H3, H3]
      ring

/-- **C127** (`linear_wave`): no divergence, in one, two and three dimensions, for every wave whose vector is
perpendicular to the directions with a single zone or has whole wavelengths across them.  Other angles given in
the input file are refuted by `linear_wave_plane_false`. -/
theorem linear_wave_solenoidal_partial (G : Grd) (p : LinPar) (gamma1 : ℝ) (h : Fits G p.w.an p.w.kp) :
    Solenoidal G (linearWave G p gamma1) := by
  refine div_curl (n := p.w.an) (q := linPot p.w) (lin_curled G p.w.an (linPot p.w)) ?_ ?_
  · exact h.1.imp_right fun ⟨m, hm⟩ => lin_per p.w hm
  · exact h.2.imp_right fun ⟨m, hm⟩ => lin_per p.w hm

/-- **C127** (`cpaw`). -/
theorem cpaw_solenoidal_partial (G : Grd) (p : CpPar) (gamma1 : ℝ) (h : Fits G p.w.an p.w.kp) :
    Solenoidal G (cpaw G p gamma1) := by
  refine div_curl (n := p.w.an) (q := cpPot p.w) (cp_curled G p.w.an (cpPot p.w)) ?_ ?_
  · exact h.1.imp_right fun ⟨m, hm⟩ => cp_per p.w hm
  · exact h.2.imp_right fun ⟨m, hm⟩ => cp_per p.w hm

theorem centre_means (G : Grd) (F : Fld) (k j i : ℤ) (hz : Active G k j i) :
    centre1 G F k j i = (F.b1 k j i + F.b1 k j (i+1)) / 2
    ∧ (G.x2.e > G.x2.s → centre2 G F k j i = (F.b2 k j i + F.b2 k (j+1) i) / 2)
    ∧ (G.x3.e > G.x3.s → centre3 G F k j i = (F.b3 k j i + F.b3 (k+1) j i) / 2)
    ∧ (¬ G.x2.e > G.x2.s → ¬ G.x3.e > G.x3.s → centre2 G F k j i = F.b2 k j i)
    ∧ (¬ G.x3.e > G.x3.s → centre3 G F k j i = F.b3 k j i) := by
  obtain ⟨⟨a, b⟩, ⟨c, d⟩, ⟨e, f⟩⟩ := hz
  have hz : Active G k j i := ⟨⟨a, b⟩, ⟨c, d⟩, ⟨e, f⟩⟩
  refine ⟨?_, fun h => ?_, fun h => ?_, fun h h' => ?_, fun h => ?_⟩
  · unfold centre1; rw [zones_in _ hz]; ring
  · unfold centre2; rw [if_pos (nx_gt.mpr h), zones_in _ hz]; ring
  · unfold centre3; rw [if_pos (nx_gt.mpr h), zones_in _ hz]; ring
  · unfold centre2
    rw [if_neg (fun g => h (nx_gt.mp g)), fill_in _ _ (by omega)]
    rw [show k = G.x3.s by omega, show j = G.x2.s by omega]
  · unfold centre3
    rw [if_neg (fun g => h (nx_gt.mp g)), fill_in _ _ (by omega)]
    rw [show k = G.x3.s by omega]

theorem linear_wave_centred (G : Grd) (p : LinPar) (gamma1 : ℝ) (hd : G.x3.e > G.x3.s → G.x2.e > G.x2.s) :
    Centred G (linearWave G p gamma1) := by
  intro k j i hz
  obtain ⟨a, b, c, d, e⟩ := centre_means G (linFld G p.w.an (linPot p.w)) k j i hz
  refine ⟨a, ?_, ?_⟩
  · by_cases h2 : G.x2.e > G.x2.s
    · rw [if_pos h2]; exact b h2
    · rw [if_neg h2]; exact d h2 (fun g => h2 (hd g))
  · by_cases h3 : G.x3.e > G.x3.s
    · rw [if_pos h3]; exact c h3
    · rw [if_neg h3]; exact e h3

theorem cpaw_centred (G : Grd) (p : CpPar) (gamma1 : ℝ) (hd : G.x3.e > G.x3.s → G.x2.e > G.x2.s) :
    Centred G (cpaw G p gamma1) := by
  intro k j i hz
  obtain ⟨a, b, c, d, e⟩ := centre_means G (cpFld G p.w.an (cpPot p.w)) k j i hz
  refine ⟨a, ?_, ?_⟩
  · by_cases h2 : G.x2.e > G.x2.s
    · rw [if_pos h2]; exact b h2
    · rw [if_neg h2]; exact d h2 (fun g => h2 (hd g))
  · by_cases h3 : G.x3.e > G.x3.s
    · rw [if_pos h3]; exact c h3
    · rw [if_neg h3]; exact e h3

/-- **C128** (`cpaw`): the gas pressure is the one asked for. -/
theorem cpaw_pressure (G : Grd) (p : CpPar) (gamma1 : ℝ) (hg : gamma1 ≠ 0) (k j i : ℤ)
    (hz : Active G k j i) : pressure gamma1 (cpaw G p gamma1) k j i = p.pres := by
  apply pressure_energy hg
  have hd : (cpaw G p gamma1).d k j i = 1 := zones_in (G := G) (fun _ _ _ => 1) hz
  rw [hd]
  exact zones_in (G := G) (fun k j i => energy (p.pres / gamma1) 1
    ((cpaw G p gamma1).m1 k j i) ((cpaw G p gamma1).m2 k j i) ((cpaw G p gamma1).m3 k j i)
    ((cpaw G p gamma1).b1c k j i) ((cpaw G p gamma1).b2c k j i) ((cpaw G p gamma1).b3c k j i)) hz

/-- **C128** (`cpaw`): circular polarisation: the speed is the same in every zone, for every angle of the wave. -/
theorem cpaw_speed (G : Grd) (p : CpPar) (gamma1 : ℝ) (k j i : ℤ) (hz : Active G k j i)
    (h2 : p.w.an.s2 ^ 2 + p.w.an.c2 ^ 2 = 1) (h3 : p.w.an.s3 ^ 2 + p.w.an.c3 ^ 2 = 1) (hf : p.w.fac ^ 2 = 1) :
    (cpaw G p gamma1).m1 k j i ^ 2 + (cpaw G p gamma1).m2 k j i ^ 2 + (cpaw G p gamma1).m3 k j i ^ 2
      = p.vpar ^ 2 + p.vperp ^ 2 := by
  unfold cpaw
  dsimp only
  rw [zones_in _ hz, zones_in _ hz, zones_in _ hz]
  generalize p.w.kp * (p.w.an.c2 * (ccPos G.x1 i * p.w.an.c3 + ccPos G.x2 j * p.w.an.s3) + ccPos G.x3 k * p.w.an.s2)
    = t
  have ht := Real.sin_sq_add_cos_sq t
  unfold turn1 turn2 turn3
  generalize Real.sin t = s at *
  generalize Real.cos t = c at *
  generalize p.w.fac = f at *
  generalize p.w.an.s2 = s2 at *
  generalize p.w.an.c2 = c2 at *
  generalize p.w.an.s3 = s3 at *
  generalize p.w.an.c3 = c3 at *
  have e : ∀ x y z : ℝ, (x * c2 * c3 - y * s3 - z * s2 * c3) ^ 2 + (x * c2 * s3 + y * c3 - z * s2 * s3) ^ 2
      + (x * s2 + z * c2) ^ 2 = x ^ 2 + y ^ 2 + z ^ 2 := by
    intro x y z
    have e1 : (x * c2 * c3 - y * s3 - z * s2 * c3) ^ 2 + (x * c2 * s3 + y * c3 - z * s2 * s3) ^ 2
      = ((x * c2 - z * s2) ^ 2 + y ^ 2) * (s3 ^ 2 + c3 ^ 2) := by ring
    rw [e1, h3]
    linear_combination (x ^ 2 + z ^ 2) * h2
  rw [e]
  linear_combination p.vperp ^ 2 * (s ^ 2 + c ^ 2) * hf + p.vperp ^ 2 * ht

/-! ## The angles that are not given -/

theorem sin_arctan_mul {a b : ℝ} (hb : b ≠ 0) :
    b * Real.sin (Real.arctan (a / b)) = a * Real.cos (Real.arctan (a / b)) := by
  rw [Real.sin_arctan, Real.cos_arctan]
  field_simp

/-- **C129**: with angles that are not given the wave has exactly one wavelength along each side of the Domain,
whatever its shape and dimension. -/
theorem default_one_length (G : Grd) (l1 l2 l3 : ℝ) (h1 : 0 < l1) (h2 : 0 < l2) (h3 : 0 < l3) :
    0 < waveLen G (-999.9) (-999.9) l1 l2 l3
    ∧ along (angles (-999.9) (-999.9) l1 l2 l3) l1 0 0 = waveLen G (-999.9) (-999.9) l1 l2 l3
    ∧ along (angles (-999.9) (-999.9) l1 l2 l3) 0 l2 0 = waveLen G (-999.9) (-999.9) l1 l2 l3
    ∧ along (angles (-999.9) (-999.9) l1 l2 l3) 0 0 l3 = waveLen G (-999.9) (-999.9) l1 l2 l3 := by
  have a3 : ang3 (-999.9) l1 l2 = Real.arctan (l1 / l2) := if_pos rfl
  have E3 : l2 * Real.sin (ang3 (-999.9) l1 l2) = l1 * Real.cos (ang3 (-999.9) l1 l2) := by
    rw [a3]; exact sin_arctan_mul h2.ne'
  have P3 : 0 < Real.cos (ang3 (-999.9) l1 l2) := by rw [a3]; exact Real.cos_arctan_pos _
  have a2 : ang2 (-999.9) (ang3 (-999.9) l1 l2) l1 l2 l3
      = Real.arctan (l1 * Real.cos (ang3 (-999.9) l1 l2) / l3) := by
    unfold ang2
    rw [if_pos rfl, E3]
    congr 1
    ring
  have E2 : l3 * Real.sin (ang2 (-999.9) (ang3 (-999.9) l1 l2) l1 l2 l3)
      = l1 * Real.cos (ang3 (-999.9) l1 l2) * Real.cos (ang2 (-999.9) (ang3 (-999.9) l1 l2) l1 l2 l3) := by
    rw [a2]; exact sin_arctan_mul h3.ne'
  have P2 : 0 < Real.cos (ang2 (-999.9) (ang3 (-999.9) l1 l2) l1 l2 l3) := by
    rw [a2]; exact Real.cos_arctan_pos _
  have X2 : l2 * (angles (-999.9) (-999.9) l1 l2 l3).c2 * (angles (-999.9) (-999.9) l1 l2 l3).s3
      = l1 * (angles (-999.9) (-999.9) l1 l2 l3).c2 * (angles (-999.9) (-999.9) l1 l2 l3).c3 := by
    unfold angles
    dsimp only
    linear_combination Real.cos (ang2 (-999.9) (ang3 (-999.9) l1 l2) l1 l2 l3) * E3
  have X3 : l3 * (angles (-999.9) (-999.9) l1 l2 l3).s2
      = l1 * (angles (-999.9) (-999.9) l1 l2 l3).c2 * (angles (-999.9) (-999.9) l1 l2 l3).c3 := by
    unfold angles
    dsimp only
    linear_combination E2
  have L : waveLen G (-999.9) (-999.9) l1 l2 l3
      = l1 * (angles (-999.9) (-999.9) l1 l2 l3).c2 * (angles (-999.9) (-999.9) l1 l2 l3).c3 := by
    unfold waveLen
    dsimp only
    rw [X2, X3]
    split_ifs <;> simp
  rw [L]
  refine ⟨?_, ?_, ?_, ?_⟩
  · unfold angles
    dsimp only
    positivity
  · unfold along; ring
  · rw [← X2]; unfold along; ring
  · rw [← X3]; unfold along; ring

/-- **C127**, **C129**: with angles that are not given, the condition of the theorems on the divergence holds on
every Grid; a direction with a single zone has that zone as its side. -/
theorem default_fits (G : Grd) (l1 l2 l3 : ℝ) (h1 : 0 < l1) (h2 : 0 < l2) (h3 : 0 < l3)
    (d2 : G.x2.e = G.x2.s → G.x2.dx = l2) (d3 : G.x3.e = G.x3.s → G.x3.dx = l3)
    (r2 : G.x2.s ≤ G.x2.e) (r3 : G.x3.s ≤ G.x3.e) :
    Fits G (angles (-999.9) (-999.9) l1 l2 l3) (2 * Real.pi / waveLen G (-999.9) (-999.9) l1 l2 l3) := by
  obtain ⟨lp, _, e2, e3⟩ := default_one_length G l1 l2 l3 h1 h2 h3
  constructor
  · by_cases h : G.x2.e > G.x2.s
    · exact .inl h
    · right
      refine ⟨1, ?_⟩
      rw [d2 (by omega), e2]
      field_simp
      norm_num
  · by_cases h : G.x3.e > G.x3.s
    · exact .inl h
    · right
      refine ⟨1, ?_⟩
      rw [d3 (by omega), e3]
      field_simp
      norm_num

/-- **C127**: with the angle 0 about an axis, the condition holds for the direction with a single zone. -/
theorem zero_fits (G : Grd) (a3 l1 l2 l3 kp : ℝ) (h : G.x2.e > G.x2.s ∨ a3 = 0) :
    Fits G (angles 0 a3 l1 l2 l3) kp := by
  have z : ang2 0 (ang3 a3 l1 l2) l1 l2 l3 = 0 := by unfold ang2; rw [if_neg (by norm_num)]
  constructor
  · refine h.imp_right fun h => ⟨0, ?_⟩
    have z3 : ang3 a3 l1 l2 = 0 := by unfold ang3; rw [h, if_neg (by norm_num)]
    unfold along angles
    rw [z3]
    simp
  · right
    refine ⟨0, ?_⟩
    unfold along angles
    rw [z]
    simp

/-! ## Periodicity -/

/-- **C129**: the wave fits a periodic Domain: across every pair of opposite sides of a Grid that spans the
Domain the normal field is the same. -/
theorem seam {G : Grd} {n : Ang} {q : Pot} {F : Fld} (h : Curled G n q F) :
    (Per n q (nx G.x1 * G.x1.dx) 0 0 → ∀ k j, (G.x3.s ≤ k ∧ k ≤ G.x3.e) → (G.x2.s ≤ j ∧ j ≤ G.x2.e) →
      G.x1.s ≤ G.x1.e → F.b1 k j (G.x1.e + 1) = F.b1 k j G.x1.s)
    ∧ (Per n q 0 (nx G.x2 * G.x2.dx) 0 → G.x2.e > G.x2.s → ∀ k i, (G.x3.s ≤ k ∧ k ≤ G.x3.e) →
      (G.x1.s ≤ i ∧ i ≤ G.x1.e) → F.b2 k (G.x2.e + 1) i = F.b2 k G.x2.s i)
    ∧ (Per n q 0 0 (nx G.x3 * G.x3.dx) → G.x3.e > G.x3.s → ∀ j i, (G.x2.s ≤ j ∧ j ≤ G.x2.e) →
      (G.x1.s ≤ i ∧ i ≤ G.x1.e) → F.b3 (G.x3.e + 1) j i = F.b3 G.x3.s j i) := by
  have hl : ∀ a : Axis, low a (a.e + 1) = low a a.s + nx a * a.dx := by
    intro a; unfold low ccPos nx; push_cast; ring
  refine ⟨fun P k j hk hj h1 => ?_, fun P h2 k i hk hi => ?_, fun P h3 j i hj hi => ?_⟩
  · obtain ⟨c2, H2⟩ := P.a2
    obtain ⟨c3, H3⟩ := P.a3
    simp only [add_zero] at H2 H3
    rw [h.b1 k j _ hk hj (by omega), h.b1 k j _ hk hj (by omega), hl]
    unfold curl1
    rw [H2, H2, H3, H3]
    ring
  · obtain ⟨c1, H1⟩ := P.a1
    obtain ⟨c3, H3⟩ := P.a3
    simp only [add_zero] at H1 H3
    rw [h.b2 h2 k _ i hk (by omega) hi, h.b2 h2 k _ i hk (by omega) hi, hl]
    unfold curl2
    rw [H1, H1, H3, H3]
    ring
  · obtain ⟨c1, H1⟩ := P.a1
    obtain ⟨c2, H2⟩ := P.a2
    simp only [add_zero] at H1 H2
    rw [h.b3 h3 _ j i (by omega) hj hi, h.b3 h3 _ j i (by omega) hj hi, hl]
    unfold curl3
    rw [H1, H1, H2, H2]
    ring

/-- The Grid moved by a vector. -/
def moved (G : Grd) (v1 v2 v3 : ℝ) : Grd :=
  ⟨{ G.x1 with minX := G.x1.minX + v1 }, { G.x2 with minX := G.x2.minX + v2 },
    { G.x3 with minX := G.x3.minX + v3 }⟩

theorem cc_moved (G : Grd) (v1 v2 v3 : ℝ) (i : ℤ) :
    ccPos (moved G v1 v2 v3).x1 i = ccPos G.x1 i + v1 ∧ ccPos (moved G v1 v2 v3).x2 i = ccPos G.x2 i + v2
    ∧ ccPos (moved G v1 v2 v3).x3 i = ccPos G.x3 i + v3 := by
  unfold ccPos moved
  refine ⟨?_, ?_, ?_⟩ <;> dsimp only <;> ring

theorem low_moved (G : Grd) (v1 v2 v3 : ℝ) (i : ℤ) :
    low (moved G v1 v2 v3).x1 i = low G.x1 i + v1 ∧ low (moved G v1 v2 v3).x2 i = low G.x2 i + v2
    ∧ low (moved G v1 v2 v3).x3 i = low G.x3 i + v3 := by
  unfold low ccPos moved
  refine ⟨?_, ?_, ?_⟩ <;> dsimp only <;> ring

theorem lin_b1_moved (G : Grd) (n : Ang) (q : Pot) {v1 v2 v3 : ℝ} (h : Per n q v1 v2 v3) :
    (linFld (moved G v1 v2 v3) n q).b1 = (linFld G n q).b1 := by
  obtain ⟨c2, H2⟩ := h.a2
  obtain ⟨c3, H3⟩ := h.a3
  funext k j i
  by_cases hr : (G.x3.s ≤ k ∧ k ≤ G.x3.e) ∧ (G.x2.s ≤ j ∧ j ≤ G.x2.e) ∧ (G.x1.s ≤ i ∧ i ≤ G.x1.e + 1)
  · rw [(lin_curled (moved G v1 v2 v3) n q).b1 k j i hr.1 hr.2.1 hr.2.2,
      (lin_curled G n q).b1 k j i hr.1 hr.2.1 hr.2.2, (low_moved G v1 v2 v3 i).1, (low_moved G v1 v2 v3 j).2.1,
      (low_moved G v1 v2 v3 k).2.2]
    unfold curl1
    simp only [moved, add_right_comm _ v2, add_right_comm _ v3, H2, H3]
    ring
  · exact (if_neg hr).trans (if_neg hr).symm

theorem lin_b2_moved (G : Grd) (n : Ang) (q : Pot) {v1 v2 v3 : ℝ} (h : Per n q v1 v2 v3)
    (h2 : G.x2.e > G.x2.s) : (linFld (moved G v1 v2 v3) n q).b2 = (linFld G n q).b2 := by
  obtain ⟨c1, H1⟩ := h.a1
  obtain ⟨c3, H3⟩ := h.a3
  funext k j i
  by_cases hr : (G.x3.s ≤ k ∧ k ≤ G.x3.e) ∧ (G.x2.s ≤ j ∧ j ≤ G.x2.e + 1) ∧ (G.x1.s ≤ i ∧ i ≤ G.x1.e)
  · rw [(lin_curled (moved G v1 v2 v3) n q).b2 h2 k j i hr.1 hr.2.1 hr.2.2,
      (lin_curled G n q).b2 h2 k j i hr.1 hr.2.1 hr.2.2, (low_moved G v1 v2 v3 i).1,
      (low_moved G v1 v2 v3 j).2.1, (low_moved G v1 v2 v3 k).2.2]
    unfold curl2
    simp only [moved, add_right_comm _ v1, add_right_comm _ v3, H1, H3]
    ring
  · have e1 : (linFld (moved G v1 v2 v3) n q).b2 k j i = 0 := by
      unfold linFld
      dsimp only
      rw [if_pos (show nx (moved G v1 v2 v3).x2 > 1 from nx_gt.mpr h2)]
      exact if_neg hr
    have e2 : (linFld G n q).b2 k j i = 0 := by
      unfold linFld
      dsimp only
      rw [if_pos (nx_gt.mpr h2)]
      exact if_neg hr
    rw [e1, e2]

theorem lin_b3_moved (G : Grd) (n : Ang) (q : Pot) {v1 v2 v3 : ℝ} (h : Per n q v1 v2 v3)
    (h2 : G.x3.e > G.x3.s) : (linFld (moved G v1 v2 v3) n q).b3 = (linFld G n q).b3 := by
  obtain ⟨c1, H1⟩ := h.a1
  obtain ⟨c3, H3⟩ := h.a2
  funext k j i
  by_cases hr : (G.x3.s ≤ k ∧ k ≤ G.x3.e + 1) ∧ (G.x2.s ≤ j ∧ j ≤ G.x2.e) ∧ (G.x1.s ≤ i ∧ i ≤ G.x1.e)
  · rw [(lin_curled (moved G v1 v2 v3) n q).b3 h2 k j i hr.1 hr.2.1 hr.2.2,
      (lin_curled G n q).b3 h2 k j i hr.1 hr.2.1 hr.2.2, (low_moved G v1 v2 v3 i).1,
      (low_moved G v1 v2 v3 j).2.1, (low_moved G v1 v2 v3 k).2.2]
    unfold curl3
    simp only [moved, add_right_comm _ v1, add_right_comm _ v2, H1, H3]
    ring
  · have e1 : (linFld (moved G v1 v2 v3) n q).b3 k j i = 0 := by
      unfold linFld
      dsimp only
      rw [if_pos (show nx (moved G v1 v2 v3).x3 > 1 from nx_gt.mpr h2)]
      exact if_neg hr
    have e2 : (linFld G n q).b3 k j i = 0 := by
      unfold linFld
      dsimp only
      rw [if_pos (nx_gt.mpr h2)]
      exact if_neg hr
    rw [e1, e2]

theorem dens_moved (G : Grd) (p : LinPar) (gamma1 : ℝ) {v1 v2 v3 : ℝ} {m : ℤ}
    (h : p.w.kp * along p.w.an v1 v2 v3 = m * (2 * Real.pi)) :
    (linearWave (moved G v1 v2 v3) p gamma1).d = (linearWave G p gamma1).d
    ∧ (linearWave (moved G v1 v2 v3) p gamma1).m1 = (linearWave G p gamma1).m1
    ∧ (linearWave (moved G v1 v2 v3) p gamma1).m2 = (linearWave G p gamma1).m2
    ∧ (linearWave (moved G v1 v2 v3) p gamma1).m3 = (linearWave G p gamma1).m3
    ∧ (linearWave (moved G v1 v2 v3) p gamma1).e = (linearWave G p gamma1).e := by
  have hs : ∀ k j i : ℤ, Real.sin (p.w.kp * (p.w.an.c2 * (ccPos (moved G v1 v2 v3).x1 i * p.w.an.c3
      + ccPos (moved G v1 v2 v3).x2 j * p.w.an.s3) + ccPos (moved G v1 v2 v3).x3 k * p.w.an.s2))
      = Real.sin (p.w.kp * (p.w.an.c2 * (ccPos G.x1 i * p.w.an.c3 + ccPos G.x2 j * p.w.an.s3)
        + ccPos G.x3 k * p.w.an.s2)) := by
    intro k j i
    rw [(cc_moved G v1 v2 v3 i).1, (cc_moved G v1 v2 v3 j).2.1, (cc_moved G v1 v2 v3 k).2.2,
      ← sin_shift h (p.w.an.c2 * (ccPos G.x1 i * p.w.an.c3 + ccPos G.x2 j * p.w.an.s3) + ccPos G.x3 k * p.w.an.s2)]
    congr 1
    unfold along
    ring
  have hz : ∀ f : Arr, zones (moved G v1 v2 v3) f = zones G f := fun _ => rfl
  unfold linearWave
  dsimp only
  simp only [hs, hz, and_self]

/-- **C129** (`linear_wave`): the initial state has the period of
the Domain: on a Grid moved by a vector along which the phase of the wave advances by whole turns it is the
same. -/
theorem linear_wave_periodic (G : Grd) (p : LinPar) (gamma1 : ℝ) {v1 v2 v3 : ℝ} {m : ℤ}
    (h : p.w.kp * along p.w.an v1 v2 v3 = m * (2 * Real.pi)) :
    let S := linearWave (moved G v1 v2 v3) p gamma1
    let T := linearWave G p gamma1
    S.d = T.d ∧ S.m1 = T.m1 ∧ S.m2 = T.m2 ∧ S.m3 = T.m3 ∧ S.e = T.e ∧ S.b1 = T.b1
      ∧ (G.x2.e > G.x2.s → S.b2 = T.b2) ∧ (G.x3.e > G.x3.s → S.b3 = T.b3) := by
  obtain ⟨a, b, c, d, e⟩ := dens_moved G p gamma1 h
  exact ⟨a, b, c, d, e, lin_b1_moved G p.w.an (linPot p.w) (lin_per p.w h),
    lin_b2_moved G p.w.an (linPot p.w) (lin_per p.w h), lin_b3_moved G p.w.an (linPot p.w) (lin_per p.w h)⟩

/-- **C129** (`linear_wave`): with angles that are not given, the fields through opposite sides of a Grid that
spans the Domain agree, as periodic boundaries need. -/
theorem linear_wave_seam (G : Grd) (p : LinPar) (gamma1 l1 l2 l3 : ℝ) (h1 : 0 < l1) (h2 : 0 < l2) (h3 : 0 < l3)
    (hs : nx G.x1 * G.x1.dx = l1 ∧ nx G.x2 * G.x2.dx = l2 ∧ nx G.x3 * G.x3.dx = l3)
    (ha : p.w.an = angles (-999.9) (-999.9) l1 l2 l3)
    (hk : p.w.kp = 2 * Real.pi / waveLen G (-999.9) (-999.9) l1 l2 l3) :
    let S := linearWave G p gamma1
    (∀ k j, (G.x3.s ≤ k ∧ k ≤ G.x3.e) → (G.x2.s ≤ j ∧ j ≤ G.x2.e) → G.x1.s ≤ G.x1.e →
      S.b1 k j (G.x1.e + 1) = S.b1 k j G.x1.s)
    ∧ (G.x2.e > G.x2.s → ∀ k i, (G.x3.s ≤ k ∧ k ≤ G.x3.e) → (G.x1.s ≤ i ∧ i ≤ G.x1.e) →
      S.b2 k (G.x2.e + 1) i = S.b2 k G.x2.s i)
    ∧ (G.x3.e > G.x3.s → ∀ j i, (G.x2.s ≤ j ∧ j ≤ G.x2.e) → (G.x1.s ≤ i ∧ i ≤ G.x1.e) →
      S.b3 (G.x3.e + 1) j i = S.b3 G.x3.s j i) := by
  obtain ⟨lp, e1, e2, e3⟩ := default_one_length G l1 l2 l3 h1 h2 h3
  have t : ∀ x : ℝ, x = waveLen G (-999.9) (-999.9) l1 l2 l3 → p.w.kp * x = ((1 : ℤ) : ℝ) * (2 * Real.pi) := by
    intro x hx
    rw [hk, hx]
    field_simp
    norm_num
  obtain ⟨A, B, C⟩ := seam (lin_curled G p.w.an (linPot p.w))
  rw [hs.1] at A
  rw [hs.2.1] at B
  rw [hs.2.2] at C
  exact ⟨A (lin_per p.w (t _ (by rw [ha]; exact e1))), B (lin_per p.w (t _ (by rw [ha]; exact e2))),
    C (lin_per p.w (t _ (by rw [ha]; exact e3)))⟩

/-- **C129** (`cpaw`). -/
theorem cpaw_seam (G : Grd) (p : CpPar) (gamma1 l1 l2 l3 : ℝ) (h1 : 0 < l1) (h2 : 0 < l2) (h3 : 0 < l3)
    (hs : nx G.x1 * G.x1.dx = l1 ∧ nx G.x2 * G.x2.dx = l2 ∧ nx G.x3 * G.x3.dx = l3)
    (ha : p.w.an = angles (-999.9) (-999.9) l1 l2 l3)
    (hk : p.w.kp = 2 * Real.pi / waveLen G (-999.9) (-999.9) l1 l2 l3) :
    let S := cpaw G p gamma1
    (∀ k j, (G.x3.s ≤ k ∧ k ≤ G.x3.e) → (G.x2.s ≤ j ∧ j ≤ G.x2.e) → G.x1.s ≤ G.x1.e →
      S.b1 k j (G.x1.e + 1) = S.b1 k j G.x1.s)
    ∧ (G.x2.e > G.x2.s → ∀ k i, (G.x3.s ≤ k ∧ k ≤ G.x3.e) → (G.x1.s ≤ i ∧ i ≤ G.x1.e) →
      S.b2 k (G.x2.e + 1) i = S.b2 k G.x2.s i)
    ∧ (G.x3.e > G.x3.s → ∀ j i, (G.x2.s ≤ j ∧ j ≤ G.x2.e) → (G.x1.s ≤ i ∧ i ≤ G.x1.e) →
      S.b3 (G.x3.e + 1) j i = S.b3 G.x3.s j i) := by
  obtain ⟨lp, e1, e2, e3⟩ := default_one_length G l1 l2 l3 h1 h2 h3
  have t : ∀ x : ℝ, x = waveLen G (-999.9) (-999.9) l1 l2 l3 → p.w.kp * x = ((1 : ℤ) : ℝ) * (2 * Real.pi) := by
    intro x hx
    rw [hk, hx]
    field_simp
    norm_num
  obtain ⟨A, B, C⟩ := seam (cp_curled G p.w.an (cpPot p.w))
  rw [hs.1] at A
  rw [hs.2.1] at B
  rw [hs.2.2] at C
  exact ⟨A (cp_per p.w (t _ (by rw [ha]; exact e1))), B (cp_per p.w (t _ (by rw [ha]; exact e2))),
    C (cp_per p.w (t _ (by rw [ha]; exact e3)))⟩

/-! ## Refutation for other angles in the plane, and concrete cases -/

/-- 4 by 2 zones; the third direction has one zone. -/
def sheet : Grd := ⟨gridAxis 4 0 (1 / Real.sqrt 3) [] 4, gridAxis 4 0 1 [] 2, gridAxis 4 0 1 [] 1⟩

/-- A wave with `ang_2` = 30 degrees, `ang_3` = 0, of which only the third component of the field oscillates. -/
def tilted : LinPar where
  w := ⟨angles (Real.pi / 6) 0 (4 / Real.sqrt 3) 2 1,
    2 * Real.pi / waveLen sheet (Real.pi / 6) 0 (4 / Real.sqrt 3) 2 1, 0, 0, 0, 0, 1, 0⟩
  amp := 1
  vflow := 0
  d0 := 1
  p0 := 3/5
  r0 := 0
  r1 := 0
  r2 := 0
  r3 := 0
  r4 := 0

theorem tilted_angles : ang2 (Real.pi / 6) (ang3 0 (4 / Real.sqrt 3) 2) (4 / Real.sqrt 3) 2 1 = Real.pi / 6
    ∧ ang3 0 (4 / Real.sqrt 3) 2 = 0 := by
  have := Real.pi_pos
  constructor
  · unfold ang2
    rw [if_neg]
    intro h
    linarith
  · unfold ang3
    rw [if_neg (by norm_num)]

theorem tilted_an : tilted.w.an = ⟨1/2, Real.sqrt 3 / 2, 0, 1⟩ := by
  show angles _ _ _ _ _ = _
  unfold angles
  rw [tilted_angles.1, tilted_angles.2]
  simp

theorem tilted_kp : tilted.w.kp = Real.pi := by
  show 2 * Real.pi / waveLen sheet (Real.pi / 6) 0 (4 / Real.sqrt 3) 2 1 = _
  have h3 : Real.sqrt 3 ≠ 0 := by positivity
  have e : waveLen sheet (Real.pi / 6) 0 (4 / Real.sqrt 3) 2 1 = 2 := by
    unfold waveLen
    dsimp only
    rw [if_neg (show ¬(nx sheet.x3 > 1 ∧ _) from fun g => by
        have := g.1; unfold sheet gridAxis nx at this; norm_num at this),
      if_neg (show ¬(nx sheet.x2 > 1 ∧ ang3 0 (4 / Real.sqrt 3) 2 ≠ 0) from fun g => g.2 tilted_angles.2)]
    have := tilted_an
    change angles _ _ _ _ _ = _ at this
    rw [this]
    field_simp
    norm_num
  rw [e]
  ring

/-- **C127** is false of `linear_wave.c` in two dimensions with a wave vector out of the plane, given in the input
file: the difference across the single zone of the third direction gives a field with divergence. -/
theorem linear_wave_plane_false : ¬ ∀ (G : Grd) (p : LinPar) (gamma1 a2 a3 l1 l2 l3 : ℝ),
    0 < l1 → 0 < l2 → 0 < l3 → nx G.x1 * G.x1.dx = l1 → nx G.x2 * G.x2.dx = l2 → nx G.x3 * G.x3.dx = l3 →
    p.w.an = angles a2 a3 l1 l2 l3 → p.w.kp = 2 * Real.pi / waveLen G a2 a3 l1 l2 l3 →
    G.x2.e > G.x2.s → G.x3.e = G.x3.s → Solenoidal G (linearWave G p gamma1) := by
  intro h
  have s3 : 0 < Real.sqrt 3 := by positivity
  have h := h sheet tilted 1 (Real.pi / 6) 0 (4 / Real.sqrt 3) 2 1 (by positivity) (by norm_num) (by norm_num)
    (by unfold sheet gridAxis nx; norm_num; ring) (by unfold sheet gridAxis nx; norm_num)
    (by unfold sheet gridAxis nx; norm_num) rfl rfl (by unfold sheet gridAxis; norm_num)
    (by unfold sheet gridAxis; norm_num) 0 4 5 (by unfold Active sheet gridAxis; norm_num)
  unfold divB at h
  rw [if_pos (by unfold sheet gridAxis; norm_num), if_neg (by unfold sheet gridAxis; norm_num)] at h
  have C := lin_curled sheet tilted.w.an (linPot tilted.w)
  have e1 := C.b1 0 4 5 (by unfold sheet gridAxis; norm_num) (by unfold sheet gridAxis; norm_num)
    (by unfold sheet gridAxis; norm_num)
  have e2 := C.b1 0 4 (5+1) (by unfold sheet gridAxis; norm_num) (by unfold sheet gridAxis; norm_num)
    (by unfold sheet gridAxis; norm_num)
  have e3 := C.b2 (by unfold sheet gridAxis; norm_num) 0 4 5 (by unfold sheet gridAxis; norm_num)
    (by unfold sheet gridAxis; norm_num) (by unfold sheet gridAxis; norm_num)
  have e4 := C.b2 (by unfold sheet gridAxis; norm_num) 0 (4+1) 5 (by unfold sheet gridAxis; norm_num)
    (by unfold sheet gridAxis; norm_num) (by unfold sheet gridAxis; norm_num)
  have f1 : (linearWave sheet tilted 1).b1 = (linFld sheet tilted.w.an (linPot tilted.w)).b1 := rfl
  have f2 : (linearWave sheet tilted 1).b2 = (linFld sheet tilted.w.an (linPot tilted.w)).b2 := rfl
  rw [f1, f2, e1, e2, e3, e4] at h
  have az : ∀ x y, (linPot tilted.w).az x y = 0 := by
    intro x y
    show linAz tilted.w x y = 0
    unfold linAz tilted
    simp
  have ay : ∀ x, (linPot tilted.w).ay x = -(1 / Real.pi) * Real.cos (Real.pi * x) := by
    intro x
    show linAy tilted.w x = _
    unfold linAy
    rw [tilted_kp]
    have d : tilted.w.dbz = 1 ∧ tilted.w.bz = 0 := ⟨rfl, rfl⟩
    rw [d.1, d.2]
    ring_nf
  have dx : sheet.x1.dx = 1 / Real.sqrt 3 ∧ sheet.x2.dx = 1 ∧ sheet.x3.dx = 1 := by unfold sheet gridAxis; simp
  have l5 : low sheet.x1 5 = 1 / Real.sqrt 3 := by unfold low ccPos sheet gridAxis; norm_num; ring
  have l0 : low sheet.x3 0 = 0 := by unfold low ccPos sheet gridAxis; norm_num
  simp only [low_succ, l5, l0, dx.1, dx.2.1, dx.2.2, curl1, curl2, A1, A2, A3, az, ay, along, tilted_an] at h
  have w : 1 / Real.sqrt 3 * (Real.sqrt 3 / 2) = 1/2 := by field_simp
  have w2 : (1 / Real.sqrt 3 + 1 / Real.sqrt 3) * (Real.sqrt 3 / 2) = 1 := by field_simp; norm_num
  simp only [w, w2, mul_zero, zero_mul, mul_one, add_zero, zero_add, sub_zero, neg_zero, one_mul, sub_self,
    zero_div, div_one, zero_sub] at h
  have c1 : Real.cos (Real.pi * (1/2)) = 0 := by
    rw [show Real.pi * (1/2) = Real.pi / 2 by ring]; exact Real.cos_pi_div_two
  have c2 : Real.cos (Real.pi * (1/2 + 1/2)) = -1 := by
    rw [show Real.pi * (1/2 + 1/2) = Real.pi by ring]; exact Real.cos_pi
  have c3 : Real.cos (Real.pi * (1 + 1/2)) = 0 := by
    rw [show Real.pi * (1 + 1/2) = Real.pi / 2 + Real.pi by ring, Real.cos_add_pi, Real.cos_pi_div_two, neg_zero]
  have hp := Real.pi_pos
  simp only [c1, c2, c3, Real.cos_pi] at h
  field_simp at h
  norm_num at h

/-- The default angles on a box of 8 by 4 by 4 zones. -/
example : Solenoidal ⟨gridAxis 4 0 (1/4) [] 8, gridAxis 4 0 (1/4) [] 4, gridAxis 4 0 (1/4) [] 4⟩
    (linearWave ⟨gridAxis 4 0 (1/4) [] 8, gridAxis 4 0 (1/4) [] 4, gridAxis 4 0 (1/4) [] 4⟩
      ⟨⟨angles (-999.9) (-999.9) 2 1 1, 2 * Real.pi / waveLen ⟨gridAxis 4 0 (1/4) [] 8, gridAxis 4 0 (1/4) [] 4,
        gridAxis 4 0 (1/4) [] 4⟩ (-999.9) (-999.9) 2 1 1, 1, 1, 1, 1, 1, 1⟩, 1, 0, 1, 1, 1, 1, 1, 1, 1⟩ 1) :=
  linear_wave_solenoidal_partial _ _ _ (default_fits _ 2 1 1 (by norm_num) (by norm_num) (by norm_num)
    (by unfold gridAxis; norm_num) (by unfold gridAxis; norm_num) (by unfold gridAxis; norm_num)
    (by unfold gridAxis; norm_num))

/-- A wave in the plane, angle 0 about the second axis. -/
example : Solenoidal sheet (linearWave sheet
      ⟨⟨angles 0 (-999.9) (4 / Real.sqrt 3) 2 1, 2 * Real.pi / waveLen sheet 0 (-999.9) (4 / Real.sqrt 3) 2 1,
        1, 1, 1, 1, 1, 1⟩, 1, 0, 1, 1, 1, 1, 1, 1, 1⟩ 1) :=
  linear_wave_solenoidal_partial _ _ _ (zero_fits _ _ _ _ _ _ (.inl (by unfold sheet gridAxis; norm_num)))

end
end Athena.Prob
