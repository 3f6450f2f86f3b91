import Verif.Rel.HlleProps

/-!
C108, C110: what fails in the signal speeds of hlle_sr.c, and properties of its fluxes.
-/
namespace Athena.Rel

/-- **C108 fails for negative normal field.**  It is not so that no magnetosonic wave outruns
the signal speed: the test `Bx < 1.0e-14` (instead of `fabs(Bx) < 1.0e-14`) sends every state
with negative normal field to the formula for zero normal field.  Gas of density 4 and pressure
3 (Γ = 4/3) moving along the face with 3/5 through the field (-5, -5, 0). -/
theorem sr_mhd_speeds_negative_false :
    ¬ ∀ (g : ℝ) (W : PrimB) (Bx : ℝ), 1 < g → g ≤ 2 → W.Warm → ∀ lm lp : ℝ,
      vcharPluto g W Bx = ⟨some lm, some lp⟩ → ∀ x : ℝ, -1 < x → x < 1 →
        magnetosonic g W Bx x = 0 → x ≤ lp := by
  intro hall
  let W : PrimB := ⟨4, 0, 3 / 5, 0, 3, -5, 0⟩
  have hW : W.Warm := by constructor <;> norm_num [W, PrimB.vsq]
  have ev : W.vsq = 9 / 25 := by norm_num [W, PrimB.vsq]
  have ew : W.enth (4 / 3) = 16 := by norm_num [W, PrimB.enth]
  have eb : W.vB (-5) = -3 := by norm_num [W, PrimB.vB]
  have es : W.bsq (-5) = 41 := by rw [PrimB.bsq, ev, eb]; norm_num [W]
  have ep : W.P = 3 := rfl
  have ex : W.Vx = 0 := rfl
  obtain ⟨lm, lp, h1, h2, h3, h4, h5, h6⟩ :=
    noBx_spec (g := 4 / 3) (by norm_num) (by norm_num) (Bx := -5) hW
  have hp : vcharPluto (4 / 3) W (-5) = ⟨some lm, some lp⟩ := by
    rw [← h1]
    unfold vcharPluto
    have e : (locals (4 / 3) W (-5)).vsq = W.vsq := by
      rw [locals_eq (by norm_num) (by norm_num) hW]
    simp only [e, ev]
    norm_num
  have hq := (h6 lp).2 (Or.inr rfl)
  simp only [ev, ew, eb, es, ep, ex] at hq
  rw [ex] at h4
  have hl2 : lp ^ 2 = 57 / 82 := by norm_num at hq; linarith
  have hl : 6 / 10 < lp := by nlinarith
  have hm : ∀ x, magnetosonic (4 / 3) W (-5) x = 25 / 16 * (75 / 4 * x ^ 4 - (1 - x ^ 2) *
      (45 * x ^ 2 - (-(16 / 5) + 3 * x) ^ 2 / 4)) := by
    intro x
    rw [magneto_eq hW]
    simp only [ev, ew, eb, es, ep, ex]
    ring
  have n1 : magnetosonic (4 / 3) W (-5) lp < 0 := by
    rw [hm]
    have : 75 / 4 * lp ^ 4 = 75 / 4 * (lp ^ 2) ^ 2 := by ring
    rw [this, show (-(16 / 5) + 3 * lp) ^ 2 = 256 / 25 - 96 / 5 * lp + 9 * lp ^ 2 by ring, hl2]
    nlinarith
  have n2 : 0 < magnetosonic (4 / 3) W (-5) 1 := by rw [hm]; norm_num
  have hc : ContinuousOn (magnetosonic (4 / 3) W (-5)) (Set.Icc lp 1) := by
    have : magnetosonic (4 / 3) W (-5) = fun x => 25 / 16 * (75 / 4 * x ^ 4 - (1 - x ^ 2) *
      (45 * x ^ 2 - (-(16 / 5) + 3 * x) ^ 2 / 4)) := funext hm
    rw [this]
    fun_prop
  obtain ⟨x, ⟨x1, x2⟩, x3⟩ := intermediate_value_Ioo h5.le hc (Set.mem_Ioo.2 ⟨n1, n2⟩)
  have := hall (4 / 3) W (-5) (by norm_num) (by norm_num) hW lm lp hp x (by linarith) x2 x3
  linarith

/-- The state with the field reversed. -/
def PrimB.rev (W : PrimB) : PrimB := { W with By := -W.By, Bz := -W.Bz }

/-- **C108, field reversal fails.**  The equations do not change when the magnetic field is
reversed, but the signal speeds do. -/
theorem sr_mhd_speeds_reverse_false :
    ¬ ∀ (g : ℝ) (W : PrimB) (Bx : ℝ), 1 < g → g ≤ 2 → W.Warm →
      vcharPluto g W.rev (-Bx) = vcharPluto g W Bx := by
  intro hall
  let W : PrimB := ⟨4, 0, 3 / 5, 0, 3, 0, 0⟩
  have hr : W.rev = W := by simp [PrimB.rev, W]
  have hW : W.Warm := by constructor <;> norm_num [W, PrimB.vsq]
  have ev : W.vsq = 9 / 25 := by norm_num [W, PrimB.vsq]
  have ew : W.enth (4 / 3) = 16 := by norm_num [W, PrimB.enth]
  have ep : W.P = 3 := rfl
  have ex : W.Vx = 0 := rfl
  have eb : W.vB (-5) = 0 := by norm_num [W, PrimB.vB]
  have es : W.bsq (-5) = 16 := by rw [PrimB.bsq, ev, eb]; norm_num [W]
  have eb' : W.vB 5 = 0 := by norm_num [W, PrimB.vB]
  have es' : W.bsq 5 = 16 := by rw [PrimB.bsq, ev, eb']; norm_num [W]
  have hl := locals_eq (g := 4 / 3) (Bx := 5) (by norm_num) (by norm_num) hW
  obtain ⟨lm, lp, h1, h2, h3, h4, h5, h6⟩ :=
    noBx_spec (g := 4 / 3) (by norm_num) (by norm_num) (Bx := -5) hW
  have hp : vcharPluto (4 / 3) W (-5) = ⟨some lm, some lp⟩ := by
    rw [← h1]
    unfold vcharPluto
    have e : (locals (4 / 3) W (-5)).vsq = W.vsq := by
      rw [locals_eq (by norm_num) (by norm_num) hW]
    simp only [e, ev]
    norm_num
  have hq := (h6 lp).2 (Or.inr rfl)
  simp only [ev, ew, eb, es, ep, ex] at hq
  have hl2 : lp ^ 2 = 16 / 31 := by norm_num at hq; linarith
  obtain ⟨lm', lp', k1, k2, k3, k4, k5⟩ := sr_mhd_speeds_general_partial (g := 4 / 3) W 5
    (by rw [hl]; simp only [ev]; norm_num) (by rw [hl]; simp only [ev]; norm_num) (by norm_num)
  have := hall (4 / 3) W 5 (by norm_num) (by norm_num) hW
  rw [hr, hp, k1] at this
  simp only [SpeedsN.mk.injEq, Option.some.injEq] at this
  obtain ⟨-, e⟩ := this
  rw [← e] at k5
  rcases k5 with k | k
  · linarith
  · rw [hl] at k
    simp only [vcharCoef, ev, ew, eb', es', ep, ex] at k
    have e4 : lp ^ 4 = (16 / 31) ^ 2 := by rw [← hl2]; ring
    have e3 : lp ^ 3 = 16 / 31 * lp := by rw [← hl2]; ring
    rw [e4, e3, hl2] at k
    have k' := (abs_le.1 k).2
    norm_num at k'

/-! ### Fluxes -/

/-- **C110, light cone.**  Whatever the states, even unphysical ones, the edges of the fan do not
leave the light cone: a NaN or a superluminal estimate is replaced. -/
theorem sr_hlle_lightcone (g : ℝ) (Wl Wr : PrimB) (Bx : ℝ) :
    -1 ≤ (hlleSpeeds g Wl Wr Bx).l ∧ (hlleSpeeds g Wl Wr Bx).r ≤ 1 := by
  have key : ∀ s, -1 ≤ (checkSpeeds s).1.l ∧ (checkSpeeds s).1.r ≤ 1 := by
    intro s
    unfold checkSpeeds
    split
    · simp
    · simp
    · split_ifs with h1 h2
      · simp
      · simp
      · simp only; constructor <;> linarith
  unfold hlleSpeeds
  simp only
  split_ifs
  · exact key _
  · exact key _

/-- Flux of relativistic magnetohydrodynamics across a face (specification): with the Lorentz
factor `γ`, the field four-vector `(b⁰, b)` and the total enthalpy and pressure, mass flux
`ργv`, stress `(w + b²)γ²v v + (p + b²/2) - b b`, energy flux `(w + b²)γ²v - b⁰b`, and the
electric field. -/
noncomputable def physFluxB (g : ℝ) (W : PrimB) (Bx : ℝ) : ConsB :=
  let γ := 1 / √(1 - W.vsq)
  let b0 := γ * W.vB Bx
  let bx := Bx / γ + b0 * W.Vx
  let bY := W.By / γ + b0 * W.Vy
  let bZ := W.Bz / γ + b0 * W.Vz
  let b2 := -b0 ^ 2 + bx ^ 2 + bY ^ 2 + bZ ^ 2
  let w := W.enth g + b2
  { d := W.d * γ * W.Vx
    Mx := w * γ ^ 2 * W.Vx * W.Vx + (W.P + b2 / 2) - bx * bx
    My := w * γ ^ 2 * W.Vx * W.Vy - bx * bY
    Mz := w * γ ^ 2 * W.Vx * W.Vz - bx * bZ
    E := w * γ ^ 2 * W.Vx - b0 * bx
    By := W.Vx * W.By - Bx * W.Vy
    Bz := W.Vx * W.Bz - Bx * W.Vz }

/-- The flux of one side is the physical flux. -/
theorem fluxLR_phys {g : ℝ} (W : PrimB) (Bx : ℝ) (h : W.Warm) :
    fluxLR g (primToConsB g W Bx) W Bx = physFluxB g W Bx := by
  have ht : 0 < 1 - W.vsq := by linarith [h.v]
  have hs := Real.sqrt_pos.2 ht
  have hs2 : √(1 - W.vsq) ^ 2 = 1 - W.vsq := Real.sq_sqrt ht.le
  have hd := h.d.ne'
  have e1 : W.Vx * W.Vx + W.Vy * W.Vy + W.Vz * W.Vz = W.vsq := by unfold PrimB.vsq; ring
  have e2 : √(1 / (1 - W.vsq)) = 1 / √(1 - W.vsq) := by
    rw [Real.sqrt_div zero_le_one, Real.sqrt_one]
  have e3 : Bx * W.Vx + W.By * W.Vy + W.Bz * W.Vz = W.vB Bx := by unfold PrimB.vB; ring
  have e4 : W.Vx * Bx + W.Vy * W.By + W.Vz * W.Bz = W.vB Bx := rfl
  have eb : -(1 / √(1 - W.vsq) * W.vB Bx) ^ 2 + (Bx / (1 / √(1 - W.vsq)) +
      1 / √(1 - W.vsq) * W.vB Bx * W.Vx) ^ 2 + (W.By / (1 / √(1 - W.vsq)) +
      1 / √(1 - W.vsq) * W.vB Bx * W.Vy) ^ 2 + (W.Bz / (1 / √(1 - W.vsq)) +
      1 / √(1 - W.vsq) * W.vB Bx * W.Vz) ^ 2 =
      (Bx * Bx + W.By * W.By + W.Bz * W.Bz) * (1 - W.vsq) + W.vB Bx * W.vB Bx := by
    have hv : W.Vx ^ 2 + W.Vy ^ 2 + W.Vz ^ 2 = 1 - √(1 - W.vsq) ^ 2 := by
      rw [hs2]; unfold PrimB.vsq; ring
    have hvb : W.vB Bx = W.Vx * Bx + W.Vy * W.By + W.Vz * W.Bz := rfl
    generalize W.vB Bx = vb at *
    generalize √(1 - W.vsq) = s at *
    rw [← hs2]
    field_simp
    rw [hvb]
    linear_combination (W.Vx * Bx + W.Vy * W.By + W.Vz * W.Bz) ^ 2 * hv
  unfold physFluxB
  simp only
  rw [eb]
  unfold fluxLR primToConsB
  simp only [e1, e2, e3, e4, mul_div_cancel_right₀ _ hd]
  have e5 : 1 / (1 - W.vsq) = 1 / √(1 - W.vsq) ^ 2 := by rw [hs2]
  have e6 : W.enth g = W.d * (1 + g / (g - 1) * (W.P / W.d)) := by
    unfold PrimB.enth; field_simp
  have e7 : W.d + g / (g - 1) * W.P = W.enth g := rfl
  rw [e7, e6, e5]
  generalize √(1 - W.vsq) = s at *
  rw [← hs2]
  generalize W.d * (1 + g / (g - 1) * (W.P / W.d)) = w at *
  generalize W.vB Bx = vb at *
  ext <;> simp only <;> field_simp <;> ring

theorem hllOne_same (Sl Sr f u : ℝ) (h1 : Sl < 0) (h2 : 0 < Sr) : hllOne Sl Sr f f u u = f := by
  unfold hllOne
  have : Sr - Sl ≠ 0 := by linarith
  field_simp
  ring

/-- **C110, consistency.**  Equal states on both sides give the physical flux of the state. -/
theorem sr_hlle_consistent {g : ℝ} (W : PrimB) (Bx : ℝ) (h : W.Warm) :
    hlleSR g (primToConsB g W Bx) (primToConsB g W Bx) W W Bx = physFluxB g W Bx := by
  rw [← fluxLR_phys W Bx h]
  unfold hlleSR hlleFlux
  simp only
  split_ifs with h1 h2
  · rfl
  · rfl
  · push Not at h1 h2
    simp only [hllOne_same _ _ _ _ h1 h2]

/-- Jump conditions across a wave of speed `s`, all components. -/
structure JumpB (s : ℝ) (U F U' F' : ConsB) : Prop where
  d : F'.d - F.d = s * (U'.d - U.d)
  Mx : F'.Mx - F.Mx = s * (U'.Mx - U.Mx)
  My : F'.My - F.My = s * (U'.My - U.My)
  Mz : F'.Mz - F.Mz = s * (U'.Mz - U.Mz)
  E : F'.E - F.E = s * (U'.E - U.E)
  By : F'.By - F.By = s * (U'.By - U.By)
  Bz : F'.Bz - F.Bz = s * (U'.Bz - U.Bz)

/-- **C110, one intermediate state.**  The flux is that of the left state if the left edge does
not move left, that of the right state if the right edge does not move right, and otherwise that
of an intermediate state for which the jump conditions hold at both edges. -/
theorem sr_hlle_fan {g : ℝ} (Wl Wr : PrimB) (Bx : ℝ) (hl : Wl.Warm) (hr : Wr.Warm) :
    let S := hlleSpeeds g Wl Wr Bx
    let Ul := primToConsB g Wl Bx
    let Ur := primToConsB g Wr Bx
    let F := hlleSR g Ul Ur Wl Wr Bx
    (0 ≤ S.l → F = physFluxB g Wl Bx) ∧ (S.l < 0 → S.r ≤ 0 → F = physFluxB g Wr Bx) ∧
    (S.l < 0 → 0 < S.r → ∃ U : ConsB, JumpB S.l Ul (physFluxB g Wl Bx) U F ∧
      JumpB S.r U F Ur (physFluxB g Wr Bx)) := by
  intro S Ul Ur F
  have hF : F = hlleFlux S.l S.r Ul Ur (physFluxB g Wl Bx) (physFluxB g Wr Bx) := by
    simp only [F, hlleSR, Ul, Ur, fluxLR_phys _ _ hl, fluxLR_phys _ _ hr, S]
  refine ⟨?_, ?_, ?_⟩
  · intro h; rw [hF, hlleFlux, if_pos h]
  · intro h1 h2; rw [hF, hlleFlux, if_neg (not_le.2 h1), if_pos h2]
  · intro h1 h2
    have hne : S.r - S.l ≠ 0 := by linarith
    rw [hF, hlleFlux, if_neg (not_le.2 h1), if_neg (not_le.2 h2)]
    generalize physFluxB g Wl Bx = Fl
    generalize physFluxB g Wr Bx = Fr
    generalize S.l = a at *
    generalize S.r = b at *
    refine ⟨⟨(b * Ur.d - a * Ul.d + Fl.d - Fr.d) / (b - a),
      (b * Ur.Mx - a * Ul.Mx + Fl.Mx - Fr.Mx) / (b - a),
      (b * Ur.My - a * Ul.My + Fl.My - Fr.My) / (b - a),
      (b * Ur.Mz - a * Ul.Mz + Fl.Mz - Fr.Mz) / (b - a),
      (b * Ur.E - a * Ul.E + Fl.E - Fr.E) / (b - a),
      (b * Ur.By - a * Ul.By + Fl.By - Fr.By) / (b - a),
      (b * Ur.Bz - a * Ul.Bz + Fl.Bz - Fr.Bz) / (b - a)⟩, ?_, ?_⟩ <;>
    · constructor <;> simp only [hllOne] <;> field_simp <;> ring

/-- **C110, field reversal.**  Where the signal speeds do not depend on the sign of the field
(no normal field to speak of on the face), reversing the field reverses the fluxes of the
transverse field and changes no other flux. -/
theorem sr_hlle_reverse_partial {g : ℝ} (Wl Wr : PrimB) (Bx : ℝ) (hB : |Bx| < 1 / 10 ^ 14) :
    let F := hlleSR g (primToConsB g Wl Bx) (primToConsB g Wr Bx) Wl Wr Bx
    hlleSR g (primToConsB g Wl.rev (-Bx)) (primToConsB g Wr.rev (-Bx)) Wl.rev Wr.rev (-Bx) =
      { F with By := -F.By, Bz := -F.Bz } := by
  intro F
  obtain ⟨b1, b2⟩ := abs_lt.1 hB
  have eP : ∀ W : PrimB, vcharPluto g W.rev (-Bx) = vcharPluto g W Bx := by
    intro W
    unfold vcharPluto
    simp only
    have e1 : (locals g W.rev (-Bx)) = { locals g W Bx with
        vDotB := -(locals g W Bx).vDotB
        bx := -(locals g W Bx).bx } := by
      unfold locals PrimB.rev
      simp only
      have n1 : W.Vx * -Bx + W.Vy * -W.By + W.Vz * -W.Bz =
        -(W.Vx * Bx + W.Vy * W.By + W.Vz * W.Bz) := by ring
      rw [n1]
      simp only [neg_mul_neg, Loc.mk.injEq, true_and, and_true]
      ring
    rw [e1]
    have e2 : ∀ l : Loc, vcharRest { l with vDotB := -l.vDotB, bx := -l.bx } (-Bx) =
        vcharRest l Bx := by
      intro l
      unfold vcharRest
      simp only [mul_neg, neg_mul, neg_neg]
    have e3 : ∀ l : Loc, vcharNoBx { l with vDotB := -l.vDotB, bx := -l.bx } W.Vx =
        vcharNoBx l W.Vx := by
      intro l
      unfold vcharNoBx
      simp only [neg_mul_neg]
    simp only
    rw [e2, show W.rev.Vx = W.Vx from rfl, e3, if_pos (by linarith : -Bx < 1 / 10 ^ 14), if_pos (by linarith : Bx < 1 / 10 ^ 14),
      if_pos (by linarith : -Bx < 1 / 10 ^ 14), if_pos (by linarith : Bx < 1 / 10 ^ 14)]
  have eE : ∀ W : PrimB, vcharEcho g W.rev (-Bx) = vcharEcho g W Bx := by
    intro W
    unfold vcharEcho PrimB.rev
    have n1 : W.Vx * -Bx + W.Vy * -W.By + W.Vz * -W.Bz =
        -(W.Vx * Bx + W.Vy * W.By + W.Vz * W.Bz) := by ring
    simp only [neg_mul_neg, n1]
  have eS : hlleSpeeds g Wl.rev Wr.rev (-Bx) = hlleSpeeds g Wl Wr Bx := by
    unfold hlleSpeeds
    simp only [eP, eE]
  have eU : ∀ W : PrimB, primToConsB g W.rev (-Bx) = { primToConsB g W Bx with
      By := -(primToConsB g W Bx).By, Bz := -(primToConsB g W Bx).Bz } := by
    intro W
    unfold primToConsB PrimB.rev
    ext <;> simp only <;> ring
  have eF : ∀ W : PrimB, fluxLR g (primToConsB g W.rev (-Bx)) W.rev (-Bx) =
      { fluxLR g (primToConsB g W Bx) W Bx with
        By := -(fluxLR g (primToConsB g W Bx) W Bx).By,
        Bz := -(fluxLR g (primToConsB g W Bx) W Bx).Bz } := by
    intro W
    rw [eU]
    unfold fluxLR PrimB.rev
    ext <;> simp only <;> ring
  simp only [F]
  unfold hlleSR
  simp only
  rw [eS, eF, eF, eU, eU]
  unfold hlleFlux
  split_ifs
  · rfl
  · rfl
  · simp only [ConsB.mk.injEq, true_and]
    unfold hllOne
    constructor <;> ring

/-- The states of the theorems exist: a jet in an oblique field beside gas at rest. -/
example : PrimB.Warm ⟨1, 3 / 5, 3 / 5, 0, 2, 1, -2⟩ ∧ PrimB.Warm ⟨4, 0, 0, 0, 1 / 10, 3, 0⟩ ∧
    PrimB.vsq ⟨1, 3 / 5, 3 / 5, 0, 2, 1, -2⟩ = 18 / 25 := by
  refine ⟨⟨?_, ?_, ?_⟩, ⟨?_, ?_, ?_⟩, ?_⟩ <;> norm_num [PrimB.vsq]

end Athena.Rel
