import Verif.Hydro.HlldLemmas

/-!
# The intermediate states of the adiabatic HLLD solver
-/

namespace Athena.Hydro
noncomputable section
variable {ns : ℕ} {p : Phys} {Wl Wr W : Prim1D ns} {Ul Ur U : Cons1D ns} {Bx : ℝ}

/-- The flux of ideal MHD of a conserved state `U` with total pressure `pt` and normal field `Bx` (without passive scalars). -/
def mhdFlux (pt Bx : ℝ) (U : Cons1D ns) : Cons1D ns where
  d := U.Mx
  Mx := U.Mx ^ 2 / U.d + pt - Bx ^ 2
  My := U.Mx * U.My / U.d - Bx * U.By
  Mz := U.Mx * U.Mz / U.d - Bx * U.Bz
  E := (U.E + pt) * (U.Mx / U.d) - Bx * ((U.Mx * Bx + U.My * U.By + U.Mz * U.Bz) / U.d)
  By := U.By * (U.Mx / U.d) - Bx * (U.My / U.d)
  Bz := U.Bz * (U.Mx / U.d) - Bx * (U.Mz / U.d)
  s := fun _ => 0

/-- The jump condition at a wave moving with speed `s` between the states `U` and `V` with fluxes `F` and `G`. -/
structure RH (s : ℝ) (U F V G : Cons1D ns) : Prop where
  d : G.d - F.d = s * (V.d - U.d)
  Mx : G.Mx - F.Mx = s * (V.Mx - U.Mx)
  My : G.My - F.My = s * (V.My - U.My)
  Mz : G.Mz - F.Mz = s * (V.Mz - U.Mz)
  E : G.E - F.E = s * (V.E - U.E)
  By : G.By - F.By = s * (V.By - U.By)
  Bz : G.Bz - F.Bz = s * (V.Bz - U.Bz)

theorem RH.rev {s : ℝ} {U F V G : Cons1D ns} (h : RH s U F V G) : RH s V G U F :=
  ⟨by linarith [h.d], by linarith [h.Mx], by linarith [h.My], by linarith [h.Mz], by linarith [h.E], by linarith [h.By], by linarith [h.Bz]⟩

theorem RH.refl (s : ℝ) (U F : Cons1D ns) : RH s U F U F := ⟨by ring, by ring, by ring, by ring, by ring, by ring, by ring⟩

/-- The test of the solver for a degenerate outer wave of speed `s`. -/
def Degen (W : Prim1D ns) (Bx s sM pt : ℝ) : Prop := |W.d * (s - W.Vx) * (s - sM) - Bx ^ 2| < smallNumber * pt

instance (W : Prim1D ns) (Bx s sM pt : ℝ) : Decidable (Degen W Bx s sM pt) := by unfold Degen; exact inferInstance

/-- `hlldStar` in closed form. -/
theorem hlldStar_eq (hp : p.Ok) (hi : p.iso = false) (h : State p Bx W U) {s sM pt : ℝ}
    (h1 : s ≠ sM) (h2 : s ≠ W.Vx) (h3 : W.d * (s - W.Vx) * (s - sM) - Bx ^ 2 = 0 → 0 < pt) :
    ∃ t t', (if Degen W Bx s sM pt then t = 0 ∧ t' = 1 else
        t = Bx * (sM - W.Vx) / (W.d * (s - W.Vx) * (s - sM) - Bx ^ 2) ∧
        t' = (W.d * (s - W.Vx) ^ 2 - Bx ^ 2) / (W.d * (s - W.Vx) * (s - sM) - Bx ^ 2)) ∧
      let d := W.d * (s - W.Vx) / (s - sM)
      let vb := sM * Bx + (W.Vy - W.By * t) * (W.By * t') + (W.Vz - W.Bz * t) * (W.Bz * t')
      hlldStar p U W Bx s sM pt = some (⟨d, d * sM, d * (W.Vy - W.By * t), d * (W.Vz - W.Bz * t),
        ((s - W.Vx) * energy p W Bx - hlldPt p W Bx * W.Vx + pt * sM + Bx * (W.Vx * Bx + W.Vy * W.By + W.Vz * W.Bz - vb)) / (s - sM),
        W.By * t', W.Bz * t', fun _ => 0⟩, vb) := by
  have hs : s - sM ≠ 0 := sub_ne_zero.mpr h1
  have hv : s - W.Vx ≠ 0 := sub_ne_zero.mpr h2
  have hd := h.d
  have hd0 : W.d * (s - W.Vx) / (s - sM) ≠ 0 := div_ne_zero (mul_ne_zero hd.ne' hv) hs
  unfold hlldStar
  rw [h.eq hp]
  simp only [hi, Bool.false_eq_true, if_false, fdiv_ne hs, Option.bind_eq_bind, Option.bind_some]
  have eD : W.d * (s - W.Vx) * (s - sM) - Bx * Bx = W.d * (s - W.Vx) * (s - sM) - Bx ^ 2 := by ring
  rw [eD]
  by_cases hD : Degen W Bx s sM pt
  · refine ⟨0, 1, by rw [if_pos hD]; exact ⟨rfl, rfl⟩, ?_⟩
    unfold Degen at hD
    rw [if_pos hD]
    rw [fdiv_ne hd0]
    have e : (W.d * (s - W.Vx) / (s - sM) * sM * Bx + W.d * (s - W.Vx) / (s - sM) * W.Vy * W.By +
        W.d * (s - W.Vx) / (s - sM) * W.Vz * W.Bz) / (W.d * (s - W.Vx) / (s - sM)) =
        sM * Bx + (W.Vy - W.By * 0) * (W.By * 1) + (W.Vz - W.Bz * 0) * (W.Bz * 1) := by
      generalize W.d * (s - W.Vx) / (s - sM) = D at *
      field_simp; ring
    rw [e]
    simp only [Option.bind_some, Option.pure_def, mul_zero, sub_zero, mul_one]
  · have hD0 : W.d * (s - W.Vx) * (s - sM) - Bx ^ 2 ≠ 0 := by
      intro h0
      apply hD
      unfold Degen
      rw [h0, abs_zero]
      exact mul_pos (by norm_num [smallNumber]) (h3 h0)
    refine ⟨_, _, by rw [if_neg hD]; exact ⟨rfl, rfl⟩, ?_⟩
    unfold Degen at hD
    rw [if_neg hD]
    rw [fdiv_ne hD0, fdiv_ne hD0]
    have e1 : Bx * (s - W.Vx - (s - sM)) = Bx * (sM - W.Vx) := by ring
    have e2 : W.d * sqr (s - W.Vx) - Bx * Bx = W.d * (s - W.Vx) ^ 2 - Bx ^ 2 := by unfold sqr; ring
    dsimp only [Option.bind_some]
    rw [e1, e2]
    generalize Bx * (sM - W.Vx) / (W.d * (s - W.Vx) * (s - sM) - Bx ^ 2) = t
    generalize (W.d * (s - W.Vx) ^ 2 - Bx ^ 2) / (W.d * (s - W.Vx) * (s - sM) - Bx ^ 2) = t'
    rw [fdiv_ne hd0]
    have e : (W.d * (s - W.Vx) / (s - sM) * sM * Bx + W.d * (s - W.Vx) / (s - sM) * (W.Vy - W.By * t) * (W.By * t') +
        W.d * (s - W.Vx) / (s - sM) * (W.Vz - W.Bz * t) * (W.Bz * t')) / (W.d * (s - W.Vx) / (s - sM)) =
        sM * Bx + (W.Vy - W.By * t) * (W.By * t') + (W.Vz - W.Bz * t) * (W.Bz * t') := by
      generalize W.d * (s - W.Vx) / (s - sM) = D at *
      field_simp
    rw [e]
    simp only [Option.bind_some, Option.pure_def]

/-- What an outer intermediate state satisfies. -/
structure Star (p : Phys) (W : Prim1D ns) (U : Cons1D ns) (Bx s sM pt : ℝ) (Us : Cons1D ns) (vb : ℝ) : Prop where
  pos : 0 < Us.d
  mx : Us.Mx = Us.d * sM
  vb : vb = sM * Bx + (Us.My * Us.By + Us.Mz * Us.Bz) / Us.d
  rh : (¬ Degen W Bx s sM pt ∨ sM = W.Vx ∨ (W.By = 0 ∧ W.Bz = 0)) → RH s U (physFlux p W Bx) Us (mhdFlux pt Bx Us)
  same : sM = W.Vx → pt = hlldPt p W Bx → Us = { U with s := fun _ => 0 }

theorem hlldStar_star (hp : p.Ok) (hi : p.iso = false) (hm : p.mhd = true) (h : State p Bx W U) {s sM pt : ℝ}
    (h0 : 0 < (s - W.Vx) / (s - sM)) (h3 : W.d * (s - W.Vx) * (s - sM) - Bx ^ 2 = 0 → 0 < pt)
    (hpt : pt = hlldPt p W Bx + W.d * (s - W.Vx) * (sM - W.Vx)) :
    ∃ Us vb, hlldStar p U W Bx s sM pt = some (Us, vb) ∧ Star p W U Bx s sM pt Us vb := by
  have h1 : s ≠ sM := by rintro rfl; simp at h0
  have h2 : s ≠ W.Vx := by rintro rfl; simp at h0
  have hs : s - sM ≠ 0 := sub_ne_zero.mpr h1
  have hv : s - W.Vx ≠ 0 := sub_ne_zero.mpr h2
  have hd := h.d
  obtain ⟨t, t', ht, e⟩ := hlldStar_eq hp hi h h1 h2 h3
  refine ⟨_, _, e, ?_⟩
  have hD : ¬ Degen W Bx s sM pt → W.d * (s - W.Vx) * (s - sM) - Bx ^ 2 ≠ 0 := by
    intro hD h0
    apply hD
    unfold Degen
    rw [h0, abs_zero]
    exact mul_pos (by norm_num [smallNumber]) (h3 h0)
  have hpos : 0 < W.d * (s - W.Vx) / (s - sM) := by rw [mul_div_assoc]; exact mul_pos hd h0
  refine ⟨hpos, rfl, ?_, ?_, ?_⟩
  · dsimp only
    generalize W.d * (s - W.Vx) / (s - sM) = D at *
    field_simp
    ring
  · intro hc
    -- the two jump conditions of the transverse field and momentum
    have kM : Bx * (W.By * (1 - t')) = W.d * (W.Vx - s) * (W.By * t) ∧ Bx * (W.Bz * (1 - t')) = W.d * (W.Vx - s) * (W.Bz * t) := by
      by_cases hg : Degen W Bx s sM pt
      · rw [if_pos hg] at ht; rw [ht.1, ht.2]; constructor <;> ring
      · rw [if_neg hg] at ht
        have := hD hg
        rw [ht.1, ht.2]; constructor <;> field_simp <;> ring
    have kB : (W.By * (W.Vx - s) - W.By * t' * (sM - s) = Bx * (W.By * t)) ∧
        (W.Bz * (W.Vx - s) - W.Bz * t' * (sM - s) = Bx * (W.Bz * t)) := by
      by_cases hg : Degen W Bx s sM pt
      · rw [if_pos hg] at ht; rw [ht.1, ht.2]
        rcases hc with hc | hc | ⟨hc, hc'⟩
        · exact absurd hg hc
        · rw [hc]; constructor <;> ring
        · rw [hc, hc']; constructor <;> ring
      · rw [if_neg hg] at ht
        have := hD hg
        rw [ht.1, ht.2]; constructor <;> field_simp <;> ring
    have eD : W.d * (s - W.Vx) / (s - sM) * (s - sM) = W.d * (s - W.Vx) := div_mul_cancel₀ _ hs
    have eE := div_mul_cancel₀ ((s - W.Vx) * energy p W Bx - hlldPt p W Bx * W.Vx + pt * sM + Bx * (W.Vx * Bx + W.Vy * W.By + W.Vz * W.Bz -
      (sM * Bx + (W.Vy - W.By * t) * (W.By * t') + (W.Vz - W.Bz * t) * (W.Bz * t')))) hs
    rw [h.eq hp]
    have ef : physFlux p W Bx = hlldF p U W Bx := (hlldF_eq hp hm h).symm
    rw [ef, h.eq hp]
    unfold mhdFlux hlldF
    simp only [hi, Bool.false_eq_true, if_false]
    generalize ((s - W.Vx) * energy p W Bx - hlldPt p W Bx * W.Vx + pt * sM + Bx * (W.Vx * Bx + W.Vy * W.By + W.Vz * W.Bz -
      (sM * Bx + (W.Vy - W.By * t) * (W.By * t') + (W.Vz - W.Bz * t) * (W.Bz * t')))) / (s - sM) = E' at *
    generalize W.d * (s - W.Vx) / (s - sM) = D at *
    have g1 : D * sM / D = sM := mul_div_cancel_left₀ _ hpos.ne'
    have g2 : (D * sM) ^ 2 / D = D * sM ^ 2 := by field_simp
    have g3 : ∀ x, D * x / D = x := fun x => mul_div_cancel_left₀ _ hpos.ne'
    have g4 : ∀ x, D * sM * (D * x) / D = D * sM * x := fun x => by field_simp
    have g5 : (D * sM * Bx + D * (W.Vy - W.By * t) * (W.By * t') + D * (W.Vz - W.Bz * t) * (W.Bz * t')) / D =
        sM * Bx + (W.Vy - W.By * t) * (W.By * t') + (W.Vz - W.Bz * t) * (W.Bz * t') := by field_simp
    obtain ⟨m1, m2⟩ := kM
    obtain ⟨b1, b2⟩ := kB
    constructor
    · dsimp only; linear_combination -eD
    · dsimp only; rw [g2, hpt]; linear_combination (-sM) * eD
    · dsimp only; rw [g4]; linear_combination (-(W.Vy - W.By * t)) * eD + m1
    · dsimp only; rw [g4]; linear_combination (-(W.Vz - W.Bz * t)) * eD + m2
    · dsimp only; rw [g1, g5]; linear_combination -eE
    · dsimp only; rw [g1, g3]; linear_combination -b1
    · dsimp only; rw [g1, g3]; linear_combination -b2
  · rintro rfl hpt'
    have e1 : W.d * (s - W.Vx) / (s - W.Vx) = W.d := mul_div_cancel_right₀ _ hv
    have et : t = 0 ∧ t' = 1 := by
      by_cases hg : Degen W Bx s W.Vx pt
      · rwa [if_pos hg] at ht
      · rw [if_neg hg] at ht
        have := hD hg
        refine ⟨by rw [ht.1]; simp, ?_⟩
        rw [ht.2, show W.d * (s - W.Vx) ^ 2 - Bx ^ 2 = W.d * (s - W.Vx) * (s - W.Vx) - Bx ^ 2 by ring, div_self this]
    rw [et.1, et.2, e1, h.eq hp, hi, hpt']
    simp only [mul_zero, sub_zero, mul_one, Bool.false_eq_true, if_false, Cons1D.mk.injEq, and_true, true_and]
    field_simp
    ring

end
end Athena.Hydro
