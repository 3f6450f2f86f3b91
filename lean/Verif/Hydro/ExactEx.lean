import Verif.Hydro.ExactIsoProps
import Verif.Hydro.ExactAdbProps
import Mathlib.Analysis.SpecialFunctions.Pow.Deriv
import Mathlib.Analysis.SpecialFunctions.Sqrt

/-! # The exact solvers: where they fail to solve the Riemann problem, the derivative used, examples -/

namespace Athena.Hydro
noncomputable section
variable {ns : ℕ} {p : Phys} {Bx : ℝ} {Wl Wr W : Prim1D ns} {Ul Ur U : Cons1D ns} {x : ℝ}

/-! ## The isothermal solver stops too early at low densities -/

/-- Isothermal gas, sound speed 1. -/
def phK : Phys := ⟨true, false, 0, 1, 1/100⟩
theorem phK_ok : phK.Ok := ⟨by norm_num [phK], by simp [phK], by simp [phK], by norm_num [phK]⟩
theorem phK_cs : phK.cs = 1 := by simp [Phys.cs, phK]

/-- Gas at rest, of density 49·10⁻¹⁸ on the left. -/
def wKl : Prim1D 0 := ⟨49 / 10 ^ 18, 0, 0, 0, 0, 0, 0, fun _ => 0⟩
/-- 10⁻¹⁸ on the right. -/
def wKr : Prim1D 0 := ⟨1 / 10 ^ 18, 0, 0, 0, 0, 0, 0, fun _ => 0⟩

theorem log_lo : 4/7 ≤ Real.log (49/25) := by
  have h := Real.one_sub_inv_le_log_of_pos (show (0:ℝ) < 7/5 by norm_num)
  have e : Real.log (49/25) = 2 * Real.log (7/5) := by
    rw [show (49/25 : ℝ) = (7/5) * (7/5) by norm_num, Real.log_mul (by norm_num) (by norm_num)]; ring
  rw [e]; norm_num at h; linarith

theorem log_hi : Real.log (49/25) ≤ 4/5 := by
  have h := Real.log_le_sub_one_of_pos (show (0:ℝ) < 7/5 by norm_num)
  have e : Real.log (49/25) = 2 * Real.log (7/5) := by
    rw [show (49/25 : ℝ) = (7/5) * (7/5) by norm_num, Real.log_mul (by norm_num) (by norm_num)]; ring
  rw [e]; linarith

theorem rtsafe_K : rtsafe (srder 1 0 0 (1 / 10 ^ 18) (49 / 10 ^ 18)) (1 / 10 ^ 18) (49 / 10 ^ 18) rtAcc = some (25 / 10 ^ 18) := by
  have h25 := log_hi
  have L1 : 0 < Real.log 49 := Real.log_pos (by norm_num)
  have s25 : Real.sqrt (25 / 10 ^ 18 * (1 / 10 ^ 18)) = 5 / 10 ^ 18 := by
    rw [show (25 / 10 ^ 18 * (1 / 10 ^ 18) : ℝ) = (5 / 10 ^ 18) ^ 2 by norm_num]; exact Real.sqrt_sq (by norm_num)
  obtain ⟨d1, e1, -⟩ := srder_eq (c := 1) (vl := 0) (vr := 0) (dmin := 1 / 10 ^ 18) (dmax := 49 / 10 ^ 18) (dm := 1 / 10 ^ 18)
    one_pos (by norm_num) (by norm_num) (by norm_num)
  obtain ⟨d2, e2, -⟩ := srder_eq (c := 1) (vl := 0) (vr := 0) (dmin := 1 / 10 ^ 18) (dmax := 49 / 10 ^ 18) (dm := 49 / 10 ^ 18)
    one_pos (by norm_num) (by norm_num) (by norm_num)
  have f1 : mixRes 1 0 0 (1 / 10 ^ 18) (49 / 10 ^ 18) (1 / 10 ^ 18) = -Real.log 49 := by
    unfold mixRes
    rw [show (1 / 10 ^ 18 / (49 / 10 ^ 18) : ℝ) = 49⁻¹ by norm_num, Real.log_inv]; ring
  have f2 : 0 < mixRes 1 0 0 (1 / 10 ^ 18) (49 / 10 ^ 18) (49 / 10 ^ 18) := by
    unfold mixRes
    rw [div_self (by norm_num), Real.log_one]
    have : 0 < Real.sqrt (49 / 10 ^ 18 * (1 / 10 ^ 18)) := Real.sqrt_pos.mpr (by norm_num)
    have : 0 < (49 / 10 ^ 18 - 1 / 10 ^ 18 : ℝ) / Real.sqrt (49 / 10 ^ 18 * (1 / 10 ^ 18)) := div_pos (by norm_num) this
    linarith
  have e3 : srder 1 0 0 (1 / 10 ^ 18) (49 / 10 ^ 18) (25 / 10 ^ 18) =
      some (24/5 - Real.log (49/25), 10 ^ 18 / 25 * (18/5)) := by
    unfold srder
    rw [fdiv_pos (by norm_num)]
    simp only [Option.bind_eq_bind, Option.bind_some, Option.pure_def]
    rw [flog_pos (by norm_num), fsqrt_nonneg (by norm_num), s25]
    simp only [Option.bind_some]
    rw [fdiv_pos (by norm_num), fdiv_pos (by norm_num), fdiv_pos (by norm_num)]
    simp only [Option.bind_some]
    rw [show (25 / 10 ^ 18 / (49 / 10 ^ 18) : ℝ) = (49/25)⁻¹ by norm_num, Real.log_inv]
    congr 2
    · norm_num; ring
    · norm_num
  rw [f1] at e1
  have hm : (1/2 * (1 / 10 ^ 18 + 49 / 10 ^ 18) : ℝ) = 25 / 10 ^ 18 := by norm_num
  unfold rtsafe
  rw [hm]
  simp only [e1, e2, e3, Option.bind_eq_bind, Option.bind_some]
  rw [if_neg (by rintro (⟨h, -⟩ | ⟨-, h⟩) <;> linarith), if_neg (by linarith), if_neg f2.ne', if_pos (by linarith),
    if_pos (by linarith)]
  rw [rtLoop]
  have hstep : rtStep (srder 1 0 0 (1 / 10 ^ 18) (49 / 10 ^ 18)) rtAcc ⟨1 / 10 ^ 18, 49 / 10 ^ 18, 25 / 10 ^ 18,
      |49 / 10 ^ 18 - 1 / 10 ^ 18|, |49 / 10 ^ 18 - 1 / 10 ^ 18|, 24/5 - Real.log (49/25), 10 ^ 18 / 25 * (18/5)⟩ =
      some (.inl (25 / 10 ^ 18)) := by
    unfold rtStep
    dsimp only
    rw [if_pos]
    · rw [if_neg (by norm_num), if_pos]
      · norm_num
      · unfold rtAcc; rw [abs_of_pos (by norm_num)]; norm_num
    · right
      rw [abs_of_pos (show (0:ℝ) < 2 * (24/5 - Real.log (49/25)) by linarith),
        abs_of_pos (show (0:ℝ) < 49 / 10 ^ 18 - 1 / 10 ^ 18 by norm_num), abs_of_pos (by norm_num)]
      have : ((49 / 10 ^ 18 - 1 / 10 ^ 18) * (10 ^ 18 / 25 * (18/5)) : ℝ) = 864/125 := by norm_num
      rw [this]; linarith
  rw [hstep]; rfl

theorem exactMid_K : exactMid 1 wKl wKr = some (true, false, 25 / 10 ^ 18, Real.log (49/25)) := by
  have hl : 0 < wKl.d := by norm_num [wKl]
  have hr : 0 < wKr.d := by norm_num [wKr]
  have e1 : max wKl.d wKr.d = 49 / 10 ^ 18 := max_eq_left (by norm_num [wKl, wKr])
  have e2 : min wKl.d wKr.d = 1 / 10 ^ 18 := min_eq_right (by norm_num [wKl, wKr])
  rw [exactMid_eq one_pos hl hr, if_pos, if_pos, e1, e2]
  · have : rtsafe (srder 1 wKl.Vx wKr.Vx (1 / 10 ^ 18) (49 / 10 ^ 18)) (1 / 10 ^ 18) (49 / 10 ^ 18) rtAcc = _ := rtsafe_K
    rw [this]
    simp only [Option.bind_eq_bind, Option.bind_some]
    rw [if_pos (by norm_num), if_pos (by norm_num [wKl, wKr])]
    simp only [wKl]
    rw [show (25 / 10 ^ 18 / (49 / 10 ^ 18) : ℝ) = (49/25)⁻¹ by norm_num, Real.log_inv]
    simp
  · rw [gt_iff_lt, ← not_le, rareD_le one_pos hl hr, e1, e2, show (49 / 10 ^ 18 / (1 / 10 ^ 18) : ℝ) = 49 by norm_num]
    have : 0 < Real.log 49 := Real.log_pos (by norm_num)
    simp only [wKl, wKr]; linarith
  · rw [← not_le, shockZ_ge one_pos hl hr, e1, e2, not_le]
    have : 0 < Real.sqrt (49 / 10 ^ 18 * (1 / 10 ^ 18)) := Real.sqrt_pos.mpr (by norm_num)
    simp only [wKl, wKr, sub_self]
    exact div_pos (by norm_num) this

theorem shock_contra {e D v a L : ℝ} (he : 0 < e) (lo : 4/7 ≤ L) (hi : L ≤ 4/5) (h1 : 25 * e * L = D * v)
    (h5 : (D - 25 * e) * (D - 25 * e * L * L) = 0) (r1 : -(D * v) = a * (D - e)) (r2 : D * v ^ 2 + D - e = -(a * (D * v))) : False := by
  have key : D * (D - e) ^ 2 = e * (25 * e * L) ^ 2 := by
    linear_combination D * (D - e) * r2 + D * (D * v) * r1 - e * (25 * e * L + D * v) * h1
  have hL : 0 < L := by linarith
  rcases mul_eq_zero.mp h5 with h | h
  · have hD : D = 25 * e := by linarith
    rw [hD] at key
    have h2 : e ^ 3 * (14400 - 625 * L ^ 2) = 0 := by linear_combination key
    rcases mul_eq_zero.mp h2 with h3 | h3
    · exact (pow_pos he 3).ne' h3
    · nlinarith
  · have hD : D = 25 * e * L * L := by linarith
    rw [hD] at key
    have h2 : e ^ 3 * L ^ 2 * ((25 * L ^ 2 - 1) ^ 2 - 25) = 0 := by linear_combination key / 25
    rcases mul_eq_zero.mp h2 with h3 | h3
    · exact (mul_pos (pow_pos he 3) (pow_pos hL 2)).ne' h3
    · have : (4/7) * (4/7) ≤ L * L := mul_le_mul lo lo (by norm_num) (by linarith)
      nlinarith

/-- C66 fails for the isothermal solver at low densities: the accuracy `2*DBL_EPSILON` asked of the root finder is absolute, so that for
densities below it the middle of the bracket is taken for the root.  Two gases at rest, of densities 49·10⁻¹⁸ and 10⁻¹⁸: the flux
returned is not that of any solution of the Riemann problem. -/
theorem exactI_solution_false : ∃ (p : Phys) (Wl Wr : Prim1D 0) (Ul Ur F : Cons1D 0), p.Ok ∧ p.iso = true ∧ p.mhd = false ∧
    State p 0 Wl Ul ∧ State p 0 Wr Ur ∧ exactI p Ul Ur Wl Wr = some F ∧
    ∀ W0 Ml Mr sl tl tr sr, Solves p Wl Wr W0 Ml Mr sl tl tr sr → F ≠ physFlux p W0 0 := by
  obtain ⟨Ul, hl⟩ := state_of phK phK_ok 0 wKl (by simp [Prim1D.Wf, phK, wKl]) (by norm_num [wKl]) (by simp [phK])
  obtain ⟨Ur, hr⟩ := state_of phK phK_ok 0 wKr (by simp [Prim1D.Wf, phK, wKr]) (by norm_num [wKr]) (by simp [phK])
  have lo := log_lo
  have hi := log_hi
  set L := Real.log (49/25) with hL
  refine ⟨phK, wKl, wKr, Ul, Ur, ⟨25 / 10 ^ 18 * L, 25 / 10 ^ 18 * L * L + 25 / 10 ^ 18, 0, 0, 0, 0, 0, fun _ => 0⟩, phK_ok, rfl, rfl,
    hl, hr, ?_, ?_⟩
  · have hul : 0 < Ul.d := by rw [hl.eq phK_ok]; exact hl.d
    have hur : 0 < Ur.d := by rw [hr.eq phK_ok]; exact hr.d
    have q : (0:ℝ) ≤ 25 / 10 ^ 18 := by norm_num
    have ql : 0 < Real.sqrt wKl.d := Real.sqrt_pos.mpr hl.d
    have qr : 0 < Real.sqrt wKr.d := Real.sqrt_pos.mpr hr.d
    have qm : 0 < Real.sqrt (25 / 10 ^ 18) := Real.sqrt_pos.mpr (by norm_num)
    have vl : wKl.Vx = 0 := rfl
    have vr : wKr.Vx = 0 := rfl
    unfold exactI
    simp only [phK_cs, hul, hur, not_true_eq_false, or_self, if_false, exactMid_K, ← hL, not_lt.mpr q, fsqrt_nonneg hl.d.le,
      fsqrt_nonneg hr.d.le, fsqrt_nonneg q, fdiv_pos ql, fdiv_pos qr, Option.bind_eq_bind, Option.bind_some, Option.pure_def, vl, vr]
    have c4 : ¬ (0 + 1 * Real.sqrt (25 / 10 ^ 18) / Real.sqrt wKr.d ≤ 0) := by
      rw [zero_add, one_mul]; exact not_le.mpr (div_pos qm qr)
    rw [if_neg (by norm_num), if_neg (by rintro ⟨-, h⟩; linarith), if_neg (by simp), if_neg (by simp), if_neg (by simp),
      if_neg (by rintro ⟨-, h⟩; exact c4 h), if_pos (by linarith)]
    simp [phK, wKl]
  · intro W0 Ml Mr sl tl tr sr h hF
    have hFd := congrArg Cons1D.d hF
    have hFx := congrArg Cons1D.Mx hF
    clear hF
    have hcs : sound phK W0 = 1 := by simp [sound, phK]
    have hcs' : sound phK W0.mirror = 1 := by simp [sound, phK]
    -- a state with this flux next to the contact
    have mid : ∀ M : Prim1D 0, M.By = 0 → M.Bz = 0 → Mr.d = M.d → Mr.Vx = M.Vx → 25 / 10 ^ 18 * L = (physFlux phK M 0).d →
        25 / 10 ^ 18 * L * L + 25 / 10 ^ 18 = (physFlux phK M 0).Mx → False := by
      intro M hb1 hb2 hd hv h1 h2
      simp only [physFlux, phK, press, hb1, hb2, ← hd, ← hv] at h1 h2
      have hr2 := h.right
      unfold Wave2 at hr2
      generalize ha : -sr = a at hr2
      generalize hb : -tr = b at hr2
      have hsr : sr = -a := by linarith
      cases hr2 with
      | fan hd' _ hp _ _ =>
        -- density at most 10⁻¹⁸
        have hp' : Mr.d ≤ 1 / 10 ^ 18 := by simpa [press, phK, Prim1D.mirror, wKr] using hp
        have hd0 : 0 < Mr.d := hd'
        -- (v - L)(v - 1/L) = 0
        have h3 : 25 / 10 ^ 18 * L * L + 25 / 10 ^ 18 = Mr.d * Mr.Vx ^ 2 + Mr.d := by simpa using h2
        have h5 : (Mr.d - 25 / 10 ^ 18) * (Mr.d - 25 / 10 ^ 18 * L * L) = 0 := by
          linear_combination (-Mr.d) * h3 + (25 / 10 ^ 18 * L + Mr.d * Mr.Vx) * h1
        rcases mul_eq_zero.mp h5 with h6 | h6
        · norm_num at h6 hp'; linarith
        · have : (4/7) * (4/7) ≤ L * L := mul_le_mul lo lo (by norm_num) (by linarith)
          norm_num at h6 hp'; nlinarith
      | shock _ hd' ht hp hs rh =>
        have hd0 : 0 < Mr.d := hd'
        have r1 := congrArg Cons1D.d rh
        have r2 := congrArg Cons1D.Mx rh
        obtain ⟨-, -, hb1', hb2', -⟩ := ht
        have hb1'' : Mr.By = 0 := by simpa [Prim1D.mirror, wKr] using hb1'
        have hb2'' : Mr.Bz = 0 := by simpa [Prim1D.mirror, wKr] using hb2'
        simp [Cons1D.map2, physFlux, consOf, Prim1D.mirror, press, phK, wKr, hb1'', hb2''] at r1 r2
        -- r1 : -(d v) = a (d - e);  r2 : d v² + d - e = a (-(d v))
        have h3 : 25 / 10 ^ 18 * L * L + 25 / 10 ^ 18 = Mr.d * Mr.Vx ^ 2 + Mr.d := by simpa using h2
        have h5 : (Mr.d - 25 / 10 ^ 18) * (Mr.d - 25 / 10 ^ 18 * L * L) = 0 := by
          linear_combination (-Mr.d) * h3 + (25 / 10 ^ 18 * L + Mr.d * Mr.Vx) * h1
        refine shock_contra (e := (10 ^ 18)⁻¹) (by positivity) lo hi (by rw [← h1]; norm_num) ?_ r1 r2
        rw [← h5]; norm_num
    have hct : Mr.d = Ml.d ∧ Mr.Vx = Ml.Vx := by
      obtain ⟨h1, h2⟩ := h.contact
      exact ⟨by simpa [press, phK] using h2.symm, h1.symm⟩
    have tl0 : Ml.By = 0 ∧ Ml.Bz = 0 := by
      have : SameTransverse wKl Ml := by cases h.left <;> assumption
      exact ⟨this.2.2.1, this.2.2.2.1⟩
    have tr0 : Mr.By = 0 ∧ Mr.Bz = 0 := by
      have : SameTransverse wKr.mirror Mr.mirror := by
        have := h.right
        unfold Wave2 at this
        generalize -sr = a at this
        generalize -tr = b at this
        cases this <;> assumption
      exact ⟨this.2.2.1, this.2.2.2.1⟩
    have son : ∀ v d : ℝ, v = 1 ∨ v = -1 → 0 < d → 25 / 10 ^ 18 * L = d * v →
        25 / 10 ^ 18 * L * L + 25 / 10 ^ 18 = d * v ^ 2 + d → False := by
      rintro v d (rfl | rfl) hd h1 h2
      · have : (L - 1) ^ 2 = 0 := by norm_num at h1 h2; nlinarith
        have : L - 1 = 0 := by simpa using this
        linarith
      · norm_num at h1; linarith
    cases h.at0 with
    | left _ => simp [physFlux, wKl] at hFd; norm_num at hFd; linarith
    | right _ => simp [physFlux, wKr] at hFd; norm_num at hFd; linarith
    | midL _ _ => exact mid _ tl0.1 tl0.2 hct.1 hct.2 hFd hFx
    | midR _ _ => exact mid _ tr0.1 tr0.2 rfl rfl hFd hFx
    | fanL _ _ _ hf =>
      obtain ⟨h1, h2, -, -, h3⟩ := hf
      rw [hcs] at h3
      refine son W0.Vx W0.d (.inl h3) h1 hFd ?_
      have b1 : W0.By = 0 := h2.2.2.1
      have b2 : W0.Bz = 0 := h2.2.2.2.1
      simpa [physFlux, press, phK, b1, b2] using hFx
    | fanR _ _ _ hf =>
      obtain ⟨h1, h2, -, -, h3⟩ := hf
      rw [hcs'] at h3
      refine son W0.Vx W0.d (.inr (by simp only [Prim1D.mirror] at h3; linarith)) h1 hFd ?_
      have b1 : W0.By = 0 := h2.2.2.1
      have b2 : W0.Bz = 0 := h2.2.2.2.1
      simpa [physFlux, press, phK, b1, b2] using hFx

/-! ## The adiabatic solver gives up on strong rarefactions -/

/-- Adiabatic gas, γ = 5/3. -/
def phM : Phys := ⟨false, false, 5/3, 0, 1/100⟩
theorem phM_ok : phM.Ok := ⟨by simp [phM], by norm_num [phM], by simp [phM], by norm_num [phM]⟩

/-- Sound speed 1, leaving the interface with speed 2.9; the escape speed is 3. -/
def wMl : Prim1D 0 := ⟨1/6, -(29/10), 0, 0, 1/10, 0, 0, fun _ => 0⟩
/-- Right state. -/
def wMr : Prim1D 0 := ⟨1/6, 29/10, 0, 0, 1/10, 0, 0, fun _ => 0⟩

theorem sound_M (W : Prim1D 0) (h : W = wMl ∨ W = wMr) : sound phM W = 1 := by
  rcases h with rfl | rfl <;> norm_num [sound, phM, wMl, wMr]

theorem getPC_M : getPC phM wMl wMr = none := by
  have gl : Gas phM wMl := ⟨by norm_num [wMl], by norm_num [wMl]⟩
  have gr : Gas phM wMr := ⟨by norm_num [wMr], by norm_num [wMr]⟩
  have sl := sound_M wMl (.inl rfl)
  have sr := sound_M wMr (.inr rfl)
  have hpp : ppv phM wMl wMr = 0 := by
    unfold ppv; rw [sl, sr]; dsimp only; rw [if_pos (by norm_num [wMl, wMr])]
  have hg : gG phM wMr 0 = gG phM wMl 0 := rfl
  have h1 : 0 < gG phM wMl 0 := (guessG_eq phM_ok rfl gl le_rfl).2
  have h2 : gG phM wMl 0 ≤ 14 := by
    unfold gG
    rw [show (14:ℝ) = Real.sqrt (14 ^ 2) from (Real.sqrt_sq (by norm_num)).symm]
    exact Real.sqrt_le_sqrt (by norm_num [phM, wMl])
  have hguess : guessP phM wMl wMr = some exactTol := by
    rw [guessP_eq phM_ok rfl gl gr]
    dsimp only
    rw [hpp, hg, if_pos]
    refine div_neg_of_neg_of_pos ?_ (by linarith)
    simp only [wMl, wMr] at *
    linarith
  -- Newton's method started from the tolerance returns a negative pressure
  have hp5 : ((1:ℝ) / 100000) ^ ((1:ℝ) / 5) = 1 / 10 := by
    rw [show ((1:ℝ) / 100000) = (1 / 10) ^ (5:ℝ) by norm_num, ← Real.rpow_mul (by norm_num)]; norm_num
  have hp4 : ((1:ℝ) / 100000) ^ (-(4:ℝ) / 5) = 10000 := by
    rw [show ((1:ℝ) / 100000) = (1 / 10) ^ (5:ℝ) by norm_num, ← Real.rpow_mul (by norm_num),
      show ((5:ℝ) * (-4 / 5)) = -(4:ℝ) by norm_num, Real.rpow_neg (by norm_num)]
    norm_num
  have side : ∀ W : Prim1D 0, W = wMl ∨ W = wMr → pF phM W exactTol - exactTol * pD phM W exactTol = -(69/25) := by
    intro W hW
    have hs := sound_M W hW
    have hP : W.P = 1/10 := by rcases hW with rfl | rfl <;> rfl
    have hd : W.d = 1/6 := by rcases hW with rfl | rfl <;> rfl
    unfold pF pD
    rw [if_pos (by rw [hP]; norm_num [exactTol]), if_pos (by rw [hP]; norm_num [exactTol]), hs, hP, hd]
    rw [show (phM.gamma - 1) / (2 * phM.gamma) = (1:ℝ) / 5 by norm_num [phM],
      show -(phM.gamma + 1) / (2 * phM.gamma) = -(4:ℝ) / 5 by norm_num [phM],
      show exactTol / (1 / 10) = (1:ℝ) / 100000 by norm_num [exactTol], hp5, hp4]
    norm_num [phM, exactTol]
  have hn : newt phM wMl wMr exactTol < 0 := by
    refine newt_neg phM_ok rfl gl gr exactTol_pos ?_
    rw [side _ (.inl rfl), side _ (.inr rfl)]
    norm_num [wMl, wMr]
  have hloop : ∀ n, pcLoop phM wMl wMr n exactTol = none := by
    intro n
    induction n with
    | zero => rfl
    | succ n ih =>
      rw [pcLoop, pcStep_eq phM_ok rfl gl gr exactTol_pos, if_neg (test_neg exactTol_pos hn.le), if_pos hn]
      exact ih
  unfold getPC
  rw [hguess]
  exact hloop 100

/-- C66 fails for the adiabatic solver: two gases that leave the interface with 29/30 of the escape speed.  No vacuum forms and the Riemann
problem has a solution, of positive pressure 1/243000000, but the solver stops with an error: the tolerance that replaces negative
pressures is absolute, and Newton's method started from it returns a negative pressure again, for ever. -/
theorem exactA_defined_false : ∃ (p : Phys) (Wl Wr : Prim1D 0) (Ul Ur : Cons1D 0), p.Ok ∧ p.iso = false ∧ p.mhd = false ∧
    State p 0 Wl Ul ∧ State p 0 Wr Ur ∧ Wr.Vx - Wl.Vx < 2 * (sound p Wl + sound p Wr) / (p.gamma - 1) ∧
    (∃ W0 Ml Mr sl tl tr sr, Solves p Wl Wr W0 Ml Mr sl tl tr sr) ∧ exactA p Ul Ur Wl Wr = none := by
  obtain ⟨Ul, hl⟩ := state_of phM phM_ok 0 wMl (by simp [Prim1D.Wf, phM, wMl]) (by norm_num [wMl]) (by norm_num [wMl])
  obtain ⟨Ur, hr⟩ := state_of phM phM_ok 0 wMr (by simp [Prim1D.Wf, phM, wMr]) (by norm_num [wMr]) (by norm_num [wMr])
  have sl := sound_M wMl (.inl rfl)
  have sr := sound_M wMr (.inr rfl)
  refine ⟨phM, wMl, wMr, Ul, Ur, phM_ok, rfl, rfl, hl, hr, ?_, ?_, ?_⟩
  · rw [sl, sr]; norm_num [wMl, wMr, phM]
  · have h30 : ((1:ℝ) / 24300000) ^ ((1:ℝ) / 5) = 1 / 30 := by
      rw [show ((1:ℝ) / 24300000) = (1 / 30) ^ (5:ℝ) by norm_num, ← Real.rpow_mul (by norm_num)]; norm_num
    have side : ∀ W : Prim1D 0, W = wMl ∨ W = wMr → pF phM W (1 / 243000000) = -(29/10) := by
      intro W hW
      have hs := sound_M W hW
      have hP : W.P = 1/10 := by rcases hW with rfl | rfl <;> rfl
      unfold pF
      rw [if_pos (by rw [hP]; norm_num), hs, hP,
        show (phM.gamma - 1) / (2 * phM.gamma) = (1:ℝ) / 5 by norm_num [phM],
        show ((1:ℝ) / 243000000 / (1 / 10)) = (1:ℝ) / 24300000 by norm_num, h30]
      norm_num [phM]
    have hres : contactRes phM wMl wMr (1 / 243000000) = 0 := by
      unfold contactRes; rw [side _ (.inl rfl), side _ (.inr rfl)]; norm_num [wMl, wMr]
    obtain ⟨W0, -, h⟩ := exactPick_of_root phM_ok rfl rfl hl hr (by norm_num) hres
    exact ⟨_, _, _, _, _, _, _, h⟩
  · unfold exactA
    rw [getPC_M]
    split_ifs <;> cases exactA_a phM wMl <;> cases exactA_a phM wMr <;> rfl

/-! ## The derivative used by Newton's method -/

/-- C66: `PFuncDeriv` returns the derivative of what `PFunc` returns. -/
theorem pFunc_hasDeriv (hp : p.Ok) (hi : p.iso = false) (h : Gas p W) (hx : 0 < x) (hne : x ≠ W.P) :
    ∃ f : ℝ → ℝ, (∀ y, 0 < y → pFunc p W y = some (f y)) ∧ ∃ d, pFuncDeriv p W x = some d ∧ HasDerivAt f d x := by
  refine ⟨pF p W, fun y hy => pFunc_eq hp hi h hy, pD p W x, (pFuncDeriv_eq hp hi h hx).1, ?_⟩
  have hg := hp.gamma hi; have hP := h.P hi; have hd := h.d
  have g1 : 0 < p.gamma - 1 := by linarith
  have g0 : 0 < p.gamma := by linarith
  have g3 : 0 < p.gamma + 1 := by linarith
  have ha := sound_pos hp h
  have ha2 : sound p W * sound p W = p.gamma * W.P / W.d := by
    unfold sound; simp only [hi, Bool.false_eq_true, if_false]
    exact Real.mul_self_sqrt (by positivity)
  rcases lt_or_gt_of_ne hne with hlt | hgt
  · have ev : pF p W =ᶠ[nhds x] fun y => 2 * sound p W / (p.gamma - 1) * ((y / W.P) ^ ((p.gamma - 1) / (2 * p.gamma)) - 1) := by
      filter_upwards [Iio_mem_nhds hlt] with y hy
      unfold pF; rw [if_pos (le_of_lt hy)]
    refine HasDerivAt.congr_of_eventuallyEq ?_ ev
    have h1 : HasDerivAt (fun y => y / W.P) (1 / W.P) x := (hasDerivAt_id x).div_const _
    have h2 := ((h1.rpow_const (p := (p.gamma - 1) / (2 * p.gamma)) (.inl (div_pos hx hP).ne')).sub_const 1).const_mul
      (2 * sound p W / (p.gamma - 1))
    refine h2.congr_deriv ?_
    unfold pD
    rw [if_pos hlt.le, show (p.gamma - 1) / (2 * p.gamma) - 1 = -(p.gamma + 1) / (2 * p.gamma) by field_simp; ring]
    generalize (x / W.P) ^ (-(p.gamma + 1) / (2 * p.gamma)) = y
    have : W.P = sound p W * sound p W * W.d / p.gamma := by rw [ha2]; field_simp
    rw [this]
    field_simp
  · have ev : pF p W =ᶠ[nhds x] fun y => (y - W.P) * Real.sqrt (2 / (W.d * (p.gamma + 1)) / (y + W.P * (p.gamma - 1) / (p.gamma + 1))) := by
      filter_upwards [Ioi_mem_nhds hgt] with y hy
      unfold pF; rw [if_neg (not_le.mpr hy)]
    refine HasDerivAt.congr_of_eventuallyEq ?_ ev
    set A := 2 / (W.d * (p.gamma + 1)) with hA
    set B := W.P * (p.gamma - 1) / (p.gamma + 1) with hB
    have hAp : 0 < A := by positivity
    have hBp : 0 < B := by positivity
    have hxB : 0 < x + B := by positivity
    have hxB' : 0 < B + x := by positivity
    have h1 : HasDerivAt (fun y => A / (y + B)) (-A / (x + B) ^ 2) x := by
      refine ((hasDerivAt_const x A).div ((hasDerivAt_id x).add_const B) hxB.ne').congr_deriv ?_
      simp only [id]; ring
    have hq : 0 < A / (x + B) := by positivity
    have h2 := ((hasDerivAt_id x).sub_const W.P).mul (h1.sqrt hq.ne')
    refine h2.congr_deriv ?_
    unfold pD
    rw [if_neg (not_le.mpr hgt), ← hA, ← hB]
    have hs : 0 < Real.sqrt (A / (x + B)) := Real.sqrt_pos.mpr hq
    have hs2 : A = Real.sqrt (A / (x + B)) * Real.sqrt (A / (x + B)) * (x + B) := by
      rw [Real.mul_self_sqrt hq.le]; field_simp
    simp only [id]
    rw [add_comm B x]
    generalize Real.sqrt (A / (x + B)) = s at *
    rw [hs2]
    field_simp
    ring

/-! ## Examples -/

/-- Colliding isothermal streams: the hypotheses of `exactI_solution`, `exactI_mirror_partial` hold (two shocks). -/
example : ∃ Ul Ur, State phK 0 (⟨1, 2, 0, 0, 0, 0, 0, fun _ => 0⟩ : Prim1D 0) Ul ∧
    State phK 0 (⟨4, -2, 0, 0, 0, 0, 0, fun _ => 0⟩ : Prim1D 0) Ur ∧
    MidExact phK.cs (⟨1, 2, 0, 0, 0, 0, 0, fun _ => 0⟩ : Prim1D 0) ⟨4, -2, 0, 0, 0, 0, 0, fun _ => 0⟩ := by
  obtain ⟨Ul, hl⟩ := state_of phK phK_ok 0 (⟨1, 2, 0, 0, 0, 0, 0, fun _ => 0⟩ : Prim1D 0) (by simp [Prim1D.Wf, phK]) (by norm_num)
    (by simp [phK])
  obtain ⟨Ur, hr⟩ := state_of phK phK_ok 0 (⟨4, -2, 0, 0, 0, 0, 0, fun _ => 0⟩ : Prim1D 0) (by simp [Prim1D.Wf, phK]) (by norm_num)
    (by simp [phK])
  refine ⟨Ul, Ur, hl, hr, .inl ?_⟩
  rw [phK_cs]
  have : Real.sqrt (4 * 1) = 2 := by
    rw [show (4 * 1 : ℝ) = 2 ^ 2 by norm_num]; exact Real.sqrt_sq (by norm_num)
  norm_num at this ⊢
  rw [this]; norm_num

/-- A moving contact between gases of densities 1 and 4: the hypotheses of `exactA_contact` hold. -/
example : ∃ Ul Ur, State phM 0 (⟨1, 1/2, 3, 0, 1, 0, 0, fun _ => 0⟩ : Prim1D 0) Ul ∧
    State phM 0 (⟨4, 1/2, 0, -1, 1, 0, 0, fun _ => 0⟩ : Prim1D 0) Ur := by
  obtain ⟨Ul, hl⟩ := state_of phM phM_ok 0 (⟨1, 1/2, 3, 0, 1, 0, 0, fun _ => 0⟩ : Prim1D 0) (by simp [Prim1D.Wf, phM]) (by norm_num)
    (by norm_num)
  obtain ⟨Ur, hr⟩ := state_of phM phM_ok 0 (⟨4, 1/2, 0, -1, 1, 0, 0, fun _ => 0⟩ : Prim1D 0) (by simp [Prim1D.Wf, phM]) (by norm_num)
    (by norm_num)
  exact ⟨Ul, Ur, hl, hr⟩

/-- Streams that part with speed 8 form a vacuum: the hypothesis of `exactA_vacuum`. -/
example : 2 * (sound phM wMl + sound phM wMr) / (phM.gamma - 1) ≤ ({wMr with Vx := 4} : Prim1D 0).Vx - ({wMl with Vx := -4} : Prim1D 0).Vx := by
  rw [sound_M _ (.inl rfl), sound_M _ (.inr rfl)]; norm_num [phM]

end
end Athena.Hydro
