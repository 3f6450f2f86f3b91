import Verif.Hydro.ExactAdb

/-! # Properties of the adiabatic exact solver (C34, C35, C66) -/

namespace Athena.Hydro
noncomputable section
variable {ns : ℕ} {p : Phys} {Bx : ℝ} {Wl Wr W : Prim1D ns} {Ul Ur U : Cons1D ns} {x : ℝ}

/-! ## The Newton iteration -/

theorem pFuncDeriv_zero (hp : p.Ok) (hi : p.iso = false) (h : Gas p W) : pFuncDeriv p W 0 = none := by
  have hg := hp.gamma hi; have hP := h.P hi; have hd := h.d
  have g2 : 0 < 2 * p.gamma := by linarith
  unfold pFuncDeriv
  rw [exactA_a_eq hp hi h]
  simp only [Option.bind_eq_bind, Option.bind_some]
  rw [if_pos hP.le, fdiv_pos g2, fdiv_pos hP]
  have e : fpow (0 / W.P) (-(p.gamma + 1) / (2 * p.gamma)) = none :=
    if_pos (.inr ⟨zero_div _, div_neg_of_neg_of_pos (by linarith) g2⟩)
  simp only [Option.bind_some, e]
  cases fdiv 1 (sound p W * W.d) <;> rfl

/-- The Newton iterate. -/
def newt (p : Phys) (Wl Wr : Prim1D ns) (x : ℝ) : ℝ := x - contactRes p Wl Wr x / (pD p Wl x + pD p Wr x)

theorem pcStep_eq (hp : p.Ok) (hi : p.iso = false) (hl : Gas p Wl) (hr : Gas p Wr) (hx : 0 < x) :
    pcStep p Wl Wr x = some (if newt p Wl Wr x + x ≠ 0 ∧ 2 * |(newt p Wl Wr x - x) / (newt p Wl Wr x + x)| ≤ exactTol
      then .inl (newt p Wl Wr x) else .inr (if newt p Wl Wr x < 0 then exactTol else newt p Wl Wr x)) := by
  obtain ⟨dl, dlp⟩ := pFuncDeriv_eq hp hi hl hx
  obtain ⟨dr, drp⟩ := pFuncDeriv_eq hp hi hr hx
  unfold pcStep
  simp only [pFunc_eq hp hi hl hx, pFunc_eq hp hi hr hx, dl, dr, fdiv_pos (add_pos dlp drp), Option.bind_eq_bind, Option.bind_some,
    Option.pure_def]
  have e : x - (pF p Wl x + pF p Wr x + (Wr.Vx - Wl.Vx)) / (pD p Wl x + pD p Wr x) = newt p Wl Wr x := rfl
  simp only [e]
  by_cases h : newt p Wl Wr x + x ≠ 0 ∧ 2 * |(newt p Wl Wr x - x) / (newt p Wl Wr x + x)| ≤ exactTol
  · rw [if_pos h, if_pos h]
  · rw [if_neg h, if_neg h]

theorem pcStep_zero (hp : p.Ok) (hi : p.iso = false) (hl : Gas p Wl) : pcStep p Wl Wr 0 = none := by
  unfold pcStep
  rw [pFuncDeriv_zero hp hi hl]
  cases pFunc p Wl 0 <;> cases pFunc p Wr 0 <;> rfl

/-- The convergence test fails for an iterate that is not positive. -/
theorem test_neg {y : ℝ} (hx : 0 < x) (hy : y ≤ 0) : ¬ (y + x ≠ 0 ∧ 2 * |(y - x) / (y + x)| ≤ exactTol) := by
  rintro ⟨h0, h⟩
  have h1 : 0 < |y + x| := abs_pos.mpr h0
  rw [abs_div, ← mul_div_assoc, div_le_iff₀ h1] at h
  have h2 : |y + x| ≤ |y - x| := by
    rw [abs_of_nonpos (show y - x ≤ 0 by linarith)]
    exact abs_le.mpr ⟨by linarith, by linarith⟩
  unfold exactTol at h
  linarith

theorem exactTol_pos : 0 < exactTol := by unfold exactTol; norm_num

theorem pcLoop_pos (hp : p.Ok) (hi : p.iso = false) (hl : Gas p Wl) (hr : Gas p Wr) {y : ℝ} :
    ∀ (n : ℕ) (x : ℝ), 0 ≤ x → pcLoop p Wl Wr n x = some y → 0 < y := by
  intro n
  induction n with
  | zero => intro x _ h; cases h
  | succ n ih =>
    intro x hx h
    rcases hx.eq_or_lt with rfl | hx
    · rw [pcLoop, pcStep_zero hp hi hl] at h; cases h
    rw [pcLoop, pcStep_eq hp hi hl hr hx] at h
    by_cases hc : newt p Wl Wr x + x ≠ 0 ∧ 2 * |(newt p Wl Wr x - x) / (newt p Wl Wr x + x)| ≤ exactTol
    · rw [if_pos hc] at h
      have : newt p Wl Wr x = y := Option.some.inj h
      rw [← this]
      exact not_le.mp fun hy => test_neg hx hy hc
    · rw [if_neg hc] at h
      refine ih _ ?_ h
      split_ifs with hn
      · exact exactTol_pos.le
      · exact not_lt.mp hn

theorem guessP_nonneg {y : ℝ} (h : guessP p Wl Wr = some y) : 0 ≤ y := by
  unfold guessP at h
  simp only [Option.bind_eq_bind, Option.bind_eq_some_iff, Option.pure_def, Option.some.injEq] at h
  obtain ⟨_, _, _, _, _, _, _, _, p0, _, h⟩ := h
  rw [← h]
  split_ifs with hn
  · exact exactTol_pos.le
  · exact not_lt.mp hn

theorem getPC_pos (hp : p.Ok) (hi : p.iso = false) (hl : Gas p Wl) (hr : Gas p Wr) (h : getPC p Wl Wr = some x) : 0 < x := by
  unfold getPC at h
  simp only [Option.bind_eq_bind, Option.bind_eq_some_iff] at h
  obtain ⟨y, hy, h⟩ := h
  exact pcLoop_pos hp hi hl hr 100 y (guessP_nonneg hy) h

/-! ## Vacuum -/

/-- Newton's tangent meets pressure 0 above the escape speed of the gas. -/
theorem tangent_gt (hp : p.Ok) (hi : p.iso = false) (h : Gas p W) (hx : 0 < x) :
    -(2 * sound p W / (p.gamma - 1)) < pF p W x - x * pD p W x := by
  have hg := hp.gamma hi; have hP := h.P hi; have hd := h.d
  have g1 : 0 < p.gamma - 1 := by linarith
  have g0 : 0 < p.gamma := by linarith
  have g3 : 0 < p.gamma + 1 := by linarith
  have ha := sound_pos hp h
  have ha2 : sound p W * sound p W = p.gamma * W.P / W.d := by
    unfold sound; simp only [hi, Bool.false_eq_true, if_false]
    exact Real.mul_self_sqrt (by positivity)
  unfold pF pD
  by_cases hc : x ≤ W.P
  · rw [if_pos hc, if_pos hc]
    have hr : 0 < x / W.P := div_pos hx hP
    have hy : 0 < (x / W.P) ^ ((p.gamma - 1) / (2 * p.gamma)) := Real.rpow_pos_of_pos hr _
    have e : x / W.P * (x / W.P) ^ (-(p.gamma + 1) / (2 * p.gamma)) = (x / W.P) ^ ((p.gamma - 1) / (2 * p.gamma)) := by
      nth_rw 1 [← Real.rpow_one (x / W.P)]
      rw [← Real.rpow_add hr]
      congr 1
      field_simp; ring
    have e2 : x * (1 / (sound p W * W.d) * (x / W.P) ^ (-(p.gamma + 1) / (2 * p.gamma))) =
        sound p W / p.gamma * (x / W.P) ^ ((p.gamma - 1) / (2 * p.gamma)) := by
      rw [← e]
      have : W.P = sound p W * sound p W * W.d / p.gamma := by rw [ha2]; field_simp
      generalize (x / W.P) ^ (-(p.gamma + 1) / (2 * p.gamma)) = y
      rw [this]; field_simp
    rw [e2]
    have : sound p W / p.gamma < 2 * sound p W / (p.gamma - 1) := by
      rw [div_lt_div_iff₀ g0 g1]; nlinarith
    nlinarith
  · rw [if_neg hc, if_neg hc]
    rw [not_le] at hc
    set B := W.P * (p.gamma - 1) / (p.gamma + 1) with hB
    have hBp : 0 < B := by positivity
    set s := Real.sqrt (2 / (W.d * (p.gamma + 1)) / (x + B)) with hs
    have hsp : 0 < s := Real.sqrt_pos.mpr (by positivity)
    have hs2 : s * s = 2 / (W.d * (p.gamma + 1)) / (x + B) := Real.mul_self_sqrt (by positivity)
    -- s P < a / γ
    have key : s * W.P < sound p W / p.gamma := by
      rw [lt_div_iff₀ g0]
      refine lt_of_pow_lt_pow_left₀ 2 ha.le ?_
      have : (s * W.P * p.gamma) ^ 2 = 2 / (W.d * (p.gamma + 1)) / (x + B) * (W.P * p.gamma) ^ 2 := by rw [← hs2]; ring
      rw [this, pow_two (sound p W), ha2, div_div, div_mul_eq_mul_div, div_lt_div_iff₀ (by positivity) hd]
      have e : (p.gamma + 1) * (W.P + B) = 2 * p.gamma * W.P := by rw [hB]; field_simp; ring
      have : 2 * p.gamma * W.P < (p.gamma + 1) * (x + B) := by rw [← e]; nlinarith
      have h2 := mul_lt_mul_of_pos_left this (show 0 < p.gamma * W.P * W.d by positivity)
      nlinarith
    have h3 : sound p W / p.gamma < 2 * sound p W / (p.gamma - 1) := by
      rw [div_lt_div_iff₀ g0 g1]; nlinarith
    have e : (x - W.P) * s - x * (s * (1 - 1/2 * (x - W.P) / (B + x))) = s * (x * (1/2 * (x - W.P) / (B + x))) - s * W.P := by ring
    rw [e]
    have : 0 ≤ s * (x * (1/2 * (x - W.P) / (B + x))) := by
      have : 0 < x - W.P := by linarith
      positivity
    linarith

theorem newt_neg (hp : p.Ok) (hi : p.iso = false) (hl : Gas p Wl) (hr : Gas p Wr) (hx : 0 < x)
    (h : pF p Wl x - x * pD p Wl x + (pF p Wr x - x * pD p Wr x) + (Wr.Vx - Wl.Vx) > 0) : newt p Wl Wr x < 0 := by
  obtain ⟨-, dlp⟩ := pFuncDeriv_eq hp hi hl hx
  obtain ⟨-, drp⟩ := pFuncDeriv_eq hp hi hr hx
  unfold newt contactRes
  rw [sub_neg, lt_div_iff₀ (add_pos dlp drp)]
  linarith

theorem pcLoop_vacuum (hp : p.Ok) (hi : p.iso = false) (hl : Gas p Wl) (hr : Gas p Wr)
    (h : 2 * (sound p Wl + sound p Wr) / (p.gamma - 1) ≤ Wr.Vx - Wl.Vx) : ∀ (n : ℕ) (x : ℝ), 0 ≤ x → pcLoop p Wl Wr n x = none := by
  intro n
  induction n with
  | zero => intros; rfl
  | succ n ih =>
    intro x hx
    rcases hx.eq_or_lt with rfl | hx
    · rw [pcLoop, pcStep_zero hp hi hl]; rfl
    have t1 := tangent_gt hp hi hl hx
    have t2 := tangent_gt hp hi hr hx
    have e : 2 * (sound p Wl + sound p Wr) / (p.gamma - 1) = 2 * sound p Wl / (p.gamma - 1) + 2 * sound p Wr / (p.gamma - 1) := by ring
    have hn : newt p Wl Wr x < 0 := newt_neg hp hi hl hr hx (by linarith)
    rw [pcLoop, pcStep_eq hp hi hl hr hx, if_neg (test_neg hx hn.le), if_pos hn]
    exact ih _ exactTol_pos.le

/-! ## Properties -/

/-- C66: whenever the pressure found by the iteration is an exact root, the flux returned is the physical flux of the state at the
interface of the exact solution of the Riemann problem. -/
theorem exactA_solution_partial (hp : p.Ok) (hi : p.iso = false) (hm : p.mhd = false) (hl : State p Bx Wl Ul) (hr : State p Bx Wr Ur)
    (hpc : getPC p Wl Wr = some x) (hres : contactRes p Wl Wr x = 0) :
    ∃ W0 Ml Mr sl tl tr sr, Solves p Wl Wr W0 Ml Mr sl tl tr sr ∧ exactA p Ul Ur Wl Wr = some (physFlux p W0 0) := by
  have hx := getPC_pos hp hi ⟨hl.d, hl.P⟩ ⟨hr.d, hr.P⟩ hpc
  obtain ⟨W0, h1, h2⟩ := exactPick_of_root hp hi hm hl hr hx hres
  exact ⟨W0, _, _, _, _, _, _, h2, (exactA_eq hp hi hl hr hpc hx).trans h1⟩

/-- C66: when the two gases fly apart faster than they can expand (so that a vacuum forms) the adiabatic solver stops with an error and
returns no flux. -/
theorem exactA_vacuum (hp : p.Ok) (hi : p.iso = false) (hl : State p Bx Wl Ul) (hr : State p Bx Wr Ur)
    (h : 2 * (sound p Wl + sound p Wr) / (p.gamma - 1) ≤ Wr.Vx - Wl.Vx) : exactA p Ul Ur Wl Wr = none := by
  have gl : Gas p Wl := ⟨hl.d, hl.P⟩
  have gr : Gas p Wr := ⟨hr.d, hr.P⟩
  have hpc : getPC p Wl Wr = none := by
    unfold getPC
    cases hg : guessP p Wl Wr with
    | none => rfl
    | some y => exact pcLoop_vacuum hp hi gl gr h 100 y (guessP_nonneg hg)
  unfold exactA
  rw [hpc]
  split_ifs <;> cases exactA_a p Wl <;> cases exactA_a p Wr <;> rfl

theorem guessG_mirror (y : ℝ) : guessG p W.mirror y = guessG p W y := rfl

theorem guessG_eq (hp : p.Ok) (hi : p.iso = false) (h : Gas p W) {y : ℝ} (hy : 0 ≤ y) :
    guessG p W y = some (Real.sqrt (2 / (W.d * (p.gamma + 1)) / ((p.gamma - 1) * W.P / (p.gamma + 1) + y))) ∧
      0 < Real.sqrt (2 / (W.d * (p.gamma + 1)) / ((p.gamma - 1) * W.P / (p.gamma + 1) + y)) := by
  have hg := hp.gamma hi; have hP := h.P hi; have hd := h.d
  have g1 : 0 < p.gamma - 1 := by linarith
  have g3 : 0 < p.gamma + 1 := by linarith
  have : 0 < (p.gamma - 1) * W.P / (p.gamma + 1) + y := by positivity
  unfold guessG
  rw [fdiv_pos (mul_pos hd g3), fdiv_pos g3]
  simp only [Option.bind_eq_bind, Option.bind_some]
  rw [fdiv_pos this]
  exact ⟨fsqrt_nonneg (by positivity), Real.sqrt_pos.mpr (by positivity)⟩

/-- The first guess. -/
def ppv (p : Phys) (Wl Wr : Prim1D ns) : ℝ :=
  let y := 1/2 * (Wl.P + Wr.P) - 1/8 * (Wr.Vx - Wl.Vx) * (Wl.d + Wr.d) * (sound p Wl + sound p Wr)
  if y < 0 then 0 else y

def gG (p : Phys) (W : Prim1D ns) (y : ℝ) : ℝ := Real.sqrt (2 / (W.d * (p.gamma + 1)) / ((p.gamma - 1) * W.P / (p.gamma + 1) + y))

theorem guessP_eq (hp : p.Ok) (hi : p.iso = false) (hl : Gas p Wl) (hr : Gas p Wr) :
    guessP p Wl Wr = some (
      let y := ppv p Wl Wr
      let p0 := (gG p Wl y * Wl.P + gG p Wr y * Wr.P - (Wr.Vx - Wl.Vx)) / (gG p Wr y + gG p Wl y)
      if p0 < 0 then exactTol else p0) := by
  have h0 : 0 ≤ ppv p Wl Wr := by
    unfold ppv; dsimp only; split_ifs with h
    · exact le_rfl
    · exact not_lt.mp h
  obtain ⟨e1, q1⟩ := guessG_eq hp hi hl h0
  obtain ⟨e2, q2⟩ := guessG_eq hp hi hr h0
  unfold guessP
  rw [exactA_a_eq hp hi hl, exactA_a_eq hp hi hr]
  simp only [Option.bind_eq_bind, Option.bind_some]
  change (guessG p Wl (ppv p Wl Wr)).bind _ = _
  rw [e1]
  simp only [Option.bind_some]
  change (guessG p Wr (ppv p Wl Wr)).bind _ = _
  rw [e2]
  simp only [Option.bind_some]
  rw [fdiv_pos (add_pos q2 q1)]
  rfl

theorem contactRes_mirror : contactRes p Wr.mirror Wl.mirror x = contactRes p Wl Wr x := by
  have h1 : pF p Wr.mirror x = pF p Wr x := rfl
  have h2 : pF p Wl.mirror x = pF p Wl x := rfl
  unfold contactRes; rw [h1, h2]; simp only [Prim1D.mirror]; ring

theorem newt_mirror : newt p Wr.mirror Wl.mirror x = newt p Wl Wr x := by
  have h1 : pD p Wr.mirror x = pD p Wr x := rfl
  have h2 : pD p Wl.mirror x = pD p Wl x := rfl
  unfold newt; rw [contactRes_mirror, h1, h2, add_comm (pD p Wr x)]

theorem pcLoop_mirror (hp : p.Ok) (hi : p.iso = false) (hl : Gas p Wl) (hr : Gas p Wr) : ∀ (n : ℕ) (x : ℝ), 0 ≤ x →
    pcLoop p Wr.mirror Wl.mirror n x = pcLoop p Wl Wr n x := by
  intro n
  induction n with
  | zero => intros; rfl
  | succ n ih =>
    intro x hx
    rcases hx.eq_or_lt with rfl | hx
    · rw [pcLoop, pcLoop, pcStep_zero hp hi hl, pcStep_zero hp hi hr.mirror]; rfl
    rw [pcLoop, pcLoop, pcStep_eq hp hi hl hr hx, pcStep_eq hp hi hr.mirror hl.mirror hx, newt_mirror]
    by_cases hc : newt p Wl Wr x + x ≠ 0 ∧ 2 * |(newt p Wl Wr x - x) / (newt p Wl Wr x + x)| ≤ exactTol
    · rw [if_pos hc]; rfl
    · rw [if_neg hc]
      refine ih _ ?_
      split_ifs with hn
      · exact exactTol_pos.le
      · exact not_lt.mp hn

theorem getPC_mirror (hp : p.Ok) (hi : p.iso = false) (hl : Gas p Wl) (hr : Gas p Wr) :
    getPC p Wr.mirror Wl.mirror = getPC p Wl Wr := by
  have e : guessP p Wr.mirror Wl.mirror = guessP p Wl Wr := by
    have sm : ∀ W : Prim1D ns, sound p W.mirror = sound p W := fun _ => rfl
    have gm : ∀ (W : Prim1D ns) y, gG p W.mirror y = gG p W y := fun _ _ => rfl
    have pm : ppv p Wr.mirror Wl.mirror = ppv p Wl Wr := by
      unfold ppv; rw [sm, sm]; simp only [Prim1D.mirror]
      simp only [show 1/2 * (Wr.P + Wl.P) - 1/8 * (-Wl.Vx - -Wr.Vx) * (Wr.d + Wl.d) * (sound p Wr + sound p Wl) =
        1/2 * (Wl.P + Wr.P) - 1/8 * (Wr.Vx - Wl.Vx) * (Wl.d + Wr.d) * (sound p Wl + sound p Wr) by ring]
    rw [guessP_eq hp hi hl hr, guessP_eq hp hi hr.mirror hl.mirror, pm]
    simp only [gm]
    simp only [Prim1D.mirror]
    simp only [show gG p Wr (ppv p Wl Wr) * Wr.P + gG p Wl (ppv p Wl Wr) * Wl.P - (-Wl.Vx - -Wr.Vx) =
      gG p Wl (ppv p Wl Wr) * Wl.P + gG p Wr (ppv p Wl Wr) * Wr.P - (Wr.Vx - Wl.Vx) by ring, add_comm (gG p Wl _)]
  unfold getPC
  rw [e, guessP_eq hp hi hl hr]
  exact pcLoop_mirror hp hi hl hr 100 _ (guessP_nonneg (guessP_eq hp hi hl hr))

/-- C35: the adiabatic exact flux is mirror symmetric whenever the pressure found is an exact root. -/
theorem exactA_mirror_partial (hp : p.Ok) (hi : p.iso = false) (hm : p.mhd = false) (hl : State p Bx Wl Ul) (hr : State p Bx Wr Ur)
    (hpc : getPC p Wl Wr = some x) (hres : contactRes p Wl Wr x = 0) :
    ∃ F, exactA p Ul Ur Wl Wr = some F ∧ exactA p Ur.mirror Ul.mirror Wr.mirror Wl.mirror = some F.mirrorFlux := by
  have gl : Gas p Wl := ⟨hl.d, hl.P⟩
  have gr : Gas p Wr := ⟨hr.d, hr.P⟩
  have hx := getPC_pos hp hi gl gr hpc
  have hpc' : getPC p Wr.mirror Wl.mirror = some x := (getPC_mirror hp hi gl gr).trans hpc
  have hres' : contactRes p Wr.mirror Wl.mirror x = 0 := contactRes_mirror.trans hres
  obtain ⟨W0, h1, h2⟩ := exactPick_of_root hp hi hm hl hr hx hres
  obtain ⟨W1, h1', h2'⟩ := exactPick_of_root hp hi hm hr.mirror hl.mirror hx hres'
  refine ⟨_, (exactA_eq hp hi hl hr hpc hx).trans h1, ?_⟩
  rw [exactA_eq hp hi hr.mirror hl.mirror hpc' hx, h1']
  congr 1
  have vm : vC p Wr.mirror Wl.mirror x = -vC p Wl Wr x := by
    have h1 : pF p Wr.mirror x = pF p Wr x := rfl
    have h2 : pF p Wl.mirror x = pF p Wl x := rfl
    unfold vC; rw [h1, h2]; simp only [Prim1D.mirror]; ring
  have g : ∀ {W : Prim1D ns} {v}, Gas p W → Gas p (W.at3 (dC p W x) v x) := fun h => ⟨(exactDc_eq hp hi h hx).2, fun _ => hx⟩
  refine Solves.flux_mirror hp hm gl gr (g gl) (g gr) hl.wf hr.wf h2 ?_
  rw [vm] at h2'
  have e := h2'
  rw [mirror_mirror] at e
  simp only [neg_neg] at e ⊢
  exact e

/-- C66: a contact discontinuity (equal velocities and pressures) gives exactly the upwind flux; in particular nothing flows through a
contact at rest. -/
theorem exactA_contact (hp : p.Ok) (hi : p.iso = false) (hm : p.mhd = false) (hl : State p Bx Wl Ul) (hr : State p Bx Wr Ur)
    (hP : Wl.P = Wr.P) (hV : Wl.Vx = Wr.Vx) :
    exactA p Ul Ur Wl Wr = some (physFlux p (if Wl.Vx ≥ 0 then Wl else Wr) 0) := by
  have gl : Gas p Wl := ⟨hl.d, hl.P⟩
  have gr : Gas p Wr := ⟨hr.d, hr.P⟩
  have hPl := hl.P hi
  have f0 : ∀ W : Prim1D ns, Gas p W → pF p W W.P = 0 := fun W g => by
    unfold pF; rw [if_pos le_rfl, div_self (g.P hi).ne', Real.one_rpow, sub_self, mul_zero]
  have d0 : ∀ W : Prim1D ns, Gas p W → dC p W W.P = W.d := fun W g => by
    unfold dC; rw [if_neg (lt_irrefl _), div_self (g.P hi).ne', Real.one_rpow, mul_one]
  have c0 : ∀ W : Prim1D ns, Gas p W → cW p W W.P = sound p W := fun W g => by
    unfold cW; rw [div_self (g.P hi).ne', Real.one_rpow, mul_one]
  have hres : contactRes p Wl Wr Wl.P = 0 := by
    unfold contactRes; rw [f0 Wl gl, hP, f0 Wr gr, hV]; ring
  have hv : vC p Wl Wr Wl.P = Wl.Vx := by
    unfold vC; rw [f0 Wl gl, hP, f0 Wr gr, ← hV]; ring
  have hnewt : newt p Wl Wr Wl.P = Wl.P := by unfold newt; rw [hres, zero_div, sub_zero]
  have hpc : getPC p Wl Wr = some Wl.P := by
    have hy : 0 ≤ ppv p Wl Wr := by
      unfold ppv; dsimp only; split_ifs with h
      · exact le_rfl
      · exact not_lt.mp h
    have q1 : 0 < gG p Wl (ppv p Wl Wr) := (guessG_eq hp hi gl hy).2
    have q2 : 0 < gG p Wr (ppv p Wl Wr) := (guessG_eq hp hi gr hy).2
    have e : (gG p Wl (ppv p Wl Wr) * Wl.P + gG p Wr (ppv p Wl Wr) * Wr.P - (Wr.Vx - Wl.Vx)) /
        (gG p Wr (ppv p Wl Wr) + gG p Wl (ppv p Wl Wr)) = Wl.P := by
      rw [← hP, hV]
      have : 0 < gG p Wr (ppv p Wl Wr) + gG p Wl (ppv p Wl Wr) := by positivity
      field_simp; ring
    unfold getPC
    rw [guessP_eq hp hi gl gr]
    simp only [e, if_neg (not_lt.mpr hPl.le), Option.bind_eq_bind, Option.bind_some]
    rw [pcLoop, pcStep_eq hp hi gl gr hPl, hnewt, if_pos]
    · rfl
    · refine ⟨by linarith, ?_⟩
      rw [sub_self, zero_div, abs_zero, mul_zero]
      exact exactTol_pos.le
  obtain ⟨W0, h1, h2⟩ := exactPick_of_root hp hi hm hl hr hPl hres
  rw [exactA_eq hp hi hl hr hpc hPl, h1]
  have e1 : Wl.at3 (dC p Wl Wl.P) (vC p Wl Wr Wl.P) Wl.P = Wl := by rw [d0 Wl gl, hv]; rfl
  have e2 : Wr.at3 (dC p Wr Wl.P) (vC p Wl Wr Wl.P) Wl.P = Wr := by rw [hv, hP, d0 Wr gr, hV]; rfl
  have s1 : fS p Wl Wl.P = Wl.Vx - sound p Wl := if_neg (lt_irrefl _)
  have s2 : fT p Wl Wl.P (vC p Wl Wr Wl.P) = Wl.Vx - sound p Wl := by
    unfold fT; rw [if_neg (lt_irrefl _), c0 Wl gl, hv]
  have s3 : fS p Wr.mirror Wl.P = -Wl.Vx - sound p Wr := by
    rw [hP, hV]; exact if_neg (lt_irrefl _)
  have s4 : fT p Wr.mirror Wl.P (-vC p Wl Wr Wl.P) = -Wl.Vx - sound p Wr := by
    have := c0 Wr.mirror gr.mirror
    unfold fT; rw [hv, hP, if_neg (show ¬ Wr.P > Wr.mirror.P from lt_irrefl _)]
    exact congrArg (-Wl.Vx - ·) this
  rw [e1, e2, s1, s2, s3, s4] at h2
  have al := sound_pos hp gl
  have ar := sound_pos hp gr
  congr 1
  cases h2.at0 with
  | left h => rw [if_pos (by linarith)]
  | fanL _ h1 h2 _ => linarith
  | midL _ h => rw [if_pos h]
  | midR h _ => rw [if_neg (by rw [hV]; exact not_le.mpr h)]
  | fanR _ h1 h2 _ => linarith
  | right h => rw [if_neg (by linarith)]

/-- C34: for equal states the adiabatic exact flux is the physical flux. -/
theorem exactA_consistent (hp : p.Ok) (hi : p.iso = false) (hm : p.mhd = false) (h : State p Bx W U) :
    exactA p U U W W = some (physFlux p W 0) := by
  rw [exactA_contact hp hi hm h h rfl rfl, ite_self]

end
end Athena.Hydro
