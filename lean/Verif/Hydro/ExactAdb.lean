import Verif.Hydro.ExactUniq

/-! # The adiabatic exact solver: from the pressure at the contact to the flux -/

namespace Athena.Hydro
noncomputable section
variable {ns : ℕ} {p : Phys} {Bx : ℝ} {Wl Wr W : Prim1D ns} {Ul Ur U : Cons1D ns} {x : ℝ}

theorem fpow_pos {x y : ℝ} (h : 0 < x) : fpow x y = some (x ^ y) := if_neg (by rintro (h' | ⟨h', -⟩) <;> linarith)

/-! ## Closed forms -/

/-- Velocity jump across the wave that leads from `W` to pressure `x`. -/
def pF (p : Phys) (W : Prim1D ns) (x : ℝ) : ℝ :=
  if x ≤ W.P then 2 * sound p W / (p.gamma - 1) * ((x / W.P) ^ ((p.gamma - 1) / (2 * p.gamma)) - 1)
  else (x - W.P) * Real.sqrt (2 / (W.d * (p.gamma + 1)) / (x + W.P * (p.gamma - 1) / (p.gamma + 1)))

/-- Its derivative as computed. -/
def pD (p : Phys) (W : Prim1D ns) (x : ℝ) : ℝ :=
  if x ≤ W.P then 1 / (sound p W * W.d) * (x / W.P) ^ (-(p.gamma + 1) / (2 * p.gamma))
  else Real.sqrt (2 / (W.d * (p.gamma + 1)) / (x + W.P * (p.gamma - 1) / (p.gamma + 1))) *
    (1 - 1/2 * (x - W.P) / (W.P * (p.gamma - 1) / (p.gamma + 1) + x))

/-- Density behind the wave. -/
def dC (p : Phys) (W : Prim1D ns) (x : ℝ) : ℝ :=
  if x > W.P then W.d * (x / W.P + (p.gamma - 1) / (p.gamma + 1)) / ((p.gamma - 1) / (p.gamma + 1) * x / W.P + 1)
  else W.d * (x / W.P) ^ (1 / p.gamma)

/-- Shock speed relative to the gas ahead. -/
def sW (p : Phys) (W : Prim1D ns) (x : ℝ) : ℝ :=
  sound p W * Real.sqrt (x * (p.gamma + 1) / (2 * p.gamma * W.P) + (p.gamma - 1) / (2 * p.gamma))

/-- Sound speed behind a rarefaction. -/
def cW (p : Phys) (W : Prim1D ns) (x : ℝ) : ℝ := sound p W * (x / W.P) ^ ((p.gamma - 1) / (2 * p.gamma))

theorem exactA_a_eq (hp : p.Ok) (hi : p.iso = false) (h : Gas p W) : exactA_a p W = some (sound p W) := by
  have := hp.gamma hi; have := h.P hi; have hd := h.d
  unfold exactA_a sound
  rw [fdiv_pos hd]
  simp only [Option.bind_eq_bind, Option.bind_some, hi, Bool.false_eq_true, if_false]
  exact fsqrt_nonneg (by positivity)

theorem pFunc_eq (hp : p.Ok) (hi : p.iso = false) (h : Gas p W) (hx : 0 < x) : pFunc p W x = some (pF p W x) := by
  have hg := hp.gamma hi; have hP := h.P hi; have hd := h.d
  have g1 : 0 < p.gamma - 1 := by linarith
  have g2 : 0 < 2 * p.gamma := by linarith
  have g3 : 0 < p.gamma + 1 := by linarith
  unfold pFunc pF
  rw [exactA_a_eq hp hi h]
  simp only [Option.bind_eq_bind, Option.bind_some, Option.pure_def]
  by_cases hc : x ≤ W.P
  · rw [if_pos hc, if_pos hc, fdiv_pos g1, fdiv_pos g2, fdiv_pos hP]
    simp only [Option.bind_some]
    rw [fpow_pos (div_pos hx hP)]; rfl
  · rw [if_neg hc, if_neg hc, fdiv_pos (mul_pos hd g3), fdiv_pos g3]
    simp only [Option.bind_some]
    have : 0 < x + W.P * (p.gamma - 1) / (p.gamma + 1) := by positivity
    rw [fdiv_pos this]
    simp only [Option.bind_some]
    rw [fsqrt_nonneg (by positivity)]; rfl

theorem pFuncDeriv_eq (hp : p.Ok) (hi : p.iso = false) (h : Gas p W) (hx : 0 < x) :
    pFuncDeriv p W x = some (pD p W x) ∧ 0 < pD p W x := by
  have hg := hp.gamma hi; have hP := h.P hi; have hd := h.d
  have g1 : 0 < p.gamma - 1 := by linarith
  have g2 : 0 < 2 * p.gamma := by linarith
  have g3 : 0 < p.gamma + 1 := by linarith
  have hs := sound_pos hp h
  unfold pFuncDeriv pD
  rw [exactA_a_eq hp hi h]
  simp only [Option.bind_eq_bind, Option.bind_some, Option.pure_def]
  by_cases hc : x ≤ W.P
  · rw [if_pos hc, if_pos hc, fdiv_pos (mul_pos hs hd), fdiv_pos g2, fdiv_pos hP]
    simp only [Option.bind_some]
    rw [fpow_pos (div_pos hx hP)]
    refine ⟨rfl, mul_pos (by positivity) (Real.rpow_pos_of_pos (div_pos hx hP) _)⟩
  · rw [if_neg hc, if_neg hc, fdiv_pos (mul_pos hd g3), fdiv_pos g3]
    simp only [Option.bind_some]
    have h1 : 0 < x + W.P * (p.gamma - 1) / (p.gamma + 1) := by positivity
    have h2 : 0 < W.P * (p.gamma - 1) / (p.gamma + 1) + x := by positivity
    rw [fdiv_pos h1, fdiv_pos h2]
    simp only [Option.bind_some]
    rw [fsqrt_nonneg (by positivity)]
    refine ⟨rfl, mul_pos (Real.sqrt_pos.mpr (by positivity)) ?_⟩
    have : 1/2 * (x - W.P) / (W.P * (p.gamma - 1) / (p.gamma + 1) + x) < 1 := by
      rw [div_lt_one h2]
      have : 0 < W.P * (p.gamma - 1) / (p.gamma + 1) := by positivity
      linarith
    linarith

theorem exactDc_eq (hp : p.Ok) (hi : p.iso = false) (h : Gas p W) (hx : 0 < x) :
    exactDc p W x = some (dC p W x) ∧ 0 < dC p W x := by
  have hg := hp.gamma hi; have hP := h.P hi; have hd := h.d
  have g1 : 0 < p.gamma - 1 := by linarith
  have g3 : 0 < p.gamma + 1 := by linarith
  have g0 : 0 < p.gamma := by linarith
  unfold exactDc dC
  by_cases hc : x > W.P
  · rw [if_pos hc, if_pos hc, fdiv_pos g3, fdiv_pos hP]
    simp only [Option.bind_eq_bind, Option.bind_some]
    rw [fdiv_pos hP]
    simp only [Option.bind_some]
    have : 0 < (p.gamma - 1) / (p.gamma + 1) * x / W.P + 1 := by positivity
    rw [fdiv_pos this]
    exact ⟨rfl, by positivity⟩
  · rw [if_neg hc, if_neg hc, fdiv_pos hP, fdiv_pos g0]
    simp only [Option.bind_eq_bind, Option.bind_some]
    rw [fpow_pos (div_pos hx hP)]
    exact ⟨rfl, mul_pos hd (Real.rpow_pos_of_pos (div_pos hx hP) _)⟩

theorem exactS_eq (hp : p.Ok) (hi : p.iso = false) (h : Gas p W) (hx : 0 < x) :
    exactS p W x = some (Real.sqrt (x * (p.gamma + 1) / (2 * p.gamma * W.P) + (p.gamma - 1) / (2 * p.gamma))) := by
  have hg := hp.gamma hi; have hP := h.P hi
  have g1 : 0 < p.gamma - 1 := by linarith
  have g2 : 0 < 2 * p.gamma := by linarith
  unfold exactS
  rw [fdiv_pos (mul_pos g2 hP), fdiv_pos g2]
  simp only [Option.bind_eq_bind, Option.bind_some]
  exact fsqrt_nonneg (by positivity)

theorem exactC_eq (hp : p.Ok) (hi : p.iso = false) (h : Gas p W) (hx : 0 < x) :
    exactC p W x = some ((x / W.P) ^ ((p.gamma - 1) / (2 * p.gamma))) := by
  have hg := hp.gamma hi; have hP := h.P hi
  have g2 : 0 < 2 * p.gamma := by linarith
  unfold exactC
  rw [fdiv_pos hP, fdiv_pos g2]
  simp only [Option.bind_eq_bind, Option.bind_some]
  exact fpow_pos (div_pos hx hP)

/-- The state with density `d`, velocity `v` and pressure `P`, everything else as in `W`. -/
def Prim1D.at3 (W : Prim1D ns) (d v P : ℝ) : Prim1D ns := { W with d := d, Vx := v, P := P }

theorem exactSideA_eq (hp : p.Ok) (hi : p.iso = false) (hm : p.mhd = false) (h : State p Bx W U) :
    exactSideA p U W = some (physFlux p W 0) := by
  have hg := hp.gamma hi; have hd := h.d
  have g1 : 0 < p.gamma - 1 := by linarith
  have e1 := (h.wf.2 hm).1
  have e2 := (h.wf.2 hm).2
  unfold exactSideA
  rw [fdiv_pos (mul_pos hd g1), h.eq hp]
  simp only [Option.bind_eq_bind, Option.bind_some, Option.pure_def, Option.some.injEq]
  simp only [physFlux, press, energy, hi, hm, Bool.false_eq_true, if_false, e1, e2, Cons1D.mk.injEq]
  refine ⟨trivial, by ring, by ring, by ring, ?_, by ring, by ring, trivial⟩
  field_simp; ring

theorem exactStateA_eq (hp : p.Ok) (hi : p.iso = false) (hm : p.mhd = false) (h : W.Wf p) {d v P : ℝ} (hd : 0 < d) :
    exactStateA p W d v P = some (physFlux p (W.at3 d v P) 0) := by
  have hg := hp.gamma hi
  have g1 : 0 < p.gamma - 1 := by linarith
  have e1 := (h.2 hm).1
  have e2 := (h.2 hm).2
  unfold exactStateA
  rw [fdiv_pos (mul_pos hd g1)]
  simp only [Option.bind_eq_bind, Option.bind_some, Option.pure_def, Option.some.injEq]
  simp only [Prim1D.at3, physFlux, press, energy, hi, hm, Bool.false_eq_true, if_false, e1, e2, Cons1D.mk.injEq]
  refine ⟨trivial, by ring, by ring, by ring, ?_, by ring, by ring, trivial⟩
  field_simp; ring

/-! ## Waves -/

/-- Squared speed of a shock. -/
theorem sW_sq (hp : p.Ok) (hi : p.iso = false) (h : Gas p W) (hx : 0 < x) :
    0 < sW p W x ∧ 2 * W.d * (sW p W x * sW p W x) = (p.gamma + 1) * x + (p.gamma - 1) * W.P := by
  have hg := hp.gamma hi; have hP := h.P hi; have hd := h.d
  have g1 : 0 < p.gamma - 1 := by linarith
  have hq : 0 < x * (p.gamma + 1) / (2 * p.gamma * W.P) + (p.gamma - 1) / (2 * p.gamma) := by positivity
  refine ⟨mul_pos (sound_pos hp h) (Real.sqrt_pos.mpr hq), ?_⟩
  unfold sW
  have e1 : sound p W * sound p W = p.gamma * W.P / W.d := by
    unfold sound; simp only [hi, Bool.false_eq_true, if_false]
    exact Real.mul_self_sqrt (by positivity)
  have e2 := Real.mul_self_sqrt hq.le
  calc _ = 2 * W.d * ((sound p W * sound p W) * (Real.sqrt (x * (p.gamma + 1) / (2 * p.gamma * W.P) + (p.gamma - 1) / (2 * p.gamma)) *
        Real.sqrt (x * (p.gamma + 1) / (2 * p.gamma * W.P) + (p.gamma - 1) / (2 * p.gamma)))) := by ring
    _ = _ := by rw [e1, e2]; field_simp

/-- Velocity jump at a shock. -/
theorem pF_shock (hp : p.Ok) (hi : p.iso = false) (h : Gas p W) (hx : W.P < x) :
    pF p W x * (W.d * sW p W x) = x - W.P := by
  have hg := hp.gamma hi; have hP := h.P hi; have hd := h.d
  have hx0 : 0 < x := hP.trans hx
  have g1 : 0 < p.gamma - 1 := by linarith
  obtain ⟨hw, e⟩ := sW_sq hp hi h hx0
  unfold pF
  rw [if_neg (not_le.mpr hx)]
  have : 2 / (W.d * (p.gamma + 1)) / (x + W.P * (p.gamma - 1) / (p.gamma + 1)) = (1 / (W.d * sW p W x)) ^ 2 := by
    have e' : W.d * sW p W x * (W.d * sW p W x) = W.d * ((p.gamma + 1) * x + (p.gamma - 1) * W.P) / 2 := by
      rw [← e]; ring
    rw [one_div, inv_pow, sq, e']
    have : 0 < (p.gamma + 1) * x + (p.gamma - 1) * W.P := by positivity
    have h3 : 0 < x * (p.gamma + 1) + W.P * (p.gamma - 1) := by positivity
    field_simp
  rw [this, Real.sqrt_sq (by positivity)]
  field_simp

theorem wave1_shock_adb (hp : p.Ok) (hi : p.iso = false) (hm : p.mhd = false) (hw : W.Wf p) (h : Gas p W) (hx : W.P < x) :
    Wave1 p W (W.at3 (dC p W x) (W.Vx - pF p W x) x) (W.Vx - sW p W x) (W.Vx - sW p W x) := by
  have hg := hp.gamma hi; have hP := h.P hi; have hd := h.d
  have hx0 : 0 < x := hP.trans hx
  have g1 : 0 < p.gamma - 1 := by linarith
  have hdc := (exactDc_eq hp hi h hx0).2
  obtain ⟨hw0, eN⟩ := sW_sq hp hi h hx0
  have ef := pF_shock hp hi h hx
  have edc : dC p W x * ((p.gamma - 1) * x + (p.gamma + 1) * W.P) = W.d * ((p.gamma + 1) * x + (p.gamma - 1) * W.P) := by
    unfold dC; rw [if_pos hx]
    have : 0 < (p.gamma - 1) * x + (p.gamma + 1) * W.P := by positivity
    field_simp
  have e1 := (hw.2 hm).1
  have e2 := (hw.2 hm).2
  generalize dC p W x = dc at *
  generalize pF p W x = f at *
  generalize sW p W x = w at *
  have hN : 0 < (p.gamma + 1) * x + (p.gamma - 1) * W.P := by positivity
  have hD : 0 < (p.gamma - 1) * x + (p.gamma + 1) * W.P := by positivity
  -- mass
  have em : dc * (w - f) = W.d * w := by
    apply mul_right_cancel₀ hD.ne'
    linear_combination (w - f) * edc + W.d * f * eN - 2 * W.d * w * ef
  -- energy
  have key : x / (p.gamma - 1) * (w - f) - W.P / (p.gamma - 1) * w = 1/2 * (x + W.P) * f := by
    have hg1 := g1.ne'
    field_simp
    linear_combination -2 * w * ef + f * eN
  refine .shock _ hdc ⟨rfl, rfl, rfl, rfl, rfl⟩ ?_ ?_ ?_
  · simp only [press, hi, Bool.false_eq_true, if_false, Prim1D.at3]; exact hx.le
  · show _ < W.Vx - f
    have : 0 < w - f := by
      have : 0 < dc * (w - f) := by rw [em]; positivity
      exact pos_of_mul_pos_right this hdc.le
    linarith
  · simp only [Prim1D.at3, physFlux, consOf, press, energy, Cons1D.map2, hi, hm, Bool.false_eq_true, if_false, e1, e2,
      Cons1D.mk.injEq]
    refine ⟨?_, ?_, ?_, ?_, ?_, ?_, ?_, ?_⟩
    · linear_combination em
    · linear_combination (W.Vx - f) * em - ef
    · linear_combination W.Vy * em
    · linear_combination W.Vz * em
    · linear_combination key + 1/2 * ((W.Vx - f) ^ 2 + W.Vy ^ 2 + W.Vz ^ 2) * em + (-W.Vx + f / 2) * ef
    · ring
    · ring
    · funext n; linear_combination W.r n * em

/-- Sound speed and entropy behind a rarefaction. -/
theorem rare_sound (hp : p.Ok) (hi : p.iso = false) (h : Gas p W) (hx : 0 < x) (hle : x ≤ W.P) (v : ℝ) :
    sound p (W.at3 (dC p W x) v x) = cW p W x ∧ SameEntropy p W (W.at3 (dC p W x) v x) := by
  have hg := hp.gamma hi; have hP := h.P hi; have hd := h.d
  have g0 : 0 < p.gamma := by linarith
  have hq : 0 < x / W.P := div_pos hx hP
  have hdc : dC p W x = W.d * (x / W.P) ^ (1 / p.gamma) := by unfold dC; rw [if_neg (not_lt.mpr hle)]
  constructor
  · unfold cW sound
    simp only [hi, Bool.false_eq_true, if_false, Prim1D.at3]
    have hz := Real.rpow_pos_of_pos hq ((p.gamma - 1) / (2 * p.gamma))
    have h1 := Real.rpow_pos_of_pos hq (1 / p.gamma)
    have : p.gamma * x / dC p W x = p.gamma * W.P / W.d * ((x / W.P) ^ ((p.gamma - 1) / (2 * p.gamma))) ^ 2 := by
      have e : ((x / W.P) ^ ((p.gamma - 1) / (2 * p.gamma))) ^ 2 = x / W.P / (x / W.P) ^ (1 / p.gamma) := by
        rw [← Real.rpow_natCast, ← Real.rpow_mul hq.le]
        nth_rewrite 2 [← Real.rpow_one (x / W.P)]
        rw [← Real.rpow_sub hq]
        congr 1
        field_simp
        push_cast; ring
      rw [e, hdc]; field_simp
    rw [this, Real.sqrt_mul (by positivity), Real.sqrt_sq hz.le]
  · intro _
    simp only [Prim1D.at3]
    rw [hdc, Real.mul_rpow hd.le (Real.rpow_pos_of_pos hq _).le, ← Real.rpow_mul hq.le, one_div, inv_mul_cancel₀ g0.ne', Real.rpow_one]
    field_simp

theorem wave1_fan_adb (hp : p.Ok) (hi : p.iso = false) (h : Gas p W) (hx : 0 < x) (hle : x ≤ W.P) :
    Wave1 p W (W.at3 (dC p W x) (W.Vx - pF p W x) x) (W.Vx - sound p W) (W.Vx - pF p W x - cW p W x) := by
  obtain ⟨h1, h2⟩ := rare_sound hp hi h hx hle (W.Vx - pF p W x)
  have hg := hp.gamma hi
  have hg1 : p.gamma - 1 ≠ 0 := by linarith
  have := Wave1.fan (p := p) (W := W) (W' := W.at3 (dC p W x) (W.Vx - pF p W x) x) (exactDc_eq hp hi h hx).2
    ⟨rfl, rfl, rfl, rfl, rfl⟩ (by simp only [press, hi, Bool.false_eq_true, if_false]; exact hle) h2
    (by
      simp only [rinv, hi, Bool.false_eq_true, if_false]
      rw [h1]
      show W.Vx - pF p W x + _ = _
      unfold pF cW; rw [if_pos hle]
      field_simp; ring)
  rw [h1] at this
  exact this

/-- Front and back of the left-going wave from `W` to pressure `x` and velocity `v`. -/
def fS (p : Phys) (W : Prim1D ns) (x : ℝ) : ℝ := if x > W.P then W.Vx - sW p W x else W.Vx - sound p W
/-- Back of the wave. -/
def fT (p : Phys) (W : Prim1D ns) (x v : ℝ) : ℝ := if x > W.P then W.Vx - sW p W x else v - cW p W x

theorem wave1_adb (hp : p.Ok) (hi : p.iso = false) (hm : p.mhd = false) (hw : W.Wf p) (h : Gas p W) (hx : 0 < x) {v : ℝ}
    (hv : v = W.Vx - pF p W x) : Wave1 p W (W.at3 (dC p W x) v x) (fS p W x) (fT p W x v) := by
  unfold fS fT
  subst hv
  by_cases hc : x > W.P
  · rw [if_pos hc, if_pos hc]; exact wave1_shock_adb hp hi hm hw h hc
  · rw [if_neg hc, if_neg hc]; exact wave1_fan_adb hp hi h hx (not_lt.mp hc)

/-! ## The flux selected -/

/-- The outcome of the test of the left wave. -/
theorem exactLeft_eq (hp : p.Ok) (hi : p.iso = false) (hm : p.mhd = false) (h : State p Bx W U) (hx : 0 < x) {v : ℝ}
    (hv : v = W.Vx - pF p W x) :
    (exactLeft p U W (sound p W) x v = some (some (physFlux p W 0)) ∧ 0 ≤ fS p W x) ∨
    (∃ W0, exactLeft p U W (sound p W) x v = some (some (physFlux p W0 0)) ∧ fS p W x < 0 ∧ 0 ≤ fT p W x v ∧ FanAtZero p W W0) ∨
    (exactLeft p U W (sound p W) x v = some none ∧ fT p W x v < 0) := by
  have hG : Gas p W := ⟨h.d, h.P⟩
  have hg := hp.gamma hi; have hP := h.P hi; have hd := h.d
  have g1 : 0 < p.gamma - 1 := by linarith
  have g3 : 0 < p.gamma + 1 := by linarith
  have ha := sound_pos hp hG
  have fl := exactSideA_eq hp hi hm h
  unfold exactLeft fS fT
  by_cases hc : x > W.P
  · simp only [if_pos hc, exactS_eq hp hi hG hx, Option.bind_eq_bind, Option.bind_some, fl]
    change (_ ∧ 0 ≤ W.Vx - sW p W x) ∨ _
    by_cases hs : W.Vx - sW p W x ≥ 0
    · exact .inl ⟨if_pos hs, hs⟩
    · exact .inr (.inr ⟨if_neg hs, not_le.mp hs⟩)
  · simp only [if_neg hc, exactC_eq hp hi hG hx, Option.bind_eq_bind, Option.bind_some, fl]
    by_cases hs : W.Vx - sound p W ≥ 0
    · exact .inl ⟨if_pos hs, hs⟩
    simp only [if_neg hs]
    by_cases ht : v - cW p W x ≥ 0
    · refine .inr (.inl ?_)
      have ht' : v - sound p W * (x / W.P) ^ ((p.gamma - 1) / (2 * p.gamma)) ≥ 0 := ht
      simp only [if_pos ht', fdiv_pos g3, fdiv_pos g1, fdiv_pos (mul_pos ha g3), Option.bind_some]
      have hcw : 0 < cW p W x := mul_pos ha (Real.rpow_pos_of_pos (div_pos hx hP) _)
      set a := sound p W with hadef
      set y := 2 / (p.gamma + 1) + (p.gamma - 1) / (a * (p.gamma + 1)) * W.Vx with hy
      have hsum : W.Vx + 2 * a / (p.gamma - 1) = v + 2 * cW p W x / (p.gamma - 1) := by
        rw [hv]; unfold pF cW; rw [if_pos (not_lt.mp hc)]; field_simp; ring
      have hy' : y = (W.Vx + 2 * a / (p.gamma - 1)) * ((p.gamma - 1) / (a * (p.gamma + 1))) := by
        rw [hy]; field_simp; ring
      have hyp : 0 < y := by
        rw [hy', hsum]
        have : 0 < 2 * cW p W x / (p.gamma - 1) := by positivity
        have : 0 < v + 2 * cW p W x / (p.gamma - 1) := by linarith
        positivity
      rw [fpow_pos hyp, fpow_pos hyp]
      simp only [Option.bind_some]
      have y1 := Real.rpow_pos_of_pos hyp (2 / (p.gamma - 1))
      have y2 := Real.rpow_pos_of_pos hyp (2 * p.gamma / (p.gamma - 1))
      rw [exactStateA_eq hp hi hm h.wf (mul_pos hd y1)]
      refine ⟨_, rfl, not_le.mp hs, ht, mul_pos hd y1, ⟨rfl, rfl, rfl, rfl, rfl⟩, ?_, ?_⟩
      · intro _
        simp only [Prim1D.at3]
        rw [Real.mul_rpow hd.le y1.le, ← Real.rpow_mul hyp.le]
        rw [show 2 / (p.gamma - 1) * p.gamma = 2 * p.gamma / (p.gamma - 1) by ring]
        ring
      have hv0 : 2 / (p.gamma + 1) * (a + W.Vx * (p.gamma - 1) / 2) = a * y := by
        rw [hy]; field_simp
      have hsnd : sound p (W.at3 (W.d * y ^ (2 / (p.gamma - 1))) (2 / (p.gamma + 1) * (a + W.Vx * (p.gamma - 1) / 2))
          (W.P * y ^ (2 * p.gamma / (p.gamma - 1)))) = a * y := by
        rw [hadef]
        unfold sound
        simp only [hi, Bool.false_eq_true, if_false, Prim1D.at3]
        have : p.gamma * (W.P * y ^ (2 * p.gamma / (p.gamma - 1))) / (W.d * y ^ (2 / (p.gamma - 1))) =
            p.gamma * W.P / W.d * y ^ 2 := by
          have e : y ^ (2 * p.gamma / (p.gamma - 1)) = y ^ 2 * y ^ (2 / (p.gamma - 1)) := by
            rw [← Real.rpow_natCast, ← Real.rpow_add hyp]
            congr 1
            push_cast
            field_simp; ring
          rw [e]; field_simp
        rw [this, Real.sqrt_mul (by positivity), Real.sqrt_sq hyp.le]
      refine ⟨?_, ?_⟩
      · simp only [rinv, hi, Bool.false_eq_true, if_false]
        rw [hsnd]
        show 2 / (p.gamma + 1) * (a + W.Vx * (p.gamma - 1) / 2) + 2 * (a * y) / (p.gamma - 1) = W.Vx + 2 * a / (p.gamma - 1)
        rw [hv0, hy]; field_simp; ring
      · rw [hsnd]; exact hv0
    · refine .inr (.inr ⟨?_, not_le.mp ht⟩)
      have ht' : ¬ v - sound p W * (x / W.P) ^ ((p.gamma - 1) / (2 * p.gamma)) ≥ 0 := ht
      simp only [if_neg ht']; rfl

theorem exactSideA_mirror : exactSideA p U.mirror W.mirror = (exactSideA p U W).map Cons1D.mirrorFlux := by
  unfold exactSideA
  change (fdiv W.P (W.d * (p.gamma - 1))).bind _ = Option.map _ ((fdiv W.P (W.d * (p.gamma - 1))).bind _)
  cases fdiv W.P (W.d * (p.gamma - 1)) with
  | none => rfl
  | some e =>
    simp only [Prim1D.mirror, Cons1D.mirror, Cons1D.mirrorFlux, Option.bind_some, Option.pure_def, Option.map_some, Option.some.injEq,
      Cons1D.mk.injEq]
    refine ⟨trivial, ?_, ?_, ?_, ?_, ?_, ?_, ?_⟩ <;> (try funext n) <;> ring

theorem exactStateA_mirror (d v x : ℝ) : exactStateA p W.mirror d (-v) x = (exactStateA p W d v x).map Cons1D.mirrorFlux := by
  unfold exactStateA
  cases fdiv x (d * (p.gamma - 1)) with
  | none => rfl
  | some e =>
    simp only [Prim1D.mirror, Cons1D.mirrorFlux, Option.bind_eq_bind, Option.bind_some, Option.pure_def, Option.map_some,
      Option.some.injEq, Cons1D.mk.injEq]
    refine ⟨?_, ?_, ?_, ?_, ?_, ?_, ?_, ?_⟩ <;> (try funext n) <;> ring

/-- The test of the right wave is the mirror image of that of the left wave. -/
theorem exactRight_eq (a v : ℝ) :
    exactLeft p U.mirror W.mirror a x (-v) = (exactRight p U W a x v).map (Option.map Cons1D.mirrorFlux) := by
  unfold exactLeft exactRight
  have e1 : exactS p W.mirror x = exactS p W x := rfl
  have e2 : exactC p W.mirror x = exactC p W x := rfl
  have e3 : W.mirror.P = W.P := rfl
  have e4 : W.mirror.Vx = -W.Vx := rfl
  have e5 : W.mirror.d = W.d := rfl
  rw [e1, e2, e3, e4, e5]
  by_cases hc : x > W.P
  · simp only [if_pos hc]
    cases exactS p W x with
    | none => rfl
    | some S =>
      simp only [Option.bind_eq_bind, Option.bind_some, Option.pure_def]
      by_cases hs : W.Vx + a * S ≤ 0
      · have hs' : -W.Vx - a * S ≥ 0 := by linarith
        simp only [if_pos hs, if_pos hs', exactSideA_mirror]
        cases exactSideA p U W <;> rfl
      · have hs' : ¬ -W.Vx - a * S ≥ 0 := by intro h; apply hs; linarith
        simp only [if_neg hs, if_neg hs']; rfl
  · simp only [if_neg hc]
    cases exactC p W x with
    | none => rfl
    | some C =>
      simp only [Option.bind_eq_bind, Option.bind_some, Option.pure_def]
      by_cases hs : W.Vx + a ≤ 0
      · have hs' : -W.Vx - a ≥ 0 := by linarith
        simp only [if_pos hs, if_pos hs', exactSideA_mirror]
        cases exactSideA p U W <;> rfl
      have hs' : ¬ -W.Vx - a ≥ 0 := by intro h; apply hs; linarith
      simp only [if_neg hs, if_neg hs']
      by_cases ht : v + a * C ≤ 0
      · have ht' : -v - a * C ≥ 0 := by linarith
        simp only [if_pos ht, if_pos ht']
        cases fdiv 2 (p.gamma + 1) with
        | none => rfl
        | some t1 =>
          simp only [Option.bind_some]
          cases fdiv (p.gamma - 1) (a * (p.gamma + 1)) with
          | none => rfl
          | some t2 =>
            simp only [Option.bind_some]
            rw [show t1 + t2 * -W.Vx = t1 - t2 * W.Vx by ring]
            cases fdiv 2 (p.gamma - 1) with
            | none => rfl
            | some z =>
              simp only [Option.bind_some]
              cases fpow (t1 - t2 * W.Vx) z with
              | none => rfl
              | some y =>
                simp only [Option.bind_some]
                cases fdiv (2 * p.gamma) (p.gamma - 1) with
                | none => rfl
                | some z' =>
                  simp only [Option.bind_some]
                  cases fpow (t1 - t2 * W.Vx) z' with
                  | none => rfl
                  | some y' =>
                    simp only [Option.bind_some]
                    rw [show t1 * (a + -W.Vx * (p.gamma - 1) / 2) = -(t1 * (-a + W.Vx * (p.gamma - 1) / 2)) by ring,
                      exactStateA_mirror]
                    cases exactStateA p W (W.d * y) (t1 * (-a + W.Vx * (p.gamma - 1) / 2)) (W.P * y') <;> rfl
      · have ht' : ¬ -v - a * C ≥ 0 := by intro h; apply ht; linarith
        simp only [if_neg ht, if_neg ht']; rfl

@[simp] theorem mirrorFlux_mirrorFlux (F : Cons1D ns) : F.mirrorFlux.mirrorFlux = F := by simp [Cons1D.mirrorFlux]

/-- Mismatch of the velocities on the two sides of the contact when its pressure is taken to be `x`. -/
def contactRes (p : Phys) (Wl Wr : Prim1D ns) (x : ℝ) : ℝ := pF p Wl x + pF p Wr x + (Wr.Vx - Wl.Vx)

/-- Velocity of the contact as computed. -/
def vC (p : Phys) (Wl Wr : Prim1D ns) (x : ℝ) : ℝ := 1/2 * (Wl.Vx + Wr.Vx) + 1/2 * (pF p Wr x - pF p Wl x)

/-- The selection of the flux, once the pressure at the contact is known. -/
def exactPick (p : Phys) (Ul Ur : Cons1D ns) (Wl Wr : Prim1D ns) (x : ℝ) : Option (Cons1D ns) := do
  match ← exactLeft p Ul Wl (sound p Wl) x (vC p Wl Wr x) with
  | some F => return F
  | none =>
    match ← exactRight p Ur Wr (sound p Wr) x (vC p Wl Wr x) with
    | some F => return F
    | none => if vC p Wl Wr x ≥ 0 then exactStateA p Wl (dC p Wl x) (vC p Wl Wr x) x
              else exactStateA p Wr (dC p Wr x) (vC p Wl Wr x) x

theorem exactA_eq (hp : p.Ok) (hi : p.iso = false) (hl : State p Bx Wl Ul) (hr : State p Bx Wr Ur)
    (hpc : getPC p Wl Wr = some x) (hx : 0 < x) : exactA p Ul Ur Wl Wr = exactPick p Ul Ur Wl Wr x := by
  have gl : Gas p Wl := ⟨hl.d, hl.P⟩
  have gr : Gas p Wr := ⟨hr.d, hr.P⟩
  obtain ⟨dl, dlp⟩ := exactDc_eq hp hi gl hx
  obtain ⟨dr, drp⟩ := exactDc_eq hp hi gr hx
  have hul : 0 < Ul.d := by rw [hl.eq hp]; exact hl.d
  have hur : 0 < Ur.d := by rw [hr.eq hp]; exact hr.d
  unfold exactA
  simp only [exactA_a_eq hp hi gl, exactA_a_eq hp hi gr, hul, hur, not_true_eq_false, or_self, if_false, hpc,
    pFunc_eq hp hi gl hx, pFunc_eq hp hi gr hx, dl, dr, not_lt.mpr dlp.le, not_lt.mpr drp.le, Option.bind_eq_bind, Option.bind_some,
    Option.pure_def]
  rfl

/-- If the pressure is a root, the flux is that of the solution of the Riemann problem. -/
theorem exactPick_of_root (hp : p.Ok) (hi : p.iso = false) (hm : p.mhd = false) (hl : State p Bx Wl Ul) (hr : State p Bx Wr Ur)
    (hx : 0 < x) (hres : contactRes p Wl Wr x = 0) :
    ∃ W0, exactPick p Ul Ur Wl Wr x = some (physFlux p W0 0) ∧
      Solves p Wl Wr W0 (Wl.at3 (dC p Wl x) (vC p Wl Wr x) x) (Wr.at3 (dC p Wr x) (vC p Wl Wr x) x)
        (fS p Wl x) (fT p Wl x (vC p Wl Wr x)) (-fT p Wr.mirror x (-vC p Wl Wr x)) (-fS p Wr.mirror x) := by
  have gl : Gas p Wl := ⟨hl.d, hl.P⟩
  have gr : Gas p Wr := ⟨hr.d, hr.P⟩
  have pm : pF p Wr.mirror x = pF p Wr x := rfl
  have vl : vC p Wl Wr x = Wl.Vx - pF p Wl x := by unfold vC; unfold contactRes at hres; linarith
  have vr : -vC p Wl Wr x = Wr.mirror.Vx - pF p Wr.mirror x := by
    rw [pm]; show _ = -Wr.Vx - _; unfold vC; unfold contactRes at hres; linarith
  have w1 := wave1_adb hp hi hm hl.wf gl hx vl
  have w2 := wave1_adb hp hi hm hr.mirror.wf gr.mirror hx vr
  have w2' : Wave2 p Wr (Wr.at3 (dC p Wr x) (vC p Wl Wr x) x) (-fS p Wr.mirror x) (-fT p Wr.mirror x (-vC p Wl Wr x)) := by
    unfold Wave2; rw [neg_neg, neg_neg]; exact w2
  obtain ⟨-, dlp⟩ := exactDc_eq hp hi gl hx
  obtain ⟨-, drp⟩ := exactDc_eq hp hi gr hx
  suffices key : ∃ F W0, exactPick p Ul Ur Wl Wr x = some F ∧ F = physFlux p W0 0 ∧
      AtZero p Wl (Wl.at3 (dC p Wl x) (vC p Wl Wr x) x) (Wr.at3 (dC p Wr x) (vC p Wl Wr x) x) Wr
        (fS p Wl x) (fT p Wl x (vC p Wl Wr x)) (-fT p Wr.mirror x (-vC p Wl Wr x)) (-fS p Wr.mirror x) W0 by
    obtain ⟨F, W0, hF, e, h⟩ := key
    exact ⟨W0, by rw [hF, e], w1, w2', ⟨rfl, by simp [press, hi, Prim1D.at3]⟩, h⟩
  unfold exactPick
  rcases exactLeft_eq hp hi hm hl hx vl with ⟨h1, h2⟩ | ⟨W0, h1, h2, h3, h4⟩ | ⟨h1, h2⟩
  · rw [h1]; exact ⟨_, Wl, rfl, rfl, .left h2⟩
  · rw [h1]; exact ⟨_, W0, rfl, rfl, .fanL _ h2 h3 h4⟩
  rw [h1]
  simp only [Option.bind_eq_bind, Option.bind_some]
  have hR := exactRight_eq (p := p) (U := Ur) (W := Wr) (x := x) (sound p Wr) (vC p Wl Wr x)
  rcases exactLeft_eq hp hi hm hr.mirror hx vr with ⟨h1', h2'⟩ | ⟨W0, h1', h2', h3', h4'⟩ | ⟨h1', h2'⟩
  · have h1' := hR.symm.trans h1'
    obtain ⟨o, ho, ho'⟩ := Option.map_eq_some_iff.mp h1'
    obtain ⟨F, hF, hF'⟩ := Option.map_eq_some_iff.mp ho'
    rw [ho, hF]
    refine ⟨_, Wr, rfl, ?_, .right (by linarith)⟩
    rw [← mirrorFlux_mirrorFlux F, hF']
    have := physFlux_mirror p Wr 0
    rw [neg_zero] at this
    rw [this, mirrorFlux_mirrorFlux]
  · have h1' := hR.symm.trans h1'
    obtain ⟨o, ho, ho'⟩ := Option.map_eq_some_iff.mp h1'
    obtain ⟨F, hF, hF'⟩ := Option.map_eq_some_iff.mp ho'
    rw [ho, hF]
    refine ⟨_, W0.mirror, rfl, ?_, .fanR _ (by linarith) (by linarith) (by rw [mirror_mirror]; exact h4')⟩
    rw [← mirrorFlux_mirrorFlux F, hF']
    have := physFlux_mirror p W0 0
    rw [neg_zero] at this
    rw [this]
  · have h1' := hR.symm.trans h1'
    obtain ⟨o, ho, ho'⟩ := Option.map_eq_some_iff.mp h1'
    have ho'' : o = none := Option.map_eq_none_iff.mp ho'
    rw [ho, ho'']
    simp only [Option.bind_some]
    by_cases hv : vC p Wl Wr x ≥ 0
    · rw [if_pos hv, exactStateA_eq hp hi hm hl.wf dlp]
      exact ⟨_, _, rfl, rfl, .midL h2 hv⟩
    · rw [if_neg hv, exactStateA_eq hp hi hm hr.wf drp]
      exact ⟨_, _, rfl, rfl, .midR (not_le.mp hv) (by linarith)⟩

end
end Athena.Hydro
