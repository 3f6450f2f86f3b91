import Verif.Rel.HllcCone

/-!
Properties of the relativistic HLLC solver and of the predictor that uses it.
-/
namespace Athena.Rel

/-! ## Specification -/

/-- The flux of relativistic hydrodynamics: mass `ρ γ v_x`, momentum `w γ² v_x v_i + P δ_xi`,
energy `w γ² v_x`, with `w = ρ + Γ/(Γ-1) P` and `γ² = 1/(1-v²)`. -/
noncomputable def physFlux (g : ℝ) (W : Prim) : Cons :=
  let γ := 1 / √(1 - (W.Vx ^ 2 + W.Vy ^ 2 + W.Vz ^ 2))
  let w := W.d + g / (g - 1) * W.P
  ⟨W.d * γ * W.Vx, w * γ ^ 2 * W.Vx * W.Vx + W.P, w * γ ^ 2 * W.Vx * W.Vy,
    w * γ ^ 2 * W.Vx * W.Vz, w * γ ^ 2 * W.Vx⟩

/-- The flux carried by matter in the state `U` that moves with speed `v` under pressure `p`. -/
def gasFlux (U : Cons) (v p : ℝ) : Cons :=
  ⟨U.d * v, U.Mx * v + p, U.My * v, U.Mz * v, U.E * v + p * v⟩

/-- Rankine-Hugoniot: the discontinuity between `U` and `U'` moves with speed `s`. -/
structure Jump (s : ℝ) (U F U' F' : Cons) : Prop where
  d : F'.d - F.d = s * (U'.d - U.d)
  Mx : F'.Mx - F.Mx = s * (U'.Mx - U.Mx)
  My : F'.My - F.My = s * (U'.My - U.My)
  Mz : F'.Mz - F.Mz = s * (U'.Mz - U.Mz)
  E : F'.E - F.E = s * (U'.E - U.E)

/-- Reflection in x of a primitive state. -/
def Prim.mir (W : Prim) : Prim := ⟨W.d, -W.Vx, W.Vy, W.Vz, W.P⟩

/-- Reflection in x of a flux: all components change sign but the momentum along x. -/
def mirFlux (F : Cons) : Cons := ⟨-F.d, F.Mx, -F.My, -F.Mz, -F.E⟩

/-! ## Wave speeds -/

/-- **C104, wave speeds.**  For every gas state the solver's two speeds are exactly the
characteristic speeds, the roots of `γ² (λ - v_x)² (1 - c²) = c² (1 - λ²)` with
`c² = Γ P / w`; one lies below, one above the speed of the gas, both below that of light. -/
theorem sr_char_speeds {g : ℝ} (hg : 1 < g) (hg2 : g ≤ 2) (W : Prim) (hW : W.Warm) :
    let s := charSpeeds g W
    (-1 < s.lm) ∧ s.lm < W.Vx ∧ W.Vx < s.lp ∧ s.lp < 1 ∧
    ∀ x : ℝ, (1 / (1 - W.vsq) * (x - W.Vx) ^ 2 * (1 - W.csq g) = W.csq g * (1 - x ^ 2)) ↔
      (x = s.lm ∨ x = s.lp) := by
  intro s
  obtain ⟨a1, a2, a3⟩ := lm_spec hg hg2 hW
  obtain ⟨b1, b2, b3⟩ := lp_spec hg hg2 hW
  refine ⟨a1, a2, b1, b2, ?_⟩
  intro x
  have hs := sig_pos hg hg2 hW
  have hc := csq_lt hg hW
  have ht : 0 < 1 - W.vsq := by linarith [hW.v]
  have hc1 : 0 < 1 - W.csq g := by linarith
  have e : (1 / (1 - W.vsq) * (x - W.Vx) ^ 2 * (1 - W.csq g) = W.csq g * (1 - x ^ 2)) ↔
      (x - W.Vx) ^ 2 = W.sig g * (1 - x ^ 2) := by
    unfold Prim.sig
    constructor
    · intro h
      field_simp at h ⊢
      linarith
    · intro h
      rw [h]
      field_simp
  rw [e]
  constructor
  · intro h
    have h1 : (x - s.lm) * ((1 + W.sig g) * (x + s.lm) - 2 * W.Vx) = 0 := by
      linear_combination h - a3
    rcases mul_eq_zero.1 h1 with h2 | h2
    · left; linarith
    · right
      have h3 : (s.lp - s.lm) * ((1 + W.sig g) * (s.lp + s.lm) - 2 * W.Vx) = 0 := by
        linear_combination b3 - a3
      have h4 := (mul_eq_zero.1 h3).resolve_left (by linarith)
      have h5 : (1 + W.sig g) * (x - s.lp) = 0 := by linear_combination h2 - h4
      have := (mul_eq_zero.1 h5).resolve_left (by linarith)
      linarith
  · rintro (rfl | rfl)
    · exact a3
    · exact b3

/-- For flow along x the speeds are the relativistic sum and difference of the speeds of gas
and sound. -/
theorem sr_char_speeds_1d {g : ℝ} (hg : 1 < g) (hg2 : g ≤ 2) (W : Prim) (hW : W.Warm)
    (hy : W.Vy = 0) (hz : W.Vz = 0) : let c := √(g * W.P / (W.d + g / (g - 1) * W.P))
    (charSpeeds g W).lm = (W.Vx - c) / (1 - W.Vx * c) ∧
    (charSpeeds g W).lp = (W.Vx + c) / (1 + W.Vx * c) := by
  intro c
  obtain ⟨-, h1, h2, -, h⟩ := sr_char_speeds hg hg2 W hW
  have hc2 : c ^ 2 = W.csq g := Real.sq_sqrt (csq_pos hg hW).le
  have hc0 : 0 < c := Real.sqrt_pos.2 (csq_pos hg hW)
  have hc1 : c < 1 := by
    have := csq_lt hg hW
    nlinarith
  obtain ⟨v1, v2⟩ := vx_lt hW.v
  have hv : W.vsq = W.Vx ^ 2 := by unfold Prim.vsq; rw [hy, hz]; ring
  have hcv : |W.Vx * c| < 1 := by
    rw [abs_mul, abs_of_pos hc0]
    have : |W.Vx| < 1 := abs_lt.2 ⟨v1, v2⟩
    nlinarith [abs_nonneg W.Vx]
  obtain ⟨p1, p2⟩ := abs_lt.1 hcv
  have hs : 0 < 1 - W.Vx ^ 2 := by nlinarith
  have n1 : 0 < 1 - W.Vx * c := by linarith
  have n2 : 0 < 1 + W.Vx * c := by linarith
  have r1 : (W.Vx - c) / (1 - W.Vx * c) < W.Vx := by
    rw [div_lt_iff₀ n1]; nlinarith
  have r2 : W.Vx < (W.Vx + c) / (1 + W.Vx * c) := by
    rw [lt_div_iff₀ n2]; nlinarith
  have q1 := (h ((W.Vx - c) / (1 - W.Vx * c))).1 (by
    rw [hv, ← hc2]
    field_simp
    ring)
  have q2 := (h ((W.Vx + c) / (1 + W.Vx * c))).1 (by
    rw [hv, ← hc2]
    field_simp
    ring)
  constructor
  · rcases q1 with q | q
    · exact q.symm
    · linarith
  · rcases q2 with q | q
    · linarith
    · exact q.symm

/-! ## The fan -/

theorem fluxSide_phys (g : ℝ) {W : Prim} (hW : W.vsq < 1) :
    fluxSide (primToCons g W) W = physFlux g W := by
  have ht : 0 < 1 - W.vsq := by linarith
  have e0 : W.Vx ^ 2 + W.Vy ^ 2 + W.Vz ^ 2 = W.vsq := rfl
  have e1 : (1 / √(1 - W.vsq)) ^ 2 = 1 / (1 - W.vsq) := by
    rw [div_pow, Real.sq_sqrt ht.le, one_pow]
  have e2 : √(1 / (1 - W.vsq)) = 1 / √(1 - W.vsq) := by
    rw [Real.sqrt_div zero_le_one, Real.sqrt_one]
  unfold fluxSide physFlux
  simp only [primToCons_eq, e0, e1, e2, Prim.enth]
  ext <;> simp only <;> ring

theorem fan_of {g : ℝ} (hg : 1 < g) (hg2 : g ≤ 2) {Wl Wr : Prim} (hl : Wl.Warm) (hr : Wr.Warm) :
    Fan g (fanSpeeds g Wl Wr).lm (fanSpeeds g Wl Wr).lp Wl Wr := by
  obtain ⟨a, b, c, d⟩ := fan_spec hg hg2 hl hr
  exact ⟨a, b, c, d⟩

/-- The state left of the contact. -/
noncomputable def starL (g ll lr : ℝ) (Wl Wr : Prim) : Cons :=
  starState ll (lamS g ll lr Wl Wr) (prsS g ll lr Wl Wr) (primToCons g Wl) Wl

/-- The state right of the contact. -/
noncomputable def starR (g ll lr : ℝ) (Wl Wr : Prim) : Cons :=
  starState lr (lamS g ll lr Wl Wr) (prsS g ll lr Wl Wr) (primToCons g Wr) Wr

/-- The flux of the star region is that of the star state moving with the contact. -/
theorem starFlux_gas (g k s p : ℝ) (hks : k - s ≠ 0) (W : Prim) :
    starFlux k (starState k s p (primToCons g W) W) (primToCons g W)
      (fluxSide (primToCons g W) W) = gasFlux (starState k s p (primToCons g W) W) s p := by
  have e4 : (primToCons g W).Mx = ((primToCons g W).E + W.P) * W.Vx := by
    rw [primToCons_eq]; ring
  unfold starFlux starState gasFlux fluxSide
  generalize primToCons g W = U at *
  ext
  · simp only; field_simp; ring
  · simp only; field_simp; ring
  · simp only; field_simp; ring
  · simp only; field_simp; ring
  · simp only
    rw [e4]
    field_simp
    ring

section fan
variable {g : ℝ} (hg : 1 < g) (hg2 : g ≤ 2) {Wl Wr : Prim} (hl : Wl.Warm) (hr : Wr.Warm)
  {ll lr : ℝ} (hf : Fan g ll lr Wl Wr)
include hg hg2 hl hr hf

theorem starL_mom : (starL g ll lr Wl Wr).Mx =
    ((starL g ll lr Wl Wr).E + prsS g ll lr Wl Wr) * lamS g ll lr Wl Wr := by
  obtain ⟨-, h1, h2, h3, h4⟩ := contact_spec hg hg2 hl hr hf
  unfold starL
  rw [starL_eq hg hg2 hl hr hf]
  unfold Cons.smul
  simp only
  generalize lamS g ll lr Wl Wr = s at *
  generalize prsS g ll lr Wl Wr = p at *
  have : s - ll ≠ 0 := by linarith
  field_simp
  linear_combination h3

theorem starR_mom : (starR g ll lr Wl Wr).Mx =
    ((starR g ll lr Wl Wr).E + prsS g ll lr Wl Wr) * lamS g ll lr Wl Wr := by
  obtain ⟨-, h1, h2, h3, h4⟩ := contact_spec hg hg2 hl hr hf
  unfold starR
  rw [starR_eq hg hg2 hl hr hf]
  unfold Cons.smul
  simp only
  generalize lamS g ll lr Wl Wr = s at *
  generalize prsS g ll lr Wl Wr = p at *
  have : lr - s ≠ 0 := by linarith
  field_simp
  linear_combination -h4

end fan

/-- The solver in terms of the fan. -/
theorem hllc_pick {g : ℝ} (hg : 1 < g) (hg2 : g ≤ 2) {Wl Wr : Prim} (hl : Wl.Warm)
    (hr : Wr.Warm) :
    let ll := (fanSpeeds g Wl Wr).lm
    let lr := (fanSpeeds g Wl Wr).lp
    let s := lamS g ll lr Wl Wr
    let p := prsS g ll lr Wl Wr
    hllcSR g (primToCons g Wl) (primToCons g Wr) Wl Wr =
      if 0 ≤ ll then physFlux g Wl
      else if 0 ≤ s then gasFlux (starL g ll lr Wl Wr) s p
      else if 0 ≤ lr then gasFlux (starR g ll lr Wl Wr) s p
      else physFlux g Wr := by
  intro ll lr s p
  obtain ⟨-, h1, h2, -⟩ := contact_spec hg hg2 hl hr (fan_of hg hg2 hl hr)
  have eL := starFlux_gas g ll s p (by simp only [ll, s]; linarith) Wl
  have eR := starFlux_gas g lr s p (by simp only [lr, s]; linarith) Wr
  unfold starL starR
  rw [← fluxSide_phys g hl.v, ← fluxSide_phys g hr.v]
  rw [show (lamS g ll lr Wl Wr) = s from rfl, show (prsS g ll lr Wl Wr) = p from rfl,
    ← eL, ← eR]
  rfl

/-- **C105.**  Between any two gas states the solver's fan consists of three waves, in order:
`λ_l < λ_s < λ_r`, all slower than light; the two states beside the contact are physical (mass,
and energy above that of cold matter), share speed `λ_s` and pressure `p` (their flux is that of
matter moving with `λ_s` under `p`, and their momentum is `(E + p) λ_s`); each wave satisfies
the jump conditions; the flux returned is that of the region containing the interface. -/
theorem sr_hllc_fan {g : ℝ} (hg : 1 < g) (hg2 : g ≤ 2) (Wl Wr : Prim) (hl : Wl.Warm)
    (hr : Wr.Warm) : ∃ ls p : ℝ, ∃ Usl Usr : Cons,
    let ll := (fanSpeeds g Wl Wr).lm
    let lr := (fanSpeeds g Wl Wr).lp
    (-1 < ll ∧ ll < ls ∧ ls < lr ∧ lr < 1) ∧ Usl.Warm ∧ Usr.Warm ∧
    Usl.Mx = (Usl.E + p) * ls ∧ Usr.Mx = (Usr.E + p) * ls ∧
    Jump ll (primToCons g Wl) (physFlux g Wl) Usl (gasFlux Usl ls p) ∧
    Jump ls Usl (gasFlux Usl ls p) Usr (gasFlux Usr ls p) ∧
    Jump lr Usr (gasFlux Usr ls p) (primToCons g Wr) (physFlux g Wr) ∧
    hllcSR g (primToCons g Wl) (primToCons g Wr) Wl Wr =
      if 0 ≤ ll then physFlux g Wl
      else if 0 ≤ ls then gasFlux Usl ls p
      else if 0 ≤ lr then gasFlux Usr ls p
      else physFlux g Wr := by
  have hf := fan_of hg hg2 hl hr
  obtain ⟨-, h1, h2, -⟩ := contact_spec hg hg2 hl hr hf
  refine ⟨_, _, _, _, ⟨hf.bl.gt, h1, h2, hf.al.lt⟩, starL_warm hg hg2 hl hr hf,
    starR_warm hg hg2 hl hr hf, starL_mom hg hg2 hl hr hf, starR_mom hg hg2 hl hr hf, ?_, ?_, ?_,
    hllc_pick hg hg2 hl hr⟩
  · have e := starFlux_gas g _ _ (prsS g (fanSpeeds g Wl Wr).lm (fanSpeeds g Wl Wr).lp Wl Wr)
      (by linarith : (fanSpeeds g Wl Wr).lm
        - lamS g (fanSpeeds g Wl Wr).lm (fanSpeeds g Wl Wr).lp Wl Wr ≠ 0) Wl
    rw [← e, ← fluxSide_phys g hl.v]
    unfold starFlux
    constructor <;> simp only <;> ring
  · unfold gasFlux
    constructor <;> simp only <;> ring
  · have e := starFlux_gas g _ _ (prsS g (fanSpeeds g Wl Wr).lm (fanSpeeds g Wl Wr).lp Wl Wr)
      (by linarith : (fanSpeeds g Wl Wr).lp
        - lamS g (fanSpeeds g Wl Wr).lm (fanSpeeds g Wl Wr).lp Wl Wr ≠ 0) Wr
    rw [← e, ← fluxSide_phys g hr.v]
    unfold starFlux
    constructor <;> simp only <;> ring

end Athena.Rel
