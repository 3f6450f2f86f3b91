import Verif.Rel.Hllc

/-!
Lemmas about the relativistic HLLC solver: wave speeds, the cone of physical conserved states,
the contact.
-/
namespace Athena.Rel

/-- A primitive state of a gas with positive pressure. -/
structure Prim.Warm (W : Prim) : Prop where
  d : 0 < W.d
  P : 0 < W.P
  v : W.vsq < 1

theorem Prim.Warm.physical {W : Prim} (h : W.Warm) : W.Physical := ⟨h.d, h.P.le, h.v⟩

/-- A conserved state of a gas with positive pressure: mass, and more energy than cold matter
with this mass and momentum. -/
structure Cons.Warm (U : Cons) : Prop where
  d : 0 < U.d
  E : 0 < U.E
  lt : U.msq + U.d ^ 2 < U.E ^ 2

/-- Squared sound speed. -/
noncomputable def Prim.csq (g : ℝ) (W : Prim) : ℝ := g * W.P / W.enth g

/-- `c² (1 - v²) / (1 - c²)`. -/
noncomputable def Prim.sig (g : ℝ) (W : Prim) : ℝ :=
  W.csq g * (1 - W.vsq) / (1 - W.csq g)

section one
variable {g : ℝ} (hg : 1 < g) (hg2 : g ≤ 2) {W : Prim} (hW : W.Warm)
include hg hW

theorem enth_pos : 0 < W.enth g := by
  have := enth_ge hg hW.physical
  linarith [hW.d]

theorem csq_pos : 0 < W.csq g := by
  have := enth_pos hg hW
  have := hW.P
  unfold Prim.csq
  have : 0 < g := by linarith
  positivity

theorem csq_lt : W.csq g < g - 1 := by
  have h := enth_pos hg hW
  have h1 : 0 < g - 1 := by linarith
  unfold Prim.csq
  rw [div_lt_iff₀ h]
  have : (g - 1) * W.enth g = (g - 1) * W.d + g * W.P := by
    unfold Prim.enth; field_simp
  rw [this]
  nlinarith [mul_pos h1 hW.d]

include hg2 in
theorem sig_pos : 0 < W.sig g := by
  have := csq_pos hg hW
  have := csq_lt hg hW
  have := hW.v
  exact div_pos (mul_pos (by assumption) (by linarith)) (by linarith)

theorem rhC_eq : rhC g W = W.enth g := by
  unfold rhC Prim.enth
  ring

theorem cssqC_eq : cssqC g W = W.csq g := by
  unfold cssqC
  rw [rhC_eq hg hW]
  exact Real.mul_self_sqrt (csq_pos hg hW).le

theorem ssC_eq : ssC g W = W.sig g := by
  have h : W.Vx * W.Vx + W.Vy * W.Vy + W.Vz * W.Vz = W.vsq := by unfold Prim.vsq; ring
  unfold ssC Prim.sig
  simp only [h, cssqC_eq hg hW]
  have := hW.v
  have h1 : 1 - W.vsq ≠ 0 := by linarith
  rw [show (1 / (1 - W.vsq)) * (1 - W.csq g) = (1 - W.csq g) / (1 - W.vsq) by ring,
    div_div_eq_mul_div]

end one

/-- A quadratic `(1+s) x² - 2 V x + V² - s` that opens upwards. -/
theorem radC_sq {g : ℝ} (hg : 1 < g) (hg2 : g ≤ 2) {W : Prim} (hW : W.Warm) :
    0 < radC g W ∧ radC g W ^ 2 = W.sig g * (1 - W.Vx ^ 2 + W.sig g) := by
  have hs := sig_pos hg hg2 hW
  have hv : W.Vx ^ 2 ≤ W.vsq := by
    unfold Prim.vsq; nlinarith [sq_nonneg W.Vy, sq_nonneg W.Vz]
  have := hW.v
  have h : 0 < W.sig g * (1 - W.Vx * W.Vx + W.sig g) := mul_pos hs (by nlinarith)
  unfold radC
  rw [ssC_eq hg hW]
  refine ⟨Real.sqrt_pos.2 h, ?_⟩
  rw [Real.sq_sqrt h.le]
  ring

theorem vx_lt {W : Prim} (hv : W.vsq < 1) : -1 < W.Vx ∧ W.Vx < 1 := by
  have : W.Vx ^ 2 ≤ W.vsq := by
    unfold Prim.vsq; nlinarith [sq_nonneg W.Vy, sq_nonneg W.Vz]
  constructor <;> nlinarith

/-- `x` is at or beyond the fastest signal of `W` to the right. -/
structure Beyond (g : ℝ) (W : Prim) (x : ℝ) : Prop where
  gt : W.Vx < x
  lt : x < 1
  sig : W.sig g * (1 - x ^ 2) ≤ (x - W.Vx) ^ 2

/-- `x` is at or beyond the fastest signal of `W` to the left. -/
structure Before (g : ℝ) (W : Prim) (x : ℝ) : Prop where
  gt : -1 < x
  lt : x < W.Vx
  sig : W.sig g * (1 - x ^ 2) ≤ (x - W.Vx) ^ 2

section speeds
variable {g : ℝ} (hg : 1 < g) (hg2 : g ≤ 2) {W : Prim} (hW : W.Warm)
include hg hg2 hW

theorem lp_spec : W.Vx < (charSpeeds g W).lp ∧ (charSpeeds g W).lp < 1 ∧
    ((charSpeeds g W).lp - W.Vx) ^ 2 = W.sig g * (1 - (charSpeeds g W).lp ^ 2) := by
  have hs := sig_pos hg hg2 hW
  obtain ⟨hr, hr2⟩ := radC_sq hg hg2 hW
  obtain ⟨hv1, hv2⟩ := vx_lt hW.v
  have h1 : 0 < 1 + W.sig g := by linarith
  have e : (charSpeeds g W).lp = (W.Vx + radC g W) / (1 + W.sig g) := by
    unfold charSpeeds; rw [ssC_eq hg hW]
  rw [e]
  generalize radC g W = r at *
  generalize W.sig g = s at *
  refine ⟨?_, ?_, ?_⟩
  · rw [lt_div_iff₀ h1]
    nlinarith [mul_pos hs (by nlinarith : (0 : ℝ) < 1 - W.Vx ^ 2)]
  · rw [div_lt_one h1]
    by_contra h
    push Not at h
    have h3 : (1 + s - W.Vx) ^ 2 ≤ r ^ 2 := pow_le_pow_left₀ (by linarith) (by linarith) 2
    nlinarith [mul_pos h1 (pow_pos (by linarith : (0 : ℝ) < 1 - W.Vx) 2)]
  · field_simp
    linear_combination (1 + s) * hr2

theorem lm_spec : -1 < (charSpeeds g W).lm ∧ (charSpeeds g W).lm < W.Vx ∧
    ((charSpeeds g W).lm - W.Vx) ^ 2 = W.sig g * (1 - (charSpeeds g W).lm ^ 2) := by
  have hs := sig_pos hg hg2 hW
  obtain ⟨hr, hr2⟩ := radC_sq hg hg2 hW
  obtain ⟨hv1, hv2⟩ := vx_lt hW.v
  have h1 : 0 < 1 + W.sig g := by linarith
  have e : (charSpeeds g W).lm = (W.Vx - radC g W) / (1 + W.sig g) := by
    unfold charSpeeds; rw [ssC_eq hg hW]
  rw [e]
  generalize radC g W = r at *
  generalize W.sig g = s at *
  refine ⟨?_, ?_, ?_⟩
  · rw [lt_div_iff₀ h1]
    by_contra h
    push Not at h
    have h3 : (1 + s + W.Vx) ^ 2 ≤ r ^ 2 := pow_le_pow_left₀ (by linarith) (by linarith) 2
    nlinarith [mul_pos h1 (pow_pos (by linarith : (0 : ℝ) < 1 + W.Vx) 2)]
  · rw [div_lt_iff₀ h1]
    nlinarith [mul_pos hs (by nlinarith : (0 : ℝ) < 1 - W.Vx ^ 2)]
  · field_simp
    linear_combination (1 + s) * hr2

theorem beyond_of_le {x : ℝ} (h : (charSpeeds g W).lp ≤ x) (h1 : x < 1) : Beyond g W x := by
  obtain ⟨a, b, c⟩ := lp_spec hg hg2 hW
  have hs := sig_pos hg hg2 hW
  obtain ⟨hr, -⟩ := radC_sq hg hg2 hW
  have e : (1 + W.sig g) * (charSpeeds g W).lp = W.Vx + radC g W := by
    unfold charSpeeds; rw [ssC_eq hg hW]
    exact mul_div_cancel₀ _ (by linarith)
  refine ⟨by linarith, h1, ?_⟩
  generalize (charSpeeds g W).lp = y at *
  -- the vertex `V/(1+s)` of the quadratic lies left of the larger root
  have : (1 + W.sig g) * y ≤ (1 + W.sig g) * x := mul_le_mul_of_nonneg_left h (by linarith)
  have key : 0 ≤ (x - y) * ((1 + W.sig g) * (x + y) - 2 * W.Vx) :=
    mul_nonneg (by linarith) (by nlinarith)
  nlinarith

theorem before_of_le {x : ℝ} (h : x ≤ (charSpeeds g W).lm) (h1 : -1 < x) : Before g W x := by
  obtain ⟨a, b, c⟩ := lm_spec hg hg2 hW
  have hs := sig_pos hg hg2 hW
  obtain ⟨hr, -⟩ := radC_sq hg hg2 hW
  have e : (1 + W.sig g) * (charSpeeds g W).lm = W.Vx - radC g W := by
    unfold charSpeeds; rw [ssC_eq hg hW]
    exact mul_div_cancel₀ _ (by linarith)
  refine ⟨h1, by linarith, ?_⟩
  generalize (charSpeeds g W).lm = y at *
  have : (1 + W.sig g) * x ≤ (1 + W.sig g) * y := mul_le_mul_of_nonneg_left h (by linarith)
  have key : 0 ≤ (y - x) * (2 * W.Vx - (1 + W.sig g) * (x + y)) :=
    mul_nonneg (by linarith) (by nlinarith)
  nlinarith

end speeds

section fan
variable {g : ℝ} (hg : 1 < g) (hg2 : g ≤ 2) {Wl Wr : Prim} (hl : Wl.Warm) (hr : Wr.Warm)
include hg hg2 hl hr

/-- The outer waves of the fan are at or beyond the fastest signals of both states. -/
theorem fan_spec : Before g Wl (fanSpeeds g Wl Wr).lm ∧ Before g Wr (fanSpeeds g Wl Wr).lm ∧
    Beyond g Wl (fanSpeeds g Wl Wr).lp ∧ Beyond g Wr (fanSpeeds g Wl Wr).lp := by
  obtain ⟨a1, -, -⟩ := lm_spec hg hg2 hl
  obtain ⟨a2, -, -⟩ := lm_spec hg hg2 hr
  obtain ⟨-, b1, -⟩ := lp_spec hg hg2 hl
  obtain ⟨-, b2, -⟩ := lp_spec hg hg2 hr
  have e1 : (fanSpeeds g Wl Wr).lm ≤ (charSpeeds g Wl).lm ∧
      (fanSpeeds g Wl Wr).lm ≤ (charSpeeds g Wr).lm ∧ -1 < (fanSpeeds g Wl Wr).lm := by
    unfold fanSpeeds
    dsimp only
    split_ifs <;> refine ⟨?_, ?_, ?_⟩ <;> linarith
  have e2 : (charSpeeds g Wl).lp ≤ (fanSpeeds g Wl Wr).lp ∧
      (charSpeeds g Wr).lp ≤ (fanSpeeds g Wl Wr).lp ∧ (fanSpeeds g Wl Wr).lp < 1 := by
    unfold fanSpeeds
    dsimp only
    split_ifs <;> refine ⟨?_, ?_, ?_⟩ <;> linarith
  exact ⟨before_of_le hg hg2 hl e1.1 e1.2.2, before_of_le hg hg2 hr e1.2.1 e1.2.2,
    beyond_of_le hg hg2 hl e2.1 e2.2.2, beyond_of_le hg hg2 hr e2.2.1 e2.2.2⟩

end fan

/-! The cone of physical conserved states. -/

/-- Sum of conserved states. -/
def Cons.add (U V : Cons) : Cons := ⟨U.d + V.d, U.Mx + V.Mx, U.My + V.My, U.Mz + V.Mz, U.E + V.E⟩

/-- Multiple of a conserved state. -/
def Cons.smul (k : ℝ) (U : Cons) : Cons := ⟨k * U.d, k * U.Mx, k * U.My, k * U.Mz, k * U.E⟩

theorem Cons.Warm.smul {k : ℝ} (hk : 0 < k) {U : Cons} (h : U.Warm) : (Cons.smul k U).Warm := by
  refine ⟨mul_pos hk h.d, mul_pos hk h.E, ?_⟩
  have := mul_lt_mul_of_pos_left h.lt (pow_pos hk 2)
  unfold Cons.msq Cons.smul at *
  simp only
  nlinarith

theorem Cons.Warm.add {U V : Cons} (h : U.Warm) (h' : V.Warm) : (Cons.add U V).Warm := by
  refine ⟨add_pos h.d h'.d, add_pos h.E h'.E, ?_⟩
  have key : U.Mx * V.Mx + U.My * V.My + U.Mz * V.Mz + U.d * V.d < U.E * V.E := by
    refine lt_of_pow_lt_pow_left₀ 2 (mul_pos h.E h'.E).le ?_
    have h1 : (U.Mx * V.Mx + U.My * V.My + U.Mz * V.Mz + U.d * V.d) ^ 2 ≤
        (U.msq + U.d ^ 2) * (V.msq + V.d ^ 2) := by
      unfold Cons.msq
      nlinarith [sq_nonneg (U.Mx * V.My - U.My * V.Mx), sq_nonneg (U.Mx * V.Mz - U.Mz * V.Mx),
        sq_nonneg (U.My * V.Mz - U.Mz * V.My), sq_nonneg (U.Mx * V.d - U.d * V.Mx),
        sq_nonneg (U.My * V.d - U.d * V.My), sq_nonneg (U.Mz * V.d - U.d * V.Mz)]
    have h2 : (U.msq + U.d ^ 2) * (V.msq + V.d ^ 2) < U.E ^ 2 * V.E ^ 2 := by
      have : 0 < U.msq + U.d ^ 2 := by have := h.d; unfold Cons.msq; positivity
      have : 0 < V.msq + V.d ^ 2 := by have := h'.d; unfold Cons.msq; positivity
      exact mul_lt_mul'' h.lt h'.lt (by linarith) (by linarith)
    rw [mul_pow]
    linarith
  have a := h.lt
  have b := h'.lt
  unfold Cons.msq Cons.add at *
  simp only
  nlinarith

/-- The energy of a warm state exceeds its momentum. -/
theorem Cons.Warm.mx {U : Cons} (h : U.Warm) : -U.E < U.Mx ∧ U.Mx < U.E := by
  have h1 : U.Mx ^ 2 < U.E ^ 2 := by
    have := h.lt
    unfold Cons.msq at this
    nlinarith [sq_nonneg U.My, sq_nonneg U.Mz, sq_nonneg U.d]
  exact abs_lt.1 ((sq_lt_sq₀ (abs_nonneg _) h.E.le).1 (by rwa [sq_abs]))

/-- The conserved variables of a warm state, in terms of `q = w γ²`. -/
theorem warm_enth_sq {g : ℝ} (hg : 1 < g) (hg2 : g ≤ 2) {W : Prim} (hW : W.Warm) :
    W.P * (W.enth g - g * W.P) < g * (W.enth g ^ 2 - W.d ^ 2 - 2 * W.enth g * W.P) := by
  have hd := hW.d
  have hP := hW.P
  have h1 : 0 < g - 1 := by linarith
  have hw : (g - 1) * W.enth g = (g - 1) * W.d + g * W.P := by
    unfold Prim.enth; field_simp
  generalize W.enth g = w at *
  have hw' : w = W.d + g * W.P / (g - 1) := by field_simp; linarith
  subst hw'
  have : g * ((W.d + g * W.P / (g - 1)) ^ 2 - W.d ^ 2 - 2 * (W.d + g * W.P / (g - 1)) * W.P)
      - W.P * (W.d + g * W.P / (g - 1) - g * W.P)
      = W.P * (W.d * (g + 1) / (g - 1) + W.P * g * (2 - g) / (g - 1) ^ 2) := by
    field_simp
    ring
  have h2 : 0 < W.d * (g + 1) / (g - 1) := by positivity
  have h3 : 0 ≤ W.P * g * (2 - g) / (g - 1) ^ 2 :=
    div_nonneg (mul_nonneg (by positivity) (by linarith)) (by positivity)
  have := mul_pos hP (by linarith : 0 < W.d * (g + 1) / (g - 1) + W.P * g * (2 - g) / (g - 1) ^ 2)
  linarith

end Athena.Rel
