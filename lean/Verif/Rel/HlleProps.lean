import Verif.Rel.HlleRoots
import Verif.Rel.MhdProps
import Mathlib.Topology.Order.IntermediateValue
import Mathlib.Analysis.SpecialFunctions.Pow.Continuity

/-!
C108: signal speeds of relativistic magnetohydrodynamics in hlle_sr.c.

Specification: `magnetosonic`, the characteristic polynomial of the fast and slow waves (Anile
1989; Mignone & Bodo 2006), written with the four-vector of the field.
-/
namespace Athena.Rel

/-- A gas with positive density and pressure that moves slower than light. -/
structure PrimB.Warm (W : PrimB) : Prop where
  d : 0 < W.d
  P : 0 < W.P
  v : W.vsq < 1

/-- Enthalpy density. -/
noncomputable def PrimB.enth (g : ℝ) (W : PrimB) : ℝ := W.d + g / (g - 1) * W.P

/-- Scalar product of velocity and field. -/
def PrimB.vB (W : PrimB) (Bx : ℝ) : ℝ := W.Vx * Bx + W.Vy * W.By + W.Vz * W.Bz

/-- The invariant `b²` of the field. -/
noncomputable def PrimB.bsq (W : PrimB) (Bx : ℝ) : ℝ :=
  (Bx ^ 2 + W.By ^ 2 + W.Bz ^ 2) * (1 - W.vsq) + W.vB Bx ^ 2

/-- Magnetosonic characteristics: `x` is the speed of a fast or slow wave iff this vanishes.
`γ` Lorentz factor, `b⁰`, `bˣ` components of the field four-vector, `c²` squared sound speed,
`a = γ(x - vx)`, `𝓑 = bˣ - x b⁰`:
`w (1-c²) a⁴ = (1-x²) ((b² + w c²) a² - c² 𝓑²)`. -/
noncomputable def magnetosonic (g : ℝ) (W : PrimB) (Bx x : ℝ) : ℝ :=
  let γ := 1 / √(1 - W.vsq)
  let w := W.enth g
  let c2 := g * W.P / w
  let b0 := γ * W.vB Bx
  let bx := Bx / γ + γ * W.vB Bx * W.Vx
  let a := γ * (x - W.Vx)
  w * (1 - c2) * a ^ 4 - (1 - x ^ 2) * ((W.bsq Bx + w * c2) * a ^ 2 - c2 * (bx - x * b0) ^ 2)

section
variable {g : ℝ} {W : PrimB} {Bx : ℝ}

theorem PrimB.Warm.enth_pos (hg : 1 < g) (h : W.Warm) : 0 < W.enth g := by
  have h1 := h.d
  have h2 := h.P
  have h3 : 0 < g - 1 := by linarith
  unfold PrimB.enth
  positivity

theorem PrimB.Warm.cs (hg : 1 < g) (hg2 : g ≤ 2) (h : W.Warm) :
    0 < g * W.P / W.enth g ∧ g * W.P / W.enth g < 1 := by
  have h0 := h.enth_pos hg
  have h1 := h.d
  have h2 := h.P
  have h3 : 0 < g - 1 := by linarith
  refine ⟨by positivity, ?_⟩
  rw [div_lt_one h0]
  unfold PrimB.enth
  have : g * W.P ≤ g / (g - 1) * W.P := by
    apply mul_le_mul_of_nonneg_right _ h2.le
    rw [le_div_iff₀ h3]
    nlinarith
  linarith

theorem PrimB.Warm.bsq_nonneg (h : W.Warm) : W.vB Bx ^ 2 ≤ W.bsq Bx := by
  have : 0 ≤ (Bx ^ 2 + W.By ^ 2 + W.Bz ^ 2) * (1 - W.vsq) :=
    mul_nonneg (by positivity) (by linarith [h.v])
  unfold PrimB.bsq
  linarith

theorem locals_eq (hg : 1 < g) (hg2 : g ≤ 2) (h : W.Warm) : locals g W Bx =
    ⟨W.enth g, W.vsq, 1 / (1 - W.vsq), W.vB Bx, Bx * (1 - W.vsq) + W.Vx * W.vB Bx, W.bsq Bx,
      g * W.P / W.enth g⟩ := by
  obtain ⟨c0, c1⟩ := h.cs hg hg2
  have hw := h.enth_pos hg
  have hb : 0 ≤ W.bsq Bx := le_trans (sq_nonneg _) h.bsq_nonneg
  have e1 : W.Vx * W.Vx + W.Vy * W.Vy + W.Vz * W.Vz = W.vsq := by unfold PrimB.vsq; ring
  have e2 : (Bx * Bx + W.By * W.By + W.Bz * W.Bz) / (1 / (1 - W.vsq)) +
      (W.Vx * Bx + W.Vy * W.By + W.Vz * W.Bz) * (W.Vx * Bx + W.Vy * W.By + W.Vz * W.Bz) =
      W.bsq Bx := by
    unfold PrimB.bsq PrimB.vB
    rw [div_div_eq_mul_div, div_one]
    ring
  have e3 : W.d + g / (g - 1) * W.P = W.enth g := rfl
  unfold locals
  simp only [e1, e2, e3]
  rw [if_neg (not_lt.2 hb), if_neg (not_lt.2 c0.le), if_neg (not_lt.2 c1.le)]
  have : ¬ W.bsq Bx / (W.enth g + W.bsq Bx) > 1 := by
    rw [gt_iff_lt, not_lt, div_le_one (by positivity)]
    linarith
  rw [if_neg this, div_div_eq_mul_div, div_one]
  rfl

/-- The polynomial without square roots. -/
theorem magneto_eq (h : W.Warm) (x : ℝ) :
    let G := 1 / (1 - W.vsq)
    let c2 := g * W.P / W.enth g
    magnetosonic g W Bx x = G * (W.enth g * (1 - c2) * G * (x - W.Vx) ^ 4 -
      (1 - x ^ 2) * ((W.bsq Bx + W.enth g * c2) * (x - W.Vx) ^ 2
        - c2 * (Bx * (1 - W.vsq) + W.Vx * W.vB Bx - x * W.vB Bx) ^ 2)) := by
  intro G c2
  have ht : 0 < 1 - W.vsq := by linarith [h.v]
  have hs := Real.sqrt_pos.2 ht
  have hs2 : √(1 - W.vsq) ^ 2 = 1 - W.vsq := Real.sq_sqrt ht.le
  unfold magnetosonic
  simp only
  change W.enth g * (1 - c2) * _ - (1 - x ^ 2) * ((W.bsq Bx + W.enth g * c2) * _ - c2 * _) = _
  generalize √(1 - W.vsq) = s at *
  simp only [G]
  rw [← hs2]
  field_simp

end

/-- **C108, equation.**  The quartic whose roots are taken as signal speeds is, up to a positive
factor, the characteristic equation of the magnetosonic waves. -/
theorem sr_mhd_quartic {g : ℝ} (hg : 1 < g) (hg2 : g ≤ 2) (W : PrimB) (Bx : ℝ) (h : W.Warm) :
    let a := vcharCoef (locals g W Bx) W.Vx
    ∃ k > 0, ∀ x, a.a4 * x ^ 4 + a.a3 * x ^ 3 + a.a2 * x ^ 2 + a.a1 * x + a.a0 =
      k * magnetosonic g W Bx x := by
  intro a
  have ht : 0 < 1 - W.vsq := by linarith [h.v]
  have hw := h.enth_pos hg
  have hb : 0 ≤ W.bsq Bx := le_trans (sq_nonneg _) h.bsq_nonneg
  refine ⟨(1 - W.vsq) / (W.enth g + W.bsq Bx), by positivity, ?_⟩
  intro x
  rw [magneto_eq h]
  simp only [a, vcharCoef, locals_eq hg hg2 h]
  generalize W.vsq = v at *
  generalize g * W.P / W.enth g = c at *
  generalize W.enth g = w at *
  generalize W.bsq Bx = b at *
  generalize W.vB Bx = vb at *
  have : w + b ≠ 0 := by positivity
  field_simp
  ring

/-- The quadratic of the case without normal field. -/
theorem noBx_spec {g : ℝ} (hg : 1 < g) (hg2 : g ≤ 2) {W : PrimB} {Bx : ℝ} (h : W.Warm) :
    let G := 1 / (1 - W.vsq)
    let c2 := g * W.P / W.enth g
    let q := fun x : ℝ => W.enth g * (1 - c2) * G * (x - W.Vx) ^ 2 -
      (1 - x ^ 2) * (W.bsq Bx + W.enth g * c2 - c2 * W.vB Bx ^ 2)
    ∃ lm lp : ℝ, vcharNoBx (locals g W Bx) W.Vx = ⟨some lm, some lp⟩ ∧ -1 < lm ∧ lm < W.Vx ∧
      W.Vx < lp ∧ lp < 1 ∧ ∀ x, q x = 0 ↔ (x = lm ∨ x = lp) := by
  intro G c2 q
  obtain ⟨c0, c1⟩ := h.cs hg hg2
  have ht : 0 < 1 - W.vsq := by linarith [h.v]
  have hw := h.enth_pos hg
  have hbv := h.bsq_nonneg (Bx := Bx)
  have hb : 0 ≤ W.bsq Bx := le_trans (sq_nonneg _) hbv
  have hvx : W.Vx ^ 2 < 1 := by
    have := h.v
    unfold PrimB.vsq at this
    nlinarith [sq_nonneg W.Vy, sq_nonneg W.Vz]
  have hG : 0 < G := by positivity
  set k := W.enth g + W.bsq Bx with hk
  have hk0 : 0 < k := by positivity
  set A := W.enth g * (1 - c2) * G / k with hA
  have hA0 : 0 < A := by
    have : 0 < 1 - c2 := by simp only [c2]; linarith
    positivity
  set S := (W.bsq Bx + W.enth g * c2 - c2 * W.vB Bx ^ 2) / k with hS
  have hc2 : 0 < c2 := c0
  have hS0 : 0 < S := by
    apply div_pos _ hk0
    have h1 : 0 ≤ W.bsq Bx - c2 * W.vB Bx ^ 2 := by
      have h2 : c2 * W.vB Bx ^ 2 ≤ 1 * W.vB Bx ^ 2 :=
        mul_le_mul_of_nonneg_right c1.le (sq_nonneg _)
      linarith
    have : 0 < W.enth g * c2 := mul_pos hw hc2
    linarith
  have hq : ∀ x, q x = k * (A * (x - W.Vx) ^ 2 - (1 - x ^ 2) * S) := by
    intro x
    simp only [q, hA, hS]
    field_simp
  have D0 : 0 < S * (S + A * (1 - W.Vx ^ 2)) := by
    have : 0 < A * (1 - W.Vx ^ 2) := mul_pos hA0 (by linarith)
    positivity
  set D := √(4 * (S * (S + A * (1 - W.Vx ^ 2)))) with hD
  have hDs : D ^ 2 = 4 * (S * (S + A * (1 - W.Vx ^ 2))) := Real.sq_sqrt (by linarith)
  have hDp : 0 < D := Real.sqrt_pos.2 (by linarith)
  have hAS : 0 < A + S := by linarith
  have key : ∀ x, A * (x - W.Vx) ^ 2 - (1 - x ^ 2) * S = (A + S) *
      (x - (1 / 2) * (2 * W.Vx * A - D) / (A + S)) * (x - (1 / 2) * (2 * W.Vx * A + D) / (A + S)) := by
    intro x
    field_simp
    have : 4 * (A * (x - W.Vx) ^ 2 - (1 - x ^ 2) * S) * (A + S) =
      (2 * (A + S) * x - 2 * W.Vx * A) ^ 2 - D ^ 2 := by rw [hDs]; ring
    linear_combination this
  set lm := (1 / 2) * (2 * W.Vx * A - D) / (A + S) with hlm
  set lp := (1 / 2) * (2 * W.Vx * A + D) / (A + S) with hlp
  have hlt : lm < lp := by
    rw [hlm, hlp]
    apply div_lt_div_of_pos_right _ hAS
    linarith
  have v1 : -1 < W.Vx := by nlinarith
  have v2 : W.Vx < 1 := by nlinarith
  have kv : (W.Vx - lm) * (W.Vx - lp) < 0 := by
    have := key W.Vx
    have e : A * (W.Vx - W.Vx) ^ 2 - (1 - W.Vx ^ 2) * S < 0 := by
      have : 0 < (1 - W.Vx ^ 2) * S := mul_pos (by linarith) hS0
      simp only [sub_self]
      linarith
    rw [this, mul_assoc] at e
    by_contra hc
    have := mul_nonneg hAS.le (not_lt.1 hc)
    linarith
  have k1 : 0 < (1 - lm) * (1 - lp) := by
    have := key 1
    have e : 0 < A * (1 - W.Vx) ^ 2 - (1 - 1 ^ 2) * S := by
      have : 0 < A * (1 - W.Vx) ^ 2 := mul_pos hA0 (by nlinarith)
      linarith
    rw [this, mul_assoc] at e
    exact (mul_pos_iff_of_pos_left hAS).1 e
  have k2 : 0 < (-1 - lm) * (-1 - lp) := by
    have := key (-1)
    have e : 0 < A * (-1 - W.Vx) ^ 2 - (1 - (-1) ^ 2) * S := by
      have : 0 < A * (-1 - W.Vx) ^ 2 := mul_pos hA0 (by nlinarith)
      linarith
    rw [this, mul_assoc] at e
    exact (mul_pos_iff_of_pos_left hAS).1 e
  have m1 : lm < W.Vx := by
    by_contra hc
    push Not at hc
    have := mul_nonneg_of_nonpos_of_nonpos (a := W.Vx - lm) (b := W.Vx - lp) (by linarith) (by linarith)
    linarith
  have m2 : W.Vx < lp := by
    by_contra hc
    push Not at hc
    have := mul_nonneg (a := W.Vx - lm) (b := W.Vx - lp) (by linarith) (by linarith)
    linarith
  have m3 : lp < 1 := by
    by_contra hc
    push Not at hc
    have := mul_nonpos_of_nonneg_of_nonpos (a := 1 - lm) (b := 1 - lp) (by linarith) (by linarith)
    linarith
  have m4 : -1 < lm := by
    by_contra hc
    push Not at hc
    have := mul_nonpos_of_nonneg_of_nonpos (a := -1 - lm) (b := -1 - lp) (by linarith) (by linarith)
    linarith
  refine ⟨lm, lp, ?_, m4, m1, m2, m3, ?_⟩
  · simp only [vcharNoBx, locals_eq hg hg2 h]
    have s1 : (1 - (g * W.P / W.enth g + W.bsq Bx * (1 / (W.enth g + W.bsq Bx)) *
        (1 - g * W.P / W.enth g))) * (1 / (1 - W.vsq)) = A := by
      simp only [hA, c2, G, hk]
      generalize g * W.P / W.enth g = c at *
      rw [hk] at hk0
      have := hk0.ne'
      field_simp
      ring
    have s2 : g * W.P / W.enth g * (W.vB Bx * W.vB Bx) * (1 / (W.enth g + W.bsq Bx)) -
        (g * W.P / W.enth g + W.bsq Bx * (1 / (W.enth g + W.bsq Bx)) *
        (1 - g * W.P / W.enth g)) = -S := by
      simp only [hS, c2, hk]
      generalize g * W.P / W.enth g = c at *
      rw [hk] at hk0
      have := hk0.ne'
      field_simp
      ring
    rw [s1, s2]
    have s3 : -2 * W.Vx * A * (-2 * W.Vx * A) - 4 * (A - -S) * (W.Vx * W.Vx * A + -S) =
        4 * (S * (S + A * (1 - W.Vx ^ 2))) := by ring
    rw [s3]
    unfold sqrtN
    rw [if_pos (by linarith), ← hD]
    simp only [Option.map_some]
    rw [hlm, hlp]
    congr 2 <;> ring
  · intro x
    rw [hq, key]
    constructor
    · intro h0
      rcases mul_eq_zero.1 h0 with h1 | h1
      · linarith
      · rcases mul_eq_zero.1 h1 with h2 | h2
        · rcases mul_eq_zero.1 h2 with h3 | h3
          · linarith
          · left; linarith
        · right; linarith
    · rintro (rfl | rfl) <;> simp

/-- **C108, no normal field.**  Without field across the face the signal speeds are exactly the
magnetosonic speeds, on either side of the gas velocity and slower than light. -/
theorem sr_mhd_speeds_noBx {g : ℝ} (hg : 1 < g) (hg2 : g ≤ 2) (W : PrimB) (h : W.Warm)
    (hv : 1 / 10 ^ 12 ≤ W.vsq) :
    ∃ lm lp : ℝ, vcharPluto g W 0 = ⟨some lm, some lp⟩ ∧ -1 < lm ∧ lm < W.Vx ∧ W.Vx < lp ∧
      lp < 1 ∧ ∀ x, magnetosonic g W 0 x = 0 ↔ (x = W.Vx ∨ x = lm ∨ x = lp) := by
  obtain ⟨lm, lp, h1, h2, h3, h4, h5, h6⟩ := noBx_spec hg hg2 (Bx := 0) h
  refine ⟨lm, lp, ?_, h2, h3, h4, h5, ?_⟩
  · rw [← h1]
    unfold vcharPluto
    have e : (locals g W 0).vsq = W.vsq := by rw [locals_eq hg hg2 h]
    simp only [e]
    rw [if_neg (by linarith [h.v]), if_neg (by linarith [h.v]), if_neg (by linarith),
      if_pos (by norm_num)]
  · intro x
    rw [← h6 x, magneto_eq h]
    have ht : 0 < 1 - W.vsq := by linarith [h.v]
    have e : 1 / (1 - W.vsq) * (W.enth g * (1 - g * W.P / W.enth g) * (1 / (1 - W.vsq)) *
        (x - W.Vx) ^ 4 - (1 - x ^ 2) * ((W.bsq 0 + W.enth g * (g * W.P / W.enth g)) *
        (x - W.Vx) ^ 2 - g * W.P / W.enth g * (0 * (1 - W.vsq) + W.Vx * W.vB 0 - x * W.vB 0) ^ 2)) =
        1 / (1 - W.vsq) * (x - W.Vx) ^ 2 * (W.enth g * (1 - g * W.P / W.enth g) *
        (1 / (1 - W.vsq)) * (x - W.Vx) ^ 2 - (1 - x ^ 2) * (W.bsq 0 + W.enth g *
        (g * W.P / W.enth g) - g * W.P / W.enth g * W.vB 0 ^ 2)) := by ring
    simp only at e ⊢
    rw [e]
    constructor
    · intro h0
      rcases mul_eq_zero.1 h0 with h1 | h1
      · left
        rcases mul_eq_zero.1 h1 with h2 | h2
        · have : 0 < 1 / (1 - W.vsq) := by positivity
          linarith
        · have := pow_eq_zero_iff (two_ne_zero) |>.1 h2
          linarith
      · right; exact h1
    · rintro (h0 | h0)
      · rw [h0]; ring
      · rw [h0]; ring

/-- **C108, gas at rest.**  In gas at rest the signal speeds are plus and minus the fast
magnetosonic speed: a solution of the characteristic equation, below that of light, and no
solution is larger. -/
theorem sr_mhd_speeds_rest {g : ℝ} (hg : 1 < g) (hg2 : g ≤ 2) (W : PrimB) (Bx : ℝ) (h : W.Warm)
    (hv : W.vsq = 0) :
    ∃ s : ℝ, vcharPluto g W Bx = ⟨some (-s), some s⟩ ∧ 0 < s ∧ s < 1 ∧
      magnetosonic g W Bx s = 0 ∧ magnetosonic g W Bx (-s) = 0 ∧
      ∀ x, magnetosonic g W Bx x = 0 → -s ≤ x ∧ x ≤ s := by
  obtain ⟨c0, c1⟩ := h.cs hg hg2
  have hw := h.enth_pos hg
  have vx : W.Vx = 0 := by
    unfold PrimB.vsq at hv
    nlinarith [sq_nonneg W.Vx, sq_nonneg W.Vy, sq_nonneg W.Vz]
  have vy : W.Vy = 0 := by
    unfold PrimB.vsq at hv
    nlinarith [sq_nonneg W.Vx, sq_nonneg W.Vy, sq_nonneg W.Vz]
  have vz : W.Vz = 0 := by
    unfold PrimB.vsq at hv
    nlinarith [sq_nonneg W.Vx, sq_nonneg W.Vy, sq_nonneg W.Vz]
  have hvb : W.vB Bx = 0 := by unfold PrimB.vB; rw [vx, vy, vz]; ring
  have hbx : Bx ^ 2 ≤ W.bsq Bx := by
    unfold PrimB.bsq
    rw [hv, hvb]
    nlinarith [sq_nonneg W.By, sq_nonneg W.Bz]
  have hb : 0 ≤ W.bsq Bx := le_trans (sq_nonneg _) hbx
  have hk : 0 < W.enth g + W.bsq Bx := by linarith
  have hm : ∀ x, magnetosonic g W Bx x = W.enth g * (1 - g * W.P / W.enth g) * x ^ 4 -
      (1 - x ^ 2) * ((W.bsq Bx + W.enth g * (g * W.P / W.enth g)) * x ^ 2 -
        g * W.P / W.enth g * Bx ^ 2) := by
    intro x
    rw [magneto_eq h, hv, hvb, vx]
    ring
  have hl : vcharPluto g W Bx = vcharRest (locals g W Bx) Bx := by
    unfold vcharPluto
    have e : (locals g W Bx).vsq = 0 := by rw [locals_eq hg hg2 h]; exact hv
    simp only [e]
    norm_num
  rw [hl]
  simp only [vcharRest, locals_eq hg hg2 h]
  simp only [hm]
  generalize g * W.P / W.enth g = c at *
  generalize W.enth g = w at *
  generalize W.bsq Bx = b at *
  generalize hB : Bx ^ 2 = B at *
  have hB0 : 0 ≤ B := by rw [← hB]; positivity
  set t := b / (w + b) with ht
  have ht0 : 0 ≤ t := by positivity
  have ht1 : t < 1 := by rw [ht, div_lt_one hk]; linarith
  set a := c * B / (w + b) with ha
  have ha0 : 0 ≤ a := by positivity
  have hact : a ≤ c * t := by
    rw [ha, ht, mul_div_assoc, ]
    apply mul_le_mul_of_nonneg_left _ c0.le
    exact div_le_div_of_nonneg_right hbx hk.le
  set e := c + t - c * t with he
  have he0 : 0 < e := by rw [he]; nlinarith
  have he1 : e < 1 := by rw [he]; nlinarith
  have r1 : -(c * Bx * Bx * (1 / (w + b))) - (c + b * (1 / (w + b)) * (1 - c)) = -(a + e) := by
    rw [ha, he, ht, ← hB]; field_simp; ring
  have r2 : c * Bx * Bx * (1 / (w + b)) = a := by rw [ha, ← hB]; field_simp
  rw [r1, r2]
  have hdisc : 0 ≤ -(a + e) * -(a + e) - 4 * a := by
    have : -(a + e) * -(a + e) - 4 * a = (c - t) ^ 2 + (c * t - a) ^ 2
        + 2 * (c * t - a) * (2 - c - t) := by rw [he]; ring
    rw [this]
    have : 0 ≤ (c * t - a) * (2 - c - t) := mul_nonneg (by linarith) (by linarith)
    nlinarith [sq_nonneg (c - t), sq_nonneg (c * t - a)]
  rw [if_neg (not_lt.2 hdisc)]
  set D := √(-(a + e) * -(a + e) - 4 * a) with hD
  have hD0 : 0 ≤ D := Real.sqrt_nonneg _
  have hDs : D ^ 2 = (a + e) ^ 2 - 4 * a := by rw [hD, Real.sq_sqrt hdisc]; ring
  have hY0 : 0 < (1 / 2) * (- -(a + e) + D) := by linarith
  have hY1 : (1 / 2) * (- -(a + e) + D) < 1 := by
    have h1 : a + e < 2 := by
      have : c * t ≤ 1 := by nlinarith
      linarith
    have : D < 2 - (a + e) := by
      apply lt_of_pow_lt_pow_left₀ 2 (by linarith)
      rw [hDs]
      nlinarith
    linarith
  have hq : ∀ x, w * (1 - c) * x ^ 4 - (1 - x ^ 2) * ((b + w * c) * x ^ 2 - c * B) =
      (w + b) * (x ^ 2 - (1 / 2) * (- -(a + e) + D)) * (x ^ 2 - (1 / 2) * (- -(a + e) - D)) := by
    intro x
    have h1 : w * (1 - c) * x ^ 4 - (1 - x ^ 2) * ((b + w * c) * x ^ 2 - c * B) =
        (w + b) * (x ^ 4 - (a + e) * x ^ 2 + a) := by
      rw [ha, he, ht]; field_simp; ring
    rw [h1]
    linear_combination (w + b) / 4 * hDs
  unfold sqrtN
  rw [if_pos hY0.le]
  simp only [Option.map_some]
  refine ⟨_, rfl, Real.sqrt_pos.2 hY0, ?_, ?_, ?_, ?_⟩
  · rw [Real.sqrt_lt' one_pos]; linarith
  · rw [hq, Real.sq_sqrt hY0.le]; ring
  · rw [hq, neg_sq, Real.sq_sqrt hY0.le]; ring
  · intro x hx
    rw [hq] at hx
    have hx2 : x ^ 2 ≤ (1 / 2) * (- -(a + e) + D) := by
      rcases mul_eq_zero.1 hx with h1 | h1
      · rcases mul_eq_zero.1 h1 with h2 | h2 <;> linarith
      · linarith
    exact abs_le.1 (Real.abs_le_sqrt hx2)

/-- **C108, general case.**  With field across the face, whatever the state: the signal speeds
lie between minus and plus that of light; and each is a solution of the characteristic equation
in normal form up to `10⁻⁶`, unless it is that of light. -/
theorem sr_mhd_speeds_general_partial {g : ℝ} (W : PrimB) (Bx : ℝ)
    (hv : 1 / 10 ^ 12 ≤ (locals g W Bx).vsq) (hv1 : (locals g W Bx).vsq < 1)
    (hB : 1 / 10 ^ 14 ≤ Bx) :
    let a := vcharCoef (locals g W Bx) W.Vx
    let p := fun x : ℝ => x ^ 4 + a.a3 / a.a4 * x ^ 3 + a.a2 / a.a4 * x ^ 2 + a.a1 / a.a4 * x +
      a.a0 / a.a4
    ∃ lm lp : ℝ, vcharPluto g W Bx = ⟨some lm, some lp⟩ ∧ -1 ≤ lm ∧ lp ≤ 1 ∧
      (lm = -1 ∨ |p lm| ≤ 1 / 10 ^ 6) ∧ (lp = 1 ∨ |p lp| ≤ 1 / 10 ^ 6) := by
  intro a p
  have e : vcharPluto g W Bx = vcharGen (locals g W Bx) W.Vx := by
    unfold vcharPluto
    simp only
    rw [if_neg (by linarith), if_neg (by linarith), if_neg (by linarith), if_neg (by linarith)]
  rw [e]
  unfold vcharGen
  simp only
  split_ifs with c1
  · exact ⟨-1, 1, rfl, le_rfl, le_rfl, Or.inl rfl, Or.inl rfl⟩
  · split
    · exact ⟨-1, 1, rfl, le_rfl, le_rfl, Or.inl rfl, Or.inl rfl⟩
    · rename_i z hz
      have hc := quartic_checked hz
      have hp : ∀ x ∈ [z.z0, z.z1, z.z2, z.z3], |p x| ≤ 1 / 10 ^ 6 := by
        intro x hx
        have := hc x hx
        simpa only [p, a, mul_one_div] using this
      have h0 := hp z.z0 (by simp)
      have h1 := hp z.z1 (by simp)
      have h2 := hp z.z2 (by simp)
      have h3 := hp z.z3 (by simp)
      refine ⟨_, _, rfl, ?_, ?_, ?_, ?_⟩
      · unfold maxR; split_ifs <;> linarith
      · unfold minR; split_ifs <;> linarith
      · unfold maxR minR
        split_ifs <;>
          first
          | exact Or.inl rfl
          | exact Or.inr h0
          | exact Or.inr h1
          | exact Or.inr h2
          | exact Or.inr h3
      · unfold maxR minR
        split_ifs <;>
          first
          | exact Or.inl rfl
          | exact Or.inr h0
          | exact Or.inr h1
          | exact Or.inr h2
          | exact Or.inr h3

end Athena.Rel
