import Verif.Rel.HllcLemmas

/-!
What leaves and enters the fan is physical: `λ U - F` for the right state, `F - λ U` for the
left state; position of the contact; the states beside it.
-/
namespace Athena.Rel

/-- `λ U - F(U)`. -/
noncomputable def outR (g x : ℝ) (W : Prim) : Cons :=
  Cons.add (Cons.smul x (primToCons g W)) (Cons.smul (-1) (fluxSide (primToCons g W) W))

/-- `F(U) - λ U`. -/
noncomputable def outL (g x : ℝ) (W : Prim) : Cons :=
  Cons.add (fluxSide (primToCons g W) W) (Cons.smul (-x) (primToCons g W))

/-- `w γ²`. -/
noncomputable def Prim.q (g : ℝ) (W : Prim) : ℝ := W.enth g / (1 - W.vsq)

theorem outR_eq (g x : ℝ) (W : Prim) : outR g x W =
    ⟨√(1 / (1 - W.vsq)) * W.d * (x - W.Vx), W.q g * W.Vx * (x - W.Vx) - W.P,
      W.q g * W.Vy * (x - W.Vx), W.q g * W.Vz * (x - W.Vx), W.q g * (x - W.Vx) - W.P * x⟩ := by
  unfold outR Cons.add Cons.smul fluxSide Prim.q
  rw [primToCons_eq]
  ext <;> simp only <;> ring

theorem outL_eq (g x : ℝ) (W : Prim) : outL g x W =
    ⟨√(1 / (1 - W.vsq)) * W.d * (W.Vx - x), W.q g * W.Vx * (W.Vx - x) + W.P,
      W.q g * W.Vy * (W.Vx - x), W.q g * W.Vz * (W.Vx - x), W.q g * (W.Vx - x) + W.P * x⟩ := by
  unfold outL Cons.add Cons.smul fluxSide Prim.q
  rw [primToCons_eq]
  ext <;> simp only <;> ring

section one
variable {g : ℝ} (hg : 1 < g) (hg2 : g ≤ 2) {W : Prim} (hW : W.Warm)
include hg hg2 hW

theorem enth_gt : g * W.P < W.enth g := by
  have h := csq_lt hg hW
  have := enth_pos hg hW
  unfold Prim.csq at h
  rw [div_lt_iff₀ this] at h
  nlinarith

theorem sig_mul : W.sig g * (W.enth g - g * W.P) = g * W.P * (1 - W.vsq) := by
  have h := enth_gt hg hg2 hW
  have h0 := enth_pos hg hW
  unfold Prim.sig Prim.csq
  have : W.enth g - g * W.P ≠ 0 := by linarith
  have e : 1 - g * W.P / W.enth g = (W.enth g - g * W.P) / W.enth g := by
    field_simp
  rw [e]
  field_simp

/-- The amount by which `E² - M² - D²` of the outgoing state is positive. -/
theorem cone_gap {x : ℝ} (h0 : -1 < x) (h1 : x < 1)
    (hx : W.sig g * (1 - x ^ 2) ≤ (x - W.Vx) ^ 2) :
    W.P ^ 2 * (1 - x ^ 2) <
      (x - W.Vx) ^ 2 * (W.enth g ^ 2 - W.d ^ 2 - 2 * W.enth g * W.P) / (1 - W.vsq) := by
  have hs := sig_mul hg hg2 hW
  have hk := warm_enth_sq hg hg2 hW
  have hw := enth_gt hg hg2 hW
  have hP := hW.P
  have ht : 0 < 1 - W.vsq := by linarith [hW.v]
  have hx1 : 0 < 1 - x ^ 2 := by nlinarith
  generalize W.enth g ^ 2 - W.d ^ 2 - 2 * W.enth g * W.P = K at *
  generalize 1 - x ^ 2 = z at *
  generalize (x - W.Vx) ^ 2 = y at *
  generalize 1 - W.vsq = t at *
  rw [lt_div_iff₀ ht]
  have hm : 0 < W.enth g - g * W.P := by linarith
  generalize W.enth g - g * W.P = m at *
  have hg0 : 0 < g := by linarith
  have hK : 0 < K := by nlinarith [mul_pos hP hm]
  -- g P t z ≤ y m
  have h2 : g * W.P * t * z ≤ y * m := by
    have := mul_le_mul_of_nonneg_right hx hm.le
    nlinarith
  have h3 : g * W.P * t * z * K ≤ y * m * K := mul_le_mul_of_nonneg_right h2 hK.le
  have h4 : W.P * m * (W.P * t * z) < g * K * (W.P * t * z) :=
    mul_lt_mul_of_pos_right hk (by positivity)
  have h5 : m * (W.P ^ 2 * z * t) < m * (y * K) := by nlinarith
  exact lt_of_mul_lt_mul_left h5 hm.le

theorem sqrt_t : (√(1 / (1 - W.vsq))) ^ 2 = 1 / (1 - W.vsq) :=
  Real.sq_sqrt (by have := hW.v; exact (div_pos one_pos (by linarith)).le)

theorem q_pos : 0 < W.q g := div_pos (enth_pos hg hW) (by linarith [hW.v])

theorem q_gt : W.P < W.q g * (1 - W.Vx ^ 2) := by
  have h := enth_gt hg hg2 hW
  have h0 := enth_pos hg hW
  have ht : 0 < 1 - W.vsq := by linarith [hW.v]
  have hv : W.Vx ^ 2 ≤ W.vsq := by
    unfold Prim.vsq; nlinarith [sq_nonneg W.Vy, sq_nonneg W.Vz]
  have h2 : W.enth g = W.q g * (1 - W.vsq) := by
    unfold Prim.q; rw [div_mul_cancel₀ _ ht.ne']
  have hP := hW.P
  have hq := q_pos hg hg2 hW
  nlinarith

theorem outR_warm {x : ℝ} (hx : Beyond g W x) : (outR g x W).Warm := by
  obtain ⟨v1, v2⟩ := vx_lt hW.v
  have hgap := cone_gap hg hg2 hW (by linarith [hx.gt]) hx.lt hx.sig
  have ht : 0 < 1 - W.vsq := by linarith [hW.v]
  have hD := sqrt_t hg hg2 hW
  have hsq : 0 < √(1 / (1 - W.vsq)) := Real.sqrt_pos.2 (by positivity)
  have hq := q_gt hg hg2 hW
  have hy : 0 < x - W.Vx := by linarith [hx.gt]
  have hlt : (outR g x W).msq + (outR g x W).d ^ 2 < (outR g x W).E ^ 2 := by
    rw [outR_eq]
    unfold Cons.msq
    simp only
    have e1 : W.q g * (1 - W.vsq) = W.enth g := by
      unfold Prim.q; rw [div_mul_cancel₀ _ ht.ne']
    have e2 : W.enth g ^ 2 / (1 - W.vsq) = W.q g ^ 2 * (1 - W.vsq) := by
      rw [← e1]; field_simp
    have e3 : W.enth g / (1 - W.vsq) = W.q g := rfl
    have e4 : (x - W.Vx) ^ 2 * (W.enth g ^ 2 - W.d ^ 2 - 2 * W.enth g * W.P) / (1 - W.vsq)
        = (x - W.Vx) ^ 2 * (W.enth g ^ 2 / (1 - W.vsq) - W.d ^ 2 * (1 / (1 - W.vsq))
          - 2 * W.P * (W.enth g / (1 - W.vsq))) := by ring
    rw [e4, e2, e3, ← hD] at hgap
    have e5 : W.vsq = W.Vx ^ 2 + W.Vy ^ 2 + W.Vz ^ 2 := rfl
    generalize √(1 / (1 - W.vsq)) = r at *
    rw [e5] at hgap
    nlinarith
  refine ⟨?_, ?_, hlt⟩
  · rw [outR_eq]
    have := hW.d
    simp only
    positivity
  · have h1 : W.Vx * (outR g x W).Mx < (outR g x W).E := by
      rw [outR_eq]
      simp only
      nlinarith [mul_pos hy (by linarith : 0 < W.q g * (1 - W.Vx ^ 2) - W.P)]
    have h2 : (outR g x W).Mx ^ 2 < (outR g x W).E ^ 2 := by
      have := hlt
      unfold Cons.msq at this
      nlinarith [sq_nonneg (outR g x W).My, sq_nonneg (outR g x W).Mz, sq_nonneg (outR g x W).d]
    generalize (outR g x W).E = e at *
    generalize (outR g x W).Mx = m at *
    by_contra hneg
    push Not at hneg
    have h3 : |m| < -e := by
      rw [← abs_of_nonpos hneg]
      exact sq_lt_sq.1 h2
    have h4 : |W.Vx * m| ≤ |m| := by
      rw [abs_mul]
      have : |W.Vx| < 1 := abs_lt.2 ⟨v1, v2⟩
      nlinarith [abs_nonneg m]
    have := neg_abs_le (W.Vx * m)
    linarith

theorem outL_warm {x : ℝ} (hx : Before g W x) : (outL g x W).Warm := by
  -- by reflection
  let W' : Prim := ⟨W.d, -W.Vx, W.Vy, W.Vz, W.P⟩
  have hv : W'.vsq = W.vsq := by simp [W', Prim.vsq]
  have hW' : W'.Warm := ⟨hW.d, hW.P, by rw [hv]; exact hW.v⟩
  have hs : W'.sig g = W.sig g := by unfold Prim.sig Prim.csq; rw [hv]; rfl
  have hb : Beyond g W' (-x) := by
    refine ⟨by simp only [W']; linarith [hx.lt], by linarith [hx.gt], ?_⟩
    rw [hs]
    have := hx.sig
    simp only [W']
    nlinarith
  have hq : W'.q g = W.q g := by unfold Prim.q; rw [hv]; rfl
  have h := outR_warm hg hg2 hW' hb
  rw [outR_eq, hv, hq] at h
  rw [outL_eq]
  have h1 := h.d
  have h2 := h.E
  have h3 := h.lt
  unfold Cons.msq at h3
  simp only [W'] at h1 h2 h3
  refine ⟨?_, ?_, ?_⟩
  · simp only; convert h1 using 1; ring
  · simp only; convert h2 using 1; ring
  · unfold Cons.msq; simp only; convert h3 using 1 <;> ring

/-- With signals between `a` and `b`, the momentum carried is less than pressure can stop. -/
theorem cross_pos {a b : ℝ} (ha : Before g W a) (hb : Beyond g W b) :
    W.P * (1 - a * b) < W.q g * (W.Vx - a) * (b - W.Vx) := by
  have hP := hW.P
  have hw := enth_gt hg hg2 hW
  have hw0 := enth_pos hg hW
  have ht : 0 < 1 - W.vsq := by linarith [hW.v]
  have hsm := sig_mul hg hg2 hW
  have hs0 := sig_pos hg hg2 hW
  obtain ⟨v1, v2⟩ := vx_lt hW.v
  have hv : W.Vx ^ 2 ≤ W.vsq := by
    unfold Prim.vsq; nlinarith [sq_nonneg W.Vy, sq_nonneg W.Vz]
  have hs : 0 < 1 - W.Vx ^ 2 := by nlinarith
  have hx : 0 < b - W.Vx := by linarith [hb.gt]
  have hy : 0 < W.Vx - a := by linarith [ha.lt]
  have c1 := hb.sig
  have c2 := ha.sig
  -- q / P - 1 / sig > 2 / (1 - V²)
  have hK : 1 / W.sig g + 2 / (1 - W.Vx ^ 2) < W.q g / W.P := by
    have hm : 0 < W.enth g - g * W.P := by linarith
    have h1 : 1 / W.sig g = (W.enth g - g * W.P) / (g * W.P * (1 - W.vsq)) := by
      rw [div_eq_div_iff hs0.ne' (by have : 0 < g := by linarith
                                     positivity)]
      linarith
    have h2 : 2 / (1 - W.Vx ^ 2) ≤ 2 / (1 - W.vsq) :=
      div_le_div_of_nonneg_left (by norm_num) ht (by linarith)
    have hcl := csq_lt hg hW
    unfold Prim.csq at hcl
    rw [div_lt_iff₀ hw0] at hcl
    have h3 : (W.enth g - g * W.P) / (g * W.P * (1 - W.vsq)) + 2 / (1 - W.vsq) < W.q g / W.P := by
      unfold Prim.q
      have hg0 : 0 < g := by linarith
      rw [div_div, div_add_div _ _ (by positivity) (by positivity),
        div_lt_div_iff₀ (by positivity) (by positivity)]
      have : 0 < (1 - W.vsq) ^ 2 * W.P * ((g - 1) * W.enth g - g * W.P) :=
        mul_pos (by positivity) (by linarith)
      nlinarith
    linarith
  have hQ : W.q g = W.q g / W.P * W.P := by rw [div_mul_cancel₀ _ hP.ne']
  rw [hQ]
  generalize W.q g / W.P = K at *
  have hk1 : 1 / W.sig g * W.sig g = 1 := div_mul_cancel₀ _ hs0.ne'
  have hk0 : 0 < 1 / W.sig g := by positivity
  generalize 1 / W.sig g = k at *
  obtain ⟨x, rfl⟩ : ∃ x, b = W.Vx + x := ⟨b - W.Vx, by ring⟩
  obtain ⟨y, rfl⟩ : ∃ y, a = W.Vx - y := ⟨W.Vx - a, by ring⟩
  have d1 : 1 - (W.Vx + x) ^ 2 ≤ k * x ^ 2 := by
    have := mul_le_mul_of_nonneg_left c1 hk0.le
    rw [← mul_assoc, hk1, one_mul] at this
    linarith [this, (by ring : k * (W.Vx + x - W.Vx) ^ 2 = k * x ^ 2)]
  have d2 : 1 - (W.Vx - y) ^ 2 ≤ k * y ^ 2 := by
    have := mul_le_mul_of_nonneg_left c2 hk0.le
    rw [← mul_assoc, hk1, one_mul] at this
    linarith [this, (by ring : k * (W.Vx - y - W.Vx) ^ 2 = k * y ^ 2)]
  have hx' : 0 < x := by linarith
  have hy' : 0 < y := by linarith
  have main : 1 - (W.Vx - y) * (W.Vx + x) < K * (x * y) := by
    have m1 := mul_le_mul_of_nonneg_right d1 (sq_nonneg y)
    have m2 := mul_le_mul_of_nonneg_right d2 (sq_nonneg x)
    have m3 := mul_lt_mul_of_pos_right hK (by positivity : 0 < 2 * (x * y) ^ 2)
    have e : 2 / (1 - W.Vx ^ 2) * (1 - W.Vx ^ 2) = 2 := div_mul_cancel₀ _ hs.ne'
    generalize 2 / (1 - W.Vx ^ 2) = f at *
    have hf : 0 < f := by
      by_contra h; push Not at h; nlinarith
    have sq := mul_nonneg hf.le (sq_nonneg ((1 - W.Vx ^ 2) * (x - y) + 2 * W.Vx * (x * y)))
    have e' : f * ((1 - W.Vx ^ 2) * (x - y) + 2 * W.Vx * (x * y)) ^ 2
        = 2 * ((1 - W.Vx ^ 2) * (x - y) ^ 2 + 4 * W.Vx * (x * y) * (x - y))
          + 4 * f * W.Vx ^ 2 * (x * y) ^ 2 := by
      linear_combination ((1 - W.Vx ^ 2) * (x - y) ^ 2 + 4 * W.Vx * (x * y) * (x - y)) * e
    have e'' : f * W.Vx ^ 2 = f - 2 := by linear_combination -e
    have : 0 < 2 * (x * y) * (K * (x * y) - (1 - (W.Vx - y) * (W.Vx + x))) := by
      nlinarith
    have := (mul_pos_iff_of_pos_left (by positivity)).1 this
    linarith
  nlinarith
end one

/-! The contact. -/

/-- The root chosen by the solver, when the quadratic changes sign between `-1` and `1`. -/
theorem contactRoot_spec {a b c : ℝ} (h1 : a + b + c < 0) (h2 : 0 < a - b + c) :
    b < 0 ∧ 0 ≤ b * b - 4 * a * c ∧ -(1 / 2) * (b + (-1) * √(b * b - 4 * a * c)) ≠ 0 ∧
      -1 < contactRoot a b c ∧ contactRoot a b c < 1 ∧
      a * contactRoot a b c ^ 2 + b * contactRoot a b c + c = 0 := by
  have hb : b < 0 := by linarith
  have hD : 0 ≤ b * b - 4 * a * c := by nlinarith [sq_nonneg (a - c)]
  have hs := Real.sqrt_nonneg (b * b - 4 * a * c)
  have hs2 := Real.sq_sqrt hD
  have e : contactRoot a b c = c / (-(1 / 2) * (b + (-1) * √(b * b - 4 * a * c))) := by
    unfold contactRoot
    dsimp only
    rw [if_pos hb]
  rw [e]
  generalize √(b * b - 4 * a * c) = r at *
  obtain ⟨q, hq⟩ : ∃ q, q = -(1 / 2) * (b + (-1) * r) := ⟨_, rfl⟩
  rw [← hq]
  have hq0 : 0 < q := by linarith
  have hqq : q ^ 2 + b * q + a * c = 0 := by
    rw [hq]
    linear_combination (1 / 4) * hs2
  have hr : r = 2 * q + b := by linarith
  refine ⟨hb, hD, hq0.ne', ?_, ?_, ?_⟩
  · rw [lt_div_iff₀ hq0]
    by_contra h
    push Not at h
    have h3 : 0 < -c := by linarith
    have := mul_pos h3 h2
    nlinarith
  · rw [div_lt_one hq0]
    by_contra h
    push Not at h
    have h3 : 0 < c := by linarith
    have := mul_pos h3 (by linarith : 0 < -(a + b + c))
    nlinarith
  · field_simp
    linear_combination c * hqq

/-- Sign of the quadratic between `-1` and `1`. -/
theorem quad_sign {a b c s x : ℝ} (h1 : a + b + c < 0) (h2 : 0 < a - b + c)
    (hs1 : -1 < s) (hs2 : s < 1) (hs : a * s ^ 2 + b * s + c = 0) (hx1 : -1 ≤ x) (hx2 : x ≤ 1) :
    (0 < a * x ^ 2 + b * x + c ↔ x < s) ∧ (a * x ^ 2 + b * x + c < 0 ↔ s < x) ∧
      (a * x ^ 2 + b * x + c = 0 ↔ x = s) := by
  have e : a * x ^ 2 + b * x + c = (s - x) * -(a * x + a * s + b) := by linear_combination hs
  have p1 : a + a * s + b < 0 := by
    have : (1 - s) * (a + a * s + b) < 0 := by linear_combination h1 - hs
    by_contra h
    push Not at h
    nlinarith
  have p2 : -a + a * s + b < 0 := by
    have : 0 < -((1 + s) * (-a + a * s + b)) := by linear_combination h2 + hs
    by_contra h
    push Not at h
    nlinarith
  have p3 : 0 < -(a * x + a * s + b) := by
    have q1 : 0 ≤ (1 + x) * -(a + a * s + b) := mul_nonneg (by linarith) (by linarith)
    have q2 : 0 ≤ (1 - x) * -(-a + a * s + b) := mul_nonneg (by linarith) (by linarith)
    rcases eq_or_lt_of_le hx2 with h | h
    · subst h; linarith
    · have : 0 < (1 - x) * -(-a + a * s + b) := mul_pos (by linarith) (by linarith)
      nlinarith
  rw [e]
  generalize -(a * x + a * s + b) = m at *
  refine ⟨?_, ?_, ?_⟩
  · rw [mul_pos_iff_of_pos_right p3]; constructor <;> intro h <;> linarith
  · rw [mul_neg_iff]
    constructor
    · rintro (h | h) <;> linarith [h.1, h.2]
    · intro h; exact Or.inr ⟨by linarith, p3⟩
  · rw [mul_eq_zero]
    constructor
    · rintro (h | h) <;> linarith
    · intro h; left; linarith

/-- A state behind an outer wave, with pressure `p` and contact speed `s`, is physical. -/
theorem star_warm {H : Cons} (hH : H.Warm) {k s p : ℝ} (hk1 : -1 < k) (hk2 : k < 1)
    (hs1 : -1 < s) (hs2 : s < 1) (hp : p * (1 - k * s) = H.Mx - s * H.E) :
    (⟨H.d, H.Mx - p, H.My, H.Mz, H.E - p * s⟩ : Cons).Warm := by
  have hE := hH.E
  have hm := hH.mx
  have has : |s| < 1 := abs_lt.2 ⟨hs1, hs2⟩
  have hak : |k| < 1 := abs_lt.2 ⟨hk1, hk2⟩
  have hks : |k * s| ≤ |s| := by rw [abs_mul]; nlinarith [abs_nonneg s]
  have hks' := abs_le.1 hks
  have hpos : 0 < 1 - k * s := by linarith
  refine ⟨hH.d, ?_, ?_⟩
  · simp only
    have hsm : s * H.Mx ≤ |s| * H.E := by
      have : |s * H.Mx| ≤ |s| * H.E := by
        rw [abs_mul]
        exact mul_le_mul_of_nonneg_left (abs_le.2 ⟨hm.1.le, hm.2.le⟩) (abs_nonneg _)
      exact (le_abs_self _).trans this
    have h1 : (1 - k * s) * (H.E - p * s) = H.E * (1 - k * s + s ^ 2) - s * H.Mx := by
      linear_combination -s * hp
    have h2 : 0 < (1 - |s|) ^ 2 := by have : 0 < 1 - |s| := by linarith
                                      positivity
    have h3 : (1 - |s|) ^ 2 ≤ 1 - k * s + s ^ 2 - |s| := by
      have := sq_abs s
      nlinarith
    have h4 : 0 < (1 - k * s) * (H.E - p * s) := by
      rw [h1]
      nlinarith [mul_pos hE (by linarith : 0 < 1 - k * s + s ^ 2 - |s|)]
    exact (mul_pos_iff_of_pos_left hpos).1 h4
  · have hl := hH.lt
    unfold Cons.msq at *
    simp only
    have h1 : 0 ≤ p ^ 2 * ((1 - k ^ 2) + (s - k) ^ 2) :=
      mul_nonneg (sq_nonneg _) (add_nonneg (by nlinarith) (sq_nonneg _))
    have h2 : (H.E - p * s) ^ 2 - (H.Mx - p) ^ 2 =
        H.E ^ 2 - H.Mx ^ 2 + p ^ 2 * ((1 - k ^ 2) + (s - k) ^ 2) := by
      linear_combination -2 * p * hp
    linarith

/-- Components of the HLL averages, from what leaves and enters the fan. -/
theorem uhll_eq (ll lr fl fr ul ur : ℝ) :
    uhll ll lr fl fr ul ur = ((fl + -ll * ul) + (lr * ur + -1 * fr)) / (lr - ll) := by
  unfold uhll; ring

theorem fhll_eq (ll lr fl fr ul ur : ℝ) :
    fhll ll lr fl fr ul ur = (lr * (fl + -ll * ul) + ll * (lr * ur + -1 * fr)) / (lr - ll) := by
  unfold fhll; ring

/-- The algebra of the contact: `EL`, `ML` leave on the left, `ER`, `MR` on the right. -/
theorem contact_alg {a b c ll lr EL ML ER MR : ℝ} (l1 : -1 < ll) (r1 : lr < 1) (hlr : ll < lr)
    (mL : -EL < ML ∧ ML < EL) (mR : -ER < MR ∧ MR < ER)
    (pLl : 0 < ML - ll * EL) (pRr : 0 < lr * ER - MR)
    (pLr : 0 < lr * EL - ML) (pRl : 0 < MR - ll * ER)
    (ea : a = (lr * EL + ll * ER) / (lr - ll))
    (eb : b = -((EL + ER) / (lr - ll) + (lr * ML + ll * MR) / (lr - ll)))
    (ec : c = (ML + MR) / (lr - ll)) :
    (a + b + c < 0 ∧ 0 < a - b + c) ∧ ∀ s p, -1 < s → s < 1 → a * s ^ 2 + b * s + c = 0 →
      p = -a * s + (lr * ML + ll * MR) / (lr - ll) →
      ll < s ∧ s < lr ∧ ML - s * EL = p * (1 - ll * s) ∧ s * ER - MR = p * (1 - lr * s) := by
  have hΔ : 0 < lr - ll := by linarith
  have key : ∀ x, a * x ^ 2 + b * x + c =
      ((MR - ER * x) * (1 - ll * x) + (ML - EL * x) * (1 - lr * x)) / (lr - ll) := by
    intro x; rw [ea, eb, ec]; ring
  have k1 : a + b + c < 0 := by
    have h := key 1
    have h2 : (MR - ER * 1) * (1 - ll * 1) + (ML - EL * 1) * (1 - lr * 1) < 0 := by
      have h3 := mul_pos (by linarith : 0 < ER - MR) (by linarith : 0 < 1 - ll)
      have h4 := mul_pos (by linarith : 0 < EL - ML) (by linarith : 0 < 1 - lr)
      linarith
    have := div_neg_of_neg_of_pos h2 hΔ
    rw [← h] at this
    linarith
  have k2 : 0 < a - b + c := by
    have h := key (-1)
    have h2 : 0 < (MR - ER * (-1)) * (1 - ll * (-1)) + (ML - EL * (-1)) * (1 - lr * (-1)) := by
      have h3 := mul_pos (by linarith : 0 < ER + MR) (by linarith : 0 < 1 + ll)
      have h4 := mul_pos (by linarith : 0 < EL + ML) (by linarith : 0 < 1 + lr)
      linarith
    have := div_pos h2 hΔ
    rw [← h] at this
    linarith
  have a1 : |ll| < 1 := abs_lt.2 ⟨l1, by linarith⟩
  have a2 : |lr| < 1 := abs_lt.2 ⟨by linarith, r1⟩
  have h1 : 0 < 1 - ll * ll := by nlinarith
  have h2 : 0 < 1 - lr * lr := by nlinarith
  have hllr : 0 < 1 - ll * lr := by
    have : |ll * lr| < 1 := by
      rw [abs_mul]
      nlinarith [abs_nonneg ll, abs_nonneg lr]
    linarith [(abs_lt.1 this).2]
  refine ⟨⟨k1, k2⟩, ?_⟩
  intro s p s1 s2 s3 eps
  refine ⟨?_, ?_, ?_, ?_⟩
  · refine ((quad_sign k1 k2 s1 s2 s3 l1.le (by linarith)).1).1 ?_
    rw [key]
    refine div_pos ?_ hΔ
    have h3 := mul_pos pRl h1
    have h4 := mul_pos pLl hllr
    linarith
  · refine ((quad_sign k1 k2 s1 s2 s3 (by linarith : -1 ≤ lr) r1.le).2.1).1 ?_
    rw [key]
    refine div_neg_of_neg_of_pos ?_ hΔ
    have h3 := mul_pos pLr h2
    have h4 := mul_pos pRr hllr
    linarith
  · rw [eps, ea]
    rw [key, div_eq_zero_iff] at s3
    have s3 := s3.resolve_right hΔ.ne'
    have hΔ' := hΔ.ne'
    clear k1 k2 key ea eb ec
    field_simp
    linear_combination -ll * s3
  · rw [eps, ea]
    rw [key, div_eq_zero_iff] at s3
    have s3 := s3.resolve_right hΔ.ne'
    have hΔ' := hΔ.ne'
    clear k1 k2 key ea eb ec
    field_simp
    linear_combination -lr * s3

/-- Everything about the fan between two outer waves `ll < lr`. -/
structure Fan (g ll lr : ℝ) (Wl Wr : Prim) : Prop where
  bl : Before g Wl ll
  br : Before g Wr ll
  al : Beyond g Wl lr
  ar : Beyond g Wr lr

/-- Contact speed of the solver for two primitive states and outer waves. -/
noncomputable def lamS (g ll lr : ℝ) (Wl Wr : Prim) : ℝ :=
  contactSpeed ll lr (fluxSide (primToCons g Wl) Wl) (fluxSide (primToCons g Wr) Wr)
    (primToCons g Wl) (primToCons g Wr)

/-- Star pressure of the solver for two primitive states and outer waves. -/
noncomputable def prsS (g ll lr : ℝ) (Wl Wr : Prim) : ℝ :=
  starPressure ll lr (lamS g ll lr Wl Wr) (fluxSide (primToCons g Wl) Wl)
    (fluxSide (primToCons g Wr) Wr) (primToCons g Wl) (primToCons g Wr)

section contact
variable {g : ℝ} (hg : 1 < g) (hg2 : g ≤ 2) {Wl Wr : Prim} (hl : Wl.Warm) (hr : Wr.Warm)
  {ll lr : ℝ} (hf : Fan g ll lr Wl Wr)
include hg hg2 hl hr hf

theorem contact_spec :
    let a := fhll ll lr (fluxSide (primToCons g Wl) Wl).E (fluxSide (primToCons g Wr) Wr).E
      (primToCons g Wl).E (primToCons g Wr).E
    let b := -(uhll ll lr (fluxSide (primToCons g Wl) Wl).E (fluxSide (primToCons g Wr) Wr).E
      (primToCons g Wl).E (primToCons g Wr).E +
        fhll ll lr (fluxSide (primToCons g Wl) Wl).Mx (fluxSide (primToCons g Wr) Wr).Mx
      (primToCons g Wl).Mx (primToCons g Wr).Mx)
    let c := uhll ll lr (fluxSide (primToCons g Wl) Wl).Mx (fluxSide (primToCons g Wr) Wr).Mx
      (primToCons g Wl).Mx (primToCons g Wr).Mx
    (a + b + c < 0 ∧ 0 < a - b + c) ∧ ll < lamS g ll lr Wl Wr ∧ lamS g ll lr Wl Wr < lr ∧
    (outL g ll Wl).Mx - lamS g ll lr Wl Wr * (outL g ll Wl).E =
      prsS g ll lr Wl Wr * (1 - ll * lamS g ll lr Wl Wr) ∧
    lamS g ll lr Wl Wr * (outR g lr Wr).E - (outR g lr Wr).Mx =
      prsS g ll lr Wl Wr * (1 - lr * lamS g ll lr Wl Wr) := by
  intro a b c
  have hL := outL_warm hg hg2 hl hf.bl
  have hR := outR_warm hg hg2 hr hf.ar
  have cl := cross_pos hg hg2 hl hf.bl hf.al
  have cr := cross_pos hg hg2 hr hf.br hf.ar
  have l1 := hf.bl.gt
  have r1 := hf.al.lt
  have hlr : ll < lr := by linarith [hf.bl.lt, hf.al.gt]
  have hΔ : 0 < lr - ll := by linarith
  have ea : a = (lr * (outL g ll Wl).E + ll * (outR g lr Wr).E) / (lr - ll) := fhll_eq ..
  have eb : b = -(((outL g ll Wl).E + (outR g lr Wr).E) / (lr - ll) +
      (lr * (outL g ll Wl).Mx + ll * (outR g lr Wr).Mx) / (lr - ll)) := by
    simp only [b, uhll_eq, fhll_eq]; rfl
  have ec : c = ((outL g ll Wl).Mx + (outR g lr Wr).Mx) / (lr - ll) := uhll_eq ..
  have elam : lamS g ll lr Wl Wr = contactRoot a b c := rfl
  have eps : prsS g ll lr Wl Wr = -a * lamS g ll lr Wl Wr +
      (lr * (outL g ll Wl).Mx + ll * (outR g lr Wr).Mx) / (lr - ll) := by
    unfold prsS starPressure
    rw [fhll_eq ll lr (fluxSide (primToCons g Wl) Wl).Mx]
    rfl
  have mL := hL.mx
  have mR := hR.mx
  have eLr : lr * (outL g ll Wl).E - (outL g ll Wl).Mx =
      Wl.q g * (Wl.Vx - ll) * (lr - Wl.Vx) - Wl.P * (1 - ll * lr) := by
    rw [outL_eq]; ring
  have eLl : (outL g ll Wl).Mx - ll * (outL g ll Wl).E =
      Wl.q g * (Wl.Vx - ll) ^ 2 + Wl.P * (1 - ll ^ 2) := by
    rw [outL_eq]; ring
  have eRl : (outR g lr Wr).Mx - ll * (outR g lr Wr).E =
      Wr.q g * (Wr.Vx - ll) * (lr - Wr.Vx) - Wr.P * (1 - ll * lr) := by
    rw [outR_eq]; ring
  have eRr : lr * (outR g lr Wr).E - (outR g lr Wr).Mx =
      Wr.q g * (lr - Wr.Vx) ^ 2 + Wr.P * (1 - lr ^ 2) := by
    rw [outR_eq]; ring
  have pLl : 0 < (outL g ll Wl).Mx - ll * (outL g ll Wl).E := by
    rw [eLl]
    have := q_pos hg hg2 hl
    have := hl.P
    have h3 : 0 < 1 - ll ^ 2 := by nlinarith
    positivity
  have pRr : 0 < lr * (outR g lr Wr).E - (outR g lr Wr).Mx := by
    rw [eRr]
    have := q_pos hg hg2 hr
    have := hr.P
    have h3 : 0 < 1 - lr ^ 2 := by nlinarith
    positivity
  have pLr : 0 < lr * (outL g ll Wl).E - (outL g ll Wl).Mx := by rw [eLr]; linarith
  have pRl : 0 < (outR g lr Wr).Mx - ll * (outR g lr Wr).E := by rw [eRl]; linarith
  generalize (outL g ll Wl).E = EL at *
  generalize (outL g ll Wl).Mx = ML at *
  generalize (outR g lr Wr).E = ER at *
  generalize (outR g lr Wr).Mx = MR at *
  clear_value a b c
  obtain ⟨h1, h2⟩ := contact_alg l1 r1 hlr mL mR pLl pRr pLr pRl ea eb ec
  obtain ⟨-, -, -, s1, s2, s3⟩ := contactRoot_spec h1.1 h1.2
  rw [← elam] at s1 s2 s3
  exact ⟨h1, h2 _ _ s1 s2 s3 eps⟩

theorem starL_eq : starState ll (lamS g ll lr Wl Wr) (prsS g ll lr Wl Wr) (primToCons g Wl) Wl =
    Cons.smul (1 / (lamS g ll lr Wl Wr - ll)) ⟨(outL g ll Wl).d,
      (outL g ll Wl).Mx - prsS g ll lr Wl Wr, (outL g ll Wl).My, (outL g ll Wl).Mz,
      (outL g ll Wl).E - prsS g ll lr Wl Wr * lamS g ll lr Wl Wr⟩ := by
  obtain ⟨-, h, -⟩ := contact_spec hg hg2 hl hr hf
  unfold starState Cons.smul
  rw [outL_eq, primToCons_eq]
  change _ = (_ : Cons)
  generalize lamS g ll lr Wl Wr = s at *
  generalize prsS g ll lr Wl Wr = p at *
  have h1 : ll - s ≠ 0 := by linarith
  have h2 : s - ll ≠ 0 := by linarith
  have e : 1 / (ll - s) = -(1 / (s - ll)) := by
    rw [← neg_sub s ll, one_div_neg_eq_neg_one_div]
  ext <;> simp only [e, Prim.q] <;> ring

theorem starR_eq : starState lr (lamS g ll lr Wl Wr) (prsS g ll lr Wl Wr) (primToCons g Wr) Wr =
    Cons.smul (1 / (lr - lamS g ll lr Wl Wr)) ⟨(outR g lr Wr).d,
      (outR g lr Wr).Mx - -prsS g ll lr Wl Wr, (outR g lr Wr).My, (outR g lr Wr).Mz,
      (outR g lr Wr).E - -prsS g ll lr Wl Wr * lamS g ll lr Wl Wr⟩ := by
  unfold starState Cons.smul
  rw [outR_eq, primToCons_eq]
  ext <;> simp only [Prim.q] <;> ring

theorem starL_warm :
    (starState ll (lamS g ll lr Wl Wr) (prsS g ll lr Wl Wr) (primToCons g Wl) Wl).Warm := by
  obtain ⟨-, h1, h2, h3, -⟩ := contact_spec hg hg2 hl hr hf
  rw [starL_eq hg hg2 hl hr hf]
  have := hf.bl.gt
  have := hf.al.lt
  have := hf.bl.lt
  have := (vx_lt hl.v).2
  exact (star_warm (outL_warm hg hg2 hl hf.bl) (by linarith) (by linarith) (by linarith)
    (by linarith) h3.symm).smul (div_pos one_pos (by linarith))

theorem starR_warm :
    (starState lr (lamS g ll lr Wl Wr) (prsS g ll lr Wl Wr) (primToCons g Wr) Wr).Warm := by
  obtain ⟨-, h1, h2, -, h3⟩ := contact_spec hg hg2 hl hr hf
  rw [starR_eq hg hg2 hl hr hf]
  have := hf.bl.gt
  have := hf.al.lt
  have := hf.ar.gt
  have := (vx_lt hr.v).1
  exact (star_warm (outR_warm hg hg2 hr hf.ar) (k := lr) (by linarith) (by linarith) (by linarith)
    (by linarith) (by linear_combination h3)).smul (div_pos one_pos (by linarith))

end contact
end Athena.Rel
