import Verif.Rel.HlleFlux

/-!
C108, C110: the fallback signal speeds of hlle_sr.c bound every magnetosonic wave; the edges of
the fan enclose the speeds of both states; the entropy flux.
-/
namespace Athena.Rel

/-- Roots of the quadratic behind the fallback. -/
theorem echo_roots {A v2 u : ℝ} (h0 : 0 < A) (h1 : A < 1) (hu : u ^ 2 ≤ v2) (hv : v2 < 1) :
    let r := A * (1 - v2) * (1 - v2 * A - (1 - A) * (u * u))
    let lm := ((1 - A) * u - √r) * (1 / (1 - v2 * A))
    let lp := ((1 - A) * u + √r) * (1 / (1 - v2 * A))
    0 ≤ r ∧ -1 < lm ∧ lm < u ∧ u < lp ∧ lp < 1 ∧
      ∀ x, (1 - A) * (x - u) ^ 2 - (1 - x ^ 2) * (A * (1 - v2)) =
        (1 - v2 * A) * ((x - lm) * (x - lp)) := by
  intro r lm lp
  have hv0 : 0 ≤ v2 := le_trans (sq_nonneg _) hu
  have hA : v2 * A < 1 := by nlinarith
  have hk : 0 < 1 - v2 * A := by linarith
  have hr : 0 < r := by
    have e : 1 - v2 * A - (1 - A) * (u * u) = (1 - A) * (1 - u ^ 2) + A * (1 - v2) := by ring
    have p1 : 0 < 1 - A := by linarith
    have p2 : 0 < 1 - u ^ 2 := by linarith
    have p3 : 0 < 1 - v2 := by linarith
    simp only [r]
    rw [e]
    positivity
  have hs := Real.sq_sqrt hr.le
  have hs0 := Real.sqrt_pos.2 hr
  have key : ∀ x, (1 - A) * (x - u) ^ 2 - (1 - x ^ 2) * (A * (1 - v2)) =
      (1 - v2 * A) * ((x - lm) * (x - lp)) := by
    intro x
    have hk' := hk.ne'
    have e1 : (1 - v2 * A) * lm = (1 - A) * u - √r := by simp only [lm]; field_simp
    have e2 : (1 - v2 * A) * lp = (1 - A) * u + √r := by simp only [lp]; field_simp
    have e : r = A * (1 - v2) * (1 - v2 * A - (1 - A) * (u * u)) := rfl
    generalize √r = s at *
    generalize lm = lm at *
    generalize lp = lp at *
    apply mul_left_cancel₀ hk'
    linear_combination ((1 - v2 * A) * x - (1 - v2 * A) * lp) * e1 +
      ((1 - v2 * A) * x - (1 - A) * u + s) * e2 + hs + e
  have hlt : lm < lp := by
    simp only [lm, lp]
    apply mul_lt_mul_of_pos_right _ (by positivity)
    linarith
  have v1 : -1 < u := by nlinarith
  have v3 : u < 1 := by nlinarith
  have q1 : (u - lm) * (u - lp) < 0 := by
    have e := key u
    have : 0 < (1 - u ^ 2) * (A * (1 - v2)) :=
      mul_pos (by linarith) (mul_pos h0 (by linarith))
    simp only [sub_self] at e
    by_contra hc
    have := mul_nonneg hk.le (not_lt.1 hc)
    nlinarith
  have q2 : 0 < (1 - lm) * (1 - lp) := by
    have e := key 1
    have : 0 < (1 - A) * (1 - u) ^ 2 := mul_pos (by linarith) (by nlinarith)
    refine (mul_pos_iff_of_pos_left hk).1 ?_
    rw [← e]; linarith
  have q3 : 0 < (-1 - lm) * (-1 - lp) := by
    have e := key (-1)
    have : 0 < (1 - A) * (-1 - u) ^ 2 := mul_pos (by linarith) (by nlinarith)
    refine (mul_pos_iff_of_pos_left hk).1 ?_
    rw [← e]; linarith
  have m1 : lm < u := by
    by_contra hc
    push Not at hc
    have := mul_nonneg_of_nonpos_of_nonpos (a := u - lm) (b := u - lp) (by linarith) (by linarith)
    linarith
  have m2 : u < lp := by
    by_contra hc
    push Not at hc
    have := mul_nonneg (a := u - lm) (b := u - lp) (by linarith) (by linarith)
    linarith
  refine ⟨hr.le, ?_, m1, m2, ?_, key⟩
  · by_contra hc
    push Not at hc
    have := mul_nonpos_of_nonneg_of_nonpos (a := -1 - lm) (b := -1 - lp) (by linarith) (by linarith)
    linarith
  · by_contra hc
    push Not at hc
    have := mul_nonpos_of_nonneg_of_nonpos (a := 1 - lm) (b := 1 - lp) (by linarith) (by linarith)
    linarith

/-- Outside its roots the quadratic is positive, and then so is the quartic. -/
theorem echo_out {A v2 u k c2 y x lm lp : ℝ} (ht : 0 < 1 - v2) (hk : 0 < k) (hkv : 0 < 1 - v2 * A)
    (c0 : 0 < c2) (h1 : lm < u) (h2 : u < lp) (x1 : -1 ≤ x) (x2 : x ≤ 1)
    (hq : (1 - A) * (x - u) ^ 2 - (1 - x ^ 2) * (A * (1 - v2)) =
      (1 - v2 * A) * ((x - lm) * (x - lp)))
    (hx : k * (1 - A) * (1 / (1 - v2)) * (x - u) ^ 4 -
      (1 - x ^ 2) * (k * A * (x - u) ^ 2 - c2 * y ^ 2) = 0) : lm ≤ x ∧ x ≤ lp := by
  have out : ¬ 0 < (x - lm) * (x - lp) ∨ x = u := by
    by_contra hcon
    push Not at hcon
    obtain ⟨p1, p2⟩ := hcon
    have p3 : 0 < (x - u) ^ 2 := by
      have : x - u ≠ 0 := sub_ne_zero.2 p2
      positivity
    have p5 : 0 ≤ (1 - x ^ 2) * (c2 * y ^ 2) := mul_nonneg (by nlinarith) (by positivity)
    have p6 : 0 < k * (1 / (1 - v2)) * (x - u) ^ 2 * ((1 - v2 * A) * ((x - lm) * (x - lp))) := by
      positivity
    rw [← hq] at p6
    have e : k * (1 / (1 - v2)) * (x - u) ^ 2 *
        ((1 - A) * (x - u) ^ 2 - (1 - x ^ 2) * (A * (1 - v2))) =
        k * (1 - A) * (1 / (1 - v2)) * (x - u) ^ 4 - (1 - x ^ 2) * (k * A * (x - u) ^ 2) := by
      have hne := ht.ne'
      field_simp
    rw [e] at p6
    linarith
  rcases out with o | o
  · rw [not_lt] at o
    constructor
    · by_contra hc
      push Not at hc
      have := mul_pos_of_neg_of_neg (a := x - lm) (b := x - lp) (by linarith) (by linarith)
      linarith
    · by_contra hc
      push Not at hc
      have := mul_pos (a := x - lm) (b := x - lp) (by linarith) (by linarith)
      linarith
  · rw [o]; exact ⟨h1.le, h2.le⟩

/-- **C108, the fallback.**  For every admissible state and every field the fallback signal
speeds exist, are slower than light, lie on either side of the gas velocity, and no magnetosonic
wave outruns them. -/
theorem sr_mhd_fallback_bounds {g : ℝ} (hg : 1 < g) (hg2 : g ≤ 2) (W : PrimB) (Bx : ℝ)
    (h : W.Warm) :
    ∃ lm lp : ℝ, vcharEcho g W Bx = ⟨some lm, some lp⟩ ∧ -1 < lm ∧ lm < W.Vx ∧ W.Vx < lp ∧
      lp < 1 ∧ ∀ x, -1 ≤ x → x ≤ 1 → magnetosonic g W Bx x = 0 → lm ≤ x ∧ x ≤ lp := by
  obtain ⟨c0, c1⟩ := h.cs hg hg2
  have ht : 0 < 1 - W.vsq := by linarith [h.v]
  have hw := h.enth_pos hg
  have hb : 0 ≤ W.bsq Bx := le_trans (sq_nonneg _) h.bsq_nonneg
  have hk : 0 < W.enth g + W.bsq Bx := by linarith
  have hvx : W.Vx ^ 2 ≤ W.vsq := by
    unfold PrimB.vsq; nlinarith [sq_nonneg W.Vy, sq_nonneg W.Vz]
  set c2 := g * W.P / W.enth g with hc2
  set va := W.bsq Bx / (W.enth g + W.bsq Bx) with hva
  have va0 : 0 ≤ va := by positivity
  have va1 : va < 1 := by rw [hva, div_lt_one hk]; linarith
  set A := c2 + va - c2 * va with hA
  have A0 : 0 < A := by
    have : 0 ≤ va * (1 - c2) := mul_nonneg va0 (by linarith)
    rw [hA]; nlinarith
  have A1 : A < 1 := by
    have : 0 < (1 - c2) * (1 - va) := mul_pos (by linarith) (by linarith)
    rw [hA]; nlinarith
  have hW1 : W.enth g * (1 - c2) = (W.enth g + W.bsq Bx) * (1 - A) := by
    have hne := hk.ne'
    rw [hA, hva]; field_simp; ring
  have hW2 : W.bsq Bx + W.enth g * c2 = (W.enth g + W.bsq Bx) * A := by
    have hne := hk.ne'
    rw [hA, hva]; field_simp; ring
  have hkv : 0 < 1 - W.vsq * A := by
    have := mul_lt_one_of_nonneg_of_lt_one_left (le_trans (sq_nonneg _) hvx) h.v A1.le
    linarith
  obtain ⟨r0, r1, r2, r3, r4, r5⟩ := echo_roots A0 A1 hvx h.v
  refine ⟨_, _, ?_, r1, r2, r3, r4, ?_⟩
  · have e1 : W.Vx * W.Vx + W.Vy * W.Vy + W.Vz * W.Vz = W.vsq := by unfold PrimB.vsq; ring
    have e2 : W.d + g / (g - 1) * W.P = W.enth g := rfl
    have e3 : (Bx * Bx + W.By * W.By + W.Bz * W.Bz) * (1 - W.vsq) +
        (W.Vx * Bx + W.Vy * W.By + W.Vz * W.Bz) * (W.Vx * Bx + W.Vy * W.By + W.Vz * W.Bz) =
        W.bsq Bx := by unfold PrimB.bsq PrimB.vB; ring
    have hne := hkv.ne'
    unfold vcharEcho
    simp only [e1, e2, e3, ← hc2, ← hva, ← hA]
    rw [if_neg (by linarith), if_neg (by linarith : ¬ A < 0), if_neg (by linarith : ¬ A > 1),
      if_neg hne]
    unfold sqrtN
    rw [if_pos r0]
    simp only
    rw [if_pos (by linarith)]
  · intro x x1 x2 hx
    rw [magneto_eq h] at hx
    simp only [← hc2] at hx
    rw [hW1, hW2] at hx
    have hG : (1 / (1 - W.vsq)) ≠ 0 := by positivity
    have hx' := (mul_eq_zero.1 hx).resolve_left hG
    exact echo_out ht hk hkv c0 r2 r3 x1 x2 (r5 x) hx'

/-- **C110, edges.**  If the speeds of both states are within the light cone, the edges of the fan
are the smaller of the two leftgoing and the greater of the two rightgoing speeds. -/
theorem sr_hlle_edges {g : ℝ} {Wl Wr : PrimB} {Bx a b c d : ℝ}
    (hl : vcharPluto g Wl Bx = ⟨some a, some b⟩) (hr : vcharPluto g Wr Bx = ⟨some c, some d⟩)
    (ha : -1 ≤ a) (hb : b ≤ 1) (hc : -1 ≤ c) (hd : d ≤ 1) :
    (hlleSpeeds g Wl Wr Bx).l = min a c ∧ (hlleSpeeds g Wl Wr Bx).r = max b d := by
  have e1 : maxSpeeds (vcharPluto g Wl Bx) (vcharPluto g Wr Bx) =
      ⟨some (min a c), some (max b d)⟩ := by
    rw [hl, hr, maxSpeeds, minN, maxN]
    congr 1
    · split_ifs with q
      · rw [min_eq_left q.le]
      · rw [min_eq_right (not_lt.1 q)]
    · split_ifs with q
      · rw [max_eq_left (le_of_lt q)]
      · rw [max_eq_right (not_lt.1 q)]
  have e2 : checkSpeeds ⟨some (min a c), some (max b d)⟩ = (⟨min a c, max b d⟩, false) := by
    unfold checkSpeeds
    simp only
    rw [if_neg (not_lt.2 (le_min ha hc)), if_neg (not_lt.2 (max_le hb hd))]
  unfold hlleSpeeds
  simp only [e1, e2]
  simp

/-- **C110, fallback.**  If an estimate comes out superluminal, and the fallback estimates of both
states are within the light cone, the edges are those of the fallback. -/
theorem sr_hlle_edges_fallback {g : ℝ} {Wl Wr : PrimB} {Bx a b c d : ℝ} {s t : ℝ}
    (hp : maxSpeeds (vcharPluto g Wl Bx) (vcharPluto g Wr Bx) = ⟨some s, some t⟩)
    (hst : s < -1 ∨ 1 < t)
    (hl : vcharEcho g Wl Bx = ⟨some a, some b⟩) (hr : vcharEcho g Wr Bx = ⟨some c, some d⟩)
    (ha : -1 ≤ a) (hb : b ≤ 1) (hc : -1 ≤ c) (hd : d ≤ 1) :
    (hlleSpeeds g Wl Wr Bx).l = min a c ∧ (hlleSpeeds g Wl Wr Bx).r = max b d := by
  have e0 : (checkSpeeds ⟨some s, some t⟩).2 = true := by
    unfold checkSpeeds
    simp only
    split_ifs with q1 q2
    · rfl
    · rfl
    · rcases hst with q | q
      · exact absurd q q1
      · exact absurd q q2
  have e1 : maxSpeeds (vcharEcho g Wl Bx) (vcharEcho g Wr Bx) =
      ⟨some (min a c), some (max b d)⟩ := by
    rw [hl, hr, maxSpeeds, minN, maxN]
    congr 1
    · split_ifs with q
      · rw [min_eq_left q.le]
      · rw [min_eq_right (not_lt.1 q)]
    · split_ifs with q
      · rw [max_eq_left (le_of_lt q)]
      · rw [max_eq_right (not_lt.1 q)]
  have e2 : checkSpeeds ⟨some (min a c), some (max b d)⟩ = (⟨min a c, max b d⟩, false) := by
    unfold checkSpeeds
    simp only
    rw [if_neg (not_lt.2 (le_min ha hc)), if_neg (not_lt.2 (max_le hb hd))]
  unfold hlleSpeeds
  simp only [hp, e0, e1, e2]
  simp

/-- **C110, no wave outruns the fan.**  Without field across the face, every magnetosonic wave of
either state stays within the fan, which moves slower than light. -/
theorem sr_hlle_encloses_partial {g : ℝ} (hg : 1 < g) (hg2 : g ≤ 2) (Wl Wr : PrimB) (hl : Wl.Warm)
    (hr : Wr.Warm) (vl : 1 / 10 ^ 12 ≤ Wl.vsq) (vr : 1 / 10 ^ 12 ≤ Wr.vsq) :
    let S := hlleSpeeds g Wl Wr 0
    (-1 < S.l) ∧ S.l < S.r ∧ S.r < 1 ∧ ∀ x, (magnetosonic g Wl 0 x = 0 ∨ magnetosonic g Wr 0 x = 0) →
      S.l ≤ x ∧ x ≤ S.r := by
  intro S
  obtain ⟨a, b, h1, h2, h3, h4, h5, h6⟩ := sr_mhd_speeds_noBx hg hg2 Wl hl vl
  obtain ⟨c, d, k1, k2, k3, k4, k5, k6⟩ := sr_mhd_speeds_noBx hg hg2 Wr hr vr
  obtain ⟨e1, e2⟩ := sr_hlle_edges h1 k1 h2.le h5.le k2.le k5.le
  change S.l = _ at e1
  change S.r = _ at e2
  rw [e1, e2]
  have m0 := min_le_left a c
  have m0' := le_max_left b d
  refine ⟨lt_min h2 k2, by linarith, max_lt h5 k5, ?_⟩
  rintro x (hx | hx)
  · have m1 := min_le_left a c
    have m2 := le_max_left b d
    rcases (h6 x).1 hx with q | q | q <;> subst q <;> constructor <;> linarith
  · have m1 := min_le_right a c
    have m2 := le_max_right b d
    rcases (k6 x).1 hx with q | q | q <;> subst q <;> constructor <;> linarith

/-- Density in the laboratory frame of the entropy `P/ρ^Γ` carried by the gas. -/
noncomputable def entropyDens (g : ℝ) (W : PrimB) : ℝ :=
  W.P / W.d ^ g * (W.d / √(1 - W.vsq))

/-- **C110, entropy.**  The flux of the entropy is carried by the gas on the upwind side, and
between the edges that of one intermediate density satisfying both jump conditions. -/
theorem sr_hlle_entropy {g : ℝ} (Wl Wr : PrimB) (Bx : ℝ) (hl : Wl.Warm) (hr : Wr.Warm) :
    let S := hlleSpeeds g Wl Wr Bx
    let F := hlleEntropy g (primToConsB g Wl Bx) (primToConsB g Wr Bx) Wl Wr Bx
    (0 ≤ S.l → F = entropyDens g Wl * Wl.Vx) ∧ (S.l < 0 → S.r ≤ 0 → F = entropyDens g Wr * Wr.Vx) ∧
    (S.l < 0 → 0 < S.r → ∃ σ : ℝ, F - entropyDens g Wl * Wl.Vx = S.l * (σ - entropyDens g Wl) ∧
      entropyDens g Wr * Wr.Vx - F = S.r * (entropyDens g Wr - σ)) := by
  intro S F
  have key : ∀ W : PrimB, W.Warm → W.P * W.d ^ (1 - g) * (primToConsB g W Bx).d / W.d =
      entropyDens g W := by
    intro W h
    have e1 : W.Vx * W.Vx + W.Vy * W.Vy + W.Vz * W.Vz = W.vsq := by unfold PrimB.vsq; ring
    have e2 : √(1 / (1 - W.vsq)) = 1 / √(1 - W.vsq) := by
      rw [Real.sqrt_div zero_le_one, Real.sqrt_one]
    have hd := h.d.ne'
    simp only [primToConsB, e1, e2, entropyDens]
    rw [Real.rpow_sub h.d, Real.rpow_one]
    have := (Real.rpow_pos_of_pos h.d g).ne'
    field_simp
  have hF : F = if S.l ≥ 0 then entropyDens g Wl * Wl.Vx
      else if S.r ≤ 0 then entropyDens g Wr * Wr.Vx
      else hllOne S.l S.r (entropyDens g Wl * Wl.Vx) (entropyDens g Wr * Wr.Vx)
        (entropyDens g Wl) (entropyDens g Wr) := by
    simp only [F, hlleEntropy, key Wl hl, key Wr hr, S]
  refine ⟨?_, ?_, ?_⟩
  · intro h; rw [hF, if_pos h]
  · intro h1 h2; rw [hF, if_neg (not_le.2 h1), if_pos h2]
  · intro h1 h2
    rw [hF, if_neg (not_le.2 h1), if_neg (not_le.2 h2)]
    have hne : S.r - S.l ≠ 0 := by linarith
    generalize entropyDens g Wl = ul
    generalize entropyDens g Wr = ur
    generalize S.l = a at *
    generalize S.r = b at *
    refine ⟨(b * ur - a * ul + ul * Wl.Vx - ur * Wr.Vx) / (b - a), ?_, ?_⟩ <;>
    · unfold hllOne
      field_simp
      ring

/-- The hypotheses are met: two streams with field along the face. -/
example : PrimB.Warm ⟨1, 1 / 2, 1 / 2, 0, 2, 1, -2⟩ ∧ PrimB.Warm ⟨4, -1 / 2, 0, 0, 1 / 10, 3, 0⟩ ∧
    1 / 10 ^ 12 ≤ PrimB.vsq ⟨1, 1 / 2, 1 / 2, 0, 2, 1, -2⟩ ∧
    1 / 10 ^ 12 ≤ PrimB.vsq ⟨4, -1 / 2, 0, 0, 1 / 10, 3, 0⟩ := by
  refine ⟨⟨?_, ?_, ?_⟩, ⟨?_, ?_, ?_⟩, ?_, ?_⟩ <;> norm_num [PrimB.vsq]

end Athena.Rel
