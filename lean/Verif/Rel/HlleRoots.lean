import Verif.Rel.Hlle
import Mathlib.Tactic.Linarith
import Mathlib.Tactic.LinearCombination
import Mathlib.Tactic.FieldSimp
import Mathlib.Tactic.Positivity
import Mathlib.Tactic.SplitIfs

/-!
C109: the closed-form solutions of the cubic and the quartic equation in hlle_sr.c.
-/
namespace Athena.Rel

/-- **C109, cubic.**  If `z³ + b z² + c z + d` (with `c` lowered by the fraction `dc` where the
code lowers it) has only real roots, not all equal, then `CUBIC` returns them in increasing
order. -/
theorem cubic_solves (dc b c d : ℝ)
    (hf : 0 < -(c * (1 - dc) - b * b / 3))
    (hd : (b * (2 * b ^ 2 - 9 * c) / 27 + d) ^ 2 / 4 ≤ (-(c * (1 - dc) - b * b / 3)) ^ 3 / 27) :
    ∃ u : Roots3, cubicRoots dc b c d = some u ∧ u.z0 ≤ u.z1 ∧ u.z1 ≤ u.z2 ∧
      ∀ z, (z - u.z0) * (z - u.z1) * (z - u.z2) =
        z ^ 3 + b * z ^ 2 + c * z + d - dc * c * (z + b / 3) := by
  set f := c * (1 - dc) - b * b * (1 / 3) with hfd
  set g := b * (2 * (b * b) - 9 * c) * (1 / 27) + d with hgd
  have hf' : 0 < -f := by rw [hfd]; linarith
  have hg' : g ^ 2 / 4 ≤ (-f) ^ 3 / 27 := by
    have e1 : g = b * (2 * b ^ 2 - 9 * c) / 27 + d := by rw [hgd]; ring
    have e2 : f = c * (1 - dc) - b * b / 3 := by rw [hfd]; ring
    rw [e1, e2]; exact hd
  have hi2 : 0 < -f * f * f * (1 / 27) := by
    have : -f * f * f * (1 / 27) = (-f) ^ 3 / 27 := by ring
    rw [this]; positivity
  set i := √(-f * f * f * (1 / 27)) with hid
  have hi0 : 0 < i := Real.sqrt_pos.2 hi2
  have hisq : i ^ 2 = (-f) ^ 3 / 27 := by
    rw [hid, Real.sq_sqrt hi2.le]; ring
  set j := i ^ (1 / 3 : ℝ) with hjd
  have hj0 : 0 < j := Real.rpow_pos_of_pos hi0 _
  have hj3 : j ^ 3 = i := by
    rw [hjd, ← Real.rpow_natCast, ← Real.rpow_mul hi0.le]
    norm_num
  have hj2 : j ^ 2 = -f / 3 := by
    have h1 : (j ^ 2) ^ 3 = (-f / 3) ^ 3 := by
      calc (j ^ 2) ^ 3 = (j ^ 3) ^ 2 := by ring
        _ = (-f / 3) ^ 3 := by rw [hj3, hisq]; ring
    exact (pow_left_inj₀ (by positivity) (by linarith) (by norm_num)).1 h1
  set k := -(1 / 2) * g / i with hk
  have hks : k ^ 2 ≤ 1 := by
    have : k ^ 2 = g ^ 2 / 4 / i ^ 2 := by rw [hk]; field_simp; ring
    rw [this, div_le_one (by positivity), hisq]
    exact hg'
  have hk1 : -1 ≤ k := by nlinarith
  have hk2 : k ≤ 1 := by nlinarith
  set t := Real.arccos k * (1 / 3) with ht
  have hcos : 4 * Real.cos t ^ 3 - 3 * Real.cos t = k := by
    rw [← Real.cos_three_mul, ht, show 3 * (Real.arccos k * (1 / 3)) = Real.arccos k by ring]
    exact Real.cos_arccos hk1 hk2
  have ht0 : 0 ≤ t := by rw [ht]; have := Real.arccos_nonneg k; positivity
  have ht1 : t ≤ Real.pi / 3 := by rw [ht]; have := Real.arccos_le_pi k; linarith
  have hs0 : 0 ≤ Real.sin t := Real.sin_nonneg_of_nonneg_of_le_pi ht0 (by linarith [Real.pi_pos])
  have hc0 : 1 / 2 ≤ Real.cos t := by
    rw [← Real.cos_pi_div_three]
    exact Real.cos_le_cos_of_nonneg_of_le_pi ht0 (by linarith [Real.pi_pos]) ht1
  have hsc := Real.sin_sq_add_cos_sq t
  set m := Real.cos t with hm
  set n := √3 * Real.sin t with hn
  have hn0 : 0 ≤ n := by rw [hn]; positivity
  have hnsq : n ^ 2 = 3 * (1 - m ^ 2) := by
    rw [hn, mul_pow, Real.sq_sqrt (by norm_num)]
    linarith
  have hn3 : n ≤ 3 * m := by
    refine abs_le_of_sq_le_sq' ?_ (by linarith) |>.2
    rw [hnsq]
    have : (1 / 2) ^ 2 ≤ m ^ 2 := pow_le_pow_left₀ (by norm_num) hc0 2
    linarith
  refine ⟨⟨-j * (m + n) + -b * (1 / 3), -j * (m - n) + -b * (1 / 3), 2 * j * m + -b * (1 / 3)⟩,
    ?_, ?_, ?_, ?_⟩
  · unfold cubicRoots
    simp only
    rw [← hfd, ← hgd, if_neg (not_lt.2 hi2.le), ← hid, ← hjd, if_neg (by rintro ⟨h, -⟩; linarith),
      if_neg hi0.ne', ← hk, if_neg (not_lt.2 hk1), if_neg (not_lt.2 hk2), ← ht, ← hm, ← hn]
  · have := mul_nonneg hj0.le hn0
    simp only
    linarith
  · have := mul_nonneg hj0.le (by linarith : 0 ≤ 3 * m - n)
    simp only
    linarith
  · intro z
    simp only
    have hik : 2 * i * k = -g := by rw [hk]; field_simp
    have e : (z - (-j * (m + n) + -b * (1 / 3))) * (z - (-j * (m - n) + -b * (1 / 3))) *
        (z - (2 * j * m + -b * (1 / 3))) =
        (z + b / 3) ^ 3 - j ^ 2 * (3 * m ^ 2 + n ^ 2) * (z + b / 3)
          - 2 * j ^ 3 * (m ^ 3 - m * n ^ 2) := by ring
    rw [e, hnsq, hj2, hj3]
    have e2 : 2 * i * (m ^ 3 - m * (3 * (1 - m ^ 2))) = -g := by
      rw [← hik, ← hcos]; ring
    rw [e2, hfd, hgd]
    ring

/-- **C109, quartic.**  If the three numbers given are the roots of the resolvent cubic, the
larger two not negligible, then the formulas of `QUARTIC` give all four roots of
`x⁴ + b x³ + c x² + d x + e`. -/
theorem quartic_solves (b c d e : ℝ) (u : Roots3) :
    let f := c - b ^ 2 * (3 / 8)
    let g := d + b ^ 3 * (1 / 8) - b * c * (1 / 2)
    let h := e - b ^ 4 * (3 / 256) + (1 / 16) * b ^ 2 * c - (1 / 4) * b * d
    (∀ z, (z - u.z0) * (z - u.z1) * (z - u.z2) =
      z ^ 3 + f / 2 * z ^ 2 + (f ^ 2 - 4 * h) / 16 * z - g ^ 2 / 64) →
    1 / 10 ^ 14 ≤ u.z1 → u.z1 ≤ u.z2 →
    ∃ r : Roots4, quarticFrom b g u = some r ∧
      ∀ x, quarticAt b c d e x = (x - r.z0) * (x - r.z1) * (x - r.z2) * (x - r.z3) := by
  intro f g h hu h1 h2
  have u1 : 0 < u.z1 := lt_of_lt_of_le (by norm_num) h1
  have u2 : 0 < u.z2 := by linarith
  have p0 : 0 < √u.z1 := Real.sqrt_pos.2 u1
  have q0 : 0 < √u.z2 := Real.sqrt_pos.2 u2
  have ps : √u.z1 ^ 2 = u.z1 := Real.sq_sqrt u1.le
  have qs : √u.z2 ^ 2 = u.z2 := Real.sq_sqrt u2.le
  have s1 : u.z0 + u.z1 + u.z2 = -(f / 2) := by
    have a := hu 0; have b' := hu 1; have c' := hu (-1)
    linarith
  have s2 : u.z0 * u.z1 + u.z0 * u.z2 + u.z1 * u.z2 = (f ^ 2 - 4 * h) / 16 := by
    have b' := hu 1; have c' := hu (-1)
    linarith
  have s3 : u.z0 * u.z1 * u.z2 = g ^ 2 / 64 := by
    have a := hu 0
    linarith
  refine ⟨⟨-√u.z1 - √u.z2 + -(1 / 8) * g / (√u.z1 * √u.z2) - (1 / 4) * b,
      √u.z1 - √u.z2 - -(1 / 8) * g / (√u.z1 * √u.z2) - (1 / 4) * b,
      -√u.z1 + √u.z2 - -(1 / 8) * g / (√u.z1 * √u.z2) - (1 / 4) * b,
      √u.z1 + √u.z2 + -(1 / 8) * g / (√u.z1 * √u.z2) - (1 / 4) * b⟩, ?_, ?_⟩
  · unfold quarticFrom sqrtN
    rw [if_neg (not_lt.2 h1), if_pos u1.le, if_pos u2.le]
    simp only [Option.bind_eq_bind, Option.bind_some]
    rw [if_neg (mul_pos p0 q0).ne']
  · intro x
    simp only
    generalize hr : -(1 / 8) * g / (√u.z1 * √u.z2) = r
    have hpqr : √u.z1 * √u.z2 * r = -g / 8 := by rw [← hr]; field_simp
    have hrs : r ^ 2 = u.z0 := by
      have : (u.z1 * u.z2) * r ^ 2 = (u.z1 * u.z2) * u.z0 := by
        calc (u.z1 * u.z2) * r ^ 2 = (√u.z1 * √u.z2 * r) ^ 2 := by
              rw [mul_pow, mul_pow, ps, qs]
          _ = (u.z1 * u.z2) * u.z0 := by rw [hpqr]; linarith [s3]
      exact mul_left_cancel₀ (mul_pos u1 u2).ne' this
    generalize √u.z1 = p at *
    generalize √u.z2 = q at *
    rw [← ps, ← qs, ← hrs] at s1 s2
    have hf : f = -2 * (p ^ 2 + q ^ 2 + r ^ 2) := by linarith
    have hh : h = f ^ 2 / 4 - 4 * (r ^ 2 * p ^ 2 + r ^ 2 * q ^ 2 + p ^ 2 * q ^ 2) := by linarith
    have hg : g = -8 * (p * q * r) := by linarith
    have e1 : quarticAt b c d e x = (x + b / 4) ^ 4 + f * (x + b / 4) ^ 2 + g * (x + b / 4) + h := by
      simp only [quarticAt, f, g, h]; ring
    rw [e1, hg, hh, hf]
    ring

/-- **C109, check.**  Whatever the equation, the numbers `QUARTIC` reports satisfy it up to
`10⁻⁶`. -/
theorem quartic_checked {b c d e : ℝ} {z : Roots4} (h : quarticRoots b c d e = some z) :
    ∀ x ∈ [z.z0, z.z1, z.z2, z.z3],
      |x ^ 4 + b * x ^ 3 + c * x ^ 2 + d * x + e| ≤ 1 / 10 ^ 6 := by
  unfold quarticRoots at h
  simp only [Option.bind_eq_bind, Option.bind_eq_some_iff] at h
  obtain ⟨u, -, z', -, h⟩ := h
  split_ifs at h with hc
  simp only [Option.some.injEq] at h
  subst h
  simp only [not_or, not_lt] at hc
  have e1 : ∀ x, x ^ 4 + b * x ^ 3 + c * x ^ 2 + d * x + e = quarticAt b c d e x := by
    intro x; unfold quarticAt; ring
  intro x hx
  rw [e1]
  simp only [List.mem_cons, List.not_mem_nil, or_false] at hx
  rcases hx with rfl | rfl | rfl | rfl
  · exact hc.1
  · exact hc.2.1
  · exact hc.2.2.1
  · exact hc.2.2.2

/-- The hypotheses are met: the roots 1, 2, 3. -/
example : ∃ u : Roots3, cubicRoots 0 (-6) 11 (-6) = some u ∧ u.z0 ≤ u.z1 ∧ u.z1 ≤ u.z2 ∧
    ∀ z, (z - u.z0) * (z - u.z1) * (z - u.z2) = (z - 1) * (z - 2) * (z - 3) := by
  obtain ⟨u, h1, h2, h3, h4⟩ := cubic_solves 0 (-6) 11 (-6) (by norm_num) (by norm_num)
  exact ⟨u, h1, h2, h3, fun z => by rw [h4]; ring⟩

/-- The hypotheses are met: the quartic with roots ±1 ± 2 ± 3 (even number of minus signs),
whose resolvent has the roots 1, 4, 9. -/
example : ∃ r : Roots4, quarticFrom 0 (-48) ⟨1, 4, 9⟩ = some r ∧
    ∀ x, quarticAt 0 (-28) (-48) 0 x = (x - r.z0) * (x - r.z1) * (x - r.z2) * (x - r.z3) := by
  have := quartic_solves 0 (-28) (-48) 0 ⟨1, 4, 9⟩ (by intro z; simp only; ring) (by norm_num)
    (by norm_num)
  simpa using this

end Athena.Rel
