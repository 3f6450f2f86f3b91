import Mathlib.Analysis.SpecialFunctions.Pow.Real
import Mathlib.Analysis.SpecialFunctions.Complex.Arg
import Mathlib.Topology.Order.IntermediateValue
import Mathlib.Tactic.LinearCombination
import Mathlib.Tactic.Linarith
import Mathlib.Tactic.Positivity
import Mathlib.Tactic.FieldSimp

/-!
Algebra behind the closed-form solution of the quartic for the flow speed: Cardano's
formula for the resolvent cubic, the factors of the quartic, and the inequalities that
select the physical root.  Nothing here mentions the program.
-/
namespace Athena.Rel

/-- Cardano: with `u³ = R + √T`, `w³ = R - √T` and `u w = -S`, the sum `u + w` is a root of
`y³ + 3 S y - 2 R`. -/
theorem cardano_root {u w R S t : ℝ} (hu : u ^ 3 = R + t) (hw : w ^ 3 = R - t)
    (huw : u * w = -S) : (u + w) ^ 3 + 3 * S * (u + w) - 2 * R = 0 := by
  linear_combination hu + hw + 3 * (u + w) * huw

/-- When the two cube roots differ the cubic has no other real root. -/
theorem cardano_unique {u w R S t y : ℝ} (hu : u ^ 3 = R + t) (hw : w ^ 3 = R - t)
    (huw : u * w = -S) (ht : 0 < t) (hy : y ^ 3 + 3 * S * y - 2 * R = 0) : y = u + w := by
  have hne : u ≠ w := by
    intro h
    rw [h] at hu
    linarith
  have h0 := cardano_root hu hw huw
  have hf : (y - (u + w)) * (y ^ 2 + (u + w) * y + (u + w) ^ 2 + 3 * S) = 0 := by
    linear_combination hy - h0
  rcases mul_eq_zero.1 hf with h | h
  · linarith
  · exfalso
    have h1 : 0 < (u - w) ^ 2 := by
      have := sub_ne_zero.2 hne
      positivity
    have h2 : (2 * y + (u + w)) ^ 2 + 3 * (u - w) ^ 2 = 0 := by
      linear_combination 4 * h - 12 * huw
    nlinarith [sq_nonneg (2 * y + (u + w))]

/-- Real cube root. -/
theorem rpow_third_cube {x : ℝ} (hx : 0 ≤ x) : (x ^ (1 / 3 : ℝ)) ^ 3 = x := by
  rw [← Real.rpow_natCast, ← Real.rpow_mul hx]
  norm_num

theorem cube_inj {a b : ℝ} (h : a ^ 3 = b ^ 3) : a = b := by
  have h1 : (a - b) * (a ^ 2 + a * b + b ^ 2) = 0 := by linear_combination h
  rcases mul_eq_zero.1 h1 with h2 | h2
  · linarith
  · have h3 : (a + b / 2) ^ 2 + 3 / 4 * b ^ 2 = 0 := by linear_combination h2
    have hb : b = 0 := by nlinarith [sq_nonneg (a + b / 2), sq_nonneg b]
    have ha : a = 0 := by subst hb; nlinarith [sq_nonneg a]
    rw [ha, hb]

/-- The product of the cube roots of `R ± √(R² + S³)` is `-S`. -/
theorem cube_prod {R S t : ℝ} (ht : t ^ 2 = R ^ 2 + S ^ 3) (h1 : 0 ≤ R + t) (h2 : 0 ≤ R - t) :
    (R + t) ^ (1 / 3 : ℝ) * (R - t) ^ (1 / 3 : ℝ) = -S := by
  apply cube_inj
  rw [mul_pow, rpow_third_cube h1, rpow_third_cube h2]
  linear_combination -ht

section roots
variable {g a M D E r1 r2 w1 w2 : ℝ}

/-- The two real roots `r1 < r2` of the quartic tie momentum to mass. -/
theorem roots_tie (e1 : g * E * r1 - a * M * r1 ^ 2 - M = -(a * D * r1 * w1))
    (e2 : g * E * r2 - a * M * r2 ^ 2 - M = a * D * r2 * w2) :
    M * (r2 - r1) * (1 - a * (r1 * r2)) = a * (r1 * r2) * D * (w1 + w2) := by
  linear_combination -r2 * e1 + r1 * e2

theorem roots_W (h1 : 0 < r1) (h12 : r1 < r2) (_h2 : r2 < 1) (hw1 : w1 ^ 2 = 1 - r1 ^ 2)
    (hw2 : w2 ^ 2 = 1 - r2 ^ 2) (w1p : 0 < w1) (w2p : 0 < w2) :
    w2 < w1 ∧ (r2 - r1) ^ 2 ≤ (w1 + w2) ^ 2 := by
  have hlt : w2 < w1 := by
    by_contra h
    have : w1 ^ 2 ≤ w2 ^ 2 := by nlinarith
    nlinarith
  refine ⟨hlt, ?_⟩
  nlinarith [mul_pos w2p (sub_pos.2 hlt), mul_pos h1 (sub_pos.2 h12)]

/-- The product of the two real roots is at most that of the other two. -/
theorem roots_prod (ha : 0 < a) (hM : 0 < M) (hD : 0 < D) (h1 : 0 < r1) (h12 : r1 < r2)
    (h2 : r2 < 1) (hw1 : w1 ^ 2 = 1 - r1 ^ 2) (hw2 : w2 ^ 2 = 1 - r2 ^ 2) (w1p : 0 < w1)
    (w2p : 0 < w2) (e1 : g * E * r1 - a * M * r1 ^ 2 - M = -(a * D * r1 * w1))
    (e2 : g * E * r2 - a * M * r2 ^ 2 - M = a * D * r2 * w2) :
    a ^ 2 * (r1 * r2) ^ 2 * (M ^ 2 + D ^ 2) ≤ M ^ 2 := by
  have tie := roots_tie e1 e2
  obtain ⟨_, hW⟩ := roots_W h1 h12 h2 hw1 hw2 w1p w2p
  have hr2 : 0 < r2 := h1.trans h12
  set b := a * (r1 * r2) with hb
  have hbp : 0 < b := by positivity
  have hdl : 0 < r2 - r1 := by linarith
  have hb1 : 0 < 1 - b := by
    by_contra h
    have h3 : M * (r2 - r1) * (1 - b) ≤ 0 :=
      mul_nonpos_of_nonneg_of_nonpos (by positivity) (by linarith)
    have h4 : 0 < b * D * (w1 + w2) := by positivity
    linarith
  have hsq : M ^ 2 * (r2 - r1) ^ 2 * (1 - b) ^ 2 = b ^ 2 * D ^ 2 * (w1 + w2) ^ 2 := by
    linear_combination (M * (r2 - r1) * (1 - b) + b * D * (w1 + w2)) * tie
  have k1 : b ^ 2 * D ^ 2 * (r2 - r1) ^ 2 ≤ M ^ 2 * (r2 - r1) ^ 2 * (1 - b) ^ 2 := by
    rw [hsq]
    exact mul_le_mul_of_nonneg_left hW (by positivity)
  have k2 : (b ^ 2 * D ^ 2) * (r2 - r1) ^ 2 ≤ (M ^ 2 * (1 - b) ^ 2) * (r2 - r1) ^ 2 := by
    linarith
  have k3 := le_of_mul_le_mul_right k2 (by positivity)
  have k4 : M ^ 2 * (1 - b) ^ 2 ≤ M ^ 2 * (1 - b ^ 2) := by
    apply mul_le_mul_of_nonneg_left _ (by positivity)
    nlinarith
  have : a ^ 2 * (r1 * r2) ^ 2 = b ^ 2 := by rw [hb]; ring
  rw [this]
  nlinarith

/-- The two real roots are, in the mean, at most the real part of the other two. -/
theorem roots_sum (ha : 0 < a) (hM : 0 < M) (hD : 0 < D) (h1 : 0 < r1) (h12 : r1 < r2)
    (h2 : r2 < 1) (hw1 : w1 ^ 2 = 1 - r1 ^ 2) (hw2 : w2 ^ 2 = 1 - r2 ^ 2) (w1p : 0 < w1)
    (w2p : 0 < w2) (e1 : g * E * r1 - a * M * r1 ^ 2 - M = -(a * D * r1 * w1))
    (e2 : g * E * r2 - a * M * r2 ^ 2 - M = a * D * r2 * w2) (hP : r2 * D ≤ M * w2) :
    (r1 + r2) * a * (M ^ 2 + D ^ 2) ≤ g * M * E := by
  have tie := roots_tie e1 e2
  have hr2 : 0 < r2 := h1.trans h12
  have hdl : 0 < r2 - r1 := by linarith
  have hpi : 0 < r1 * r2 := mul_pos h1 hr2
  have e3 : 2 * (r1 * r2) * (g * E) = a * M * (r1 + r2) * (r1 * r2) + M * (r1 + r2)
      - a * (r1 * r2) * D * (w1 - w2) := by
    linear_combination r2 * e1 + r1 * e2
  set b := a * (r1 * r2) with hb
  have hbp : 0 < b := by positivity
  have hb1 : 0 < 1 - b := by
    by_contra h
    have h3 : M * (r2 - r1) * (1 - b) ≤ 0 :=
      mul_nonpos_of_nonneg_of_nonpos (by positivity) (by linarith)
    have h4 : 0 < b * D * (w1 + w2) := by positivity
    linarith
  have hWp : 0 < w1 + w2 := by linarith
  -- difference of the w's
  have hd : M * (1 - b) * (w1 - w2) = b * D * (r1 + r2) := by
    have : (M * (1 - b) * (w1 - w2)) * (w1 + w2) = (b * D * (r1 + r2)) * (w1 + w2) := by
      linear_combination (r1 + r2) * tie + M * (1 - b) * hw1 - M * (1 - b) * hw2
    exact mul_right_cancel₀ hWp.ne' this
  -- non-negative pressure
  have c1 : (r2 - r1) * r2 ≤ b * (1 + w1 * w2 - r1 * r2) := by
    have h3 : r2 * D * ((r2 - r1) * (1 - b)) ≤ M * w2 * ((r2 - r1) * (1 - b)) :=
      mul_le_mul_of_nonneg_right hP (by positivity)
    have h4 : M * w2 * ((r2 - r1) * (1 - b)) = b * D * (w1 + w2) * w2 := by
      linear_combination w2 * tie
    have h5 : (r2 * (r2 - r1) * (1 - b)) * D ≤ (b * (w1 + w2) * w2) * D := by linarith
    have h6 := le_of_mul_le_mul_right h5 hD
    nlinarith
  have c2 : (r2 - r1) ^ 2 * (2 - b) ≤ b * (w1 + w2) ^ 2 := by
    have h3 : (w1 + w2) ^ 2 = 2 * (1 + w1 * w2 - r1 * r2) - (r2 - r1) ^ 2 := by
      linear_combination hw1 + hw2
    rw [h3]
    nlinarith [mul_pos hdl h1]
  have c3 : D ^ 2 * (2 * b - b ^ 2) ≤ M ^ 2 * (1 - b) ^ 2 := by
    have hsq : M ^ 2 * (r2 - r1) ^ 2 * (1 - b) ^ 2 = b ^ 2 * D ^ 2 * (w1 + w2) ^ 2 := by
      linear_combination (M * (r2 - r1) * (1 - b) + b * D * (w1 + w2)) * tie
    have h4 : (D ^ 2 * (2 * b - b ^ 2)) * (r2 - r1) ^ 2 ≤
        (M ^ 2 * (1 - b) ^ 2) * (r2 - r1) ^ 2 := by
      have h5 := mul_le_mul_of_nonneg_left c2 (show 0 ≤ b * D ^ 2 by positivity)
      nlinarith
    exact le_of_mul_le_mul_right h4 (by positivity)
  have hs : 0 < r1 + r2 := by linarith
  -- multiply the goal by 2 π (1 - b) > 0
  have k : ((r1 + r2) * a * (M ^ 2 + D ^ 2)) * (2 * (r1 * r2) * (1 - b)) ≤
      (g * M * E) * (2 * (r1 * r2) * (1 - b)) := by
    have h5 : (g * M * E) * (2 * (r1 * r2) * (1 - b)) =
        (r1 + r2) * ((1 + b) * (1 - b) * M ^ 2 - b ^ 2 * D ^ 2) := by
      linear_combination M * (1 - b) * e3 - b * D * hd + M ^ 2 * (1 - b) * (r1 + r2) * (-hb)
    have h6 : ((r1 + r2) * a * (M ^ 2 + D ^ 2)) * (2 * (r1 * r2) * (1 - b)) =
        (r1 + r2) * (2 * b * (M ^ 2 + D ^ 2) * (1 - b)) := by rw [hb]; ring
    rw [h5, h6]
    apply mul_le_mul_of_nonneg_left _ hs.le
    nlinarith
  exact le_of_mul_le_mul_right k (by positivity)

end roots

/-- A monic quartic with two distinct non-zero real roots is the product of two quadratics. -/
theorem vieta {a3 a2 a1 a0 r1 r2 : ℝ} (h1 : r1 ≠ 0) (h2 : r2 ≠ 0) (h12 : r1 ≠ r2)
    (q1 : r1 ^ 4 + a3 * r1 ^ 3 + a2 * r1 ^ 2 + a1 * r1 + a0 = 0)
    (q2 : r2 ^ 4 + a3 * r2 ^ 3 + a2 * r2 ^ 2 + a1 * r2 + a0 = 0) :
    let p := a3 + (r1 + r2)
    let q := a0 / (r1 * r2)
    a2 = q + r1 * r2 - p * (r1 + r2) ∧ a1 = r1 * r2 * p - (r1 + r2) * q := by
  intro p q
  have hq : q * (r1 * r2) = a0 := by
    simp only [q]
    field_simp
  have f1 : (a2 - (q + r1 * r2 - p * (r1 + r2))) * r1 + (a1 - (r1 * r2 * p - (r1 + r2) * q))
      = 0 := by
    apply mul_right_cancel₀ h1
    simp only [p]
    linear_combination q1 + hq
  have f2 : (a2 - (q + r1 * r2 - p * (r1 + r2))) * r2 + (a1 - (r1 * r2 * p - (r1 + r2) * q))
      = 0 := by
    apply mul_right_cancel₀ h2
    simp only [p]
    linear_combination q2 + hq
  have f3 : (a2 - (q + r1 * r2 - p * (r1 + r2))) * (r1 - r2) = 0 := by
    linear_combination f1 - f2
  have f4 : a2 - (q + r1 * r2 - p * (r1 + r2)) = 0 :=
    (mul_eq_zero.1 f3).resolve_right (sub_ne_zero.2 h12)
  refine ⟨by linarith, ?_⟩
  rw [f4] at f1
  linarith

end Athena.Rel
