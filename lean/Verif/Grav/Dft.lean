import Mathlib.Analysis.SpecialFunctions.Trigonometric.Bounds
import Mathlib.Algebra.Ring.GeomSum
import Mathlib.Tactic.FieldSimp
import Mathlib.Tactic.LinearCombination
import Mathlib.Tactic.Ring
import Mathlib.Tactic.Linarith
import Mathlib.Tactic.Positivity
import Mathlib.Tactic.GCongr

/-!
# The discrete Fourier transform as FFTW defines it

The transforms themselves are done by the library FFTW (and, with MPI, by the block decomposition in src/fftsrc); here they are their
definition: no normalisation, sign -1 forward and +1 backward.
-/

namespace Athena.Grav
open Finset

/-- `exp(2 pi i x)` -/
noncomputable def ex (x : ℝ) : ℂ := Complex.exp (2 * Real.pi * x * Complex.I)

theorem ex_add (x y : ℝ) : ex (x + y) = ex x * ex y := by
  unfold ex; rw [← Complex.exp_add]; congr 1; push_cast; ring

theorem ex_zero : ex 0 = 1 := by simp [ex]

theorem ex_int (n : ℤ) : ex n = 1 := by
  unfold ex
  rw [Complex.exp_eq_one_iff]
  exact ⟨n, by push_cast; ring⟩

theorem ex_pow (x : ℝ) (n : ℕ) : ex x ^ n = ex (n * x) := by
  unfold ex; rw [← Complex.exp_nat_mul]; congr 1; push_cast; ring

theorem ex_eq_one {x : ℝ} (h : ex x = 1) : ∃ n : ℤ, x = n := by
  unfold ex at h
  rw [Complex.exp_eq_one_iff] at h
  obtain ⟨n, hn⟩ := h
  refine ⟨n, ?_⟩
  have hp : (2 * Real.pi * Complex.I : ℂ) ≠ 0 := by
    simp [Real.pi_ne_zero]
  have : ((x : ℂ) - n) * (2 * Real.pi * Complex.I) = 0 := by linear_combination hn
  rcases mul_eq_zero.mp this with h | h
  · have := sub_eq_zero.mp h
    exact_mod_cast this
  · exact absurd h hp

theorem ex_cos (x : ℝ) : ex x + ex (-x) = 2 * Real.cos (2 * Real.pi * x) := by
  unfold ex
  rw [Complex.ofReal_cos, Complex.cos]
  push_cast
  ring_nf

/-- Orthogonality of the characters. -/
theorem sum_ex {N : ℕ} (hN : 0 < N) (m : ℤ) (h1 : -(N : ℤ) < m) (h2 : m < N) :
    ∑ a ∈ range N, ex (a * m / N) = if m = 0 then (N : ℂ) else 0 := by
  by_cases hm : m = 0
  · subst hm
    simp [ex_zero]
  rw [if_neg hm]
  have hn : (N : ℝ) ≠ 0 := by positivity
  have e : ∀ a : ℕ, ex (a * m / N) = ex (m / N) ^ a := by
    intro a; rw [ex_pow]; congr 1; ring
  simp only [e]
  have h1' : ex (m / N) ≠ 1 := by
    intro h
    obtain ⟨n, hn'⟩ := ex_eq_one h
    rw [div_eq_iff hn] at hn'
    have h3 : m = n * N := by exact_mod_cast hn'
    rcases lt_trichotomy n 0 with h | h | h
    · have : n * (N : ℤ) ≤ -1 * N := by
        apply mul_le_mul_of_nonneg_right <;> omega
      omega
    · subst h; simp at h3; exact hm h3
    · have : 1 * (N : ℤ) ≤ n * N := by
        apply mul_le_mul_of_nonneg_right <;> omega
      omega
  have hp : ex (m / N) ^ N = 1 := by
    rw [ex_pow, mul_div_cancel₀ _ hn]
    exact ex_int m
  have := geom_sum_mul (ex (m / N)) N
  rw [hp, sub_self] at this
  rcases mul_eq_zero.mp this with h | h
  · exact h
  · exact absurd (sub_eq_zero.mp h) h1'

/-- The transform of a three-dimensional array of sizes `N1`, `N2`, `N3`; `s = -1` is forward, `s = 1` backward
(`ath_3d_fft`, src/fftsrc/ath_fft.c:165-175, `fftw_plan_dft_3d` at 137-143). -/
noncomputable def dft3 (s : ℝ) (N1 N2 N3 : ℕ) (x : ℕ → ℕ → ℕ → ℂ) (a b c : ℕ) : ℂ :=
  ∑ i ∈ range N1, ∑ j ∈ range N2, ∑ k ∈ range N3, x i j k * ex (s * (a * i / N1 + b * j / N2 + c * k / N3))

/-- Two dimensions (`ath_2d_fft`, src/fftsrc/ath_fft.c:321-331, `fftw_plan_dft_2d` at 293-299). -/
noncomputable def dft2 (s : ℝ) (N1 N2 : ℕ) (x : ℕ → ℕ → ℂ) (a b : ℕ) : ℂ :=
  ∑ i ∈ range N1, ∑ j ∈ range N2, x i j * ex (s * (a * i / N1 + b * j / N2))

theorem dft2_eq (s : ℝ) (N1 N2 : ℕ) (x : ℕ → ℕ → ℂ) (a b : ℕ) : dft2 s N1 N2 x a b = dft3 s N1 N2 1 (fun i j _ => x i j) a b 0 := by
  unfold dft2 dft3
  simp

/-- The character of wave number `(a, b, c)` at the zone `(i, j, k)`, which need not lie in the box. -/
noncomputable def ch (N1 N2 N3 a b c : ℕ) (i j k : ℤ) : ℂ := ex (a * i / N1 + b * j / N2 + c * k / N3)

theorem ch_split (N1 N2 N3 a b c : ℕ) (i j k : ℤ) :
    ch N1 N2 N3 a b c i j k = ex (a * i / N1) * ex (b * j / N2) * ex (c * k / N3) := by
  unfold ch; rw [ex_add, ex_add]

/-- The sum over the wave numbers with coefficients `y`. -/
noncomputable def syn (N1 N2 N3 : ℕ) (y : ℕ → ℕ → ℕ → ℂ) (i j k : ℤ) : ℂ :=
  ∑ a ∈ range N1, ∑ b ∈ range N2, ∑ c ∈ range N3, y a b c * ch N1 N2 N3 a b c i j k

theorem dft3_back (N1 N2 N3 : ℕ) (y : ℕ → ℕ → ℕ → ℂ) (i j k : ℕ) : dft3 1 N1 N2 N3 y i j k = syn N1 N2 N3 y i j k := by
  unfold dft3 syn ch
  refine sum_congr rfl fun a _ => sum_congr rfl fun b _ => sum_congr rfl fun c _ => ?_
  congr 2; push_cast; ring

theorem ch_per1 {N1 : ℕ} (h : 0 < N1) (N2 N3 a b c : ℕ) (i j k : ℤ) :
    ch N1 N2 N3 a b c (i + N1) j k = ch N1 N2 N3 a b c i j k := by
  unfold ch
  have hn : (N1 : ℝ) ≠ 0 := by positivity
  have : (a * ((i + N1 : ℤ) : ℝ) / N1 + b * j / N2 + c * k / N3 : ℝ) = (a * i / N1 + b * j / N2 + c * k / N3) + ((a : ℤ) : ℝ) := by
    push_cast; field_simp; ring
  rw [this, ex_add, ex_int, mul_one]

theorem ch_per2 {N2 : ℕ} (h : 0 < N2) (N1 N3 a b c : ℕ) (i j k : ℤ) :
    ch N1 N2 N3 a b c i (j + N2) k = ch N1 N2 N3 a b c i j k := by
  unfold ch
  have hn : (N2 : ℝ) ≠ 0 := by positivity
  have : (a * i / N1 + b * ((j + N2 : ℤ) : ℝ) / N2 + c * k / N3 : ℝ) = (a * i / N1 + b * j / N2 + c * k / N3) + ((b : ℤ) : ℝ) := by
    push_cast; field_simp; ring
  rw [this, ex_add, ex_int, mul_one]

theorem ch_per3 {N3 : ℕ} (h : 0 < N3) (N1 N2 a b c : ℕ) (i j k : ℤ) :
    ch N1 N2 N3 a b c i j (k + N3) = ch N1 N2 N3 a b c i j k := by
  unfold ch
  have hn : (N3 : ℝ) ≠ 0 := by positivity
  have : (a * i / N1 + b * j / N2 + c * ((k + N3 : ℤ) : ℝ) / N3 : ℝ) = (a * i / N1 + b * j / N2 + c * k / N3) + ((c : ℤ) : ℝ) := by
    push_cast; field_simp; ring
  rw [this, ex_add, ex_int, mul_one]

theorem ch_near1 (N1 N2 N3 a b c : ℕ) (i j k : ℤ) : ch N1 N2 N3 a b c (i - 1) j k - 2 * ch N1 N2 N3 a b c i j k + ch N1 N2 N3 a b c (i + 1) j k
    = (2 * Real.cos (2 * Real.pi * (a / N1)) - 2 : ℝ) * ch N1 N2 N3 a b c i j k := by
  have h1 : ch N1 N2 N3 a b c (i - 1) j k = ch N1 N2 N3 a b c i j k * ex (-(a / N1)) := by
    unfold ch; rw [← ex_add]; congr 1; push_cast; ring
  have h2 : ch N1 N2 N3 a b c (i + 1) j k = ch N1 N2 N3 a b c i j k * ex (a / N1) := by
    unfold ch; rw [← ex_add]; congr 1; push_cast; ring
  have h3 := ex_cos (a / N1)
  rw [h1, h2]
  push_cast
  push_cast at h3
  linear_combination (ch N1 N2 N3 a b c i j k) * h3

theorem ch_near2 (N1 N2 N3 a b c : ℕ) (i j k : ℤ) : ch N1 N2 N3 a b c i (j - 1) k - 2 * ch N1 N2 N3 a b c i j k + ch N1 N2 N3 a b c i (j + 1) k
    = (2 * Real.cos (2 * Real.pi * (b / N2)) - 2 : ℝ) * ch N1 N2 N3 a b c i j k := by
  have h1 : ch N1 N2 N3 a b c i (j - 1) k = ch N1 N2 N3 a b c i j k * ex (-(b / N2)) := by
    unfold ch; rw [← ex_add]; congr 1; push_cast; ring
  have h2 : ch N1 N2 N3 a b c i (j + 1) k = ch N1 N2 N3 a b c i j k * ex (b / N2) := by
    unfold ch; rw [← ex_add]; congr 1; push_cast; ring
  have h3 := ex_cos (b / N2)
  rw [h1, h2]
  push_cast
  push_cast at h3
  linear_combination (ch N1 N2 N3 a b c i j k) * h3

theorem ch_near3 (N1 N2 N3 a b c : ℕ) (i j k : ℤ) : ch N1 N2 N3 a b c i j (k - 1) - 2 * ch N1 N2 N3 a b c i j k + ch N1 N2 N3 a b c i j (k + 1)
    = (2 * Real.cos (2 * Real.pi * (c / N3)) - 2 : ℝ) * ch N1 N2 N3 a b c i j k := by
  have h1 : ch N1 N2 N3 a b c i j (k - 1) = ch N1 N2 N3 a b c i j k * ex (-(c / N3)) := by
    unfold ch; rw [← ex_add]; congr 1; push_cast; ring
  have h2 : ch N1 N2 N3 a b c i j (k + 1) = ch N1 N2 N3 a b c i j k * ex (c / N3) := by
    unfold ch; rw [← ex_add]; congr 1; push_cast; ring
  have h3 := ex_cos (c / N3)
  rw [h1, h2]
  push_cast
  push_cast at h3
  linear_combination (ch N1 N2 N3 a b c i j k) * h3

/-- The sum of the character of one wave number over the differences to another zone. -/
theorem sum_ch {N1 N2 N3 : ℕ} (h1 : 0 < N1) (h2 : 0 < N2) (h3 : 0 < N3) {i j k i' j' k' : ℕ} (hi : i < N1) (hj : j < N2) (hk : k < N3)
    (hi' : i' < N1) (hj' : j' < N2) (hk' : k' < N3) :
    ∑ a ∈ range N1, ∑ b ∈ range N2, ∑ c ∈ range N3, ch N1 N2 N3 a b c (i - i') (j - j') (k - k')
      = if i = i' ∧ j = j' ∧ k = k' then (N1 * N2 * N3 : ℂ) else 0 := by
  simp only [ch_split, ← mul_sum, ← sum_mul]
  rw [sum_ex h1 _ (by omega) (by omega), sum_ex h2 _ (by omega) (by omega), sum_ex h3 _ (by omega) (by omega)]
  by_cases e1 : i = i'
  · by_cases e2 : j = j'
    · by_cases e3 : k = k'
      · simp [e1, e2, e3]
      · rw [if_neg (show ¬((k : ℤ) - k' = 0) by omega), if_neg (show ¬(i = i' ∧ j = j' ∧ k = k') from fun h => e3 h.2.2)]; ring
    · rw [if_neg (show ¬((j : ℤ) - j' = 0) by omega), if_neg (show ¬(i = i' ∧ j = j' ∧ k = k') from fun h => e2 h.2.1)]; ring
  · rw [if_neg (show ¬((i : ℤ) - i' = 0) by omega), if_neg (show ¬(i = i' ∧ j = j' ∧ k = k') from fun h => e1 h.1)]; ring

/-- Backward after forward gives the array back, times its size. -/
theorem inversion {N1 N2 N3 : ℕ} (h1 : 0 < N1) (h2 : 0 < N2) (h3 : 0 < N3) (x : ℕ → ℕ → ℕ → ℂ) {i j k : ℕ} (hi : i < N1) (hj : j < N2)
    (hk : k < N3) : syn N1 N2 N3 (dft3 (-1) N1 N2 N3 x) i j k = N1 * N2 * N3 * x i j k := by
  have e : ∀ a b c : ℕ, dft3 (-1) N1 N2 N3 x a b c * ch N1 N2 N3 a b c i j k
      = ∑ i' ∈ range N1, ∑ j' ∈ range N2, ∑ k' ∈ range N3, x i' j' k' * ch N1 N2 N3 a b c (i - i') (j - j') (k - k') := by
    intro a b c
    unfold dft3
    simp only [sum_mul]
    refine sum_congr rfl fun i' _ => sum_congr rfl fun j' _ => sum_congr rfl fun k' _ => ?_
    unfold ch
    rw [mul_assoc, ← ex_add]
    congr 2
    push_cast
    ring
  unfold syn
  simp only [e]
  have s3 : ∀ a b : ℕ, ∑ c ∈ range N3, ∑ i' ∈ range N1, ∑ j' ∈ range N2, ∑ k' ∈ range N3, x i' j' k' * ch N1 N2 N3 a b c (i - i') (j - j') (k - k')
      = ∑ i' ∈ range N1, ∑ j' ∈ range N2, ∑ k' ∈ range N3, x i' j' k' * ∑ c ∈ range N3, ch N1 N2 N3 a b c (i - i') (j - j') (k - k') := by
    intro a b
    rw [sum_comm]
    refine sum_congr rfl fun i' _ => ?_
    rw [sum_comm]
    refine sum_congr rfl fun j' _ => ?_
    rw [sum_comm]
    refine sum_congr rfl fun k' _ => ?_
    rw [mul_sum]
  have s2 : ∀ a : ℕ, ∑ b ∈ range N2, ∑ i' ∈ range N1, ∑ j' ∈ range N2, ∑ k' ∈ range N3, x i' j' k' * ∑ c ∈ range N3, ch N1 N2 N3 a b c (i - i') (j - j') (k - k')
      = ∑ i' ∈ range N1, ∑ j' ∈ range N2, ∑ k' ∈ range N3, x i' j' k' * ∑ b ∈ range N2, ∑ c ∈ range N3, ch N1 N2 N3 a b c (i - i') (j - j') (k - k') := by
    intro a
    rw [sum_comm]
    refine sum_congr rfl fun i' _ => ?_
    rw [sum_comm]
    refine sum_congr rfl fun j' _ => ?_
    rw [sum_comm]
    refine sum_congr rfl fun k' _ => ?_
    rw [mul_sum]
  have s1 : ∑ a ∈ range N1, ∑ i' ∈ range N1, ∑ j' ∈ range N2, ∑ k' ∈ range N3, x i' j' k' * ∑ b ∈ range N2, ∑ c ∈ range N3, ch N1 N2 N3 a b c (i - i') (j - j') (k - k')
      = ∑ i' ∈ range N1, ∑ j' ∈ range N2, ∑ k' ∈ range N3, x i' j' k' * ∑ a ∈ range N1, ∑ b ∈ range N2, ∑ c ∈ range N3, ch N1 N2 N3 a b c (i - i') (j - j') (k - k') := by
    rw [sum_comm]
    refine sum_congr rfl fun i' _ => ?_
    rw [sum_comm]
    refine sum_congr rfl fun j' _ => ?_
    rw [sum_comm]
    refine sum_congr rfl fun k' _ => ?_
    rw [mul_sum]
  simp only [s3, s2, s1]
  rw [sum_eq_single i, sum_eq_single j, sum_eq_single k]
  · rw [sum_ch h1 h2 h3 hi hj hk hi hj hk, if_pos ⟨rfl, rfl, rfl⟩]; ring
  · intro k' hk' hne
    rw [sum_ch h1 h2 h3 hi hj hk hi hj (mem_range.mp hk'), if_neg (fun h => hne h.2.2.symm), mul_zero]
  · intro h; exact absurd (mem_range.mpr hk) h
  · intro j' hj' hne
    refine sum_eq_zero fun k' hk' => ?_
    rw [sum_ch h1 h2 h3 hi hj hk hi (mem_range.mp hj') (mem_range.mp hk'), if_neg (fun h => hne h.2.1.symm), mul_zero]
  · intro h; exact absurd (mem_range.mpr hj) h
  · intro i' hi' hne
    refine sum_eq_zero fun j' hj' => sum_eq_zero fun k' hk' => ?_
    rw [sum_ch h1 h2 h3 hi hj hk (mem_range.mp hi') (mem_range.mp hj') (mem_range.mp hk'), if_neg (fun h => hne h.1.symm), mul_zero]
  · intro h; exact absurd (mem_range.mpr hi) h

end Athena.Grav
