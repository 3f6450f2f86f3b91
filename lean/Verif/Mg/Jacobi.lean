import Verif.Mg.Model
import Mathlib.Analysis.SpecificLimits.Basic
import Mathlib.Analysis.SpecialFunctions.Trigonometric.Bounds
import Mathlib.LinearAlgebra.FiniteDimensional.Basic
import Mathlib.Tactic.Linarith
import Mathlib.Tactic.Ring
import Mathlib.Tactic.FieldSimp
import Mathlib.Tactic.Positivity

/-!
# The difference form of Poisson's equation and the Jacobi sweeps

Specification: `lap` (the usual seven-point Laplacian), `Solves` (the potential satisfies the difference equation in every zone).
Results: there is one and only one potential that solves it for given values in the ghost zones (`poisson_unique`, `poisson_exists`); a sweep
leaves a potential unchanged exactly if it solves the equation (`sweep_fixed_iff`), never increases the largest error (`sweep_error`), and the
error after `n` sweeps is at most a constant times `rate ^ n`, with `rate < 1` (`sweeps_converge`).
-/

namespace Athena.Mg
open Real

/-- Specification: the seven-point Laplacian. -/
noncomputable def lap (dx1 dx2 dx3 : ℝ) (P : A3) (k j i : ℤ) : ℝ :=
  (P k j (i+1) - 2 * P k j i + P k j (i-1)) / dx1 ^ 2 + (P k (j+1) i - 2 * P k j i + P k (j-1) i) / dx2 ^ 2
    + (P (k+1) j i - 2 * P k j i + P (k-1) j i) / dx3 ^ 2

/-- Specification: `P` has Laplacian `f` in every active zone. -/
def Solves (N1 N2 N3 : ℕ) (dx1 dx2 dx3 : ℝ) (f P : A3) : Prop :=
  ∀ k j i, Inside N1 N2 N3 k j i → lap dx1 dx2 dx3 P k j i = f k j i

/-- Specification: the same values in all zones that are not active. -/
def SameGhosts (N1 N2 N3 : ℕ) (P Q : A3) : Prop := ∀ k j i, ¬ Inside N1 N2 N3 k j i → P k j i = Q k j i

/-- A three-dimensional Grid. -/
structure Cube (g : MGrid) : Prop where
  h1 : 1 < g.N1
  h2 : 1 < g.N2
  h3 : 1 < g.N3
  d1 : g.dx1 ≠ 0
  d2 : g.dx2 ≠ 0
  d3 : g.dx3 ≠ 0

@[simp] theorem sweep_N1 (g : MGrid) : (sweep g).N1 = g.N1 := by unfold sweep; split_ifs <;> rfl
@[simp] theorem sweep_N2 (g : MGrid) : (sweep g).N2 = g.N2 := by unfold sweep; split_ifs <;> rfl
@[simp] theorem sweep_N3 (g : MGrid) : (sweep g).N3 = g.N3 := by unfold sweep; split_ifs <;> rfl
@[simp] theorem sweep_dx1 (g : MGrid) : (sweep g).dx1 = g.dx1 := by unfold sweep; split_ifs <;> rfl
@[simp] theorem sweep_dx2 (g : MGrid) : (sweep g).dx2 = g.dx2 := by unfold sweep; split_ifs <;> rfl
@[simp] theorem sweep_dx3 (g : MGrid) : (sweep g).dx3 = g.dx3 := by unfold sweep; split_ifs <;> rfl
@[simp] theorem sweep_rhs (g : MGrid) : (sweep g).rhs = g.rhs := by unfold sweep; split_ifs <;> rfl

theorem sweep_out (g : MGrid) {k j i : ℤ} (h : ¬ Inside g.N1 g.N2 g.N3 k j i) : (sweep g).Phi k j i = g.Phi k j i := by
  unfold sweep
  split_ifs <;> simp [h]

theorem sweep_in3 (g : MGrid) (h3 : 1 < g.N3) {k j i : ℤ} (h : Inside g.N1 g.N2 g.N3 k j i) :
    (sweep g).Phi k j i = update3 g k j i := by
  unfold sweep
  simp [h, h3]

theorem sweep_in2 (g : MGrid) (h3 : g.N3 = 1) {k j i : ℤ} (h : Inside g.N1 g.N2 g.N3 k j i) :
    (sweep g).Phi k j i = update2 g k j i := by
  have h' : ¬ 1 < g.N3 := by omega
  unfold sweep
  simp only [if_neg h', if_pos h3, if_pos h]

theorem Cube.sweep {g : MGrid} (h : Cube g) : Cube (sweep g) := by
  obtain ⟨a, b, c, d, e, f⟩ := h
  constructor <;> simpa

/-- Anything kept by a sweep is kept by any number of them. -/
theorem sweeps_induct {p : MGrid → Prop} (hs : ∀ g, p g → p (sweep g)) (n : ℕ) {g : MGrid} (h : p g) : p (sweep^[n] g) := by
  induction n generalizing g with
  | zero => exact h
  | succ n ih => rw [Function.iterate_succ_apply]; exact ih (hs g h)

/-- What a number of sweeps does not touch. -/
structure Same (a b : MGrid) : Prop where
  N1 : a.N1 = b.N1
  N2 : a.N2 = b.N2
  N3 : a.N3 = b.N3
  dx1 : a.dx1 = b.dx1
  dx2 : a.dx2 = b.dx2
  dx3 : a.dx3 = b.dx3
  rhs : a.rhs = b.rhs
  ghosts : SameGhosts b.N1 b.N2 b.N3 a.Phi b.Phi

theorem Same.refl (g : MGrid) : Same g g := ⟨rfl, rfl, rfl, rfl, rfl, rfl, rfl, fun _ _ _ _ => rfl⟩

theorem sweeps_same (n : ℕ) (g : MGrid) : Same (sweep^[n] g) g := by
  induction n with
  | zero => exact Same.refl g
  | succ n ih =>
    rw [Function.iterate_succ_apply']
    generalize sweep^[n] g = q at ih
    refine ⟨by simp [ih.N1], by simp [ih.N2], by simp [ih.N3], by simp [ih.dx1], by simp [ih.dx2], by simp [ih.dx3], by simp [ih.rhs], ?_⟩
    intro k j i h
    rw [sweep_out, ih.ghosts k j i h]
    rw [ih.N1, ih.N2, ih.N3]; exact h

/-! ### One sweep -/

/-- The error of a new value is an average of the errors of the six neighbours. -/
theorem update3_err (g : MGrid) (h : Cube g) (S : A3) (k j i : ℤ) (hS : lap g.dx1 g.dx2 g.dx3 S k j i = g.rhs k j i) :
    update3 g k j i - S k j i =
      (((g.Phi k j (i+1) - S k j (i+1)) + (g.Phi k j (i-1) - S k j (i-1))) / g.dx1 ^ 2
      + ((g.Phi k (j+1) i - S k (j+1) i) + (g.Phi k (j-1) i - S k (j-1) i)) / g.dx2 ^ 2
      + ((g.Phi (k+1) j i - S (k+1) j i) + (g.Phi (k-1) j i - S (k-1) j i)) / g.dx3 ^ 2)
      / (2 / g.dx1 ^ 2 + 2 / g.dx2 ^ 2 + 2 / g.dx3 ^ 2) := by
  have hs : 0 < 2 / g.dx1 ^ 2 + 2 / g.dx2 ^ 2 + 2 / g.dx3 ^ 2 := by
    have := h.d1; have := h.d2; have := h.d3; positivity
  simp only [update3, ← pow_two]
  unfold lap at hS
  rw [eq_div_iff hs.ne', sub_mul, div_mul_cancel₀ _ hs.ne', ← hS]
  ring

theorem update3_fix (g : MGrid) (h : Cube g) (k j i : ℤ) :
    update3 g k j i = g.Phi k j i ↔ lap g.dx1 g.dx2 g.dx3 g.Phi k j i = g.rhs k j i := by
  have hs : 0 < 2 / g.dx1 ^ 2 + 2 / g.dx2 ^ 2 + 2 / g.dx3 ^ 2 := by
    have := h.d1; have := h.d2; have := h.d3; positivity
  simp only [update3, ← pow_two]
  rw [div_eq_iff hs.ne']
  unfold lap
  constructor
  · intro e; linear_combination e
  · intro e; linear_combination e

/-- A sweep leaves a potential unchanged exactly if it satisfies the difference form of Poisson's equation. -/
theorem sweep_fixed_iff (g : MGrid) (h : Cube g) :
    (sweep g).Phi = g.Phi ↔ Solves g.N1 g.N2 g.N3 g.dx1 g.dx2 g.dx3 g.rhs g.Phi := by
  constructor
  · intro e k j i hi
    rw [← update3_fix g h, ← sweep_in3 g h.h3 hi, e]
  · intro e
    funext k j i
    by_cases hi : Inside g.N1 g.N2 g.N3 k j i
    · rw [sweep_in3 g h.h3 hi, update3_fix g h]; exact e k j i hi
    · exact sweep_out g hi

theorem sweep_eq_of_fixed (g : MGrid) (e : (sweep g).Phi = g.Phi) : sweep g = g := by
  have h1 := sweep_N1 g; have h2 := sweep_N2 g; have h3 := sweep_N3 g
  have h4 := sweep_dx1 g; have h5 := sweep_dx2 g; have h6 := sweep_dx3 g; have h7 := sweep_rhs g
  cases hs : sweep g
  cases g
  simp_all

theorem nb_cases {N1 N2 N3 : ℕ} {k j i : ℤ} (h : Inside N1 N2 N3 k j i) :
    (Inside N1 N2 N3 k j (i+1) ∨ i + 1 = N1 + 1) ∧ (Inside N1 N2 N3 k j (i-1) ∨ i - 1 = 0)
    ∧ (Inside N1 N2 N3 k (j+1) i ∨ j + 1 = N2 + 1) ∧ (Inside N1 N2 N3 k (j-1) i ∨ j - 1 = 0)
    ∧ (Inside N1 N2 N3 (k+1) j i ∨ k + 1 = N3 + 1) ∧ (Inside N1 N2 N3 (k-1) j i ∨ k - 1 = 0) := by
  unfold Inside at *
  omega

/-- Weighted averages. -/
theorem avg_bound {a b c x1 x2 y1 y2 z1 z2 X1 X2 Y1 Y2 Z1 Z2 B : ℝ} (ha : 0 < a) (hb : 0 < b) (hc : 0 < c)
    (h1 : |x1| ≤ X1) (h2 : |x2| ≤ X2) (h3 : |y1| ≤ Y1) (h4 : |y2| ≤ Y2) (h5 : |z1| ≤ Z1) (h6 : |z2| ≤ Z2)
    (hB : (X1 + X2) / a + (Y1 + Y2) / b + (Z1 + Z2) / c ≤ B * (2 / a + 2 / b + 2 / c)) :
    |((x1 + x2) / a + (y1 + y2) / b + (z1 + z2) / c) / (2 / a + 2 / b + 2 / c)| ≤ B := by
  have hs : 0 < 2 / a + 2 / b + 2 / c := by positivity
  rw [abs_div, abs_of_pos hs, div_le_iff₀ hs]
  refine le_trans ?_ hB
  have e1 : |(x1 + x2) / a| ≤ (X1 + X2) / a := by
    rw [abs_div, abs_of_pos ha]
    exact div_le_div_of_nonneg_right ((abs_add_le _ _).trans (add_le_add h1 h2)) ha.le
  have e2 : |(y1 + y2) / b| ≤ (Y1 + Y2) / b := by
    rw [abs_div, abs_of_pos hb]
    exact div_le_div_of_nonneg_right ((abs_add_le _ _).trans (add_le_add h3 h4)) hb.le
  have e3 : |(z1 + z2) / c| ≤ (Z1 + Z2) / c := by
    rw [abs_div, abs_of_pos hc]
    exact div_le_div_of_nonneg_right ((abs_add_le _ _).trans (add_le_add h5 h6)) hc.le
  refine (abs_add_le _ _).trans (add_le_add ((abs_add_le _ _).trans (add_le_add e1 e2)) e3)

/-- If the error is at most `K W` everywhere next to active zones, with `W` zero outside or the potential exact there, and the average of `W`
over the neighbours is at most `r W`, the error after a sweep is at most `r K W`. -/
theorem sweep_weighted (g : MGrid) (h : Cube g) (S W : A3) (hS : Solves g.N1 g.N2 g.N3 g.dx1 g.dx2 g.dx3 g.rhs S)
    (hg : SameGhosts g.N1 g.N2 g.N3 g.Phi S) (hW0 : ∀ k j i, Inside g.N1 g.N2 g.N3 k j i →
      0 ≤ W k j (i+1) ∧ 0 ≤ W k j (i-1) ∧ 0 ≤ W k (j+1) i ∧ 0 ≤ W k (j-1) i ∧ 0 ≤ W (k+1) j i ∧ 0 ≤ W (k-1) j i) {r K : ℝ} (hK : 0 ≤ K)
    (hW : ∀ k j i, Inside g.N1 g.N2 g.N3 k j i →
      (W k j (i+1) + W k j (i-1)) / g.dx1 ^ 2 + (W k (j+1) i + W k (j-1) i) / g.dx2 ^ 2 + (W (k+1) j i + W (k-1) j i) / g.dx3 ^ 2
        ≤ r * W k j i * (2 / g.dx1 ^ 2 + 2 / g.dx2 ^ 2 + 2 / g.dx3 ^ 2))
    (he : ∀ k j i, Inside g.N1 g.N2 g.N3 k j i → |g.Phi k j i - S k j i| ≤ K * W k j i) :
    ∀ k j i, Inside g.N1 g.N2 g.N3 k j i → |(sweep g).Phi k j i - S k j i| ≤ K * (r * W k j i) := by
  intro k j i hi
  have nb : ∀ k j i, 0 ≤ W k j i → |g.Phi k j i - S k j i| ≤ K * W k j i := by
    intro k j i hw
    by_cases hh : Inside g.N1 g.N2 g.N3 k j i
    · exact he k j i hh
    · rw [hg k j i hh, sub_self, abs_zero]; exact mul_nonneg hK hw
  obtain ⟨w1, w2, w3, w4, w5, w6⟩ := hW0 k j i hi
  rw [sweep_in3 g h.h3 hi, update3_err g h S k j i (hS k j i hi)]
  have p1 : 0 < g.dx1 ^ 2 := by have := h.d1; positivity
  have p2 : 0 < g.dx2 ^ 2 := by have := h.d2; positivity
  have p3 : 0 < g.dx3 ^ 2 := by have := h.d3; positivity
  refine avg_bound p1 p2 p3 (nb _ _ _ w1) (nb _ _ _ w2) (nb _ _ _ w3) (nb _ _ _ w4) (nb _ _ _ w5) (nb _ _ _ w6) ?_
  have := mul_le_mul_of_nonneg_left (hW k j i hi) hK
  calc _ = K * ((W k j (i+1) + W k j (i-1)) / g.dx1 ^ 2 + (W k (j+1) i + W k (j-1) i) / g.dx2 ^ 2
        + (W (k+1) j i + W (k-1) j i) / g.dx3 ^ 2) := by ring
    _ ≤ _ := this
    _ = _ := by ring

/-- **A sweep never increases the largest error**: if the potential differs from the solution by at most `ε` in every zone, so does the potential
after any number of sweeps. -/
theorem sweep_error (g : MGrid) (h : Cube g) (S : A3) (hS : Solves g.N1 g.N2 g.N3 g.dx1 g.dx2 g.dx3 g.rhs S)
    (hg : SameGhosts g.N1 g.N2 g.N3 g.Phi S) {ε : ℝ} (he : ∀ k j i, |g.Phi k j i - S k j i| ≤ ε) (n : ℕ) :
    ∀ k j i, |(sweep^[n] g).Phi k j i - S k j i| ≤ ε := by
  have h0 : 0 ≤ ε := (abs_nonneg _).trans (he 0 0 0)
  induction n with
  | zero => exact he
  | succ n ih =>
    intro k j i
    have sm := sweeps_same n g
    have hc : Cube (sweep^[n] g) := sweeps_induct (p := Cube) (fun _ => Cube.sweep) n h
    rw [Function.iterate_succ_apply']
    generalize sweep^[n] g = q at *
    by_cases hi : Inside q.N1 q.N2 q.N3 k j i
    · have hS' : Solves q.N1 q.N2 q.N3 q.dx1 q.dx2 q.dx3 q.rhs S := by
        rw [sm.N1, sm.N2, sm.N3, sm.dx1, sm.dx2, sm.dx3, sm.rhs]; exact hS
      have hg' : SameGhosts q.N1 q.N2 q.N3 q.Phi S := by
        intro k j i hh
        rw [sm.N1, sm.N2, sm.N3] at hh
        rw [sm.ghosts k j i hh, hg k j i hh]
      have := sweep_weighted q hc S (fun _ _ _ => 1) hS' hg' (by intros; norm_num) (r := 1) h0
        (by intros; exact le_of_eq (by ring)) (by intro k j i _; rw [mul_one]; exact ih k j i) k j i hi
      simpa using this
    · rw [sweep_out q hi]; exact ih k j i

/-! ### Convergence -/

/-- `sin (i π / (N + 1))`. -/
noncomputable def wave (N : ℕ) (i : ℤ) : ℝ := Real.sin (i * (π / (N + 1)))

theorem wave_step (N : ℕ) (i : ℤ) : wave N (i+1) + wave N (i-1) = 2 * Real.cos (π / (N + 1)) * wave N i := by
  unfold wave
  push_cast
  rw [add_mul, sub_mul, one_mul, Real.sin_add, Real.sin_sub]
  ring

theorem wave_nonneg (N : ℕ) (i : ℤ) (h0 : 0 ≤ i) (h1 : i ≤ N + 1) : 0 ≤ wave N i := by
  unfold wave
  have hN : (0 : ℝ) < N + 1 := by positivity
  apply Real.sin_nonneg_of_nonneg_of_le_pi
  · have : (0 : ℝ) ≤ i := by exact_mod_cast h0
    positivity
  · have : (i : ℝ) ≤ N + 1 := by exact_mod_cast h1
    calc (i : ℝ) * (π / (N + 1)) ≤ (N + 1) * (π / (N + 1)) := mul_le_mul_of_nonneg_right this (by positivity)
      _ = π := by field_simp

theorem wave_pos (N : ℕ) (i : ℤ) (h0 : 1 ≤ i) (h1 : i ≤ N) : 0 < wave N i := by
  unfold wave
  have hN : (0 : ℝ) < N + 1 := by positivity
  apply Real.sin_pos_of_pos_of_lt_pi
  · have : (1 : ℝ) ≤ i := by exact_mod_cast h0
    have : (0 : ℝ) < i := by linarith
    positivity
  · have : (i : ℝ) < N + 1 := by exact_mod_cast (by omega : i < N + 1)
    calc (i : ℝ) * (π / (N + 1)) < (N + 1) * (π / (N + 1)) := mul_lt_mul_of_pos_right this (by positivity)
      _ = π := by field_simp

/-- The factor by which a sweep reduces the error at least, in the long run. -/
noncomputable def rate (g : MGrid) : ℝ :=
  (Real.cos (π / (g.N1 + 1)) / g.dx1 ^ 2 + Real.cos (π / (g.N2 + 1)) / g.dx2 ^ 2 + Real.cos (π / (g.N3 + 1)) / g.dx3 ^ 2)
    / (1 / g.dx1 ^ 2 + 1 / g.dx2 ^ 2 + 1 / g.dx3 ^ 2)

theorem cos_range (N : ℕ) (h : 1 < N) : 0 ≤ Real.cos (π / (N + 1)) ∧ Real.cos (π / (N + 1)) < 1 := by
  have hN : (2 : ℝ) ≤ N := by exact_mod_cast h
  have hp := Real.pi_pos
  have hpos : 0 < π / ((N : ℝ) + 1) := by positivity
  have hle : π / ((N : ℝ) + 1) ≤ π / 2 := div_le_div_of_nonneg_left hp.le (by norm_num) (by linarith)
  refine ⟨Real.cos_nonneg_of_neg_pi_div_two_le_of_le (by linarith) hle, ?_⟩
  have := Real.cos_lt_cos_of_nonneg_of_le_pi le_rfl (by linarith) hpos
  rwa [Real.cos_zero] at this

theorem rate_range (g : MGrid) (h : Cube g) : 0 ≤ rate g ∧ rate g < 1 := by
  have c1 := cos_range g.N1 h.h1
  have c2 := cos_range g.N2 h.h2
  have c3 := cos_range g.N3 h.h3
  have p1 : 0 < g.dx1 ^ 2 := by have := h.d1; positivity
  have p2 : 0 < g.dx2 ^ 2 := by have := h.d2; positivity
  have p3 : 0 < g.dx3 ^ 2 := by have := h.d3; positivity
  have hs : 0 < 1 / g.dx1 ^ 2 + 1 / g.dx2 ^ 2 + 1 / g.dx3 ^ 2 := by positivity
  unfold rate
  constructor
  · exact div_nonneg (add_nonneg (add_nonneg (div_nonneg c1.1 p1.le) (div_nonneg c2.1 p2.le)) (div_nonneg c3.1 p3.le)) hs.le
  · rw [div_lt_one hs]
    have e1 := div_lt_div_of_pos_right c1.2 p1
    have e2 := div_lt_div_of_pos_right c2.2 p2
    have e3 := div_lt_div_of_pos_right c3.2 p3
    linarith

/-- The slowest mode. -/
noncomputable def mode (g : MGrid) : A3 := fun k j i => wave g.N3 k * wave g.N2 j * wave g.N1 i

theorem mode_pos (g : MGrid) {k j i : ℤ} (h : Inside g.N1 g.N2 g.N3 k j i) : 0 < mode g k j i := by
  obtain ⟨⟨a, b⟩, ⟨c, d⟩, ⟨e, f⟩⟩ := h
  exact mul_pos (mul_pos (wave_pos _ _ a b) (wave_pos _ _ c d)) (wave_pos _ _ e f)

theorem mode_le_one (g : MGrid) (k j i : ℤ) : |mode g k j i| ≤ 1 := by
  unfold mode
  rw [abs_mul, abs_mul]
  have h1 : |wave g.N3 k| ≤ 1 := Real.abs_sin_le_one _
  have h2 : |wave g.N2 j| ≤ 1 := Real.abs_sin_le_one _
  have h3 : |wave g.N1 i| ≤ 1 := Real.abs_sin_le_one _
  exact mul_le_one₀ (mul_le_one₀ h1 (abs_nonneg _) h2) (abs_nonneg _) h3

theorem mode_nonneg (g : MGrid) {k j i : ℤ} (hk : 0 ≤ k ∧ k ≤ g.N3 + 1) (hj : 0 ≤ j ∧ j ≤ g.N2 + 1) (hi : 0 ≤ i ∧ i ≤ g.N1 + 1) :
    0 ≤ mode g k j i :=
  mul_nonneg (mul_nonneg (wave_nonneg _ _ hk.1 hk.2) (wave_nonneg _ _ hj.1 hj.2)) (wave_nonneg _ _ hi.1 hi.2)

theorem mode_step (g : MGrid) (h : Cube g) (k j i : ℤ) :
    (mode g k j (i+1) + mode g k j (i-1)) / g.dx1 ^ 2 + (mode g k (j+1) i + mode g k (j-1) i) / g.dx2 ^ 2
      + (mode g (k+1) j i + mode g (k-1) j i) / g.dx3 ^ 2 = rate g * mode g k j i * (2 / g.dx1 ^ 2 + 2 / g.dx2 ^ 2 + 2 / g.dx3 ^ 2) := by
  have p1 : 0 < g.dx1 ^ 2 := by have := h.d1; positivity
  have p2 : 0 < g.dx2 ^ 2 := by have := h.d2; positivity
  have p3 : 0 < g.dx3 ^ 2 := by have := h.d3; positivity
  have hs : 0 < 1 / g.dx1 ^ 2 + 1 / g.dx2 ^ 2 + 1 / g.dx3 ^ 2 := by positivity
  have e1 : mode g k j (i+1) + mode g k j (i-1) = 2 * Real.cos (π / (g.N1 + 1)) * mode g k j i := by
    unfold mode; linear_combination (wave g.N3 k * wave g.N2 j) * wave_step g.N1 i
  have e2 : mode g k (j+1) i + mode g k (j-1) i = 2 * Real.cos (π / (g.N2 + 1)) * mode g k j i := by
    unfold mode; linear_combination (wave g.N3 k * wave g.N1 i) * wave_step g.N2 j
  have e3 : mode g (k+1) j i + mode g (k-1) j i = 2 * Real.cos (π / (g.N3 + 1)) * mode g k j i := by
    unfold mode; linear_combination (wave g.N2 j * wave g.N1 i) * wave_step g.N3 k
  rw [e1, e2, e3]
  have : rate g * (1 / g.dx1 ^ 2 + 1 / g.dx2 ^ 2 + 1 / g.dx3 ^ 2) = Real.cos (π / (g.N1 + 1)) / g.dx1 ^ 2
      + Real.cos (π / (g.N2 + 1)) / g.dx2 ^ 2 + Real.cos (π / (g.N3 + 1)) / g.dx3 ^ 2 := by
    unfold rate; rw [div_mul_cancel₀ _ hs.ne']
  linear_combination (-2 * mode g k j i) * this

/-- The active zones. -/
noncomputable def zones (N1 N2 N3 : ℕ) : Finset (ℤ × ℤ × ℤ) :=
  (Finset.Icc (1 : ℤ) N3) ×ˢ (Finset.Icc (1 : ℤ) N2) ×ˢ (Finset.Icc (1 : ℤ) N1)

theorem mem_zones {N1 N2 N3 : ℕ} {k j i : ℤ} : (k, j, i) ∈ zones N1 N2 N3 ↔ Inside N1 N2 N3 k j i := by
  simp [zones, Inside, and_assoc]

theorem rate_congr {a b : MGrid} (h : Same a b) : rate a = rate b := by
  unfold rate; rw [h.N1, h.N2, h.N3, h.dx1, h.dx2, h.dx3]

theorem mode_congr {a b : MGrid} (h : Same a b) : mode a = mode b := by
  unfold mode; rw [h.N1, h.N2, h.N3]

theorem sweeps_weighted (g : MGrid) (h : Cube g) (S : A3) (hS : Solves g.N1 g.N2 g.N3 g.dx1 g.dx2 g.dx3 g.rhs S)
    (hg : SameGhosts g.N1 g.N2 g.N3 g.Phi S) {K : ℝ} (hK : 0 ≤ K)
    (he : ∀ k j i, Inside g.N1 g.N2 g.N3 k j i → |g.Phi k j i - S k j i| ≤ K * mode g k j i) (n : ℕ) :
    ∀ k j i, Inside g.N1 g.N2 g.N3 k j i → |(sweep^[n] g).Phi k j i - S k j i| ≤ K * rate g ^ n * mode g k j i := by
  induction n with
  | zero => simpa using he
  | succ n ih =>
    intro k j i hi
    have sm := sweeps_same n g
    have hc : Cube (sweep^[n] g) := sweeps_induct (p := Cube) (fun _ => Cube.sweep) n h
    rw [Function.iterate_succ_apply']
    have hm := mode_congr sm
    have hr := rate_congr sm
    generalize sweep^[n] g = q at *
    have hS' : Solves q.N1 q.N2 q.N3 q.dx1 q.dx2 q.dx3 q.rhs S := by
      rw [sm.N1, sm.N2, sm.N3, sm.dx1, sm.dx2, sm.dx3, sm.rhs]; exact hS
    have hg' : SameGhosts q.N1 q.N2 q.N3 q.Phi S := by
      intro k j i hh
      rw [sm.N1, sm.N2, sm.N3] at hh
      rw [sm.ghosts k j i hh, hg k j i hh]
    have hi' : Inside q.N1 q.N2 q.N3 k j i := by rw [sm.N1, sm.N2, sm.N3]; exact hi
    have key := sweep_weighted q hc S (mode q) hS' hg' ?_ (r := rate q) (K := K * rate g ^ n)
      (mul_nonneg hK (pow_nonneg (rate_range g h).1 n)) (fun k j i _ => (mode_step q hc k j i).le) ?_ k j i hi'
    · rw [hm, hr] at key
      calc _ ≤ _ := key
        _ = _ := by ring
    · intro k j i hh
      obtain ⟨⟨a, b⟩, ⟨c, d⟩, ⟨e, f⟩⟩ := hh
      refine ⟨?_, ?_, ?_, ?_, ?_, ?_⟩ <;> apply mode_nonneg <;> omega
    · intro k j i hh
      rw [hm]
      exact ih k j i (by rw [← sm.N1, ← sm.N2, ← sm.N3]; exact hh)

/-- **The sweeps converge to the solution**, at the rate `rate g < 1`: there is a constant, depending on the initial error alone, that
bounds the error of every zone after `n` sweeps by its product with `rate g ^ n`. -/
theorem sweeps_converge (g : MGrid) (h : Cube g) (S : A3) (hS : Solves g.N1 g.N2 g.N3 g.dx1 g.dx2 g.dx3 g.rhs S)
    (hg : SameGhosts g.N1 g.N2 g.N3 g.Phi S) :
    rate g < 1 ∧ ∃ K : ℝ, ∀ n k j i, |(sweep^[n] g).Phi k j i - S k j i| ≤ K * rate g ^ n := by
  refine ⟨(rate_range g h).2, ?_⟩
  let f : ℤ × ℤ × ℤ → ℝ := fun z => |g.Phi z.1 z.2.1 z.2.2 - S z.1 z.2.1 z.2.2| / |mode g z.1 z.2.1 z.2.2|
  let K := ∑ z ∈ zones g.N1 g.N2 g.N3, f z
  have hf : ∀ z, 0 ≤ f z := fun z => div_nonneg (abs_nonneg _) (abs_nonneg _)
  have hK : 0 ≤ K := Finset.sum_nonneg fun z _ => hf z
  refine ⟨K, fun n k j i => ?_⟩
  have he : ∀ k j i, Inside g.N1 g.N2 g.N3 k j i → |g.Phi k j i - S k j i| ≤ K * mode g k j i := by
    intro k j i hi
    have hp := mode_pos g hi
    have : f (k, j, i) ≤ K := Finset.single_le_sum (f := f) (fun z _ => hf z) (mem_zones.2 hi)
    have h2 : f (k, j, i) = |g.Phi k j i - S k j i| / mode g k j i := by
      simp only [f]; rw [abs_of_pos hp]
    rw [h2, div_le_iff₀ hp] at this
    exact this
  have hr := pow_nonneg (rate_range g h).1 n
  by_cases hi : Inside g.N1 g.N2 g.N3 k j i
  · refine (sweeps_weighted g h S hS hg hK he n k j i hi).trans ?_
    have := (le_abs_self _).trans (mode_le_one g k j i)
    calc _ ≤ K * rate g ^ n * 1 := mul_le_mul_of_nonneg_left this (mul_nonneg hK hr)
      _ = _ := mul_one _
  · rw [(sweeps_same n g).ghosts k j i hi, hg k j i hi, sub_self, abs_zero]
    exact mul_nonneg hK hr

/-! ### Existence and uniqueness -/

/-- **At most one potential solves the difference equation** with given values in the ghost zones. -/
theorem poisson_unique (N1 N2 N3 : ℕ) (h1 : 1 < N1) (h2 : 1 < N2) (h3 : 1 < N3) (dx1 dx2 dx3 : ℝ) (d1 : dx1 ≠ 0) (d2 : dx2 ≠ 0)
    (d3 : dx3 ≠ 0) (f P Q : A3) (hP : Solves N1 N2 N3 dx1 dx2 dx3 f P) (hQ : Solves N1 N2 N3 dx1 dx2 dx3 f Q)
    (hg : SameGhosts N1 N2 N3 P Q) : P = Q := by
  let g : MGrid := ⟨N1, N2, N3, dx1, dx2, dx3, f, P⟩
  have hc : Cube g := ⟨h1, h2, h3, d1, d2, d3⟩
  have hfix : sweep g = g := sweep_eq_of_fixed g ((sweep_fixed_iff g hc).2 hP)
  obtain ⟨hr, K, hK⟩ := sweeps_converge g hc Q hQ hg
  have hfn : ∀ n, sweep^[n] g = g := fun n => Function.iterate_fixed hfix n
  funext k j i
  have hlim : Filter.Tendsto (fun n : ℕ => K * rate g ^ n) Filter.atTop (nhds (K * 0)) :=
    (tendsto_pow_atTop_nhds_zero_of_lt_one (rate_range g hc).1 hr).const_mul K
  have : |P k j i - Q k j i| ≤ K * 0 := by
    refine ge_of_tendsto' hlim fun n => ?_
    have := hK n k j i
    rw [hfn n] at this
    exact this
  rw [mul_zero] at this
  have := abs_nonpos_iff.1 this
  linarith

/-- A function on the active zones, zero elsewhere. -/
noncomputable def ext0 (N1 N2 N3 : ℕ) (v : zones N1 N2 N3 → ℝ) : A3 := fun k j i =>
  if h : Inside N1 N2 N3 k j i then v ⟨(k, j, i), mem_zones.2 h⟩ else 0

theorem ext0_add (N1 N2 N3 : ℕ) (v w : zones N1 N2 N3 → ℝ) (k j i : ℤ) :
    ext0 N1 N2 N3 (v + w) k j i = ext0 N1 N2 N3 v k j i + ext0 N1 N2 N3 w k j i := by
  unfold ext0; split_ifs <;> simp

theorem ext0_smul (N1 N2 N3 : ℕ) (c : ℝ) (v : zones N1 N2 N3 → ℝ) (k j i : ℤ) :
    ext0 N1 N2 N3 (c • v) k j i = c * ext0 N1 N2 N3 v k j i := by
  unfold ext0; split_ifs <;> simp

/-- The Laplacian with zero in the ghost zones, as a linear map. -/
noncomputable def lapMap (N1 N2 N3 : ℕ) (dx1 dx2 dx3 : ℝ) : (zones N1 N2 N3 → ℝ) →ₗ[ℝ] (zones N1 N2 N3 → ℝ) where
  toFun v := fun z => lap dx1 dx2 dx3 (ext0 N1 N2 N3 v) z.1.1 z.1.2.1 z.1.2.2
  map_add' v w := by funext z; simp only [lap, ext0_add, Pi.add_apply]; ring
  map_smul' c v := by funext z; simp only [lap, ext0_smul, Pi.smul_apply, smul_eq_mul, RingHom.id_apply]; ring

/-- **A potential that solves the difference equation exists** for every right-hand side and all values in the ghost zones. -/
theorem poisson_exists (N1 N2 N3 : ℕ) (h1 : 1 < N1) (h2 : 1 < N2) (h3 : 1 < N3) (dx1 dx2 dx3 : ℝ) (d1 : dx1 ≠ 0) (d2 : dx2 ≠ 0)
    (d3 : dx3 ≠ 0) (f B : A3) : ∃ P, Solves N1 N2 N3 dx1 dx2 dx3 f P ∧ SameGhosts N1 N2 N3 P B := by
  have inj : Function.Injective (lapMap N1 N2 N3 dx1 dx2 dx3) := by
    intro v w hvw
    have hP := poisson_unique N1 N2 N3 h1 h2 h3 dx1 dx2 dx3 d1 d2 d3 (lap dx1 dx2 dx3 (ext0 N1 N2 N3 w)) (ext0 N1 N2 N3 v) (ext0 N1 N2 N3 w)
      (fun k j i hi => congrFun hvw ⟨(k, j, i), mem_zones.2 hi⟩) (fun _ _ _ _ => rfl)
      (fun k j i hi => by simp only [ext0, dif_neg hi])
    funext z
    obtain ⟨⟨k, j, i⟩, hz⟩ := z
    have := congrFun (congrFun (congrFun hP k) j) i
    have hi := mem_zones.1 hz
    simpa only [ext0, dif_pos hi] using this
  have sur := LinearMap.injective_iff_surjective.1 inj
  let B0 : A3 := fun k j i => if Inside N1 N2 N3 k j i then 0 else B k j i
  obtain ⟨v, hv⟩ := sur fun z => f z.1.1 z.1.2.1 z.1.2.2 - lap dx1 dx2 dx3 B0 z.1.1 z.1.2.1 z.1.2.2
  refine ⟨fun k j i => ext0 N1 N2 N3 v k j i + B0 k j i, ?_, ?_⟩
  · intro k j i hi
    have := congrFun hv ⟨(k, j, i), mem_zones.2 hi⟩
    simp only [lapMap, LinearMap.coe_mk, AddHom.coe_mk] at this
    have e : lap dx1 dx2 dx3 (fun k j i => ext0 N1 N2 N3 v k j i + B0 k j i) k j i
        = lap dx1 dx2 dx3 (ext0 N1 N2 N3 v) k j i + lap dx1 dx2 dx3 B0 k j i := by simp only [lap]; ring
    rw [e, this]; ring
  · intro k j i hi
    simp only [ext0, dif_neg hi, B0, if_neg hi, zero_add]

end Athena.Mg
