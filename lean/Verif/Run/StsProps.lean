import Verif.Run.Cfl
import Mathlib.Analysis.SpecialFunctions.Trigonometric.Chebyshev.RootsExtrema
import Mathlib.Algebra.Polynomial.Splits
import Mathlib.Tactic.IntervalCases
import Mathlib.Tactic.LinearCombination

/-!
# Super time stepping (src/new_dt.c:211-230, 250-271; src/main.c:517-524)

Property C54: the sub-steps taken by the diffusion operators add up to exactly the time step, and the number
of sub-steps is the least one that the table allows.
-/

namespace Athena.Run
noncomputable section
open Polynomial Polynomial.Chebyshev

/-- `pM->diff_dt`, src/new_dt.c:220-230, as a function of `N_STS` and `pM->dt`. -/
def stsDiffDt (N : Nat) (dt : ℝ) : ℝ :=
  if N = 1 then dt
  else
    let s : ℝ := 1/2 / N
    2 * dt * s / N * ((1 + s) ^ (2*N) + (1 - s) ^ (2*N)) / ((1 + s) ^ (2*N) - (1 - s) ^ (2*N))

/-- `nu_STS`, src/new_dt.c:221, 225. -/
def stsNu (N : Nat) : ℝ := if N = 1 then 0 else 1/4 / ((N:ℝ) * N)

/-- `STS_dt` of sub-step `i`, src/main.c:520-521. -/
def stsDt (N : Nat) (dt : ℝ) (i : Nat) : ℝ :=
  stsDiffDt N dt / (1 + stsNu N - (1 - stsNu N) * Real.cos (1/2 * Real.pi * (2 * i + 1) / N))

/-! ## Chebyshev polynomials outside [-1,1] -/

theorem T_eval_half (w : ℝ) (hw : w ≠ 0) : ∀ n : Nat, (T ℝ n).eval ((w + w⁻¹) / 2) = (w^n + (w⁻¹)^n) / 2 := by
  have h : ∀ n : Nat, (T ℝ n).eval ((w + w⁻¹) / 2) = (w^n + (w⁻¹)^n) / 2 ∧
      (T ℝ (n+1 : Nat)).eval ((w + w⁻¹) / 2) = (w^(n+1) + (w⁻¹)^(n+1)) / 2 := by
    intro n
    induction n with
    | zero => simp
    | succ n ih =>
      refine ⟨ih.2, ?_⟩
      have e : (T ℝ ((n+1+1 : Nat) : ℤ)) = 2 * X * T ℝ ((n+1 : Nat) : ℤ) - T ℝ (n : ℤ) := by
        have := T_add_two ℝ (n : ℤ)
        push_cast
        rw [show (n:ℤ) + 1 + 1 = n + 2 by ring, this]
      rw [e]
      simp only [eval_sub, eval_mul, eval_ofNat, eval_X, ih.1, ih.2]
      have hi : w * w⁻¹ = 1 := mul_inv_cancel₀ hw
      generalize w⁻¹ = v at *
      linear_combination (w ^ n + v^n) * hi / 2
  exact fun n => (h n).1

theorem U_eval_half (w : ℝ) (hw : w ≠ 0) : ∀ n : Nat, (w - w⁻¹) * (U ℝ n).eval ((w + w⁻¹) / 2) = w^(n+1) - (w⁻¹)^(n+1) := by
  have hi : w * w⁻¹ = 1 := mul_inv_cancel₀ hw
  have h : ∀ n : Nat, (w - w⁻¹) * (U ℝ n).eval ((w + w⁻¹) / 2) = w^(n+1) - (w⁻¹)^(n+1) ∧
      (w - w⁻¹) * (U ℝ (n+1 : Nat)).eval ((w + w⁻¹) / 2) = w^(n+1+1) - (w⁻¹)^(n+1+1) := by
    intro n
    induction n with
    | zero => 
      constructor
      · simp
      · simp; ring
    | succ n ih =>
      refine ⟨ih.2, ?_⟩
      have e : (U ℝ ((n+1+1 : Nat) : ℤ)) = 2 * X * U ℝ ((n+1 : Nat) : ℤ) - U ℝ (n : ℤ) := by
        have := U_add_two ℝ (n : ℤ)
        push_cast
        rw [show (n:ℤ) + 1 + 1 = n + 2 by ring, this]
      rw [e]
      simp only [eval_sub, eval_mul, eval_ofNat, eval_X]
      obtain ⟨i1, i2⟩ := ih
      generalize w⁻¹ = v at *
      generalize eval ((w + v) / 2) (U ℝ (n:ℤ)) = a at *
      generalize eval ((w + v) / 2) (U ℝ ((n+1 : Nat):ℤ)) = b at *
      linear_combination (w + v) * i2 - i1 + (w^(n+1) - v^(n+1)) * hi
  exact fun n => (h n).1

/-- The sum of `1/(x - c_j)` over the roots of `T_N`. -/
theorem sum_inv_roots (N : Nat) (x : ℝ) (hx : (T ℝ N).eval x ≠ 0) :
    ∑ j ∈ Finset.range N, 1 / (x - Real.cos ((2 * j + 1) * Real.pi / (2 * N))) =
      (derivative (T ℝ N)).eval x / (T ℝ N).eval x := by
  have hr := roots_T_real N
  have hnd := roots_T_real_nodup N
  have hinj : Set.InjOn (fun k : ℕ => Real.cos ((2 * k + 1) * Real.pi / (2 * N))) (Finset.range N) :=
    (Finset.range N).nodup_map_iff_injOn.mp hnd
  have hcard : (T ℝ N).roots.card = (T ℝ N).natDegree := by
    rw [hr, natDegree_T]
    have : Multiset.card ((Finset.range N).image (fun k : ℕ => Real.cos ((2 * k + 1) * Real.pi / (2 * N)))).val = N := by
      rw [Finset.card_val, Finset.card_image_of_injOn hinj, Finset.card_range]
    rw [this]; simp
  have hs : Splits (T ℝ N) := splits_iff_card_roots.2 hcard
  rw [hs.eval_derivative_div_eval_of_ne_zero hx, hr, Finset.image_val_of_injOn hinj, Multiset.map_map]
  rfl

/-! ## The sum of the sub-steps -/

theorem sts_sum (N : Nat) (hN : 1 ≤ N) (dt : ℝ) : ∑ i ∈ Finset.range N, stsDt N dt i = dt := by
  by_cases h1 : N = 1
  · subst h1
    simp only [Finset.range_one, Finset.sum_singleton, stsDt, stsDiffDt, stsNu, if_true]
    have : (1:ℝ)/2 * Real.pi * (2 * ((0:Nat):ℝ) + 1) / ((1:Nat):ℝ) = Real.pi / 2 := by push_cast; ring
    rw [this, Real.cos_pi_div_two]
    norm_num
  · have hN2 : 2 ≤ N := by omega
    have hNr : (2:ℝ) ≤ N := by exact_mod_cast hN2
    set s : ℝ := 1/2 / N with hs
    have hs0 : 0 < s := by rw [hs]; positivity
    have hs1 : s < 1 := by rw [hs, div_lt_one (by linarith)]; linarith
    have hnu : stsNu N = s^2 := by
      unfold stsNu; rw [if_neg h1, hs]; field_simp; norm_num
    have hD : stsDiffDt N dt = 2 * dt * s / N * ((1 + s) ^ (2*N) + (1 - s) ^ (2*N)) / ((1 + s) ^ (2*N) - (1 - s) ^ (2*N)) := by
      unfold stsDiffDt; rw [if_neg h1]
    set w : ℝ := (1 + s) / (1 - s) with hw
    have h1s : 0 < 1 - s := by linarith
    have h1p : 0 < 1 + s := by linarith
    have hw0 : 0 < w := div_pos h1p h1s
    have hwi : w⁻¹ = (1 - s) / (1 + s) := by rw [hw, inv_div]
    set x : ℝ := (w + w⁻¹) / 2 with hx
    have hxe : x = (1 + s^2) / (1 - s^2) := by
      rw [hx, hwi, hw]
      have : (1:ℝ) - s^2 = (1 - s) * (1 + s) := by ring
      rw [this]
      field_simp
      ring
    have hs2 : 0 < 1 - s^2 := by nlinarith
    have hT := T_eval_half w hw0.ne' N
    rw [← hx] at hT
    have hTpos : 0 < (T ℝ N).eval x := by rw [hT]; positivity
    have hsum := sum_inv_roots N x hTpos.ne'
    have hU := U_eval_half w hw0.ne' (N-1)
    rw [← hx, Nat.sub_add_cancel hN] at hU
    have hder : (derivative (T ℝ N)).eval x = N * (U ℝ ((N-1 : Nat):ℤ)).eval x := by
      rw [T_derivative_eq_U]
      simp only [eval_mul]
      have : ((N:ℤ) - 1) = ((N-1 : Nat) : ℤ) := by omega
      rw [this]
      simp
    have hterm : ∀ i ∈ Finset.range N, stsDt N dt i =
        stsDiffDt N dt / (1 - s^2) * (1 / (x - Real.cos ((2 * i + 1) * Real.pi / (2 * N)))) := by
      intro i _
      unfold stsDt
      rw [hnu]
      have harg : 1/2 * Real.pi * (2 * (i:ℝ) + 1) / N = (2 * i + 1) * Real.pi / (2 * N) := by
        field_simp
      rw [harg, div_mul_div_comm, mul_one]
      congr 1
      rw [hxe]
      field_simp
    rw [Finset.sum_congr rfl hterm, ← Finset.mul_sum, hsum, hder, hT, hD]
    have hww : w - w⁻¹ = 4 * s / (1 - s^2) := by
      rw [hwi, hw]
      have : (1:ℝ) - s^2 = (1 - s) * (1 + s) := by ring
      rw [this]
      field_simp
      ring
    have hww0 : w - w⁻¹ ≠ 0 := by rw [hww]; positivity
    have hUe : (U ℝ ((N-1 : Nat):ℤ)).eval x = (w^N - (w⁻¹)^N) * ((1 - s^2) / (4*s)) := by
      rw [← hU, hww]; field_simp
    rw [hUe]
    have hwN : w^N = (1+s)^N / (1-s)^N := by rw [hw, div_pow]
    have hwiN : (w⁻¹)^N = (1-s)^N / (1+s)^N := by rw [hwi, div_pow]
    rw [hwN, hwiN]
    have hA : 0 < (1+s)^N := by positivity
    have hB : 0 < (1-s)^N := by positivity
    have hAB : (1-s)^N < (1+s)^N := pow_lt_pow_left₀ (by linarith) h1s.le (by omega)
    rw [pow_mul' (1+s), pow_mul' (1-s)]
    generalize (1+s)^N = A at *
    generalize (1-s)^N = B at *
    have hdiff : A^2 - B^2 ≠ 0 := by
      have : 0 < A^2 - B^2 := by nlinarith
      exact this.ne'
    have hsumne : A^2 + B^2 ≠ 0 := by positivity
    have hN0 : (N:ℝ) ≠ 0 := by positivity
    have e1 : A / B - B / A = (A^2 - B^2) / (A*B) := by field_simp
    have e2 : A / B + B / A = (A^2 + B^2) / (A*B) := by field_simp
    rw [e1, e2]
    field_simp
    ring

/-! ## The number of sub-steps -/

theorem ratio_pos : ∀ i (h : i < ratio.length), 0 < ratio[i] := by
  intro i h
  have : i < 16 := h
  interval_cases i <;> simp [ratio] <;> norm_num

theorem stsIdx_spec (q : ℝ) : ∀ (l : List ℝ) (i : Nat), i ≤ 12 → 12 < i + l.length →
    i ≤ stsIdx q l i ∧ stsIdx q l i ≤ 12 ∧ 
    (∀ j r, l[j]? = some r → i + j < stsIdx q l i → r < q) ∧
    (stsIdx q l i < 12 → ∃ r, l[stsIdx q l i - i]? = some r ∧ q ≤ r)
  | [], i, h, h' => by simp at h'; omega
  | r :: l, i, h, h' => by
    unfold stsIdx
    split_ifs with hc
    · obtain ⟨a, b, c, d⟩ := stsIdx_spec q l (i+1) (by omega) (by simp at h' ⊢; omega)
      refine ⟨by omega, b, ?_, ?_⟩
      · intro j r' hj hlt
        cases j with
        | zero => simp at hj; rw [← hj]; exact hc.1
        | succ j => exact c j r' (by simpa using hj) (by omega)
      · intro hlt
        obtain ⟨r', hr', hq⟩ := d hlt
        refine ⟨r', ?_, hq⟩
        rw [show stsIdx q l (i+1) - i = (stsIdx q l (i+1) - (i+1)) + 1 by omega]
        simpa using hr'
    · refine ⟨le_refl _, h, ?_, ?_⟩
      · intro j r' _ hlt; omega
      · intro hlt
        refine ⟨r, by simp, ?_⟩
        by_contra hq
        exact hc ⟨not_le.1 hq, hlt⟩

theorem nSTS_spec (dt d : ℝ) (hd : 0 < d) : 1 ≤ nSTS dt d ∧ nSTS dt d ≤ 13 ∧
    (∀ j (h : j < ratio.length), j + 1 < nSTS dt d → ratio[j] * d < dt) ∧
    (∀ h : nSTS dt d - 1 < ratio.length, nSTS dt d ≤ 12 → dt ≤ ratio[nSTS dt d - 1] * d) := by
  unfold nSTS
  obtain ⟨a, b, c, e⟩ := stsIdx_spec (dt / d) ratio 0 (by omega) (by simp [ratio])
  refine ⟨by omega, by omega, ?_, ?_⟩
  · intro j h hlt
    have := c j ratio[j] (List.getElem?_eq_getElem h) (by omega)
    rwa [lt_div_iff₀ hd] at this
  · intro h hle
    obtain ⟨r, hr, hq⟩ := e (by omega)
    rw [div_le_iff₀ hd] at hq
    simp only [Nat.add_sub_cancel] at h ⊢
    rw [Nat.sub_zero, List.getElem?_eq_getElem h] at hr
    rw [Option.some.inj hr]; exact hq

/-- **C54 (number of sub-steps, limit of the time step).**  With super time stepping the time step is never
increased, never exceeds the table's multiple of the diffusion limit, there are between 1 and 12 sub-steps, and
never more than the table requires. -/
theorem sts_limit (dt d : ℝ) (hd : 0 < d) :
    let r := stsLimit dt d
    1 ≤ r.1 ∧ r.1 ≤ 12 ∧ r.2 ≤ dt ∧ (∃ ra, ratio[r.1 - 1]? = some ra ∧ r.2 ≤ ra * d) ∧
    (∀ j ra, ratio[j]? = some ra → j + 1 < r.1 → ra * d < r.2) := by
  obtain ⟨a, b, c, e⟩ := nSTS_spec dt d hd
  have hlen : ratio.length = 16 := rfl
  dsimp only
  unfold stsLimit
  split_ifs with h
  · have h13 : nSTS dt d = 13 := by omega
    have h11 := c 11 (by omega) (by omega)
    have e11 : ratio[11]'(by omega) = 109.7045774 := rfl
    rw [e11] at h11
    refine ⟨by norm_num, by norm_num, h11.le, ⟨109.7045774, rfl, le_refl _⟩, ?_⟩
    intro j ra hj hlt
    have hj' : j < 11 := by omega
    apply mul_lt_mul_of_pos_right _ hd
    have : j < 16 := by omega
    rw [List.getElem?_eq_getElem (by omega)] at hj
    rw [← Option.some.inj hj]
    interval_cases j <;> simp [ratio] <;> norm_num
  · refine ⟨a, by omega, le_refl _, ?_, ?_⟩
    · have hl : nSTS dt d - 1 < ratio.length := by omega
      exact ⟨_, List.getElem?_eq_getElem hl, e hl (by omega)⟩
    · intro j ra hj hlt
      have hl : j < ratio.length := (List.getElem?_eq_some_iff.1 hj).1
      rw [List.getElem?_eq_getElem hl] at hj
      rw [← Option.some.inj hj]
      exact c j hl hlt

/-- **C54 (the sub-steps add up).**  Over one cycle the diffusion operators are advanced by exactly the time
step the ideal part takes, whatever the time step and the diffusion limit. -/
theorem sts_advances_dt (dt d : ℝ) (hd : 0 < d) :
    let r := stsLimit dt d
    ∑ i ∈ Finset.range r.1, stsDt r.1 r.2 i = r.2 := sts_sum _ (sts_limit dt d hd).1 _

/-- `diff_dt/dt` for `N ≥ 2`. -/
def stsK (N : Nat) : ℝ :=
  2 * (1/2 / N) / N * ((1 + 1/2 / N) ^ (2*N) + (1 - 1/2 / N) ^ (2*N)) / ((1 + 1/2 / N) ^ (2*N) - (1 - 1/2 / N) ^ (2*N))

theorem stsDiffDt_eq (N : Nat) (h : N ≠ 1) (t : ℝ) : stsDiffDt N t = stsK N * t := by
  unfold stsDiffDt stsK; rw [if_neg h]; ring

/-- **C54 (base step).**  The base step used for the sub-steps exceeds the diffusion limit by at most one part
in 10⁸ (the table is rounded to ten digits). -/
theorem sts_base_step (dt d : ℝ) (hd : 0 < d) :
    let r := stsLimit dt d
    stsDiffDt r.1 r.2 ≤ d * (1 + 1/10^8) := by
  obtain ⟨h1, h2, -, ⟨ra, hra, hle⟩, -⟩ := sts_limit dt d hd
  dsimp only
  generalize hN : (stsLimit dt d).1 = N at *
  generalize (stsLimit dt d).2 = t at *
  have key : ∀ (k : ℝ), 0 ≤ k → k * ra ≤ 1 + 1/10^8 → k * t ≤ d * (1 + 1/10^8) := by
    intro k hk h
    calc k * t ≤ k * (ra * d) := mul_le_mul_of_nonneg_left hle hk
      _ = d * (k * ra) := by ring
      _ ≤ d * (1 + 1/10^8) := mul_le_mul_of_nonneg_left h hd.le
  interval_cases N
  · simp only [ratio, Nat.sub_self, List.getElem?_cons_zero, Option.some.injEq] at hra
    have := key 1 (by norm_num) (by rw [← hra]; norm_num)
    simpa [stsDiffDt] using this
  all_goals
    simp only [ratio, Nat.reduceSub, List.getElem?_cons_succ, List.getElem?_cons_zero, Option.some.injEq] at hra
    rw [stsDiffDt_eq _ (by norm_num)]
    refine key _ ?_ ?_
    · unfold stsK; norm_num
    · rw [← hra]; unfold stsK; norm_num

/-- Non-vacuity: `dt = 10`, diffusion limit 1: four sub-steps (6.89 < 10 ≤ 12.22). -/
example : stsLimit 10 1 = (4, 10) := by
  have h : nSTS 10 1 = 4 := by
    unfold nSTS ratio
    norm_num [stsIdx]
  unfold stsLimit
  rw [h]; norm_num

end
end Athena.Run
