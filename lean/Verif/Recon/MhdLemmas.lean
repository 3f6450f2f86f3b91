import Verif.Recon.Mhd
import Verif.Recon.Props
import Verif.Hydro.RoeMhd

/-! # Relations between the quantities of the MHD eigensystems in primitive variables -/

namespace Athena.Recon
noncomputable section
open Athena.Hydro

/-- `bt` = |transverse field|, `a` = speed of sound. -/
structure MRel (d b1 b2 b3 a : ℝ) (m : MPar) (bt : ℝ) : Prop where
  cf : 0 < m.cf
  cs : 0 ≤ m.cs
  csvax : m.cs ≤ m.vax
  vaxcf : m.vax ≤ m.cf
  sd : 0 < m.sd
  sdd : m.sd ^ 2 = d
  dd : d * m.di = 1
  s : m.s ^ 2 = 1
  t : m.t2 ^ 2 + m.t3 ^ 2 = 1
  hb2 : b2 = bt * m.t2
  hb3 : b3 = bt * m.t3
  nm : 2 * m.nm * a ^ 2 = 1
  al : m.af ^ 2 + m.as ^ 2 = 1
  alc : m.af ^ 2 * m.cf ^ 2 + m.as ^ 2 * m.cs ^ 2 = a ^ 2
  ala : m.af * m.as * (m.cf ^ 2 - m.cs ^ 2) * m.sd = a * bt
  cc : m.cf * m.cs = a * m.vax
  sum : (m.cf ^ 2 + m.cs ^ 2) * d = m.vax ^ 2 * d + bt ^ 2 + a ^ 2 * d
  hb1 : b1 = m.s * m.vax * m.sd

theorem betP_eq (b2 b3 bt : ℝ) : betP b2 b3 bt = mhdBeta b2 b3 bt := rfl
theorem alphaP_eq (F S T : ℝ) : alphaP (F - S) F S T = mhdAlpha F S T := rfl

theorem parP_spec (iso : Bool) (d b1 b2 b3 a T : ℝ) (hd : 0 < d) (ha : 0 < a) (hTa : T = a ^ 2) :
    ∃ m bt, parP iso d b1 b2 b3 T = some m ∧ MRel d b1 b2 b3 a m bt ∧ m.di = 1 / d := by
  have hT : 0 < T := by rw [hTa]; positivity
  have hB : 0 ≤ b2 * b2 + b3 * b3 := by nlinarith [mul_self_nonneg b2, mul_self_nonneg b3]
  have hi : 0 < 1 / d := by positivity
  obtain ⟨V, hV⟩ : ∃ V, V = b1 * b1 * (1 / d) := ⟨_, rfl⟩
  obtain ⟨C, hC⟩ : ∃ C, C = (b2 * b2 + b3 * b3) * (1 / d) := ⟨_, rfl⟩
  have hV0 : 0 ≤ V := by rw [hV]; exact mul_nonneg (mul_self_nonneg _) hi.le
  have hC0 : 0 ≤ C := by rw [hC]; positivity
  have hD : 0 ≤ (V + C - T) * (V + C - T) + 4 * T * C := add_nonneg (mul_self_nonneg _) (by positivity)
  obtain ⟨q, hq⟩ : ∃ q, q = Real.sqrt ((V + C - T) * (V + C - T) + 4 * T * C) := ⟨_, rfl⟩
  have hq0 : 0 ≤ q := by rw [hq]; exact Real.sqrt_nonneg _
  have hqq : q ^ 2 = (V + C - T) * (V + C - T) + 4 * T * C := by rw [hq, Real.sq_sqrt hD]
  have hqa : |V + C - T| ≤ q := by
    rw [← abs_of_nonneg hq0]; apply sq_le_sq.mp; rw [hqq]; nlinarith
  have hqa1 : V + C - T ≤ q := le_trans (le_abs_self _) hqa
  have hqa2 : T - V - C ≤ q := by have := neg_abs_le (V + C - T); linarith
  obtain ⟨F, hF⟩ : ∃ F, F = 1/2 * (V + C + T + q) := ⟨_, rfl⟩
  have hFT : T ≤ F := by rw [hF]; linarith
  have hFV : V ≤ F := by rw [hF]; linarith
  have hF0 : 0 < F := by linarith
  obtain ⟨S, hS⟩ : ∃ S, S = T * V / F := ⟨_, rfl⟩
  have hFS : F * S = T * V := by rw [hS]; field_simp
  have hS0 : 0 ≤ S := by rw [hS]; positivity
  have hSe : S = V + C + T - F := by
    have : F * (V + C + T - F) = T * V := by rw [hF]; nlinarith
    exact mul_left_cancel₀ hF0.ne' (by rw [hFS, this])
  have hST : S ≤ T := by rw [hS, div_le_iff₀ hF0]; nlinarith
  have hSV : S ≤ V := by rw [hS, div_le_iff₀ hF0]; nlinarith
  have hqS : q = F - S := by rw [hSe]; linarith
  have hTC : (T - S) * (F - T) = T * C := by
    have : (T - S) * (F - T) = T * (F + S) - T ^ 2 - F * S := by ring
    rw [this, hFS, hSe]; ring
  obtain ⟨af, as, hal, ha1, ha2, ha3⟩ := alphas F S T C hT hC0 hFT hST hTC
  obtain ⟨t2, t3, hb, hb1, hb2, hb3⟩ := betas b2 b3
  obtain ⟨bt, hbt⟩ : ∃ bt, bt = Real.sqrt (b2 * b2 + b3 * b3) := ⟨_, rfl⟩
  rw [← hbt] at hb hb2 hb3
  have hbt0 : 0 ≤ bt := by rw [hbt]; exact Real.sqrt_nonneg _
  have hsd : 0 < Real.sqrt d := Real.sqrt_pos.mpr hd
  have hcf : 0 < Real.sqrt F := Real.sqrt_pos.mpr hF0
  have hCe : C = bt ^ 2 / d := by rw [hbt, Real.sq_sqrt hB, hC]; ring
  refine ⟨⟨Real.sqrt F, Real.sqrt S, Real.sqrt V, t2, t3, af, as, Real.sqrt d, sgn b1, 1/2 / T, 1 / d⟩, bt, ?_, ?_, rfl⟩
  · unfold parP
    refine Option.bind_eq_some_iff.mpr ⟨_, fdiv_pos hd, ?_⟩
    dsimp only
    rw [← hV, ← hC]
    refine Option.bind_eq_some_iff.mpr ⟨_, fsqrt_nonneg hD, ?_⟩
    rw [← hq, ← hF]
    refine Option.bind_eq_some_iff.mpr ⟨_, fsqrt_nonneg hF0.le, ?_⟩
    refine Option.bind_eq_some_iff.mpr ⟨_, fdiv_pos hF0, ?_⟩
    rw [← hS]
    refine Option.bind_eq_some_iff.mpr ⟨_, fsqrt_nonneg hS0, ?_⟩
    refine Option.bind_eq_some_iff.mpr ⟨_, fsqrt_nonneg hB, ?_⟩
    rw [← hbt]
    refine Option.bind_eq_some_iff.mpr ⟨(t2, t3), hb, ?_⟩
    refine Option.bind_eq_some_iff.mpr ⟨(af, as), ?_, ?_⟩
    · rw [hqS, ite_self]; exact hal
    refine Option.bind_eq_some_iff.mpr ⟨_, fsqrt_nonneg hd.le, ?_⟩
    refine Option.bind_eq_some_iff.mpr ⟨_, fsqrt_nonneg hV0, ?_⟩
    refine Option.bind_eq_some_iff.mpr ⟨_, fdiv_pos hT, ?_⟩
    rfl
  · have haT : Real.sqrt T = a := by rw [hTa, Real.sqrt_sq ha.le]
    constructor <;> (try dsimp only)
    · exact hcf
    · exact Real.sqrt_nonneg _
    · exact Real.sqrt_le_sqrt hSV
    · exact Real.sqrt_le_sqrt hFV
    · exact hsd
    · exact Real.sq_sqrt hd.le
    · field_simp
    · unfold sgn; split_ifs <;> norm_num
    · exact hb1
    · exact hb2
    · exact hb3
    · rw [← hTa]; field_simp
    · exact ha1
    · rw [Real.sq_sqrt hF0.le, Real.sq_sqrt hS0, ← hTa]; exact ha2
    · rw [Real.sq_sqrt hF0.le, Real.sq_sqrt hS0, ha3, Real.sqrt_mul hT.le, hCe, Real.sqrt_div (sq_nonneg _),
        Real.sqrt_sq hbt0, haT]; field_simp
    · rw [← Real.sqrt_mul hF0.le, hFS, Real.sqrt_mul hT.le, haT]
    · rw [Real.sq_sqrt hF0.le, Real.sq_sqrt hS0, Real.sq_sqrt hV0, ← hTa, hSe, hCe]; field_simp; ring
    · have e : Real.sqrt V * Real.sqrt d = |b1| := by
        rw [← Real.sqrt_mul hV0, hV, show b1 * b1 * (1 / d) * d = b1 ^ 2 by field_simp, Real.sqrt_sq_eq_abs]
      rw [mul_assoc, e]
      unfold sgn
      split_ifs with h
      · rw [abs_of_neg h]; ring
      · rw [abs_of_nonneg (not_lt.mp h)]; ring

/-! ## The relations of fast and slow waves -/

section
variable {d b1 b2 b3 a : ℝ} {m : MPar} {bt : ℝ}

theorem MRel.asF (h : MRel d b1 b2 b3 a m bt) : m.as ^ 2 * (m.cf ^ 2 - m.cs ^ 2) = m.cf ^ 2 - a ^ 2 := by
  linear_combination m.cf ^ 2 * h.al - h.alc

theorem MRel.afS (h : MRel d b1 b2 b3 a m bt) : m.af ^ 2 * (m.cf ^ 2 - m.cs ^ 2) = a ^ 2 - m.cs ^ 2 := by
  linear_combination h.alc - m.cs ^ 2 * h.al

/-- Momentum equation along the field gradient, fast wave. -/
theorem MRel.fast (h : MRel d b1 b2 b3 a m bt) : m.af * (m.cf ^ 2 - a ^ 2) * m.sd = m.as * a * bt := by
  rw [← h.asF]; linear_combination m.as * h.ala

theorem MRel.slow (h : MRel d b1 b2 b3 a m bt) : m.as * (a ^ 2 - m.cs ^ 2) * m.sd = m.af * a * bt := by
  rw [← h.afS]; linear_combination m.af * h.ala

/-- Induction equation, fast wave. -/
theorem MRel.fastB (h : MRel d b1 b2 b3 a m bt) (ha : 0 < a) : m.af * m.cf * bt + m.as * m.cs * m.vax * m.sd = m.as * m.cf * a * m.sd := by
  have hcf := h.cf
  have ht := h.asF
  have hs := h.afS
  obtain ⟨X, hX⟩ : ∃ X, X = m.af * m.cf ^ 2 * bt - m.as * a * m.sd * (m.cf ^ 2 - m.vax ^ 2) := ⟨_, rfl⟩
  have hq : (m.cf ^ 2 - a ^ 2) * (m.cf ^ 2 - m.vax ^ 2) * d = m.cf ^ 2 * bt ^ 2 := by
    linear_combination m.cf ^ 2 * h.sum - d * (m.cf * m.cs + a * m.vax) * h.cc
  have e1 : m.as * m.sd * X * (m.cf ^ 2 - m.cs ^ 2) = 0 := by
    rw [hX]
    linear_combination m.cf ^ 2 * bt * h.ala - a * d * (m.cf ^ 2 - m.vax ^ 2) * ht - a * hq -
      m.as ^ 2 * a * (m.cf ^ 2 - m.vax ^ 2) * (m.cf ^ 2 - m.cs ^ 2) * h.sdd
  have e2 : m.af * X * (m.cf ^ 2 - m.cs ^ 2) = 0 := by
    rw [hX]
    linear_combination m.cf ^ 2 * bt * hs - a * (m.cf ^ 2 - m.vax ^ 2) * h.ala - bt * (m.cf * m.cs + a * m.vax) * h.cc
  have e3 : X * (m.cf ^ 2 - m.cs ^ 2) = 0 := by
    have : m.sd * (X * (m.cf ^ 2 - m.cs ^ 2)) = 0 := by
      linear_combination m.as * e1 + m.sd * m.af * e2 - m.sd * X * (m.cf ^ 2 - m.cs ^ 2) * h.al
    exact (mul_eq_zero.mp this).resolve_left h.sd.ne'
  have hX0 : X = 0 := by
    rcases mul_eq_zero.mp e3 with e | e
    · exact e
    have ec : m.cs = m.cf := by
      have : (m.cf - m.cs) * (m.cf + m.cs) = 0 := by linear_combination e
      rcases mul_eq_zero.mp this with k | k
      · linarith
      · have := h.cs; linarith
    have ev : m.vax = m.cf := le_antisymm h.vaxcf (by rw [← ec]; exact h.csvax)
    have hb : bt = 0 := by
      have : a * bt = 0 := by rw [← h.ala, e]; ring
      exact (mul_eq_zero.mp this).resolve_left ha.ne'
    rw [hX, ev, hb]; ring
  refine mul_left_cancel₀ hcf.ne' ?_
  linear_combination hX0 - hX + m.as * m.vax * m.sd * h.cc

/-- Induction equation, slow wave. -/
theorem MRel.slowB (h : MRel d b1 b2 b3 a m bt) : m.as * m.cs * bt + m.af * m.cs * a * m.sd = m.af * m.cf * m.vax * m.sd := by
  refine mul_left_cancel₀ h.cf.ne' ?_
  linear_combination (m.as * bt + m.af * a * m.sd) * h.cc - m.vax * h.fast

end
end
end Athena.Recon
