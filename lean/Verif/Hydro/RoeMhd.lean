import Verif.Hydro.RoeLemmas
import Mathlib.LinearAlgebra.Matrix.NonsingularInverse
import Mathlib.Algebra.BigOperators.Fin
import Mathlib.Tactic.FinCases

/-! # The MHD eigensystems of Roe's solver -/

namespace Athena.Hydro
noncomputable section
open Classical

/-- Relations between the quantities of the MHD eigensystems; `bt` = |transverse field|, `yy` = `sqrt(Y)`. -/
structure MhdRel (d b1 b2 b3 Y T : ℝ) (m : MhdPar) (bt yy : ℝ) : Prop where
  cf : 0 < m.cf
  cs : 0 ≤ m.cs
  csvax : m.cs ≤ m.vax
  vaxcf : m.vax ≤ m.cf
  sd : 0 < m.sd
  sdd : m.sd ^ 2 = d
  tw : 0 < m.tw
  twT : m.tw ^ 2 = T
  yyp : 0 < yy
  yyY : yy ^ 2 = Y
  s : m.s ^ 2 = 1
  t : m.t2 ^ 2 + m.t3 ^ 2 = 1
  hb2 : b2 = bt * m.t2
  hb3 : b3 = bt * m.t3
  bts : m.bts = bt * yy
  t2s : m.t2s = m.t2 / yy
  t3s : m.t3s = m.t3 / yy
  tss : m.tss = 1 / yy ^ 2
  q2 : m.q2 = m.t2 * yy
  q3 : m.q3 = m.t3 * yy
  nm : m.nm = 1 / (2 * m.tw ^ 2)
  al : m.af ^ 2 + m.as ^ 2 = 1
  alc : m.af ^ 2 * m.cf ^ 2 + m.as ^ 2 * m.cs ^ 2 = m.tw ^ 2
  ala : m.af * m.as * (m.cf ^ 2 - m.cs ^ 2) = m.tw * (bt * yy) / m.sd
  cc : m.cf * m.cs = m.tw * m.vax
  sum : m.cf ^ 2 + m.cs ^ 2 = m.vax ^ 2 + (bt * yy) ^ 2 / d + m.tw ^ 2
  hb1 : b1 = m.s * m.vax * m.sd

theorem alphas (F S T C : ℝ) (hT : 0 < T) (hC : 0 ≤ C) (hFT : T ≤ F) (hST : S ≤ T) (h : (T - S) * (F - T) = T * C) :
    ∃ af as : ℝ, mhdAlpha F S T
      = some (af, as) ∧ af ^ 2 + as ^ 2 = 1 ∧ af ^ 2 * F + as ^ 2 * S = T ∧ af * as * (F - S) = Real.sqrt (T * C) := by
  by_cases h1 : F - S = 0
  · have : T * C = 0 := by rw [← h]; nlinarith
    exact ⟨1, 0, by rw [mhdAlpha, if_pos h1], by norm_num, by nlinarith, by rw [this]; simp⟩
  by_cases h2 : T - S ≤ 0
  · have e : T - S = 0 := le_antisymm h2 (by linarith)
    have : T * C = 0 := by rw [← h, e]; simp
    exact ⟨0, 1, by rw [mhdAlpha, if_neg h1, if_pos h2], by norm_num, by linarith, by rw [this]; simp⟩
  by_cases h3 : F - T ≤ 0
  · have e : F - T = 0 := le_antisymm h3 (by linarith)
    have : T * C = 0 := by rw [← h, e]; simp
    exact ⟨1, 0, by rw [mhdAlpha, if_neg h1, if_neg h2, if_pos h3], by norm_num, by linarith, by rw [this]; simp⟩
  have h2' : 0 < T - S := not_le.mp h2
  have h3' : 0 < F - T := not_le.mp h3
  have h4 : 0 < F - S := by linarith
  have hx : 0 ≤ (T - S) / (F - S) := by positivity
  have hz : 0 ≤ (F - T) / (F - S) := by positivity
  refine ⟨Real.sqrt ((T - S) / (F - S)), Real.sqrt ((F - T) / (F - S)), ?_, ?_, ?_, ?_⟩
  · rw [mhdAlpha, if_neg h1, if_neg h2, if_neg h3, fdiv_pos h4, fdiv_pos h4]
    simp only [Option.bind_eq_bind, Option.bind_some]
    rw [fsqrt_nonneg hx, fsqrt_nonneg hz]; rfl
  · rw [Real.sq_sqrt hx, Real.sq_sqrt hz]; field_simp; ring
  · rw [Real.sq_sqrt hx, Real.sq_sqrt hz]; field_simp; ring
  · rw [← Real.sqrt_mul hx]
    have : T * C = ((T - S) / (F - S) * ((F - T) / (F - S))) * (F - S) ^ 2 := by rw [← h]; field_simp
    rw [this, Real.sqrt_mul (mul_nonneg hx hz), Real.sqrt_sq h4.le]

theorem betas (b2 b3 : ℝ) :
    ∃ t2 t3 : ℝ, mhdBeta b2 b3 (Real.sqrt (b2 * b2 + b3 * b3))
      = some (t2, t3) ∧ t2 ^ 2 + t3 ^ 2 = 1 ∧ b2 = Real.sqrt (b2 * b2 + b3 * b3) * t2 ∧ b3 = Real.sqrt (b2 * b2 + b3 * b3) * t3 := by
  have hn : 0 ≤ b2 * b2 + b3 * b3 := by nlinarith [mul_self_nonneg b2, mul_self_nonneg b3]
  by_cases h : Real.sqrt (b2 * b2 + b3 * b3) = 0
  · refine ⟨1, 0, by rw [mhdBeta, if_pos h], by norm_num, ?_, ?_⟩ <;> rw [h] <;> rw [Real.sqrt_eq_zero hn] at h <;>
      nlinarith [mul_self_nonneg b2, mul_self_nonneg b3]
  · refine ⟨b2 / Real.sqrt (b2 * b2 + b3 * b3), b3 / Real.sqrt (b2 * b2 + b3 * b3), ?_, ?_, ?_, ?_⟩
    · rw [mhdBeta, if_neg h, fdiv_ne h, fdiv_ne h]; rfl
    · rw [div_pow, div_pow, Real.sq_sqrt hn, ← add_div, ← sq, ← sq]
      rw [div_self]
      intro h0; apply h; rw [Real.sqrt_eq_zero hn]; linarith
    · generalize Real.sqrt (b2 * b2 + b3 * b3) = z at h; field_simp
    · generalize Real.sqrt (b2 * b2 + b3 * b3) = z at h; field_simp

theorem mhdPar_spec (d b1 b2 b3 Y T : ℝ) (hd : 0 < d) (hY : 0 < Y) (hT : 0 < T) :
    ∃ m bt yy, mhdPar d b1 b2 b3 Y T = some m ∧ MhdRel d b1 b2 b3 Y T m bt yy ∧
      fsqrt (1/2 * (b1 * b1 * (1 / d) + (b2 * b2 + b3 * b3) * Y * (1 / d) + T + Real.sqrt ((b1 * b1 * (1 / d) + (b2 * b2 + b3 * b3) * Y * (1 / d) - T) *
        (b1 * b1 * (1 / d) + (b2 * b2 + b3 * b3) * Y * (1 / d) - T) + 4 * T * ((b2 * b2 + b3 * b3) * Y * (1 / d))))) = some m.cf := by
  have hB : 0 ≤ b2 * b2 + b3 * b3 := by nlinarith [mul_self_nonneg b2, mul_self_nonneg b3]
  have hi : 0 < 1 / d := by positivity
  obtain ⟨V, hV⟩ : ∃ V, V = b1 * b1 * (1 / d) := ⟨_, rfl⟩
  obtain ⟨C, hC⟩ : ∃ C, C = (b2 * b2 + b3 * b3) * Y * (1 / d) := ⟨_, rfl⟩
  have hV0 : 0 ≤ V := by rw [hV]; exact mul_nonneg (mul_self_nonneg _) hi.le
  have hC0 : 0 ≤ C := by rw [hC]; positivity
  have hD : 0 ≤ (V + C - T) * (V + C - T) + 4 * T * C := add_nonneg (mul_self_nonneg _) (by positivity)
  obtain ⟨q, hq⟩ : ∃ q, q = Real.sqrt ((V + C - T) * (V + C - T) + 4 * T * C) := ⟨_, rfl⟩
  have hq0 : 0 ≤ q := by rw [hq]; exact Real.sqrt_nonneg _
  have hqq : q ^ 2 = (V + C - T) * (V + C - T) + 4 * T * C := by rw [hq, Real.sq_sqrt hD]
  have hqa : |V + C - T| ≤ q := by
    rw [← abs_of_nonneg hq0]; apply sq_le_sq.mp; rw [hqq]; nlinarith
  have hqa1 : V + C - T ≤ q := le_trans (le_abs_self _) hqa
  have hqa2 : T - V - C ≤ q := by have := neg_abs_le (V + C - T); linarith
  obtain ⟨F, hF⟩ : ∃ F, F = 1/2 * (V + C + T + q) := ⟨_, rfl⟩
  have hFT : T ≤ F := by rw [hF]; linarith
  have hFV : V ≤ F := by rw [hF]; linarith
  have hF0 : 0 < F := by linarith
  obtain ⟨S, hS⟩ : ∃ S, S = T * V / F := ⟨_, rfl⟩
  have hFS : F * S = T * V := by rw [hS]; field_simp
  have hS0 : 0 ≤ S := by rw [hS]; positivity
  have hSe : S = V + C + T - F := by
    have : F * (V + C + T - F) = T * V := by rw [hF]; nlinarith
    exact mul_left_cancel₀ hF0.ne' (by rw [hFS, this])
  have hST : S ≤ T := by rw [hS, div_le_iff₀ hF0]; nlinarith
  have hSV : S ≤ V := by rw [hS, div_le_iff₀ hF0]; nlinarith
  have hTC : (T - S) * (F - T) = T * C := by
    have : (T - S) * (F - T) = T * (F + S) - T ^ 2 - F * S := by ring
    rw [this, hFS, hSe]; ring
  obtain ⟨af, as, ha, ha1, ha2, ha3⟩ := alphas F S T C hT hC0 hFT hST hTC
  obtain ⟨t2, t3, hb, hb1, hb2, hb3⟩ := betas b2 b3
  obtain ⟨bt, hbt⟩ : ∃ bt, bt = Real.sqrt (b2 * b2 + b3 * b3) := ⟨_, rfl⟩
  rw [← hbt] at hb hb2 hb3
  have hbt0 : 0 ≤ bt := by rw [hbt]; exact Real.sqrt_nonneg _
  have hyy : 0 < Real.sqrt Y := Real.sqrt_pos.mpr hY
  have hts : 0 < t2 / Real.sqrt Y * (t2 / Real.sqrt Y) + t3 / Real.sqrt Y * (t3 / Real.sqrt Y) := by
    have : t2 / Real.sqrt Y * (t2 / Real.sqrt Y) + t3 / Real.sqrt Y * (t3 / Real.sqrt Y) = (t2 ^ 2 + t3 ^ 2) / (Real.sqrt Y) ^ 2 := by
      field_simp
    rw [this, hb1]; positivity
  have hts' : t2 / Real.sqrt Y * (t2 / Real.sqrt Y) + t3 / Real.sqrt Y * (t3 / Real.sqrt Y) = 1 / Real.sqrt Y ^ 2 := by
    rw [← hb1]; field_simp
  have hsd : 0 < Real.sqrt d := Real.sqrt_pos.mpr hd
  have htw : 0 < Real.sqrt T := Real.sqrt_pos.mpr hT
  have hcf : 0 < Real.sqrt F := Real.sqrt_pos.mpr hF0
  have hbY : Real.sqrt ((b2 * b2 + b3 * b3) * Y) = bt * Real.sqrt Y := by rw [hbt, Real.sqrt_mul hB]
  have hCe : C = (bt * Real.sqrt Y) ^ 2 / d := by
    rw [mul_pow, hbt, Real.sq_sqrt hB, Real.sq_sqrt hY.le, hC]; ring
  refine ⟨⟨Real.sqrt F, Real.sqrt S, Real.sqrt V, t2, t3, t2 / Real.sqrt Y, t3 / Real.sqrt Y,
    t2 / Real.sqrt Y * (t2 / Real.sqrt Y) + t3 / Real.sqrt Y * (t3 / Real.sqrt Y), Real.sqrt ((b2 * b2 + b3 * b3) * Y), af, as, Real.sqrt d,
    if b1 < 0 then -1 else 1, Real.sqrt T, 1/2 / T, t2 / Real.sqrt Y / (t2 / Real.sqrt Y * (t2 / Real.sqrt Y) + t3 / Real.sqrt Y * (t3 / Real.sqrt Y)),
    t3 / Real.sqrt Y / (t2 / Real.sqrt Y * (t2 / Real.sqrt Y) + t3 / Real.sqrt Y * (t3 / Real.sqrt Y))⟩, bt, Real.sqrt Y, ?_, ?_, ?_⟩
  · have hsp : mhdSpeeds V C T = some (F, S) := by
      unfold mhdSpeeds
      rw [fsqrt_nonneg hD, ← hq]
      simp only [Option.bind_eq_bind, Option.bind_some]
      rw [← hF, fdiv_pos hF0, ← hS]; rfl
    unfold mhdPar
    refine Option.bind_eq_some_iff.mpr ⟨_, fdiv_pos hd, ?_⟩
    rw [← hV, ← hC]
    refine Option.bind_eq_some_iff.mpr ⟨_, hsp, ?_⟩
    refine Option.bind_eq_some_iff.mpr ⟨_, fsqrt_nonneg hF0.le, ?_⟩
    refine Option.bind_eq_some_iff.mpr ⟨_, fsqrt_nonneg hS0, ?_⟩
    refine Option.bind_eq_some_iff.mpr ⟨_, fsqrt_nonneg hB, ?_⟩
    refine Option.bind_eq_some_iff.mpr ⟨_, fsqrt_nonneg (mul_nonneg hB hY.le), ?_⟩
    rw [← hbt]
    refine Option.bind_eq_some_iff.mpr ⟨_, hb, ?_⟩
    refine Option.bind_eq_some_iff.mpr ⟨_, fsqrt_nonneg hY.le, ?_⟩
    refine Option.bind_eq_some_iff.mpr ⟨_, fdiv_pos hyy, ?_⟩
    refine Option.bind_eq_some_iff.mpr ⟨_, fdiv_pos hyy, ?_⟩
    refine Option.bind_eq_some_iff.mpr ⟨_, ha, ?_⟩
    refine Option.bind_eq_some_iff.mpr ⟨_, fsqrt_nonneg hd.le, ?_⟩
    refine Option.bind_eq_some_iff.mpr ⟨_, fsqrt_nonneg hT.le, ?_⟩
    refine Option.bind_eq_some_iff.mpr ⟨_, fsqrt_nonneg hV0, ?_⟩
    refine Option.bind_eq_some_iff.mpr ⟨_, fdiv_pos hT, ?_⟩
    refine Option.bind_eq_some_iff.mpr ⟨_, fdiv_pos hts, ?_⟩
    refine Option.bind_eq_some_iff.mpr ⟨_, fdiv_pos hts, ?_⟩
    rfl
  · constructor <;> (try dsimp only)
    · exact hcf
    · exact Real.sqrt_nonneg _
    · exact Real.sqrt_le_sqrt hSV
    · exact Real.sqrt_le_sqrt hFV
    · exact hsd
    · exact Real.sq_sqrt hd.le
    · exact htw
    · exact Real.sq_sqrt hT.le
    · exact hyy
    · exact Real.sq_sqrt hY.le
    · split_ifs <;> norm_num
    · exact hb1
    · exact hb2
    · exact hb3
    · exact hbY
    · exact hts'
    · rw [hts']; field_simp
    · rw [hts']; field_simp
    · rw [Real.sq_sqrt hT.le]; field_simp
    · exact ha1
    · rw [Real.sq_sqrt hF0.le, Real.sq_sqrt hS0, Real.sq_sqrt hT.le]; exact ha2
    · rw [Real.sq_sqrt hF0.le, Real.sq_sqrt hS0, ha3, Real.sqrt_mul hT.le, hCe, Real.sqrt_div (sq_nonneg _),
        Real.sqrt_sq (by positivity)]; ring
    · rw [← Real.sqrt_mul hF0.le, hFS, Real.sqrt_mul hT.le]
    · rw [Real.sq_sqrt hF0.le, Real.sq_sqrt hS0, Real.sq_sqrt hV0, Real.sq_sqrt hT.le, ← hCe, hSe]; ring
    · have e : Real.sqrt V * Real.sqrt d = |b1| := by
        rw [← Real.sqrt_mul hV0, hV, show b1 * b1 * (1 / d) * d = b1 ^ 2 by field_simp, Real.sqrt_sq_eq_abs]
      rw [mul_assoc, e]
      split_ifs with h
      · rw [abs_of_neg h]; ring
      · rw [abs_of_nonneg (not_lt.mp h)]; ring
  · rw [← hV, ← hC, ← hq, ← hF]; exact fsqrt_nonneg hF0.le

/-! ## Dual bases from completeness -/

/-- Components in the order of the array. -/
def V7.comp (u : V7) : Fin 7 → ℝ := ![u.d, u.mx, u.my, u.mz, u.e, u.b, u.c]
/-- The vector with the given components. -/
def V7.of (f : Fin 7 → ℝ) : V7 := ⟨f 0, f 1, f 2, f 3, f 4, f 5, f 6⟩

theorem dot_comp (l u : V7) : dot l u = ∑ i, l.comp i * u.comp i := by
  simp only [Fin.sum_univ_seven, dot, V7.comp]; rfl

theorem comp_of (f : Fin 7 → ℝ) : (V7.of f).comp = f := by
  funext i; fin_cases i <;> rfl

theorem dual_of_complete (w : Fin 7 → Wave)
    (h : ∀ u : V7, wsum (fun w => dot w.l u) [w 0, w 1, w 2, w 3, w 4, w 5, w 6] = u) (i j : Fin 7) :
    dot (w i).l (w j).r = if i = j then 1 else 0 := by
  let R : Matrix (Fin 7) (Fin 7) ℝ := fun j k => (w k).r.comp j
  let L : Matrix (Fin 7) (Fin 7) ℝ := fun k i => (w k).l.comp i
  have hRL : R * L = 1 := by
    ext a b
    have h1 := h (V7.of (Pi.single b 1))
    have h2 : ∀ k, dot (w k).l (V7.of (Pi.single b 1)) = (w k).l.comp b := by
      intro k; rw [dot_comp, comp_of]; simp [Pi.single_apply]
    have h3 := congrArg (fun u => V7.comp u a) h1
    simp only [comp_of] at h3
    rw [Matrix.mul_apply, Matrix.one_apply]
    have h4 : (Pi.single b (1:ℝ) : Fin 7 → ℝ) a = if a = b then 1 else 0 := by rw [Pi.single_apply]
    rw [h4] at h3
    rw [← h3]
    simp only [wsum, h2, Fin.sum_univ_seven, R, L]
    fin_cases a <;> simp [V7.comp, V7.add, V7.smul, V7.zero] <;> ring
  have hLR : L * R = 1 := mul_eq_one_comm.mp hRL
  have := congrFun (congrFun hLR i) j
  rw [Matrix.mul_apply, Matrix.one_apply] at this
  rw [dot_comp]
  exact this

end
end Athena.Hydro
