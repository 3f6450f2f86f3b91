import Verif.Prob.Wave

/-!
# The rotated loop of field_loop.c (iprob = 4) fits a periodic Domain
-/

namespace Athena.Prob
open Athena.Pos
noncomputable section

/-- The two `while` loops bring every position to within half a wavelength, by whole wavelengths. -/
theorem wrap_spec {l : ℝ} (hl : 0 < l) (x : ℝ) :
    ∃ n : ℤ, lift l (down l x) = x + n * l ∧ -(l / 2) ≤ lift l (down l x) ∧ lift l (down l x) ≤ l / 2 := by
  unfold down
  split
  · rename_i h
    have a : (x - 1/2 * l) / l ≤ ⌈(x - 1/2 * l) / l⌉ := Int.le_ceil _
    have b : (⌈(x - 1/2 * l) / l⌉ : ℝ) < (x - 1/2 * l) / l + 1 := Int.ceil_lt_add_one _
    rw [div_le_iff₀ hl] at a
    rw [← sub_lt_iff_lt_add, lt_div_iff₀ hl] at b
    generalize ⌈(x - 1/2 * l) / l⌉ = m at *
    have hx : ¬ (x - m * l < -(1/2) * l) := by linarith
    refine ⟨-m, ?_, ?_, ?_⟩
    · unfold lift; rw [if_neg hx]; push_cast; ring
    · unfold lift; rw [if_neg hx]; linarith
    · unfold lift; rw [if_neg hx]; linarith
  · rename_i h
    unfold lift
    split
    · rename_i g
      have a : (-(1/2) * l - x) / l ≤ ⌈(-(1/2) * l - x) / l⌉ := Int.le_ceil _
      have b : (⌈(-(1/2) * l - x) / l⌉ : ℝ) < (-(1/2) * l - x) / l + 1 := Int.ceil_lt_add_one _
      rw [div_le_iff₀ hl] at a
      rw [← sub_lt_iff_lt_add, lt_div_iff₀ hl] at b
      generalize ⌈(-(1/2) * l - x) / l⌉ = m at *
      exact ⟨m, rfl, by linarith, by linarith⟩
    · rename_i g
      exact ⟨0, by simp, by linarith, by linarith⟩

theorem wrap_sq {l : ℝ} (hl : 0 < l) (x : ℝ) (m : ℤ) :
    lift l (down l (x + m * l)) * lift l (down l (x + m * l)) = lift l (down l x) * lift l (down l x) := by
  obtain ⟨a, ea, la, ua⟩ := wrap_spec hl x
  obtain ⟨b, eb, lb, ub⟩ := wrap_spec hl (x + m * l)
  generalize lift l (down l x) = s at *
  generalize lift l (down l (x + m * l)) = t at *
  have hd : t - s = ((m + b - a : ℤ) : ℝ) * l := by rw [ea, eb]; push_cast; ring
  generalize m + b - a = n at hd
  have n1 : n ≤ 1 := by
    by_contra h
    have : (2:ℝ) ≤ n := by exact_mod_cast (by omega : (2:ℤ) ≤ n)
    nlinarith
  have n2 : -1 ≤ n := by
    by_contra h
    have : (n:ℝ) ≤ -2 := by exact_mod_cast (by omega : n ≤ (-2:ℤ))
    nlinarith
  rcases (by omega : n = -1 ∨ n = 0 ∨ n = 1) with h | h | h <;> subst h
  · norm_num at hd
    have e1 : s = l / 2 := by linarith
    have e2 : t = -(l / 2) := by linarith
    rw [e1, e2]; ring
  · norm_num at hd
    have : t = s := by linarith
    rw [this]
  · norm_num at hd
    have e1 : s = -(l / 2) := by linarith
    have e2 : t = l / 2 := by linarith
    rw [e1, e2]; ring

theorem loop_one_length (p : LoopPar) (h1 : 0 < p.size1) (h3 : 0 < p.size3) :
    0 < loopLambda p ∧ p.size1 * loopCos p = loopLambda p ∧ p.size3 * loopSin p = loopLambda p := by
  have e : p.size3 * loopSin p = p.size1 * loopCos p := by
    unfold loopSin loopCos
    split
    · rename_i h; rw [h]
    · exact sin_arctan_mul h3.ne'
  have c : 0 < loopCos p := by
    unfold loopCos
    split
    · positivity
    · exact Real.cos_arctan_pos _
  have l : loopLambda p = p.size1 * loopCos p := by
    unfold loopLambda
    rw [e]
    split <;> rfl
  rw [l, e]
  exact ⟨by positivity, rfl, rfl⟩

theorem pot_turned (p : LoopPar) (hp : p.iprob = 4) (x1 x2 x3 : ℝ) :
    potX p x1 x2 x3 = cone p (lift (loopLambda p) (down (loopLambda p) (x1 * loopCos p + x3 * loopSin p))
        * lift (loopLambda p) (down (loopLambda p) (x1 * loopCos p + x3 * loopSin p)) + x2 * x2) * (-loopSin p)
    ∧ potY p x1 x2 x3 = 0
    ∧ potZ p x1 x2 x3 = cone p (lift (loopLambda p) (down (loopLambda p) (x1 * loopCos p + x3 * loopSin p))
        * lift (loopLambda p) (down (loopLambda p) (x1 * loopCos p + x3 * loopSin p)) + x2 * x2) * loopCos p := by
  refine ⟨?_, ?_, ?_⟩
  · unfold potX loopAx; simp [hp]
  · unfold potY loopAy; simp [hp]
  · unfold potZ loopAz; simp [hp]

/-- **C129** (`field_loop`, rotated cylinder): the potential, and with it the field at every face
(`field_loop_curl`), has the periods of the Domain along the first and the third direction. -/
theorem rotated_loop_periodic (p : LoopPar) (hp : p.iprob = 4) (h1 : 0 < p.size1) (h3 : 0 < p.size3)
    (x1 x2 x3 : ℝ) (m n : ℤ) :
    potX p (x1 + m * p.size1) x2 (x3 + n * p.size3) = potX p x1 x2 x3
    ∧ potY p (x1 + m * p.size1) x2 (x3 + n * p.size3) = potY p x1 x2 x3
    ∧ potZ p (x1 + m * p.size1) x2 (x3 + n * p.size3) = potZ p x1 x2 x3 := by
  obtain ⟨l0, l1, l3⟩ := loop_one_length p h1 h3
  have e : (x1 + m * p.size1) * loopCos p + (x3 + n * p.size3) * loopSin p
      = (x1 * loopCos p + x3 * loopSin p) + ((m + n : ℤ) : ℝ) * loopLambda p := by
    push_cast
    linear_combination m * l1 + n * l3
  obtain ⟨a, b, c⟩ := pot_turned p hp x1 x2 x3
  obtain ⟨a', b', c'⟩ := pot_turned p hp (x1 + m * p.size1) x2 (x3 + n * p.size3)
  rw [a, b, c, a', b', c', e, wrap_sq l0]
  exact ⟨rfl, rfl, rfl⟩

/-- **C129**: the field through the two sides of a Grid that spans the Domain along x1 is the same. -/
theorem rotated_loop_seam (G : Grd) (p : LoopPar) (gamma1 : ℝ) (hp : p.iprob = 4) (h1 : 0 < p.size1)
    (h3 : 0 < p.size3) (hs : nx G.x1 * G.x1.dx = p.size1) (hr : G.x1.s ≤ G.x1.e) (k j : ℤ)
    (hk : G.x3.s ≤ k ∧ k ≤ G.x3.e) (hj : G.x2.s ≤ j ∧ j ≤ G.x2.e) :
    (fieldLoop G p gamma1).b1 k j (G.x1.e + 1) = (fieldLoop G p gamma1).b1 k j G.x1.s := by
  have hl : low G.x1 (G.x1.e + 1) = low G.x1 G.x1.s + ((1:ℤ):ℝ) * p.size1 := by
    rw [← hs]; unfold low ccPos nx; push_cast; ring
  have P := fun x2 x3 => rotated_loop_periodic p hp h1 h3 (low G.x1 G.x1.s) x2 x3 1 0
  simp only [Int.cast_zero, zero_mul, add_zero] at P
  rw [field_loop_curl G p gamma1 k j _ hk hj (by omega), field_loop_curl G p gamma1 k j _ hk hj (by omega), hl,
    (P _ _).2.1, (P _ _).2.1, (P _ _).2.2, (P _ _).2.2]

example : potX ⟨3/10, 1/1000, 1, 1, 4, 2, 1, 1⟩ (1/8 + (1:ℤ) * 2) (1/4) (1/2 + (0:ℤ) * 1)
    = potX ⟨3/10, 1/1000, 1, 1, 4, 2, 1, 1⟩ (1/8) (1/4) (1/2) :=
  (rotated_loop_periodic ⟨3/10, 1/1000, 1, 1, 4, 2, 1, 1⟩ rfl (by norm_num) (by norm_num) (1/8) (1/4) (1/2) 1 0).1

end
end Athena.Prob
