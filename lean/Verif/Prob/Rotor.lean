import Verif.Base
import Mathlib.Data.Real.Sqrt
import Mathlib.Tactic.FieldSimp
import Mathlib.Tactic.Linarith
import Mathlib.Tactic.NormNum
import Mathlib.Tactic.Ring
import Mathlib.Tactic.Positivity

/-!
# The magnetic rotor: prob/rotor.c

The initial state of a zone.  Simplification: real numbers instead of floating-point numbers; the position of the zone's centre is an argument.
-/

namespace Athena.Rotor

/-- A zone: density, momenta in the plane, energy, field along x1 (the other components are zero). -/
@[ext] structure Zone where
  d : ℝ
  M1 : ℝ
  M2 : ℝ
  E : ℝ
  B1 : ℝ

/-- The input, rotor.c:41-45, and `Gamma`. -/
structure Input where
  γ : ℝ
  v0 : ℝ
  p0 : ℝ
  bx0 : ℝ
  r0 : ℝ
  r1 : ℝ

open Classical in
/-- `d`, `M1`, `M2`, rotor.c:57-59, 69-85. -/
noncomputable def gas (I : Input) (x1 x2 : ℝ) : ℝ × ℝ × ℝ :=
  let rad := Real.sqrt (x1 * x1 + x2 * x2)
  if rad ≤ I.r0 then (10, -100 * I.v0 * x2, 100 * I.v0 * x1)
  else if rad ≤ I.r1 then
    let frac := (0.115 - rad) / 0.015
    (1 + 9 * frac, -frac * 100 * I.v0 * x2, frac * 100 * I.v0 * x1)
  else (1, 0, 0)

/-- The loop of `problem`, rotor.c:54-92. -/
noncomputable def zone (I : Input) (x1 x2 : ℝ) : Zone :=
  let g := gas I x1 x2
  ⟨g.1, g.2.1, g.2.2, I.p0 / (I.γ - 1) + 0.5 * I.bx0 * I.bx0 + 0.5 * (g.2.1 ^ 2 + g.2.2 ^ 2) / g.1, I.bx0⟩

/-! ## Specification -/

/-- The pressure of a zone. -/
noncomputable def Zone.pres (γ : ℝ) (z : Zone) : ℝ := (γ - 1) * (z.E - (z.M1 ^ 2 + z.M2 ^ 2) / (2 * z.d) - z.B1 ^ 2 / 2)

/-- The distance from the axis. -/
noncomputable def dist (x1 x2 : ℝ) : ℝ := Real.sqrt (x1 ^ 2 + x2 ^ 2)

/-- 1 in the rotor, 0 in the ambient gas, linear between: the taper of the reference, between the radii of the input. -/
noncomputable def taper (I : Input) (r : ℝ) : ℝ := max 0 (min 1 ((I.r1 - r) / (I.r1 - I.r0)))

/-- The radii of the reference, 0.1 and 0.115. -/
def Input.Toth (I : Input) : Prop := I.r0 = 0.1 ∧ I.r1 = 0.115

/-! ## Theorems -/

theorem rad_eq (x1 x2 : ℝ) : Real.sqrt (x1 * x1 + x2 * x2) = dist x1 x2 := by unfold dist; rw [sq, sq]

/-- With the radii of the reference, what is written is the tapered state. -/
theorem gas_taper {I : Input} (h : I.Toth) (x1 x2 : ℝ) : gas I x1 x2 =
    (1 + 9 * taper I (dist x1 x2), -(taper I (dist x1 x2) * (10 * (I.v0 / I.r0)) * x2), taper I (dist x1 x2) * (10 * (I.v0 / I.r0)) * x1) := by
  obtain ⟨h0, h1⟩ := h
  unfold gas
  simp only [rad_eq]
  generalize dist x1 x2 = r
  by_cases a : r ≤ I.r0
  · rw [if_pos a]
    have : taper I r = 1 := by
      unfold taper
      rw [h0] at a
      rw [h0, h1, min_eq_left (by rw [le_div_iff₀ (by norm_num)]; linarith)]; norm_num
    rw [this, h0]
    refine Prod.ext (by norm_num) (Prod.ext ?_ ?_) <;> simp only <;> ring
  · rw [if_neg a]
    have a' := not_le.mp a
    by_cases b : r ≤ I.r1
    · rw [if_pos b]
      have : taper I r = (0.115 - r) / 0.015 := by
        unfold taper
        rw [h0] at a'
        rw [h1] at b
        rw [h0, h1]
        norm_num
        norm_num at a' b
        rw [min_eq_right (by rw [div_le_one (by norm_num)]; linarith), max_eq_right (div_nonneg (by linarith) (by norm_num))]
      rw [this, h0]
      refine Prod.ext rfl (Prod.ext ?_ ?_) <;> simp only <;> ring
    · rw [if_neg b]
      have : taper I r = 0 := by
        unfold taper
        have b' := not_le.mp b
        rw [h0, h1]
        rw [h1] at b'
        rw [max_eq_left]
        exact le_trans (min_le_right _ _) (div_nonpos_of_nonpos_of_nonneg (by linarith) (by norm_num))
      rw [this]
      simp

theorem taper_mem (I : Input) (r : ℝ) : 0 ≤ taper I r ∧ taper I r ≤ 1 := ⟨le_max_left _ _, max_le zero_le_one (min_le_left _ _)⟩

/-- **C150, partly: the rotor.**  With the radii of the reference: the density falls linearly from 10 to 1 and lies between them, the momentum is azimuthal
    and tapered with it, the rotor turns rigidly with the velocity `v0` at its rim, and the pressure and the field are uniform.  Missing: other radii, `taper_false`, `rim_false`. -/
theorem rotor_partial {I : Input} (h : I.Toth) (hg : I.γ ≠ 1) (x1 x2 : ℝ) :
    (zone I x1 x2).d = 1 + 9 * taper I (dist x1 x2) ∧ 1 ≤ (zone I x1 x2).d ∧ (zone I x1 x2).d ≤ 10 ∧
      x1 * (zone I x1 x2).M1 + x2 * (zone I x1 x2).M2 = 0 ∧
      x1 * (zone I x1 x2).M2 - x2 * (zone I x1 x2).M1 = taper I (dist x1 x2) * (10 * (I.v0 / I.r0)) * dist x1 x2 ^ 2 ∧
      (dist x1 x2 ≤ I.r0 → (zone I x1 x2).M1 = (zone I x1 x2).d * -(I.v0 * x2 / I.r0) ∧ (zone I x1 x2).M2 = (zone I x1 x2).d * (I.v0 * x1 / I.r0)) ∧
      (zone I x1 x2).pres I.γ = I.p0 ∧ (zone I x1 x2).B1 = I.bx0 := by
  have hg' : I.γ - 1 ≠ 0 := sub_ne_zero.mpr hg
  have hd2 : dist x1 x2 ^ 2 = x1 ^ 2 + x2 ^ 2 := by unfold dist; rw [Real.sq_sqrt (by positivity)]
  have hm := taper_mem I (dist x1 x2)
  have hin : dist x1 x2 ≤ I.r0 → taper I (dist x1 x2) = 1 := by
    intro a
    obtain ⟨h0, h1⟩ := h
    unfold taper
    rw [h0] at a
    rw [h0, h1, min_eq_left (by rw [le_div_iff₀ (by norm_num)]; linarith)]; norm_num
  have e := gas_taper h x1 x2
  unfold zone Zone.pres
  simp only [e]
  generalize taper I (dist x1 x2) = t at hm hin
  refine ⟨trivial, by linarith, by linarith, by ring, by rw [hd2]; ring, fun a => ?_, ?_, trivial⟩
  · rw [hin a]; constructor <;> ring
  · have : (1 + 9 * t) ≠ 0 := by linarith
    field_simp
    ring

/-- The state does not depend on the direction: turning the position by a right angle turns the momentum. -/
theorem rotor_turned (I : Input) (x1 x2 : ℝ) : zone I (-x2) x1 = { zone I x1 x2 with M1 := -(zone I x1 x2).M2, M2 := (zone I x1 x2).M1 } := by
  have e : Real.sqrt (-x2 * -x2 + x1 * x1) = Real.sqrt (x1 * x1 + x2 * x2) := by congr 1; ring
  have g : gas I (-x2) x1 = ((gas I x1 x2).1, -(gas I x1 x2).2.2, (gas I x1 x2).2.1) := by
    unfold gas
    simp only [e]
    split
    · refine Prod.ext rfl (Prod.ext ?_ ?_) <;> simp only <;> ring
    · split
      · refine Prod.ext rfl (Prod.ext ?_ ?_) <;> simp only <;> ring
      · simp
  unfold zone
  simp only [g]
  refine Zone.ext rfl rfl rfl ?_ rfl
  simp only
  ring

/-- **C150 (refuted).**  The taper ends at 0.115 whatever the input says: with an outer radius of at least 0.2, the gas at 0.2 has a negative density. -/
theorem taper_false (I : Input) (h0 : I.r0 < 0.2) (h1 : 0.2 ≤ I.r1) : (zone I 0.2 0).d < 0 := by
  have e : Real.sqrt (0.2 * 0.2 + 0 * 0) = 0.2 := by rw [mul_zero, add_zero, Real.sqrt_mul_self (by norm_num)]
  unfold zone gas
  simp only [e]
  rw [if_neg (not_le.mpr h0), if_pos h1]
  norm_num

/-- **C150 (refuted).**  At the rim of a rotor with another radius than 0.1 the velocity is not `v0`. -/
theorem rim_false (I : Input) (hr : 0 < I.r0) (hn : I.r0 ≠ 0.1) (hv : I.v0 ≠ 0) : (zone I I.r0 0).M2 ≠ (zone I I.r0 0).d * I.v0 := by
  have e : Real.sqrt (I.r0 * I.r0 + 0 * 0) = I.r0 := by rw [mul_zero, add_zero, Real.sqrt_mul_self hr.le]
  unfold zone gas
  simp only [e]
  rw [if_pos le_rfl]
  simp only
  intro q
  apply hn
  have : I.v0 * (100 * I.r0 - 10) = 0 := by linarith
  rcases mul_eq_zero.mp this with a | a
  · exact absurd a hv
  · norm_num; linarith

/-- The reference's rotor; an input whose outer radius is twice as large. -/
example : (⟨1.4, 2, 1, 1.4, 0.1, 0.115⟩ : Input).Toth := ⟨rfl, rfl⟩
example : ∃ I : Input, I.r0 < 0.2 ∧ 0.2 ≤ I.r1 ∧ I.r0 ≠ 0.1 := ⟨⟨1.4, 2, 1, 1.4, 0.15, 0.23⟩, by norm_num, by norm_num, by norm_num⟩

end Athena.Rotor
