import Verif.Prob.ShkCloud
import Mathlib.Algebra.Order.Ring.Int
import Mathlib.Data.Int.Order.Basic
import Mathlib.Tactic.Push

/-!
# A standing shock with a checkerboard ahead of it: prob/carbuncle.c; the Mach 3 shock of prob/shu-osher.c

Simplifications: adiabatic gas, real numbers instead of floating-point numbers; the loops are given by what they leave in each zone.  Where there is one zone in
x2 the loop over `js-nghost` leaves the array, which is undefined behaviour.
-/

namespace Athena.Carbuncle

open Athena.ShkCloud

/-- The input, carbuncle.c:62-64; `jump1` and `jump2` of `initialize_states` (:188-189), `dr` and `pr` (:67-69) are those of `ShkCloud`. -/
structure Par where
  I : Input
  amp : ℝ
  flag : ℤ

/-- `ur`, carbuncle.c:70, 197. -/
noncomputable def Par.ur (P : Par) : ℝ := P.I.mach * Real.sqrt (P.I.γ * P.I.pr / dr)
/-- `dl`, `pl`, `ul`, carbuncle.c:76-86, 192-198. -/
noncomputable def Par.dl (P : Par) : ℝ := if P.flag = 0 then dr * P.I.jump1 else dr
@[inherit_doc Par.dl]
noncomputable def Par.pl (P : Par) : ℝ := if P.flag = 0 then P.I.pr * P.I.jump2 else P.I.pr
@[inherit_doc Par.dl]
noncomputable def Par.ul (P : Par) : ℝ := if P.flag = 0 then P.ur / P.I.jump1 else P.ur

/-- `xshock`, carbuncle.c:79, 86. -/
noncomputable def Par.xshock (P : Par) (rmin rmax : ℝ) : ℝ := if P.flag = 0 then 0.5 * (rmax + rmin) else 0.9 * rmax + 0.1 * rmin

/-- carbuncle.c:98-104 -/
noncomputable def Par.ahead (P : Par) : Zone := ⟨dr, dr * P.ur, 0, 0, P.I.pr / (P.I.γ - 1) + 0.5 * dr * P.ur * P.ur, 0⟩
/-- carbuncle.c:107-113 -/
noncomputable def Par.behind (P : Par) : Zone := ⟨P.dl, P.dl * P.ul, 0, 0, P.pl / (P.I.γ - 1) + 0.5 * P.dl * P.ul * P.ul, 0⟩

open Classical in
/-- `problem` in zone `(k, j, i)` (indices in its Grid) with centre at `x1`, carbuncle.c:91-134. -/
noncomputable def zone (P : Par) (rmin rmax : ℝ) (nx2 : ℕ) (k j i : ℤ) (x1 : ℝ) : Res Zone :=
  if nx2 = 1 then .ub
  else
    let U := if x1 < P.xshock rmin rmax then P.ahead else P.behind
    .ok (if x1 < P.xshock rmin rmax then (if (i + j + k).tmod 2 = 0 then { U with M2 := P.amp } else { U with M2 := -P.amp }) else U)

/-! ## Properties -/

theorem ur_eq {P : Par} (h : P.I.Good) : P.ur = P.I.mach := by
  have : P.I.γ ≠ 0 := by have := h.1; linarith
  unfold Par.ur Input.pr dr
  rw [div_one, mul_one_div_cancel this, Real.sqrt_one, mul_one]

theorem pres_of {γ d u p : ℝ} (hg : γ - 1 ≠ 0) (hd : d ≠ 0) : pres γ ⟨d, d * u, 0, 0, p / (γ - 1) + 0.5 * d * u * u, 0⟩ = p := by
  unfold pres
  dsimp only
  field_simp
  ring

theorem dl_flag {P : Par} (hf : P.flag = 0) : P.dl = P.I.dl := by unfold Par.dl Input.dl; rw [if_pos hf]
theorem pl_flag {P : Par} (hf : P.flag = 0) : P.pl = P.I.pl := by unfold Par.pl Input.pl; rw [if_pos hf]

theorem ul_flag {P : Par} (h : P.I.Good) (hf : P.flag = 0) : P.ul = ((P.I.γ - 1) * P.I.mach ^ 2 + 2) / ((P.I.γ + 1) * P.I.mach) := by
  have hm : P.I.mach ≠ 0 := by have := h.2.1; linarith
  have hg : P.I.γ + 1 ≠ 0 := by have := h.1; linarith
  have e : P.I.jump1 = P.I.dl := by unfold Input.dl dr; ring
  unfold Par.ul
  rw [if_pos hf, ur_eq h, e, dl_eq h]
  obtain ⟨D, hD⟩ : ∃ D, D = (P.I.γ - 1) * P.I.mach ^ 2 + 2 := ⟨_, rfl⟩
  have hD0 : D ≠ 0 := by rw [hD]; exact (den_pos h).ne'
  rw [← hD]
  field_simp

/-- **C146.** With `shk_flag = 0` the two states are joined by a shock at rest in the middle of the root Domain; gas of density 1 flows into it with the Mach number
of the input and leaves it slower than sound. -/
theorem standing_exact {P : Par} (h : P.I.Good) (hf : P.flag = 0) : Jump P.I.γ 0 P.behind P.ahead ∧ P.ahead.d = 1 ∧
    P.ahead.M1 / P.ahead.d = P.I.mach * Real.sqrt (P.I.γ * pres P.I.γ P.ahead / P.ahead.d) ∧
    (P.behind.M1 / P.behind.d) ^ 2 < P.I.γ * pres P.I.γ P.behind / P.behind.d ∧ ∀ a b, P.xshock a b = (a + b) / 2 := by
  have h1 := h.1
  have h2 := h.2.1
  have hm : P.I.mach ≠ 0 := by linarith
  have hg : P.I.γ + 1 ≠ 0 := by linarith
  have hg0 : P.I.γ ≠ 0 := by linarith
  have hg1 : P.I.γ - 1 ≠ 0 := by linarith
  have hl0 : 0 < P.dl := by rw [dl_flag hf]; exact dl_pos h
  have hl := hl0.ne'
  have pb : pres P.I.γ P.behind = P.pl := pres_of hg1 hl
  have pa : pres P.I.γ P.ahead = P.I.pr := pres_of hg1 (by unfold dr; norm_num)
  obtain ⟨D, hD⟩ : ∃ D, D = (P.I.γ - 1) * P.I.mach ^ 2 + 2 := ⟨_, rfl⟩
  have hDp : 0 < D := by rw [hD]; exact den_pos h
  have hD0 := hDp.ne'
  have ed : P.dl = (P.I.γ + 1) * P.I.mach ^ 2 / D := by rw [dl_flag hf, hD, dl_eq h]
  have eu : P.ul = D / ((P.I.γ + 1) * P.I.mach) := by rw [ul_flag h hf, hD]
  have ep : P.pl = (2 * P.I.γ * P.I.mach ^ 2 - (P.I.γ - 1)) / (P.I.γ * (P.I.γ + 1)) := by rw [pl_flag hf, pl_eq h]
  have e1 : P.dl * P.ul = P.I.mach := by rw [ed, eu]; field_simp
  have e2 : P.I.mach * P.ul + P.pl = P.I.mach * P.I.mach + P.I.pr := by
    rw [eu, ep]; unfold Input.pr; field_simp; rw [hD]; ring
  have e3 : (P.pl / (P.I.γ - 1) + 0.5 * P.I.mach * P.ul + P.pl) * P.ul = (P.I.pr / (P.I.γ - 1) + 0.5 * P.I.mach * P.I.mach + P.I.pr) * P.I.mach := by
    rw [eu, ep]; unfold Input.pr; norm_num; field_simp; rw [hD]; ring
  refine ⟨?_, rfl, ?_, ?_, fun a b => ?_⟩
  · unfold Jump
    rw [pb, pa]
    unfold Par.behind Par.ahead dr
    dsimp only
    rw [ur_eq h]
    refine ⟨by linear_combination e1, ?_, rfl, rfl, ?_⟩
    · have : (P.dl * P.ul) ^ 2 / P.dl = P.I.mach * P.ul := by rw [← e1]; field_simp
      rw [this]; linear_combination e2
    · have : (P.pl / (P.I.γ - 1) + 0.5 * P.dl * P.ul * P.ul + P.pl) * (P.dl * P.ul) / P.dl = (P.pl / (P.I.γ - 1) + 0.5 * P.I.mach * P.ul + P.pl) * P.ul := by
        rw [← e1]; field_simp
      rw [this]; linear_combination e3
  · rw [pa]
    unfold Par.ahead Input.pr dr
    dsimp only
    rw [ur_eq h, div_one, div_one, mul_one_div_cancel hg0, Real.sqrt_one]; ring
  · rw [pb]
    unfold Par.behind
    dsimp only
    rw [mul_div_cancel_left₀ _ hl, lt_div_iff₀ hl0, show P.ul ^ 2 * P.dl = P.dl * P.ul * P.ul by ring, e1, eu, ep]
    rw [show P.I.mach * (D / ((P.I.γ + 1) * P.I.mach)) = D / (P.I.γ + 1) by field_simp,
      show P.I.γ * ((2 * P.I.γ * P.I.mach ^ 2 - (P.I.γ - 1)) / (P.I.γ * (P.I.γ + 1))) = (2 * P.I.γ * P.I.mach ^ 2 - (P.I.γ - 1)) / (P.I.γ + 1) by field_simp]
    apply div_lt_div_of_pos_right _ (by linarith)
    rw [hD]
    nlinarith [mul_pos (by linarith : 0 < P.I.γ + 1) (by nlinarith : 0 < P.I.mach ^ 2 - 1)]
  · unfold Par.xshock; rw [if_pos hf]; ring

/-- With another flag the flow is uniform, and disturbed except in the tenth of the root Domain next to the wall. -/
theorem uniform_flow {P : Par} (hf : P.flag ≠ 0) : P.behind = P.ahead ∧ ∀ a b, P.xshock a b = b - (b - a) / 10 := by
  refine ⟨?_, fun a b => by unfold Par.xshock; rw [if_neg hf]; ring⟩
  unfold Par.behind Par.ahead Par.dl Par.pl Par.ul
  rw [if_neg hf, if_neg hf, if_neg hf]

theorem tmod_two (n : ℤ) : n.tmod 2 = 0 ↔ n % 2 = 0 := by
  rw [← Int.dvd_iff_tmod_eq_zero, ← Int.dvd_iff_emod_eq_zero]

/-- **C146.** In two or three dimensions, in one Grid: the zones ahead of the shock have transverse momentum `amp`, with the other sign in each neighbour; all else is
the state ahead or behind. -/
theorem checkerboard_partial (P : Par) (rmin rmax : ℝ) {nx2 : ℕ} (h2 : nx2 ≠ 1) (k j i : ℤ) (x1 : ℝ) : ∃ z, zone P rmin rmax nx2 k j i x1 = .ok z ∧
    (x1 < P.xshock rmin rmax → z.d = P.ahead.d ∧ z.M1 = P.ahead.M1 ∧ z.M3 = 0 ∧ z.E = P.ahead.E ∧ (z.M2 = P.amp ∨ z.M2 = -P.amp) ∧
      ∀ k' j' i' x1', |k' - k| + |j' - j| + |i' - i| = 1 → x1' < P.xshock rmin rmax → ∃ w, zone P rmin rmax nx2 k' j' i' x1' = .ok w ∧ w.M2 = -z.M2) ∧
    (P.xshock rmin rmax ≤ x1 → z = P.behind) := by
  unfold zone
  rw [if_neg h2]
  refine ⟨_, rfl, fun hx => ?_, fun hx => ?_⟩
  · rw [if_pos hx]
    refine ⟨by split_ifs <;> rfl, by split_ifs <;> rfl, by split_ifs <;> rfl, by split_ifs <;> rfl, by split_ifs <;> simp, ?_⟩
    intro k' j' i' x1' hn hx'
    rw [if_neg h2, if_pos hx']
    refine ⟨_, rfl, ?_⟩
    have par : (i + j + k).tmod 2 = 0 ↔ (i' + j' + k').tmod 2 ≠ 0 := by
      rw [tmod_two, Ne, tmod_two]
      rcases abs_cases (k' - k) with ⟨ek, _⟩ | ⟨ek, _⟩ <;> rcases abs_cases (j' - j) with ⟨ej, _⟩ | ⟨ej, _⟩ <;>
        rcases abs_cases (i' - i) with ⟨ei, _⟩ | ⟨ei, _⟩ <;> rw [ek, ej, ei] at hn <;> omega
    by_cases c : (i + j + k).tmod 2 = 0
    · rw [if_pos c, if_neg (par.1 c)]; simp [hx']
    · rw [if_neg c, if_pos (not_not.1 fun h => c (par.2 h)), neg_neg]; simp [hx']
  · rw [if_neg (not_lt.2 hx), if_neg (not_lt.2 hx)]

/-- **C146** fails across Grids: the checkerboard goes by the index in the Grid.  In a Grid that starts an odd number of zones further the sign at the same place is the
other one, so the initial state depends on the decomposition. -/
theorem decomposition_false (P : Par) (ha : P.amp ≠ 0) (rmin rmax : ℝ) {nx2 : ℕ} (h2 : nx2 ≠ 1) (k j i disp : ℤ) (hd : disp % 2 = 1) (x1 : ℝ)
    (hx : x1 < P.xshock rmin rmax) : zone P rmin rmax nx2 k j (i - disp) x1 ≠ zone P rmin rmax nx2 k j i x1 := by
  unfold zone
  rw [if_neg h2, if_neg h2]
  dsimp only
  rw [if_pos hx, if_pos hx]
  intro e
  have e : (if (i - disp + j + k).tmod 2 = 0 then { P.ahead with M2 := P.amp } else { P.ahead with M2 := -P.amp })
      = (if (i + j + k).tmod 2 = 0 then { P.ahead with M2 := P.amp } else { P.ahead with M2 := -P.amp } : Zone) := by
    simpa [hx] using e
  have e := congrArg Zone.M2 e
  have : P.amp ≠ -P.amp := fun h => ha (by linarith)
  rw [apply_ite Zone.M2, apply_ite Zone.M2] at e
  simp only [tmod_two] at e
  split_ifs at e with c1 c2 c2
  · omega
  · exact this e
  · exact this e.symm
  · omega

/-- **C146** fails in one dimension. -/
theorem one_d_false (P : Par) (rmin rmax : ℝ) (k j i : ℤ) (x1 : ℝ) : zone P rmin rmax 1 k j i x1 = .ub := if_pos rfl

/-! ## prob/shu-osher.c -/

/-- The state behind the shock, shu-osher.c:49-53, 59-65. -/
noncomputable def shuOsher (γ : ℝ) : Zone :=
  ⟨3.857143, 2.629369 * 3.857143, 0 * 3.857143, 0 * 3.857143, 10.33333 / (γ - 1) + 0.5 * 3.857143 * (2.629369 * 2.629369 + 0 * 0 + 0 * 0), 0⟩

/-- The state ahead of the shock, with density 1 and pressure 1. -/
noncomputable def still (γ : ℝ) : Zone := ⟨1, 0, 0, 0, 1 / (γ - 1), 0⟩

/-- **C146.** To the digits given it is the state behind a shock of Mach number 3 in a gas with index 1.4, density 1 and pressure 1: mass, momentum and energy balance to
`10⁻⁴`, for any shock speed within `10⁻⁶` of `3 √1.4`. -/
theorem shu_osher_shock {s : ℝ} (hs : |s - 3 * Real.sqrt 1.4| ≤ 0.000001) :
    let z := shuOsher 1.4; let w := still 1.4
    |z.M1 - w.M1 - s * (z.d - w.d)| < 0.0001 ∧ |(z.M1 ^ 2 / z.d + pres 1.4 z) - (w.M1 ^ 2 / w.d + pres 1.4 w) - s * (z.M1 - w.M1)| < 0.0001 ∧
      |(z.E + pres 1.4 z) * z.M1 / z.d - (w.E + pres 1.4 w) * w.M1 / w.d - s * (z.E - w.E)| < 0.0005 := by
  have hq : Real.sqrt 1.4 * Real.sqrt 1.4 = 1.4 := Real.mul_self_sqrt (by norm_num)
  have l : 1.1832159 < Real.sqrt 1.4 := by rw [Real.lt_sqrt (by norm_num)]; norm_num
  have u : Real.sqrt 1.4 < 1.1832160 := by rw [Real.sqrt_lt' (by norm_num)]; norm_num
  rw [abs_le] at hs
  dsimp only
  unfold shuOsher still pres
  dsimp only
  refine ⟨?_, ?_, ?_⟩ <;> rw [abs_lt] <;> norm_num <;> constructor <;> linarith

/-! ## An example -/

/-- Mach 10. -/
noncomputable def P0 : Par := ⟨I0, 1 / 10, 0⟩

example : P0.I.Good ∧ P0.flag = 0 ∧ P0.amp ≠ 0 ∧ (0 : ℝ) < P0.xshock 0 1 := by
  refine ⟨I0_good, rfl, ?_, ?_⟩ <;> norm_num [P0, Par.xshock]
example : |(3 * Real.sqrt 1.4) - 3 * Real.sqrt 1.4| ≤ (0.000001 : ℝ) := by norm_num

end Athena.Carbuncle
