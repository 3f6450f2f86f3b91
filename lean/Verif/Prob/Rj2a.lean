import Verif.Prob.Shk1d
import Mathlib.Analysis.Real.Pi.Bounds
import Mathlib.Tactic.IntervalCases

/-!
# The waves of the Ryu & Jones 2a solution: prob/shkset1d.c:284-408

The table of `Prob/Shk1d` has seven discontinuities; at each the jump conditions of magnetohydrodynamics hold to the digits given.
-/

namespace Athena.Shk1d

/-! ## Specification -/

/-- The fluxes of mass, momentum, field and energy along x1. -/
noncomputable def flux (γ : ℝ) (z : Cons) : List ℝ :=
  [z.M.x, z.M.x ^ 2 / z.d + pres γ z + z.B.dot z.B / 2 - z.B.x ^ 2, z.M.x * z.M.y / z.d - z.B.x * z.B.y, z.M.x * z.M.z / z.d - z.B.x * z.B.z,
    (z.M.x * z.B.y - z.B.x * z.M.y) / z.d, (z.M.x * z.B.z - z.B.x * z.M.z) / z.d,
    ((z.E + pres γ z + z.B.dot z.B / 2) * z.M.x - z.B.x * z.B.dot z.M) / z.d]

/-- The conserved densities, in the same order. -/
def dens (z : Cons) : List ℝ := [z.d, z.M.x, z.M.y, z.M.z, z.B.y, z.B.z, z.E]

/-- The jump conditions for a discontinuity with speed `v`, each to within `ε`. -/
def JumpMHD (ε γ v : ℝ) (z w : Cons) : Prop :=
  z.B.x = w.B.x ∧ ∀ i < 7, |((flux γ z).getD i 0 - (flux γ w).getD i 0) - v * ((dens z).getD i 0 - (dens w).getD i 0)| ≤ ε

/-- `f` has the states `z` to the right of `x` and `w` to the left of it. -/
def Sides (f : ℝ → Cons) (x : ℝ) (z w : Cons) : Prop := ∃ δ > 0, (∀ r, x < r → r < x + δ → f r = z) ∧ ∀ r, x - δ < r → r ≤ x → f r = w

/-! ## Lemmas -/

theorem u_bounds : ∃ u : ℝ, u = (Real.sqrt (4 * Real.pi))⁻¹ ∧ 0.28209 ≤ u ∧ u ≤ 0.2821 ∧ 0.079577 ≤ u ^ 2 ∧ u ^ 2 ≤ 0.079578 := by
  have h1 := Real.pi_gt_d6
  have h2 := Real.pi_lt_d6
  have hq : 0 < Real.sqrt (4 * Real.pi) := Real.sqrt_pos.mpr (by linarith)
  have hs : Real.sqrt (4 * Real.pi) ^ 2 = 4 * Real.pi := Real.sq_sqrt (by linarith)
  refine ⟨_, rfl, ?_⟩
  have e : (Real.sqrt (4 * Real.pi))⁻¹ ^ 2 = (4 * Real.pi)⁻¹ := by rw [inv_pow, hs]
  have l : (0.079577 : ℝ) ≤ (4 * Real.pi)⁻¹ := by rw [inv_eq_one_div, le_div_iff₀ (by linarith)]; linarith
  have h : (4 * Real.pi)⁻¹ ≤ (0.079578 : ℝ) := by rw [inv_eq_one_div, div_le_iff₀ (by linarith)]; linarith
  have hu : 0 < (Real.sqrt (4 * Real.pi))⁻¹ := inv_pos.mpr hq
  refine ⟨?_, ?_, by rw [e]; exact l, by rw [e]; exact h⟩
  · by_contra hc; nlinarith
  · by_contra hc; nlinarith

/-- The speed of an Alfvén wave. -/
theorem alfven_bounds {d lo hi : ℝ} (hl : 0 < lo) (hd : 0 < d) (h1 : lo ^ 2 * (3.141593 * d) ≤ 1) (h2 : 1 ≤ hi ^ 2 * (3.141592 * d)) (hh : 0 < hi) :
    lo ≤ 1 / Real.sqrt (Real.pi * d) ∧ 1 / Real.sqrt (Real.pi * d) ≤ hi := by
  have p1 := Real.pi_gt_d6
  have p2 := Real.pi_lt_d6
  have hp : 0 < Real.pi * d := mul_pos Real.pi_pos hd
  have hq : 0 < Real.sqrt (Real.pi * d) := Real.sqrt_pos.mpr hp
  have hs : Real.sqrt (Real.pi * d) ^ 2 = Real.pi * d := Real.sq_sqrt hp.le
  have m1 : Real.pi * d ≤ 3.141593 * d := by nlinarith
  have m2 : 3.141592 * d ≤ Real.pi * d := by nlinarith
  constructor
  · rw [le_div_iff₀ hq]
    by_contra hc
    have : 1 < (lo * Real.sqrt (Real.pi * d)) ^ 2 := by nlinarith
    rw [mul_pow, hs] at this
    nlinarith [sq_nonneg lo]
  · rw [div_le_iff₀ hq]
    by_contra hc
    have hpos : 0 < hi * Real.sqrt (Real.pi * d) := mul_pos hh hq
    have : (hi * Real.sqrt (Real.pi * d)) ^ 2 < 1 := by nlinarith
    rw [mul_pow, hs] at this
    nlinarith [sq_nonneg hi]

theorem pres_row {γ d0 vx vy vz by' bz p r0 : ℝ} (hg : γ - 1 ≠ 0) (hd : d0 ≠ 0) : pres γ (row γ d0 vx vy vz by' bz p r0) = p := by
  simp only [row, pres, V3.dot]
  field_simp
  ring

/-- The right Alfvén speed, and the left. -/
theorem A_bounds : 0.49312 ≤ 1 / Real.sqrt (Real.pi * 1.309) ∧ 1 / Real.sqrt (Real.pi * 1.309) ≤ 0.49313 :=
  alfven_bounds (by norm_num) (by norm_num) (by norm_num) (by norm_num) (by norm_num)
@[inherit_doc A_bounds]
theorem C_bounds : 0.46215 ≤ 1 / Real.sqrt (Real.pi * 1.4903) ∧ 1 / Real.sqrt (Real.pi * 1.4903) ≤ 0.46217 :=
  alfven_bounds (by norm_num) (by norm_num) (by norm_num) (by norm_num) (by norm_num)

/-- The jump conditions between two rows, one by one. -/
theorem row_jump {v d vx vy vz b c p r d' vx' vy' vz' b' c' p' r' : ℝ} (hd : d ≠ 0) (hd' : d' ≠ 0)
    (h : ∀ u : ℝ, 0.28209 ≤ u → u ≤ 0.2821 → 0.079577 ≤ u ^ 2 → u ^ 2 ≤ 0.079578 →
      |vx * d - vx' * d' - v * (d - d')| ≤ 0.0002 ∧
      |vx ^ 2 * d + p + (b ^ 2 + c ^ 2 - 4) * u ^ 2 / 2 - (vx' ^ 2 * d' + p' + (b' ^ 2 + c' ^ 2 - 4) * u ^ 2 / 2) - v * (vx * d - vx' * d')| ≤ 0.0002 ∧
      |vx * vy * d - 2 * b * u ^ 2 - (vx' * vy' * d' - 2 * b' * u ^ 2) - v * (vy * d - vy' * d')| ≤ 0.0002 ∧
      |vx * vz * d - 2 * c * u ^ 2 - (vx' * vz' * d' - 2 * c' * u ^ 2) - v * (vz * d - vz' * d')| ≤ 0.0002 ∧
      |(vx * b - 2 * vy - (vx' * b' - 2 * vy') - v * (b - b')) * u| ≤ 0.0002 ∧
      |(vx * c - 2 * vz - (vx' * c' - 2 * vz') - v * (c - c')) * u| ≤ 0.0002 ∧
      |((5 / 2 * p + (vx ^ 2 + vy ^ 2 + vz ^ 2) * d / 2 + (4 + b ^ 2 + c ^ 2) * u ^ 2) * vx - 2 * (2 * vx + b * vy + c * vz) * u ^ 2)
        - ((5 / 2 * p' + (vx' ^ 2 + vy' ^ 2 + vz' ^ 2) * d' / 2 + (4 + b' ^ 2 + c' ^ 2) * u ^ 2) * vx' - 2 * (2 * vx' + b' * vy' + c' * vz') * u ^ 2)
        - v * ((3 / 2 * p + (vx ^ 2 + vy ^ 2 + vz ^ 2) * d / 2 + (4 + b ^ 2 + c ^ 2) * u ^ 2 / 2)
          - (3 / 2 * p' + (vx' ^ 2 + vy' ^ 2 + vz' ^ 2) * d' / 2 + (4 + b' ^ 2 + c' ^ 2) * u ^ 2 / 2))| ≤ 0.0002) :
    JumpMHD 0.0002 (5 / 3) v (row (5 / 3) d vx vy vz b c p r) (row (5 / 3) d' vx' vy' vz' b' c' p' r') := by
  obtain ⟨u, hu, u1, u2, u3, u4⟩ := u_bounds
  obtain ⟨h0, h1, h2, h3, h4, h5, h6⟩ := h u u1 u2 u3 u4
  refine ⟨rfl, fun i hi => ?_⟩
  simp only [flux, dens]
  rw [pres_row (by norm_num) hd, pres_row (by norm_num) hd']
  simp only [row, V3.dot, div_eq_mul_inv _ (Real.sqrt (4 * Real.pi)), ← hu]
  clear hu
  interval_cases i <;> simp only [List.getD_cons_zero, List.getD_cons_succ]
  · exact h0
  · convert h1 using 2; field_simp; ring
  · convert h2 using 2; field_simp
  · convert h3 using 2; field_simp
  · convert h4 using 2; field_simp
  · convert h5 using 2; field_simp
  · convert h6 using 2; field_simp; ring

theorem rj_wave1 : JumpMHD 0.0002 (5 / 3) 2.2638 (row (5 / 3) 1 0 0 0 4 2 1 0)
    (row (5 / 3) 1.3090 0.53432 (-0.094572) (-0.047286) 5.3452 2.6726 1.5844 0) := by
  refine row_jump (by norm_num) (by norm_num) fun u u1 u2 u3 u4 => ?_
  refine ⟨?_, ?_, ?_, ?_, ?_, ?_, ?_⟩ <;> rw [abs_le] <;> constructor <;> linarith

theorem rj_wave2 {A : ℝ} (a1 : 0.49312 ≤ A) (a2 : A ≤ 0.49313) : JumpMHD 0.0002 (5 / 3) (0.53432 + A) (row (5 / 3) 1.3090 0.53432 (-0.094572) (-0.047286) 5.3452 2.6726 1.5844 0)
    (row (5 / 3) 1.3090 0.53432 (-0.18411) 0.17554 5.7083 1.7689 1.5844 0) := by
  refine row_jump (by norm_num) (by norm_num) fun u u1 u2 u3 u4 => ?_
  refine ⟨?_, ?_, ?_, ?_, ?_, ?_, ?_⟩ <;> rw [abs_le] <;> constructor <;> nlinarith

theorem rj_wave3 : JumpMHD 0.0002 (5 / 3) (0.53432 + 0.48144 / 1.309) (row (5 / 3) 1.3090 0.53432 (-0.18411) 0.17554 5.7083 1.7689 1.5844 0)
    (row (5 / 3) 1.4735 0.57538 0.047601 0.24734 5.0074 1.5517 1.9317 0) := by
  refine row_jump (by norm_num) (by norm_num) fun u u1 u2 u3 u4 => ?_
  refine ⟨?_, ?_, ?_, ?_, ?_, ?_, ?_⟩ <;> rw [abs_le] <;> constructor <;> linarith

theorem rj_wave4 : JumpMHD 0.0002 (5 / 3) 0.57538 (row (5 / 3) 1.4735 0.57538 0.047601 0.24734 5.0074 1.5517 1.9317 0)
    (row (5 / 3) 1.6343 0.57538 0.047601 0.24734 5.0074 1.5517 1.9317 1) := by
  refine row_jump (by norm_num) (by norm_num) fun u u1 u2 u3 u4 => ?_
  refine ⟨?_, ?_, ?_, ?_, ?_, ?_, ?_⟩ <;> rw [abs_le] <;> constructor <;> linarith

theorem rj_wave5 : JumpMHD 0.0002 (5 / 3) (0.60588 - 0.51594 / 1.4903) (row (5 / 3) 1.6343 0.57538 0.047601 0.24734 5.0074 1.5517 1.9317 1)
    (row (5 / 3) 1.4903 0.60588 0.22157 0.30125 5.5713 1.7264 1.6558 1) := by
  refine row_jump (by norm_num) (by norm_num) fun u u1 u2 u3 u4 => ?_
  refine ⟨?_, ?_, ?_, ?_, ?_, ?_, ?_⟩ <;> rw [abs_le] <;> constructor <;> linarith

theorem rj_wave6 {C : ℝ} (c1 : 0.46215 ≤ C) (c2 : C ≤ 0.46217) : JumpMHD 0.0002 (5 / 3) (0.60588 - C) (row (5 / 3) 1.4903 0.60588 0.22157 0.30125 5.5713 1.7264 1.6558 1)
    (row (5 / 3) 1.4903 0.60588 0.11235 0.55686 5.0987 2.8326 1.6558 1) := by
  refine row_jump (by norm_num) (by norm_num) fun u u1 u2 u3 u4 => ?_
  refine ⟨?_, ?_, ?_, ?_, ?_, ?_, ?_⟩ <;> rw [abs_le] <;> constructor <;> nlinarith

theorem rj_wave7 : JumpMHD 0.0002 (5 / 3) (1.2 - 2.3305 / 1.08) (row (5 / 3) 1.4903 0.60588 0.11235 0.55686 5.0987 2.8326 1.6558 1)
    (row (5 / 3) 1.08 1.2 0.01 0.5 3.6 2 0.95 1) := by
  refine row_jump (by norm_num) (by norm_num) fun u u1 u2 u3 u4 => ?_
  refine ⟨?_, ?_, ?_, ?_, ?_, ?_, ?_⟩ <;> rw [abs_le] <;> constructor <;> linarith

/-- **C147 (Ryu & Jones).**  At each of the seven waves of the solution, at every time, the states on its two sides fulfil the jump conditions of magnetohydrodynamics for
its speed and `γ = 5/3`, to within 2·10⁻⁴. -/
theorem rj_waves {t : ℝ} (ht : 0 < t) (v : ℝ)
    (hv : v ∈ [2.2638, 0.53432 + 1 / Real.sqrt (Real.pi * 1.309), 0.53432 + 0.48144 / 1.309, 0.57538, 0.60588 - 0.51594 / 1.4903, 0.60588 - 1 / Real.sqrt (Real.pi * 1.4903), 1.2 - 2.3305 / 1.08]) :
    ∃ z w, Sides (rj2a (5 / 3) t) (v * t) z w ∧ JumpMHD 0.0002 (5 / 3) v z w := by
  obtain ⟨a1, a2⟩ := A_bounds
  obtain ⟨c1, c2⟩ := C_bounds
  have ta1 := mul_le_mul_of_nonneg_right a1 ht.le
  have ta2 := mul_le_mul_of_nonneg_right a2 ht.le
  have tc1 := mul_le_mul_of_nonneg_right c1 ht.le
  have tc2 := mul_le_mul_of_nonneg_right c2 ht.le
  unfold rj2a
  generalize 1 / Real.sqrt (Real.pi * 1.309) = A at *
  generalize 1 / Real.sqrt (Real.pi * 1.4903) = C at *
  simp only [List.mem_cons, List.not_mem_nil, or_false] at hv
  rcases hv with rfl | rfl | rfl | rfl | rfl | rfl | rfl
  · refine ⟨row (5 / 3) 1 0 0 0 4 2 1 0, row (5 / 3) 1.3090 0.53432 (-0.094572) (-0.047286) 5.3452 2.6726 1.5844 0, ⟨0.05 * t, by positivity, fun r h h' => ?_, fun r h h' => ?_⟩, rj_wave1⟩
    · beta_reduce
      rw [if_pos (show r > 2.2638 * t by linarith)]
    · beta_reduce
      rw [if_neg (show ¬ r > 2.2638 * t by linarith), if_pos (show r > (0.53432 + A) * t by linarith)]
  · refine ⟨row (5 / 3) 1.3090 0.53432 (-0.094572) (-0.047286) 5.3452 2.6726 1.5844 0, row (5 / 3) 1.3090 0.53432 (-0.18411) 0.17554 5.7083 1.7689 1.5844 0, ⟨0.05 * t, by positivity, fun r h h' => ?_, fun r h h' => ?_⟩, rj_wave2 a1 a2⟩
    · beta_reduce
      rw [if_neg (show ¬ r > 2.2638 * t by linarith), if_pos (show r > (0.53432 + A) * t by linarith)]
    · beta_reduce
      rw [if_neg (show ¬ r > 2.2638 * t by linarith), if_neg (show ¬ r > (0.53432 + A) * t by linarith), if_pos (show r > (0.53432 + 0.48144 / 1.309) * t by linarith)]
  · refine ⟨row (5 / 3) 1.3090 0.53432 (-0.18411) 0.17554 5.7083 1.7689 1.5844 0, row (5 / 3) 1.4735 0.57538 0.047601 0.24734 5.0074 1.5517 1.9317 0, ⟨0.05 * t, by positivity, fun r h h' => ?_, fun r h h' => ?_⟩, rj_wave3⟩
    · beta_reduce
      rw [if_neg (show ¬ r > 2.2638 * t by linarith), if_neg (show ¬ r > (0.53432 + A) * t by linarith), if_pos (show r > (0.53432 + 0.48144 / 1.309) * t by linarith)]
    · beta_reduce
      rw [if_neg (show ¬ r > 2.2638 * t by linarith), if_neg (show ¬ r > (0.53432 + A) * t by linarith), if_neg (show ¬ r > (0.53432 + 0.48144 / 1.309) * t by linarith), if_pos (show r > 0.57538 * t by linarith)]
  · refine ⟨row (5 / 3) 1.4735 0.57538 0.047601 0.24734 5.0074 1.5517 1.9317 0, row (5 / 3) 1.6343 0.57538 0.047601 0.24734 5.0074 1.5517 1.9317 1, ⟨0.05 * t, by positivity, fun r h h' => ?_, fun r h h' => ?_⟩, rj_wave4⟩
    · beta_reduce
      rw [if_neg (show ¬ r > 2.2638 * t by linarith), if_neg (show ¬ r > (0.53432 + A) * t by linarith), if_neg (show ¬ r > (0.53432 + 0.48144 / 1.309) * t by linarith), if_pos (show r > 0.57538 * t by linarith)]
    · beta_reduce
      rw [if_neg (show ¬ r > 2.2638 * t by linarith), if_neg (show ¬ r > (0.53432 + A) * t by linarith), if_neg (show ¬ r > (0.53432 + 0.48144 / 1.309) * t by linarith), if_neg (show ¬ r > 0.57538 * t by linarith), if_pos (show r > (0.60588 - 0.51594 / 1.4903) * t by linarith)]
  · refine ⟨row (5 / 3) 1.6343 0.57538 0.047601 0.24734 5.0074 1.5517 1.9317 1, row (5 / 3) 1.4903 0.60588 0.22157 0.30125 5.5713 1.7264 1.6558 1, ⟨0.05 * t, by positivity, fun r h h' => ?_, fun r h h' => ?_⟩, rj_wave5⟩
    · beta_reduce
      rw [if_neg (show ¬ r > 2.2638 * t by linarith), if_neg (show ¬ r > (0.53432 + A) * t by linarith), if_neg (show ¬ r > (0.53432 + 0.48144 / 1.309) * t by linarith), if_neg (show ¬ r > 0.57538 * t by linarith), if_pos (show r > (0.60588 - 0.51594 / 1.4903) * t by linarith)]
    · beta_reduce
      rw [if_neg (show ¬ r > 2.2638 * t by linarith), if_neg (show ¬ r > (0.53432 + A) * t by linarith), if_neg (show ¬ r > (0.53432 + 0.48144 / 1.309) * t by linarith), if_neg (show ¬ r > 0.57538 * t by linarith), if_neg (show ¬ r > (0.60588 - 0.51594 / 1.4903) * t by linarith), if_pos (show r > (0.60588 - C) * t by linarith)]
  · refine ⟨row (5 / 3) 1.4903 0.60588 0.22157 0.30125 5.5713 1.7264 1.6558 1, row (5 / 3) 1.4903 0.60588 0.11235 0.55686 5.0987 2.8326 1.6558 1, ⟨0.05 * t, by positivity, fun r h h' => ?_, fun r h h' => ?_⟩, rj_wave6 c1 c2⟩
    · beta_reduce
      rw [if_neg (show ¬ r > 2.2638 * t by linarith), if_neg (show ¬ r > (0.53432 + A) * t by linarith), if_neg (show ¬ r > (0.53432 + 0.48144 / 1.309) * t by linarith), if_neg (show ¬ r > 0.57538 * t by linarith), if_neg (show ¬ r > (0.60588 - 0.51594 / 1.4903) * t by linarith), if_pos (show r > (0.60588 - C) * t by linarith)]
    · beta_reduce
      rw [if_neg (show ¬ r > 2.2638 * t by linarith), if_neg (show ¬ r > (0.53432 + A) * t by linarith), if_neg (show ¬ r > (0.53432 + 0.48144 / 1.309) * t by linarith), if_neg (show ¬ r > 0.57538 * t by linarith), if_neg (show ¬ r > (0.60588 - 0.51594 / 1.4903) * t by linarith), if_neg (show ¬ r > (0.60588 - C) * t by linarith), if_pos (show r > (1.2 - 2.3305 / 1.08) * t by linarith)]
  · refine ⟨row (5 / 3) 1.4903 0.60588 0.11235 0.55686 5.0987 2.8326 1.6558 1, row (5 / 3) 1.08 1.2 0.01 0.5 3.6 2 0.95 1, ⟨0.05 * t, by positivity, fun r h h' => ?_, fun r h h' => ?_⟩, rj_wave7⟩
    · beta_reduce
      rw [if_neg (show ¬ r > 2.2638 * t by linarith), if_neg (show ¬ r > (0.53432 + A) * t by linarith), if_neg (show ¬ r > (0.53432 + 0.48144 / 1.309) * t by linarith), if_neg (show ¬ r > 0.57538 * t by linarith), if_neg (show ¬ r > (0.60588 - 0.51594 / 1.4903) * t by linarith), if_neg (show ¬ r > (0.60588 - C) * t by linarith), if_pos (show r > (1.2 - 2.3305 / 1.08) * t by linarith)]
    · beta_reduce
      rw [if_neg (show ¬ r > 2.2638 * t by linarith), if_neg (show ¬ r > (0.53432 + A) * t by linarith), if_neg (show ¬ r > (0.53432 + 0.48144 / 1.309) * t by linarith), if_neg (show ¬ r > 0.57538 * t by linarith), if_neg (show ¬ r > (0.60588 - 0.51594 / 1.4903) * t by linarith), if_neg (show ¬ r > (0.60588 - C) * t by linarith), if_neg (show ¬ r > (1.2 - 2.3305 / 1.08) * t by linarith)]

/-- The shock at the right, at time 1. -/
example : ∃ z w, Sides (rj2a (5 / 3) 1) (2.2638 * 1) z w ∧ JumpMHD 0.0002 (5 / 3) 2.2638 z w := rj_waves one_pos 2.2638 (by simp)

end Athena.Shk1d
