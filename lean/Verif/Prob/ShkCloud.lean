import Verif.Base
import Mathlib.Analysis.SpecialFunctions.Sqrt
import Mathlib.Tactic.FieldSimp
import Mathlib.Tactic.Linarith
import Mathlib.Tactic.LinearCombination

/-!
# A shock and a cloud: prob/shk_cloud.c

The initial state and the boundary function.  Simplifications: adiabatic gas, real numbers instead of floating-point numbers, one passive scalar; with MHD the
fields ahead of the shock are variables that are never set, which is undefined behaviour.  The loops are given by what they leave in each zone.
-/

namespace Athena.ShkCloud

/-- `ConsS` without fields, with one scalar. -/
@[ext] structure Zone where
  d : ℝ
  M1 : ℝ
  M2 : ℝ
  M3 : ℝ
  E : ℝ
  s : ℝ

/-- The input: shk_cloud.c:71-72. -/
structure Input where
  γ : ℝ
  mach : ℝ
  drat : ℝ

/-- `dr`, `pr`, shk_cloud.c:81-82. -/
noncomputable def dr : ℝ := 1
@[inherit_doc dr]
noncomputable def Input.pr (I : Input) : ℝ := 1 / I.γ

/-- shk_cloud.c:87-89 -/
noncomputable def Input.jump1 (I : Input) : ℝ := (I.γ + 1) / (I.γ - 1 + 2 / (I.mach * I.mach))
@[inherit_doc Input.jump1]
noncomputable def Input.jump2 (I : Input) : ℝ := (2 * I.γ * I.mach * I.mach - (I.γ - 1)) / (I.γ + 1)
@[inherit_doc Input.jump1]
noncomputable def Input.jump3 (I : Input) : ℝ := 2 * (1 - 1 / (I.mach * I.mach)) / (I.γ + 1)

/-- `dl`, `pl`, `ul`, shk_cloud.c:91-97. -/
noncomputable def Input.dl (I : Input) : ℝ := dr * I.jump1
@[inherit_doc Input.dl]
noncomputable def Input.pl (I : Input) : ℝ := I.pr * I.jump2
@[inherit_doc Input.dl]
noncomputable def Input.ul (I : Input) : ℝ := 0 + I.jump3 * I.mach * Real.sqrt (I.γ * I.pr / dr)

/-- shk_cloud.c:112-135, 299-320 -/
noncomputable def Input.post (I : Input) : Zone := ⟨I.dl, I.ul * I.dl, 0, 0, I.pl / (I.γ - 1) + 0.5 * I.dl * (I.ul * I.ul), 0⟩
/-- shk_cloud.c:137-160 -/
noncomputable def Input.pre (I : Input) : Zone := ⟨dr, 0 * dr, 0, 0, I.pr / (I.γ - 1) + 0.5 * dr * (0 * 0), 0⟩
/-- shk_cloud.c:163-186 -/
noncomputable def Input.cloud (I : Input) : Zone :=
  ⟨dr * I.drat, 0 * dr * I.drat, 0, 0, I.pr / (I.γ - 1) + 0.5 * dr * I.drat * (0 * 0), I.drat⟩

open Classical in
/-- `problem` in an active zone, shk_cloud.c:105-189. -/
noncomputable def zone (I : Input) (mhd : Bool) (x1 x2 x3 : ℝ) : Res Zone :=
  if mhd then .ub
  else
    let diag := Real.sqrt (x1 * x1 + x2 * x2 + x3 * x3)
    let U := if x1 < -2 then I.post else I.pre
    let U := if diag < 1 then I.cloud else U
    .ok U

/-- The indices of a Grid, init_grid.c:87-88, 111-112, 135-136: `is` is `nghost`. -/
structure Grid where
  ng : ℤ
  nx : ℤ
  js : ℤ
  je : ℤ
  ks : ℤ
  ke : ℤ

/-- `shk_cloud_iib`, shk_cloud.c:288-324. -/
noncomputable def iib (I : Input) (G : Grid) (U : ℤ → ℤ → ℤ → Zone) (k j i : ℤ) : Zone :=
  if G.ks ≤ k ∧ k ≤ G.ke ∧ G.js ≤ j ∧ j ≤ G.je ∧ 1 ≤ i ∧ i ≤ G.ng then I.post else U k j i

/-! ## Specification -/

/-- Pressure of a gas with index `γ`. -/
noncomputable def pres (γ : ℝ) (z : Zone) : ℝ := (γ - 1) * (z.E - (z.M1 ^ 2 + z.M2 ^ 2 + z.M3 ^ 2) / (2 * z.d))

/-- The jump conditions of gas dynamics for a discontinuity that moves along x1 with speed `s`. -/
def Jump (γ s : ℝ) (z w : Zone) : Prop :=
  z.M1 - w.M1 = s * (z.d - w.d) ∧ (z.M1 ^ 2 / z.d + pres γ z) - (w.M1 ^ 2 / w.d + pres γ w) = s * (z.M1 - w.M1) ∧
    z.M2 = w.M2 ∧ z.M3 = w.M3 ∧ (z.E + pres γ z) * z.M1 / z.d - (w.E + pres γ w) * w.M1 / w.d = s * (z.E - w.E)

/-- A sensible input: `γ > 1`, a shock, a cloud. -/
def Input.Good (I : Input) : Prop := 1 < I.γ ∧ 1 < I.mach ∧ 0 < I.drat

/-! ## Lemmas -/

theorem ul_eq {I : Input} (h : I.Good) : I.ul = I.jump3 * I.mach := by
  have : I.γ ≠ 0 := by have := h.1; linarith
  unfold Input.ul Input.pr dr
  rw [div_one, mul_one_div_cancel this, Real.sqrt_one]; ring

theorem den_pos {I : Input} (h : I.Good) : 0 < (I.γ - 1) * I.mach ^ 2 + 2 := by
  have h1 := h.1
  have : 0 < I.mach ^ 2 := by have := h.2.1; positivity
  nlinarith

theorem dl_eq {I : Input} (h : I.Good) : I.dl = (I.γ + 1) * I.mach ^ 2 / ((I.γ - 1) * I.mach ^ 2 + 2) := by
  have hm : I.mach ≠ 0 := by have := h.2.1; linarith
  have := (den_pos h).ne'
  unfold Input.dl Input.jump1 dr
  have e : I.γ - 1 + 2 / (I.mach * I.mach) = ((I.γ - 1) * I.mach ^ 2 + 2) / I.mach ^ 2 := by field_simp
  rw [e]
  field_simp

theorem ul_eq' {I : Input} (h : I.Good) : I.ul = 2 * (I.mach ^ 2 - 1) / ((I.γ + 1) * I.mach) := by
  have hm : I.mach ≠ 0 := by have := h.2.1; linarith
  have hg : I.γ + 1 ≠ 0 := by have := h.1; linarith
  rw [ul_eq h]
  unfold Input.jump3
  field_simp

theorem pl_eq {I : Input} (h : I.Good) : I.pl = (2 * I.γ * I.mach ^ 2 - (I.γ - 1)) / (I.γ * (I.γ + 1)) := by
  have hg : I.γ + 1 ≠ 0 := by have := h.1; linarith
  have hg' : I.γ ≠ 0 := by have := h.1; linarith
  unfold Input.pl Input.pr Input.jump2
  field_simp

theorem dl_pos {I : Input} (h : I.Good) : 0 < I.dl := by
  rw [dl_eq h]
  have h1 := h.1
  have h2 := h.2.1
  have := den_pos h
  positivity

theorem pres_post {I : Input} (h : I.Good) : pres I.γ I.post = I.pl := by
  have hg : I.γ - 1 ≠ 0 := by have := h.1; linarith
  have := (dl_pos h).ne'
  unfold pres Input.post
  dsimp only
  field_simp
  ring

theorem pres_pre {I : Input} (h : I.Good) : pres I.γ I.pre = I.pr := by
  have hg : I.γ - 1 ≠ 0 := by have := h.1; linarith
  unfold pres Input.pre dr
  dsimp only
  field_simp
  ring

/-! ## Properties -/

/-- **C145.** The states on the two sides are joined by a shock of the Mach number in the input, which moves into gas of density 1 at rest with sound speed 1. -/
theorem shock_exact {I : Input} (h : I.Good) :
    Jump I.γ I.mach I.post I.pre ∧ I.pre.d = 1 ∧ I.pre.M1 = 0 ∧ Real.sqrt (I.γ * pres I.γ I.pre / I.pre.d) = 1 := by
  have hm : I.mach ≠ 0 := by have := h.2.1; linarith
  have hg : I.γ + 1 ≠ 0 := by have := h.1; linarith
  have hg0 : I.γ ≠ 0 := by have := h.1; linarith
  have hg1 : I.γ - 1 ≠ 0 := by have := h.1; linarith
  have hd := (den_pos h).ne'
  have hl := (dl_pos h).ne'
  refine ⟨?_, rfl, by unfold Input.pre; simp, ?_⟩
  · obtain ⟨D, hD⟩ : ∃ D, D = (I.γ - 1) * I.mach ^ 2 + 2 := ⟨_, rfl⟩
    have eD : I.dl = (I.γ + 1) * I.mach ^ 2 / D := by rw [hD]; exact dl_eq h
    have hD0 : D ≠ 0 := by rw [hD]; exact hd
    have e1 : I.dl * I.ul = I.mach * (I.dl - 1) := by
      rw [eD, ul_eq' h]; field_simp; rw [hD]; ring
    have e2 : I.ul * I.dl * I.ul + I.pl - I.pr = I.mach * (I.ul * I.dl) := by
      rw [eD, ul_eq' h, pl_eq h]; unfold Input.pr; field_simp; rw [hD]; ring
    have e3 : (I.pl / (I.γ - 1) + 0.5 * I.dl * (I.ul * I.ul) + I.pl) * I.ul = I.mach * (I.pl / (I.γ - 1) + 0.5 * I.dl * (I.ul * I.ul) - I.pr / (I.γ - 1)) := by
      rw [eD, ul_eq' h, pl_eq h]; unfold Input.pr; norm_num; field_simp; rw [hD]; ring
    unfold Jump
    rw [pres_post h, pres_pre h]
    unfold Input.post Input.pre dr
    dsimp only
    refine ⟨by linear_combination e1, ?_, rfl, rfl, ?_⟩
    · have : (I.ul * I.dl) ^ 2 / I.dl = I.ul * I.dl * I.ul := by field_simp
      rw [this]; linear_combination e2
    · have : (I.pl / (I.γ - 1) + 0.5 * I.dl * (I.ul * I.ul) + I.pl) * (I.ul * I.dl) / I.dl = (I.pl / (I.γ - 1) + 0.5 * I.dl * (I.ul * I.ul) + I.pl) * I.ul := by
        field_simp
      rw [this]; linear_combination e3
  · rw [pres_pre h]
    unfold Input.pre Input.pr dr
    rw [div_one, mul_one_div_cancel hg0, Real.sqrt_one]

/-- **C145.** It is a compression that moves to the right. -/
theorem shock_compresses {I : Input} (h : I.Good) : I.pre.d < I.post.d ∧ pres I.γ I.pre < pres I.γ I.post ∧ 0 < I.post.M1 := by
  have h1 := h.1
  have h2 := h.2.1
  have hm : 1 < I.mach ^ 2 := by nlinarith
  have hu : 0 < I.ul := by
    rw [ul_eq' h]
    apply div_pos
    · linarith
    · apply mul_pos <;> linarith
  refine ⟨?_, ?_, mul_pos hu (dl_pos h)⟩
  · show (1 : ℝ) < I.dl
    rw [dl_eq h, lt_div_iff₀ (den_pos h)]
    nlinarith
  · rw [pres_pre h, pres_post h, pl_eq h]
    unfold Input.pr
    rw [div_lt_div_iff₀ (by linarith) (by apply mul_pos <;> linarith)]
    nlinarith [mul_pos (by linarith : 0 < I.γ) (by linarith : 0 < I.γ)]

/-- **C145.** Without MHD: the shock is at `x1 = -2`; the ball of radius 1 around the origin has the density in the input, is at rest in equilibrium of pressure,
and is all of the labelled material. -/
theorem initial_partial {I : Input} (h : I.Good) (x1 x2 x3 : ℝ) : ∃ z, zone I false x1 x2 x3 = .ok z ∧
    (x1 < -2 → z = I.post ∧ z.s = 0) ∧ (-2 ≤ x1 → 1 ≤ x1 ^ 2 + x2 ^ 2 + x3 ^ 2 → z = I.pre ∧ z.s = 0) ∧
    (x1 ^ 2 + x2 ^ 2 + x3 ^ 2 < 1 → z.d = I.drat ∧ z.M1 = 0 ∧ z.M2 = 0 ∧ z.M3 = 0 ∧ pres I.γ z = pres I.γ I.pre ∧ z.s / z.d = 1) := by
  have hs : Real.sqrt (x1 * x1 + x2 * x2 + x3 * x3) < 1 ↔ x1 ^ 2 + x2 ^ 2 + x3 ^ 2 < 1 := by
    rw [Real.sqrt_lt' one_pos, one_pow]
    constructor <;> intro h <;> nlinarith
  refine ⟨_, if_neg (by simp), fun hx => ?_, fun hx ho => ?_, fun hi => ?_⟩
  · have : ¬Real.sqrt (x1 * x1 + x2 * x2 + x3 * x3) < 1 := by
      rw [hs]; nlinarith [sq_nonneg x2, sq_nonneg x3]
    rw [if_neg this, if_pos hx]
    exact ⟨rfl, rfl⟩
  · rw [if_neg (by rw [hs]; linarith), if_neg (by linarith)]
    exact ⟨rfl, rfl⟩
  · rw [if_pos (hs.2 hi), pres_pre h]
    have hd := h.2.2.ne'
    have hg : I.γ - 1 ≠ 0 := by have := h.1; linarith
    unfold Input.cloud pres dr
    dsimp only
    refine ⟨by ring, by ring, rfl, rfl, ?_, by rw [one_mul]; exact div_self hd⟩
    field_simp
    ring

/-- **C145** fails with MHD: the fields ahead of the shock are never set (and `beta` is never used). -/
theorem field_false (I : Input) (x1 x2 x3 : ℝ) : zone I true x1 x2 x3 = .ub := if_pos rfl

/-- **C145** fails at the boundary.  `shk_cloud_iib` counts from index 1 instead of from the first active zone, `nghost`, downwards: the outermost ghost zone is
never set, and the first active zone is set to the state behind the shock before every step. -/
theorem boundary_false (I : Input) (G : Grid) (hg : 1 ≤ G.ng) (U : ℤ → ℤ → ℤ → Zone) {k j : ℤ} (hk : G.ks ≤ k ∧ k ≤ G.ke) (hj : G.js ≤ j ∧ j ≤ G.je) :
    iib I G U k j 0 = U k j 0 ∧ iib I G U k j G.ng = I.post := by
  unfold iib
  refine ⟨if_neg (by omega), if_pos ⟨hk.1, hk.2, hj.1, hj.2, hg, le_refl _⟩⟩

/-- The other ghost zones hold the state behind the shock; no other active zone is touched. -/
theorem boundary_partial (I : Input) (G : Grid) (U : ℤ → ℤ → ℤ → Zone) {k j : ℤ} (hk : G.ks ≤ k ∧ k ≤ G.ke) (hj : G.js ≤ j ∧ j ≤ G.je) (i : ℤ) :
    (1 ≤ i → i < G.ng → iib I G U k j i = I.post) ∧ (G.ng < i → iib I G U k j i = U k j i) := by
  unfold iib
  exact ⟨fun h1 h2 => if_pos ⟨hk.1, hk.2, hj.1, hj.2, h1, h2.le⟩, fun h => if_neg (by omega)⟩

/-! ## An example -/

/-- Mach 10 and a cloud ten times as dense. -/
noncomputable def I0 : Input := ⟨5 / 3, 10, 10⟩

theorem I0_good : I0.Good := by unfold Input.Good I0; norm_num

example : I0.post.d = 800 / 206 := by
  show I0.dl = _
  rw [dl_eq I0_good]
  norm_num [I0]
/-- With four ghost zones: what `shk_cloud_iib` makes of an active zone. -/
example (U : ℤ → ℤ → ℤ → Zone) : iib I0 ⟨4, 32, 4, 19, 0, 0⟩ U 0 4 4 = I0.post :=
  (boundary_false I0 ⟨4, 32, 4, 19, 0, 0⟩ (by norm_num) U (by norm_num) (by norm_num)).2
example : ((1 : ℝ) / 2) ^ 2 + 0 ^ 2 + 0 ^ 2 < 1 := by norm_num

end Athena.ShkCloud
