import Verif.Base
import Mathlib.Analysis.SpecialFunctions.Sqrt
import Mathlib.Tactic.FieldSimp
import Mathlib.Tactic.Linarith
import Mathlib.Tactic.LinearCombination

/-!
# The double Mach reflection: prob/dmr.c

The initial state and the three boundary functions.  Simplifications: real numbers instead of floating-point numbers, except that `0.1666666666` is taken as
written; the zones written by the loops of a boundary function are ghost zones and the zones read are not, so the loops are given by what they leave in each
zone.
-/

namespace Athena.Dmr

/-- `ConsS` without fields. -/
@[ext] structure Zone where
  d : ℝ
  M1 : ℝ
  M2 : ℝ
  M3 : ℝ
  E : ℝ

/-- The Grid: indices of the active zones, `nghost`, the edges and sizes of the zones, the time. -/
structure Grid where
  is : ℤ
  ie : ℤ
  js : ℤ
  je : ℤ
  ng : ℤ
  min1 : ℝ
  min2 : ℝ
  dx1 : ℝ
  dx2 : ℝ
  time : ℝ

/-- `x1` and `x2` of `cc_pos`, cc_pos.c:38-39. -/
noncomputable def Grid.x1 (G : Grid) (i : ℤ) : ℝ := G.min1 + ((i - G.is : ℤ) + 1 / 2) * G.dx1
@[inherit_doc Grid.x1]
noncomputable def Grid.x2 (G : Grid) (j : ℤ) : ℝ := G.min2 + ((j - G.js : ℤ) + 1 / 2) * G.dx2

/-- The constant of dmr.c:69, 174, 216. -/
noncomputable def xw : ℝ := 0.1666666666

/-- dmr.c:60-63, 134-137, 163-166, 211-214 -/
noncomputable def u0 : ℝ := 8.25 * Real.sqrt 3 / 2
@[inherit_doc u0]
noncomputable def v0 : ℝ := -8.25 * 0.5

/-- The downstream state, dmr.c:77-80, 148-151, 176-179, 229-232; `M3` is not set. -/
noncomputable def down (old : Zone) : Zone := ⟨8, 8 * u0, 8 * v0, old.M3, 291.25 + 0.5 * 8 * (u0 * u0 + v0 * v0)⟩

/-- The upstream state, dmr.c:71-74, 235-238. -/
noncomputable def up (old : Zone) : Zone := ⟨1.4, 0, 0, old.M3, 2.5⟩

open Classical in
/-- `problem`, dmr.c:44-90: the active zones. -/
noncomputable def problem (nx1 nx2 nx3 : ℕ) (G : Grid) (U : ℤ → ℤ → Zone) : Res (ℤ → ℤ → Zone) :=
  if nx1 = 1 ∨ nx2 = 1 then .fatal
  else if 1 < nx3 then .fatal
  else .ok fun j i =>
    if G.js ≤ j ∧ j ≤ G.je ∧ G.is ≤ i ∧ i ≤ G.ie then
      let x1_shock := xw + G.x2 j / Real.sqrt 3
      if G.x1 i < x1_shock then down (up (U j i)) else up (U j i)
    else U j i

open Classical in
/-- `dmrbv_iib`, dmr.c:127-154. -/
noncomputable def iib (G : Grid) (U : ℤ → ℤ → Zone) (j i : ℤ) : Zone :=
  if G.js - G.ng ≤ j ∧ j ≤ G.je + G.ng ∧ G.is - G.ng ≤ i ∧ i ≤ G.is - 1 then down (U j i) else U j i

open Classical in
/-- `dmrbv_ijb`, dmr.c:156-190. -/
noncomputable def ijb (G : Grid) (U : ℤ → ℤ → Zone) (j i : ℤ) : Zone :=
  if G.js - G.ng ≤ j ∧ j ≤ G.js - 1 ∧ G.is - G.ng ≤ i ∧ i ≤ G.ie + G.ng then
    if G.x1 i < xw then down (U j i)
    else
      let z := U (G.js + (G.js - j - 1)) i
      ⟨z.d, z.M1, -z.M2, (U j i).M3, z.E⟩
  else U j i

open Classical in
/-- `dmrbv_ojb`, dmr.c:202-242. -/
noncomputable def ojb (G : Grid) (U : ℤ → ℤ → Zone) (j i : ℤ) : Zone :=
  let x1_shock := xw + (1 + 20 * G.time) / Real.sqrt 3
  if G.je + 1 ≤ j ∧ j ≤ G.je + G.ng ∧ G.is - G.ng ≤ i ∧ i ≤ G.ie + G.ng then
    if G.x1 i < x1_shock then down (U j i) else up (U j i)
  else U j i

/-! ## Specification -/

/-- The direction in which the shock moves: 60 degrees to the wall. -/
noncomputable def n1 : ℝ := Real.sqrt 3 / 2
@[inherit_doc n1]
noncomputable def n2 : ℝ := -1 / 2

/-- A plane shock that started at the foot `(xw, 0)` and moves with speed 10 has passed the point at time `t`. -/
def Passed (t x1 x2 : ℝ) : Prop := n1 * (x1 - xw) + n2 * x2 < 10 * t

/-- Pressure of a gas with index `γ`. -/
noncomputable def pres (γ : ℝ) (z : Zone) : ℝ := (γ - 1) * (z.E - (z.M1 ^ 2 + z.M2 ^ 2 + z.M3 ^ 2) / (2 * z.d))

/-- The jump conditions of gas dynamics for a discontinuity with normal `(a, b)` and speed `s`. -/
def Jump (γ a b s : ℝ) (z w : Zone) : Prop :=
  let vn (z : Zone) : ℝ := (z.M1 * a + z.M2 * b) / z.d
  z.d * vn z - w.d * vn w = s * (z.d - w.d) ∧
    (z.M1 * vn z + pres γ z * a) - (w.M1 * vn w + pres γ w * a) = s * (z.M1 - w.M1) ∧
    (z.M2 * vn z + pres γ z * b) - (w.M2 * vn w + pres γ w * b) = s * (z.M2 - w.M2) ∧
    (z.E + pres γ z) * vn z - (w.E + pres γ w) * vn w = s * (z.E - w.E)

/-- The plane shock at a point. -/
noncomputable def exact (t x1 x2 : ℝ) (z : Zone) : Prop := (Passed t x1 x2 → z = down ⟨0, 0, 0, 0, 0⟩) ∧ (¬Passed t x1 x2 → z = up ⟨0, 0, 0, 0, 0⟩)

/-! ## Lemmas -/

theorem s3 : Real.sqrt 3 * Real.sqrt 3 = 3 := Real.mul_self_sqrt (by norm_num)

theorem passed_iff (t x1 x2 : ℝ) : Passed t x1 x2 ↔ x1 < xw + (x2 + 20 * t) / Real.sqrt 3 := by
  have h3 : 0 < Real.sqrt 3 := Real.sqrt_pos.2 (by norm_num)
  unfold Passed n1 n2
  rw [← sub_lt_iff_lt_add', lt_div_iff₀ h3]
  constructor <;> intro h <;> linarith

theorem down_eq (z : Zone) (h : z.M3 = 0) : down z = down ⟨0, 0, 0, 0, 0⟩ := by unfold down; rw [h]
theorem up_eq (z : Zone) (h : z.M3 = 0) : up z = up ⟨0, 0, 0, 0, 0⟩ := by unfold up; rw [h]

/-! ## Properties -/

/-- **C143.** The two states are joined by a plane shock with normal at 60 degrees and speed 10 (that is 10 times the sound speed ahead of it), for a gas
with index 1.4. -/
theorem jump_partial : Jump 1.4 n1 n2 10 (down ⟨0, 0, 0, 0, 0⟩) (up ⟨0, 0, 0, 0, 0⟩) ∧ 1.4 * pres 1.4 (up ⟨0, 0, 0, 0, 0⟩) / (up ⟨0, 0, 0, 0, 0⟩).d = 1 := by
  have h := s3
  have hp : pres 1.4 (down ⟨0, 0, 0, 0, 0⟩) = 116.5 := by
    unfold pres down u0 v0
    dsimp only
    ring
  have hq : pres 1.4 (up ⟨0, 0, 0, 0, 0⟩) = 1 := by
    unfold pres up
    norm_num
  have hv : ((down ⟨0, 0, 0, 0, 0⟩).M1 * n1 + (down ⟨0, 0, 0, 0, 0⟩).M2 * n2) / (down ⟨0, 0, 0, 0, 0⟩).d = 8.25 := by
    unfold down u0 v0 n1 n2
    dsimp only
    linear_combination (8.25 / 4) * h
  have hw : ((up ⟨0, 0, 0, 0, 0⟩).M1 * n1 + (up ⟨0, 0, 0, 0, 0⟩).M2 * n2) / (up ⟨0, 0, 0, 0, 0⟩).d = 0 := by
    unfold up
    simp
  refine ⟨?_, by rw [hq]; unfold up; norm_num⟩
  unfold Jump
  dsimp only
  rw [hp, hq, hv, hw]
  unfold down up u0 v0 n1 n2
  dsimp only
  refine ⟨by norm_num, by ring, by ring, ?_⟩
  linear_combination (-0.5 * 8 * 8.25 ^ 2 / 4 * 1.75) * h

/-- **C143** needs this index, which the code does not check: with any other one the two states are not joined by this shock. -/
theorem gamma_false {γ : ℝ} (hγ : γ ≠ 1.4) : ¬Jump γ n1 n2 10 (down ⟨0, 0, 0, 0, 0⟩) (up ⟨0, 0, 0, 0, 0⟩) := by
  have h := s3
  rintro ⟨-, -, h3, -⟩
  have hv : ((down ⟨0, 0, 0, 0, 0⟩).M1 * n1 + (down ⟨0, 0, 0, 0, 0⟩).M2 * n2) / (down ⟨0, 0, 0, 0, 0⟩).d = 8.25 := by
    unfold down u0 v0 n1 n2
    dsimp only
    linear_combination (8.25 / 4) * h
  dsimp only at h3
  rw [hv] at h3
  have hp : pres γ (down ⟨0, 0, 0, 0, 0⟩) = (γ - 1) * 291.25 := by
    unfold pres down u0 v0
    dsimp only
    ring
  have hq : pres γ (up ⟨0, 0, 0, 0, 0⟩) = (γ - 1) * 2.5 := by
    unfold pres up
    norm_num
  rw [hp, hq] at h3
  unfold down up v0 n2 at h3
  dsimp only at h3
  apply hγ
  linarith

/-- **C143.** Every zone holds the state of the shock at its centre. -/
theorem initial_exact {nx1 nx2 nx3 : ℕ} (G : Grid) {U V : ℤ → ℤ → Zone} (h : problem nx1 nx2 nx3 G U = .ok V) (h0 : ∀ j i, (U j i).M3 = 0) {j i : ℤ}
    (hj : G.js ≤ j ∧ j ≤ G.je) (hi : G.is ≤ i ∧ i ≤ G.ie) : exact 0 (G.x1 i) (G.x2 j) (V j i) := by
  unfold problem at h
  split_ifs at h with c1 c2
  cases h
  have hz : G.js ≤ j ∧ j ≤ G.je ∧ G.is ≤ i ∧ i ≤ G.ie := ⟨hj.1, hj.2, hi.1, hi.2⟩
  have e := passed_iff 0 (G.x1 i) (G.x2 j)
  rw [mul_zero, add_zero] at e
  refine ⟨fun p => ?_, fun p => ?_⟩
  · show (if _ then _ else _) = _
    rw [if_pos hz]
    dsimp only
    rw [if_pos (e.1 p)]
    exact down_eq _ (h0 j i)
  · show (if _ then _ else _) = _
    rw [if_pos hz]
    dsimp only
    rw [if_neg fun q => p (e.2 q)]
    exact up_eq _ (h0 j i)

/-- The positions are the centres of the zones, half way between the faces. -/
theorem centre (G : Grid) (i j : ℤ) :
    G.x1 i = ((G.min1 + (i - G.is : ℤ) * G.dx1) + (G.min1 + ((i - G.is : ℤ) + 1) * G.dx1)) / 2 ∧
      G.x2 j = ((G.min2 + (j - G.js : ℤ) * G.dx2) + (G.min2 + ((j - G.js : ℤ) + 1) * G.dx2)) / 2 := by
  unfold Grid.x1 Grid.x2
  constructor <;> ring

/-- Anything else than two dimensions stops the run. -/
theorem only_2d {nx1 nx2 nx3 : ℕ} (h1 : 1 ≤ nx1) (h2 : 1 ≤ nx2) (h3 : 1 ≤ nx3) (G : Grid) (U : ℤ → ℤ → Zone) :
    (∃ V, problem nx1 nx2 nx3 G U = .ok V) ↔ 1 < nx1 ∧ 1 < nx2 ∧ nx3 = 1 := by
  unfold problem
  split_ifs with c1 c2
  · simp; omega
  · simp; omega
  · simp; omega

/-- **C143.** The ghost zones to the left hold the state of the shock at their centres, at any time, those below the wall excepted. -/
theorem left_exact (G : Grid) (U : ℤ → ℤ → Zone) (h0 : ∀ j i, (U j i).M3 = 0) (hd : 0 < G.dx1) (hm : G.min1 ≤ xw) (ht : 0 ≤ G.time) {j i : ℤ}
    (hj : G.js - G.ng ≤ j ∧ j ≤ G.je + G.ng) (hi : G.is - G.ng ≤ i ∧ i < G.is) (h2 : 0 ≤ G.x2 j) : exact G.time (G.x1 i) (G.x2 j) (iib G U j i) := by
  have e : iib G U j i = down ⟨0, 0, 0, 0, 0⟩ := by
    unfold iib
    rw [if_pos ⟨hj.1, hj.2, hi.1, by omega⟩]
    exact down_eq _ (h0 j i)
  refine ⟨fun _ => e, fun p => absurd ?_ p⟩
  rw [passed_iff]
  have hx : G.x1 i < xw := by
    unfold Grid.x1
    have : ((i - G.is : ℤ) : ℝ) ≤ -1 := by exact_mod_cast (by omega : i - G.is ≤ -1)
    nlinarith
  have : 0 ≤ (G.x2 j + 20 * G.time) / Real.sqrt 3 := by positivity
  linarith

/-- **C143.** The ghost zones below hold the downstream state in front of the wall, and a mirror image along it. -/
theorem wall_exact (G : Grid) (U : ℤ → ℤ → Zone) (h0 : ∀ j i, (U j i).M3 = 0) {n i : ℤ} (hn : 1 ≤ n ∧ n ≤ G.ng) (hi : G.is - G.ng ≤ i ∧ i ≤ G.ie + G.ng) :
    (G.x1 i < xw → ijb G U (G.js - n) i = down ⟨0, 0, 0, 0, 0⟩) ∧
      (xw ≤ G.x1 i → let z := ijb G U (G.js - n) i; let w := U (G.js + n - 1) i; z.d = w.d ∧ z.M1 = w.M1 ∧ z.M2 = -w.M2 ∧ z.M3 = w.M3 ∧ z.E = w.E) := by
  have hz : G.js - G.ng ≤ G.js - n ∧ G.js - n ≤ G.js - 1 ∧ G.is - G.ng ≤ i ∧ i ≤ G.ie + G.ng := ⟨by omega, by omega, hi.1, hi.2⟩
  refine ⟨fun h => ?_, fun h => ?_⟩
  · unfold ijb
    rw [if_pos hz, if_pos h]
    exact down_eq _ (h0 _ _)
  · dsimp only
    unfold ijb
    rw [if_pos hz, if_neg (not_lt.2 h), show G.js + (G.js - (G.js - n) - 1) = G.js + n - 1 by ring]
    exact ⟨rfl, rfl, rfl, by rw [h0, h0], rfl⟩

/-- **C143.** The ghost zones above hold, at any time, the state of the shock at the height 1. -/
theorem top_partial (G : Grid) (U : ℤ → ℤ → Zone) (h0 : ∀ j i, (U j i).M3 = 0) {j i : ℤ} (hj : G.je < j ∧ j ≤ G.je + G.ng)
    (hi : G.is - G.ng ≤ i ∧ i ≤ G.ie + G.ng) : exact G.time (G.x1 i) 1 (ojb G U j i) := by
  have hz : G.je + 1 ≤ j ∧ j ≤ G.je + G.ng ∧ G.is - G.ng ≤ i ∧ i ≤ G.ie + G.ng := ⟨by omega, hj.2, hi.1, hi.2⟩
  have e := passed_iff G.time (G.x1 i) 1
  refine ⟨fun p => ?_, fun p => ?_⟩ <;> unfold ojb <;> dsimp only <;> rw [if_pos hz]
  · rw [if_pos (e.1 p)]; exact down_eq _ (h0 j i)
  · rw [if_neg fun q => p (e.2 q)]; exact up_eq _ (h0 j i)

/-- **C143** fails at their own height: in a ghost zone above the edge that the shock has passed, and has not passed at height 1, the gas is at rest. -/
theorem top_false (G : Grid) (U : ℤ → ℤ → Zone) {j i : ℤ} (hj : G.je < j ∧ j ≤ G.je + G.ng) (hi : G.is - G.ng ≤ i ∧ i ≤ G.ie + G.ng)
    (h1 : ¬Passed G.time (G.x1 i) 1) (h2 : Passed G.time (G.x1 i) (G.x2 j)) : ¬exact G.time (G.x1 i) (G.x2 j) (ojb G U j i) := by
  intro h
  have h := h.1 h2
  have hz : G.je + 1 ≤ j ∧ j ≤ G.je + G.ng ∧ G.is - G.ng ≤ i ∧ i ≤ G.ie + G.ng := ⟨by omega, hj.2, hi.1, hi.2⟩
  unfold ojb at h
  dsimp only at h
  rw [if_pos hz, if_neg fun q => h1 ((passed_iff _ _ _).2 q)] at h
  have := congrArg Zone.d h
  unfold up down at this
  norm_num at this

/-- No active zone is touched. -/
theorem active_kept (G : Grid) (U : ℤ → ℤ → Zone) {j i : ℤ} (hj : G.js ≤ j ∧ j ≤ G.je) (hi : G.is ≤ i ∧ i ≤ G.ie) :
    iib G U j i = U j i ∧ ijb G U j i = U j i ∧ ojb G U j i = U j i :=
  ⟨if_neg (by omega), if_neg (by omega), if_neg (by omega)⟩

/-! ## An example -/

/-- 40×10 zones of size 1/10 on a Domain of height 1. -/
noncomputable def G0 : Grid := ⟨4, 43, 4, 13, 4, 0, 0, 1 / 10, 1 / 10, 0⟩

example : ∃ V, problem 40 10 1 G0 (fun _ _ => ⟨0, 0, 0, 0, 0⟩) = .ok V := (only_2d (by norm_num) (by norm_num) (by norm_num) _ _).2 ⟨by norm_num, by norm_num, rfl⟩
example : 0 < G0.dx1 ∧ G0.min1 ≤ xw ∧ 0 ≤ G0.time ∧ 0 ≤ G0.x2 4 := by
  refine ⟨?_, ?_, ?_, ?_⟩ <;> norm_num [G0, xw, Grid.x2]
/-- The second row above the edge, zone 11. -/
example : ¬Passed G0.time (G0.x1 11) 1 ∧ Passed G0.time (G0.x1 11) (G0.x2 15) := by
  have h3 := s3
  have hp : 0 < Real.sqrt 3 := Real.sqrt_pos.2 (by norm_num)
  unfold Passed n1 n2 xw G0 Grid.x1 Grid.x2
  dsimp only
  norm_num
  constructor <;> nlinarith

end Athena.Dmr
