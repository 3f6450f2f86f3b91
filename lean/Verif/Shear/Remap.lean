import Mathlib.Data.Real.Basic
import Mathlib.Algebra.BigOperators.Group.Finset.Basic
import Mathlib.Algebra.BigOperators.Ring.Finset
import Mathlib.Tactic.Ring
import Mathlib.Tactic.Linarith
import Mathlib.Tactic.NormNum
import Mathlib.Tactic.SplitIfs
import Mathlib.Tactic.LinearCombination
import Mathlib.Tactic.Positivity
import Mathlib.Tactic.FieldSimp

/-!
# The conservative remap of the shearing sheet

`RemapFlux()` of src/bvals_shear.c, in its second-order and third-order versions, and the
update of one row of zones along x2 with its result.  The row is a function on the integers;
the routine itself reads only the zones near the one it works on (`remap_local`), so a Grid
holding the right values in its ghost zones computes the values of the whole Domain.

Real arithmetic is exact.
-/

namespace Athena.Shear

/-- `#define SIGN(a)`, src/defs.h.in:148. -/
noncomputable def sgn (x : ℝ) : ℝ := if x < 0 then -1 else 1

/-- Which of the two versions of `RemapFlux` was compiled: src/bvals_shear.c:5566 and 5614. -/
inductive Order where
  | second
  | third

/-- The limited slope `dUm` of zone `j`: src/bvals_shear.c:5592-5600. -/
noncomputable def slope (U : ℤ → ℝ) (j : ℤ) : ℝ :=
  let dUc := U (j + 1) - U (j - 1)
  let dUl := U j - U (j - 1)
  let dUr := U (j + 1) - U j
  if dUl * dUr > 0 then sgn dUc * min (1 / 2 * |dUc|) (2 * min |dUl| |dUr|) else 0

/-- The second-order `Flux[j]`: src/bvals_shear.c:5583-5607.  For `eps > 0` the loop writes
`Flux[j+1]` from zone `j`, so entry `j` comes from zone `j-1`. -/
noncomputable def flux2 (U : ℤ → ℝ) (eps : ℝ) (j : ℤ) : ℝ :=
  if eps > 0 then eps * (U (j - 1) + 1 / 2 * (1 - eps) * slope U (j - 1))
  else eps * (U j - 1 / 2 * (1 + eps) * slope U j)

/-- The limited second difference `d2Ulim` of an interface: src/bvals_shear.c:5640-5651. -/
noncomputable def curvHalf (U : ℤ → ℝ) (j : ℤ) : ℝ :=
  let h := (7 * (U (j - 1) + U j) - (U (j - 2) + U (j + 1))) / 12
  let d2Uc := 3 * (U (j - 1) - 2 * h + U j)
  let d2Ul := U (j - 2) - 2 * U (j - 1) + U j
  let d2Ur := U (j - 1) - 2 * U j + U (j + 1)
  let lim := min |d2Ul| |d2Ur|
  if 0 < d2Uc ∧ 0 < d2Ul ∧ 0 < d2Ur then sgn d2Uc * min (5 / 4 * lim) |d2Uc|
  else if d2Uc < 0 ∧ d2Ul < 0 ∧ d2Ur < 0 then sgn d2Uc * min (5 / 4 * lim) |d2Uc|
  else 0

/-- `Uhalf[j]`, the value at the interface between zones `j-1` and `j`:
src/bvals_shear.c:5652. -/
noncomputable def uHalf (U : ℤ → ℝ) (j : ℤ) : ℝ :=
  1 / 2 * ((U (j - 1) + U j) - curvHalf U j / 3)

/-- The block at a local extremum, with the values at the two interfaces of zone `j` before it:
src/bvals_shear.c:5661-5683. -/
noncomputable def extremum (U : ℤ → ℝ) (j : ℤ) (lv rv : ℝ) : ℝ × ℝ :=
  let qc := 6 * (U j - 1 / 2 * (lv + rv))
  let d2U := -2 * qc
  let d2Uc := U (j - 1) - 2 * U j + U (j + 1)
  let d2Ul := U (j - 2) - 2 * U (j - 1) + U j
  let d2Ur := U j - 2 * U (j + 1) + U (j + 2)
  let lim := min |d2Uc| (min |d2Ul| |d2Ur|)
  let d2Ulim :=
    if 0 < d2Uc ∧ 0 < d2Ul ∧ 0 < d2Ur ∧ 0 < d2U then sgn d2U * min (5 / 4 * lim) |d2U|
    else if d2Uc < 0 ∧ d2Ul < 0 ∧ d2Ur < 0 ∧ d2U < 0 then sgn d2U * min (5 / 4 * lim) |d2U|
    else 0
  if d2U = 0 then (U j, U j)
  else (U j + (lv - U j) * d2Ulim / d2U, U j + (rv - U j) * d2Ulim / d2U)

/-- The monotonicity limiter that follows: src/bvals_shear.c:5685-5695. -/
noncomputable def monotone (u lv rv : ℝ) : ℝ × ℝ :=
  let qa := (rv - u) * (u - lv)
  let qb := rv - lv
  let qc := 6 * (u - 1 / 2 * (lv + rv))
  if qa ≤ 0 then (u, u)
  else if qb * qc > qb * qb then (3 * u - 2 * rv, rv)
  else if qb * qc < -(qb * qb) then (lv, 3 * u - 2 * lv)
  else (lv, rv)

/-- `Ulv` and `Urv` of zone `j` after both limiters: src/bvals_shear.c:5656-5695. -/
noncomputable def edges (U : ℤ → ℝ) (j : ℤ) : ℝ × ℝ :=
  let lv := uHalf U j
  let rv := uHalf U (j + 1)
  let qa := (rv - U j) * (U j - lv)
  let qb := (U (j - 1) - U j) * (U j - U (j + 1))
  let e := if qa ≤ 0 ∧ qb ≤ 0 then extremum U j lv rv else (lv, rv)
  monotone (U j) e.1 e.2

/-- Average of the parabola of one zone over the part of width `w` next to its right interface:
src/bvals_shear.c:5697-5702, without the factor `eps`. -/
noncomputable def rightPart (u : ℝ) (e : ℝ × ℝ) (w : ℝ) : ℝ :=
  let dU := e.2 - e.1
  let u6 := 6 * (u - 1 / 2 * (e.1 + e.2))
  let qx := 2 / 3 * w
  e.2 - 3 / 4 * qx * (dU - (1 - qx) * u6)

/-- The same next to its left interface: src/bvals_shear.c:5697-5698, 5705-5706. -/
noncomputable def leftPart (u : ℝ) (e : ℝ × ℝ) (w : ℝ) : ℝ :=
  let dU := e.2 - e.1
  let u6 := 6 * (u - 1 / 2 * (e.1 + e.2))
  let qx := 2 / 3 * w
  e.1 + 3 / 4 * qx * (dU + (1 - qx) * u6)

/-- The third-order `Flux[j]`: src/bvals_shear.c:5631-5708. -/
noncomputable def flux3 (U : ℤ → ℝ) (eps : ℝ) (j : ℤ) : ℝ :=
  if eps > 0 then eps * rightPart (U (j - 1)) (edges U (j - 1)) eps
  else eps * leftPart (U j) (edges U j) (-eps)

/-- `RemapFlux`: src/bvals_shear.c:5574-5610 or 5622-5711. -/
noncomputable def remapFlux : Order → (ℤ → ℝ) → ℝ → ℤ → ℝ
  | .second => flux2
  | .third => flux3

/-- One zone of a row after the remap: src/bvals_shear.c:231-237, 825-831, 2302-2308. -/
noncomputable def remap (o : Order) (eps : ℝ) (U : ℤ → ℝ) (j : ℤ) : ℝ :=
  U j - (remapFlux o U eps (j + 1) - remapFlux o U eps j)

/-! ## Reading only near-by zones, and translation -/

theorem slope_congr {U V : ℤ → ℝ} {i j : ℤ} (a : U (j - 1) = V (i - 1)) (b : U j = V i)
    (c : U (j + 1) = V (i + 1)) : slope U j = slope V i := by
  unfold slope
  rw [a, b, c]

theorem uHalf_congr {U V : ℤ → ℝ} {i j : ℤ} (a : U (j - 2) = V (i - 2)) (b : U (j - 1) = V (i - 1))
    (c : U j = V i) (d : U (j + 1) = V (i + 1)) : uHalf U j = uHalf V i := by
  unfold uHalf curvHalf
  rw [a, b, c, d]

theorem edges_congr {U V : ℤ → ℝ} {i j : ℤ} (h : ∀ k : ℤ, -2 ≤ k → k ≤ 2 → U (j + k) = V (i + k)) :
    edges U j = edges V i := by
  have a0 : U j = V i := by have := h 0 (by omega) (by omega); simpa using this
  have a1 : U (j - 1) = V (i - 1) := h (-1) (by omega) (by omega)
  have a2 : U (j - 2) = V (i - 2) := h (-2) (by omega) (by omega)
  have a3 : U (j + 1) = V (i + 1) := h 1 (by omega) (by omega)
  have a4 : U (j + 2) = V (i + 2) := h 2 (by omega) (by omega)
  have hl : uHalf U j = uHalf V i := uHalf_congr a2 a1 a0 a3
  have hr : uHalf U (j + 1) = uHalf V (i + 1) := by
    apply uHalf_congr
    · rw [show j + 1 - 2 = j - 1 by ring, show i + 1 - 2 = i - 1 by ring]; exact a1
    · rw [show j + 1 - 1 = j by ring, show i + 1 - 1 = i by ring]; exact a0
    · exact a3
    · rw [show j + 1 + 1 = j + 2 by ring, show i + 1 + 1 = i + 2 by ring]; exact a4
  unfold edges extremum
  rw [hl, hr, a0, a1, a2, a3, a4]

/-- Flux `j` reads zones `j-3` to `j+2` at most, and treats all places alike. -/
theorem flux_congr (o : Order) {U V : ℤ → ℝ} {eps : ℝ} {i j : ℤ}
    (h : ∀ k : ℤ, -3 ≤ k → k ≤ 2 → U (j + k) = V (i + k)) :
    remapFlux o U eps j = remapFlux o V eps i := by
  have a0 : U j = V i := by have := h 0 (by omega) (by omega); simpa using this
  have a1 : U (j - 1) = V (i - 1) := h (-1) (by omega) (by omega)
  cases o
  · simp only [remapFlux, flux2]
    have s0 : slope U j = slope V i := slope_congr a1 a0 (h 1 (by omega) (by omega))
    have s1 : slope U (j - 1) = slope V (i - 1) := by
      apply slope_congr
      · rw [show j - 1 - 1 = j + -2 by ring, show i - 1 - 1 = i + -2 by ring]
        exact h (-2) (by omega) (by omega)
      · exact a1
      · rw [show j - 1 + 1 = j by ring, show i - 1 + 1 = i by ring]; exact a0
    rw [a0, a1, s0, s1]
  · simp only [remapFlux, flux3]
    have s0 : edges U j = edges V i := edges_congr (fun k b c => h k (by omega) (by omega))
    have s1 : edges U (j - 1) = edges V (i - 1) := by
      apply edges_congr
      intro k b c
      rw [show j - 1 + k = j + (k - 1) by ring, show i - 1 + k = i + (k - 1) by ring]
      exact h _ (by omega) (by omega)
    rw [a0, a1, s0, s1]

/-- Shifting the row shifts the fluxes. -/
theorem flux_shift (o : Order) (U : ℤ → ℝ) (eps : ℝ) (a j : ℤ) :
    remapFlux o (fun m => U (m + a)) eps j = remapFlux o U eps (j + a) :=
  flux_congr o (fun k _ _ => by rw [show j + k + a = j + a + k by ring])

theorem remap_shift (o : Order) (U : ℤ → ℝ) (eps : ℝ) (a j : ℤ) :
    remap o eps (fun m => U (m + a)) j = remap o eps U (j + a) := by
  unfold remap
  rw [flux_shift, flux_shift, show j + 1 + a = j + a + 1 by ring]

/-- Flux `j` reads zones `j-3` to `j+2` at most. -/
theorem flux_local (o : Order) {U V : ℤ → ℝ} {eps : ℝ} {j : ℤ}
    (h : ∀ m, j - 3 ≤ m → m ≤ j + 2 → U m = V m) : remapFlux o U eps j = remapFlux o V eps j :=
  flux_congr o (fun k _ _ => h _ (by omega) (by omega))

/-- Zone `j` after the remap depends on zones `j-3` to `j+3` at most. -/
theorem remap_local (o : Order) {U V : ℤ → ℝ} {eps : ℝ} {j : ℤ}
    (h : ∀ m, j - 3 ≤ m → m ≤ j + 3 → U m = V m) : remap o eps U j = remap o eps V j := by
  unfold remap
  rw [flux_local o (j := j + 1) (fun m a b => h m (by omega) (by omega)),
    flux_local o (j := j) (fun m a b => h m (by omega) (by omega)), h j (by omega) (by omega)]

/-! ## Conservation, constants, whole zones -/

/-- A row which repeats after `N` zones still does so after the remap. -/
theorem flux_periodic (o : Order) {U : ℤ → ℝ} {N : ℤ} (h : ∀ m, U (m + N) = U m) (eps : ℝ)
    (j : ℤ) : remapFlux o U eps (j + N) = remapFlux o U eps j := by
  rw [← flux_shift]
  exact flux_local o (fun m _ _ => h m)

theorem remap_periodic (o : Order) {U : ℤ → ℝ} {N : ℤ} (h : ∀ m, U (m + N) = U m) (eps : ℝ)
    (j : ℤ) : remap o eps U (j + N) = remap o eps U j := by
  unfold remap
  rw [show j + N + 1 = (j + 1) + N by ring, flux_periodic o h, flux_periodic o h, h]

/-- The sum over one period is the same after the remap. -/
theorem remap_sum (o : Order) {U : ℤ → ℝ} {N : ℕ} (h : ∀ m, U (m + N) = U m) (eps : ℝ) :
    ∑ m ∈ Finset.range N, remap o eps U m = ∑ m ∈ Finset.range N, U m := by
  unfold remap
  rw [Finset.sum_sub_distrib]
  have t : ∀ n : ℕ, ∑ m ∈ Finset.range n, (remapFlux o U eps ((m : ℤ) + 1) - remapFlux o U eps m) =
      remapFlux o U eps n - remapFlux o U eps 0 := by
    intro n
    induction n with
    | zero => simp
    | succ k ih => rw [Finset.sum_range_succ, ih]; push_cast; ring
  rw [t N]
  have := flux_periodic o h eps 0
  rw [zero_add] at this
  rw [this]; ring

/-- With no fraction of a zone to go the row is left alone. -/
theorem remap_zero (o : Order) (U : ℤ → ℝ) (j : ℤ) : remap o 0 U j = U j := by
  unfold remap
  cases o <;> simp [remapFlux, flux2, flux3]

theorem slope_const {U : ℤ → ℝ} {j : ℤ} (h1 : U (j - 1) = U j) : slope U j = 0 := by
  unfold slope
  simp [h1]

/-! ## The second-order slope -/

theorem sgn_mul_abs (x : ℝ) : sgn x * |x| = x := by
  unfold sgn
  split_ifs with h
  · rw [abs_of_neg h]; ring
  · rw [abs_of_nonneg (not_lt.1 h)]; ring

/-- The slope lies between zero and twice the difference with either neighbour: to the left. -/
theorem slope_left (U : ℤ → ℝ) (j : ℤ) : ∃ t : ℝ, 0 ≤ t ∧ t ≤ 2 ∧ slope U j = t * (U j - U (j - 1)) := by
  unfold slope
  dsimp only
  split_ifs with h
  · rcases lt_or_gt_of_ne (show U j - U (j - 1) ≠ 0 by intro e; rw [e] at h; simp at h) with n | p
    · have r : U (j + 1) - U j < 0 := by nlinarith
      have c : U (j + 1) - U (j - 1) < 0 := by linarith
      have hn : 0 < -(U j - U (j - 1)) := by linarith
      refine ⟨min (1 / 2 * |U (j + 1) - U (j - 1)|) (2 * min |U j - U (j - 1)| |U (j + 1) - U j|) /
        -(U j - U (j - 1)), by positivity, ?_, ?_⟩
      · rw [div_le_iff₀ hn]
        refine le_trans (min_le_right _ _) ?_
        have := min_le_left |U j - U (j - 1)| |U (j + 1) - U j|
        rw [abs_of_neg n] at this
        rw [abs_of_neg n]
        linarith
      · unfold sgn; rw [if_pos c]; field_simp [hn.ne', n.ne]
    · have r : 0 < U (j + 1) - U j := by nlinarith
      have c : 0 < U (j + 1) - U (j - 1) := by linarith
      refine ⟨min (1 / 2 * |U (j + 1) - U (j - 1)|) (2 * min |U j - U (j - 1)| |U (j + 1) - U j|) /
        (U j - U (j - 1)), by positivity, ?_, ?_⟩
      · rw [div_le_iff₀ p]
        refine le_trans (min_le_right _ _) ?_
        have := min_le_left |U j - U (j - 1)| |U (j + 1) - U j|
        rw [abs_of_pos p] at this
        rw [abs_of_pos p]
        linarith
      · unfold sgn; rw [if_neg (not_lt.2 c.le)]; field_simp
  · exact ⟨0, le_refl _, by norm_num, by ring⟩

/-- The mirrored row has the opposite slope. -/
theorem slope_mirror (U : ℤ → ℝ) (j : ℤ) : slope (fun m => U (-m)) (-j) = -slope U j := by
  unfold slope
  dsimp only
  rw [neg_neg, show -(-j + 1) = j - 1 by ring, show -(-j - 1) = j + 1 by ring]
  have e : (U j - U (j + 1)) * (U (j - 1) - U j) = (U j - U (j - 1)) * (U (j + 1) - U j) := by ring
  rw [e]
  by_cases h : (U j - U (j - 1)) * (U (j + 1) - U j) > 0
  · rw [if_pos h, if_pos h, abs_sub_comm (U (j - 1)) (U (j + 1)), abs_sub_comm (U j) (U (j + 1)),
      abs_sub_comm (U (j - 1)) (U j), min_comm |U (j + 1) - U j|]
    have hs : sgn (U (j - 1) - U (j + 1)) = -sgn (U (j + 1) - U (j - 1)) := by
      have hne : U (j + 1) - U (j - 1) ≠ 0 := by
        intro e0
        have : U (j + 1) - U j = -(U j - U (j - 1)) := by linarith
        rw [this] at h
        nlinarith [mul_self_nonneg (U j - U (j - 1))]
      unfold sgn
      rcases lt_or_gt_of_ne hne with n | p
      · rw [if_pos n, if_neg (show ¬U (j - 1) - U (j + 1) < 0 by linarith)]; norm_num
      · rw [if_pos (show U (j - 1) - U (j + 1) < 0 by linarith),
          if_neg (show ¬U (j + 1) - U (j - 1) < 0 by linarith)]
    rw [hs]; ring
  · rw [if_neg h, if_neg h]; simp

theorem slope_right (U : ℤ → ℝ) (j : ℤ) : ∃ t : ℝ, 0 ≤ t ∧ t ≤ 2 ∧ slope U j = t * (U (j + 1) - U j) := by
  obtain ⟨t, h0, h2, e⟩ := slope_left (fun m => U (-m)) (-j)
  rw [slope_mirror] at e
  rw [neg_neg, show -(-j - 1) = j + 1 by ring] at e
  exact ⟨t, h0, h2, by linarith⟩

/-- The slope of a straight line is its slope. -/
theorem slope_line {U : ℤ → ℝ} {j : ℤ} {b : ℝ} (h1 : U j - U (j - 1) = b) (h2 : U (j + 1) - U j = b) :
    slope U j = b := by
  unfold slope
  dsimp only
  rw [h1, h2, show U (j + 1) - U (j - 1) = 2 * b by linarith, min_self]
  by_cases hb : b = 0
  · simp [hb]
  · rw [if_pos (mul_self_pos.2 hb), abs_mul, abs_two, show (1 : ℝ) / 2 * (2 * |b|) = |b| by ring,
      min_eq_left (by linarith [abs_nonneg b])]
    have : sgn (2 * b) = sgn b := by
      unfold sgn
      by_cases h : b < 0
      · rw [if_pos h, if_pos (by linarith)]
      · rw [if_neg h, if_neg (by linarith)]
    rw [this, sgn_mul_abs]

/-! ## The second-order remap -/

/-- The second-order remap written as the two parts of which the new zone is made. -/
theorem remap2_pos (U : ℤ → ℝ) {eps : ℝ} (h : 0 < eps) (j : ℤ) :
    remap .second eps U j = (1 - eps) * (U j - 1 / 2 * eps * slope U j) +
      eps * (U (j - 1) + 1 / 2 * (1 - eps) * slope U (j - 1)) := by
  unfold remap
  simp only [remapFlux, flux2]
  rw [if_pos h, if_pos h, show j + 1 - 1 = j by ring]
  ring

theorem remap2_neg (U : ℤ → ℝ) {eps : ℝ} (h : ¬0 < eps) (j : ℤ) :
    remap .second eps U j = (1 + eps) * (U j - 1 / 2 * eps * slope U j) +
      (-eps) * (U (j + 1) - 1 / 2 * (1 + eps) * slope U (j + 1)) := by
  unfold remap
  simp only [remapFlux, flux2]
  rw [if_neg h, if_neg h]
  ring

/-- No new extremum: to the right. -/
theorem remap2_bounds_pos (U : ℤ → ℝ) {eps lo hi : ℝ} (h0 : 0 ≤ eps) (h1 : eps ≤ 1) (j : ℤ)
    (a : lo ≤ U j) (b : U j ≤ hi) (c : lo ≤ U (j - 1)) (d : U (j - 1) ≤ hi) :
    lo ≤ remap .second eps U j ∧ remap .second eps U j ≤ hi := by
  rcases h0.eq_or_lt with e | p
  · rw [← e, remap_zero]; exact ⟨a, b⟩
  rw [remap2_pos U p]
  obtain ⟨t, t0, t2, et⟩ := slope_left U j
  obtain ⟨s, s0, s2, es⟩ := slope_right U (j - 1)
  rw [sub_add_cancel] at es
  rw [et, es]
  set x := U j
  set y := U (j - 1)
  -- both parts are means of `x` and `y`
  have hw : 0 ≤ 1 / 2 * eps * t ∧ 1 / 2 * eps * t ≤ 1 := by
    constructor
    · positivity
    · nlinarith
  have hv : 0 ≤ 1 / 2 * (1 - eps) * s ∧ 1 / 2 * (1 - eps) * s ≤ 1 := by
    have : 0 ≤ 1 - eps := by linarith
    constructor
    · positivity
    · nlinarith
  have P : x - 1 / 2 * eps * (t * (x - y)) = (1 - 1 / 2 * eps * t) * x + 1 / 2 * eps * t * y := by ring
  have Q : y + 1 / 2 * (1 - eps) * (s * (x - y)) =
      (1 - 1 / 2 * (1 - eps) * s) * y + 1 / 2 * (1 - eps) * s * x := by ring
  rw [P, Q]
  have mean : ∀ {w u v l : ℝ}, 0 ≤ w → w ≤ 1 → l ≤ u → l ≤ v → l ≤ (1 - w) * u + w * v := by
    intro w u v l w0 w1 hu hv
    nlinarith [mul_nonneg (sub_nonneg.2 w1) (sub_nonneg.2 hu), mul_nonneg w0 (sub_nonneg.2 hv)]
  have mean' : ∀ {w u v l : ℝ}, 0 ≤ w → w ≤ 1 → u ≤ l → v ≤ l → (1 - w) * u + w * v ≤ l := by
    intro w u v l w0 w1 hu hv
    nlinarith [mul_nonneg (sub_nonneg.2 w1) (sub_nonneg.2 hu), mul_nonneg w0 (sub_nonneg.2 hv)]
  exact ⟨mean p.le h1 (mean hw.1 hw.2 a c) (mean hv.1 hv.2 c a),
    mean' p.le h1 (mean' hw.1 hw.2 b d) (mean' hv.1 hv.2 d b)⟩

/-- No new extremum: to the left. -/
theorem remap2_bounds_neg (U : ℤ → ℝ) {eps lo hi : ℝ} (h0 : eps ≤ 0) (h1 : -1 ≤ eps) (j : ℤ)
    (a : lo ≤ U j) (b : U j ≤ hi) (c : lo ≤ U (j + 1)) (d : U (j + 1) ≤ hi) :
    lo ≤ remap .second eps U j ∧ remap .second eps U j ≤ hi := by
  rw [remap2_neg U (not_lt.2 h0)]
  obtain ⟨t, t0, t2, et⟩ := slope_right U j
  obtain ⟨s, s0, s2, es⟩ := slope_left U (j + 1)
  rw [add_sub_cancel_right] at es
  rw [et, es]
  set x := U j
  set y := U (j + 1)
  obtain ⟨w, rfl⟩ : ∃ w, eps = -w := ⟨-eps, by ring⟩
  have w0 : 0 ≤ w := by linarith
  have w1 : w ≤ 1 := by linarith
  have hw : 0 ≤ 1 / 2 * w * t ∧ 1 / 2 * w * t ≤ 1 := by
    constructor
    · positivity
    · nlinarith
  have hv : 0 ≤ 1 / 2 * (1 - w) * s ∧ 1 / 2 * (1 - w) * s ≤ 1 := by
    have : 0 ≤ 1 - w := by linarith
    constructor
    · positivity
    · nlinarith
  have P : (1 + -w) * (x - 1 / 2 * -w * (t * (y - x))) + - -w * (y - 1 / 2 * (1 + -w) * (s * (y - x))) =
      (1 - w) * ((1 - 1 / 2 * w * t) * x + 1 / 2 * w * t * y) +
      w * ((1 - 1 / 2 * (1 - w) * s) * y + 1 / 2 * (1 - w) * s * x) := by ring
  rw [P]
  have mean : ∀ {w u v l : ℝ}, 0 ≤ w → w ≤ 1 → l ≤ u → l ≤ v → l ≤ (1 - w) * u + w * v := by
    intro w u v l w0 w1 hu hv
    nlinarith [mul_nonneg (sub_nonneg.2 w1) (sub_nonneg.2 hu), mul_nonneg w0 (sub_nonneg.2 hv)]
  have mean' : ∀ {w u v l : ℝ}, 0 ≤ w → w ≤ 1 → u ≤ l → v ≤ l → (1 - w) * u + w * v ≤ l := by
    intro w u v l w0 w1 hu hv
    nlinarith [mul_nonneg (sub_nonneg.2 w1) (sub_nonneg.2 hu), mul_nonneg w0 (sub_nonneg.2 hv)]
  exact ⟨mean w0 w1 (mean hw.1 hw.2 a c) (mean hv.1 hv.2 c a),
    mean' w0 w1 (mean' hw.1 hw.2 b d) (mean' hv.1 hv.2 d b)⟩

/-! ## The third-order version -/

/-- The block for local extrema has no effect: the limiter after it makes such a zone flat
again.  So the routine is not extremum preserving. -/
theorem edges_flat {U : ℤ → ℝ} {j : ℤ} (h : (uHalf U (j + 1) - U j) * (U j - uHalf U j) ≤ 0) :
    edges U j = (U j, U j) := by
  unfold edges
  dsimp only
  have m : ∀ u lv rv : ℝ, (rv - u) * (u - lv) ≤ 0 → monotone u lv rv = (u, u) := by
    intro u lv rv hq
    unfold monotone
    dsimp only
    rw [if_pos hq]
  by_cases c : (uHalf U (j + 1) - U j) * (U j - uHalf U j) ≤ 0 ∧
      (U (j - 1) - U j) * (U j - U (j + 1)) ≤ 0
  · rw [if_pos c]
    apply m
    unfold extremum
    dsimp only
    split_ifs
    all_goals first
      | simp; done
      | (have key : ∀ r d : ℝ, (U j + (uHalf U (j + 1) - U j) * r / d - U j) *
            (U j - (U j + (uHalf U j - U j) * r / d)) ≤ 0 := by
          intro r d
          have : (U j + (uHalf U (j + 1) - U j) * r / d - U j) *
              (U j - (U j + (uHalf U j - U j) * r / d)) =
              ((uHalf U (j + 1) - U j) * (U j - uHalf U j)) * (r / d) ^ 2 := by ring
          rw [this]
          exact mul_nonpos_of_nonpos_of_nonneg h (sq_nonneg _)
         exact key _ _)
  · rw [if_neg c]
    exact m _ _ _ h

/-- The third-order edges without the block for local extrema. -/
theorem edges_eq (U : ℤ → ℝ) (j : ℤ) : edges U j = monotone (U j) (uHalf U j) (uHalf U (j + 1)) := by
  by_cases h : (uHalf U (j + 1) - U j) * (U j - uHalf U j) ≤ 0
  · rw [edges_flat h]
    unfold monotone
    dsimp only
    rw [if_pos h]
  · unfold edges
    dsimp only
    rw [if_neg (fun c => h c.1)]

/-- A row with a constant second difference around an interface: the interface value is that of
the parabola. -/
theorem uHalf_quad {U : ℤ → ℝ} {j : ℤ} {c : ℝ}
    (hl : U (j - 2) - 2 * U (j - 1) + U j = c) (hr : U (j - 1) - 2 * U j + U (j + 1) = c) :
    uHalf U j = 1 / 2 * (U (j - 1) + U j) - c / 6 := by
  have hc : curvHalf U j = c := by
    unfold curvHalf
    dsimp only
    have e : 3 * (U (j - 1) - 2 * ((7 * (U (j - 1) + U j) - (U (j - 2) + U (j + 1))) / 12) + U j) = c := by
      linarith
    rw [e, hl, hr, min_self]
    have m : min (5 / 4 * |c|) |c| = |c| := min_eq_right (by linarith [abs_nonneg c])
    rw [m, sgn_mul_abs]
    rcases lt_trichotomy c 0 with n | z | p
    · rw [if_neg (by intro h; linarith [h.1]), if_pos ⟨n, n, n⟩]
    · rw [z]; simp
    · rw [if_pos ⟨p, p, p⟩]
  unfold uHalf
  rw [hc]; ring

/-- Zone average after the remap of a third-order row which is a parabola around the zone and
monotone there: the parabola, moved by `eps`.  To the right. -/
theorem edges_quad {U : ℤ → ℝ} {j : ℤ} {c : ℝ}
    (h1 : U (j - 2) - 2 * U (j - 1) + U j = c) (h2 : U (j - 1) - 2 * U j + U (j + 1) = c)
    (h3 : U j - 2 * U (j + 1) + U (j + 2) = c)
    (mono : 0 ≤ (U j - U (j - 1)) * (U (j + 1) - U j)) :
    edges U j = (1 / 2 * (U (j - 1) + U j) - c / 6, 1 / 2 * (U j + U (j + 1)) - c / 6) := by
  rw [edges_eq, uHalf_quad h1 h2]
  have e : uHalf U (j + 1) = 1 / 2 * (U j + U (j + 1)) - c / 6 := by
    have := uHalf_quad (U := U) (j := j + 1) (c := c)
      (by rw [show j + 1 - 2 = j - 1 by ring, show j + 1 - 1 = j by ring]; exact h2)
      (by rw [show j + 1 + 1 = j + 2 by ring, show j + 1 - 1 = j by ring]; exact h3)
    rw [show j + 1 - 1 = j by ring] at this
    exact this
  rw [e]
  obtain ⟨p, hp⟩ : ∃ p, U (j + 1) = U j + p := ⟨U (j + 1) - U j, by ring⟩
  have hm : U (j - 1) = U j - (p - c) := by rw [hp] at h2; linarith
  have m : 0 ≤ (p - c) * p := by
    rw [hm, hp] at mono
    have e : (p - c) * p = (U j - (U j - (p - c))) * (U j + p - U j) := by ring
    rw [e]; exact mono
  rw [hm, hp]
  set u := U j
  unfold monotone
  dsimp only
  have qa : (1 / 2 * (u + (u + p)) - c / 6 - u) * (u - (1 / 2 * (u - (p - c) + u) - c / 6)) =
      (p / 2 - c / 6) * (p / 2 - c / 3) := by ring
  have qb : 1 / 2 * (u + (u + p)) - c / 6 - (1 / 2 * (u - (p - c) + u) - c / 6) = p - c / 2 := by ring
  have qc : 6 * (u - 1 / 2 * (1 / 2 * (u - (p - c) + u) - c / 6 + (1 / 2 * (u + (u + p)) - c / 6))) =
      -(c / 2) := by ring
  rw [qa, qb, qc]
  by_cases z : (p / 2 - c / 6) * (p / 2 - c / 3) ≤ 0
  · have h0 : p = 0 ∧ c = 0 := by
      have : (p / 2 - c / 6) * (p / 2 - c / 3) = 1 / 18 * p ^ 2 + 1 / 18 * (p - c) ^ 2 + 5 / 36 * ((p - c) * p) := by
        ring
      rw [this] at z
      have a := sq_nonneg p
      have b := sq_nonneg (p - c)
      have p0 : p ^ 2 = 0 := by linarith
      have c0 : (p - c) ^ 2 = 0 := by linarith
      have p1 : p = 0 := by simpa using p0
      have c1 : p - c = 0 := by simpa using c0
      exact ⟨p1, by linarith⟩
    rw [if_pos z, h0.1, h0.2]
    ext <;> simp <;> ring
  · rw [if_neg z, if_neg (by nlinarith), if_neg (by nlinarith)]

theorem remap3_quad_pos {U : ℤ → ℝ} {a b c : ℝ} (j : ℤ)
    (h : ∀ k : ℤ, -3 ≤ k → k ≤ 2 → U (j + k) = a + b * k + c * (k : ℝ) ^ 2)
    (m1 : 0 ≤ (U (j - 1) - U (j - 2)) * (U j - U (j - 1)))
    (m2 : 0 ≤ (U j - U (j - 1)) * (U (j + 1) - U j)) {eps : ℝ} (he : 0 < eps) :
    remap .third eps U j = a + b * (-eps) + c * (-eps) ^ 2 := by
  have z0 : U j = a := by have := h 0 (by omega) (by omega); simpa using this
  have z1 : U (j - 1) = a - b + c := by have := h (-1) (by omega) (by omega); push_cast at this; rw [← sub_eq_add_neg] at this; rw [this]; ring
  have z2 : U (j - 2) = a - 2 * b + 4 * c := by have := h (-2) (by omega) (by omega); push_cast at this; rw [← sub_eq_add_neg] at this; rw [this]; ring
  have z3 : U (j - 3) = a - 3 * b + 9 * c := by have := h (-3) (by omega) (by omega); push_cast at this; rw [← sub_eq_add_neg] at this; rw [this]; ring
  have y1 : U (j + 1) = a + b + c := by have := h 1 (by omega) (by omega); push_cast at this; rw [this]; ring
  have y2 : U (j + 2) = a + 2 * b + 4 * c := by have := h 2 (by omega) (by omega); push_cast at this; rw [this]; ring
  have e0 := edges_quad (U := U) (j := j) (c := 2 * c) (by rw [z2, z1, z0]; ring)
    (by rw [z1, z0, y1]; ring) (by rw [z0, y1, y2]; ring) m2
  have w1 : j - 1 - 1 = j - 2 := by ring
  have w2 : j - 1 - 2 = j - 3 := by ring
  have w3 : j - 1 + 1 = j := by ring
  have w4 : j - 1 + 2 = j + 1 := by ring
  have e1 := edges_quad (U := U) (j := j - 1) (c := 2 * c)
    (by rw [w1, w2, z3, z2, z1]; ring) (by rw [w1, w3, z2, z1, z0]; ring)
    (by rw [w3, w4, z0, y1, z1]; ring) (by rw [w1, w3]; exact m1)
  unfold remap
  simp only [remapFlux, flux3]
  rw [if_pos he, if_pos he, show j + 1 - 1 = j by ring, e0, e1, w1, w3, z0, z1, z2, y1]
  unfold rightPart
  ring

/-- To the left. -/
theorem remap3_quad_neg {U : ℤ → ℝ} {a b c : ℝ} (j : ℤ)
    (h : ∀ k : ℤ, -2 ≤ k → k ≤ 3 → U (j + k) = a + b * k + c * (k : ℝ) ^ 2)
    (m1 : 0 ≤ (U j - U (j - 1)) * (U (j + 1) - U j))
    (m2 : 0 ≤ (U (j + 1) - U j) * (U (j + 2) - U (j + 1))) {eps : ℝ} (he : ¬0 < eps) :
    remap .third eps U j = a + b * (-eps) + c * (-eps) ^ 2 := by
  have z0 : U j = a := by have := h 0 (by omega) (by omega); simpa using this
  have z1 : U (j - 1) = a - b + c := by have := h (-1) (by omega) (by omega); push_cast at this; rw [← sub_eq_add_neg] at this; rw [this]; ring
  have z2 : U (j - 2) = a - 2 * b + 4 * c := by have := h (-2) (by omega) (by omega); push_cast at this; rw [← sub_eq_add_neg] at this; rw [this]; ring
  have y1 : U (j + 1) = a + b + c := by have := h 1 (by omega) (by omega); push_cast at this; rw [this]; ring
  have y2 : U (j + 2) = a + 2 * b + 4 * c := by have := h 2 (by omega) (by omega); push_cast at this; rw [this]; ring
  have y3 : U (j + 3) = a + 3 * b + 9 * c := by have := h 3 (by omega) (by omega); push_cast at this; rw [this]; ring
  have e0 := edges_quad (U := U) (j := j) (c := 2 * c) (by rw [z2, z1, z0]; ring)
    (by rw [z1, z0, y1]; ring) (by rw [z0, y1, y2]; ring) m1
  have w1 : j + 1 - 1 = j := by ring
  have w2 : j + 1 - 2 = j - 1 := by ring
  have w3 : j + 1 + 1 = j + 2 := by ring
  have w4 : j + 1 + 2 = j + 3 := by ring
  have e1 := edges_quad (U := U) (j := j + 1) (c := 2 * c)
    (by rw [w1, w2, z1, z0, y1]; ring) (by rw [w1, w3, z0, y1, y2]; ring)
    (by rw [w3, w4, y1, y2, y3]; ring) (by rw [w1, w3]; exact m2)
  unfold remap
  simp only [remapFlux, flux3]
  rw [if_neg he, if_neg he, e0, e1, w1, w3, z0, z1, y1, y2]
  unfold leftPart
  ring

/-- Straight rows move exactly, at both orders and in both directions. -/
theorem remap_line (o : Order) {U : ℤ → ℝ} {a b : ℝ} (j : ℤ)
    (h : ∀ k : ℤ, -3 ≤ k → k ≤ 3 → U (j + k) = a + b * k) (eps : ℝ) :
    remap o eps U j = a + b * (-eps) := by
  have z0 : U j = a := by have := h 0 (by omega) (by omega); simpa using this
  have z1 : U (j - 1) = a - b := by have := h (-1) (by omega) (by omega); push_cast at this; rw [← sub_eq_add_neg] at this; rw [this]; ring
  have z2 : U (j - 2) = a - 2 * b := by have := h (-2) (by omega) (by omega); push_cast at this; rw [← sub_eq_add_neg] at this; rw [this]; ring
  have y1 : U (j + 1) = a + b := by have := h 1 (by omega) (by omega); push_cast at this; rw [this]; ring
  have y2 : U (j + 2) = a + 2 * b := by have := h 2 (by omega) (by omega); push_cast at this; rw [this]; ring
  cases o
  · have s0 : slope U j = b := slope_line (by rw [z0, z1]; ring) (by rw [z0, y1]; ring)
    have s1 : slope U (j - 1) = b := slope_line
      (by rw [show j - 1 - 1 = j - 2 by ring, z1, z2]; ring)
      (by rw [show j - 1 + 1 = j by ring, z0, z1]; ring)
    have s2 : slope U (j + 1) = b := slope_line
      (by rw [show j + 1 - 1 = j by ring, z0, y1]; ring)
      (by rw [show j + 1 + 1 = j + 2 by ring, y1, y2]; ring)
    by_cases he : 0 < eps
    · rw [remap2_pos U he, s0, s1, z0, z1]; ring
    · rw [remap2_neg U he, s0, s2, z0, y1]; ring
  · have sq : ∀ x y : ℝ, x = b → y = b → 0 ≤ x * y := by
      intro x y hx hy; rw [hx, hy]; exact mul_self_nonneg b
    by_cases he : 0 < eps
    · have := remap3_quad_pos (U := U) (a := a) (b := b) (c := 0) j
        (fun k k1 k2 => by rw [h k k1 (by omega)]; ring)
        (sq _ _ (by rw [z1, z2]; ring) (by rw [z0, z1]; ring))
        (sq _ _ (by rw [z0, z1]; ring) (by rw [z0, y1]; ring)) he
      rw [this]; ring
    · have := remap3_quad_neg (U := U) (a := a) (b := b) (c := 0) j
        (fun k k1 k2 => by rw [h k (by omega) k2]; ring)
        (sq _ _ (by rw [z0, z1]; ring) (by rw [z0, y1]; ring))
        (sq _ _ (by rw [z0, y1]; ring) (by rw [y1, y2]; ring)) he
      rw [this]; ring

/-! ## What is carried through an interface -/

/-- Integral from the middle of the zone of the parabola whose averages over the zones `k` away from
it are `a + b k + c k^2`. -/
noncomputable def swept (a b c x : ℝ) : ℝ := (a - c / 12) * x + b * x ^ 2 / 2 + c * x ^ 3 / 3

/-- `swept` is what it says: over the zone `k` away it gives the average. -/
theorem swept_average (a b c : ℝ) (k : ℤ) :
    swept a b c (k + 1 / 2) - swept a b c (k - 1 / 2) = a + b * k + c * (k : ℝ) ^ 2 := by
  unfold swept; ring

/-- **The amount carried through an interface at third order** is exactly that of the parabola, where
the row is one and rises or falls: to the right out of zone `j`, -/
theorem amount_quad_pos {U : ℤ → ℝ} {a b c : ℝ} (j : ℤ)
    (h : ∀ k : ℤ, -2 ≤ k → k ≤ 2 → U (j + k) = a + b * k + c * (k : ℝ) ^ 2)
    (m : 0 ≤ (U j - U (j - 1)) * (U (j + 1) - U j)) {eps : ℝ} (he : 0 < eps) :
    remapFlux .third U eps (j + 1) = swept a b c (1 / 2) - swept a b c (1 / 2 - eps) := by
  have z0 : U j = a := by have := h 0 (by omega) (by omega); simpa using this
  have z1 : U (j - 1) = a - b + c := by have := h (-1) (by omega) (by omega); push_cast at this; rw [← sub_eq_add_neg] at this; rw [this]; ring
  have z2 : U (j - 2) = a - 2 * b + 4 * c := by have := h (-2) (by omega) (by omega); push_cast at this; rw [← sub_eq_add_neg] at this; rw [this]; ring
  have y1 : U (j + 1) = a + b + c := by have := h 1 (by omega) (by omega); push_cast at this; rw [this]; ring
  have y2 : U (j + 2) = a + 2 * b + 4 * c := by have := h 2 (by omega) (by omega); push_cast at this; rw [this]; ring
  have e0 := edges_quad (U := U) (j := j) (c := 2 * c) (by rw [z2, z1, z0]; ring)
    (by rw [z1, z0, y1]; ring) (by rw [z0, y1, y2]; ring) m
  simp only [remapFlux, flux3]
  rw [if_pos he, show j + 1 - 1 = j by ring, e0, z0, z1, y1]
  unfold rightPart swept
  ring

/-- and to the left. -/
theorem amount_quad_neg {U : ℤ → ℝ} {a b c : ℝ} (j : ℤ)
    (h : ∀ k : ℤ, -2 ≤ k → k ≤ 2 → U (j + k) = a + b * k + c * (k : ℝ) ^ 2)
    (m : 0 ≤ (U j - U (j - 1)) * (U (j + 1) - U j)) {eps : ℝ} (he : ¬0 < eps) :
    remapFlux .third U eps j = swept a b c (-1 / 2) - swept a b c (-1 / 2 - eps) := by
  have z0 : U j = a := by have := h 0 (by omega) (by omega); simpa using this
  have z1 : U (j - 1) = a - b + c := by have := h (-1) (by omega) (by omega); push_cast at this; rw [← sub_eq_add_neg] at this; rw [this]; ring
  have z2 : U (j - 2) = a - 2 * b + 4 * c := by have := h (-2) (by omega) (by omega); push_cast at this; rw [← sub_eq_add_neg] at this; rw [this]; ring
  have y1 : U (j + 1) = a + b + c := by have := h 1 (by omega) (by omega); push_cast at this; rw [this]; ring
  have y2 : U (j + 2) = a + 2 * b + 4 * c := by have := h 2 (by omega) (by omega); push_cast at this; rw [this]; ring
  have e0 := edges_quad (U := U) (j := j) (c := 2 * c) (by rw [z2, z1, z0]; ring)
    (by rw [z1, z0, y1]; ring) (by rw [z0, y1, y2]; ring) m
  simp only [remapFlux, flux3]
  rw [if_neg he, e0, z0, z1, y1]
  unfold leftPart swept
  ring

/-- A row for the two theorems above: the squares. -/
example : (∀ k : ℤ, -2 ≤ k → k ≤ 2 → ((((3 : ℤ) + k : ℤ)) : ℝ) ^ 2 = 9 + 6 * k + 1 * (k : ℝ) ^ 2) ∧
    (0 : ℝ) ≤ ((((3 : ℤ) : ℤ) : ℝ) ^ 2 - (((3 - 1 : ℤ)) : ℝ) ^ 2) * ((((3 + 1 : ℤ)) : ℝ) ^ 2 - (((3 : ℤ)) : ℝ) ^ 2) := by
  constructor
  · intro k _ _; push_cast; ring
  · norm_num

/-- Constant rows are left alone. -/
theorem remap_const (o : Order) {U : ℤ → ℝ} {a : ℝ} (j : ℤ)
    (h : ∀ k : ℤ, -3 ≤ k → k ≤ 3 → U (j + k) = a) (eps : ℝ) : remap o eps U j = a := by
  rw [remap_line o (a := a) (b := 0) j (fun k k1 k2 => by rw [h k k1 k2]; ring)]
  ring

end Athena.Shear
