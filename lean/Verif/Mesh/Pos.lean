import Verif.Base
import Mathlib.Data.Real.Archimedean
import Mathlib.Tactic.Linarith
import Mathlib.Tactic.Ring
import Mathlib.Tactic.FieldSimp
import Mathlib.Tactic.NormNum
import Mathlib.Tactic.Positivity

/-!
# src/cc_pos.c: positions of zones and the zone containing a position; C47

Exact reals.  The three coordinates are treated alike, so the model is of one coordinate `d` of the Grid.
-/

namespace Athena.Pos
noncomputable section

/-- The members of `GridS` and `DomainS` used: `MinX[d]`, `dx1|dx2|dx3`, `is|js|ks`, `ie|je|ke`. -/
structure Axis where
  minX : ℝ
  dx : ℝ
  s : ℤ
  e : ℤ

/-- `cc_pos`, src/cc_pos.c:37-44; `x1cc`, `x2cc`, `x3cc`, :97-100, :115-118, :133-136. -/
def ccPos (g : Axis) (i : ℤ) : ℝ := g.minX + (((i - g.s : ℤ) : ℝ) + 1/2) * g.dx

/-- `fc_pos`, src/cc_pos.c:52-59. -/
def fcPos (g : Axis) (i : ℤ) : ℝ := g.minX + ((i - g.s : ℤ) : ℝ) * g.dx

/-- The conversion `(int)x` of C: rounds towards zero; undefined if the result does not fit. -/
def toInt (x : ℝ) : Res ℤ :=
  let t := if 0 ≤ x then ⌊x⌋ else ⌈x⌉
  if -2147483648 ≤ t ∧ t ≤ 2147483647 then .ok t else .ub

/-- `celli`, `cellj`, `cellk`, src/cc_pos.c:88-94, :105-111, :123-129: zone index, index coordinate and
half of the zone.  `dxInv` is the argument `dx1_1`. -/
def cell (g : Axis) (x dxInv : ℝ) : Res (ℤ × ℝ × ℤ) := do
  let a := (x - g.minX) * dxInv + (g.s : ℝ)
  let i ← toInt a
  return (i, a, if a - i < 1/2 then 0 else 1)

/-- The part of `init_grid` that places a Grid in its Domain, src/init_grid.c:84-101, 110-125, 134-149:
`nxs` are the numbers of zones of the Grids before it in this direction. -/
def gridAxis (ng : ℤ) (domMinX dx : ℝ) (nxs : List ℤ) (nx : ℤ) : Axis where
  minX := nxs.foldl (fun (x : ℝ) (n : ℤ) => x + (n : ℝ) * dx) domMinX
  dx := dx
  s := if nx > 1 then ng else 0
  e := if nx > 1 then nx + ng - 1 else 0

/-- `pG->MaxX[d]`, src/init_grid.c:101, 125, 149. -/
def gridMaxX (g : Axis) (nx : ℤ) : ℝ := g.minX + (nx : ℝ) * g.dx

/-! ## Lemmas -/

theorem toInt_floor {x : ℝ} {i : ℤ} (h0 : 0 ≤ i) (hi : i ≤ 2147483647) (h1 : (i : ℝ) ≤ x)
    (h2 : x < i + 1) : toInt x = .ok i := by
  have hx : 0 ≤ x := le_trans (by exact_mod_cast h0) h1
  have : ⌊x⌋ = i := Int.floor_eq_iff.mpr ⟨h1, h2⟩
  unfold toInt
  simp only [hx, if_true, this]
  rw [if_pos ⟨by omega, hi⟩]

theorem foldl_minX (dx x : ℝ) (l : List ℤ) :
    l.foldl (fun (x : ℝ) (n : ℤ) => x + (n : ℝ) * dx) x = x + (l.sum : ℝ) * dx := by
  induction l generalizing x with
  | nil => simp
  | cons n l ih => simp only [List.foldl_cons, ih, List.sum_cons, Int.cast_add]; ring

/-! ## C47 -/

/-- C47: every position between the two faces of a zone with a non-negative index is mapped to that zone
(the lower face belongs to it), and the half returned tells whether it lies below the zone's centre. -/
theorem cell_of_faces (g : Axis) (x : ℝ) (i : ℤ) (hdx : 0 < g.dx) (h0 : 0 ≤ i) (hi : i ≤ 2147483647)
    (h1 : fcPos g i ≤ x) (h2 : x < fcPos g (i + 1)) :
    ∃ a, cell g x (1 / g.dx) = .ok (i, a, if x < ccPos g i then 0 else 1) ∧
      x = g.minX + (a - g.s) * g.dx := by
  unfold fcPos at h1 h2
  push_cast at h1 h2
  set a := (x - g.minX) * (1 / g.dx) + (g.s : ℝ) with ha
  have hx : x = g.minX + (a - g.s) * g.dx := by rw [ha]; field_simp; ring
  have ha1 : (i : ℝ) ≤ a := by
    rw [hx] at h1
    have : ((i : ℝ) - g.s) * g.dx ≤ (a - g.s) * g.dx := by linarith
    have := le_of_mul_le_mul_right this hdx
    linarith
  have ha2 : a < i + 1 := by
    rw [hx] at h2
    have : (a - g.s) * g.dx < ((i : ℝ) + 1 - g.s) * g.dx := by linarith
    have := lt_of_mul_lt_mul_right this hdx.le
    linarith
  refine ⟨a, ?_, hx⟩
  unfold cell
  simp only [← ha]
  rw [toInt_floor h0 hi ha1 ha2]
  simp only [Res.bind_ok, Res.pure_eq_ok]
  congr 3
  apply if_congr _ rfl rfl
  unfold ccPos
  push_cast
  constructor
  · intro h
    have : (a - g.s) * g.dx < ((i : ℝ) - g.s + 1 / 2) * g.dx := by
      apply mul_lt_mul_of_pos_right _ hdx; linarith
    linarith
  · intro h
    rw [hx] at h
    have : (a - g.s) * g.dx < ((i : ℝ) - g.s + 1 / 2) * g.dx := by linarith
    have := lt_of_mul_lt_mul_right this hdx.le
    linarith

/-- C47: the centre of a zone is mapped back to the zone (and reported in its upper half). -/
theorem cell_of_centre (g : Axis) (i : ℤ) (hdx : 0 < g.dx) (h0 : 0 ≤ i) (hi : i ≤ 2147483647) :
    ∃ a, cell g (ccPos g i) (1 / g.dx) = .ok (i, a, 1) := by
  obtain ⟨a, h, -⟩ := cell_of_faces g (ccPos g i) i hdx h0 hi
    (by unfold ccPos fcPos; linarith) (by unfold ccPos fcPos; push_cast; linarith)
  exact ⟨a, by rw [h, if_neg (lt_irrefl _)]⟩

/-- C47: every position in the Grid, from `MinX` up to but excluding `MaxX`, is mapped to the active zone
whose faces enclose it. -/
theorem cell_in_grid (ng : ℤ) (m dx x : ℝ) (nxs : List ℤ) (nx : ℤ) (hdx : 0 < dx) (hng : 0 ≤ ng)
    (hnx : 1 ≤ nx) (hmax : nx + ng ≤ 2147483647)
    (h1 : (gridAxis ng m dx nxs nx).minX ≤ x)
    (h2 : x < gridMaxX (gridAxis ng m dx nxs nx) nx) :
    ∃ i a h, cell (gridAxis ng m dx nxs nx) x (1 / dx) = .ok (i, a, h) ∧
      (gridAxis ng m dx nxs nx).s ≤ i ∧ i ≤ (gridAxis ng m dx nxs nx).e ∧
      fcPos (gridAxis ng m dx nxs nx) i ≤ x ∧ x < fcPos (gridAxis ng m dx nxs nx) (i + 1) := by
  set g := gridAxis ng m dx nxs nx with hg
  have hgdx : g.dx = dx := rfl
  have hs : 0 ≤ g.s := by rw [hg]; unfold gridAxis; dsimp only; split_ifs <;> omega
  have he : g.e = g.s + nx - 1 := by
    rw [hg]; unfold gridAxis; dsimp only; split_ifs <;> omega
  have hs' : g.s + nx ≤ 2147483647 := by
    rw [hg]; unfold gridAxis; dsimp only; split_ifs <;> omega
  set f := ⌊(x - g.minX) / dx⌋ with hf
  have q0 : 0 ≤ (x - g.minX) / dx := div_nonneg (by linarith) hdx.le
  have f0 : 0 ≤ f := Int.floor_nonneg.mpr q0
  have f1 : (f : ℝ) ≤ (x - g.minX) / dx := Int.floor_le _
  have f2 : (x - g.minX) / dx < f + 1 := Int.lt_floor_add_one _
  have q1 : (x - g.minX) / dx < nx := by
    rw [div_lt_iff₀ hdx]; unfold gridMaxX at h2; rw [hgdx] at h2; linarith
  have f3 : f < nx := by exact_mod_cast lt_of_le_of_lt f1 q1
  have k1 : fcPos g (g.s + f) ≤ x := by
    unfold fcPos; rw [le_div_iff₀ hdx] at f1; push_cast; rw [hgdx]; linarith
  have k2 : x < fcPos g (g.s + f + 1) := by
    unfold fcPos; rw [div_lt_iff₀ hdx] at f2; push_cast; rw [hgdx]; linarith
  obtain ⟨a, h, -⟩ := cell_of_faces g x (g.s + f) (by rw [hgdx]; exact hdx) (by omega) (by omega) k1 k2
  exact ⟨g.s + f, a, _, h, by omega, by omega, k1, k2⟩

/-- C47: zone centres lie half way between the faces, faces are `dx` apart, the first active face is at
`MinX` and the face after the last active zone at `MaxX`. -/
theorem faces_and_centres (ng : ℤ) (m dx : ℝ) (nxs : List ℤ) (nx : ℤ) (hnx : 1 ≤ nx) (i : ℤ) :
    ccPos (gridAxis ng m dx nxs nx) i =
      (fcPos (gridAxis ng m dx nxs nx) i + fcPos (gridAxis ng m dx nxs nx) (i + 1)) / 2 ∧
    fcPos (gridAxis ng m dx nxs nx) (i + 1) = fcPos (gridAxis ng m dx nxs nx) i + dx ∧
    fcPos (gridAxis ng m dx nxs nx) (gridAxis ng m dx nxs nx).s = (gridAxis ng m dx nxs nx).minX ∧
    fcPos (gridAxis ng m dx nxs nx) ((gridAxis ng m dx nxs nx).e + 1)
      = gridMaxX (gridAxis ng m dx nxs nx) nx := by
  refine ⟨?_, ?_, ?_, ?_⟩
  · unfold ccPos fcPos; push_cast; ring
  · unfold fcPos; push_cast; show _ + _ * dx = _ + _ * dx + dx; ring
  · unfold fcPos; simp
  · have he : (gridAxis ng m dx nxs nx).e + 1 - (gridAxis ng m dx nxs nx).s = nx := by
      unfold gridAxis; dsimp only; split_ifs <;> omega
    unfold fcPos gridMaxX; rw [he]

/-- C47 across Grids: zone number `q` of the Domain (counted from 0) has the same position on whichever
Grid it is looked up: `MinX + (q + 1/2) dx` of the Domain; so the decomposition does not move zones. -/
theorem position_of_domain_zone (ng : ℤ) (m dx : ℝ) (nxs : List ℤ) (nx q : ℤ) :
    ccPos (gridAxis ng m dx nxs nx) ((gridAxis ng m dx nxs nx).s + (q - nxs.sum))
      = m + ((q : ℝ) + 1/2) * dx ∧
    fcPos (gridAxis ng m dx nxs nx) ((gridAxis ng m dx nxs nx).s + (q - nxs.sum))
      = m + (q : ℝ) * dx := by
  constructor
  · unfold ccPos
    show nxs.foldl (fun (x : ℝ) (n : ℤ) => x + (n : ℝ) * dx) m + _ * dx = _
    rw [foldl_minX]; push_cast; ring
  · unfold fcPos
    show nxs.foldl (fun (x : ℝ) (n : ℤ) => x + (n : ℝ) * dx) m + _ * dx = _
    rw [foldl_minX]; push_cast; ring

/-- Neighbouring Grids share a face: `MaxX` of one is `MinX` of the next. -/
theorem grids_abut (ng : ℤ) (m dx : ℝ) (nxs : List ℤ) (nx nx' : ℤ) :
    gridMaxX (gridAxis ng m dx nxs nx) nx = (gridAxis ng m dx (nxs ++ [nx]) nx').minX := by
  unfold gridMaxX gridAxis; simp

/-- The restriction to non-negative indices is needed: positions below zone 0 (beyond the outermost ghost
zone, or below `MinX` in a direction with one zone) are rounded towards zero, not down, and are
reported to lie in zone 0. -/
theorem cell_negative_false : ∃ (g : Axis) (x : ℝ) (i : ℤ), 0 < g.dx ∧ fcPos g i ≤ x ∧
    x < fcPos g (i + 1) ∧ ∀ a h, cell g x (1 / g.dx) ≠ .ok (i, a, h) := by
  refine ⟨⟨0, 1, 0, 0⟩, -1/2, -1, by norm_num, by norm_num [fcPos], by norm_num [fcPos], ?_⟩
  intro a h
  have hc : ⌈(-1/2 : ℝ)⌉ = 0 := by rw [Int.ceil_eq_iff]; norm_num
  have : toInt ((-1/2 - 0) * (1 / 1) + ((0 : ℤ) : ℝ)) = .ok 0 := by
    have e : ((-1/2 - 0) * (1 / 1) + ((0 : ℤ) : ℝ) : ℝ) = -1/2 := by norm_num
    rw [e]; unfold toInt
    have : ¬ (0 : ℝ) ≤ -1/2 := by norm_num
    simp only [this, if_false, hc]; norm_num
  unfold cell
  simp only [this]
  simp

/-! The hypotheses are met: a second Grid of 8 zones with 4 ghost zones. -/
example : (gridAxis 4 (-1) (1/8) [8] 8).minX ≤ 1/3 ∧ 1/3 < gridMaxX (gridAxis 4 (-1) (1/8) [8] 8) 8 := by
  norm_num [gridAxis, gridMaxX]
example : fcPos (gridAxis 4 (-1) (1/8) [8] 8) 6 ≤ 1/3 ∧ 1/3 < fcPos (gridAxis 4 (-1) (1/8) [8] 8) 7 := by
  norm_num [gridAxis, fcPos]

end
end Athena.Pos
