import Verif.Mg.Transfer
import Mathlib.Analysis.Real.Pi.Bounds

/-!
# C123: the boundary values of the multigrid solver
-/

namespace Athena.Mg
open Finset

/-- **C123** (part).  When the solver returns, all ghost zones hold the potential of the total mass of the gas concentrated at the origin of the coordinates, and
`Phi_old` holds the potential from before.  Missing: the mass at its own centre (`boundary_origin_false`). -/
theorem boundary_monopole_partial (G : Grid) {d : ℕ} {P old : A3} (h : selfg d G = some (P, old)) :
    (∀ k j i : ℤ, ¬ Inside G.N1 G.N2 G.N3 k j i → 1 - G.ng ≤ k ∧ k ≤ G.N3 + G.ng → 1 - G.ng ≤ j ∧ j ≤ G.N2 + G.ng → 1 - G.ng ≤ i ∧ i ≤ G.N1 + G.ng →
      P k j i = - (G.G4 / (4 * Real.pi))
          * (∑ k' ∈ Icc (1 : ℤ) G.N3, ∑ j' ∈ Icc (1 : ℤ) G.N2, ∑ i' ∈ Icc (1 : ℤ) G.N1, G.d k' j' i' * (G.dx1 * G.dx2 * G.dx3))
          / Real.sqrt (G.x1 i ^ 2 + G.x2 j ^ 2 + G.x3 k ^ 2))
    ∧ ∀ k j i, old k j i = G.Phi k j i := by
  unfold selfg at h
  obtain ⟨r, hr, e⟩ := Option.map_eq_some_iff.mp h
  obtain ⟨rfl, rfl⟩ := Prod.mk.inj e
  refine ⟨fun k j i hn hk hj hi => ?_, fun _ _ _ => rfl⟩
  dsimp only
  rw [if_neg hn, walls_out G hn hk hj hi]
  unfold wall mass
  rw [pow_two, pow_two, pow_two]

/-- Gas of uniform density in 4 by 4 by 4 cubes of side one, the corner of the Grid at the origin. -/
noncomputable def gCorner : Grid := ⟨4, 4, 4, 1, 1, 1, 1, 4 * Real.pi, fun i => i - 1 / 2, fun j => j - 1 / 2, fun k => k - 1 / 2, fun _ _ _ => 1, fun _ _ _ => 0⟩

/-- The same gas with the origin of the first coordinate elsewhere. -/
noncomputable def gMoved : Grid := { gCorner with x1 := fun i => i - 5 / 2 }

theorem corner_some (G : Grid) (h : G.N1 = 4) : ∃ P old, selfg 1 G = some (P, old) := by
  have : multig 1 (root G) = some (jacobi (root G)) := by
    unfold multig
    exact if_pos (Or.inl h)
  unfold selfg
  rw [this]
  exact ⟨_, _, rfl⟩

theorem mass_corner : mass gCorner = 64 := by
  simp [mass, gCorner]; norm_num

/-- **C123** refuted: the value depends on where the origin of the coordinates is, not on where the gas is.  Moving the gas and the Grid together along the first
coordinate changes the boundary values. -/
theorem boundary_origin_false : ∃ P P' old old', selfg 1 gCorner = some (P, old) ∧ selfg 1 gMoved = some (P', old')
    ∧ (∀ i : ℤ, gMoved.x1 i = gCorner.x1 i - 2) ∧ P 1 1 0 ≠ P' 1 1 0 := by
  obtain ⟨P, old, h⟩ := corner_some gCorner rfl
  obtain ⟨P', old', h'⟩ := corner_some gMoved rfl
  refine ⟨P, P', old, old', h, h', fun i => by simp [gMoved, gCorner]; ring, ?_⟩
  have m : ∑ k' ∈ Icc (1 : ℤ) gCorner.N3, ∑ j' ∈ Icc (1 : ℤ) gCorner.N2, ∑ i' ∈ Icc (1 : ℤ) gCorner.N1,
      gCorner.d k' j' i' * (gCorner.dx1 * gCorner.dx2 * gCorner.dx3) = 64 := mass_corner
  have m' : ∑ k' ∈ Icc (1 : ℤ) gMoved.N3, ∑ j' ∈ Icc (1 : ℤ) gMoved.N2, ∑ i' ∈ Icc (1 : ℤ) gMoved.N1,
      gMoved.d k' j' i' * (gMoved.dx1 * gMoved.dx2 * gMoved.dx3) = 64 := mass_corner
  have b := (boundary_monopole_partial gCorner h).1 1 1 0 (by simp [Inside, gCorner]) (by simp [gCorner]) (by simp [gCorner]) (by simp [gCorner])
  have b' := (boundary_monopole_partial gMoved h').1 1 1 0 (by simp [Inside, gMoved, gCorner]) (by simp [gMoved, gCorner]) (by simp [gMoved, gCorner])
    (by simp [gMoved, gCorner])
  rw [b, b', m, m']
  simp only [gMoved, gCorner]
  have hp : (4 * Real.pi) / (4 * Real.pi) = 1 := div_self (by positivity)
  rw [hp]
  push_cast
  intro he
  have hs : Real.sqrt ((0 - 1 / 2) ^ 2 + (1 - 1 / 2) ^ 2 + (1 - 1 / 2) ^ 2) = Real.sqrt ((0 - 5 / 2) ^ 2 + (1 - 1 / 2) ^ 2 + (1 - 1 / 2) ^ 2) := by
    have p1 : 0 < Real.sqrt ((0 - 1 / 2 : ℝ) ^ 2 + (1 - 1 / 2) ^ 2 + (1 - 1 / 2) ^ 2) := Real.sqrt_pos.mpr (by norm_num)
    have p2 : 0 < Real.sqrt ((0 - 5 / 2 : ℝ) ^ 2 + (1 - 1 / 2) ^ 2 + (1 - 1 / 2) ^ 2) := Real.sqrt_pos.mpr (by norm_num)
    rw [div_eq_div_iff p1.ne' p2.ne'] at he
    linarith
  rw [Real.sqrt_inj (by norm_num) (by norm_num)] at hs
  norm_num at hs

end Athena.Mg
