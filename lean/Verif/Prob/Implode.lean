import Verif.Base
import Mathlib.Data.Real.Basic
import Mathlib.Algebra.Order.Floor.Ring
import Mathlib.Data.Real.Archimedean
import Mathlib.Tactic.FieldSimp
import Mathlib.Tactic.Linarith
import Mathlib.Tactic.NormNum
import Mathlib.Tactic.Ring
import Mathlib.Tactic.Positivity

/-!
# The square implosion: prob/lw_implode.c

The initial state in a zone of a Grid and the expression `diff_d` that shows whether the solution is symmetric.  Simplifications: adiabatic gas, real numbers instead of
floating-point numbers, one zone in x3.
-/

namespace Athena.Implode

/-- `ConsS` without momenta, which are zero. -/
@[ext] structure Zone where
  d : ℝ
  E : ℝ

/-- The input, lw_implode.c:44-48. -/
structure Input where
  γ : ℝ
  d_in : ℝ
  p_in : ℝ
  d_out : ℝ
  p_out : ℝ

/-- The Domain: its level, its displacement in zones of that level, the extent of the root Domain. -/
structure Dom where
  level : ℕ
  disp : ℤ × ℤ
  ly : ℝ

/-- A Grid of it: the first active zones, the numbers of zones, the displacement in zones of its level, the size of a zone, `nghost`. -/
structure Grid where
  is : ℤ
  js : ℤ
  nx : ℤ × ℤ
  disp : ℤ × ℤ
  dx2 : ℝ
  ng : ℤ

/-- `irefine`, lw_implode.c:52-53. -/
def irefine (D : Dom) : ℤ := 2 ^ D.level

/-- `nx2`, lw_implode.c:55-58: conversion to int cuts off. -/
noncomputable def half (D : Dom) (G : Grid) : ℤ := (⌊D.ly / (G.dx2 * (irefine D : ℝ))⌋).tdiv 2

/-- The loop of `problem`, lw_implode.c:61-81, with the test of :40-42. -/
noncomputable def zone (I : Input) (D : Dom) (G : Grid) (j i : ℤ) : Res Zone :=
  if G.nx.1 ≤ 1 ∨ G.nx.2 ≤ 1 then .fatal
  else if (j - G.js + D.disp.2) + (i - G.is + D.disp.1) > half D G * irefine D then .ok ⟨I.d_out, I.p_out / (I.γ - 1)⟩
  else .ok ⟨I.d_in, I.p_in / (I.γ - 1)⟩

/-- `expr_diff_d`, lw_implode.c:127-130; `U` has `nx + 2 ng` zones in each direction. -/
noncomputable def diffD (G : Grid) (d : ℤ → ℤ → ℝ) (j i : ℤ) : Res ℝ :=
  if 0 ≤ i ∧ i < G.nx.2 + 2 * G.ng ∧ 0 ≤ j ∧ j < G.nx.1 + 2 * G.ng then .ok (d j i - d i j) else .ub

/-! ## Specification -/

/-- An active zone. -/
def Grid.Act (G : Grid) (j i : ℤ) : Prop := G.is ≤ i ∧ i < G.is + G.nx.1 ∧ G.js ≤ j ∧ j < G.js + G.nx.2

/-- The index of a zone in the whole mesh at its level. -/
def Grid.glob (G : Grid) (j i : ℤ) : ℤ × ℤ := (i - G.is + G.disp.1, j - G.js + G.disp.2)

/-- The centre of a square zone, measured from the corner of the root Domain. -/
noncomputable def Grid.pos (G : Grid) (j i : ℤ) : ℝ × ℝ := (((G.glob j i).1 + 1 / 2) * G.dx2, ((G.glob j i).2 + 1 / 2) * G.dx2)

/-- Gas at rest with density `d` and pressure `p`. -/
def IsGas (γ d p : ℝ) (z : Zone) : Prop := z.d = d ∧ (γ - 1) * z.E = p

/-- The Grid starts where its Domain does: the Domain has one Grid, or this is the first. -/
def First (D : Dom) (G : Grid) : Prop := G.disp = D.disp

/-- `n` zones of the root Domain in x2, on both directions more than one zone in the Grid, and `nghost` zones ahead of the active ones. -/
def Good (D : Dom) (G : Grid) (n : ℕ) : Prop :=
  1 < G.nx.1 ∧ 1 < G.nx.2 ∧ 0 < G.dx2 ∧ D.ly = n * (G.dx2 * 2 ^ D.level) ∧ G.is = G.ng ∧ G.js = G.ng ∧ 0 < G.ng

/-! ## Theorems -/

theorem half_eq {D : Dom} {G : Grid} {n : ℕ} (h : Good D G n) : half D G = (n : ℤ) / 2 := by
  obtain ⟨_, _, hd, hl, _⟩ := h
  have hp : (0 : ℝ) < G.dx2 * 2 ^ D.level := by positivity
  have e : ((irefine D : ℤ) : ℝ) = 2 ^ D.level := by unfold irefine; push_cast; rfl
  unfold half
  rw [e, hl, mul_div_assoc, div_self hp.ne', mul_one, Int.floor_natCast]
  exact Int.tdiv_eq_ediv_of_nonneg (by omega)

/-- **C148, partly: where the interface is.**  In a Domain that is one Grid, gas with the inner density and pressure fills the zones whose centre has `x1 + x2` up to half
the extent of the root Domain (of the even number of zones) and one zone more; the outer gas fills the others.  Missing: several Grids, `decomposition_false`. -/
theorem interface_partial {I : Input} {D : Dom} {G : Grid} {n : ℕ} (h : Good D G n) (hn : n % 2 = 0) (hf : First D G) (hg : I.γ ≠ 1) (j i : ℤ) :
    ∃ z, zone I D G j i = .ok z ∧
      (if (G.pos j i).1 + (G.pos j i).2 ≤ D.ly / 2 + G.dx2 then IsGas I.γ I.d_in I.p_in z else IsGas I.γ I.d_out I.p_out z) := by
  have hg' : I.γ - 1 ≠ 0 := sub_ne_zero.mpr hg
  have hh := half_eq h
  obtain ⟨h1, h2, hd, hl, _⟩ := h
  obtain ⟨m, rfl⟩ : ∃ m, n = 2 * m := ⟨n / 2, by omega⟩
  have hm : half D G = m := by rw [hh]; omega
  have key : ((G.pos j i).1 + (G.pos j i).2 ≤ D.ly / 2 + G.dx2) ↔ ¬((j - G.js + D.disp.2) + (i - G.is + D.disp.1) > half D G * irefine D) := by
    have e1 : (G.pos j i).1 + (G.pos j i).2 = (((j - G.js + D.disp.2) + (i - G.is + D.disp.1) : ℤ) + 1 : ℝ) * G.dx2 := by
      unfold Grid.pos Grid.glob; rw [hf]; push_cast; ring
    have e2 : D.ly / 2 + G.dx2 = (((half D G * irefine D : ℤ) : ℝ) + 1) * G.dx2 := by
      rw [hl, hm]; unfold irefine; push_cast; ring
    rw [e1, e2, mul_le_mul_iff_left₀ hd, not_lt, add_le_add_iff_right]
    exact Int.cast_le
  unfold zone
  rw [if_neg (by omega)]
  by_cases hc : (j - G.js + D.disp.2) + (i - G.is + D.disp.1) > half D G * irefine D
  · rw [if_pos hc]
    refine ⟨_, rfl, ?_⟩
    rw [if_neg (fun q => (key.mp q) hc)]
    exact ⟨rfl, by field_simp⟩
  · rw [if_neg hc]
    refine ⟨_, rfl, ?_⟩
    rw [if_pos (key.mpr hc)]
    exact ⟨rfl, by field_simp⟩

/-- **C148 (symmetry).**  If the Domain starts on the diagonal, zones that lie symmetric to it in a Grid have the same state. -/
theorem symmetric {I : Input} {D : Dom} {G : Grid} (hs : G.is = G.js) (hd : D.disp.1 = D.disp.2) (j i : ℤ) : zone I D G j i = zone I D G i j := by
  unfold zone
  rw [hs, hd, add_comm (j - G.js + D.disp.2)]

/-- **C148 (`diff_d`).**  In a square Grid `diff_d` is defined in every active zone, and it is zero in all of them exactly if the density is symmetric in the Grid. -/
theorem diff_exact {D : Dom} {G : Grid} {n : ℕ} (h : Good D G n) (hq : G.nx.1 = G.nx.2) (d : ℤ → ℤ → ℝ) :
    (∀ j i, G.Act j i → diffD G d j i = .ok (d j i - d i j)) ∧
      ((∀ j i, G.Act j i → diffD G d j i = .ok 0) ↔ ∀ j i, G.Act j i → d j i = d i j) := by
  obtain ⟨_, _, _, _, h1, h2, h3⟩ := h
  have e : ∀ j i, G.Act j i → diffD G d j i = .ok (d j i - d i j) := by
    intro j i ha
    unfold Grid.Act at ha
    unfold diffD
    rw [if_pos (by omega)]
  refine ⟨e, ?_, ?_⟩
  · intro hz j i ha
    have := hz j i ha
    rw [e j i ha] at this
    exact sub_eq_zero.mp (by injection this)
  · intro hz j i ha
    rw [e j i ha, hz j i ha, sub_self]

/-- A gas of density 1/8 in the corner. -/
noncomputable def I0 : Input := ⟨1.4, 0.125, 0.14, 1, 1⟩
/-- A root Domain of 8 × 8 zones of size 1; one Grid of it; its right half; the left half has zones 0 to 3 in x1. -/
noncomputable def D0 : Dom := ⟨0, (0, 0), 8⟩
@[inherit_doc D0]
noncomputable def G0 : Grid := ⟨4, 4, (8, 8), (0, 0), 1, 4⟩
@[inherit_doc D0]
noncomputable def G1 : Grid := ⟨4, 4, (4, 8), (4, 0), 1, 4⟩
/-- The lower right quarter. -/
noncomputable def G2 : Grid := ⟨4, 4, (4, 4), (4, 0), 1, 4⟩

theorem good0 : Good D0 G0 8 := by simp [Good, D0, G0]
theorem good1 : Good D0 G1 8 := by simp [Good, D0, G1]
theorem good2 : Good D0 G2 8 := by simp [Good, D0, G2]

example : First D0 G0 ∧ (8 : ℕ) % 2 = 0 ∧ I0.γ ≠ 1 ∧ G0.is = G0.js ∧ D0.disp.1 = D0.disp.2 ∧ G0.nx.1 = G0.nx.2 ∧ G0.Act 5 7 := by
  norm_num [First, D0, G0, I0, Grid.Act]

/-- **C148, refuted: several Grids.**  The loop adds the displacement of the Domain, not of the Grid: the same zone of the mesh has outer gas if the Domain is one
Grid, and inner gas if it is split in x1. -/
theorem decomposition_false : ∃ j i j' i', G0.Act j i ∧ G1.Act j' i' ∧ G0.glob j i = G1.glob j' i' ∧
    zone I0 D0 G0 j i = .ok ⟨1, 1 / 0.4⟩ ∧ zone I0 D0 G1 j' i' = .ok ⟨0.125, 0.14 / 0.4⟩ := by
  refine ⟨7, 8, 7, 4, by norm_num [G0, Grid.Act], by norm_num [G1, Grid.Act], by norm_num [G0, G1, Grid.glob], ?_, ?_⟩
  · unfold zone
    rw [half_eq good0]
    norm_num [G0, D0, I0, irefine]
  · unfold zone
    rw [half_eq good1]
    norm_num [G1, D0, I0, irefine]

/-- **C148, refuted: `diff_d` with several Grids.**  In a Grid off the diagonal a symmetric solution has a difference. -/
theorem diff_grid_false : ∃ f : ℤ × ℤ → ℝ, (∀ a b, f (a, b) = f (b, a)) ∧ ∃ j i, G2.Act j i ∧
    diffD G2 (fun j i => f (G2.glob j i)) j i ≠ .ok 0 := by
  refine ⟨fun p => ((p.1 * p.2 : ℤ) : ℝ), fun a b => by simp only; rw [mul_comm], 5, 4, by norm_num [G2, Grid.Act], ?_⟩
  unfold diffD
  rw [if_pos (by norm_num [G2])]
  intro h
  injection h with h
  norm_num [G2, Grid.glob] at h

/-- **C148, refuted: `diff_d` in a Grid that is not square.**  It reads outside the array. -/
theorem diff_shape_false : ∃ (G : Grid) (j i : ℤ), Good D0 G 8 ∧ G.Act j i ∧ ∀ d, diffD G d j i = .ub := by
  refine ⟨⟨4, 4, (4, 8 + 8), (0, 0), 1, 4⟩, 19, 4, by norm_num [Good, D0], by norm_num [Grid.Act], fun d => ?_⟩
  unfold diffD
  rw [if_neg (by norm_num)]

/-- **C148, refuted: refined Domains.**  The interface of a finer Domain is nearer to the corner: a zone of the root Domain has inner gas, and one of the zones of level 1
in it has outer gas. -/
theorem refined_false : ∃ (D : Dom) (G : Grid) (j i j' i' : ℤ), Good D G 8 ∧ D.level = 1 ∧ First D G ∧ (G.glob j' i').1 / 2 = (G0.glob j i).1 ∧
    (G.glob j' i').2 / 2 = (G0.glob j i).2 ∧ zone I0 D0 G0 j i = .ok ⟨0.125, 0.14 / 0.4⟩ ∧ zone I0 D G j' i' = .ok ⟨1, 1 / 0.4⟩ := by
  have hg : Good ⟨1, (0, 0), 8⟩ ⟨4, 4, (16, 16), (0, 0), 1 / 2, 4⟩ 8 := by norm_num [Good]
  refine ⟨⟨1, (0, 0), 8⟩, ⟨4, 4, (16, 16), (0, 0), 1 / 2, 4⟩, 6, 6, 8, 9, hg, rfl, rfl, by norm_num [Grid.glob, G0], by norm_num [Grid.glob, G0], ?_, ?_⟩
  · unfold zone
    rw [half_eq good0]
    norm_num [G0, D0, I0, irefine]
  · unfold zone
    rw [half_eq hg]
    norm_num [I0, irefine]

end Athena.Implode
