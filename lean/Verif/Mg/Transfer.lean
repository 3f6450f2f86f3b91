import Verif.Mg.Props

/-!
# C122: the transfers between the levels of the multigrid solver

In units of the fine zones the coarse zone `k` has its centre at `2k - 1/2`; in units of the coarse zones the fine zone `K` has its centre at `K/2 + 1/4`.
-/

namespace Athena.Mg
open Finset

theorem sum_pairs (n : ℕ) (f : ℤ → ℝ) : ∑ k ∈ Icc (1 : ℤ) n, (f (2 * k) + f (2 * k - 1)) = ∑ k ∈ Icc (1 : ℤ) ((2 * n : ℕ) : ℤ), f k := by
  have top : ∀ (m : ℕ) (h : ℤ → ℝ), ∑ k ∈ Icc (1 : ℤ) ((m + 1 : ℕ) : ℤ), h k = ∑ k ∈ Icc (1 : ℤ) (m : ℤ), h k + h (m + 1) := by
    intro m h
    have : Icc (1 : ℤ) ((m + 1 : ℕ) : ℤ) = insert ((m : ℤ) + 1) (Icc (1 : ℤ) m) := by
      ext x; simp only [mem_Icc, mem_insert]; push_cast; omega
    rw [this, sum_insert (by simp), add_comm]
  induction n with
  | zero => simp
  | succ n ih =>
    rw [top, ih, show 2 * (n + 1) = 2 * n + 1 + 1 by ring, top, top]
    push_cast
    rw [show (2 : ℤ) * (n + 1) = 2 * n + 1 + 1 by ring, show (2 : ℤ) * n + 1 + 1 - 1 = 2 * n + 1 by ring]
    ring

/-- **C122** (part).  Restriction conserves the residual: its sum over the zones, weighted with their volume, is the same on both levels, for even numbers of zones. -/
theorem restrict_conserves (g : MGrid) {n1 n2 n3 : ℕ} (h1 : g.N1 = 2 * n1) (h2 : g.N2 = 2 * n2) (h3 : g.N3 = 2 * n3) :
    ∑ k ∈ Icc (1 : ℤ) (restrict g).N3, ∑ j ∈ Icc (1 : ℤ) (restrict g).N2, ∑ i ∈ Icc (1 : ℤ) (restrict g).N1,
        (restrict g).rhs k j i * ((restrict g).dx1 * (restrict g).dx2 * (restrict g).dx3)
      = ∑ k ∈ Icc (1 : ℤ) g.N3, ∑ j ∈ Icc (1 : ℤ) g.N2, ∑ i ∈ Icc (1 : ℤ) g.N1, residual g k j i * (g.dx1 * g.dx2 * g.dx3) := by
  have e1 : (restrict g).N1 = n1 := by change g.N1 / 2 = n1; omega
  have e2 : (restrict g).N2 = n2 := by change g.N2 / 2 = n2; omega
  have e3 : (restrict g).N3 = n3 := by change g.N3 / 2 = n3; omega
  rw [e1, e2, e3, h1, h2, h3]
  simp only [← sum_pairs]
  simp only [← sum_add_distrib]
  refine sum_congr rfl fun k hk => sum_congr rfl fun j hj => sum_congr rfl fun i hi => ?_
  have hin : Inside (g.N1 / 2) (g.N2 / 2) (g.N3 / 2) k j i := by
    rw [mem_Icc] at hi hj hk
    unfold Inside
    change g.N1 / 2 = n1 at e1
    change g.N2 / 2 = n2 at e2
    change g.N3 / 2 = n3 at e3
    rw [e1, e2, e3]
    exact ⟨hk, hj, hi⟩
  change (if Inside (g.N1 / 2) (g.N2 / 2) (g.N3 / 2) k j i then eight (residual g) k j i else 0) * (2 * g.dx1 * (2 * g.dx2) * (2 * g.dx3)) = _
  rw [if_pos hin]
  unfold eight
  ring

/-- **C122** (part).  Restriction takes a linear potential to its values at the centres of the coarse zones. -/
theorem restrict_linear (g : MGrid) (α β γ δ : ℝ) (h : ∀ k j i, Inside g.N1 g.N2 g.N3 k j i → g.Phi k j i = α + β * k + γ * j + δ * i)
    {k j i : ℤ} (hi : Inside (restrict g).N1 (restrict g).N2 (restrict g).N3 k j i) :
    (restrict g).Phi k j i = α + β * (2 * k - 1 / 2) + γ * (2 * j - 1 / 2) + δ * (2 * i - 1 / 2) := by
  change Inside (g.N1 / 2) (g.N2 / 2) (g.N3 / 2) k j i at hi
  change (if Inside (g.N1 / 2) (g.N2 / 2) (g.N3 / 2) k j i then eight g.Phi k j i else 0) = _
  rw [if_pos hi]
  unfold Inside at h hi
  unfold eight
  rw [h _ _ _ (by omega), h _ _ _ (by omega), h _ _ _ (by omega), h _ _ _ (by omega), h _ _ _ (by omega), h _ _ _ (by omega), h _ _ _ (by omega),
    h _ _ _ (by omega)]
  push_cast
  ring

/-- **C122** (part).  Prolongation adds a linear correction with its values at the centres of the fine zones. -/
theorem prolong_linear (c g : MGrid) (α β γ δ : ℝ) (h1 : g.N1 = 2 * c.N1) (h2 : g.N2 = 2 * c.N2) (h3 : g.N3 = 2 * c.N3)
    (h : ∀ k j i : ℤ, 0 ≤ k → k ≤ c.N3 + 1 → 0 ≤ j → j ≤ c.N2 + 1 → 0 ≤ i → i ≤ c.N1 + 1 → c.Phi k j i = α + β * k + γ * j + δ * i)
    {k j i : ℤ} (hi : Inside g.N1 g.N2 g.N3 k j i) :
    (prolong c g).Phi k j i = g.Phi k j i + (α + β * (k / 2 + 1 / 4) + γ * (j / 2 + 1 / 4) + δ * (i / 2 + 1 / 4)) := by
  unfold Inside at hi
  have hs : ∀ f : ℤ, (3 / 4 * (((f + 1) / 2 : ℤ) : ℝ) + 1 / 4 * (side f : ℝ) = f / 2 + 1 / 4) ∧ (side f = (f + 1) / 2 + 1 ∨ side f = (f + 1) / 2 - 1) := by
    intro f
    unfold side
    rcases Int.even_or_odd' f with ⟨m, rfl | rfl⟩
    · have e1 : (2 * m + 1) / 2 = m := by omega
      have e2 : 2 * m / 2 = m := by omega
      rw [if_pos ⟨m, rfl⟩, e1, e2]
      refine ⟨?_, Or.inl rfl⟩
      push_cast
      ring
    · have e1 : (2 * m + 1 + 1) / 2 = m + 1 := by omega
      rw [if_neg (by omega), e1]
      refine ⟨?_, Or.inr rfl⟩
      push_cast
      ring
  change (if Inside c.N1 c.N2 c.N3 ((k+1)/2) ((j+1)/2) ((i+1)/2) then
        g.Phi k j i + 3/4 * c.Phi ((k+1)/2) ((j+1)/2) ((i+1)/2) + 1/4 * c.Phi (side k) (side j) (side i)
      else g.Phi k j i) = _
  have hin : Inside c.N1 c.N2 c.N3 ((k+1)/2) ((j+1)/2) ((i+1)/2) := by unfold Inside; omega
  rw [if_pos hin]
  obtain ⟨a1, b1⟩ := hs k
  obtain ⟨a2, b2⟩ := hs j
  obtain ⟨a3, b3⟩ := hs i
  rw [h _ _ _ (by omega) (by omega) (by omega) (by omega) (by omega) (by omega), h _ _ _ (by omega) (by omega) (by omega) (by omega) (by omega) (by omega)]
  linear_combination β * a1 + γ * a2 + δ * a3

/-- Eight zones in every direction, a linear potential and no density; the coarse grid the correction comes from is linear too. -/
noncomputable def gLin : MGrid := ⟨8, 8, 8, 1, 1, 1, fun _ _ _ => 0, fun k j i => 1 + 2 * k + 3 * j + 5 * i⟩
noncomputable def cLin : MGrid := ⟨4, 4, 4, 2, 2, 2, fun _ _ _ => 0, fun k j i => 1 + 2 * k + 3 * j + 5 * i⟩

example : gLin.N1 = 2 * 4 ∧ gLin.N2 = 2 * 4 ∧ gLin.N3 = 2 * 4 := ⟨rfl, rfl, rfl⟩

example : (restrict gLin).Phi 2 3 1 = 1 + 2 * (2 * 2 - 1 / 2) + 3 * (2 * 3 - 1 / 2) + 5 * (2 * 1 - 1 / 2) := by
  have := restrict_linear gLin 1 2 3 5 (fun _ _ _ _ => rfl) (k := 2) (j := 3) (i := 1) (by simp [restrict, gLin, Inside])
  simpa using this

example : (prolong cLin gLin).Phi 2 3 1 = gLin.Phi 2 3 1 + (1 + 2 * (2 / 2 + 1 / 4) + 3 * (3 / 2 + 1 / 4) + 5 * (1 / 2 + 1 / 4)) := by
  have := prolong_linear cLin gLin 1 2 3 5 rfl rfl rfl (fun _ _ _ _ _ _ _ _ _ => rfl) (k := 2) (j := 3) (i := 1) (by simp [gLin, Inside])
  simpa using this

end Athena.Mg
