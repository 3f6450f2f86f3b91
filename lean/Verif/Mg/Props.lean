import Verif.Mg.Jacobi
import Mathlib.Tactic.IntervalCases

/-!
# What a call of the multigrid solver does

* `multigrid_returns_iff`: the recursion ends exactly if one of the three numbers of zones becomes 4 by halving (rounded down);
  `multigrid_returns_false`: for 24 zones in each direction it never does.
* `multigrid_drift`: with positive density, if the potential already solves the difference equation with the values the routine puts into the
  ghost zones, one call changes it, lowering it in every zone, for all sizes that are halved once; `multigrid_keeps_false`.
* `multigrid_smallest_partial`: if one direction has 4 zones, the call keeps a solution and never increases the largest error.
-/

namespace Athena.Mg
open Real

/-! ### The recursion -/

theorem jacobi_same (g : MGrid) : Same (jacobi g) g := sweeps_same 11 g

theorem jacobi_induct {p : MGrid → Prop} (hs : ∀ g, p g → p (sweep g)) {g : MGrid} (h : p g) : p (jacobi g) := sweeps_induct hs 11 h

theorem jacobi_fixed {g : MGrid} (h : sweep g = g) : jacobi g = g := Function.iterate_fixed h 11

theorem jacobi_error (g : MGrid) (h : Cube g) (S : A3) (hS : Solves g.N1 g.N2 g.N3 g.dx1 g.dx2 g.dx3 g.rhs S)
    (hg : SameGhosts g.N1 g.N2 g.N3 g.Phi S) {ε : ℝ} (he : ∀ k j i, |g.Phi k j i - S k j i| ≤ ε) :
    ∀ k j i, |(jacobi g).Phi k j i - S k j i| ≤ ε := by
  unfold jacobi
  exact sweep_error g h S hS hg he 11

attribute [local irreducible] jacobi

/-- Specification: halving `n` again and again, rounding down, reaches 4. -/
def Halves (n : ℕ) : Prop := ∃ m, n / 2 ^ m = 4

theorem multig_some (d : ℕ) (g : MGrid) :
    (∃ r, multig d g = some r) ↔ ∃ m < d, g.N1 / 2 ^ m = 4 ∨ g.N2 / 2 ^ m = 4 ∨ g.N3 / 2 ^ m = 4 := by
  induction d generalizing g with
  | zero => simp [multig]
  | succ d ih =>
    have hs := jacobi_same g
    rw [multig]
    by_cases h : g.N1 = 4 ∨ g.N2 = 4 ∨ g.N3 = 4
    · rw [if_pos h]
      exact ⟨fun _ => ⟨0, Nat.succ_pos d, by simpa only [pow_zero, Nat.div_one] using h⟩, fun _ => ⟨jacobi g, rfl⟩⟩
    · rw [if_neg h]
      have ih' := ih (restrict (jacobi g))
      have e1 : (restrict (jacobi g)).N1 = g.N1 / 2 := by simp only [restrict, hs.N1]
      have e2 : (restrict (jacobi g)).N2 = g.N2 / 2 := by simp only [restrict, hs.N2]
      have e3 : (restrict (jacobi g)).N3 = g.N3 / 2 := by simp only [restrict, hs.N3]
      simp only [e1, e2, e3, Nat.div_div_eq_div_mul, ← pow_succ'] at ih'
      constructor
      · rintro ⟨r, hr⟩
        rw [Option.map_eq_some_iff] at hr
        obtain ⟨c, hc, -⟩ := hr
        obtain ⟨m, hm, e⟩ := ih'.1 ⟨c, hc⟩
        exact ⟨m + 1, by omega, e⟩
      · rintro ⟨m, hm, e⟩
        cases m with
        | zero => exact absurd (by simpa only [pow_zero, Nat.div_one] using e) h
        | succ m =>
          obtain ⟨c, hc⟩ := ih'.2 ⟨m, by omega, e⟩
          exact ⟨jacobi (prolong c (jacobi g)), Option.map_eq_some_iff.2 ⟨c, hc, rfl⟩⟩

/-- **When the multigrid solver returns**: exactly if halving one of the numbers of zones, rounding down, reaches 4. -/
theorem multigrid_returns_iff (G : Grid) : (∃ d r, selfg d G = some r) ↔ Halves G.N1 ∨ Halves G.N2 ∨ Halves G.N3 := by
  have : (∃ d r, selfg d G = some r) ↔ ∃ d r, multig d (root G) = some r := by
    unfold selfg
    constructor
    · rintro ⟨d, r, h⟩
      obtain ⟨q, hq, -⟩ := Option.map_eq_some_iff.1 h
      exact ⟨d, q, hq⟩
    · rintro ⟨d, r, h⟩
      exact ⟨d, _, Option.map_eq_some_iff.2 ⟨r, h, rfl⟩⟩
  rw [this]
  simp only [multig_some]
  change (∃ d, ∃ m < d, G.N1 / 2 ^ m = 4 ∨ G.N2 / 2 ^ m = 4 ∨ G.N3 / 2 ^ m = 4) ↔ _
  unfold Halves
  constructor
  · rintro ⟨d, m, -, h | h | h⟩
    · exact Or.inl ⟨m, h⟩
    · exact Or.inr (Or.inl ⟨m, h⟩)
    · exact Or.inr (Or.inr ⟨m, h⟩)
  · rintro (⟨m, h⟩ | ⟨m, h⟩ | ⟨m, h⟩)
    · exact ⟨m + 1, m, by omega, Or.inl h⟩
    · exact ⟨m + 1, m, by omega, Or.inr (Or.inl h)⟩
    · exact ⟨m + 1, m, by omega, Or.inr (Or.inr h)⟩

theorem halves_iff (n : ℕ) : Halves n ↔ ∃ m, 4 * 2 ^ m ≤ n ∧ n < 5 * 2 ^ m := by
  unfold Halves
  refine exists_congr fun m => ?_
  rw [Nat.div_eq_iff (by positivity)]
  have : 0 < 2 ^ m := by positivity
  omega

/-- Powers of two do. -/
theorem halves_pow (m : ℕ) : Halves (2 ^ (m + 2)) := by
  rw [halves_iff]
  exact ⟨m, by ring_nf; omega, by have : 0 < 2 ^ m := by positivity
                                  ring_nf; omega⟩

theorem halves_24 : ¬ Halves 24 := by
  rw [halves_iff]
  rintro ⟨m, h1, h2⟩
  have : m < 3 := by
    by_contra hm
    have := Nat.pow_le_pow_right (n := 2) (by norm_num) (not_lt.1 hm)
    omega
  interval_cases m <;> omega

/-- The depth at which the recursion ends does not matter for the result. -/
theorem multig_mono {d d' : ℕ} (h : d ≤ d') {g r : MGrid} (hr : multig d g = some r) : multig d' g = some r := by
  induction d generalizing d' g r with
  | zero => simp [multig] at hr
  | succ d ih =>
    obtain ⟨e, rfl⟩ : ∃ e, d' = e + 1 := ⟨d' - 1, by omega⟩
    rw [multig] at hr ⊢
    split_ifs at hr ⊢ with h4
    · exact hr
    · obtain ⟨c, hc, e'⟩ := Option.map_eq_some_iff.1 hr
      exact Option.map_eq_some_iff.2 ⟨c, ih (by omega) hc, e'⟩

/-- The Grid of `N`³ zones and density 1 around the origin, with zero potential. -/
noncomputable def uniform (N : ℕ) : Grid where
  N1 := N
  N2 := N
  N3 := N
  ng := 4
  dx1 := 1
  dx2 := 1
  dx3 := 1
  G4 := 1
  x1 := fun i => i - (N + 1) / 2
  x2 := fun i => i - (N + 1) / 2
  x3 := fun i => i - (N + 1) / 2
  d := fun _ _ _ => 1
  Phi := fun _ _ _ => 0

/-- **The solver does not return for every size**: with 24³ zones no depth of recursion is enough. -/
theorem multigrid_returns_false : ¬ ∃ d r, selfg d (uniform 24) = some r := by
  rw [multigrid_returns_iff]
  simp only [uniform, or_self]
  exact halves_24

/-- With 64³ zones it does. -/
example : ∃ d r, selfg d (uniform 64) = some r := by
  rw [multigrid_returns_iff]
  exact Or.inl (halves_pow 4)

/-! ### The top level -/

/-- A Grid for which the routine makes sense: three-dimensional, at least one ghost zone. -/
structure Fine (G : Grid) : Prop where
  h1 : 1 < G.N1
  h2 : 1 < G.N2
  h3 : 1 < G.N3
  d1 : 0 < G.dx1
  d2 : 0 < G.dx2
  d3 : 0 < G.dx3
  ng : 1 ≤ G.ng

/-- Specification: the potential `S` solves Poisson's equation for the density of the Grid. -/
def Potential (G : Grid) (S : A3) : Prop := Solves G.N1 G.N2 G.N3 G.dx1 G.dx2 G.dx3 (fun k j i => G.G4 * G.d k j i) S

theorem Fine.cube {G : Grid} (h : Fine G) : Cube (root G) := ⟨h.h1, h.h2, h.h3, h.d1.ne', h.d2.ne', h.d3.ne'⟩

theorem walls_in (G : Grid) {k j i : ℤ} (h : Inside G.N1 G.N2 G.N3 k j i) : walls G k j i = G.Phi k j i := by
  unfold Inside at h
  simp only [walls]
  split_ifs <;> first | rfl | (exfalso; unfold Ghost at *; omega)

/-- All ghost zones hold the value of the monopole. -/
theorem walls_out (G : Grid) {k j i : ℤ} (h : ¬ Inside G.N1 G.N2 G.N3 k j i) (hk : 1 - G.ng ≤ k ∧ k ≤ G.N3 + G.ng)
    (hj : 1 - G.ng ≤ j ∧ j ≤ G.N2 + G.ng) (hi : 1 - G.ng ≤ i ∧ i ≤ G.N1 + G.ng) : walls G k j i = wall G k j i := by
  unfold Inside at h
  simp only [walls]
  split_ifs <;> first | rfl | (exfalso; unfold Ghost at *; omega)

theorem root_Phi (G : Grid) {k j i : ℤ} (hk : 0 ≤ k ∧ k ≤ G.N3 + 1) (hj : 0 ≤ j ∧ j ≤ G.N2 + 1) (hi : 0 ≤ i ∧ i ≤ G.N1 + 1) :
    (root G).Phi k j i = walls G k j i := if_pos ⟨hk, hj, hi⟩

theorem root_rhs (G : Grid) {k j i : ℤ} (h : Inside G.N1 G.N2 G.N3 k j i) : (root G).rhs k j i = G.G4 * G.d k j i := by
  unfold Inside at h
  exact if_pos (by omega)

/-- Extend `S` by the values of the `MGrid` outside the active zones. -/
theorem root_solves (G : Grid) (S : A3) (hS : Potential G S) (hw : SameGhosts G.N1 G.N2 G.N3 S (walls G)) :
    Solves (root G).N1 (root G).N2 (root G).N3 (root G).dx1 (root G).dx2 (root G).dx3 (root G).rhs
      (fun k j i => if Inside G.N1 G.N2 G.N3 k j i then S k j i else (root G).Phi k j i) := by
  intro k j i hi
  change Inside G.N1 G.N2 G.N3 k j i at hi
  rw [root_rhs G hi]
  refine Eq.trans ?_ (hS k j i hi)
  have key : ∀ a b c : ℤ, (0 ≤ a ∧ a ≤ G.N3 + 1) → (0 ≤ b ∧ b ≤ G.N2 + 1) → (0 ≤ c ∧ c ≤ G.N1 + 1) →
      (if Inside G.N1 G.N2 G.N3 a b c then S a b c else (root G).Phi a b c) = S a b c := by
    intro a b c ha hb hc
    split_ifs with h
    · rfl
    · rw [root_Phi G ha hb hc, hw a b c h]
  have hi' := hi
  unfold Inside at hi'
  change lap G.dx1 G.dx2 G.dx3 _ k j i = _
  simp only [lap]
  rw [key, key, key, key, key, key, key] <;> omega

/-- The average of numbers that are not positive, one of them negative. -/
theorem avg_neg {a b c x1 x2 y1 y2 z1 z2 : ℝ} (ha : 0 < a) (hb : 0 < b) (hc : 0 < c) (h1 : x1 ≤ 0) (h2 : x2 ≤ 0) (h3 : y1 ≤ 0)
    (h4 : y2 ≤ 0) (h5 : z1 ≤ 0) (h6 : z2 ≤ 0) (hn : x1 + x2 < 0 ∨ y1 + y2 < 0 ∨ z1 + z2 < 0) :
    ((x1 + x2) / a + (y1 + y2) / b + (z1 + z2) / c) / (2 / a + 2 / b + 2 / c) < 0 := by
  have hs : 0 < 2 / a + 2 / b + 2 / c := by positivity
  apply div_neg_of_neg_of_pos _ hs
  have e1 : (x1 + x2) / a ≤ 0 := div_nonpos_of_nonpos_of_nonneg (by linarith) ha.le
  have e2 : (y1 + y2) / b ≤ 0 := div_nonpos_of_nonpos_of_nonneg (by linarith) hb.le
  have e3 : (z1 + z2) / c ≤ 0 := div_nonpos_of_nonpos_of_nonneg (by linarith) hc.le
  rcases hn with h | h | h
  · have := div_neg_of_neg_of_pos h ha; linarith
  · have := div_neg_of_neg_of_pos h hb; linarith
  · have := div_neg_of_neg_of_pos h hc; linarith

theorem avg_nonpos {a b c x1 x2 y1 y2 z1 z2 : ℝ} (ha : 0 < a) (hb : 0 < b) (hc : 0 < c) (h1 : x1 ≤ 0) (h2 : x2 ≤ 0) (h3 : y1 ≤ 0)
    (h4 : y2 ≤ 0) (h5 : z1 ≤ 0) (h6 : z2 ≤ 0) :
    ((x1 + x2) / a + (y1 + y2) / b + (z1 + z2) / c) / (2 / a + 2 / b + 2 / c) ≤ 0 := by
  have hs : 0 < 2 / a + 2 / b + 2 / c := by positivity
  apply div_nonpos_of_nonpos_of_nonneg _ hs.le
  have e1 : (x1 + x2) / a ≤ 0 := div_nonpos_of_nonpos_of_nonneg (by linarith) ha.le
  have e2 : (y1 + y2) / b ≤ 0 := div_nonpos_of_nonpos_of_nonneg (by linarith) hb.le
  have e3 : (z1 + z2) / c ≤ 0 := div_nonpos_of_nonpos_of_nonneg (by linarith) hc.le
  linarith

/-- A potential with positive Laplacian and nowhere positive in the ghost zones is negative. -/
theorem negative_inside (N1 N2 N3 : ℕ) (dx1 dx2 dx3 : ℝ) (f P : A3) (hP : Solves N1 N2 N3 dx1 dx2 dx3 f P)
    (hf : ∀ k j i, Inside N1 N2 N3 k j i → 0 < f k j i)
    (hb : ∀ k j i, ¬ Inside N1 N2 N3 k j i → (0 ≤ k ∧ k ≤ N3 + 1) → (0 ≤ j ∧ j ≤ N2 + 1) → (0 ≤ i ∧ i ≤ N1 + 1) → P k j i ≤ 0) :
    ∀ k j i, Inside N1 N2 N3 k j i → P k j i < 0 := by
  intro k₀ j₀ i₀ h₀
  obtain ⟨⟨k, j, i⟩, hz, hmax⟩ := Finset.exists_max_image (zones N1 N2 N3) (fun z => P z.1 z.2.1 z.2.2) ⟨_, mem_zones.2 h₀⟩
  have hi := mem_zones.1 hz
  refine lt_of_le_of_lt (hmax _ (mem_zones.2 h₀)) ?_
  simp only
  by_contra hneg
  push Not at hneg
  have nb : ∀ a b c : ℤ, (0 ≤ a ∧ a ≤ N3 + 1) → (0 ≤ b ∧ b ≤ N2 + 1) → (0 ≤ c ∧ c ≤ N1 + 1) → P a b c ≤ P k j i := by
    intro a b c ha hb' hc
    by_cases h : Inside N1 N2 N3 a b c
    · exact hmax _ (mem_zones.2 h)
    · exact (hb a b c h ha hb' hc).trans hneg
  have hl := hP k j i hi
  have hpos := hf k j i hi
  unfold Inside at hi
  rw [← hl] at hpos
  unfold lap at hpos
  have e1 : (P k j (i+1) - 2 * P k j i + P k j (i-1)) / dx1 ^ 2 ≤ 0 :=
    div_nonpos_of_nonpos_of_nonneg (by linarith [nb k j (i+1) (by omega) (by omega) (by omega), nb k j (i-1) (by omega) (by omega) (by omega)])
      (sq_nonneg _)
  have e2 : (P k (j+1) i - 2 * P k j i + P k (j-1) i) / dx2 ^ 2 ≤ 0 :=
    div_nonpos_of_nonpos_of_nonneg (by linarith [nb k (j+1) i (by omega) (by omega) (by omega), nb k (j-1) i (by omega) (by omega) (by omega)])
      (sq_nonneg _)
  have e3 : (P (k+1) j i - 2 * P k j i + P (k-1) j i) / dx3 ^ 2 ≤ 0 :=
    div_nonpos_of_nonpos_of_nonneg (by linarith [nb (k+1) j i (by omega) (by omega) (by omega), nb (k-1) j i (by omega) (by omega) (by omega)])
      (sq_nonneg _)
  linarith

/-! ### The coarse level -/

/-- No source, negative in all active zones and zero in the ghost zones, with an active zone next to each active zone. -/
structure Low (c : MGrid) : Prop where
  d1 : c.dx1 ≠ 0
  d2 : c.dx2 ≠ 0
  d3 : c.dx3 ≠ 0
  size : 1 < c.N3 ∨ (c.N3 = 1 ∧ (1 < c.N1 ∨ 1 < c.N2))
  src : ∀ k j i, Inside c.N1 c.N2 c.N3 k j i → c.rhs k j i = 0
  neg : ∀ k j i, Inside c.N1 c.N2 c.N3 k j i → c.Phi k j i < 0
  out : ∀ k j i, ¬ Inside c.N1 c.N2 c.N3 k j i → c.Phi k j i = 0

theorem Low.le {c : MGrid} (h : Low c) (k j i : ℤ) : c.Phi k j i ≤ 0 := by
  by_cases hi : Inside c.N1 c.N2 c.N3 k j i
  · exact (h.neg k j i hi).le
  · exact (h.out k j i hi).le

theorem Low.sweep {c : MGrid} (h : Low c) : Low (sweep c) := by
  refine ⟨by simp [h.d1], by simp [h.d2], by simp [h.d3], by simpa using h.size, ?_, ?_, ?_⟩
  · intro k j i hi
    simp only [sweep_N1, sweep_N2, sweep_N3, sweep_rhs] at hi ⊢
    exact h.src k j i hi
  · intro k j i hi
    simp only [sweep_N1, sweep_N2, sweep_N3] at hi
    have p1 : 0 < c.dx1 ^ 2 := by have := h.d1; positivity
    have p2 : 0 < c.dx2 ^ 2 := by have := h.d2; positivity
    have p3 : 0 < c.dx3 ^ 2 := by have := h.d3; positivity
    rcases h.size with h3 | ⟨h3, h12⟩
    · rw [sweep_in3 c h3 hi]
      simp only [update3, ← pow_two, h.src k j i hi, neg_zero, zero_add]
      refine avg_neg p1 p2 p3 (h.le _ _ _) (h.le _ _ _) (h.le _ _ _) (h.le _ _ _) (h.le _ _ _) (h.le _ _ _) (Or.inr (Or.inr ?_))
      by_cases hk : k + 1 ≤ c.N3
      · have := h.neg (k+1) j i (by unfold Inside at *; omega)
        have := h.le (k-1) j i
        linarith
      · have := h.neg (k-1) j i (by unfold Inside at *; omega)
        have := h.le (k+1) j i
        linarith
    · rw [sweep_in2 c h3 hi]
      simp only [update2, ← pow_two, h.src k j i hi, neg_zero, zero_add]
      have hs : 0 < 2 / c.dx1 ^ 2 + 2 / c.dx2 ^ 2 := by positivity
      apply div_neg_of_neg_of_pos _ hs
      have l1 := h.le k j (i+1); have l2 := h.le k j (i-1); have l3 := h.le k (j+1) i; have l4 := h.le k (j-1) i
      have e1 : (c.Phi k j (i+1) + c.Phi k j (i-1)) / c.dx1 ^ 2 ≤ 0 := div_nonpos_of_nonpos_of_nonneg (by linarith) p1.le
      have e2 : (c.Phi k (j+1) i + c.Phi k (j-1) i) / c.dx2 ^ 2 ≤ 0 := div_nonpos_of_nonpos_of_nonneg (by linarith) p2.le
      rcases h12 with h1 | h2
      · have : c.Phi k j (i+1) + c.Phi k j (i-1) < 0 := by
          by_cases hk : i + 1 ≤ c.N1
          · have := h.neg k j (i+1) (by unfold Inside at *; omega)
            linarith
          · have := h.neg k j (i-1) (by unfold Inside at *; omega)
            linarith
        have := div_neg_of_neg_of_pos this p1
        linarith
      · have : c.Phi k (j+1) i + c.Phi k (j-1) i < 0 := by
          by_cases hk : j + 1 ≤ c.N2
          · have := h.neg k (j+1) i (by unfold Inside at *; omega)
            linarith
          · have := h.neg k (j-1) i (by unfold Inside at *; omega)
            linarith
        have := div_neg_of_neg_of_pos this p2
        linarith
  · intro k j i hi
    simp only [sweep_N1, sweep_N2, sweep_N3] at hi
    rw [sweep_out c hi]
    exact h.out k j i hi

/-- The residual is the part of the equation that is not satisfied. -/
theorem residual_eq (g : MGrid) (k j i : ℤ) : residual g k j i = g.rhs k j i - lap g.dx1 g.dx2 g.dx3 g.Phi k j i := by
  simp only [residual, lap]
  ring

theorem restrict_low (g : MGrid) (h : Cube g) (hS : Solves g.N1 g.N2 g.N3 g.dx1 g.dx2 g.dx3 g.rhs g.Phi)
    (hn : ∀ k j i, Inside g.N1 g.N2 g.N3 k j i → g.Phi k j i < 0) (h4 : g.N1 / 2 = 4 ∨ g.N2 / 2 = 4 ∨ g.N3 / 2 = 4) :
    Low (restrict g) := by
  have h3 := h.h3
  have fine : ∀ {k j i : ℤ}, Inside (g.N1 / 2) (g.N2 / 2) (g.N3 / 2) k j i →
      ∀ a b c : ℤ, (a = 2 * k ∨ a = 2 * k - 1) → (b = 2 * j ∨ b = 2 * j - 1) → (c = 2 * i ∨ c = 2 * i - 1) → Inside g.N1 g.N2 g.N3 a b c := by
    intro k j i hi a b c ha hb hc
    unfold Inside at *
    omega
  refine ⟨mul_ne_zero two_ne_zero h.d1, mul_ne_zero two_ne_zero h.d2, mul_ne_zero two_ne_zero h.d3, ?_, ?_, ?_, ?_⟩
  · simp only [restrict]; omega
  · intro k j i hi
    simp only [restrict] at hi ⊢
    rw [if_pos hi]
    have r0 : ∀ a b c : ℤ, (a = 2 * k ∨ a = 2 * k - 1) → (b = 2 * j ∨ b = 2 * j - 1) → (c = 2 * i ∨ c = 2 * i - 1) → residual g a b c = 0 := by
      intro a b c ha hb hc
      rw [residual_eq, hS a b c (fine hi a b c ha hb hc), sub_self]
    unfold eight
    rw [r0 (2*k) (2*j) (2*i), r0 (2*k) (2*j) (2*i-1), r0 (2*k) (2*j-1) (2*i), r0 (2*k) (2*j-1) (2*i-1), r0 (2*k-1) (2*j) (2*i),
      r0 (2*k-1) (2*j) (2*i-1), r0 (2*k-1) (2*j-1) (2*i), r0 (2*k-1) (2*j-1) (2*i-1)]
    · norm_num
    all_goals omega
  · intro k j i hi
    simp only [restrict] at hi ⊢
    rw [if_pos hi]
    have r0 : ∀ a b c : ℤ, (a = 2 * k ∨ a = 2 * k - 1) → (b = 2 * j ∨ b = 2 * j - 1) → (c = 2 * i ∨ c = 2 * i - 1) → g.Phi a b c < 0 := by
      intro a b c ha hb hc
      exact hn a b c (fine hi a b c ha hb hc)
    unfold eight
    have e1 := r0 (2*k) (2*j) (2*i) (by omega) (by omega) (by omega)
    have e2 := r0 (2*k) (2*j) (2*i-1) (by omega) (by omega) (by omega)
    have e3 := r0 (2*k) (2*j-1) (2*i) (by omega) (by omega) (by omega)
    have e4 := r0 (2*k) (2*j-1) (2*i-1) (by omega) (by omega) (by omega)
    have e5 := r0 (2*k-1) (2*j) (2*i) (by omega) (by omega) (by omega)
    have e6 := r0 (2*k-1) (2*j) (2*i-1) (by omega) (by omega) (by omega)
    have e7 := r0 (2*k-1) (2*j-1) (2*i) (by omega) (by omega) (by omega)
    have e8 := r0 (2*k-1) (2*j-1) (2*i-1) (by omega) (by omega) (by omega)
    linarith
  · intro k j i hi
    simp only [restrict] at hi ⊢
    rw [if_neg hi]

/-! ### The final sweeps -/

/-- The zones that have a coarse zone: all of them if the numbers of zones are even. -/
def Paired (N1 N2 N3 : ℕ) (k j i : ℤ) : Prop :=
  (1 ≤ k ∧ k ≤ 2 * (N3 / 2 : ℕ)) ∧ (1 ≤ j ∧ j ≤ 2 * (N2 / 2 : ℕ)) ∧ (1 ≤ i ∧ i ≤ 2 * (N1 / 2 : ℕ))

theorem paired_inside {N1 N2 N3 : ℕ} {k j i : ℤ} (h : Paired N1 N2 N3 k j i) : Inside N1 N2 N3 k j i := by
  unfold Paired at h
  unfold Inside
  omega

theorem paired_even {N1 N2 N3 : ℕ} (h1 : 2 ∣ N1) (h2 : 2 ∣ N2) (h3 : 2 ∣ N3) {k j i : ℤ} (h : Inside N1 N2 N3 k j i) :
    Paired N1 N2 N3 k j i := by
  unfold Inside at h
  unfold Paired
  omega

/-- Nowhere above the solution `S`, and below it in all paired zones. -/
structure Below (S : A3) (g : MGrid) : Prop where
  cube : Cube g
  sol : Solves g.N1 g.N2 g.N3 g.dx1 g.dx2 g.dx3 g.rhs S
  out : SameGhosts g.N1 g.N2 g.N3 g.Phi S
  le : ∀ k j i, g.Phi k j i ≤ S k j i
  lt : ∀ k j i, Paired g.N1 g.N2 g.N3 k j i → g.Phi k j i < S k j i

theorem Below.sweep {S : A3} {g : MGrid} (h : Below S g) : Below S (sweep g) := by
  have p1 : 0 < g.dx1 ^ 2 := by have := h.cube.d1; positivity
  have p2 : 0 < g.dx2 ^ 2 := by have := h.cube.d2; positivity
  have p3 : 0 < g.dx3 ^ 2 := by have := h.cube.d3; positivity
  have d0 : ∀ k j i, g.Phi k j i - S k j i ≤ 0 := fun k j i => sub_nonpos.2 (h.le k j i)
  refine ⟨h.cube.sweep, by simpa using h.sol, ?_, ?_, ?_⟩
  · intro k j i hi
    simp only [sweep_N1, sweep_N2, sweep_N3] at hi
    rw [sweep_out g hi, h.out k j i hi]
  · intro k j i
    by_cases hi : Inside g.N1 g.N2 g.N3 k j i
    · rw [sweep_in3 g h.cube.h3 hi, ← sub_nonpos, update3_err g h.cube S k j i (h.sol k j i hi)]
      exact avg_nonpos p1 p2 p3 (d0 _ _ _) (d0 _ _ _) (d0 _ _ _) (d0 _ _ _) (d0 _ _ _) (d0 _ _ _)
    · rw [sweep_out g hi]; exact h.le k j i
  · intro k j i hp
    simp only [sweep_N1, sweep_N2, sweep_N3] at hp
    have hi := paired_inside hp
    rw [sweep_in3 g h.cube.h3 hi, ← sub_neg, update3_err g h.cube S k j i (h.sol k j i hi)]
    refine avg_neg p1 p2 p3 (d0 _ _ _) (d0 _ _ _) (d0 _ _ _) (d0 _ _ _) (d0 _ _ _) (d0 _ _ _) (Or.inr (Or.inr ?_))
    by_cases hk : k + 1 ≤ 2 * (g.N3 / 2 : ℕ)
    · have := h.lt (k+1) j i (by unfold Paired at *; omega)
      have := d0 (k-1) j i
      linarith
    · have := h.lt (k-1) j i (by unfold Paired at *; have := h.cube.h3; omega)
      have := d0 (k+1) j i
      linarith

theorem prolong_below {g c : MGrid} (h : Cube g) (hS : Solves g.N1 g.N2 g.N3 g.dx1 g.dx2 g.dx3 g.rhs g.Phi) (hc : Low c)
    (e1 : c.N1 = g.N1 / 2) (e2 : c.N2 = g.N2 / 2) (e3 : c.N3 = g.N3 / 2) : Below g.Phi (prolong c g) := by
  refine ⟨⟨h.h1, h.h2, h.h3, h.d1, h.d2, h.d3⟩, hS, ?_, ?_, ?_⟩
  · intro k j i hi
    simp only [prolong] at hi ⊢
    rw [if_neg]
    unfold Inside at *
    omega
  · intro k j i
    simp only [prolong]
    split_ifs with hp
    · have := hc.neg _ _ _ hp
      have := hc.le (side k) (side j) (side i)
      linarith
    · exact le_rfl
  · intro k j i hp
    simp only [prolong] at hp ⊢
    have hp' : Inside c.N1 c.N2 c.N3 ((k+1)/2) ((j+1)/2) ((i+1)/2) := by
      unfold Paired at hp
      unfold Inside
      rw [e1, e2, e3]
      omega
    rw [if_pos hp']
    have := hc.neg _ _ _ hp'
    have := hc.le (side k) (side j) (side i)
    linarith

/-! ### The theorems -/

theorem mass_nonneg (G : Grid) (h : Fine G) (hd : ∀ k j i, Inside G.N1 G.N2 G.N3 k j i → 0 < G.d k j i) : 0 ≤ mass G := by
  have := h.d1; have := h.d2; have := h.d3
  refine Finset.sum_nonneg fun k hk => Finset.sum_nonneg fun j hj => Finset.sum_nonneg fun i hi => ?_
  rw [Finset.mem_Icc] at hk hj hi
  have := hd k j i ⟨hk, hj, hi⟩
  positivity

theorem wall_nonpos (G : Grid) (h : Fine G) (hG : 0 < G.G4) (hd : ∀ k j i, Inside G.N1 G.N2 G.N3 k j i → 0 < G.d k j i) (k j i : ℤ) :
    wall G k j i ≤ 0 := by
  have hm := mass_nonneg G h hd
  have : 0 ≤ (G.G4 / (4 * π)) * mass G / √(G.x1 i * G.x1 i + G.x2 j * G.x2 j + G.x3 k * G.x3 k) := by
    have := Real.pi_pos
    positivity
  unfold wall
  rw [neg_mul, neg_div]
  linarith

/-- **A call moves the exact potential.**  Positive density; the potential solves the difference form of Poisson's equation, with the values
the routine itself puts into the ghost zones; the numbers of zones are halved once.  Then the call returns a potential that is nowhere higher
and is lower in every zone (in every zone that belongs to a coarse zone, if a number of zones is odd). -/
theorem multigrid_drift (G : Grid) (h : Fine G) (hG : 0 < G.G4) (hd : ∀ k j i, Inside G.N1 G.N2 G.N3 k j i → 0 < G.d k j i)
    (hn4 : ¬ (G.N1 = 4 ∨ G.N2 = 4 ∨ G.N3 = 4)) (h4 : G.N1 / 2 = 4 ∨ G.N2 / 2 = 4 ∨ G.N3 / 2 = 4) (hS : Potential G (walls G)) :
    ∃ P, selfg 2 G = some (P, G.Phi) ∧ (∀ k j i, Inside G.N1 G.N2 G.N3 k j i → P k j i ≤ G.Phi k j i)
      ∧ ∀ k j i, Paired G.N1 G.N2 G.N3 k j i → P k j i < G.Phi k j i := by
  have hc := h.cube
  have hsol : Solves (root G).N1 (root G).N2 (root G).N3 (root G).dx1 (root G).dx2 (root G).dx3 (root G).rhs (root G).Phi := by
    have := root_solves G (walls G) hS (fun _ _ _ _ => rfl)
    have e : (fun k j i => if Inside G.N1 G.N2 G.N3 k j i then walls G k j i else (root G).Phi k j i) = (root G).Phi := by
      funext k j i
      split_ifs with hi
      · unfold Inside at hi
        rw [root_Phi G (by omega) (by omega) (by omega)]
      · rfl
    rw [e] at this
    exact this
  have hfix : jacobi (root G) = root G := jacobi_fixed (sweep_eq_of_fixed _ ((sweep_fixed_iff _ hc).2 hsol))
  have hneg : ∀ k j i, Inside G.N1 G.N2 G.N3 k j i → (root G).Phi k j i < 0 := by
    refine negative_inside G.N1 G.N2 G.N3 G.dx1 G.dx2 G.dx3 (root G).rhs (root G).Phi hsol ?_ ?_
    · intro k j i hi
      rw [root_rhs G hi]
      exact mul_pos hG (hd k j i hi)
    · intro k j i hi hk hj hi'
      have := h.ng
      rw [root_Phi G hk hj hi', walls_out G hi (by omega) (by omega) (by omega)]
      exact wall_nonpos G h hG hd k j i
  have hlow : Low (restrict (root G)) := restrict_low (root G) hc hsol hneg h4
  have hlow' : Low (jacobi (restrict (root G))) := jacobi_induct (p := Low) (fun _ => Low.sweep) hlow
  have hsame := jacobi_same (restrict (root G))
  have hbel : Below (root G).Phi (prolong (jacobi (restrict (root G))) (root G)) :=
    prolong_below hc hsol hlow' hsame.N1 hsame.N2 hsame.N3
  have hfin : Below (root G).Phi (jacobi (prolong (jacobi (restrict (root G))) (root G))) :=
    jacobi_induct (p := Below (root G).Phi) (fun _ => Below.sweep) hbel
  have hrun : multig 2 (root G) = some (jacobi (prolong (jacobi (restrict (root G))) (root G))) := by
    have hn : ¬ ((root G).N1 = 4 ∨ (root G).N2 = 4 ∨ (root G).N3 = 4) := hn4
    have hp : (restrict (root G)).N1 = 4 ∨ (restrict (root G)).N2 = 4 ∨ (restrict (root G)).N3 = 4 := h4
    rw [multig, if_neg hn, hfix, multig, if_pos hp]
    rfl
  have hP : ∀ k j i, Inside G.N1 G.N2 G.N3 k j i → (root G).Phi k j i = G.Phi k j i := by
    intro k j i hi
    have hi' := hi
    unfold Inside at hi'
    rw [root_Phi G (by omega) (by omega) (by omega), walls_in G hi]
  have hN := jacobi_same (prolong (jacobi (restrict (root G))) (root G))
  refine ⟨_, by rw [selfg, hrun]; rfl, ?_, ?_⟩
  · intro k j i hi
    rw [if_pos hi, ← hP k j i hi]
    exact hfin.le k j i
  · intro k j i hp
    have hi := paired_inside hp
    rw [if_pos hi, ← hP k j i hi]
    refine hfin.lt k j i ?_
    rw [hN.N1, hN.N2, hN.N3]
    exact hp

/-- The potential that solves the equation with the ghost zones of the routine can always be put into the Grid. -/
theorem exists_solved (G : Grid) (h : Fine G) : ∃ S, walls { G with Phi := S } = S ∧ Potential G S := by
  obtain ⟨S, hS, hb⟩ := poisson_exists G.N1 G.N2 G.N3 h.h1 h.h2 h.h3 G.dx1 G.dx2 G.dx3 h.d1.ne' h.d2.ne' h.d3.ne'
    (fun k j i => G.G4 * G.d k j i) (wall G)
  refine ⟨S, ?_, hS⟩
  funext k j i
  by_cases hi : Inside G.N1 G.N2 G.N3 k j i
  · exact walls_in { G with Phi := S } hi
  · have : ∀ w : ℝ, w = S k j i → ∀ p q r : Prop, ∀ [Decidable p] [Decidable q] [Decidable r],
        (if p then w else if q then w else if r then w else S k j i) = S k j i := by
      intro w hw p q r _ _ _
      split_ifs <;> first | exact hw | rfl
    exact this (wall { G with Phi := S } k j i) (hb k j i hi).symm _ _ _

theorem uniform_fine (N : ℕ) (h : 1 < N) : Fine (uniform N) :=
  ⟨h, h, h, zero_lt_one, zero_lt_one, zero_lt_one, by simp [uniform]⟩

/-- **The exact potential is not kept**: there is a Grid (8³ zones of density 1) whose potential solves the difference form of Poisson's equation
with the ghost zones of the routine, and a call changes it in every zone. -/
theorem multigrid_keeps_false :
    ¬ ∀ G : Grid, Fine G → 0 < G.G4 → (∀ k j i, Inside G.N1 G.N2 G.N3 k j i → 0 < G.d k j i) → Potential G (walls G) →
      ∀ d P old, selfg d G = some (P, old) → ∃ k j i, Inside G.N1 G.N2 G.N3 k j i ∧ P k j i = G.Phi k j i := by
  intro hall
  obtain ⟨S, hw, hS⟩ := exists_solved (uniform 8) (uniform_fine 8 (by norm_num))
  have hf : Fine { uniform 8 with Phi := S } :=
    ⟨(by decide : 1 < 8), (by decide : 1 < 8), (by decide : 1 < 8), zero_lt_one, zero_lt_one, zero_lt_one, (by decide : 1 ≤ 4)⟩
  have hS' : Potential { uniform 8 with Phi := S } (walls { uniform 8 with Phi := S }) := by rw [hw]; exact hS
  have hd : ∀ k j i, Inside 8 8 8 k j i → 0 < ({ uniform 8 with Phi := S } : Grid).d k j i := fun _ _ _ _ => zero_lt_one
  obtain ⟨P, hP, -, hlt⟩ := multigrid_drift { uniform 8 with Phi := S } hf zero_lt_one hd
    (by change ¬ (8 = 4 ∨ 8 = 4 ∨ 8 = 4); decide) (Or.inl (by change 8 / 2 = 4; decide)) hS'
  obtain ⟨k, j, i, hi, e⟩ := hall _ hf zero_lt_one hd hS' 2 P _ hP
  exact absurd e (hlt k j i (paired_even (by change 2 ∣ 8; decide) (by change 2 ∣ 8; decide) (by change 2 ∣ 8; decide) hi)).ne

/-- **If a direction has 4 zones, the call improves the potential**: a potential within `ε` of the solution stays within `ε` of it; the
solution itself (`ε = 0`) is kept.  What is missing from the full property: Grids in which no direction has 4 zones, for which it is false. -/
theorem multigrid_smallest_partial (G : Grid) (h : Fine G) (h4 : G.N1 = 4 ∨ G.N2 = 4 ∨ G.N3 = 4) (S : A3) (hS : Potential G S)
    (hw : SameGhosts G.N1 G.N2 G.N3 S (walls G)) {ε : ℝ} (he : ∀ k j i, Inside G.N1 G.N2 G.N3 k j i → |G.Phi k j i - S k j i| ≤ ε) (d : ℕ)
    (hd : 1 ≤ d) :
    ∃ P, selfg d G = some (P, G.Phi) ∧ (∀ k j i, Inside G.N1 G.N2 G.N3 k j i → |P k j i - S k j i| ≤ ε)
      ∧ SameGhosts G.N1 G.N2 G.N3 P (walls G) := by
  obtain ⟨e, rfl⟩ : ∃ e, d = e + 1 := ⟨d - 1, by omega⟩
  have hrun : multig (e + 1) (root G) = some (jacobi (root G)) := by
    have hp : (root G).N1 = 4 ∨ (root G).N2 = 4 ∨ (root G).N3 = 4 := h4
    rw [multig, if_pos hp]
  refine ⟨_, by rw [selfg, hrun]; rfl, ?_, fun k j i hi => if_neg hi⟩
  intro k j i hi
  rw [if_pos hi]
  have hsol := root_solves G S hS hw
  have h0 : 0 ≤ ε := (abs_nonneg _).trans (he k j i hi)
  have key := jacobi_error (root G) h.cube _ hsol (fun k j i hh => by
    change ¬ Inside G.N1 G.N2 G.N3 k j i at hh
    simp only [if_neg hh]) (ε := ε) (by
      intro k j i
      split_ifs with hh
      · have hh' := hh
        unfold Inside at hh'
        rw [root_Phi G (by omega) (by omega) (by omega), walls_in G hh]
        exact he k j i hh
      · rw [sub_self, abs_zero]; exact h0) k j i
  simp only [if_pos hi] at key
  exact key

/-- A case for `sweeps_converge`: the top level of 8³ zones, from a zero potential. -/
example : ∃ S, SameGhosts 8 8 8 (root (uniform 8)).Phi S ∧ ∃ K : ℝ, ∀ n k j i, |(sweep^[n] (root (uniform 8))).Phi k j i - S k j i|
    ≤ K * rate (root (uniform 8)) ^ n := by
  obtain ⟨S, hS, hb⟩ := poisson_exists 8 8 8 (by norm_num) (by norm_num) (by norm_num) 1 1 1 one_ne_zero one_ne_zero one_ne_zero
    (root (uniform 8)).rhs (root (uniform 8)).Phi
  have hg : SameGhosts 8 8 8 (root (uniform 8)).Phi S := fun k j i h => (hb k j i h).symm
  exact ⟨S, hg, (sweeps_converge (root (uniform 8)) (uniform_fine 8 (by norm_num)).cube S hS hg).2⟩

/-- A case: 4³ zones. -/
example : ∃ P, selfg 1 (uniform 4) = some (P, (uniform 4).Phi) := by
  obtain ⟨S, hS, hb⟩ := poisson_exists 4 4 4 (by norm_num) (by norm_num) (by norm_num) 1 1 1 one_ne_zero one_ne_zero one_ne_zero
    (fun k j i => (uniform 4).G4 * (uniform 4).d k j i) (walls (uniform 4))
  have hbd : ∃ ε : ℝ, ∀ k j i, Inside 4 4 4 k j i → |(uniform 4).Phi k j i - S k j i| ≤ ε := by
    refine ⟨∑ z ∈ zones 4 4 4, |(uniform 4).Phi z.1 z.2.1 z.2.2 - S z.1 z.2.1 z.2.2|, fun k j i hi => ?_⟩
    exact Finset.single_le_sum (f := fun z : ℤ × ℤ × ℤ => |(uniform 4).Phi z.1 z.2.1 z.2.2 - S z.1 z.2.1 z.2.2|) (fun _ _ => abs_nonneg _)
      (mem_zones.2 hi)
  obtain ⟨ε, he⟩ := hbd
  obtain ⟨P, hP, -⟩ := multigrid_smallest_partial (uniform 4) (uniform_fine 4 (by norm_num)) (Or.inl rfl) S hS hb he 1 le_rfl
  exact ⟨P, hP⟩

end Athena.Mg
