import Verif.Grav.Model
import Mathlib.Algebra.BigOperators.Field

/-!
# The solvers solve the discrete Poisson equation
-/

namespace Athena.Grav
open Finset Athena.Vl3 Athena.Gen

section Fft
variable (q : Par) {N1 N2 N3 : ℕ}

theorem gridCoef3_eq (N1 N2 N3 : ℕ) (T : Tile) (W : ℕ → ℕ → ℕ → ℂ) (i j k : ℕ) :
    gridCoef3 q N1 N2 N3 T W i j k = if i + T.D1 = 0 ∧ j + T.D2 = 0 ∧ k + T.D3 = 0 then 0 else
      (pcoeff3 q N1 N2 N3 (i + T.D1) (j + T.D2) (k + T.D3) : ℂ) * W i j k := by
  unfold gridCoef3
  dsimp only
  by_cases hi : i = 0
  · subst hi
    by_cases hj : j = 0
    · subst hj
      by_cases hk : k = 0
      · subst hk
        by_cases h : T.D3 = 0 ∧ T.D2 = 0 ∧ T.D1 = 0
        · obtain ⟨h3, h2, h1⟩ := h
          simp [h1, h2, h3]
        · have h' : ¬(T.D1 = 0 ∧ T.D2 = 0 ∧ T.D3 = 0) := fun ⟨a, b, c⟩ => h ⟨c, b, a⟩
          simp [h, h']
      · have : 1 ≤ k := by omega
        simp [hk, this]
    · have : 1 ≤ j := by omega
      simp [hj, this]
  · have : 1 ≤ i := by omega
    simp [hi, this]

theorem gridCoef2_eq (N1 N2 : ℕ) (T : Tile) (W : ℕ → ℕ → ℂ) (i j : ℕ) :
    gridCoef2 q N1 N2 T W i j = if i + T.D1 = 0 ∧ j + T.D2 = 0 then 0 else
      (pcoeff2 q N1 N2 (i + T.D1) (j + T.D2) : ℂ) * W i j := by
  unfold gridCoef2
  dsimp only
  by_cases hi : i = 0
  · subst hi
    by_cases hj : j = 0
    · subst hj
      by_cases h : T.D2 = 0 ∧ T.D1 = 0
      · obtain ⟨h2, h1⟩ := h
        simp [h1, h2]
      · have h' : ¬(T.D1 = 0 ∧ T.D2 = 0) := fun ⟨a, b⟩ => h ⟨b, a⟩
        simp [h, h']
    · have : 1 ≤ j := by omega
      simp [hj, this]
  · have : 1 ≤ i := by omega
    simp [hi, this]

/-- Every zone lies in the Grid that is said to hold it. -/
def Tiles (tile : ℕ → ℕ → ℕ → Tile) : Prop := ∀ a b c, (tile a b c).D1 ≤ a ∧ (tile a b c).D2 ≤ b ∧ (tile a b c).D3 ≤ c

theorem domCoef3_eq {tile : ℕ → ℕ → ℕ → Tile} (ht : Tiles tile) (W : ℕ → ℕ → ℕ → ℂ) (a b c : ℕ) :
    domCoef3 q N1 N2 N3 tile W a b c = if a = 0 ∧ b = 0 ∧ c = 0 then 0 else (pcoeff3 q N1 N2 N3 a b c : ℂ) * W a b c := by
  obtain ⟨h1, h2, h3⟩ := ht a b c
  unfold domCoef3
  simp only [gridCoef3_eq, Nat.sub_add_cancel h1, Nat.sub_add_cancel h2, Nat.sub_add_cancel h3]

theorem domCoef2_eq {tile : ℕ → ℕ → Tile} (ht : ∀ a b, (tile a b).D1 ≤ a ∧ (tile a b).D2 ≤ b) (W : ℕ → ℕ → ℂ) (a b : ℕ) :
    domCoef2 q N1 N2 tile W a b = if a = 0 ∧ b = 0 then 0 else (pcoeff2 q N1 N2 a b : ℂ) * W a b := by
  obtain ⟨h1, h2⟩ := ht a b
  unfold domCoef2
  simp only [gridCoef2_eq, Nat.sub_add_cancel h1, Nat.sub_add_cancel h2]

/-- Eigenvalue of the discrete Laplacian. -/
noncomputable def lam (N1 N2 N3 a b c : ℕ) : ℝ :=
  (2 * Real.cos (2 * Real.pi * (a / N1)) - 2) / (q.dx1 * q.dx1) + (2 * Real.cos (2 * Real.pi * (b / N2)) - 2) / (q.dx2 * q.dx2)
    + (2 * Real.cos (2 * Real.pi * (c / N3)) - 2) / (q.dx3 * q.dx3)

theorem pcoeff3_lam (a b c : ℕ) : pcoeff3 q N1 N2 N3 a b c = 1 / lam q N1 N2 N3 a b c := by
  unfold pcoeff3 lam
  congr 6 <;> ring

theorem pcoeff2_lam (a b : ℕ) : pcoeff2 q N1 N2 a b = 1 / lam q N1 N2 1 a b 0 := by
  unfold pcoeff2 lam
  simp only [Nat.cast_zero, zero_div, mul_zero, Real.cos_zero]
  congr 1
  norm_num
  congr 5 <;> ring

theorem cos_le (a N : ℕ) : 2 * Real.cos (2 * Real.pi * (a / N)) - 2 ≤ 0 := by
  have := Real.cos_le_one (2 * Real.pi * (a / N))
  linarith

theorem cos_lt {a N : ℕ} (h0 : a ≠ 0) (h : a < N) : 2 * Real.cos (2 * Real.pi * (a / N)) - 2 < 0 := by
  have hN : (0 : ℝ) < N := by exact_mod_cast (by omega : 0 < N)
  have ha : (0 : ℝ) < a := by exact_mod_cast Nat.pos_of_ne_zero h0
  have h1 : (a : ℝ) / N < 1 := by rw [div_lt_one hN]; exact_mod_cast h
  have h2 : 0 < (a : ℝ) / N := by positivity
  have hp := Real.pi_pos
  have hne : Real.cos (2 * Real.pi * (a / N)) ≠ 1 := by
    intro hc
    have := (Real.cos_eq_one_iff_of_lt_of_lt (by nlinarith) (by nlinarith)).mp hc
    have : 0 < 2 * Real.pi * ((a : ℝ) / N) := by positivity
    linarith
  have := lt_of_le_of_ne (Real.cos_le_one (2 * Real.pi * (a / N))) hne
  linarith

/-- The zone sizes are positive, and so is `four_pi_G`. -/
structure Par.Ok : Prop where
  dx1 : 0 < q.dx1
  dx2 : 0 < q.dx2
  dx3 : 0 < q.dx3
  G4 : 0 < q.G4

variable {q}

theorem lam_ne (h : q.Ok) {a b c : ℕ} (ha : a < N1) (hb : b < N2) (hc : c < N3) (hn : ¬(a = 0 ∧ b = 0 ∧ c = 0)) : lam q N1 N2 N3 a b c ≠ 0 := by
  obtain ⟨d1, d2, d3, -⟩ := h
  have p1 : 0 < q.dx1 * q.dx1 := by positivity
  have p2 : 0 < q.dx2 * q.dx2 := by positivity
  have p3 : 0 < q.dx3 * q.dx3 := by positivity
  have t1 := div_nonpos_of_nonpos_of_nonneg (cos_le a N1) p1.le
  have t2 := div_nonpos_of_nonpos_of_nonneg (cos_le b N2) p2.le
  have t3 := div_nonpos_of_nonpos_of_nonneg (cos_le c N3) p3.le
  apply ne_of_lt
  unfold lam
  by_cases h1 : a = 0
  · by_cases h2 : b = 0
    · have h3 : c ≠ 0 := fun h3 => hn ⟨h1, h2, h3⟩
      have := div_neg_of_neg_of_pos (cos_lt h3 hc) p3
      linarith
    · have := div_neg_of_neg_of_pos (cos_lt h2 hb) p2
      linarith
  · have := div_neg_of_neg_of_pos (cos_lt h1 ha) p1
    linarith

variable (q)

/-- The source whose transform is taken. -/
noncomputable def src (d : ℕ → ℕ → ℕ → ℝ) : ℕ → ℕ → ℕ → ℂ := fun i j k => ((d i j k - q.rho0 : ℝ) : ℂ)

/-- The transformed potential. -/
noncomputable def coefY (N1 N2 N3 : ℕ) (d : ℕ → ℕ → ℕ → ℝ) (a b c : ℕ) : ℂ :=
  if a = 0 ∧ b = 0 ∧ c = 0 then 0 else (pcoeff3 q N1 N2 N3 a b c : ℂ) * dft3 (-1) N1 N2 N3 (src q d) a b c

/-- The potential as a function on all triples of integers. -/
noncomputable def Psi (N1 N2 N3 : ℕ) (d : ℕ → ℕ → ℕ → ℝ) (i j k : ℤ) : ℝ :=
  q.G4 * (syn N1 N2 N3 (coefY q N1 N2 N3 d) i j k).re / (N1 * N2 * N3)

theorem potential3_eq {tile : ℕ → ℕ → ℕ → Tile} (ht : Tiles tile) (d : ℕ → ℕ → ℕ → ℝ) (i j k : ℕ) :
    potential3 q N1 N2 N3 tile d i j k = Psi q N1 N2 N3 d i j k := by
  unfold potential3 Psi
  have : domCoef3 q N1 N2 N3 tile (dft3 (-1) N1 N2 N3 (fun i j k => ((d i j k - q.rho0 : ℝ) : ℂ))) = coefY q N1 N2 N3 d := by
    funext a b c
    rw [domCoef3_eq q ht]
    rfl
  rw [this, dft3_back]
  congr 1
  push_cast
  ring

theorem potential2_eq {tile : ℕ → ℕ → Tile} (ht : ∀ a b, (tile a b).D1 ≤ a ∧ (tile a b).D2 ≤ b) (d : ℕ → ℕ → ℝ) (i j : ℕ) :
    potential2 q N1 N2 tile d i j = Psi q N1 N2 1 (fun i j _ => d i j) i j 0 := by
  unfold potential2 Psi
  rw [dft2_eq, dft3_back]
  have hd : ∀ a b, dft2 (-1) N1 N2 (fun i j => ((q.G4 * (d i j - q.rho0) : ℝ) : ℂ)) a b
      = (q.G4 : ℂ) * dft3 (-1) N1 N2 1 (src q (fun i j _ => d i j)) a b 0 := by
    intro a b
    rw [dft2_eq]
    unfold dft3 src
    simp only [mul_sum]
    refine sum_congr rfl fun i _ => sum_congr rfl fun j _ => sum_congr rfl fun k _ => ?_
    push_cast
    ring
  have hs : syn N1 N2 1 (fun a b _ => domCoef2 q N1 N2 tile (dft2 (-1) N1 N2 (fun i j => ((q.G4 * (d i j - q.rho0) : ℝ) : ℂ))) a b) i j 0
      = (q.G4 : ℂ) * syn N1 N2 1 (coefY q N1 N2 1 (fun i j _ => d i j)) i j 0 := by
    unfold syn
    simp only [mul_sum]
    refine sum_congr rfl fun a _ => sum_congr rfl fun b _ => sum_congr rfl fun c hc => ?_
    have c0 : c = 0 := by simpa using hc
    subst c0
    rw [domCoef2_eq q ht, hd]
    unfold coefY
    by_cases h : a = 0 ∧ b = 0
    · simp [h.1, h.2]
    · have h' : ¬(a = 0 ∧ b = 0 ∧ (0 : ℕ) = 0) := fun h2 => h ⟨h2.1, h2.2.1⟩
      rw [if_neg h, if_neg h', pcoeff2_lam, pcoeff3_lam]
      ring
  rw [show ((0 : ℕ) : ℤ) = 0 from rfl, hs, Complex.re_ofReal_mul]
  push_cast
  ring

theorem Psi_per1 (h : 0 < N1) (d : ℕ → ℕ → ℕ → ℝ) (i j k : ℤ) : Psi q N1 N2 N3 d (i + N1) j k = Psi q N1 N2 N3 d i j k := by
  unfold Psi syn; simp only [ch_per1 h]

theorem Psi_per2 (h : 0 < N2) (d : ℕ → ℕ → ℕ → ℝ) (i j k : ℤ) : Psi q N1 N2 N3 d i (j + N2) k = Psi q N1 N2 N3 d i j k := by
  unfold Psi syn; simp only [ch_per2 h]

theorem Psi_per3 (h : 0 < N3) (d : ℕ → ℕ → ℕ → ℝ) (i j k : ℤ) : Psi q N1 N2 N3 d i j (k + N3) = Psi q N1 N2 N3 d i j k := by
  unfold Psi syn; simp only [ch_per3 h]

/-- The discrete Laplacian of a sum of characters. -/
theorem lap_syn (y : ℕ → ℕ → ℕ → ℂ) (i j k : ℤ) :
    (syn N1 N2 N3 y (i-1) j k - 2 * syn N1 N2 N3 y i j k + syn N1 N2 N3 y (i+1) j k) / (q.dx1 * q.dx1 : ℝ)
    + (syn N1 N2 N3 y i (j-1) k - 2 * syn N1 N2 N3 y i j k + syn N1 N2 N3 y i (j+1) k) / (q.dx2 * q.dx2 : ℝ)
    + (syn N1 N2 N3 y i j (k-1) - 2 * syn N1 N2 N3 y i j k + syn N1 N2 N3 y i j (k+1)) / (q.dx3 * q.dx3 : ℝ)
    = syn N1 N2 N3 (fun a b c => (lam q N1 N2 N3 a b c : ℂ) * y a b c) i j k := by
  unfold syn
  simp only [mul_sum, ← sum_sub_distrib, ← sum_add_distrib, sum_div]
  refine sum_congr rfl fun a _ => sum_congr rfl fun b _ => sum_congr rfl fun c _ => ?_
  have e1 := ch_near1 N1 N2 N3 a b c i j k
  have e2 := ch_near2 N1 N2 N3 a b c i j k
  have e3 := ch_near3 N1 N2 N3 a b c i j k
  unfold lam
  push_cast at e1 e2 e3 ⊢
  linear_combination (y a b c / (q.dx1 * q.dx1)) * e1 + (y a b c / (q.dx2 * q.dx2)) * e2 + (y a b c / (q.dx3 * q.dx3)) * e3

theorem syn_single (y : ℕ → ℕ → ℕ → ℂ) (h1 : 0 < N1) (h2 : 0 < N2) (h3 : 0 < N3) (hy : ∀ a b c, ¬(a = 0 ∧ b = 0 ∧ c = 0) → y a b c = 0)
    (i j k : ℤ) : syn N1 N2 N3 y i j k = y 0 0 0 := by
  unfold syn
  rw [sum_eq_single 0, sum_eq_single 0, sum_eq_single 0]
  · simp [ch, ex_zero]
  · intro c _ hc; rw [hy _ _ _ (fun h => hc h.2.2), zero_mul]
  · intro h; exact absurd (mem_range.mpr h3) h
  · intro b _ hb
    refine sum_eq_zero fun c _ => ?_
    rw [hy _ _ _ (fun h => hb h.2.1), zero_mul]
  · intro h; exact absurd (mem_range.mpr h2) h
  · intro a _ ha
    refine sum_eq_zero fun b _ => sum_eq_zero fun c _ => ?_
    rw [hy _ _ _ (fun h => ha h.1), zero_mul]
  · intro h; exact absurd (mem_range.mpr h1) h

/-- Mean over the box. -/
noncomputable def mean (N1 N2 N3 : ℕ) (d : ℕ → ℕ → ℕ → ℝ) : ℝ :=
  (∑ i ∈ range N1, ∑ j ∈ range N2, ∑ k ∈ range N3, d i j k) / (N1 * N2 * N3)

variable {q}

theorem Psi_poisson (h : q.Ok) (h1 : 0 < N1) (h2 : 0 < N2) (h3 : 0 < N3) (d : ℕ → ℕ → ℕ → ℝ) {i j k : ℕ} (hi : i < N1) (hj : j < N2)
    (hk : k < N3) :
    (Psi q N1 N2 N3 d (i-1) j k - 2 * Psi q N1 N2 N3 d i j k + Psi q N1 N2 N3 d (i+1) j k) / (q.dx1 * q.dx1)
    + (Psi q N1 N2 N3 d i (j-1) k - 2 * Psi q N1 N2 N3 d i j k + Psi q N1 N2 N3 d i (j+1) k) / (q.dx2 * q.dx2)
    + (Psi q N1 N2 N3 d i j (k-1) - 2 * Psi q N1 N2 N3 d i j k + Psi q N1 N2 N3 d i j (k+1)) / (q.dx3 * q.dx3)
    = q.G4 * (d i j k - mean N1 N2 N3 d) := by
  have p1 : (0 : ℝ) < N1 := by exact_mod_cast h1
  have p2 : (0 : ℝ) < N2 := by exact_mod_cast h2
  have p3 : (0 : ℝ) < N3 := by exact_mod_cast h3
  have hl := lap_syn q (N1 := N1) (N2 := N2) (N3 := N3) (coefY q N1 N2 N3 d) i j k
  set R := dft3 (-1) N1 N2 N3 (src q d) with hR
  have hY : syn N1 N2 N3 (fun a b c => (lam q N1 N2 N3 a b c : ℂ) * coefY q N1 N2 N3 d a b c) i j k
      = syn N1 N2 N3 R i j k - R 0 0 0 := by
    have hz : syn N1 N2 N3 (fun a b c => if a = 0 ∧ b = 0 ∧ c = 0 then R 0 0 0 else 0) i j k = R 0 0 0 := by
      rw [syn_single _ h1 h2 h3 (fun a b c hn => if_neg hn) i j k]
      simp
    rw [← hz]
    unfold syn
    simp only [← sum_sub_distrib]
    refine sum_congr rfl fun a ha => sum_congr rfl fun b hb => sum_congr rfl fun c hc => ?_
    unfold coefY
    by_cases hn : a = 0 ∧ b = 0 ∧ c = 0
    · obtain ⟨rfl, rfl, rfl⟩ := hn
      simp
    · rw [if_neg hn, if_neg hn, pcoeff3_lam]
      have := lam_ne h (mem_range.mp ha) (mem_range.mp hb) (mem_range.mp hc) hn
      have hc' : ((lam q N1 N2 N3 a b c : ℝ) : ℂ) ≠ 0 := by exact_mod_cast this
      push_cast
      field_simp
      ring
  have hinv := inversion h1 h2 h3 (src q d) hi hj hk
  rw [hY, hinv] at hl
  have h0 : R 0 0 0 = ∑ i ∈ range N1, ∑ j ∈ range N2, ∑ k ∈ range N3, ((d i j k - q.rho0 : ℝ) : ℂ) := by
    rw [hR]; unfold dft3 src; simp [ex_zero]
  have hre := congrArg Complex.re hl
  have hs : ∑ i ∈ range N1, ∑ j ∈ range N2, ∑ k ∈ range N3, (d i j k - q.rho0)
      = N1 * N2 * N3 * mean N1 N2 N3 d - N1 * N2 * N3 * q.rho0 := by
    simp only [sum_sub_distrib, sum_const, card_range, nsmul_eq_mul]
    unfold mean
    field_simp
  rw [h0] at hre
  have hre0 : (∑ i ∈ range N1, ∑ j ∈ range N2, ∑ k ∈ range N3, ((d i j k - q.rho0 : ℝ) : ℂ)).re
      = N1 * N2 * N3 * mean N1 N2 N3 d - N1 * N2 * N3 * q.rho0 := by
    rw [← hs]
    simp only [Complex.re_sum, Complex.ofReal_re]
  rw [Complex.sub_re, hre0] at hre
  have hx : ((N1 : ℂ) * N2 * N3 * src q d i j k).re = N1 * N2 * N3 * (d i j k - q.rho0) := by
    unfold src
    rw [show ((N1 : ℂ) * N2 * N3 * ((d i j k - q.rho0 : ℝ) : ℂ)) = ((N1 * N2 * N3 * (d i j k - q.rho0) : ℝ) : ℂ) by push_cast; ring]
    exact Complex.ofReal_re _
  rw [hx] at hre
  simp only [Complex.add_re, Complex.sub_re, Complex.div_ofReal_re] at hre
  have m2 : ∀ z : ℂ, (2 * z).re = 2 * z.re := by intro z; simp
  simp only [m2] at hre
  unfold Psi
  have hN : (N1 * N2 * N3 : ℝ) ≠ 0 := by positivity
  set a1 := (syn N1 N2 N3 (coefY q N1 N2 N3 d) (i-1) j k).re
  set a2 := (syn N1 N2 N3 (coefY q N1 N2 N3 d) (i+1) j k).re
  set b1 := (syn N1 N2 N3 (coefY q N1 N2 N3 d) i (j-1) k).re
  set b2 := (syn N1 N2 N3 (coefY q N1 N2 N3 d) i (j+1) k).re
  set c1 := (syn N1 N2 N3 (coefY q N1 N2 N3 d) i j (k-1)).re
  set c2 := (syn N1 N2 N3 (coefY q N1 N2 N3 d) i j (k+1)).re
  set z := (syn N1 N2 N3 (coefY q N1 N2 N3 d) i j k).re
  have e : q.G4 * (d i j k - mean N1 N2 N3 d)
      = q.G4 / (N1 * N2 * N3) * (N1 * N2 * N3 * (d i j k - q.rho0) - (N1 * N2 * N3 * mean N1 N2 N3 d - N1 * N2 * N3 * q.rho0)) := by
    field_simp
    ring
  rw [e, ← hre]
  ring

theorem sum_ch_zones (h1 : 0 < N1) (h2 : 0 < N2) (h3 : 0 < N3) {a b c : ℕ} (ha : a < N1) (hb : b < N2) (hc : c < N3)
    (hn : ¬(a = 0 ∧ b = 0 ∧ c = 0)) :
    ∑ i ∈ range N1, ∑ j ∈ range N2, ∑ k ∈ range N3, ch N1 N2 N3 a b c i j k = 0 := by
  have := sum_ch (N1 := N1) (N2 := N2) (N3 := N3) h1 h2 h3 (i := a) (j := b) (k := c) (i' := 0) (j' := 0) (k' := 0) ha hb hc h1 h2 h3
  rw [if_neg hn] at this
  rw [← this]
  refine sum_congr rfl fun i _ => sum_congr rfl fun j _ => sum_congr rfl fun k _ => ?_
  unfold ch
  congr 1
  push_cast
  ring

theorem Psi_mean (h1 : 0 < N1) (h2 : 0 < N2) (h3 : 0 < N3) (d : ℕ → ℕ → ℕ → ℝ) :
    ∑ i ∈ range N1, ∑ j ∈ range N2, ∑ k ∈ range N3, Psi q N1 N2 N3 d i j k = 0 := by
  have key : ∑ i ∈ range N1, ∑ j ∈ range N2, ∑ k ∈ range N3, syn N1 N2 N3 (coefY q N1 N2 N3 d) i j k = 0 := by
    unfold syn
    have s : ∑ i ∈ range N1, ∑ j ∈ range N2, ∑ k ∈ range N3, ∑ a ∈ range N1, ∑ b ∈ range N2, ∑ c ∈ range N3,
          coefY q N1 N2 N3 d a b c * ch N1 N2 N3 a b c i j k
        = ∑ a ∈ range N1, ∑ b ∈ range N2, ∑ c ∈ range N3, coefY q N1 N2 N3 d a b c *
          ∑ i ∈ range N1, ∑ j ∈ range N2, ∑ k ∈ range N3, ch N1 N2 N3 a b c i j k := by
      have t3 : ∀ i j : ℕ, ∑ k ∈ range N3, ∑ a ∈ range N1, ∑ b ∈ range N2, ∑ c ∈ range N3, coefY q N1 N2 N3 d a b c * ch N1 N2 N3 a b c i j k
          = ∑ a ∈ range N1, ∑ b ∈ range N2, ∑ c ∈ range N3, coefY q N1 N2 N3 d a b c * ∑ k ∈ range N3, ch N1 N2 N3 a b c i j k := by
        intro i j
        rw [sum_comm]; refine sum_congr rfl fun a _ => ?_
        rw [sum_comm]; refine sum_congr rfl fun b _ => ?_
        rw [sum_comm]; refine sum_congr rfl fun c _ => ?_
        rw [mul_sum]
      have t2 : ∀ i : ℕ, ∑ j ∈ range N2, ∑ a ∈ range N1, ∑ b ∈ range N2, ∑ c ∈ range N3, coefY q N1 N2 N3 d a b c * ∑ k ∈ range N3, ch N1 N2 N3 a b c i j k
          = ∑ a ∈ range N1, ∑ b ∈ range N2, ∑ c ∈ range N3, coefY q N1 N2 N3 d a b c * ∑ j ∈ range N2, ∑ k ∈ range N3, ch N1 N2 N3 a b c i j k := by
        intro i
        rw [sum_comm]; refine sum_congr rfl fun a _ => ?_
        rw [sum_comm]; refine sum_congr rfl fun b _ => ?_
        rw [sum_comm]; refine sum_congr rfl fun c _ => ?_
        rw [mul_sum]
      simp only [t3, t2]
      rw [sum_comm]; refine sum_congr rfl fun a _ => ?_
      rw [sum_comm]; refine sum_congr rfl fun b _ => ?_
      rw [sum_comm]; refine sum_congr rfl fun c _ => ?_
      rw [mul_sum]
    rw [s]
    refine sum_eq_zero fun a ha => sum_eq_zero fun b hb => sum_eq_zero fun c hc => ?_
    by_cases hn : a = 0 ∧ b = 0 ∧ c = 0
    · unfold coefY; rw [if_pos hn, zero_mul]
    · rw [sum_ch_zones h1 h2 h3 (mem_range.mp ha) (mem_range.mp hb) (mem_range.mp hc) hn, mul_zero]
  unfold Psi
  have : ∑ i ∈ range N1, ∑ j ∈ range N2, ∑ k ∈ range N3, q.G4 * (syn N1 N2 N3 (coefY q N1 N2 N3 d) i j k).re / (N1 * N2 * N3 : ℝ)
      = q.G4 / (N1 * N2 * N3) * (∑ i ∈ range N1, ∑ j ∈ range N2, ∑ k ∈ range N3, syn N1 N2 N3 (coefY q N1 N2 N3 d) i j k).re := by
    simp only [Complex.re_sum, mul_sum]
    refine sum_congr rfl fun i _ => sum_congr rfl fun j _ => sum_congr rfl fun k _ => ?_
    ring
  rw [this, key, Complex.zero_re, mul_zero]

end Fft

/-! ### One dimension -/

section Febs
variable {is : ℤ} {N : ℕ} {S P : ℤ → ℝ}

/-- The potential before its mean is subtracted, in closed form. -/
noncomputable def clo (is : ℤ) (A : ℝ) (S : ℤ → ℝ) (n : ℕ) : ℝ := (n + 1) * A + ∑ m ∈ range n, ((n : ℝ) - m) * S (is + m)

theorem clo_succ (A : ℝ) (n : ℕ) : clo is A S (n + 1) = clo is A S n + A + ∑ m ∈ range (n + 1), S (is + m) := by
  unfold clo
  rw [sum_range_succ, sum_range_succ]
  have : ∑ m ∈ range n, (((n + 1 : ℕ) : ℝ) - m) * S (is + m) = ∑ m ∈ range n, ((n : ℝ) - m) * S (is + m) + ∑ m ∈ range n, S (is + m) := by
    rw [← sum_add_distrib]; refine sum_congr rfl fun m _ => ?_; push_cast; ring
  rw [this]; push_cast; ring

theorem clo_rec (A : ℝ) (n : ℕ) : clo is A S (n + 2) - 2 * clo is A S (n + 1) + clo is A S n = S (is + (n + 1 : ℕ)) := by
  rw [clo_succ A (n + 1), clo_succ A n, sum_range_succ (fun m : ℕ => S (is + m)) (n + 1)]
  ring

theorem febsLoop_val {A : ℝ} {P : ℤ → ℝ} (h0 : P is = clo is A S 0) (h1 : P (is + 1) = clo is A S 1) (n : ℕ) :
    ∀ m : ℕ, m ≤ n + 1 → febsLoop is S P n (is + m) = clo is A S m := by
  induction n with
  | zero =>
    intro m hm
    have : m = 0 ∨ m = 1 := by omega
    rcases this with rfl | rfl
    · simpa [febsLoop] using h0
    · simpa [febsLoop] using h1
  | succ n ih =>
    intro m hm
    unfold febsLoop
    dsimp only
    by_cases hm' : m = n + 2
    · subst hm'
      have e : is + ((n + 2 : ℕ) : ℤ) = is + 2 + n := by push_cast; ring
      rw [e, Function.update_self]
      have e1 : is + 2 + (n : ℤ) - 1 = is + ((n + 1 : ℕ) : ℤ) := by push_cast; ring
      have e2 : is + 2 + (n : ℤ) - 2 = is + ((n : ℕ) : ℤ) := by push_cast; ring
      rw [e1, e2, ih (n + 1) le_rfl, ih n (by omega)]
      have := clo_rec (is := is) (S := S) A n
      linarith
    · rw [Function.update_of_ne (by omega), ih m (by omega)]

/-- The result of the one-dimensional solver: the closed form less its mean. -/
theorem febs_val (hN : 2 ≤ N) : ∃ L : ℕ → ℝ,
    (∀ m : ℕ, m < N → L m = clo is ((∑ m ∈ range N, ((m : ℝ) + 1) * S (is + m)) / N) S m) ∧
    ∀ m : ℕ, m < N → febs is N S P (is + m) = L m - (∑ m ∈ range N, L m) / N := by
  set A := (∑ m ∈ range N, ((m : ℝ) + 1) * S (is + m)) / N with hA
  refine ⟨fun m => febsLoop is S (Function.update (Function.update P is A) (is + 1) (2 * (Function.update P is A) is + S is)) (N - 2) (is + m),
    fun m hm => ?_, fun m hm => ?_⟩
  · refine febsLoop_val (A := A) ?_ ?_ _ m (by omega)
    · rw [Function.update_of_ne (by omega), Function.update_self]; simp [clo]
    · rw [Function.update_self, Function.update_self, clo_succ, sum_range_one, Nat.cast_zero, add_zero]; simp [clo]; ring
  · unfold febs
    exact if_pos (by omega)

theorem febs_mean (hN : 2 ≤ N) : ∑ m ∈ range N, febs is N S P (is + m) = 0 := by
  obtain ⟨L, -, h⟩ := febs_val (is := is) (S := S) (P := P) hN
  have hn : (N : ℝ) ≠ 0 := by positivity
  rw [sum_congr rfl (fun m hm => h m (mem_range.mp hm)), sum_sub_distrib, sum_const, card_range, nsmul_eq_mul]
  field_simp
  ring

/-- With a source whose sum is zero, the periodic second difference of the result is the source. -/
theorem febs_poisson (hN : 2 ≤ N) (hS : ∑ m ∈ range N, S (is + m) = 0) {m : ℕ} (hm : m < N) :
    febs is N S P (is + ((m + N - 1) % N : ℕ)) - 2 * febs is N S P (is + m) + febs is N S P (is + ((m + 1) % N : ℕ)) = S (is + m) := by
  obtain ⟨L, hL, hv⟩ := febs_val (is := is) (S := S) (P := P) hN
  obtain ⟨t, ht⟩ : ∃ t : ℝ, ∀ m : ℕ, m < N → febs is N S P (is + m) = clo is ((∑ m ∈ range N, ((m : ℝ) + 1) * S (is + m)) / N) S m - t :=
    ⟨_, fun m hm => by rw [hv m hm, hL m hm]⟩
  have hn : (N : ℝ) ≠ 0 := by positivity
  rw [ht m hm, ht _ (Nat.mod_lt _ (by omega)), ht _ (Nat.mod_lt _ (by omega))]
  set A := (∑ m ∈ range N, ((m : ℝ) + 1) * S (is + m)) / N with hA
  have hNA : N * A = ∑ m ∈ range N, ((m : ℝ) + 1) * S (is + m) := by rw [hA]; field_simp
  -- the value one step beyond the last zone is that of the first, and the last is zero
  have hlast : clo is A S (N - 1) = 0 := by
    obtain ⟨M, rfl⟩ : ∃ M, N = M + 1 := ⟨N - 1, by omega⟩
    have : clo is A S (M + 1 - 1) = ((M + 1 : ℕ) : ℝ) * A + ∑ m ∈ range (M + 1), ((M : ℝ) - m) * S (is + m) := by
      unfold clo
      rw [sum_range_succ]
      simp only [Nat.add_sub_cancel]
      push_cast
      ring
    rw [this, hNA, ← sum_add_distrib]
    have : ∀ m ∈ range (M + 1), (((m : ℝ) + 1) * S (is + m) + ((M : ℝ) - m) * S (is + m)) = ((M : ℝ) + 1) * S (is + m) := by intro m _; ring
    rw [sum_congr rfl this, ← mul_sum, hS, mul_zero]
  have hwrap : clo is A S N = A := by
    obtain ⟨M, rfl⟩ : ∃ M, N = M + 1 := ⟨N - 1, by omega⟩
    rw [clo_succ, hS]
    simp only [Nat.add_sub_cancel] at hlast
    rw [hlast]; ring
  have h0 : clo is A S 0 = A := by simp [clo]
  rcases Nat.eq_zero_or_pos m with rfl | hpos
  · rw [show (0 + N - 1) % N = N - 1 by rw [Nat.zero_add, Nat.mod_eq_of_lt]; omega, show (0 + 1) % N = 1 by rw [Nat.mod_eq_of_lt]; omega, hlast, h0]
    have : clo is A S 1 = 2 * A + S is := by rw [clo_succ, h0, sum_range_one, Nat.cast_zero, add_zero]; ring
    rw [this, Nat.cast_zero, add_zero]
    ring
  · have e1 : (m + N - 1) % N = m - 1 := by
      rw [show m + N - 1 = m - 1 + N by omega, Nat.add_mod_right, Nat.mod_eq_of_lt (by omega)]
    rw [e1]
    obtain ⟨p, rfl⟩ : ∃ p, m = p + 1 := ⟨m - 1, by omega⟩
    have hr := clo_rec (is := is) (S := S) A p
    simp only [Nat.add_sub_cancel]
    by_cases hl : p + 1 + 1 = N
    · rw [hl, Nat.mod_self, h0]
      rw [show p + 2 = N by omega, hwrap] at hr
      linarith
    · rw [Nat.mod_eq_of_lt (by omega)]
      linarith

end Febs

end Athena.Grav
