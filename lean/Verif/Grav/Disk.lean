import Verif.Grav.Obc

/-!
# C119, C120: self-gravity of disks (selfg_fft_disk.c): periodic in the plane, open in the third direction
-/

namespace Athena.Grav
open Finset

variable {q : Par} {N1 N2 N3 : ℕ}

theorem kcomp_zero (N : ℕ) : kcomp 0 N = 0 := by simp [kcomp]

theorem cos_kcomp {N a : ℕ} (h : 0 < N) : Real.cos (kcomp a N * (2 * Real.pi / N)) = Real.cos (2 * Real.pi * (a / N)) := by
  have p : (0 : ℝ) < N := by exact_mod_cast h
  unfold kcomp
  have : (((a : ℤ) - ((2 * a / N : ℕ) : ℤ) * N : ℤ) : ℝ) * (2 * Real.pi / N) = 2 * Real.pi * (a / N) - ((2 * a / N : ℕ) : ℝ) * (2 * Real.pi) := by
    generalize 2 * a / N = r
    push_cast
    field_simp
  rw [this, Real.cos_sub_nat_mul_two_pi]

/-- The coefficient of the wave number `(a, b, c)` of the Domain of twice the height. -/
noncomputable def coefD (q : Par) (E : ℕ → ℕ → ℝ) (N1 N2 N3 a b c : ℕ) : ℝ :=
  if a = 0 ∧ b = 0 ∧ c = 0 then 0 else 0.5 * (1 - (-1) ^ c * E a b) / lam q N1 N2 (2 * N3) a b c

theorem diskA_eq (h1 : 0 < N1) (h2 : 0 < N2) (h3 : 0 < N3) (L : ℝ) (a b c : ℕ) :
    diskA q L N1 N2 N3 a b c = coefD q (diskExp q L N1 N2) N1 N2 N3 a b (2 * c) := by
  have p3 : (0 : ℝ) < N3 := by exact_mod_cast h3
  unfold diskA coefD lam
  rw [cos_kcomp h1, cos_kcomp h2]
  by_cases hz : c = 0 ∧ b = 0 ∧ a = 0
  · rw [if_pos hz, if_pos (by omega)]
  · rw [if_neg hz, if_neg (by omega)]
    have : (c : ℝ) * (2 * Real.pi / N3) = 2 * Real.pi * (((2 * c : ℕ) : ℝ) / ((2 * N3 : ℕ) : ℝ)) := by
      push_cast; field_simp
    rw [this]
    simp

theorem diskB_eq (h1 : 0 < N1) (h2 : 0 < N2) (h3 : 0 < N3) (L : ℝ) (a b c : ℕ) :
    diskB q L N1 N2 N3 a b c = coefD q (diskExp q L N1 N2) N1 N2 N3 a b (2 * c + 1) := by
  have p3 : (0 : ℝ) < N3 := by exact_mod_cast h3
  unfold diskB coefD lam
  rw [cos_kcomp h1, cos_kcomp h2, if_neg (by omega)]
  have : (0.5 + (c : ℝ)) * (2 * Real.pi / N3) = 2 * Real.pi * (((2 * c + 1 : ℕ) : ℝ) / ((2 * N3 : ℕ) : ℝ)) := by
    push_cast; field_simp; ring
  rw [this, pow_succ, pow_mul]
  norm_num

/-- The potential on all triples of integers; it has the period `2 N3` in the third direction. -/
noncomputable def PsiD (q : Par) (E : ℕ → ℕ → ℝ) (N1 N2 N3 : ℕ) (d : ℕ → ℕ → ℕ → ℝ) (i j k : ℤ) : ℝ :=
  (syn N1 N2 (2 * N3) (fun a b c => (coefD q E N1 N2 N3 a b c : ℂ) * dft3 (-1) N1 N2 (2 * N3) (padz N3 fun i j k => ((d i j k * q.G4 : ℝ) : ℂ)) a b c) i j k).re
    / (N1 * N2 * N3)

theorem disk3_eq (h1 : 0 < N1) (h2 : 0 < N2) (h3 : 0 < N3) (L : ℝ) (d : ℕ → ℕ → ℕ → ℝ) (i j k : ℕ) :
    disk3 q L N1 N2 N3 d i j k = PsiD q (diskExp q L N1 N2) N1 N2 N3 d i j k := by
  have hang : ∀ k : ℕ, (0.5 : ℝ) * k * (2 * Real.pi / N3) = 2 * Real.pi * (k * ((1 : ℕ) : ℝ) / (2 * N3)) := by
    intro k; push_cast; ring
  unfold disk3 PsiD
  rw [syn_padz h3]
  dsimp only
  have e0 : (fun a b c => (diskA q L N1 N2 N3 a b c : ℂ) * dft3 (-1) N1 N2 N3 (fun i j k => (⟨d i j k * q.G4, 0⟩ : ℂ)) a b c)
      = fun a b c => (coefD q (diskExp q L N1 N2) N1 N2 N3 a b (2 * c + 0) : ℂ)
          * dft3 (-1) N1 N2 (2 * N3) (padz N3 fun i j k => ((d i j k * q.G4 : ℝ) : ℂ)) a b (2 * c + 0) := by
    funext a b c
    rw [dft_padz h3, diskA_eq h1 h2 h3]
    congr 2
    funext i j k
    apply Complex.ext <;> simp [ex_zero]
  have e1 : (fun a b c => (diskB q L N1 N2 N3 a b c : ℂ) * dft3 (-1) N1 N2 N3 (fun i j k => (⟨Real.cos (0.5 * k * (2 * Real.pi / N3)) * (d i j k * q.G4),
          -Real.sin (0.5 * k * (2 * Real.pi / N3)) * (d i j k * q.G4)⟩ : ℂ)) a b c)
      = fun a b c => (coefD q (diskExp q L N1 N2) N1 N2 N3 a b (2 * c + 1) : ℂ)
          * dft3 (-1) N1 N2 (2 * N3) (padz N3 fun i j k => ((d i j k * q.G4 : ℝ) : ℂ)) a b (2 * c + 1) := by
    funext a b c
    rw [dft_padz h3, diskB_eq h1 h2 h3]
    congr 2
    funext i j k
    rw [mul_ex_neg, hang]
    apply Complex.ext <;> simp [mul_comm]
  rw [e0, e1]
  rw [sum_range_succ, sum_range_one, Complex.add_re, re_ex_mul, re_ex_mul, ← hang]
  simp only [Nat.cast_zero, mul_zero, zero_div, Real.cos_zero, Real.sin_zero, one_mul, zero_mul, sub_zero]
  push_cast
  congr 1
  · ring
  · ring

/-! ### Poisson's equation -/

theorem lam_zero_iff (hq : q.Ok) {a b c : ℕ} (ha : a < N1) (hb : b < N2) (hc : c < N3) : lam q N1 N2 N3 a b c = 0 ↔ a = 0 ∧ b = 0 ∧ c = 0 := by
  constructor
  · intro h
    by_contra hn
    exact lam_ne hq ha hb hc hn h
  · rintro ⟨rfl, rfl, rfl⟩
    unfold lam
    simp

theorem ch_shift (h3 : 0 < N3) (N1 N2 a b c : ℕ) (i j k : ℤ) : ch N1 N2 (2 * N3) a b c i j (k + N3) = (-1) ^ c * ch N1 N2 (2 * N3) a b c i j k := by
  have p3 : (0 : ℝ) < N3 := by exact_mod_cast h3
  have hh : ex (c * (1 / 2)) = (-1) ^ c := by
    rw [← ex_pow, ex_eq]
    congr 1
    have e : 2 * Real.pi * (1 / 2) = Real.pi := by ring
    rw [e]
    apply Complex.ext <;> simp
  unfold ch
  rw [← hh, ← ex_add]
  congr 1
  push_cast
  field_simp
  ring

/-- Summing the transform back in the third direction only. -/
theorem back3 {M : ℕ} (hM : 0 < M) (x : ℕ → ℕ → ℕ → ℂ) (a b : ℕ) (i j : ℤ) {K : ℕ} (hK : K < M) :
    ∑ c ∈ range M, dft3 (-1) N1 N2 M x a b c * ch N1 N2 M a b c i j K
      = M * ∑ i' ∈ range N1, ∑ j' ∈ range N2, x i' j' K * ex (a * (i - i') / N1 + b * (j - j') / N2) := by
  have e : ∀ c : ℕ, dft3 (-1) N1 N2 M x a b c * ch N1 N2 M a b c i j K
      = ∑ i' ∈ range N1, ∑ j' ∈ range N2, ∑ k' ∈ range M, x i' j' k' * ex (a * (i - i') / N1 + b * (j - j') / N2) * ex (c * ((K - k' : ℤ) : ℝ) / M) := by
    intro c
    unfold dft3 ch
    simp only [sum_mul]
    refine sum_congr rfl fun i' _ => sum_congr rfl fun j' _ => sum_congr rfl fun k' _ => ?_
    rw [mul_assoc, mul_assoc, ← ex_add, ← ex_add]
    congr 2
    push_cast
    ring
  simp only [e]
  rw [sum_comm, mul_sum]
  refine sum_congr rfl fun i' _ => ?_
  rw [sum_comm, mul_sum]
  refine sum_congr rfl fun j' _ => ?_
  rw [sum_comm]
  simp only [← mul_sum]
  rw [sum_eq_single K]
  · rw [sum_ex hM _ (by omega) (by omega), if_pos (by omega)]
    ring
  · intro k' hk' hn
    have := mem_range.mp hk'
    rw [sum_ex hM _ (by omega) (by omega), if_neg (by omega), mul_zero]
  · intro h
    exact absurd (mem_range.mpr hK) h

theorem syn_empty (h3 : 0 < N3) (E : ℕ → ℕ → ℝ) (x : ℕ → ℕ → ℕ → ℂ) (i j : ℤ) {k : ℕ} (hk : k < N3) :
    syn N1 N2 (2 * N3) (fun a b c => (E a b : ℂ) * dft3 (-1) N1 N2 (2 * N3) (padz N3 x) a b c) i j (k + N3) = 0 := by
  unfold syn
  refine sum_eq_zero fun a _ => sum_eq_zero fun b _ => ?_
  simp only [mul_assoc]
  rw [← mul_sum]
  have h := back3 (N1 := N1) (N2 := N2) (M := 2 * N3) (by omega) (padz N3 x) a b i j (K := k + N3) (by omega)
  push_cast at h
  rw [h]
  have : ∀ i' j' : ℕ, padz N3 x i' j' (k + N3) = 0 := fun i' j' => if_neg (by omega)
  simp [this]

/-- Poisson's equation in all planes of the Domain, for the periodic extension. -/
theorem PsiD_poisson (hq : q.Ok) (h1 : 0 < N1) (h2 : 0 < N2) (h3 : 0 < N3) {E : ℕ → ℕ → ℝ} (hE : E 0 0 = 1) (d : ℕ → ℕ → ℕ → ℝ) {i j k : ℕ} (hi : i < N1)
    (hj : j < N2) (hk : k < N3) :
    (PsiD q E N1 N2 N3 d (i-1) j k - 2 * PsiD q E N1 N2 N3 d i j k + PsiD q E N1 N2 N3 d (i+1) j k) / (q.dx1 * q.dx1)
    + (PsiD q E N1 N2 N3 d i (j-1) k - 2 * PsiD q E N1 N2 N3 d i j k + PsiD q E N1 N2 N3 d i (j+1) k) / (q.dx2 * q.dx2)
    + (PsiD q E N1 N2 N3 d i j (k-1) - 2 * PsiD q E N1 N2 N3 d i j k + PsiD q E N1 N2 N3 d i j (k+1)) / (q.dx3 * q.dx3)
    = q.G4 * d i j k := by
  have p1 : (0 : ℝ) < N1 := by exact_mod_cast h1
  have p2 : (0 : ℝ) < N2 := by exact_mod_cast h2
  have p3 : (0 : ℝ) < N3 := by exact_mod_cast h3
  set R := dft3 (-1) N1 N2 (2 * N3) (padz N3 fun i j k => ((d i j k * q.G4 : ℝ) : ℂ)) with hR
  have hl := lap_syn q (N1 := N1) (N2 := N2) (N3 := 2 * N3) (fun a b c => (coefD q E N1 N2 N3 a b c : ℂ) * R a b c) i j k
  have hY : syn N1 N2 (2 * N3) (fun a b c => (lam q N1 N2 (2 * N3) a b c : ℂ) * ((coefD q E N1 N2 N3 a b c : ℂ) * R a b c)) i j k
      = 1 / 2 * syn N1 N2 (2 * N3) R i j k - 1 / 2 * syn N1 N2 (2 * N3) (fun a b c => (E a b : ℂ) * R a b c) i j (k + N3) := by
    unfold syn
    simp only [mul_sum, ← sum_sub_distrib]
    refine sum_congr rfl fun a ha => sum_congr rfl fun b hb => sum_congr rfl fun c hc => ?_
    rw [ch_shift h3]
    unfold coefD
    by_cases hn : a = 0 ∧ b = 0 ∧ c = 0
    · obtain ⟨rfl, rfl, rfl⟩ := hn
      simp [hE]
    · rw [if_neg hn]
      have := lam_ne hq (mem_range.mp ha) (mem_range.mp hb) (mem_range.mp hc) hn
      have hc' : ((lam q N1 N2 (2 * N3) a b c : ℝ) : ℂ) ≠ 0 := by exact_mod_cast this
      push_cast
      field_simp
      ring
  rw [hR, syn_empty h3 E _ i j hk, ← hR, mul_zero, sub_zero] at hY
  have hinv := inversion (N3 := 2 * N3) h1 h2 (by omega) (padz N3 fun i j k => ((d i j k * q.G4 : ℝ) : ℂ)) hi hj (show k < 2 * N3 by omega)
  rw [← hR] at hinv
  rw [hY, hinv] at hl
  have hp : padz N3 (fun i j k => ((d i j k * q.G4 : ℝ) : ℂ)) i j k = ((d i j k * q.G4 : ℝ) : ℂ) := if_pos hk
  rw [hp] at hl
  have hre := congrArg Complex.re hl
  have m2 : ∀ z : ℂ, (2 * z).re = 2 * z.re := by intro z; simp
  have mh : ∀ z : ℂ, (1 / 2 * z).re = 1 / 2 * z.re := by intro z; simp
  have hx : ((N1 : ℂ) * N2 * ((2 * N3 : ℕ) : ℂ) * ((d i j k * q.G4 : ℝ) : ℂ)).re = 2 * (N1 * N2 * N3) * (d i j k * q.G4) := by
    rw [show ((N1 : ℂ) * N2 * ((2 * N3 : ℕ) : ℂ) * ((d i j k * q.G4 : ℝ) : ℂ)) = ((2 * (N1 * N2 * N3) * (d i j k * q.G4) : ℝ) : ℂ) by push_cast; ring]
    exact Complex.ofReal_re _
  simp only [Complex.add_re, Complex.sub_re, Complex.div_ofReal_re, m2, mh, hx] at hre
  unfold PsiD
  rw [← hR]
  have hN : (N1 * N2 * N3 : ℝ) ≠ 0 := by positivity
  generalize (syn N1 N2 (2 * N3) (fun a b c => (coefD q E N1 N2 N3 a b c : ℂ) * R a b c) (i-1) j k).re = a1 at hre ⊢
  generalize (syn N1 N2 (2 * N3) (fun a b c => (coefD q E N1 N2 N3 a b c : ℂ) * R a b c) (i+1) j k).re = a2 at hre ⊢
  generalize (syn N1 N2 (2 * N3) (fun a b c => (coefD q E N1 N2 N3 a b c : ℂ) * R a b c) i (j-1) k).re = b1 at hre ⊢
  generalize (syn N1 N2 (2 * N3) (fun a b c => (coefD q E N1 N2 N3 a b c : ℂ) * R a b c) i (j+1) k).re = b2 at hre ⊢
  generalize (syn N1 N2 (2 * N3) (fun a b c => (coefD q E N1 N2 N3 a b c : ℂ) * R a b c) i j (k-1)).re = c1 at hre ⊢
  generalize (syn N1 N2 (2 * N3) (fun a b c => (coefD q E N1 N2 N3 a b c : ℂ) * R a b c) i j (k+1)).re = c2 at hre ⊢
  generalize (syn N1 N2 (2 * N3) (fun a b c => (coefD q E N1 N2 N3 a b c : ℂ) * R a b c) i j k).re = z at hre ⊢
  have e : q.G4 * d i j k = (1 / 2 * (2 * (N1 * N2 * N3) * (d i j k * q.G4))) / (N1 * N2 * N3) := by
    field_simp
  rw [e, ← hre]
  ring

end Athena.Grav
