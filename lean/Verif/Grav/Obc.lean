import Verif.Grav.OpenDft

/-!
# C121: self-gravity with open boundaries (selfg_fft_obc.c)
-/

namespace Athena.Grav
open Finset

variable {q : Par} {N1 N2 N3 : ℕ}

theorem swap1 {M : Type*} [AddCommMonoid M] (s t u v : Finset ℕ) (f : ℕ → ℕ → ℕ → ℕ → M) :
    ∑ c ∈ s, ∑ i ∈ t, ∑ j ∈ u, ∑ k ∈ v, f c i j k = ∑ i ∈ t, ∑ j ∈ u, ∑ k ∈ v, ∑ c ∈ s, f c i j k := by
  rw [sum_comm]
  refine sum_congr rfl fun i _ => ?_
  rw [sum_comm]
  refine sum_congr rfl fun j _ => ?_
  rw [sum_comm]

theorem gridCoefO_eq (N1 N2 N3 f1 f2 f3 : ℕ) (T : Tile) (W : ℕ → ℕ → ℕ → ℂ) (i j k : ℕ) :
    gridCoefO q N1 N2 N3 f1 f2 f3 T W i j k = if (i + T.D1 = 0 ∧ j + T.D2 = 0 ∧ k + T.D3 = 0) ∧ f1 = 0 ∧ f2 = 0 ∧ f3 = 0 then 0 else
      (pcoeffO q N1 N2 N3 f1 f2 f3 (i + T.D1) (j + T.D2) (k + T.D3) : ℂ) * W i j k := by
  unfold gridCoefO
  dsimp only
  by_cases hi : i = 0
  · subst hi
    by_cases hj : j = 0
    · subst hj
      by_cases hk : k = 0
      · subst hk
        simp only [zero_add]
        by_cases h : (T.D1 = 0 ∧ T.D2 = 0 ∧ T.D3 = 0) ∧ f1 = 0 ∧ f2 = 0 ∧ f3 = 0
        · simp [h]
        · simp [h]
      · have : 1 ≤ k := by omega
        simp [hk, this]
    · have : 1 ≤ j := by omega
      simp [hj, this]
  · have : 1 ≤ i := by omega
    simp [hi, this]

theorem domCoefO_eq {tile : ℕ → ℕ → ℕ → Tile} (ht : Tiles tile) (f1 f2 f3 : ℕ) (W : ℕ → ℕ → ℕ → ℂ) (a b c : ℕ) :
    domCoefO q N1 N2 N3 f1 f2 f3 tile W a b c = if (a = 0 ∧ b = 0 ∧ c = 0) ∧ f1 = 0 ∧ f2 = 0 ∧ f3 = 0 then 0 else
      (pcoeffO q N1 N2 N3 f1 f2 f3 a b c : ℂ) * W a b c := by
  obtain ⟨h1, h2, h3⟩ := ht a b c
  unfold domCoefO
  simp only [gridCoefO_eq, Nat.sub_add_cancel h1, Nat.sub_add_cancel h2, Nat.sub_add_cancel h3]

theorem pcoeffO_eq (h1 : 0 < N1) (h2 : 0 < N2) (h3 : 0 < N3) (f1 f2 f3 a b c : ℕ) :
    pcoeffO q N1 N2 N3 f1 f2 f3 a b c = pcoeff3 q (2 * N1) (2 * N2) (2 * N3) (2 * a + f1) (2 * b + f2) (2 * c + f3) := by
  have p1 : (0 : ℝ) < N1 := by exact_mod_cast h1
  have p2 : (0 : ℝ) < N2 := by exact_mod_cast h2
  have p3 : (0 : ℝ) < N3 := by exact_mod_cast h3
  unfold pcoeffO pcoeff3
  have e : ∀ (N x f : ℕ), (0 : ℝ) < N → ((x : ℝ) + 0.5 * f) * (2 * Real.pi / N) = ((2 * x + f : ℕ) : ℝ) * (2 * Real.pi / ((2 * N : ℕ) : ℝ)) := by
    intro N x f hN
    push_cast
    field_simp
    ring
  rw [e N1 a f1 p1, e N2 b f2 p2, e N3 c f3 p3]
  generalize Real.cos _ = u
  generalize Real.cos _ = v
  generalize Real.cos _ = w
  have : (2 * u - 2) / (q.dx1 * q.dx1) + (2 * v - 2) / (q.dx2 * q.dx2) + (2 * w - 2) / (q.dx3 * q.dx3)
      = -2 * ((1 - u) * (1 / q.dx1 ^ 2) + (1 - v) * (1 / q.dx2 ^ 2) + (1 - w) * (1 / q.dx3 ^ 2)) := by ring
  rw [this]
  generalize (1 - u) * (1 / q.dx1 ^ 2) + (1 - v) * (1 / q.dx2 ^ 2) + (1 - w) * (1 / q.dx3 ^ 2) = z
  by_cases hz : z = 0
  · simp [hz]
  · field_simp
    norm_num

theorem offsetO_eq (N1 N2 N3 f1 f2 f3 i j k : ℕ) :
    offsetO N1 N2 N3 f1 f2 f3 i j k = 2 * Real.pi * (i * f1 / (2 * N1) + j * f2 / (2 * N2) + k * f3 / (2 * N3)) := by
  unfold offsetO
  ring

/-- The solver with open boundaries is the periodic one in a Domain of twice the size in every direction, empty outside. -/
theorem obc3_eq (h1 : 0 < N1) (h2 : 0 < N2) (h3 : 0 < N3) {tile : ℕ → ℕ → ℕ → Tile} (ht : Tiles tile) (d : ℕ → ℕ → ℕ → ℝ) (i j k : ℕ) :
    obc3 q N1 N2 N3 tile d i j k = Psi { q with rho0 := 0 } (2 * N1) (2 * N2) (2 * N3) (pad N1 N2 N3 d) i j k := by
  have hs : (src { q with rho0 := 0 } (pad N1 N2 N3 d)) = pad N1 N2 N3 (fun i j k => ((d i j k : ℝ) : ℂ)) := by
    funext i j k; unfold src pad; split_ifs <;> simp
  have ht' : ∀ f1 f2 f3 : ℕ, turnO q N1 N2 N3 tile d f1 f2 f3 i j k = (ex (i * f1 / (2 * N1) + j * f2 / (2 * N2) + k * f3 / (2 * N3))
        * dft3 1 N1 N2 N3 (fun a b c => coefY { q with rho0 := 0 } (2 * N1) (2 * N2) (2 * N3) (pad N1 N2 N3 d) (2 * a + f1) (2 * b + f2) (2 * c + f3)) i j k).re := by
    intro f1 f2 f3
    rw [re_ex_mul, ← offsetO_eq]
    unfold turnO
    dsimp only
    have : domCoefO q N1 N2 N3 f1 f2 f3 tile (dft3 (-1) N1 N2 N3 (fun i j k => (⟨d i j k * Real.cos (offsetO N1 N2 N3 f1 f2 f3 i j k),
          d i j k * -Real.sin (offsetO N1 N2 N3 f1 f2 f3 i j k)⟩ : ℂ)))
        = fun a b c => coefY { q with rho0 := 0 } (2 * N1) (2 * N2) (2 * N3) (pad N1 N2 N3 d) (2 * a + f1) (2 * b + f2) (2 * c + f3) := by
      funext a b c
      rw [domCoefO_eq ht]
      unfold coefY
      rw [hs, dft_pad h1 h2 h3, pcoeffO_eq h1 h2 h3]
      have : (fun i j k : ℕ => ((d i j k : ℝ) : ℂ) * ex (-(i * f1 / (2 * N1) + j * f2 / (2 * N2) + k * f3 / (2 * N3))))
          = fun i j k => (⟨d i j k * Real.cos (offsetO N1 N2 N3 f1 f2 f3 i j k), d i j k * -Real.sin (offsetO N1 N2 N3 f1 f2 f3 i j k)⟩ : ℂ) := by
        funext i j k
        rw [mul_ex_neg, offsetO_eq]
      rw [this]
      by_cases hz : (a = 0 ∧ b = 0 ∧ c = 0) ∧ f1 = 0 ∧ f2 = 0 ∧ f3 = 0
      · rw [if_pos hz, if_pos (by omega)]
      · rw [if_neg hz, if_neg (by omega)]
        rfl
    rw [this]
  unfold obc3 Psi
  rw [syn_pad h1 h2 h3]
  simp only [ht', Complex.re_sum]
  have key : ∀ S : ℝ, S * (q.G4 / (8 * ((N3 * N2 * N1 : ℕ) : ℝ))) = q.G4 * S / (((2 * N1 : ℕ) : ℝ) * ((2 * N2 : ℕ) : ℝ) * ((2 * N3 : ℕ) : ℝ)) := by
    intro S
    push_cast
    have p1 : (0 : ℝ) < N1 := by exact_mod_cast h1
    have p2 : (0 : ℝ) < N2 := by exact_mod_cast h2
    have p3 : (0 : ℝ) < N3 := by exact_mod_cast h3
    field_simp
    ring
  exact key _

/-- The seven-point difference form of the Laplacian at a zone with neighbours on all sides. -/
noncomputable def lap7 (q : Par) (P : ℕ → ℕ → ℕ → ℝ) (i j k : ℕ) : ℝ :=
  (P (i-1) j k - 2 * P i j k + P (i+1) j k) / (q.dx1 * q.dx1) + (P i (j-1) k - 2 * P i j k + P i (j+1) k) / (q.dx2 * q.dx2)
    + (P i j (k-1) - 2 * P i j k + P i j (k+1)) / (q.dx3 * q.dx3)

/-- Total of the density over the Domain. -/
noncomputable def total (N1 N2 N3 : ℕ) (d : ℕ → ℕ → ℕ → ℝ) : ℝ := ∑ i ∈ range N1, ∑ j ∈ range N2, ∑ k ∈ range N3, d i j k

/-- **C121** (part).  In every zone with neighbours on all sides the potential satisfies Poisson's equation for the density minus one eighth of its
mean over the Domain. -/
theorem obc_poisson_partial (hq : q.Ok) {tile : ℕ → ℕ → ℕ → Tile} (ht : Tiles tile) (d : ℕ → ℕ → ℕ → ℝ) {i j k : ℕ} (hi : 1 ≤ i ∧ i + 1 < N1)
    (hj : 1 ≤ j ∧ j + 1 < N2) (hk : 1 ≤ k ∧ k + 1 < N3) :
    lap7 q (obc3 q N1 N2 N3 tile d) i j k = q.G4 * (d i j k - total N1 N2 N3 d / (N1 * N2 * N3) / 8) := by
  have h1 : 0 < N1 := by omega
  have h2 : 0 < N2 := by omega
  have h3 : 0 < N3 := by omega
  have hq' : ({ q with rho0 := 0 } : Par).Ok := ⟨hq.dx1, hq.dx2, hq.dx3, hq.G4⟩
  have h := Psi_poisson (N1 := 2 * N1) (N2 := 2 * N2) (N3 := 2 * N3) hq' (by omega) (by omega) (by omega) (pad N1 N2 N3 d) (i := i) (j := j) (k := k)
    (by omega) (by omega) (by omega)
  unfold lap7
  simp only [obc3_eq h1 h2 h3 ht]
  have m : mean (2 * N1) (2 * N2) (2 * N3) (pad N1 N2 N3 d) = total N1 N2 N3 d / (N1 * N2 * N3) / 8 := by
    unfold mean total
    rw [sum_pad3]
    push_cast
    have p1 : (0 : ℝ) < N1 := by exact_mod_cast h1
    have p2 : (0 : ℝ) < N2 := by exact_mod_cast h2
    have p3 : (0 : ℝ) < N3 := by exact_mod_cast h3
    field_simp
    norm_num
  have pd : pad N1 N2 N3 d i j k = d i j k := if_pos (by omega)
  rw [m, pd] at h
  have c1 : ((i - 1 : ℕ) : ℤ) = (i : ℤ) - 1 := by omega
  have c2 : ((j - 1 : ℕ) : ℤ) = (j : ℤ) - 1 := by omega
  have c3 : ((k - 1 : ℕ) : ℤ) = (k : ℤ) - 1 := by omega
  rw [c1, c2, c3]
  push_cast
  exact h

/-- **C121** (the claim is false).  Unless the total mass is zero, Poisson's equation for the density itself holds in no such zone. -/
theorem obc_poisson_false (hq : q.Ok) {tile : ℕ → ℕ → ℕ → Tile} (ht : Tiles tile) (d : ℕ → ℕ → ℕ → ℝ) (hd : total N1 N2 N3 d ≠ 0) {i j k : ℕ}
    (hi : 1 ≤ i ∧ i + 1 < N1) (hj : 1 ≤ j ∧ j + 1 < N2) (hk : 1 ≤ k ∧ k + 1 < N3) :
    lap7 q (obc3 q N1 N2 N3 tile d) i j k ≠ q.G4 * d i j k := by
  rw [obc_poisson_partial hq ht d hi hj hk]
  have p1 : (0 : ℝ) < N1 := by exact_mod_cast (by omega : 0 < N1)
  have p2 : (0 : ℝ) < N2 := by exact_mod_cast (by omega : 0 < N2)
  have p3 : (0 : ℝ) < N3 := by exact_mod_cast (by omega : 0 < N3)
  intro h
  have hg := hq.G4
  have : total N1 N2 N3 d / (N1 * N2 * N3) / 8 = 0 := by
    have := mul_left_cancel₀ hg.ne' h
    linarith
  have : total N1 N2 N3 d = 0 := by
    have hn : (N1 * N2 * N3 : ℝ) ≠ 0 := by positivity
    field_simp at this
    simpa using this
  exact hd this

/-- A cube of 27 equal zones: in its central zone the equation does not hold. -/
example (hq : q.Ok) : lap7 q (obc3 q 3 3 3 (fun _ _ _ => ⟨0, 0, 0⟩) (fun _ _ _ => 1)) 1 1 1 ≠ q.G4 * 1 :=
  obc_poisson_false hq (fun _ _ _ => by simp) (fun _ _ _ => 1) (by unfold total; norm_num) (by omega) (by omega) (by omega)

/-- **C121** (part).  The potential is the one that the periodic solver finds in a Domain with twice as many zones in every direction, of which all
those outside the given Domain are empty: the sources are repeated with that period. -/
theorem obc_is_periodic (h1 : 0 < N1) (h2 : 0 < N2) (h3 : 0 < N3) {tile tile' : ℕ → ℕ → ℕ → Tile} (ht : Tiles tile) (ht' : Tiles tile')
    (d : ℕ → ℕ → ℕ → ℝ) (i j k : ℕ) :
    obc3 q N1 N2 N3 tile d i j k
      = potential3 { q with rho0 := 0 } (2 * N1) (2 * N2) (2 * N3) tile' (fun i j k => if i < N1 ∧ j < N2 ∧ k < N3 then d i j k else 0) i j k := by
  rw [potential3_eq _ ht', obc3_eq h1 h2 h3 ht]
  rfl

/-- **C121** (part).  The potential is a sum over the zones of the density times a function of the distance only, which does not depend on the density
and is even. -/
theorem obc_kernel (h1 : 0 < N1) (h2 : 0 < N2) (h3 : 0 < N3) :
    ∃ K : ℤ → ℤ → ℤ → ℝ, (∀ x y z, K (-x) (-y) (-z) = K x y z) ∧ ∀ (tile : ℕ → ℕ → ℕ → Tile) (_ : Tiles tile) (d : ℕ → ℕ → ℕ → ℝ) (i j k : ℕ),
      obc3 q N1 N2 N3 tile d i j k = ∑ a ∈ range N1, ∑ b ∈ range N2, ∑ c ∈ range N3, d a b c * K ((i : ℤ) - a) ((j : ℤ) - b) ((k : ℤ) - c) := by
  let M1 := 2 * N1
  let M2 := 2 * N2
  let M3 := 2 * N3
  let y : ℕ → ℕ → ℕ → ℝ := fun a b c => if a = 0 ∧ b = 0 ∧ c = 0 then 0 else pcoeff3 { q with rho0 := 0 } M1 M2 M3 a b c
  let K : ℤ → ℤ → ℤ → ℝ := fun x z w => q.G4 * (syn M1 M2 M3 (fun a b c => (y a b c : ℂ)) x z w).re / (M1 * M2 * M3)
  have hre : ∀ x z w : ℤ, (syn M1 M2 M3 (fun a b c => (y a b c : ℂ)) x z w).re
      = ∑ a ∈ range M1, ∑ b ∈ range M2, ∑ c ∈ range M3, y a b c * (ch M1 M2 M3 a b c x z w).re := by
    intro x z w
    unfold syn
    simp only [Complex.re_sum, Complex.re_ofReal_mul]
  refine ⟨K, ?_, ?_⟩
  · intro x z w
    simp only [K, hre]
    congr 2
    refine sum_congr rfl fun a _ => sum_congr rfl fun b _ => sum_congr rfl fun c _ => ?_
    congr 1
    unfold ch
    rw [ex_eq, ex_eq]
    dsimp only
    rw [← Real.cos_neg]
    congr 1
    push_cast
    ring
  · intro tile ht d i j k
    rw [obc3_eq h1 h2 h3 ht]
    have hsy : syn M1 M2 M3 (coefY { q with rho0 := 0 } M1 M2 M3 (pad N1 N2 N3 d)) i j k
        = ∑ i' ∈ range M1, ∑ j' ∈ range M2, ∑ k' ∈ range M3, ((pad N1 N2 N3 d i' j' k' : ℝ) : ℂ)
            * syn M1 M2 M3 (fun a b c => (y a b c : ℂ)) ((i : ℤ) - i') ((j : ℤ) - j') ((k : ℤ) - k') := by
      have e : ∀ a b c : ℕ, coefY { q with rho0 := 0 } M1 M2 M3 (pad N1 N2 N3 d) a b c * ch M1 M2 M3 a b c i j k
          = ∑ i' ∈ range M1, ∑ j' ∈ range M2, ∑ k' ∈ range M3, ((pad N1 N2 N3 d i' j' k' : ℝ) : ℂ) * ((y a b c : ℂ)
              * ch M1 M2 M3 a b c ((i : ℤ) - i') ((j : ℤ) - j') ((k : ℤ) - k')) := by
        intro a b c
        have : coefY { q with rho0 := 0 } M1 M2 M3 (pad N1 N2 N3 d) a b c = (y a b c : ℂ) * dft3 (-1) M1 M2 M3 (src { q with rho0 := 0 } (pad N1 N2 N3 d)) a b c := by
          unfold coefY
          simp only [y]
          split_ifs <;> simp
        rw [this]
        unfold dft3
        simp only [mul_sum, sum_mul]
        refine sum_congr rfl fun i' _ => sum_congr rfl fun j' _ => sum_congr rfl fun k' _ => ?_
        have hch : ch M1 M2 M3 a b c ((i : ℤ) - i') ((j : ℤ) - j') ((k : ℤ) - k')
            = ex (-1 * (a * i' / M1 + b * j' / M2 + c * k' / M3)) * ch M1 M2 M3 a b c i j k := by
          unfold ch
          rw [← ex_add]
          congr 1
          push_cast
          ring
        rw [hch]
        unfold src
        simp only [sub_zero]
        ring
      unfold syn
      simp only [e, mul_sum]
      have swap : ∀ f : ℕ → ℕ → ℕ → ℕ → ℕ → ℕ → ℂ, ∑ a ∈ range M1, ∑ b ∈ range M2, ∑ c ∈ range M3, ∑ i' ∈ range M1, ∑ j' ∈ range M2, ∑ k' ∈ range M3, f a b c i' j' k'
          = ∑ i' ∈ range M1, ∑ j' ∈ range M2, ∑ k' ∈ range M3, ∑ a ∈ range M1, ∑ b ∈ range M2, ∑ c ∈ range M3, f a b c i' j' k' := by
        intro f
        calc ∑ a ∈ range M1, ∑ b ∈ range M2, ∑ c ∈ range M3, ∑ i' ∈ range M1, ∑ j' ∈ range M2, ∑ k' ∈ range M3, f a b c i' j' k'
            = ∑ a ∈ range M1, ∑ b ∈ range M2, ∑ i' ∈ range M1, ∑ j' ∈ range M2, ∑ k' ∈ range M3, ∑ c ∈ range M3, f a b c i' j' k' :=
              sum_congr rfl fun a _ => sum_congr rfl fun b _ => swap1 _ _ _ _ _
          _ = ∑ a ∈ range M1, ∑ i' ∈ range M1, ∑ j' ∈ range M2, ∑ k' ∈ range M3, ∑ b ∈ range M2, ∑ c ∈ range M3, f a b c i' j' k' :=
              sum_congr rfl fun a _ => swap1 _ _ _ _ _
          _ = _ := swap1 _ _ _ _ _
      exact swap _
    unfold Psi
    rw [show (2 * N1 : ℕ) = M1 from rfl, show (2 * N2 : ℕ) = M2 from rfl, show (2 * N3 : ℕ) = M3 from rfl, hsy]
    conv_rhs => rw [← sum_pad3 N1 N2 N3]
    simp only [Complex.re_sum, Complex.re_ofReal_mul, mul_sum, sum_div]
    refine sum_congr rfl fun i' _ => sum_congr rfl fun j' _ => sum_congr rfl fun k' _ => ?_
    unfold pad
    split_ifs
    · simp only [K]
      ring
    · simp

end Athena.Grav
