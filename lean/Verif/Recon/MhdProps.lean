import Verif.Recon.MhdLemmas
import Verif.Recon.MhdSpec
import Verif.Recon.Props3

/-! # The MHD eigensystems in primitive variables: completeness and waves -/

namespace Athena.Recon
noncomputable section
open Athena.Hydro

variable {ns : ℕ}

section
variable {α : Type} (a b c d e f g : α)
theorem v7_0 : (![a, b, c, d, e, f, g] : Fin 7 → α) 0 = a := rfl
theorem v7_1 : (![a, b, c, d, e, f, g] : Fin 7 → α) 1 = b := rfl
theorem v7_2 : (![a, b, c, d, e, f, g] : Fin 7 → α) 2 = c := rfl
theorem v7_3 : (![a, b, c, d, e, f, g] : Fin 7 → α) 3 = d := rfl
theorem v7_4 : (![a, b, c, d, e, f, g] : Fin 7 → α) 4 = e := rfl
theorem v7_5 : (![a, b, c, d, e, f, g] : Fin 7 → α) 5 = f := rfl
theorem v7_6 : (![a, b, c, d, e, f, g] : Fin 7 → α) 6 = g := rfl
theorem v6_0 : (![a, b, c, d, e, f] : Fin 6 → α) 0 = a := rfl
theorem v6_1 : (![a, b, c, d, e, f] : Fin 6 → α) 1 = b := rfl
theorem v6_2 : (![a, b, c, d, e, f] : Fin 6 → α) 2 = c := rfl
theorem v6_3 : (![a, b, c, d, e, f] : Fin 6 → α) 3 = d := rfl
theorem v6_4 : (![a, b, c, d, e, f] : Fin 6 → α) 4 = e := rfl
theorem v6_5 : (![a, b, c, d, e, f] : Fin 6 → α) 5 = f := rfl
end

theorem seven (m : Fin 7) : m = 0 ∨ m = 1 ∨ m = 2 ∨ m = 3 ∨ m = 4 ∨ m = 5 ∨ m = 6 := by omega
theorem six (m : Fin 6) : m = 0 ∨ m = 1 ∨ m = 2 ∨ m = 3 ∨ m = 4 ∨ m = 5 := by omega

/-! ## Directions in which waves can move -/

private theorem hlin {n : ℕ} (w r : Fin n → ℝ) (k : Fin n) : HasDerivAt (fun e : ℝ => w k + e * r k) (r k) 0 := by
  have := ((hasDerivAt_id (0:ℝ)).mul_const (r k)).const_add (w k)
  exact this.congr_deriv (by ring)

private theorem lin0 {n : ℕ} (w r : Fin n → ℝ) (k : Fin n) : w k + (0:ℝ) * r k = w k := by ring

theorem wave7 (g b : ℝ) (hg : g - 1 ≠ 0) (w r : Fin 7 → ℝ) (l : ℝ) (h0 : w 0 * r 1 = (l - w 1) * r 0)
    (h1 : r 4 + w 5 * r 5 + w 6 * r 6 = (l - w 1) * w 0 * r 1) (h2 : -b * r 5 = (l - w 1) * w 0 * r 2)
    (h3 : -b * r 6 = (l - w 1) * w 0 * r 3) (h4 : g * w 4 * r 1 = (l - w 1) * r 4) (h5 : w 5 * r 1 - b * r 2 = (l - w 1) * r 5)
    (h6 : w 6 * r 1 - b * r 3 = (l - w 1) * r 6) : IsWave (cons7 g b) (flux7 g b) w r l := by
  have H := hlin w r
  have Z := lin0 w r
  have hE : HasDerivAt (fun e : ℝ => cons7 g b (w + e • r) 4)
      (r 4 / (g - 1) + (r 0 * (w 1 ^ 2 + w 2 ^ 2 + w 3 ^ 2) + 2 * w 0 * (w 1 * r 1 + w 2 * r 2 + w 3 * r 3)) / 2 + (w 5 * r 5 + w 6 * r 6)) 0 := by
    have := (((H 4).div_const (g - 1)).add (((H 0).mul ((((H 1).pow 2).add ((H 2).pow 2)).add ((H 3).pow 2))).div_const 2)).add
      (((((H 5).pow 2).const_add (b ^ 2)).add ((H 6).pow 2)).div_const 2)
    refine this.congr_deriv ?_
    simp only [Z, Pi.add_apply, Pi.pow_apply]
    norm_num
    ring
  have hP : HasDerivAt (fun e : ℝ => (w 4 + e * r 4) + (b ^ 2 + (w 5 + e * r 5) ^ 2 + (w 6 + e * r 6) ^ 2) / 2) (r 4 + (w 5 * r 5 + w 6 * r 6)) 0 := by
    have := (H 4).add (((((H 5).pow 2).const_add (b ^ 2)).add ((H 6).pow 2)).div_const 2)
    refine this.congr_deriv ?_
    simp only [Z, Pi.add_apply, Pi.pow_apply]
    norm_num
    ring
  have hm : ∀ i, HasDerivAt (fun e : ℝ => (w 0 + e * r 0) * (w i + e * r i)) (r 0 * w i + w 0 * r i) 0 := by
    intro i
    refine ((H 0).mul (H i)).congr_deriv ?_
    simp only [Z]
  have hf : ∀ i, HasDerivAt (fun e : ℝ => (w 0 + e * r 0) * (w 1 + e * r 1) * (w i + e * r i))
      ((r 0 * w 1 + w 0 * r 1) * w i + w 0 * w 1 * r i) 0 := by
    intro i
    refine ((hm 1).mul (H i)).congr_deriv ?_
    simp only [Z]
  have hi : ∀ i j, HasDerivAt (fun e : ℝ => (w 1 + e * r 1) * (w i + e * r i) - (w j + e * r j) * b) (r 1 * w i + w 1 * r i - r j * b) 0 := by
    intro i j
    refine (((H 1).mul (H i)).sub ((H j).mul_const b)).congr_deriv ?_
    simp only [Z]
  intro c
  rcases seven c with rfl | rfl | rfl | rfl | rfl | rfl | rfl
  · refine ⟨r 0, H 0, (hm 1).congr_deriv ?_⟩
    linear_combination h0
  · refine ⟨_, hm 1, (((hf 1).add hP).sub_const (b * b)).congr_deriv ?_⟩
    linear_combination w 1 * h0 + h1
  · refine ⟨_, hm 2, ((hf 2).sub ((H 5).const_mul b)).congr_deriv ?_⟩
    linear_combination w 2 * h0 + h2
  · refine ⟨_, hm 3, ((hf 3).sub ((H 6).const_mul b)).congr_deriv ?_⟩
    linear_combination w 3 * h0 + h3
  · refine ⟨_, hE, ?_⟩
    have hvb : HasDerivAt (fun e : ℝ => b * ((w 1 + e * r 1) * b + (w 2 + e * r 2) * (w 5 + e * r 5) + (w 3 + e * r 3) * (w 6 + e * r 6)))
        (b * (r 1 * b + (r 2 * w 5 + w 2 * r 5) + (r 3 * w 6 + w 3 * r 6))) 0 := by
      refine ((((H 1).mul_const b).add ((H 2).mul (H 5))).add ((H 3).mul (H 6))).const_mul b |>.congr_deriv ?_
      simp only [Z]
    refine (((hE.add hP).mul (H 1)).sub hvb).congr_deriv ?_
    have e0 : cons7 g b (w + (0:ℝ) • r) 4 = w 4 / (g - 1) + w 0 * (w 1 ^ 2 + w 2 ^ 2 + w 3 ^ 2) / 2 + (b ^ 2 + w 5 ^ 2 + w 6 ^ 2) / 2 := by
      rw [zero_smul, add_zero]; rfl
    simp only [Pi.add_apply, e0, Z]
    have h4' : (w 4 / (g - 1) + w 4) * r 1 = (l - w 1) * (r 4 / (g - 1)) := by
      field_simp; linear_combination h4
    linear_combination h4' + (w 1 ^ 2 + w 2 ^ 2 + w 3 ^ 2) / 2 * h0 + w 1 * h1 + w 2 * h2 + w 3 * h3 + w 5 * h5 + w 6 * h6
  · refine ⟨r 5, H 5, (hi 5 2).congr_deriv ?_⟩
    linear_combination h5
  · refine ⟨r 6, H 6, (hi 6 3).congr_deriv ?_⟩
    linear_combination h6

theorem wave6 (a b : ℝ) (w r : Fin 6 → ℝ) (l : ℝ) (h0 : w 0 * r 1 = (l - w 1) * r 0)
    (h1 : a ^ 2 * r 0 + w 4 * r 4 + w 5 * r 5 = (l - w 1) * w 0 * r 1) (h2 : -b * r 4 = (l - w 1) * w 0 * r 2)
    (h3 : -b * r 5 = (l - w 1) * w 0 * r 3) (h5 : w 4 * r 1 - b * r 2 = (l - w 1) * r 4)
    (h6 : w 5 * r 1 - b * r 3 = (l - w 1) * r 5) : IsWave cons6 (flux6 a b) w r l := by
  have H := hlin w r
  have Z := lin0 w r
  have hP : HasDerivAt (fun e : ℝ => a ^ 2 * (w 0 + e * r 0) + (b ^ 2 + (w 4 + e * r 4) ^ 2 + (w 5 + e * r 5) ^ 2) / 2)
      (a ^ 2 * r 0 + (w 4 * r 4 + w 5 * r 5)) 0 := by
    have := ((H 0).const_mul (a ^ 2)).add (((((H 4).pow 2).const_add (b ^ 2)).add ((H 5).pow 2)).div_const 2)
    refine this.congr_deriv ?_
    simp only [Z, Pi.add_apply, Pi.pow_apply]
    norm_num
    ring
  have hm : ∀ i, HasDerivAt (fun e : ℝ => (w 0 + e * r 0) * (w i + e * r i)) (r 0 * w i + w 0 * r i) 0 := by
    intro i
    refine ((H 0).mul (H i)).congr_deriv ?_
    simp only [Z]
  have hf : ∀ i, HasDerivAt (fun e : ℝ => (w 0 + e * r 0) * (w 1 + e * r 1) * (w i + e * r i))
      ((r 0 * w 1 + w 0 * r 1) * w i + w 0 * w 1 * r i) 0 := by
    intro i
    refine ((hm 1).mul (H i)).congr_deriv ?_
    simp only [Z]
  have hi : ∀ i j, HasDerivAt (fun e : ℝ => (w 1 + e * r 1) * (w i + e * r i) - (w j + e * r j) * b) (r 1 * w i + w 1 * r i - r j * b) 0 := by
    intro i j
    refine (((H 1).mul (H i)).sub ((H j).mul_const b)).congr_deriv ?_
    simp only [Z]
  intro c
  rcases six c with rfl | rfl | rfl | rfl | rfl | rfl
  · refine ⟨r 0, H 0, (hm 1).congr_deriv ?_⟩
    linear_combination h0
  · refine ⟨_, hm 1, (((hf 1).add hP).sub_const (b * b)).congr_deriv ?_⟩
    linear_combination w 1 * h0 + h1
  · refine ⟨_, hm 2, ((hf 2).sub ((H 4).const_mul b)).congr_deriv ?_⟩
    linear_combination w 2 * h0 + h2
  · refine ⟨_, hm 3, ((hf 3).sub ((H 5).const_mul b)).congr_deriv ?_⟩
    linear_combination w 3 * h0 + h3
  · refine ⟨r 4, H 4, (hi 4 2).congr_deriv ?_⟩
    linear_combination h5
  · refine ⟨r 5, H 5, (hi 5 3).congr_deriv ?_⟩
    linear_combination h6

end
end Athena.Recon
