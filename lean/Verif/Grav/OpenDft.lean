import Verif.Grav.Open

/-!
# Transforms over a Domain of twice the size

The transforms with shifted wave numbers are the odd part of a transform of the density padded with empty zones.
-/

namespace Athena.Grav
open Finset

theorem sum_half {M : Type*} [AddCommMonoid M] (N : ℕ) (f : ℕ → M) :
    ∑ c ∈ range (2 * N), f c = ∑ o ∈ range 2, ∑ c ∈ range N, f (2 * c + o) := by
  induction N with
  | zero => simp
  | succ n ih =>
    rw [show 2 * (n + 1) = 2 * n + 1 + 1 by ring, sum_range_succ, sum_range_succ, ih]
    simp only [sum_range_succ, range_zero, sum_empty, zero_add, add_zero]
    abel

theorem sum_pad {M : Type*} [AddCommMonoid M] (N : ℕ) (f : ℕ → M) :
    ∑ k ∈ range (2 * N), (if k < N then f k else 0) = ∑ k ∈ range N, f k := by
  rw [← sum_subset (s₁ := range N) (range_mono (by omega)) (fun x _ h => if_neg (by simpa using h))]
  exact sum_congr rfl fun x hx => if_pos (mem_range.mp hx)

/-- The density in a Domain with as many empty zones above as there are zones. -/
def padz {M : Type*} [Zero M] (N3 : ℕ) (x : ℕ → ℕ → ℕ → M) : ℕ → ℕ → ℕ → M := fun i j k => if k < N3 then x i j k else 0

/-- The density in a Domain twice as large in every direction. -/
def pad {M : Type*} [Zero M] (N1 N2 N3 : ℕ) (x : ℕ → ℕ → ℕ → M) : ℕ → ℕ → ℕ → M :=
  fun i j k => if i < N1 ∧ j < N2 ∧ k < N3 then x i j k else 0

theorem pad_split {M : Type*} [Zero M] (N1 N2 N3 : ℕ) (x : ℕ → ℕ → ℕ → M) (i j k : ℕ) :
    pad N1 N2 N3 x i j k = if i < N1 then (if j < N2 then (if k < N3 then x i j k else 0) else 0) else 0 := by
  unfold pad; split_ifs <;> first | rfl | (exfalso; tauto)

theorem sum_pad3 {M : Type*} [AddCommMonoid M] (N1 N2 N3 : ℕ) (f : ℕ → ℕ → ℕ → M) :
    ∑ i ∈ range (2 * N1), ∑ j ∈ range (2 * N2), ∑ k ∈ range (2 * N3), pad N1 N2 N3 f i j k
      = ∑ i ∈ range N1, ∑ j ∈ range N2, ∑ k ∈ range N3, f i j k := by
  simp only [pad_split]
  rw [← sum_pad N1]
  refine sum_congr rfl fun i _ => ?_
  by_cases hi : i < N1
  · simp only [if_pos hi]
    rw [← sum_pad N2]
    refine sum_congr rfl fun j _ => ?_
    by_cases hj : j < N2
    · simp only [if_pos hj]
      exact sum_pad N3 _
    · simp [hj]
  · simp [hi]

/-- Forward transform with wave numbers shifted by one half in the third direction. -/
theorem dft_padz {N1 N2 N3 : ℕ} (h3 : 0 < N3) (x : ℕ → ℕ → ℕ → ℂ) (o a b c : ℕ) :
    dft3 (-1) N1 N2 (2 * N3) (padz N3 x) a b (2 * c + o) = dft3 (-1) N1 N2 N3 (fun i j k => x i j k * ex (-(k * o / (2 * N3)))) a b c := by
  have p3 : (0 : ℝ) < N3 := by exact_mod_cast h3
  unfold dft3 padz
  refine sum_congr rfl fun i _ => sum_congr rfl fun j _ => ?_
  simp only [ite_mul, zero_mul]
  rw [sum_pad]
  refine sum_congr rfl fun k _ => ?_
  rw [mul_assoc, ← ex_add]
  congr 2
  push_cast
  field_simp
  ring

theorem dft_pad {N1 N2 N3 : ℕ} (h1 : 0 < N1) (h2 : 0 < N2) (h3 : 0 < N3) (x : ℕ → ℕ → ℕ → ℂ) (o1 o2 o3 a b c : ℕ) :
    dft3 (-1) (2 * N1) (2 * N2) (2 * N3) (pad N1 N2 N3 x) (2 * a + o1) (2 * b + o2) (2 * c + o3)
      = dft3 (-1) N1 N2 N3 (fun i j k => x i j k * ex (-(i * o1 / (2 * N1) + j * o2 / (2 * N2) + k * o3 / (2 * N3)))) a b c := by
  have p1 : (0 : ℝ) < N1 := by exact_mod_cast h1
  have p2 : (0 : ℝ) < N2 := by exact_mod_cast h2
  have p3 : (0 : ℝ) < N3 := by exact_mod_cast h3
  unfold dft3
  have e : ∀ i j k : ℕ, pad N1 N2 N3 x i j k * ex (-1 * (((2 * a + o1 : ℕ) : ℝ) * i / ((2 * N1 : ℕ) : ℝ) + ((2 * b + o2 : ℕ) : ℝ) * j / ((2 * N2 : ℕ) : ℝ)
        + ((2 * c + o3 : ℕ) : ℝ) * k / ((2 * N3 : ℕ) : ℝ)))
      = pad N1 N2 N3 (fun i j k => x i j k * ex (-1 * (((2 * a + o1 : ℕ) : ℝ) * i / ((2 * N1 : ℕ) : ℝ) + ((2 * b + o2 : ℕ) : ℝ) * j / ((2 * N2 : ℕ) : ℝ)
        + ((2 * c + o3 : ℕ) : ℝ) * k / ((2 * N3 : ℕ) : ℝ)))) i j k := by
    intro i j k; unfold pad; split_ifs <;> simp
  simp only [e]
  rw [sum_pad3]
  refine sum_congr rfl fun i _ => sum_congr rfl fun j _ => sum_congr rfl fun k _ => ?_
  rw [mul_assoc, ← ex_add]
  congr 2
  push_cast
  field_simp
  ring

/-- Backward: the sum over all wave numbers of the larger Domain is the sum over the shifts. -/
theorem syn_padz {N1 N2 N3 : ℕ} (h3 : 0 < N3) (y : ℕ → ℕ → ℕ → ℂ) (i j k : ℕ) :
    syn N1 N2 (2 * N3) y i j k = ∑ o ∈ range 2, ex (k * o / (2 * N3)) * dft3 1 N1 N2 N3 (fun a b c => y a b (2 * c + o)) i j k := by
  have p3 : (0 : ℝ) < N3 := by exact_mod_cast h3
  unfold syn dft3
  simp only [sum_half N3, mul_sum]
  have c1 : ∀ a : ℕ, ∑ b ∈ range N2, ∑ o ∈ range 2, ∑ c ∈ range N3, y a b (2 * c + o) * ch N1 N2 (2 * N3) a b (2 * c + o) i j k
      = ∑ o ∈ range 2, ∑ b ∈ range N2, ∑ c ∈ range N3, y a b (2 * c + o) * ch N1 N2 (2 * N3) a b (2 * c + o) i j k := fun a => sum_comm
  simp only [c1]
  rw [sum_comm]
  refine sum_congr rfl fun o _ => sum_congr rfl fun a _ => sum_congr rfl fun b _ => sum_congr rfl fun c _ => ?_
  unfold ch
  rw [mul_left_comm, ← ex_add]
  congr 2
  push_cast
  field_simp
  ring

theorem syn_pad {N1 N2 N3 : ℕ} (h1 : 0 < N1) (h2 : 0 < N2) (h3 : 0 < N3) (y : ℕ → ℕ → ℕ → ℂ) (i j k : ℕ) :
    syn (2 * N1) (2 * N2) (2 * N3) y i j k = ∑ o3 ∈ range 2, ∑ o2 ∈ range 2, ∑ o1 ∈ range 2,
      ex (i * o1 / (2 * N1) + j * o2 / (2 * N2) + k * o3 / (2 * N3))
        * dft3 1 N1 N2 N3 (fun a b c => y (2 * a + o1) (2 * b + o2) (2 * c + o3)) i j k := by
  have p1 : (0 : ℝ) < N1 := by exact_mod_cast h1
  have p2 : (0 : ℝ) < N2 := by exact_mod_cast h2
  have p3 : (0 : ℝ) < N3 := by exact_mod_cast h3
  have c0 : ∀ f : ℕ → ℕ → ℕ → ℕ → ℕ → ℕ → ℂ, ∑ o1 ∈ range 2, ∑ a ∈ range N1, ∑ o2 ∈ range 2, ∑ b ∈ range N2, ∑ o3 ∈ range 2, ∑ c ∈ range N3, f o1 o2 o3 a b c
      = ∑ o3 ∈ range 2, ∑ o2 ∈ range 2, ∑ o1 ∈ range 2, ∑ a ∈ range N1, ∑ b ∈ range N2, ∑ c ∈ range N3, f o1 o2 o3 a b c := by
    intro f
    have e1 : ∀ o1 a o2, ∑ b ∈ range N2, ∑ o3 ∈ range 2, ∑ c ∈ range N3, f o1 o2 o3 a b c = ∑ o3 ∈ range 2, ∑ b ∈ range N2, ∑ c ∈ range N3, f o1 o2 o3 a b c :=
      fun _ _ _ => sum_comm
    simp only [e1]
    have e2 : ∀ o1 a, ∑ o2 ∈ range 2, ∑ o3 ∈ range 2, ∑ b ∈ range N2, ∑ c ∈ range N3, f o1 o2 o3 a b c
        = ∑ o3 ∈ range 2, ∑ o2 ∈ range 2, ∑ b ∈ range N2, ∑ c ∈ range N3, f o1 o2 o3 a b c := fun _ _ => sum_comm
    simp only [e2]
    have e3 : ∀ o1, ∑ a ∈ range N1, ∑ o3 ∈ range 2, ∑ o2 ∈ range 2, ∑ b ∈ range N2, ∑ c ∈ range N3, f o1 o2 o3 a b c
        = ∑ o3 ∈ range 2, ∑ o2 ∈ range 2, ∑ a ∈ range N1, ∑ b ∈ range N2, ∑ c ∈ range N3, f o1 o2 o3 a b c := by
      intro o1
      rw [sum_comm]
      exact sum_congr rfl fun _ _ => sum_comm
    simp only [e3]
    rw [sum_comm]
    exact sum_congr rfl fun _ _ => sum_comm
  unfold syn dft3
  simp only [sum_half N1, sum_half N2, sum_half N3, mul_sum]
  rw [c0]
  refine sum_congr rfl fun o3 _ => sum_congr rfl fun o2 _ => sum_congr rfl fun o1 _ => sum_congr rfl fun a _ => sum_congr rfl fun b _ =>
    sum_congr rfl fun c _ => ?_
  unfold ch
  rw [mul_left_comm, ← ex_add]
  congr 2
  push_cast
  field_simp
  ring

/-! ### A complex number given by cosine and sine -/

theorem ex_eq (x : ℝ) : ex x = ⟨Real.cos (2 * Real.pi * x), Real.sin (2 * Real.pi * x)⟩ := by
  unfold ex
  rw [show (2 * (Real.pi : ℂ) * x * Complex.I) = ((2 * Real.pi * x : ℝ) : ℂ) * Complex.I by push_cast; ring, Complex.exp_mul_I, ← Complex.ofReal_cos, ← Complex.ofReal_sin]
  generalize Real.cos (2 * Real.pi * x) = u
  generalize Real.sin (2 * Real.pi * x) = v
  apply Complex.ext <;> simp

theorem re_ex_mul (x : ℝ) (z : ℂ) : (ex x * z).re = Real.cos (2 * Real.pi * x) * z.re - Real.sin (2 * Real.pi * x) * z.im := by
  rw [ex_eq, Complex.mul_re]

theorem mul_ex_neg (d x : ℝ) : (d : ℂ) * ex (-x) = ⟨d * Real.cos (2 * Real.pi * x), d * -Real.sin (2 * Real.pi * x)⟩ := by
  rw [ex_eq]
  apply Complex.ext
  · simp [Real.cos_neg]
  · simp [Real.sin_neg]

end Athena.Grav
