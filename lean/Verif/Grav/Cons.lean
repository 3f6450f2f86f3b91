import Verif.Grav.Solve

/-!
# Sums over a periodic Grid
-/

namespace Athena.Grav
open Finset Athena.Vl3 Athena.Gen

/-- A Grid on which the periodic boundary functions do not read what they write. -/
structure Ok (w : Which) (g : Rng) : Prop where
  ng : 1 ≤ g.ng
  two : 2 ≤ g.ie - g.is + 1
  hi : g.ng ≤ g.ie - g.is + 1
  hj : dims w 1 = true → g.ng ≤ g.je - g.js + 1
  hk : dims w 2 = true → g.ng ≤ g.ke - g.ks + 1
  cj : dims w 1 = false → g.je = g.js
  ck : dims w 2 = false → g.ke = g.ks

/-- Sum over the active zones. -/
noncomputable def tot (g : Rng) (f : Arr ℝ) : ℝ := ∑ k ∈ Icc g.ks g.ke, ∑ j ∈ Icc g.js g.je, ∑ i ∈ Icc g.is g.ie, f k j i

/-- The ghost zones of a cell-centred array hold the periodic images, edges and corners included. -/
structure PerGhost (w : Which) (g : Rng) (P : Arr ℝ) : Prop where
  i : ∀ k j i, g.ks - wid (dims w 2) g.ng ≤ k → k ≤ g.ke + wid (dims w 2) g.ng → g.js - wid (dims w 1) g.ng ≤ j →
    j ≤ g.je + wid (dims w 1) g.ng → g.is - g.ng ≤ i → i ≤ g.is - 1 + g.ng → P k j (i + (g.ie - g.is + 1)) = P k j i
  j : dims w 1 = true → ∀ k j i, g.ks - wid (dims w 2) g.ng ≤ k → k ≤ g.ke + wid (dims w 2) g.ng → g.is - g.ng ≤ i → i ≤ g.ie + g.ng →
    g.js - g.ng ≤ j → j ≤ g.js - 1 + g.ng → P k (j + (g.je - g.js + 1)) i = P k j i
  k : dims w 2 = true → ∀ k j i, g.js - wid (dims w 1) g.ng ≤ j → j ≤ g.je + wid (dims w 1) g.ng → g.is - g.ng ≤ i → i ≤ g.ie + g.ng →
    g.ks - g.ng ≤ k → k ≤ g.ks - 1 + g.ng → P (k + (g.ke - g.ks + 1)) j i = P k j i

section
variable {w : Which} {g : Rng}

/-- The zone in the periodic box that `x` is an image of. -/
def wrap (a b x : ℤ) : ℤ := if x < a then x + (b - a + 1) else if b < x then x - (b - a + 1) else x

theorem per1_eq (h : Ok w g) (P : Arr ℝ) {k j i : ℤ} (hk : g.ks ≤ k ∧ k ≤ g.ke) (hj : g.js ≤ j ∧ j ≤ g.je) (hi : g.is - g.ng ≤ i ∧ i ≤ g.ie + g.ng) :
    per1 g P k j i = P k j (wrap g.is g.ie i) := by
  have := h.hi
  unfold per1 wrap
  by_cases h1 : i < g.is
  · rw [loop3_out _ _ (by omega), loop3_in _ _ (by omega) (by omega) (by omega) (by omega) (by omega) (by omega), if_pos h1]
  · by_cases h2 : g.ie < i
    · rw [loop3_in _ _ (by omega) (by omega) (by omega) (by omega) (by omega) (by omega), loop3_out _ _ (by omega), if_neg h1, if_pos h2]
    · rw [loop3_out _ _ (by omega), loop3_out _ _ (by omega), if_neg h1, if_neg h2]

theorem per2_eq (h : Ok w g) (hw : dims w 1 = true) (P : Arr ℝ) {k j i : ℤ} (hk : g.ks ≤ k ∧ k ≤ g.ke) (hj : g.js - g.ng ≤ j ∧ j ≤ g.je + g.ng)
    (hi : g.is - g.ng ≤ i ∧ i ≤ g.ie + g.ng) : per2 g P k j i = P k (wrap g.js g.je j) i := by
  have := h.hj hw
  unfold per2 wrap
  by_cases h1 : j < g.js
  · rw [loop3_out _ _ (by omega), loop3_in _ _ (by omega) (by omega) (by omega) (by omega) (by omega) (by omega), if_pos h1]
  · by_cases h2 : g.je < j
    · rw [loop3_in _ _ (by omega) (by omega) (by omega) (by omega) (by omega) (by omega), loop3_out _ _ (by omega), if_neg h1, if_pos h2]
    · rw [loop3_out _ _ (by omega), loop3_out _ _ (by omega), if_neg h1, if_neg h2]

theorem per3_eq (h : Ok w g) (hw : dims w 2 = true) (P : Arr ℝ) {k j i : ℤ} (hk : g.ks - g.ng ≤ k ∧ k ≤ g.ke + g.ng)
    (hj : g.js - g.ng ≤ j ∧ j ≤ g.je + g.ng) (hi : g.is - g.ng ≤ i ∧ i ≤ g.ie + g.ng) : per3 g P k j i = P (wrap g.ks g.ke k) j i := by
  have := h.hk hw
  unfold per3 wrap
  by_cases h1 : k < g.ks
  · rw [loop3_out _ _ (by omega), loop3_in _ _ (by omega) (by omega) (by omega) (by omega) (by omega) (by omega), if_pos h1]
  · by_cases h2 : g.ke < k
    · rw [loop3_in _ _ (by omega) (by omega) (by omega) (by omega) (by omega) (by omega), loop3_out _ _ (by omega), if_neg h1, if_pos h2]
    · rw [loop3_out _ _ (by omega), loop3_out _ _ (by omega), if_neg h1, if_neg h2]

theorem wrap_mem {a b n x : ℤ} (hn : n ≤ b - a + 1) (h : a - n ≤ x ∧ x ≤ b + n) : a ≤ wrap a b x ∧ wrap a b x ≤ b := by
  unfold wrap; split_ifs <;> omega

theorem wrap_in {a b x : ℤ} (h : a ≤ x ∧ x ≤ b) : wrap a b x = x := by
  unfold wrap; split_ifs <;> omega

theorem dims12 (w : Which) (h : dims w 2 = true) : dims w 1 = true := by cases w <;> simp_all [dims, A1, A2, A3]

/-- The ghost zones after `bvals_grav`. -/
theorem bvalsG_eq (h : Ok w g) (P : Arr ℝ) {k j i : ℤ} (hk : g.ks - wid (dims w 2) g.ng ≤ k ∧ k ≤ g.ke + wid (dims w 2) g.ng)
    (hj : g.js - wid (dims w 1) g.ng ≤ j ∧ j ≤ g.je + wid (dims w 1) g.ng) (hi : g.is - g.ng ≤ i ∧ i ≤ g.ie + g.ng) :
    bvalsG w g P k j i = P (wrap g.ks g.ke k) (wrap g.js g.je j) (wrap g.is g.ie i) := by
  have hng := h.ng
  unfold bvalsG
  by_cases h2 : dims w 2 = true
  · have h1 := dims12 w h2
    simp only [h1, h2, if_true, wid] at hk hj ⊢
    have mk := wrap_mem (h.hk h2) hk
    have mj := wrap_mem (h.hj h1) hj
    rw [per3_eq h h2 _ hk hj hi, per2_eq h h1 _ mk hj hi, per1_eq h _ mk mj hi]
  · simp only [h2, wid] at hk ⊢
    have e : wrap g.ks g.ke k = k := wrap_in (by simpa using hk)
    have hk' : g.ks ≤ k ∧ k ≤ g.ke := by simpa using hk
    rw [e]
    by_cases h1 : dims w 1 = true
    · simp only [h1, if_true, wid] at hj ⊢
      have mj := wrap_mem (h.hj h1) hj
      simp only [Bool.false_eq_true, if_false]
      rw [per2_eq h h1 _ hk' hj hi, per1_eq h _ hk' mj hi]
    · simp only [h1, wid] at hj ⊢
      have hj' : g.js ≤ j ∧ j ≤ g.je := by simpa using hj
      simp only [Bool.false_eq_true, if_false]
      rw [wrap_in hj', per1_eq h _ hk' hj' hi]

theorem bvalsG_active (h : Ok w g) (P : Arr ℝ) {k j i : ℤ} (hk : g.ks ≤ k ∧ k ≤ g.ke) (hj : g.js ≤ j ∧ j ≤ g.je) (hi : g.is ≤ i ∧ i ≤ g.ie) :
    bvalsG w g P k j i = P k j i := by
  have hng := h.ng
  have w2 : 0 ≤ wid (dims w 2) g.ng := by unfold wid; split_ifs <;> omega
  have w1 : 0 ≤ wid (dims w 1) g.ng := by unfold wid; split_ifs <;> omega
  rw [bvalsG_eq h P (by omega) (by omega) (by omega), wrap_in hk, wrap_in hj, wrap_in hi]

theorem wrap_shift {a b n x : ℤ} (hn : n ≤ b - a + 1) (h : a - n ≤ x ∧ x ≤ a - 1 + n) : wrap a b (x + (b - a + 1)) = wrap a b x := by
  unfold wrap; split_ifs <;> omega

theorem bvalsG_per (h : Ok w g) (P : Arr ℝ) : PerGhost w g (bvalsG w g P) := by
  have hng := h.ng
  have hN := h.hi
  refine ⟨fun k j i hk hk' hj hj' hi hi' => ?_, fun h1 k j i hk hk' hi hi' hj hj' => ?_, fun h2 k j i hj hj' hi hi' hk hk' => ?_⟩
  · rw [bvalsG_eq h P ⟨hk, hk'⟩ ⟨hj, hj'⟩ (by omega), bvalsG_eq h P ⟨hk, hk'⟩ ⟨hj, hj'⟩ (by omega), wrap_shift hN ⟨hi, hi'⟩]
  · have := h.hj h1
    have e : wid (dims w 1) g.ng = g.ng := by simp [wid, h1]
    rw [bvalsG_eq h P ⟨hk, hk'⟩ (by omega) ⟨hi, hi'⟩, bvalsG_eq h P ⟨hk, hk'⟩ (by omega) ⟨hi, hi'⟩, wrap_shift this ⟨hj, hj'⟩]
  · have := h.hk h2
    have e : wid (dims w 2) g.ng = g.ng := by simp [wid, h2]
    rw [bvalsG_eq h P (by omega) ⟨hj, hj'⟩ ⟨hi, hi'⟩, bvalsG_eq h P (by omega) ⟨hj, hj'⟩ ⟨hi, hi'⟩, wrap_shift this ⟨hk, hk'⟩]

/-! ### Sums -/

theorem tele (f : ℤ → ℝ) (a b : ℤ) (h : a ≤ b) : ∑ i ∈ Icc a b, (f (i+1) - f i) = f (b+1) - f a := by
  obtain ⟨n, rfl⟩ : ∃ n : ℕ, b = a + n := ⟨(b - a).toNat, by omega⟩
  induction n with
  | zero => simp
  | succ n ih =>
    have e : Icc a (a + ((n + 1 : ℕ) : ℤ)) = insert (a + ((n + 1 : ℕ) : ℤ)) (Icc a (a + (n : ℤ))) := by
      ext x; simp only [mem_Icc, mem_insert]; push_cast; omega
    rw [e, sum_insert (by simp), ih (by omega)]
    push_cast
    rw [← add_assoc a (n : ℤ) 1]
    ring

theorem tot_congr {f f' : Arr ℝ} (h : ∀ k j i, g.ks ≤ k → k ≤ g.ke → g.js ≤ j → j ≤ g.je → g.is ≤ i → i ≤ g.ie → f k j i = f' k j i) :
    tot g f = tot g f' :=
  sum_congr rfl fun k hk => sum_congr rfl fun j hj => sum_congr rfl fun i hi =>
    h k j i (mem_Icc.mp hk).1 (mem_Icc.mp hk).2 (mem_Icc.mp hj).1 (mem_Icc.mp hj).2 (mem_Icc.mp hi).1 (mem_Icc.mp hi).2

theorem tot_add (f f' : Arr ℝ) : tot g (fun k j i => f k j i + f' k j i) = tot g f + tot g f' := by
  simp only [tot, sum_add_distrib]
theorem tot_sub (f f' : Arr ℝ) : tot g (fun k j i => f k j i - f' k j i) = tot g f - tot g f' := by
  simp only [tot, sum_sub_distrib]
theorem tot_mul (c : ℝ) (f : Arr ℝ) : tot g (fun k j i => c * f k j i) = c * tot g f := by
  simp only [tot, mul_sum]

theorem tot_tele1 {f : Arr ℝ} (hi : g.is ≤ g.ie)
    (h : ∀ k j, g.ks ≤ k → k ≤ g.ke → g.js ≤ j → j ≤ g.je → f k j (g.ie + 1) = f k j g.is) : tot g (fun k j i => f k j (i+1) - f k j i) = 0 := by
  unfold tot
  refine sum_eq_zero fun k hk => sum_eq_zero fun j hj => ?_
  rw [tele _ _ _ hi, h k j (mem_Icc.mp hk).1 (mem_Icc.mp hk).2 (mem_Icc.mp hj).1 (mem_Icc.mp hj).2, sub_self]

theorem tot_tele2 {f : Arr ℝ} (hj : g.js ≤ g.je)
    (h : ∀ k i, g.ks ≤ k → k ≤ g.ke → g.is ≤ i → i ≤ g.ie → f k (g.je + 1) i = f k g.js i) : tot g (fun k j i => f k (j+1) i - f k j i) = 0 := by
  unfold tot
  refine sum_eq_zero fun k hk => ?_
  rw [sum_comm]
  refine sum_eq_zero fun i hi => ?_
  rw [tele (fun j => f k j i) _ _ hj, h k i (mem_Icc.mp hk).1 (mem_Icc.mp hk).2 (mem_Icc.mp hi).1 (mem_Icc.mp hi).2, sub_self]

theorem tot_tele3 {f : Arr ℝ} (hk : g.ks ≤ g.ke)
    (h : ∀ j i, g.js ≤ j → j ≤ g.je → g.is ≤ i → i ≤ g.ie → f (g.ke + 1) j i = f g.ks j i) : tot g (fun k j i => f (k+1) j i - f k j i) = 0 := by
  unfold tot
  rw [sum_comm]
  refine sum_eq_zero fun j hj => ?_
  rw [sum_comm]
  refine sum_eq_zero fun i hi => ?_
  rw [tele (fun k => f k j i) _ _ hk, h j i (mem_Icc.mp hj).1 (mem_Icc.mp hj).2 (mem_Icc.mp hi).1 (mem_Icc.mp hi).2, sub_self]

theorem Ok.ij (h : Ok w g) : g.is ≤ g.ie ∧ g.js ≤ g.je ∧ g.ks ≤ g.ke := by
  have := h.ng
  have := h.hi
  refine ⟨by omega, ?_, ?_⟩
  · cases e : dims w 1
    · have := h.cj e; omega
    · have := h.hj e; omega
  · cases e : dims w 2
    · have := h.ck e; omega
    · have := h.hk e; omega

/-- What is subtracted from a zone, summed over the directions of the problem. -/
def dsum (w : Which) (a b c : ℝ) : ℝ := a + (if dims w 1 then b else 0) + (if dims w 2 then c else 0)

/-- The difference operator over the directions of the problem. -/
def ddif (w : Which) (c1 c2 c3 : ℝ) (f1 f2 f3 : Arr ℝ) : Arr ℝ := fun k j i =>
  dsum w (c1 * (f1 k j (i+1) - f1 k j i)) (c2 * (f2 k (j+1) i - f2 k j i)) (c3 * (f3 (k+1) j i - f3 k j i))

/-- A flux that is the same at opposite ends of the Grid. -/
structure Ends (w : Which) (g : Rng) (f1 f2 f3 : Arr ℝ) : Prop where
  e1 : ∀ k j, g.ks ≤ k → k ≤ g.ke → g.js ≤ j → j ≤ g.je → f1 k j (g.ie + 1) = f1 k j g.is
  e2 : dims w 1 = true → ∀ k i, g.ks ≤ k → k ≤ g.ke → g.is ≤ i → i ≤ g.ie → f2 k (g.je + 1) i = f2 k g.js i
  e3 : dims w 2 = true → ∀ j i, g.js ≤ j → j ≤ g.je → g.is ≤ i → i ≤ g.ie → f3 (g.ke + 1) j i = f3 g.ks j i

theorem tot_ddif (h : Ok w g) (c1 c2 c3 : ℝ) {f1 f2 f3 : Arr ℝ} (hf : Ends w g f1 f2 f3) : tot g (ddif w c1 c2 c3 f1 f2 f3) = 0 := by
  obtain ⟨h1, h2, h3⟩ := h.ij
  have t1 := tot_tele1 h1 hf.e1
  unfold ddif dsum
  rw [tot_add, tot_add, tot_mul, t1, mul_zero, zero_add]
  have a2 : tot g (fun k j i => if dims w 1 then c2 * (f2 k (j+1) i - f2 k j i) else 0) = 0 := by
    cases e : dims w 1
    · simp [tot]
    · simp only [if_true]
      rw [tot_mul, tot_tele2 h2 (hf.e2 e), mul_zero]
  have a3 : tot g (fun k j i => if dims w 2 then c3 * (f3 (k+1) j i - f3 k j i) else 0) = 0 := by
    cases e : dims w 2
    · simp [tot]
    · simp only [if_true]
      rw [tot_mul, tot_tele3 h3 (hf.e3 e), mul_zero]
  rw [a2, a3, add_zero]

end

end Athena.Grav
