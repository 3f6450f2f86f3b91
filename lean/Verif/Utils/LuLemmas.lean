import Verif.Utils.Lu
import Mathlib.Logic.Equiv.Basic

/-! # Lemmas about the loops of ludcmp and lubksb -/

namespace Athena.Lu
open Athena

@[simp] theorem forN_zero {σ : Type} (f : ℕ → σ → σ) (s : σ) : forN 0 f s = s := rfl
theorem forN_succ {σ : Type} (n : ℕ) (f : ℕ → σ → σ) (s : σ) : forN (n+1) f s = f n (forN n f s) := rfl

theorem upd_same {α : Type} (v : ℕ → α) (i : ℕ) (x : α) : upd v i x i = x := if_pos rfl
theorem upd_ne {α : Type} (v : ℕ → α) {i k : ℕ} (x : α) (h : k ≠ i) : upd v i x k = v k := if_neg h
theorem upd2_same {α : Type} (a : ℕ → ℕ → α) (i j : ℕ) (x : α) : upd2 a i j x i j = x := if_pos ⟨rfl, rfl⟩
theorem upd2_row {α : Type} (a : ℕ → ℕ → α) {i p : ℕ} (j q : ℕ) (x : α) (h : p ≠ i) : upd2 a i j x p q = a p q :=
  if_neg fun e => h e.1
theorem upd2_col {α : Type} (a : ℕ → ℕ → α) (i p : ℕ) {j q : ℕ} (x : α) (h : q ≠ j) : upd2 a i j x p q = a p q :=
  if_neg fun e => h e.2

section
variable {K : Type} [Field K]

theorem forN_sub (m : ℕ) (g : ℕ → K) (x : K) : forN m (fun k s => s - g k) x = x - ∑ k ∈ Finset.range m, g k := by
  induction m with
  | zero => simp
  | succ m ih => rw [forN_succ, ih, Finset.sum_range_succ]; ring

/-- `L` of the decomposition stored in `a`: unit lower triangle. -/
def Lm (a : ℕ → ℕ → K) (i k : ℕ) : K := if k < i then a i k else if k = i then 1 else 0
/-- `U` of the decomposition stored in `a`: upper triangle. -/
def Um (a : ℕ → ℕ → K) (k c : ℕ) : K := if k ≤ c then a k c else 0

/-- Element `(i, c)` of `L U`. -/
def lu (a : ℕ → ℕ → K) (i c : ℕ) : K :=
  if i ≤ c then ∑ k ∈ Finset.range i, a i k * a k c + a i c else ∑ k ∈ Finset.range c, a i k * a k c + a i c * a c c

theorem sum_trunc {m n : ℕ} (h : m ≤ n) (f : ℕ → K) (h0 : ∀ k, m ≤ k → k < n → f k = 0) :
    ∑ k ∈ Finset.range n, f k = ∑ k ∈ Finset.range m, f k := by
  symm
  apply Finset.sum_subset
  · intro k hk; simp only [Finset.mem_range] at hk ⊢; omega
  · intro k hk hk'; simp only [Finset.mem_range] at hk hk'; exact h0 k (by omega) hk

theorem lu_sum (a : ℕ → ℕ → K) {n i c : ℕ} (h : i < n ∨ c < n) : ∑ k ∈ Finset.range n, Lm a i k * Um a k c = lu a i c := by
  unfold lu
  by_cases hic : i ≤ c
  · have hi : i < n := by omega
    rw [if_pos hic, sum_trunc (m := i + 1) hi, Finset.sum_range_succ]
    · congr 1
      · refine Finset.sum_congr rfl fun k hk => ?_
        rw [Finset.mem_range] at hk
        rw [Lm, Um, if_pos hk, if_pos (by omega)]
      · rw [Lm, Um, if_neg (by omega), if_pos rfl, if_pos hic, one_mul]
    · intro k h1 _; rw [Lm, if_neg (by omega), if_neg (by omega), zero_mul]
  · rw [if_neg hic, sum_trunc (m := c + 1) (by omega), Finset.sum_range_succ]
    · congr 1
      · refine Finset.sum_congr rfl fun k hk => ?_
        rw [Finset.mem_range] at hk
        rw [Lm, Um, if_pos (by omega), if_pos (by omega)]
      · rw [Lm, Um, if_pos (by omega), if_pos (le_refl _)]
    · intro k h1 _; rw [Um, if_neg (by omega), mul_zero]

section Ord
variable [LinearOrder K] [IsStrictOrderedRing K]

theorem elim_eq (a : ℕ → ℕ → K) (m i j : ℕ) : elim a m i j = a i j - ∑ k ∈ Finset.range m, a i k * a k j := forN_sub _ _ _

/-! ## The row scales -/

theorem rowBig_spec (a : ℕ → ℕ → K) (n i : ℕ) : 0 ≤ rowBig a n i ∧ (rowBig a n i = 0 ↔ ∀ j < n, a i j = 0) := by
  unfold rowBig
  induction n with
  | zero => simp
  | succ n ih =>
    rw [forN_succ]
    obtain ⟨h0, hz⟩ := ih
    set b := forN n (fun j big => if |a i j| > big then |a i j| else big) 0
    by_cases h : |a i n| > b
    · rw [if_pos h]
      refine ⟨abs_nonneg _, fun e => absurd e (by linarith), fun e => ?_⟩
      rw [e n (by omega), abs_zero] at h; linarith
    · rw [if_neg h]
      refine ⟨h0, fun e j hj => ?_, fun e => hz.2 fun j hj => e j (by omega)⟩
      rcases Nat.lt_succ_iff_lt_or_eq.1 hj with h1 | rfl
      · exact hz.1 e j h1
      · have := abs_nonneg (a i j); exact abs_eq_zero.1 (by linarith)

theorem scales_spec (a : ℕ → ℕ → K) (n m : ℕ) :
    ((∃ i < m, ∀ j < n, a i j = 0) ∧
      forN m (fun i (r : Res (ℕ → K)) => r.bind fun sc => if rowBig a n i = 0 then .fatal else .ok (upd sc i (1 / rowBig a n i)))
        (.ok fun _ => 0) = .fatal) ∨
    ((¬ ∃ i < m, ∀ j < n, a i j = 0) ∧ ∃ sc : ℕ → K, (∀ i < m, 0 < sc i) ∧
      forN m (fun i (r : Res (ℕ → K)) => r.bind fun sc => if rowBig a n i = 0 then .fatal else .ok (upd sc i (1 / rowBig a n i)))
        (.ok fun _ => 0) = .ok sc) := by
  induction m with
  | zero => right; exact ⟨by simp, fun _ => 0, by simp, rfl⟩
  | succ m ih =>
    rcases ih with ⟨⟨i, hi, hz⟩, h⟩ | ⟨hn, sc, hp, h⟩
    · left; refine ⟨⟨i, by omega, hz⟩, ?_⟩; rw [forN_succ, h]; rfl
    · obtain ⟨b0, bz⟩ := rowBig_spec a n m
      rw [forN_succ, h]
      simp only [Res.bind]
      by_cases e : rowBig a n m = 0
      · left; rw [if_pos e]; exact ⟨⟨m, by omega, bz.1 e⟩, rfl⟩
      · right
        rw [if_neg e]
        refine ⟨?_, _, ?_, rfl⟩
        · rintro ⟨i, hi, hz⟩
          rcases Nat.lt_succ_iff_lt_or_eq.1 hi with h1 | rfl
          · exact hn ⟨i, h1, hz⟩
          · exact e (bz.2 hz)
        · intro i hi
          by_cases him : i = m
          · subst him; rw [upd_same]; exact one_div_pos.2 (lt_of_le_of_ne b0 (Ne.symm e))
          · rw [upd_ne _ _ him]; exact hp i (by omega)

/-! ## One column -/

theorem upper_spec (a : ℕ → ℕ → K) (j m : ℕ) (hm : m ≤ j) :
    let u := forN m (fun i a => upd2 a i j (elim a i i j)) a
    (∀ p q, (q ≠ j ∨ m ≤ p) → u p q = a p q) ∧
    (∀ i < m, u i j = a i j - ∑ k ∈ Finset.range i, a i k * u k j) := by
  induction m with
  | zero => simp
  | succ m ih =>
    obtain ⟨h1, h2⟩ := ih (by omega)
    rw [forN_succ]
    set u := forN m (fun i a => upd2 a i j (elim a i i j)) a
    refine ⟨fun p q h => ?_, fun i hi => ?_⟩
    · have hne : ¬ (p = m ∧ q = j) := by omega
      rw [upd2, if_neg hne]; exact h1 p q (by omega)
    · by_cases him : i = m
      · subst him
        rw [upd2_same, elim_eq, h1 i j (by right; omega)]
        congr 1
        refine Finset.sum_congr rfl fun k hk => ?_
        rw [Finset.mem_range] at hk
        rw [h1 i k (by left; omega), upd2_row _ _ _ _ (by omega)]
      · rw [upd2_row _ _ _ _ him, h2 i (by omega)]
        congr 1
        refine Finset.sum_congr rfl fun k hk => ?_
        rw [Finset.mem_range] at hk
        rw [upd2_row _ _ _ _ (by omega)]

theorem lower_spec (sc : ℕ → K) (a : ℕ → ℕ → K) (j t : ℕ) (im : Option ℕ) (hsc : ∀ s < t, 0 < sc (j + s)) :
    let p := forN t (fun t => lowerRow sc j (j + t)) ⟨a, 0, im⟩
    (∀ r q, (q ≠ j ∨ r < j ∨ j + t ≤ r) → p.a r q = a r q) ∧
    (∀ s < t, p.a (j + s) j = a (j + s) j - ∑ k ∈ Finset.range j, a (j + s) k * a k j) ∧
    0 ≤ p.big ∧ (∀ s < t, sc (j + s) * |p.a (j + s) j| ≤ p.big) ∧
    (0 < t → ∃ m, p.imax = some m ∧ j ≤ m ∧ m < j + t ∧ p.big = sc m * |p.a m j|) := by
  induction t with
  | zero => simp
  | succ t ih =>
    obtain ⟨h1, h2, h3, h4, h5⟩ := ih fun s hs => hsc s (by omega)
    rw [forN_succ]
    set p := forN t (fun t => lowerRow sc j (j + t)) (⟨a, 0, im⟩ : Piv K)
    have es : elim p.a j (j + t) j = a (j + t) j - ∑ k ∈ Finset.range j, a (j + t) k * a k j := by
      rw [elim_eq, h1 (j + t) j (by right; right; omega)]
      congr 1
      refine Finset.sum_congr rfl fun k hk => ?_
      rw [Finset.mem_range] at hk
      rw [h1 (j + t) k (by left; omega), h1 k j (by right; left; exact hk)]
    have ea : (lowerRow sc j (j + t) p).a = upd2 p.a (j + t) j (elim p.a j (j + t) j) := by
      unfold lowerRow; dsimp only; split <;> rfl
    have hb : p.big ≤ (lowerRow sc j (j + t) p).big ∧
        sc (j + t) * |elim p.a j (j + t) j| ≤ (lowerRow sc j (j + t) p).big := by
      unfold lowerRow; dsimp only
      split
      · rename_i h; exact ⟨h, le_refl _⟩
      · rename_i h; exact ⟨le_refl _, le_of_not_ge h⟩
    refine ⟨fun r q h => ?_, fun s hs => ?_, le_trans h3 hb.1, fun s hs => ?_, fun _ => ?_⟩
    · rw [ea, upd2, if_neg (by omega)]; exact h1 r q (by omega)
    · rw [ea]
      by_cases hst : s = t
      · subst hst; rw [upd2_same, es]
      · rw [upd2_row _ _ _ _ (by omega)]; exact h2 s (by omega)
    · rw [ea]
      by_cases hst : s = t
      · subst hst; rw [upd2_same]; exact hb.2
      · rw [upd2_row _ _ _ _ (by omega)]; exact le_trans (h4 s (by omega)) hb.1
    · rw [ea]
      unfold lowerRow; dsimp only
      split
      · exact ⟨j + t, rfl, by omega, by omega, by rw [upd2_same]⟩
      · rename_i h
        rcases Nat.eq_zero_or_pos t with h0 | h0
        · exfalso
          subst h0
          apply h
          exact mul_nonneg (le_of_lt (hsc 0 (by omega))) (abs_nonneg _)
        · obtain ⟨m, e1, e2, e3, e4⟩ := h5 h0
          exact ⟨m, e1, e2, by omega, by rw [upd2_row _ _ _ _ (by omega)]; exact e4⟩

omit [LinearOrder K] [IsStrictOrderedRing K] in
theorem swapRows_spec (a : ℕ → ℕ → K) (n p q i k : ℕ) :
    swapRows a n p q i k = if k < n then (if i = q then a p k else if i = p then a q k else a i k) else a i k := by
  unfold swapRows
  have : ∀ n i k, forN n (fun k a => upd2 (upd2 a p k (a q k)) q k (a p k)) a i k =
      if k < n then (if i = q then a p k else if i = p then a q k else a i k) else a i k := by
    intro n
    induction n with
    | zero => intro i k; simp
    | succ n ih =>
      intro i k
      rw [forN_succ]
      by_cases hk : k = n
      · subst hk
        simp only [upd2, ih, lt_irrefl, if_false, and_true, Nat.lt_succ_self, if_true]
      · rw [upd2_col _ _ _ _ hk, upd2_col _ _ _ _ hk, ih]
        by_cases h2 : k < n
        · rw [if_pos h2, if_pos (show k < n + 1 by omega)]
        · rw [if_neg h2, if_neg (show ¬ k < n + 1 by omega)]
  exact this n i k

omit [LinearOrder K] [IsStrictOrderedRing K] in
theorem scaleCol_spec (a : ℕ → ℕ → K) (n j i k : ℕ) :
    scaleCol a n j i k = if k = j ∧ j < i ∧ i < n then a i j / a j j else a i k := by
  unfold scaleCol
  have : ∀ m i k, forN m (fun t a' => upd2 a' (j + 1 + t) j (a' (j + 1 + t) j * (1 / a j j))) a i k =
      if k = j ∧ j < i ∧ i < j + 1 + m then a i j / a j j else a i k := by
    intro m
    induction m with
    | zero => intro i k; rw [forN_zero, if_neg (by omega)]
    | succ m ih =>
      intro i k
      rw [forN_succ, upd2]
      by_cases h : i = j + 1 + m ∧ k = j
      · obtain ⟨rfl, rfl⟩ := h
        rw [if_pos ⟨rfl, rfl⟩, ih, if_neg (by omega), if_pos (by omega), mul_one_div]
      · rw [if_neg h, ih]
        by_cases h2 : k = j ∧ j < i ∧ i < j + 1 + m
        · rw [if_pos h2, if_pos (by omega)]
        · rw [if_neg h2, if_neg (by omega)]
  rw [this]
  by_cases h2 : k = j ∧ j < i ∧ i < n
  · rw [if_pos h2, if_pos (by omega)]
  · rw [if_neg h2, if_neg (by omega)]

/-! ## Back substitution -/

omit [LinearOrder K] [IsStrictOrderedRing K] in
theorem back_spec (a : ℕ → ℕ → K) (n t : ℕ) (ht : t ≤ n) (hp : ∀ c < n, a c c ≠ 0) (y : ℕ → K) :
    let x := forN t (fun t => backRow a n (n - 1 - t)) y
    (∀ r, r < n - t → x r = y r) ∧
    (∀ r, n - t ≤ r → r < n → a r r * x r + ∑ s ∈ Finset.range (n - (r + 1)), a r (r + 1 + s) * x (r + 1 + s) = y r) := by
  induction t with
  | zero => exact ⟨fun _ _ => rfl, fun r h1 h2 => absurd h2 (by omega)⟩
  | succ t ih =>
    obtain ⟨h1, h2⟩ := ih (by omega)
    rw [forN_succ]
    set x := forN t (fun t => backRow a n (n - 1 - t)) y
    refine ⟨fun r hr => ?_, fun r hr hr' => ?_⟩
    · rw [backRow, upd_ne _ _ (by omega)]; exact h1 r (by omega)
    · have hs : ∀ s, backRow a n (n - 1 - t) x (r + 1 + s) = x (r + 1 + s) := fun s => by
        rw [backRow, upd_ne _ _ (by omega)]
      simp only [hs]
      by_cases e : r = n - 1 - t
      · subst e
        rw [backRow, upd_same, forN_sub, mul_div_cancel₀ _ (hp _ hr'), h1 _ (by omega)]
        ring
      · have : backRow a n (n - 1 - t) x r = x r := by rw [backRow, upd_ne _ _ e]
        rw [this]; exact h2 r (by omega) hr'

omit [LinearOrder K] [IsStrictOrderedRing K] in
/-- Back substitution solves `U x = y`. -/
theorem back_solves (a : ℕ → ℕ → K) (n : ℕ) (hp : ∀ c < n, a c c ≠ 0) (y : ℕ → K) (r : ℕ) (hr : r < n) :
    ∑ c ∈ Finset.range n, Um a r c * forN n (fun t => backRow a n (n - 1 - t)) y c = y r := by
  have h := (back_spec a n n (le_refl _) hp y).2 r (by omega) hr
  set x := forN n (fun t => backRow a n (n - 1 - t)) y
  rw [← h]
  have e : n = r + 1 + (n - (r + 1)) := by omega
  rw [e, Finset.sum_range_add, Finset.sum_range_succ]
  have z : ∑ c ∈ Finset.range r, Um a r c * x c = 0 := Finset.sum_eq_zero fun c hc => by
    rw [Finset.mem_range] at hc; rw [Um, if_neg (by omega), zero_mul]
  rw [z, zero_add, Um, if_pos (le_refl _)]
  congr 1
  have e2 : r + 1 + (n - (r + 1)) - (r + 1) = n - (r + 1) := by omega
  rw [e2]
  refine Finset.sum_congr rfl fun s _ => ?_
  rw [Um, if_pos (by omega)]

/-! ## The permutation -/

/-- The row exchanges recorded in `indx`, the first `j` of them: the row of the original matrix that is now row `i`. -/
def permOf (indx : ℕ → ℕ) : ℕ → Equiv.Perm ℕ
  | 0 => Equiv.refl ℕ
  | j + 1 => (Equiv.swap j (indx j)).trans (permOf indx j)

omit [LinearOrder K] [IsStrictOrderedRing K] [Field K] in
theorem permOf_congr {f g : ℕ → ℕ} {j : ℕ} (h : ∀ c < j, f c = g c) : permOf f j = permOf g j := by
  induction j with
  | zero => rfl
  | succ j ih => rw [permOf, permOf, ih fun c hc => h c (by omega), h j (by omega)]

theorem swap_lt {n j m i : ℕ} (hj : j < n) (hm : m < n) : Equiv.swap j m i < n ↔ i < n := by
  rw [Equiv.swap_apply_def]; split
  · subst_vars; exact ⟨fun _ => hj, fun _ => hm⟩
  · split
    · subst_vars; exact ⟨fun _ => hm, fun _ => hj⟩
    · exact Iff.rfl

theorem permOf_lt {indx : ℕ → ℕ} {n j : ℕ} (hj : j ≤ n) (h : ∀ c < j, indx c < n) (i : ℕ) :
    permOf indx j i < n ↔ i < n := by
  induction j generalizing i with
  | zero => exact Iff.rfl
  | succ j ih =>
    rw [permOf, Equiv.trans_apply, ih (by omega) (fun c hc => h c (by omega)), swap_lt (by omega) (h j (by omega))]

theorem permOf_stable {indx : ℕ → ℕ} {i j r : ℕ} (hij : i ≤ j) (hr : r < i) (h : ∀ c < j, c ≤ indx c) :
    permOf indx j r = permOf indx i r := by
  induction j with
  | zero => have : i = 0 := by omega
            subst this; rfl
  | succ j ih =>
    by_cases e : i = j + 1
    · rw [e]
    · have := h j (by omega)
      rw [permOf, Equiv.trans_apply, Equiv.swap_apply_of_ne_of_ne (by omega) (by omega)]
      exact ih (by omega) fun c hc => h c (by omega)

/-! ## Forward substitution -/

theorem fwd_spec (a : ℕ → ℕ → K) (indx : ℕ → ℕ) (n i : ℕ) (hi : i ≤ n) (hx : ∀ c < n, c ≤ indx c) (b : ℕ → K) :
    let s := forN i (fwdRow a indx) (none, b)
    (∀ r, i ≤ r → s.2 r = b (permOf indx i r)) ∧
    (∀ r < i, s.2 r = b (permOf indx n r) - ∑ k ∈ Finset.range r, a r k * s.2 k) ∧
    (match s.1 with
     | none => ∀ r < i, s.2 r = 0
     | some ii => ii < i ∧ ∀ r < ii, s.2 r = 0) := by
  induction i with
  | zero => refine ⟨fun _ _ => rfl, by simp, ?_⟩; simp
  | succ i ih =>
    obtain ⟨h1, h2, h3⟩ := ih (by omega)
    rw [forN_succ]
    set s := forN i (fwdRow a indx) (none, b)
    have hix := hx i (by omega)
    have esum : s.2 (indx i) = b (permOf indx n i) := by
      rw [h1 _ hix, permOf_stable (i := i + 1) hi (by omega) hx, permOf, Equiv.trans_apply, Equiv.swap_apply_left]
    -- the new value of entry i
    have key : ∃ ii' v, fwdRow a indx i s = (ii', upd (upd s.2 (indx i) (s.2 i)) i v) ∧
        v = b (permOf indx n i) - ∑ k ∈ Finset.range i, a i k * s.2 k ∧
        (match ii' with
         | none => v = 0 ∧ ∀ r < i, s.2 r = 0
         | some ii => ii < i + 1 ∧ ∀ r < ii, s.2 r = 0) := by
      unfold fwdRow
      cases e : s.1 with
      | none =>
        rw [e] at h3
        dsimp only at h3 ⊢
        refine ⟨_, _, rfl, ?_, ?_⟩
        · rw [esum, Finset.sum_eq_zero, sub_zero]
          intro k hk; rw [Finset.mem_range] at hk; rw [h3 k hk, mul_zero]
        · by_cases hs : s.2 (indx i) ≠ 0
          · rw [if_pos hs]; exact ⟨by omega, h3⟩
          · rw [if_neg hs]; exact ⟨not_not.1 hs, h3⟩
      | some ii =>
        rw [e] at h3
        dsimp only at h3 ⊢
        refine ⟨_, _, rfl, ?_, by omega, h3.2⟩
        rw [forN_sub, esum]
        congr 1
        have en : i = ii + (i - ii) := by omega
        conv_rhs => rw [en, Finset.sum_range_add]
        rw [Finset.sum_eq_zero (s := Finset.range ii), zero_add]
        · refine Finset.sum_congr rfl fun t ht => ?_
          rw [Finset.mem_range] at ht
          rw [upd_ne _ _ (by omega), ← en]
        · intro k hk; rw [Finset.mem_range] at hk; rw [h3.2 k hk, mul_zero]
    obtain ⟨ii', v, e, hv, hii⟩ := key
    rw [e]
    dsimp only
    have hlt : ∀ r < i, upd (upd s.2 (indx i) (s.2 i)) i v r = s.2 r := fun r hr => by
      rw [upd_ne _ _ (by omega), upd_ne _ _ (by omega)]
    refine ⟨fun r hr => ?_, fun r hr => ?_, ?_⟩
    · rw [upd_ne _ _ (by omega), permOf, Equiv.trans_apply]
      by_cases hre : r = indx i
      · rw [← hre, upd_same, Equiv.swap_apply_right, h1 i (le_refl _)]
      · rw [upd_ne _ _ hre, Equiv.swap_apply_of_ne_of_ne (by omega) hre, h1 r (by omega)]
    · by_cases hre : r = i
      · subst hre
        rw [upd_same]
        refine hv.trans ?_
        congr 1
        refine Finset.sum_congr rfl fun k hk => ?_
        rw [Finset.mem_range] at hk
        rw [hlt k hk]
      · rw [hlt r (by omega), h2 r (by omega)]
        congr 1
        refine Finset.sum_congr rfl fun k hk => ?_
        rw [Finset.mem_range] at hk
        rw [hlt k (by omega)]
    · cases ii' with
      | none =>
        dsimp only at hii ⊢
        intro r hr
        by_cases hre : r = i
        · rw [hre, upd_same, hii.1]
        · rw [hlt r (by omega), hii.2 r (by omega)]
      | some ii =>
        dsimp only at hii ⊢
        exact ⟨hii.1, fun r hr => by rw [hlt r (by omega), hii.2 r hr]⟩

end Ord
end
end Athena.Lu
