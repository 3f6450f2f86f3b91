import Verif.Utils.LuLemmas
import Mathlib.Data.Rat.Cast.Order
import Mathlib.LinearAlgebra.Matrix.NonsingularInverse
import Mathlib.LinearAlgebra.Matrix.Block
import Mathlib.LinearAlgebra.Matrix.ToLinearEquiv
import Mathlib.Tactic.NormNum

/-!
# C39: LU decomposition solves linear systems, inverts matrices, and reports zero rows
-/

namespace Athena.Lu
open Athena

variable {K : Type} [Field K] [LinearOrder K] [IsStrictOrderedRing K]

/-! ## Specification -/

/-- `A x = b` for the n×n matrix `A`. -/
def Solves (A : ℕ → ℕ → K) (n : ℕ) (x b : ℕ → K) : Prop := ∀ i < n, ∑ j ∈ Finset.range n, A i j * x j = b i

/-- `A x = 0` only for `x = 0`. -/
def Nonsingular (A : ℕ → ℕ → K) (n : ℕ) : Prop := ∀ x, Solves A n x (fun _ => 0) → ∀ j < n, x j = 0

/-- The product of two n×n matrices is the identity. -/
def Inverse (A B : ℕ → ℕ → K) (n : ℕ) : Prop :=
  ∀ i < n, ∀ j < n, ∑ k ∈ Finset.range n, A i k * B k j = if i = j then 1 else 0

/-! ## The invariant of the loop over columns -/

structure Inv (A : ℕ → ℕ → K) (n j : ℕ) (s : LuSt K) : Prop where
  lu : ∀ i < n, ∀ c < j, lu s.a i c = A (permOf s.indx j i) c
  rest : ∀ i < n, ∀ c, j ≤ c → c < n → s.a i c = A (permOf s.indx j i) c
  piv : ∀ c < j, s.a c c ≠ 0
  sc : ∀ i, j ≤ i → i < n → 0 < s.sc i
  idx : ∀ c < j, c ≤ s.indx c ∧ s.indx c < n

/-- If all candidates for a pivot vanish, the matrix is singular. -/
theorem singular_of_zero {A : ℕ → ℕ → K} {n j : ℕ} (hj : j < n) {s : LuSt K} (h : Inv A n j s) (w : ℕ → K)
    (hw : ∀ i < n, A (permOf s.indx j i) j = ∑ k ∈ Finset.range j, Lm s.a i k * w k) : ¬ Nonsingular A n := by
  intro hns
  let y := forN j (fun t => backRow s.a j (j - 1 - t)) w
  have hy := back_solves s.a j h.piv w
  let x : ℕ → K := fun c => if c < j then y c else if c = j then -1 else 0
  have hx : Solves A n x (fun _ => 0) := by
    intro i0 hi0
    obtain ⟨i, rfl⟩ := (permOf s.indx j).surjective i0
    have hi : i < n := (permOf_lt (by omega) (fun c hc => (h.idx c hc).2) i).1 hi0
    rw [sum_trunc (m := j + 1) hj, Finset.sum_range_succ]
    · have e1 : ∑ c ∈ Finset.range j, A (permOf s.indx j i) c * x c = A (permOf s.indx j i) j := by
        rw [hw i hi]
        have : ∀ c ∈ Finset.range j, A (permOf s.indx j i) c * x c =
            ∑ k ∈ Finset.range j, Lm s.a i k * (Um s.a k c * y c) := by
          intro c hc
          rw [Finset.mem_range] at hc
          rw [← h.lu i hi c hc, ← lu_sum s.a (n := j) (Or.inr hc), Finset.sum_mul]
          simp only [x, if_pos hc, mul_assoc]
        rw [Finset.sum_congr rfl this, Finset.sum_comm]
        refine Finset.sum_congr rfl fun k hk => ?_
        rw [Finset.mem_range] at hk
        rw [← Finset.mul_sum, hy k hk]
      rw [e1]
      simp [x]
    · intro k h1 _
      have : x k = 0 := by simp only [x]; rw [if_neg (by omega), if_neg (by omega)]
      rw [this, mul_zero]
  have := hns x hx j hj
  simp [x] at this

theorem column_inv {A : ℕ → ℕ → K} {n : ℕ} (hA : Nonsingular A n) (tiny : K) {j : ℕ} (hj : j < n) {s : LuSt K}
    (h : Inv A n j s) : ∃ s' m, column tiny n j s = .ok s' ∧ Inv A n (j+1) s' ∧ s'.indx = upd s.indx j m ∧ j ≤ m ∧ m < n ∧
      s'.d = if j ≠ m then -s.d else s.d := by
  obtain ⟨u1, u2⟩ := upper_spec s.a j j (le_refl _)
  have lw := lower_spec s.sc (upper s.a j) j (n - j) s.imax (fun t ht => h.sc _ (by omega) (by omega))
  rw [← upper] at u1 u2
  rw [← lower] at lw
  set u := upper s.a j with hu
  set p := lower s.sc u n j s.imax with hp
  obtain ⟨l1, l2, l3, l4, l5⟩ := lw
  obtain ⟨m, em, hjm, hmn0, hbig⟩ := l5 (by omega)
  have hmn : m < n := by omega
  -- the column after elimination
  have w1 : ∀ i < j, p.a i j = s.a i j - ∑ k ∈ Finset.range i, s.a i k * p.a k j := by
    intro i hi
    rw [l1 i j (by omega), u2 i hi]
    congr 1
    refine Finset.sum_congr rfl fun k hk => ?_
    rw [Finset.mem_range] at hk
    rw [l1 k j (by omega)]
  have w2 : ∀ i, j ≤ i → i < n → p.a i j = s.a i j - ∑ k ∈ Finset.range j, s.a i k * p.a k j := by
    intro i hi hin
    have := l2 (i - j) (by omega)
    rw [Nat.add_sub_cancel' hi] at this
    rw [this, u1 i j (by omega)]
    congr 1
    refine Finset.sum_congr rfl fun k hk => ?_
    rw [Finset.mem_range] at hk
    rw [u1 i k (by omega), l1 k j (by omega)]
  have w3 : ∀ i c, c ≠ j → p.a i c = s.a i c := fun i c hc => by rw [l1 i c (by omega), u1 i c (by omega)]
  -- the pivot
  have hpiv : p.a m j ≠ 0 := by
    intro hz
    have hz' : ∀ i, j ≤ i → i < n → p.a i j = 0 := by
      intro i hi hin
      have := l4 (i - j) (by omega)
      rw [Nat.add_sub_cancel' hi, hbig, hz, abs_zero, mul_zero] at this
      have h0 := mul_nonneg (le_of_lt (h.sc i hi hin)) (abs_nonneg (p.a i j))
      have h1 : s.sc i * |p.a i j| = 0 := le_antisymm this h0
      rcases mul_eq_zero.1 h1 with h2 | h2
      · exact absurd h2 (ne_of_gt (h.sc i hi hin))
      · exact abs_eq_zero.1 h2
    refine singular_of_zero hj h (fun k => p.a k j) ?_ hA
    intro i hi
    rw [← h.rest i hi j (le_refl _) hj]
    by_cases hij : i < j
    · have e := w1 i hij
      rw [sum_trunc (m := i + 1) (by omega), Finset.sum_range_succ]
      · have : ∑ k ∈ Finset.range i, Lm s.a i k * p.a k j = ∑ k ∈ Finset.range i, s.a i k * p.a k j :=
          Finset.sum_congr rfl fun k hk => by rw [Finset.mem_range] at hk; rw [Lm, if_pos hk]
        rw [this, Lm, if_neg (by omega), if_pos rfl]
        linear_combination -e
      · intro k h1 _; rw [Lm, if_neg (by omega), if_neg (by omega), zero_mul]
    · have e := w2 i (by omega) hi
      rw [hz' i (by omega) hi] at e
      have : ∑ k ∈ Finset.range j, Lm s.a i k * p.a k j = ∑ k ∈ Finset.range j, s.a i k * p.a k j :=
        Finset.sum_congr rfl fun k hk => by rw [Finset.mem_range] at hk; rw [Lm, if_pos (by omega)]
      rw [this]
      linear_combination -e
  -- after the exchange
  let a2 : ℕ → ℕ → K := if j ≠ m then swapRows p.a n m j else p.a
  have ha2 : ∀ i c, c < n → a2 i c = p.a (Equiv.swap j m i) c := by
    intro i c hc
    by_cases hjm' : j = m
    · simp only [a2, if_neg (not_not.2 hjm')]; rw [hjm', Equiv.swap_self]; rfl
    · simp only [a2, ne_eq, hjm', not_false_iff, if_true]
      rw [swapRows_spec, if_pos hc, Equiv.swap_apply_def]
      split
      · rfl
      · split <;> rfl
  have ha2j : a2 j j = p.a m j := by rw [ha2 j j hj, Equiv.swap_apply_left]
  have hne : a2 j j ≠ 0 := by rw [ha2j]; exact hpiv
  let sc2 : ℕ → K := if j ≠ m then upd s.sc m (s.sc j) else s.sc
  let d2 : K := if j ≠ m then -s.d else s.d
  let s' : LuSt K := ⟨scaleCol a2 n j, upd s.indx j m, d2, sc2, some m⟩
  have ecol : column tiny n j s = .ok s' := by
    unfold column
    simp only [← hu, ← hp, em]
    have : (if (if j ≠ m then swapRows p.a n m j else p.a) j j = 0 then
        upd2 (if j ≠ m then swapRows p.a n m j else p.a) j j tiny
      else if j ≠ m then swapRows p.a n m j else p.a) = a2 := if_neg hne
    rw [this]
  have eperm : ∀ i, permOf (upd s.indx j m) (j+1) i = permOf s.indx j (Equiv.swap j m i) := by
    intro i
    rw [permOf, upd_same, permOf_congr (g := s.indx) fun c hc => upd_ne _ _ (by omega)]; rfl
  have swl : ∀ i < j, Equiv.swap j m i = i := fun i hi => Equiv.swap_apply_of_ne_of_ne (by omega) (by omega)
  have swg : ∀ i, j ≤ i → i < n → j ≤ Equiv.swap j m i ∧ Equiv.swap j m i < n := by
    intro i hi hin
    rw [Equiv.swap_apply_def]
    split
    · omega
    · split <;> omega
  have sa : ∀ i c, c < n → (c ≠ j ∨ i ≤ j) → s'.a i c = p.a (Equiv.swap j m i) c := by
    intro i c hc hcj
    show scaleCol a2 n j i c = _
    rw [scaleCol_spec, if_neg (by omega), ha2 i c hc]
  have sb : ∀ i, j < i → i < n → s'.a i j = p.a (Equiv.swap j m i) j / p.a m j := by
    intro i hi hin
    show scaleCol a2 n j i j = _
    rw [scaleCol_spec, if_pos (by omega), ha2 i j hj, ha2j]
  refine ⟨s', m, ecol, ⟨?_, ?_, ?_, ?_, ?_⟩, rfl, hjm, hmn, rfl⟩
  · intro i hi c hc
    show lu s'.a i c = A (permOf (upd s.indx j m) (j+1) i) c
    rw [eperm]
    have hcn : c < n := by omega
    by_cases hcj : c = j
    · subst hcj
      by_cases hic : i < c
      · -- upper part
        rw [swl i hic, ← h.rest i hi c (le_refl _) hj, lu, if_pos (by omega)]
        have e := w1 i hic
        have : ∑ k ∈ Finset.range i, s'.a i k * s'.a k c = ∑ k ∈ Finset.range i, s.a i k * p.a k c :=
          Finset.sum_congr rfl fun k hk => by
            rw [Finset.mem_range] at hk
            rw [sa i k (by omega) (by omega), sa k c hcn (by omega), swl i hic, swl k (by omega), w3 i k (by omega)]
        rw [this, sa i c hcn (by omega), swl i hic]
        linear_combination e
      · obtain ⟨g1, g2⟩ := swg i (by omega) hi
        rw [← h.rest _ g2 c (le_refl _) hj]
        have e := w2 _ g1 g2
        have hsum : ∑ k ∈ Finset.range c, s'.a i k * s'.a k c = ∑ k ∈ Finset.range c, s.a (Equiv.swap c m i) k * p.a k c :=
          Finset.sum_congr rfl fun k hk => by
            rw [Finset.mem_range] at hk
            rw [sa i k (by omega) (by omega), sa k c hcn (by omega), swl k (by omega), w3 _ k (by omega)]
        by_cases hic' : i = c
        · subst hic'
          rw [lu, if_pos (le_refl _), hsum, sa i i hcn (by omega)]
          linear_combination e
        · rw [lu, if_neg (by omega), hsum, sb i (by omega) hi, sa c c hcn (by omega), Equiv.swap_apply_left,
            div_mul_cancel₀ _ hpiv]
          linear_combination e
    · have hcj' : c < j := by omega
      have hsw : (Equiv.swap j m i) < n := (swap_lt hj hmn).2 hi
      rw [← h.lu _ hsw c hcj']
      by_cases hij : i < j
      · rw [swl i hij]
        have : ∀ k q, k ≤ i → q < n → q ≠ j → s'.a k q = s.a k q := fun k q hk hq hqj => by
          rw [sa k q hq (by omega), swl k (by omega), w3 k q hqj]
        have t2 : ∀ k q, k < j → q < n → q ≠ j → s'.a k q = s.a k q := fun k q hk hq hqj => by
          rw [sa k q hq (by omega), swl k (by omega), w3 k q hqj]
        unfold lu
        by_cases hic : i ≤ c
        · rw [if_pos hic, if_pos hic, t2 i c hij hcn (by omega)]
          congr 1
          refine Finset.sum_congr rfl fun k hk => ?_
          rw [Finset.mem_range] at hk
          rw [t2 i k hij (by omega) (by omega), t2 k c (by omega) hcn (by omega)]
        · rw [if_neg hic, if_neg hic, t2 i c hij hcn (by omega), t2 c c (by omega) hcn (by omega)]
          congr 1
          refine Finset.sum_congr rfl fun k hk => ?_
          rw [Finset.mem_range] at hk
          rw [t2 i k hij (by omega) (by omega), t2 k c (by omega) hcn (by omega)]
      · obtain ⟨g1, g2⟩ := swg i (by omega) hi
        have t2 : ∀ k q, k < j → q < n → q ≠ j → s'.a k q = s.a k q := fun k q hk hq hqj => by
          rw [sa k q hq (by omega), swl k (by omega), w3 k q hqj]
        have t3 : ∀ q, q < n → q ≠ j → s'.a i q = s.a (Equiv.swap j m i) q := fun q hq hqj => by
          rw [sa i q hq (by omega), w3 _ q hqj]
        unfold lu
        rw [if_neg (by omega), if_neg (by omega), t3 c hcn (by omega), t2 c c (by omega) hcn (by omega)]
        congr 1
        refine Finset.sum_congr rfl fun k hk => ?_
        rw [Finset.mem_range] at hk
        rw [t3 k (by omega) (by omega), t2 k c (by omega) hcn (by omega)]
  · intro i hi c hc hcn
    show s'.a i c = A (permOf (upd s.indx j m) (j+1) i) c
    rw [eperm, sa i c hcn (by omega), w3 _ c (by omega)]
    exact h.rest _ ((swap_lt hj hmn).2 hi) c (by omega) hcn
  · intro c hc
    by_cases hcj : c = j
    · subst hcj; rw [sa c c (by omega) (by omega), Equiv.swap_apply_left]; exact hpiv
    · rw [sa c c (by omega) (by omega), swl c (by omega), w3 c c hcj]; exact h.piv c (by omega)
  · intro i hi hin
    show 0 < sc2 i
    by_cases hjm' : j = m
    · simp only [sc2, if_neg (not_not.2 hjm')]; exact h.sc i (by omega) hin
    · simp only [sc2, ne_eq, hjm', not_false_iff, if_true]
      by_cases him : i = m
      · rw [him, upd_same]; exact h.sc j (le_refl _) hj
      · rw [upd_ne _ _ him]; exact h.sc i (by omega) hin
  · intro c hc
    show c ≤ upd s.indx j m c ∧ upd s.indx j m c < n
    by_cases hcj : c = j
    · subst hcj; rw [upd_same]; exact ⟨hjm, hmn⟩
    · rw [upd_ne _ _ hcj]; exact h.idx c (by omega)

/-- Determinant of the n×n matrix. -/
def det (A : ℕ → ℕ → K) (n : ℕ) : K := (Matrix.of fun i j : Fin n => A i j).det

theorem columns_inv {A : ℕ → ℕ → K} {n : ℕ} (hA : Nonsingular A n) (tiny : K) {sc : ℕ → K} (hsc : ∀ i < n, 0 < sc i) (j : ℕ)
    (hj : j ≤ n) : ∃ s, forN j (fun j r => r.bind (column tiny n j)) (.ok ⟨A, fun _ => 0, 1, sc, none⟩ : Res (LuSt K)) = .ok s ∧
      Inv A n j s ∧ s.d * det (fun i c => A (permOf s.indx j i) c) n = det A n := by
  induction j with
  | zero =>
    refine ⟨_, rfl, ⟨fun i _ c hc => absurd hc (by omega), fun i _ c _ _ => rfl, fun c hc => absurd hc (by omega),
      fun i _ hi => hsc i hi, fun c hc => absurd hc (by omega)⟩, ?_⟩
    simp [permOf]
  | succ j ih =>
    obtain ⟨s, e, h, hd⟩ := ih (by omega)
    obtain ⟨s', m, e', h', hx, hjm, hmn, hd'⟩ := column_inv hA tiny (by omega) h
    refine ⟨s', ?_, h', ?_⟩
    · rw [forN_succ, e]; exact e'
    · have eperm : ∀ i, permOf s'.indx (j+1) i = permOf s.indx j (Equiv.swap j m i) := by
        intro i
        rw [hx, permOf, upd_same, permOf_congr (g := s.indx) fun c hc => upd_ne _ _ (by omega)]; rfl
      have hsw : ∀ i : Fin n, Equiv.swap j m (i : ℕ) = ((Equiv.swap (⟨j, by omega⟩ : Fin n) ⟨m, hmn⟩ i : Fin n) : ℕ) := by
        intro i
        rw [Equiv.swap_apply_def, Equiv.swap_apply_def]
        by_cases h1 : (i : ℕ) = j
        · rw [if_pos h1, if_pos (Fin.ext h1)]
        · rw [if_neg h1, if_neg (fun e => h1 (congrArg Fin.val e))]
          by_cases h2 : (i : ℕ) = m
          · rw [if_pos h2, if_pos (Fin.ext h2)]
          · rw [if_neg h2, if_neg (fun e => h2 (congrArg Fin.val e))]
      rw [← hd, hd']
      have edet : det (fun i c => A (permOf s'.indx (j+1) i) c) n =
          Equiv.Perm.sign (Equiv.swap (⟨j, by omega⟩ : Fin n) ⟨m, hmn⟩) * det (fun i c => A (permOf s.indx j i) c) n := by
        unfold det
        rw [← Matrix.det_permute]
        congr 1
        ext i c
        simp only [Matrix.of_apply, Matrix.submatrix_apply, id, eperm, hsw]
      rw [edet]
      by_cases hjm' : j = m
      · subst hjm'
        simp
      · rw [if_pos hjm', Equiv.Perm.sign_swap (fun e => hjm' (congrArg Fin.val e))]
        simp

theorem zeroRow_singular {A : ℕ → ℕ → K} {n i : ℕ} (hi : i < n) (h : ∀ j < n, A i j = 0) : ¬ Nonsingular A n := by
  classical
  intro hA
  -- a square matrix with a zero row has determinant zero, hence a kernel
  have hdet : (Matrix.of fun i j : Fin n => A i j).det = 0 :=
    Matrix.det_eq_zero_of_row_eq_zero ⟨i, hi⟩ fun j => h j j.2
  obtain ⟨v, hv, hv0⟩ := Matrix.exists_mulVec_eq_zero_iff.2 hdet
  apply hv
  funext j
  have := hA (fun k => if hk : k < n then v ⟨k, hk⟩ else 0) (fun r hr => by
    have e := congrFun hv0 ⟨r, hr⟩
    simp only [Matrix.mulVec, dotProduct, Matrix.of_apply, Pi.zero_apply] at e
    rw [← Fin.sum_univ_eq_sum_range (fun k => A r k * if hk : k < n then v ⟨k, hk⟩ else 0) n]
    simpa using e) j j.2
  simpa using this

theorem ludcmp_inv {A : ℕ → ℕ → K} {n : ℕ} (hA : Nonsingular A n) (tiny : K) :
    ∃ s, ludcmp tiny A n = .ok (s.a, s.indx, s.d) ∧ Inv A n n s ∧
      s.d * det (fun i c => A (permOf s.indx n i) c) n = det A n := by
  rcases scales_spec A n n with ⟨⟨i, hi, hz⟩, _⟩ | ⟨_, sc, hsc, e⟩
  · exact absurd hA (zeroRow_singular hi hz)
  · obtain ⟨s, e2, h, hd⟩ := columns_inv hA tiny hsc n (le_refl _)
    refine ⟨s, ?_, h, hd⟩
    unfold ludcmp scales
    rw [e]
    simp only [Res.bind] at e2 ⊢
    rw [e2]

theorem lubksb_of_inv {A : ℕ → ℕ → K} {n : ℕ} {s : LuSt K} (h : Inv A n n s) (b : ℕ → K) :
    Solves A n (lubksb s.a n s.indx b) b := by
  intro i0 hi0
  obtain ⟨i, rfl⟩ := (permOf s.indx n).surjective i0
  have hi : i < n := (permOf_lt (le_refl _) (fun c hc => (h.idx c hc).2) i).1 hi0
  obtain ⟨_, f2, _⟩ := fwd_spec s.a s.indx n n (le_refl _) (fun c hc => (h.idx c hc).1) b
  have bs := back_solves s.a n h.piv (forN n (fwdRow s.a s.indx) (none, b)).2
  rw [lubksb]
  set y := (forN n (fwdRow s.a s.indx) (none, b)).2
  set x := forN n (fun t => backRow s.a n (n - 1 - t)) y
  have : ∀ c ∈ Finset.range n, A (permOf s.indx n i) c * x c = ∑ k ∈ Finset.range n, Lm s.a i k * (Um s.a k c * x c) := by
    intro c hc
    rw [Finset.mem_range] at hc
    rw [← h.lu i hi c hc, ← lu_sum s.a (n := n) (Or.inr hc), Finset.sum_mul]
    simp only [mul_assoc]
  rw [Finset.sum_congr rfl this, Finset.sum_comm]
  have e2 : ∀ k ∈ Finset.range n, ∑ c ∈ Finset.range n, Lm s.a i k * (Um s.a k c * x c) = Lm s.a i k * y k := by
    intro k hk
    rw [Finset.mem_range] at hk
    rw [← Finset.mul_sum, bs k hk]
  rw [Finset.sum_congr rfl e2, sum_trunc (m := i + 1) hi, Finset.sum_range_succ]
  · have e3 : ∑ k ∈ Finset.range i, Lm s.a i k * y k = ∑ k ∈ Finset.range i, s.a i k * y k :=
      Finset.sum_congr rfl fun k hk => by rw [Finset.mem_range] at hk; rw [Lm, if_pos hk]
    rw [e3, Lm, if_neg (by omega), if_pos rfl]
    linear_combination f2 i hi
  · intro k h1 _; rw [Lm, if_neg (by omega), if_neg (by omega), zero_mul]

/-! ## The theorems -/

/-- **C39.** For every dimension and every nonsingular matrix `ludcmp` returns, and `lubksb` then solves `A x = b` for every
right-hand side. -/
theorem lu_solves (tiny : K) (A : ℕ → ℕ → K) (n : ℕ) (hA : Nonsingular A n) :
    ∃ a indx d, ludcmp tiny A n = .ok (a, indx, d) ∧ ∀ b, Solves A n (lubksb a n indx b) b := by
  obtain ⟨s, e, h, _⟩ := ludcmp_inv hA tiny
  exact ⟨s.a, s.indx, s.d, e, lubksb_of_inv h⟩

/-- **C39, determinant.** The value returned in `*d` is `±1` and makes `d` times the product of the diagonal the determinant. -/
theorem lu_det (tiny : K) (A : ℕ → ℕ → K) (n : ℕ) (hA : Nonsingular A n) :
    ∃ a indx d, ludcmp tiny A n = .ok (a, indx, d) ∧ det A n = d * ∏ i ∈ Finset.range n, a i i := by
  obtain ⟨s, e, h, hd⟩ := ludcmp_inv hA tiny
  refine ⟨s.a, s.indx, s.d, e, ?_⟩
  rw [← hd]
  congr 1
  have key : (Matrix.of fun i j : Fin n => A (permOf s.indx n i) j) =
      (Matrix.of fun i j : Fin n => Lm s.a i j) * (Matrix.of fun i j : Fin n => Um s.a i j) := by
    ext i j
    rw [Matrix.mul_apply]
    simp only [Matrix.of_apply]
    rw [Fin.sum_univ_eq_sum_range (fun k => Lm s.a i k * Um s.a k j) n, lu_sum _ (Or.inl i.2), h.lu i i.2 j j.2]
  rw [det, key, Matrix.det_mul, Matrix.det_of_lowerTriangular, Matrix.det_of_upperTriangular]
  · simp only [Matrix.of_apply, Lm, Um, lt_irrefl, if_false, if_true, le_refl, Finset.prod_const_one, one_mul]
    rw [Fin.prod_univ_eq_prod_range (fun i => s.a i i) n]
  · intro i j hij
    have : (j : ℕ) < i := hij
    simp only [Matrix.of_apply, Um]; rw [if_neg (by omega)]
  · intro i j hij
    have : (i : ℕ) < j := hij
    simp only [Matrix.of_apply, Lm]; rw [if_neg (by omega), if_neg (by omega)]

theorem unit_spec (n j : ℕ) (i : ℕ) : upd (forN n (fun i c => upd c i (0 : K)) fun _ => 0) j 1 i = if i = j then 1 else 0 := by
  have : ∀ n i, forN n (fun i c => upd c i (0 : K)) (fun _ => 0) i = 0 := by
    intro n
    induction n with
    | zero => intro i; rfl
    | succ n ih => intro i; rw [forN_succ, upd, ih]; split <;> rfl
  rw [upd, this]

theorem fill_spec {α : Type} (n : ℕ) (F : ℕ → ℕ → α) (b0 : ℕ → ℕ → α) (m : ℕ) (i j : ℕ) :
    forN m (fun j b => forN n (fun i b => upd2 b i j (F j i)) b) b0 i j = if i < n ∧ j < m then F j i else b0 i j := by
  have inner : ∀ j n (b : ℕ → ℕ → α) i k, forN n (fun i b => upd2 b i j (F j i)) b i k =
      if i < n ∧ k = j then F j i else b i k := by
    intro j n b
    induction n with
    | zero => intro i k; rw [forN_zero, if_neg (by omega)]
    | succ n ih =>
      intro i k
      rw [forN_succ, upd2]
      by_cases h : i = n ∧ k = j
      · rw [if_pos h, if_pos (by omega), h.1]
      · rw [if_neg h, ih]
        by_cases h2 : i < n ∧ k = j
        · rw [if_pos h2, if_pos (by omega)]
        · rw [if_neg h2, if_neg (by omega)]
  induction m with
  | zero => rw [forN_zero, if_neg (by omega)]
  | succ m ih =>
    rw [forN_succ, inner]
    by_cases h : i < n ∧ j = m
    · rw [if_pos h, if_pos (by omega), h.2]
    · rw [if_neg h, ih]
      by_cases h2 : i < n ∧ j < m
      · rw [if_pos h2, if_pos (by omega)]
      · rw [if_neg h2, if_neg (by omega)]

/-- **C39, inverse.** For every nonsingular matrix `InverseMatrix` returns the inverse, on both sides. -/
theorem inverse_ok (tiny : K) (A : ℕ → ℕ → K) (n : ℕ) (hA : Nonsingular A n) :
    ∃ B, inverseMatrix tiny A n = .ok B ∧ Inverse A B n ∧ Inverse B A n := by
  obtain ⟨a, indx, d, e, h⟩ := lu_solves tiny A n hA
  let B : ℕ → ℕ → K := forN n (fun j b =>
    forN n (fun i b => upd2 b i j (lubksb a n indx (upd (forN n (fun i c => upd c i (0 : K)) fun _ => 0) j 1) i)) b) fun _ _ => 0
  have hB : B = forN n (fun j b =>
    forN n (fun i b => upd2 b i j (lubksb a n indx (upd (forN n (fun i c => upd c i (0 : K)) fun _ => 0) j 1) i)) b) fun _ _ => 0 := rfl
  refine ⟨B, by unfold inverseMatrix; rw [e]; rfl, ?_⟩
  have hr : Inverse A B n := by
    intro i hi j hj
    rw [← unit_spec (K := K) n j i, ← h (upd (forN n (fun i c => upd c i (0 : K)) fun _ => 0) j 1) i hi]
    refine Finset.sum_congr rfl fun k hk => ?_
    rw [Finset.mem_range] at hk
    rw [hB, fill_spec n (fun j => lubksb a n indx (upd (forN n (fun i c => upd c i (0 : K)) fun _ => 0) j 1)), if_pos ⟨hk, hj⟩]
  refine ⟨hr, ?_⟩
  have hm : (Matrix.of fun i j : Fin n => A i j) * (Matrix.of fun i j : Fin n => B i j) = 1 := by
    ext i j
    rw [Matrix.mul_apply, Matrix.one_apply]
    simp only [Matrix.of_apply]
    rw [Fin.sum_univ_eq_sum_range (fun k => A i k * B k j) n, hr i i.2 j j.2]
    simp only [Fin.ext_iff]
  have hm' := mul_eq_one_comm.1 hm
  intro i hi j hj
  have := congrFun (congrFun hm' ⟨i, hi⟩) ⟨j, hj⟩
  rw [Matrix.mul_apply, Matrix.one_apply] at this
  simp only [Matrix.of_apply, Fin.mk.injEq] at this
  rw [← this, Fin.sum_univ_eq_sum_range (fun k => B i k * A k j) n]

/-- **C39, product.** `MatrixMult` computes the product whatever `c` contained, and leaves the rest of `c` alone. -/
theorem matrixMult_ok (a b : ℕ → ℕ → K) (m n l : ℕ) (c : ℕ → ℕ → K) (i j : ℕ) :
    matrixMult a b m n l c i j = if i < m ∧ j < l then ∑ k ∈ Finset.range n, a i k * b k j else c i j := by
  have h1 : ∀ i j n (c : ℕ → ℕ → K) p q, forN n (fun k c => upd2 c i j (c i j + a i k * b k j)) (upd2 c i j 0) p q =
      if p = i ∧ q = j then ∑ k ∈ Finset.range n, a i k * b k j else c p q := by
    intro i j n c
    induction n with
    | zero => intro p q; simp [upd2]
    | succ n ih =>
      intro p q
      rw [forN_succ, upd2, ih, ih, Finset.sum_range_succ]
      by_cases h : p = i ∧ q = j
      · rw [if_pos h, if_pos h, if_pos ⟨rfl, rfl⟩]
      · rw [if_neg h, if_neg h, if_neg h]
  have h2 : ∀ i l (c : ℕ → ℕ → K) p q, forN l (fun j c =>
      forN n (fun k c => upd2 c i j (c i j + a i k * b k j)) (upd2 c i j 0)) c p q =
      if p = i ∧ q < l then ∑ k ∈ Finset.range n, a i k * b k q else c p q := by
    intro i l c
    induction l with
    | zero => intro p q; simp
    | succ l ih =>
      intro p q
      rw [forN_succ, h1]
      by_cases h : p = i ∧ q = l
      · rw [if_pos h, if_pos (by omega), h.2]
      · rw [if_neg h, ih]
        by_cases h3 : p = i ∧ q < l
        · rw [if_pos h3, if_pos (by omega)]
        · rw [if_neg h3, if_neg (by omega)]
  unfold matrixMult
  induction m with
  | zero => simp
  | succ m ih =>
    rw [forN_succ, h2]
    by_cases h : i = m ∧ j < l
    · rw [if_pos h, if_pos (by omega), h.1]
    · rw [if_neg h, ih]
      by_cases h3 : i < m ∧ j < l
      · rw [if_pos h3, if_pos (by omega)]
      · rw [if_neg h3, if_neg (by omega)]

/-- **C39, errors.** `ludcmp` calls `ath_error` exactly if some row of the matrix is zero. -/
theorem lu_error_iff (tiny : K) (A : ℕ → ℕ → K) (n : ℕ) :
    ludcmp tiny A n = .fatal ↔ ∃ i < n, ∀ j < n, A i j = 0 := by
  rcases scales_spec A n n with ⟨hz, e⟩ | ⟨hn, sc, _, e⟩
  · refine ⟨fun _ => hz, fun _ => ?_⟩
    unfold ludcmp scales; rw [e]; rfl
  · refine ⟨fun h => ?_, fun h => absurd h hn⟩
    exfalso
    unfold ludcmp scales at h
    rw [e] at h
    have nf : ∀ m, forN m (fun j (r : Res (LuSt K)) => r.bind (column tiny n j)) (.ok ⟨A, fun _ => 0, 1, sc, none⟩) ≠ .fatal := by
      intro m
      induction m with
      | zero => simp
      | succ m ih =>
        rw [forN_succ]
        revert ih
        generalize forN m (fun j (r : Res (LuSt K)) => r.bind (column tiny n j)) (.ok ⟨A, fun _ => 0, 1, sc, none⟩) = r
        intro ih
        cases r with
        | ok a => simp only [Res.bind]; unfold column; dsimp only; split <;> simp
        | fatal => exact absurd rfl ih
        | ub => simp [Res.bind]
    have := nf n
    change (forN n (fun j (r : Res (LuSt K)) => r.bind (column tiny n j)) (.ok ⟨A, fun _ => 0, 1, sc, none⟩)).bind
      (fun s => .ok (s.a, s.indx, s.d)) = .fatal at h
    revert h this
    generalize forN n (fun j (r : Res (LuSt K)) => r.bind (column tiny n j)) (.ok ⟨A, fun _ => 0, 1, sc, none⟩) = r
    cases r <;> simp [Res.bind]

/-- **C39, definedness.** For every matrix `ludcmp` returns or reports an error: the pivot index is never used unset. -/
theorem lu_no_ub (tiny : K) (A : ℕ → ℕ → K) (n : ℕ) : ludcmp tiny A n ≠ .ub := by
  rcases scales_spec A n n with ⟨_, e⟩ | ⟨_, sc, hsc, e⟩
  · unfold ludcmp scales; rw [e]; simp [Res.bind]
  · have nf : ∀ m ≤ n, ∃ s : LuSt K, (∀ i, m ≤ i → i < n → 0 < s.sc i) ∧
        forN m (fun j (r : Res (LuSt K)) => r.bind (column tiny n j)) (.ok ⟨A, fun _ => 0, 1, sc, none⟩) = .ok s := by
      intro m hm
      induction m with
      | zero => exact ⟨_, fun i _ hi => hsc i hi, rfl⟩
      | succ m ih =>
        obtain ⟨s, hs, es⟩ := ih (by omega)
        obtain ⟨_, _, _, _, l5⟩ := lower_spec s.sc (upper s.a m) m (n - m) s.imax (fun t ht => hs _ (by omega) (by omega))
        obtain ⟨x, ex, hx1, hx2, _⟩ := l5 (by omega)
        rw [← lower] at ex
        rw [forN_succ, es]
        simp only [Res.bind]
        unfold column
        simp only [ex]
        refine ⟨_, ?_, rfl⟩
        intro i hi hin
        dsimp only
        by_cases hmx : m = x
        · rw [if_neg (not_not.2 hmx)]; exact hs i (by omega) hin
        · rw [if_pos hmx]
          by_cases hix : i = x
          · rw [hix, upd_same]; exact hs m (le_refl _) (by omega)
          · rw [upd_ne _ _ hix]; exact hs i (by omega) hin
    obtain ⟨s, _, es⟩ := nf n (le_refl _)
    unfold ludcmp scales
    rw [e]
    simp only [Res.bind] at es ⊢
    rw [es]
    simp

/-- A singular matrix without a zero row is not reported: `ludcmp` returns, and the "solution" of `A x = b` need not solve it. -/
theorem lu_singular_false : ¬ ∀ (A : ℕ → ℕ → ℚ) (n : ℕ), ¬ Nonsingular A n → ludcmp (1/10^20) A n = .fatal := by
  intro h
  have h1 := h (fun _ _ => 1) 2 (by
    intro hn
    have := hn (fun j => if j = 0 then 1 else -1) (by intro i _; simp [Finset.sum_range_succ]) 0 (by omega)
    simp at this)
  rw [lu_error_iff] at h1
  obtain ⟨i, hi, hz⟩ := h1
  have := hz 0 (by omega)
  norm_num at this

/-! ## Examples -/

/-- A 2×2 matrix that needs a row exchange. -/
def exA : ℕ → ℕ → ℚ := fun i j => if i = 0 then (if j = 0 then 1 else 2) else (if j = 0 then 3 else 4)

example : Nonsingular exA 2 := by
  intro x hx j hj
  have h0 := hx 0 (by omega)
  have h1 := hx 1 (by omega)
  simp only [exA, Finset.sum_range_succ, Finset.sum_range_zero, zero_add, if_true, if_false, one_ne_zero] at h0 h1
  have : j = 0 ∨ j = 1 := by omega
  rcases this with rfl | rfl <;> linarith

example : ∃ i < 2, ∀ j < 2, (fun (i _ : ℕ) => if i = 0 then (1 : ℚ) else 0) i j = 0 := ⟨1, by omega, by intro j _; rfl⟩

end Athena.Lu
