import Verif.Utils.Lemmas
import Mathlib.Tactic.Positivity

/-! Helper lemmas about `sign_change` and `bisection`. -/

namespace Athena.Utils

variable {F : Type _} [Field F] [LinearOrder F] [IsStrictOrderedRing F]

omit [IsStrictOrderedRing F] in
theorem signInner_some (f : F → F) (d : F) (s : Nat) (a p q : F)
    (h : signInner f d s a (f a) = some (p, q)) :
    ∃ i < s, p = a + i * d ∧ q = a + (i + 1 : Nat) * d ∧ f q * f p < 0 := by
  induction s generalizing a with
  | zero => simp [signInner] at h
  | succ n ih =>
    simp only [signInner] at h
    split at h
    · rename_i hneg
      simp only [Option.some.injEq, Prod.mk.injEq] at h
      obtain ⟨rfl, rfl⟩ := h
      exact ⟨0, by omega, by simp, by simp, hneg⟩
    · obtain ⟨i, hi, hp, hq, hs⟩ := ih (a + d) h
      refine ⟨i+1, by omega, ?_, ?_, hs⟩
      · rw [hp]; push_cast; ring
      · rw [hq]; push_cast; ring

omit [IsStrictOrderedRing F] in
theorem signInner_none (f : F → F) (d : F) (s : Nat) (a : F) :
    signInner f d s a (f a) = none ↔
    ∀ i < s, ¬ f (a + (i + 1 : Nat) * d) * f (a + i * d) < 0 := by
  induction s generalizing a with
  | zero => simp [signInner]
  | succ n ih =>
    simp only [signInner]
    split
    · rename_i hneg
      simp only [reduceCtorEq, false_iff, not_forall]
      refine ⟨0, by omega, ?_⟩
      simpa using hneg
    · rename_i hneg
      rw [ih (a + d)]
      constructor
      · intro h i hi
        cases i with
        | zero => simpa using hneg
        | succ j =>
          have := h j (by omega)
          have e1 : a + d + ((j+1 : Nat) : F) * d = a + ((j + 1 + 1 : Nat) : F) * d := by
            push_cast; ring
          have e2 : a + d + ((j : Nat) : F) * d = a + ((j + 1 : Nat) : F) * d := by
            push_cast; ring
          rw [e1, e2] at this
          exact this
      · intro h j hj
        have := h (j+1) (by omega)
        have e1 : a + d + ((j+1 : Nat) : F) * d = a + ((j + 1 + 1 : Nat) : F) * d := by
          push_cast; ring
        have e2 : a + d + ((j : Nat) : F) * d = a + ((j + 1 : Nat) : F) * d := by
          push_cast; ring
        rw [e1, e2]
        exact this

omit [IsStrictOrderedRing F] in
theorem signOuter_some (f : F → F) (a0 b0 : F) (fuel k : Nat) (p q : F)
    (h : signOuter f a0 b0 fuel k = some (p, q)) :
    ∃ m, k ≤ m ∧ m < k + fuel ∧
      signInner f ((b0 - a0) / ((2^m - 1 : Nat) : F)) (2^m-1) a0 (f a0) = some (p, q) := by
  induction fuel generalizing k with
  | zero => simp [signOuter] at h
  | succ n ih =>
    simp only [signOuter] at h
    split at h
    · rename_i r hr
      rw [h] at hr
      exact ⟨k, le_refl _, by omega, hr⟩
    · obtain ⟨m, h1, h2, h3⟩ := ih (k+1) h
      exact ⟨m, by omega, by omega, h3⟩

omit [IsStrictOrderedRing F] in
theorem signOuter_none (f : F → F) (a0 b0 : F) (fuel k : Nat) :
    signOuter f a0 b0 fuel k = none ↔ ∀ m, k ≤ m → m < k + fuel →
      signInner f ((b0 - a0) / ((2^m - 1 : Nat) : F)) (2^m-1) a0 (f a0) = none := by
  induction fuel generalizing k with
  | zero =>
    simp only [signOuter, true_iff]
    intro m h1 h2; omega
  | succ n ih =>
    simp only [signOuter]
    split
    · rename_i r hr
      simp only [reduceCtorEq, false_iff, not_forall]
      exact ⟨k, le_refl _, by omega, by rw [hr]; simp⟩
    · rename_i hr
      rw [ih]
      constructor
      · intro h m h1 h2
        rcases Nat.eq_or_lt_of_le h1 with rfl | h1
        · exact hr
        · exact h m (by omega) (by omega)
      · intro h m h1 h2
        exact h m (by omega) (by omega)

theorem tol_pos : (0 : F) < tol := by unfold tol; positivity

theorem bisectLoop_ok (f : F → F) (n : Nat) (a b r : F) (hab : a ≤ b) (hf : f a * f b < 0)
    (h : bisectLoop f n a b (f a) (f b) = .ok r) :
    a ≤ r ∧ r ≤ b ∧ (f r = 0 ∨ ∃ a' b', a ≤ a' ∧ a' ≤ b' ∧ b' ≤ b ∧ f a' * f b' < 0 ∧
      r = (a' + b') / 2 ∧ r ≠ 0 ∧ |(b' - a') / r| < tol) := by
  induction n generalizing a b with
  | zero => simp [bisectLoop] at h
  | succ n ih =>
    have h1 : a ≤ (a + b) / 2 := by linarith
    have h2 : (a + b) / 2 ≤ b := by linarith
    simp only [bisectLoop] at h
    split at h
    · rename_i hc
      simp only [Res.ok.injEq] at h
      subst h
      exact ⟨h1, h2, Or.inr ⟨a, b, le_refl _, hab, le_refl _, hf, rfl, hc⟩⟩
    · split at h
      · rename_i hs
        obtain ⟨g1, g2, g3⟩ := ih a _ h1 hs h
        refine ⟨g1, g2.trans h2, ?_⟩
        rcases g3 with g3 | ⟨a', b', k1, k2, k3, k4⟩
        · exact Or.inl g3
        · exact Or.inr ⟨a', b', k1, k2, k3.trans h2, k4⟩
      · split at h
        · rename_i hs
          obtain ⟨g1, g2, g3⟩ := ih _ b h2 hs h
          refine ⟨h1.trans g1, g2, ?_⟩
          rcases g3 with g3 | ⟨a', b', k1, k2, k3, k4⟩
          · exact Or.inl g3
          · exact Or.inr ⟨a', b', h1.trans k1, k2, k3, k4⟩
        · split at h
          · rename_i hs
            simp only [Res.ok.injEq] at h
            subst h
            exact ⟨h1, h2, Or.inl hs⟩
          · simp at h

theorem bisectLoop_succeeds (f : F → F) (n : Nat) (a b : F) (ha : 0 < a) (hab : a ≤ b)
    (hf : f a * f b < 0) (hw : (b - a) < tol * a * 2^n) :
    ∃ r, bisectLoop f (n+1) a b (f a) (f b) = .ok r := by
  induction n generalizing a b with
  | zero =>
    have hc : 0 < (a + b) / 2 := by linarith
    refine ⟨(a+b)/2, ?_⟩
    have : |(b - a) / ((a + b)/2)| < tol := by
      rw [abs_of_nonneg (div_nonneg (by linarith) hc.le), div_lt_iff₀ hc]
      have h2 : tol * a ≤ tol * ((a+b)/2) := by
        apply mul_le_mul_of_nonneg_left _ tol_pos.le; linarith
      simp at hw; linarith
    simp only [bisectLoop]
    rw [if_pos ⟨hc.ne', this⟩]
  | succ n ih =>
    have h1 : a ≤ (a + b) / 2 := by linarith
    have h2 : (a + b) / 2 ≤ b := by linarith
    rw [bisectLoop]
    simp only
    split
    · exact ⟨_, rfl⟩
    · split
      · rename_i hs
        apply ih a _ ha h1 hs
        rw [pow_succ] at hw; linarith
      · split
        · rename_i hs
          apply ih _ b (by linarith) h2 hs
          have h3 : tol * a * 2^n ≤ tol * ((a+b)/2) * 2^n := by
            apply mul_le_mul_of_nonneg_right _ (by positivity)
            exact mul_le_mul_of_nonneg_left h1 tol_pos.le
          rw [pow_succ] at hw; linarith
        · rename_i hs1 hs2
          split
          · exact ⟨_, rfl⟩
          · rename_i hne
            exfalso
            set fc := f ((a+b)/2)
            rcases lt_or_gt_of_ne hne with hfc | hfc
            · have g1 : f a ≤ 0 := by
                by_contra h; push Not at h; exact hs1 (mul_neg_of_pos_of_neg h hfc)
              have g2 : f b ≤ 0 := by
                by_contra h; push Not at h; exact hs2 (mul_neg_of_neg_of_pos hfc h)
              have := mul_nonneg_of_nonpos_of_nonpos g1 g2
              linarith
            · have g1 : 0 ≤ f a := by
                by_contra h; push Not at h; exact hs1 (mul_neg_of_neg_of_pos h hfc)
              have g2 : 0 ≤ f b := by
                by_contra h; push Not at h; exact hs2 (mul_neg_of_pos_of_neg hfc h)
              have := mul_nonneg g1 g2
              linarith

end Athena.Utils
