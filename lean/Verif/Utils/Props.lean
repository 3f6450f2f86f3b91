import Verif.Utils.Lemmas
import Verif.Utils.Quad
import Verif.Utils.Roots
import Mathlib.Data.Rat.Lemmas
import Mathlib.Algebra.Order.Ring.Rat

/-!
# Properties C37, C38, C40, C50 (src/utils.c)
-/

namespace Athena.Utils

/-! ## C37: greatest common divisor -/

/-- C37. For positive arguments `ath_gcd` returns the greatest common divisor: a positive common
divisor which every common divisor divides. -/
theorem athGcd_correct (a b : Int) (ha : 0 < a) (hb : 0 < b) :
    ∃ g, athGcd a b = .ok g ∧ 0 < g ∧ g ∣ a ∧ g ∣ b ∧ ∀ d, d ∣ a → d ∣ b → d ∣ g := by
  have key : athGcd a b = .ok (Int.gcd a b) := by
    unfold athGcd
    split
    · rw [gcdLoop_pos b a hb.le ha, Int.gcd_comm]
    · exact gcdLoop_pos a b ha.le hb
  refine ⟨_, key, ?_, Int.gcd_dvd_left .., Int.gcd_dvd_right .., ?_⟩
  · have : 0 < Int.gcd a b := Int.gcd_pos_of_ne_zero_left b ha.ne'
    exact_mod_cast this
  · intro d h1 h2
    exact Int.dvd_coe_gcd h1 h2

example : athGcd 12 18 = .ok 6 := by
  have := athGcd_correct 12 18 (by decide) (by decide)
  simp [athGcd, gcdLoop]

/-- C37, error branch. If either argument is zero (and the other is not negative) the code divides
by zero. -/
theorem athGcd_zero_ub (a : Int) (ha : 0 ≤ a) :
    athGcd a 0 = .ub ∧ athGcd 0 a = .ub := by
  have h0 : ∀ x, gcdLoop x 0 = .ub := by intro x; unfold gcdLoop; simp
  constructor
  · unfold athGcd; rw [if_neg (by omega)]; exact h0 a
  · unfold athGcd
    split
    · exact h0 a
    · have : a = 0 := by omega
      subst this; exact h0 0

/-! ## C38: byte swapping -/

/-- Byte `x` of a buffer of `len`-byte words whose words have each been reversed. -/
def revWords {β : Type _} (m : Nat → β) (len cnt : Nat) (x : Nat) : β :=
  if x < len * cnt then m (len * (x / len) + (len - 1 - x % len)) else m x

/-- C38. For the word lengths used by the output routines, every word of the buffer is reversed and
no other byte changes. -/
theorem bswap_reverses {β : Type _} (m : Nat → β) (len cnt : Nat)
    (hl : len = 1 ∨ len = 2 ∨ len = 4 ∨ len = 8) : bswap m len cnt = revWords m len cnt := by
  funext x
  rcases hl with rfl | rfl | rfl | rfl
  · simp [bswap, revWords]
  · simp only [bswap, revWords]
    simp [swapLoop_spec _ 2 (by omega) swapWord2_rev]
  · simp only [bswap, revWords]
    simp [swapLoop_spec _ 4 (by omega) swapWord4_rev]
  · simp only [bswap, revWords]
    simp [swapLoop_spec _ 8 (by omega) swapWord8_rev]

/-- C38. Swapping twice restores the buffer (round trip big/little endian). -/
theorem bswap_involutive {β : Type _} (m : Nat → β) (len cnt : Nat)
    (hl : len = 1 ∨ len = 2 ∨ len = 4 ∨ len = 8) : bswap (bswap m len cnt) len cnt = m := by
  have hpos : 0 < len := by omega
  rw [bswap_reverses _ _ _ hl, bswap_reverses _ _ _ hl]
  funext x
  unfold revWords
  by_cases h : x < len * cnt
  · rw [if_pos h]
    have hm := Nat.mod_lt x hpos
    have hx := Nat.div_add_mod x len
    have hq : x / len < cnt := Nat.div_lt_of_lt_mul h
    have hlt : len * (x / len) + (len - 1 - x % len) < len * cnt := by
      have : len * (x/len + 1) ≤ len * cnt := Nat.mul_le_mul_left _ hq
      rw [Nat.mul_add] at this; omega
    rw [if_pos hlt]
    have hlt2 : len - 1 - x % len < len := by
      generalize x % len = r; omega
    have e1 : (len * (x / len) + (len - 1 - x % len)) / len = x / len := by
      rw [Nat.mul_add_div hpos, Nat.div_eq_of_lt hlt2, Nat.add_zero]
    have e2 : (len * (x / len) + (len - 1 - x % len)) % len = len - 1 - x % len := by
      rw [Nat.mul_add_mod]; exact Nat.mod_eq_of_lt hlt2
    rw [e1, e2]; congr 1; omega
  · rw [if_neg h, if_neg h]

example : bswap (fun i => i) 4 2 1 = 2 ∧ bswap (fun i => i) 4 2 4 = 7 ∧
    bswap (fun i => i) 4 2 8 = 8 := by decide

/-- C38, general word length, one word: the word is reversed (true part of the general claim). -/
theorem bswap_general_partial {β : Type _} (m : Nat → β) (len : Nat)
    (hl : len ≠ 1 ∧ len ≠ 2 ∧ len ≠ 4 ∧ len ≠ 8) (x : Nat) :
    bswap m len 1 x = revWords m len 1 x := by
  unfold bswap revWords
  rw [if_neg hl.1, if_neg hl.2.1, if_neg hl.2.2.1, if_neg hl.2.2.2]
  rw [swapGeneral_spec len (len/2) 0 m x (by omega)]
  by_cases h : x < len * 1
  · rw [if_pos h]
    have h' : x < len := by omega
    rw [Nat.div_eq_of_lt h', Nat.mod_eq_of_lt h']
    by_cases h2 : 0 ≤ x ∧ x < 0 + len / 2 ∨ len - 0 - len / 2 ≤ x ∧ x < len - 0
    · rw [if_pos h2]; congr 1; omega
    · rw [if_neg h2]; congr 1; omega
  · rw [if_neg h, if_neg (by omega)]

example : (3 : Nat) ≠ 1 ∧ (3 : Nat) ≠ 2 ∧ (3 : Nat) ≠ 4 ∧ (3 : Nat) ≠ 8 := by decide

/-- C38 is false of the code for other word lengths: with two words of three bytes only the first
word is swapped, because the general branch (src/utils.c:103-109) ignores `cnt`. -/
theorem bswap_general_false :
    ¬ ∀ (m : Nat → Nat) (len cnt : Nat), bswap m len cnt = revWords m len cnt := by
  intro h
  have := congrFun (h (fun i => i) 3 2) 3
  revert this
  decide

/-! ## C40: extrema and root finding -/

section
variable {α : Type _} [LinearOrder α]

/-- C40. `minmax1` returns members of the array bounding all members. -/
theorem minmax1_correct (data : List α) (hne : data ≠ []) :
    ∃ r, minmax1 data = .ok r ∧ Extremes data r := by
  match data, hne with
  | x :: xs, _ =>
    refine ⟨_, rfl, ?_⟩
    exact (minmaxRow_ext [x] (x :: xs) (x, x) (Extremes.single x)).of_dup (by simp)

/-- C40. `minmax2` returns the extreme members of the whole 2D array. -/
theorem minmax2_correct (row : List α) (rows : List (List α)) (hne : row ≠ []) :
    ∃ r, minmax2 (row :: rows) = .ok r ∧ Extremes (row :: rows).flatten r := by
  match row, hne with
  | x :: xs, _ =>
    refine ⟨_, rfl, ?_⟩
    exact (minmaxPlane_ext [x] ((x :: xs) :: rows) (x, x) (Extremes.single x)).of_dup (by simp)

/-- C40. `minmax3` returns the extreme members of the whole 3D array. -/
theorem minmax3_correct (row : List α) (rows : List (List α)) (pls : List (List (List α)))
    (hne : row ≠ []) :
    ∃ r, minmax3 ((row :: rows) :: pls) = .ok r ∧
      Extremes ((row :: rows) :: pls).flatten.flatten r := by
  match row, hne with
  | x :: xs, _ =>
    refine ⟨_, rfl, ?_⟩
    exact (minmaxVol_ext [x] (((x :: xs) :: rows) :: pls) (x, x) (Extremes.single x)).of_dup
      (by simp)

end

example : minmax3 [[[3, 1], [4, 1]], [[5, 9], [2, 6]]] = (.ok (1, 9) : Res (Nat × Nat)) := by decide

section
variable {F : Type _} [Field F] [LinearOrder F] [IsStrictOrderedRing F]

/-- C40. An interval returned by `sign_change` lies inside the given one and the function changes
sign on it. -/
theorem signChange_found (f : F → F) (a0 b0 a b : F) (hab : a0 < b0)
    (h : signChange f a0 b0 = some (a, b)) : a0 ≤ a ∧ a < b ∧ b ≤ b0 ∧ f a * f b < 0 := by
  obtain ⟨m, hm1, hm2, hi⟩ := signOuter_some f a0 b0 20 1 a b h
  obtain ⟨i, hi1, rfl, rfl, hs⟩ := signInner_some f _ _ _ _ _ hi
  have h2 : 2 ≤ 2^m := by
    calc 2 = 2^1 := by norm_num
      _ ≤ 2^m := Nat.pow_le_pow_right (by omega) hm1
  have hn : (0:F) < ((2^m - 1 : Nat) : F) := by
    have : 0 < 2^m - 1 := by omega
    exact_mod_cast this
  set d := (b0 - a0) / ((2^m - 1 : Nat) : F) with hd
  have hdpos : 0 < d := div_pos (by linarith) hn
  have hle : ((i + 1 : Nat) : F) * d ≤ b0 - a0 := by
    have h3 : ((i + 1 : Nat) : F) ≤ ((2^m - 1 : Nat) : F) := by
      have : i + 1 ≤ 2^m - 1 := by omega
      exact_mod_cast this
    calc ((i + 1 : Nat) : F) * d ≤ ((2^m - 1 : Nat) : F) * d :=
          mul_le_mul_of_nonneg_right h3 hdpos.le
      _ = b0 - a0 := by rw [hd]; field_simp
  refine ⟨?_, ?_, ?_, ?_⟩
  · have : 0 ≤ (i : F) * d := by positivity
    linarith
  · push_cast; linarith
  · linarith
  · rw [mul_comm]; exact hs

omit [IsStrictOrderedRing F] in
/-- C40. `sign_change` fails exactly when the function does not change sign between neighbouring
points on any of the twenty grids of `2^k` points. -/
theorem signChange_none_iff (f : F → F) (a0 b0 : F) :
    signChange f a0 b0 = none ↔
      ∀ k, 1 ≤ k → k ≤ 20 → ∀ i < 2^k - 1,
        ¬ f (a0 + (i + 1 : Nat) * ((b0 - a0) / ((2^k - 1 : Nat) : F)))
          * f (a0 + i * ((b0 - a0) / ((2^k - 1 : Nat) : F))) < 0 := by
  unfold signChange
  rw [signOuter_none]
  constructor
  · intro h k h1 h2
    exact (signInner_none f _ _ _).mp (h k h1 (by omega))
  · intro h k h1 h2
    exact (signInner_none f _ _ _).mpr (h k h1 (by omega))

example : signChange (fun x : Rat => x) (-1) 2 = some (-1, 2) := by
  norm_num [signChange, signOuter, signInner]

/-- C40. If the interval is not already narrower than the tolerance, a point returned by `bisection`
lies in the interval and either is a root to within the tolerance, or is the midpoint of a
sub-interval on which the function changes sign and whose relative width is below the tolerance. -/
theorem bisection_success_partial (f : F → F) (a0 b0 r : F) (hab : a0 ≤ b0)
    (hwide : ¬ |(b0 - a0) / ((a0 + b0)/2)| < tol)
    (h : bisection f a0 b0 = .ok r) :
    a0 ≤ r ∧ r ≤ b0 ∧ (|f r| < tol ∨ ∃ a b, a0 ≤ a ∧ a ≤ b ∧ b ≤ b0 ∧ f a * f b < 0 ∧
      r = (a + b)/2 ∧ |(b - a) / r| < tol) := by
  have h1 : a0 ≤ (a0 + b0) / 2 := by linarith
  have h2 : (a0 + b0) / 2 ≤ b0 := by linarith
  simp only [bisection] at h
  split at h
  · rename_i hc
    simp only [Res.ok.injEq] at h; subst h
    exact ⟨le_refl _, hab, Or.inl hc⟩
  split at h
  · rename_i hc
    simp only [Res.ok.injEq] at h; subst h
    exact ⟨hab, le_refl _, Or.inl hc⟩
  rw [bisectLoop] at h
  simp only at h
  rw [if_neg (fun hh => hwide hh.2)] at h
  split at h
  · rename_i hs
    obtain ⟨g1, g2, g3⟩ := bisectLoop_ok f _ _ _ _ h1 hs h
    refine ⟨g1, g2.trans h2, ?_⟩
    rcases g3 with g3 | ⟨a', b', k1, k2, k3, k4, k5, k6, k7⟩
    · left; rw [g3, abs_zero]; exact tol_pos
    · exact Or.inr ⟨a', b', k1, k2, k3.trans h2, k4, k5, k7⟩
  split at h
  · rename_i hs
    obtain ⟨g1, g2, g3⟩ := bisectLoop_ok f _ _ _ _ h2 hs h
    refine ⟨h1.trans g1, g2, ?_⟩
    rcases g3 with g3 | ⟨a', b', k1, k2, k3, k4, k5, k6, k7⟩
    · left; rw [g3, abs_zero]; exact tol_pos
    · exact Or.inr ⟨a', b', h1.trans k1, k2, k3, k4, k5, k7⟩
  split at h
  · rename_i hs
    simp only [Res.ok.injEq] at h; subst h
    exact ⟨h1, h2, Or.inl (by rw [hs, abs_zero]; exact tol_pos)⟩
  · simp at h

/-- C40. On a positive interval on which the function changes sign, not astronomically wide,
`bisection` always succeeds (it never stops with "no single root" or "did not converge"). -/
theorem bisection_succeeds (f : F → F) (a0 b0 : F) (ha : 0 < a0) (hab : a0 ≤ b0)
    (hf : f a0 * f b0 < 0) (hw : b0 - a0 < tol * a0 * 2^399) :
    ∃ r, bisection f a0 b0 = .ok r := by
  simp only [bisection]
  split
  · exact ⟨_, rfl⟩
  split
  · exact ⟨_, rfl⟩
  exact bisectLoop_succeeds f 399 a0 b0 ha hab hf hw

example : (0:Rat) < 1 ∧ (1:Rat) ≤ 3 ∧ (((1:Rat)^2 - 2) * ((3:Rat)^2 - 2) < 0) ∧
    (3:Rat) - 1 < tol * 1 * 2^399 := by
  refine ⟨by norm_num, by norm_num, by norm_num, ?_⟩
  have h : (2:Rat)^40 ≤ 2^399 := pow_le_pow_right₀ (by norm_num) (by norm_num)
  have h2 : (3:Rat) - 1 < tol * 1 * 2^40 := by norm_num [tol]
  exact lt_of_lt_of_le h2 (mul_le_mul_of_nonneg_left h (by norm_num [tol]))

end

/-- C40 is false of the code without the width hypothesis: on a narrow interval `bisection` reports
success although the function has no root at all (src/utils.c:569-575 tests the width before
looking at the signs). -/
theorem bisection_success_false :
    ¬ ∀ (f : Rat → Rat) (a0 b0 r : Rat), a0 ≤ b0 → bisection f a0 b0 = .ok r →
      (|f r| < tol ∨ ∃ a b, a0 ≤ a ∧ a ≤ b ∧ b ≤ b0 ∧ f a * f b < 0) := by
  intro h
  have h1 := h (fun _ => 1) 1 (1 + 1/10^11) ((1 + (1 + 1/10^11))/2) (by norm_num) (by
    have hw : |((1:Rat) + 1/10^11 - 1) / ((1 + (1 + 1/10^11))/2)| < tol := by
      rw [abs_of_pos (by norm_num)]; norm_num [tol]
    have h1 : ¬ |(1:Rat)| < tol := by norm_num [tol]
    simp only [bisection]
    rw [if_neg h1, if_neg h1, bisectLoop]
    simp only
    rw [if_pos ⟨by norm_num, hw⟩])
  rcases h1 with h1 | ⟨a, b, _, _, _, h5⟩
  · norm_num [tol] at h1
  · norm_num at h5

/-! ## C50: quadrature -/

section
variable {F : Type _} [Field F] [LinearOrder F] [IsStrictOrderedRing F]

/-- C50. Calling `trapzd` successively with `n = 1, 2, …` yields the composite trapezoidal rule with
`2^(n-1)` panels. -/
theorem trapzd_refines (f : F → F) (a b s0 : F) (n : Nat) (hn : 1 ≤ n) :
    trapSeq f a b s0 n = trapezoidRule f a b (2^(n-1)) := by
  obtain ⟨k, rfl⟩ := Nat.exists_eq_add_of_le hn
  rw [Nat.add_comm, trapSeq_eq]; congr 1

theorem qsimpLoop_ok (f : F → F) (a b : F) (fuel j : Nat) (r os : F) (hj : 1 ≤ j)
    (h : qsimpLoop f a b fuel (j+1) (trapezoidRule f a b (2^(j-1))) os = .ok r) :
    ∃ m, j ≤ m ∧ 5 ≤ m ∧ m < j + fuel ∧ r = simpsonRule f a b (2^(m-1)) := by
  induction fuel generalizing j os with
  | zero => simp [qsimpLoop] at h
  | succ n ih =>
    have hT : trapzd f a b (j+1) (trapezoidRule f a b (2^(j-1))) = trapezoidRule f a b (2^j) := by
      have := trapSeq_eq f a b 0 j
      rw [trapSeq] at this
      rw [trapzd_refines f a b 0 j hj] at this
      exact this
    have hS : (4 * trapezoidRule f a b (2^j) - trapezoidRule f a b (2^(j-1))) / 3
        = simpsonRule f a b (2^(j-1)) := by
      rw [← simpson_eq f a b _ (by positivity)]
      congr 4
      conv_lhs => rw [show j = (j-1)+1 by omega]
      rw [pow_succ]; ring
    simp only [qsimpLoop, hT, hS] at h
    split at h
    · rename_i hj5
      simp only [Res.ok.injEq] at h
      exact ⟨j, le_refl _, by omega, by omega, h.symm⟩
    · obtain ⟨m, h1, h2, h3, h4⟩ := ih (j+1) _ (by omega) h
      exact ⟨m, by omega, by omega, by omega, h4⟩

/-- C50. Whatever `qsimp` returns is a composite Simpson sum with at least 16 (and at most `2^18`)
panels. -/
theorem qsimp_simpson (f : F → F) (a b r : F) (h : qsimp f a b = .ok r) :
    ∃ m, 4 ≤ m ∧ m ≤ 18 ∧ r = simpsonRule f a b (2^m) := by
  unfold qsimp at h
  rw [qsimpLoop] at h
  rw [if_neg (by omega)] at h
  have hT : trapzd f a b 1 (-10^30) = trapezoidRule f a b (2^(1-1)) := by
    have := trapzd_refines f a b (-10^30) 1 (le_refl _)
    simpa [trapSeq] using this
  rw [hT] at h
  obtain ⟨m, h1, h2, h3, h4⟩ := qsimpLoop_ok f a b 19 1 r _ (le_refl _) h
  exact ⟨m-1, by omega, by omega, h4⟩

theorem qsimpLoop_cubic (c0 c1 c2 c3 a b : F) (fuel j : Nat) (hj : 2 ≤ j) (hf : 7 ≤ j + fuel)
    (hf1 : 1 ≤ fuel) (I : F)
    (hI : I = c0*(b-a) + c1*(b^2-a^2)/2 + c2*(b^3-a^3)/3 + c3*(b^4-a^4)/4) :
    qsimpLoop (fun x => c0 + c1*x + c2*x^2 + c3*x^3) a b fuel (j+1)
      (trapezoidRule (fun x => c0 + c1*x + c2*x^2 + c3*x^3) a b (2^(j-1))) I = .ok I := by
  set f : F → F := fun x => c0 + c1*x + c2*x^2 + c3*x^3 with hfdef
  induction fuel generalizing j with
  | zero => omega
  | succ n ih =>
    have hT : trapzd f a b (j+1) (trapezoidRule f a b (2^(j-1))) = trapezoidRule f a b (2^j) := by
      have := trapSeq_eq f a b 0 j
      rw [trapSeq] at this
      rw [trapzd_refines f a b 0 j (by omega)] at this
      exact this
    have hS : (4 * trapezoidRule f a b (2^j) - trapezoidRule f a b (2^(j-1))) / 3 = I := by
      rw [hI, ← simpson_cubic c0 c1 c2 c3 a b (2^(j-1)) (by positivity), ← hfdef,
        ← simpson_eq f a b _ (by positivity)]
      congr 4
      conv_lhs => rw [show j = (j-1)+1 by omega]
      rw [pow_succ]; ring
    simp only [qsimpLoop, hT, hS]
    by_cases h5 : 5 < j + 1
    · rw [if_pos]
      refine ⟨h5, ?_⟩
      by_cases h0 : I = 0
      · right; exact ⟨h0, h0⟩
      · left
        rw [sub_self, abs_zero]
        exact mul_pos (by unfold eps; positivity) (abs_pos.mpr h0)
    · rw [if_neg (fun hh => h5 hh.1)]
      exact ih (j+1) (by omega) (by omega) (by omega)

/-- C50. `qsimp` integrates every polynomial of degree at most three exactly, on every interval. -/
theorem qsimp_cubic (c0 c1 c2 c3 a b : F) :
    qsimp (fun x => c0 + c1*x + c2*x^2 + c3*x^3) a b =
      .ok (c0*(b-a) + c1*(b^2-a^2)/2 + c2*(b^3-a^3)/3 + c3*(b^4-a^4)/4) := by
  set f : F → F := fun x => c0 + c1*x + c2*x^2 + c3*x^3 with hfdef
  unfold qsimp
  have hT1 : trapzd f a b 1 (-10^30) = trapezoidRule f a b (2^(1-1)) := by
    have := trapzd_refines f a b (-10^30) 1 (le_refl _)
    simpa [trapSeq] using this
  have hT2 : trapzd f a b 2 (trapezoidRule f a b (2^(1-1))) = trapezoidRule f a b (2^1) := by
    have := trapSeq_eq f a b 0 1
    rw [trapSeq] at this
    rw [trapzd_refines f a b 0 1 (by omega)] at this
    exact this
  rw [qsimpLoop]
  simp only [hT1]
  rw [if_neg (by omega)]
  rw [qsimpLoop]
  simp only [Nat.reduceAdd]
  rw [if_neg (by omega), hT2]
  have hS : (4 * trapezoidRule f a b (2^1) - trapezoidRule f a b (2^(1-1))) / 3
      = c0*(b-a) + c1*(b^2-a^2)/2 + c2*(b^3-a^3)/3 + c3*(b^4-a^4)/4 := by
    rw [← simpson_cubic c0 c1 c2 c3 a b (2^(1-1)) (by positivity), ← hfdef,
      ← simpson_eq f a b _ (by positivity)]
    norm_num
  rw [hS]
  exact qsimpLoop_cubic c0 c1 c2 c3 a b 18 2 (by omega) (by omega) (by omega) _ rfl

end

example : qsimp (fun x : Rat => 1 + 0*x + 0*x^2 + 4*x^3) 0 2 = .ok 18 := by
  rw [qsimp_cubic]; norm_num

end Athena.Utils
