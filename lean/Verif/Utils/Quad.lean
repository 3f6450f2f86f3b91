import Verif.Utils.Lemmas
import Mathlib.Algebra.BigOperators.Field
import Mathlib.Algebra.BigOperators.Ring.Finset
import Mathlib.Tactic.Positivity

/-! Specification of quadrature rules and helper lemmas. -/

namespace Athena.Utils
open Finset

variable {F : Type _} [Field F] [LinearOrder F] [IsStrictOrderedRing F]

/-- Composite trapezoidal rule with `N` equal panels: the sum of the panel areas. -/
def trapezoidRule (f : F → F) (a b : F) (N : Nat) : F :=
  ∑ i ∈ range N, ((b - a) / N) *
    ((f (a + i * ((b - a) / N)) + f (a + (i + 1 : Nat) * ((b - a) / N))) / 2)

/-- Composite Simpson rule on `N` panels, each with its midpoint. -/
def simpsonRule (f : F → F) (a b : F) (N : Nat) : F :=
  ∑ i ∈ range N, ((b - a) / N) / 6 *
    (f (a + i * ((b - a) / N)) + 4 * f (a + i * ((b - a) / N) + ((b - a) / N) / 2)
      + f (a + (i + 1 : Nat) * ((b - a) / N)))

/-- The estimates produced by calling `trapzd` with `n = 1, 2, 3, …` and feeding each result back. -/
def trapSeq (f : F → F) (a b s0 : F) : Nat → F
  | 0 => s0
  | n+1 => trapzd f a b (n+1) (trapSeq f a b s0 n)

theorem trapSum_eq (f : F → F) (dx : F) (it : Nat) (x s : F) :
    trapSum f dx it x s = s + ∑ i ∈ range it, f (x + i * dx) := by
  induction it generalizing x s with
  | zero => simp [trapSum]
  | succ n ih =>
    rw [trapSum, ih, Finset.sum_range_succ']
    have : ∀ i : Nat, x + dx + (i:F) * dx = x + ((i + 1 : Nat) : F) * dx := by
      intro i; push_cast; ring
    simp only [this]
    push_cast
    simp only [zero_mul, add_zero]
    ring

theorem sum_two_mul (g : Nat → F) (N : Nat) :
    ∑ i ∈ range (2*N), g i = ∑ i ∈ range N, (g (2*i) + g (2*i+1)) := by
  induction N with
  | zero => simp
  | succ n ih =>
    rw [show 2*(n+1) = 2*n+1+1 by ring, sum_range_succ, sum_range_succ, ih, sum_range_succ]
    ring

theorem trapezoid_double (f : F → F) (a b : F) (N : Nat) (hN : 0 < N) :
    trapezoidRule f a b (2*N) =
      (trapezoidRule f a b N + (b - a) * (∑ i ∈ range N, f (a + ((b-a)/N)/2 + i * ((b-a)/N))) / N) / 2 := by
  have hN' : (N : F) ≠ 0 := by exact_mod_cast hN.ne'
  unfold trapezoidRule
  rw [sum_two_mul, mul_sum, sum_div, ← sum_add_distrib, sum_div]
  apply sum_congr rfl
  intro i _
  have e1 : a + ((2*i : Nat):F) * ((b - a)/((2*N : Nat):F)) = a + i * ((b-a)/N) := by
    push_cast; field_simp
  have e2 : a + ((2*i + 1 : Nat):F) * ((b - a)/((2*N : Nat):F)) = a + ((b-a)/N)/2 + i * ((b-a)/N) := by
    push_cast; field_simp; ring
  have e3 : a + ((2*i + 1 + 1 : Nat):F) * ((b - a)/((2*N : Nat):F)) = a + (i+1 : Nat) * ((b-a)/N) := by
    push_cast; field_simp; ring
  rw [e1, e2, e3]
  push_cast
  field_simp
  ring

theorem trapSeq_eq (f : F → F) (a b s0 : F) (n : Nat) :
    trapSeq f a b s0 (n+1) = trapezoidRule f a b (2^n) := by
  induction n with
  | zero =>
    simp only [trapSeq, trapzd, trapezoidRule]
    simp
    ring
  | succ n ih =>
    rw [trapSeq, ih, trapzd, if_neg (by omega)]
    have : (n + 1 + 1 - 2) = n := by omega
    simp only [this, trapSum_eq, zero_add]
    rw [pow_succ, mul_comm (2^n) 2, trapezoid_double f a b (2^n) (by positivity)]

theorem simpson_eq (f : F → F) (a b : F) (N : Nat) (hN : 0 < N) :
    (4 * trapezoidRule f a b (2*N) - trapezoidRule f a b N) / 3 = simpsonRule f a b N := by
  have hN' : (N : F) ≠ 0 := by exact_mod_cast hN.ne'
  rw [trapezoid_double f a b N hN]
  unfold trapezoidRule simpsonRule
  rw [mul_sum, sum_div, ← sum_add_distrib, sum_div, mul_sum, ← sum_sub_distrib, sum_div]
  apply sum_congr rfl
  intro i _
  have e2 : a + ((b-a)/N)/2 + i * ((b-a)/(N:F)) = a + i * ((b-a)/N) + ((b-a)/N)/2 := by ring
  rw [e2]
  field_simp
  ring

theorem simpson_cubic (c0 c1 c2 c3 a b : F) (N : Nat) (hN : 0 < N) :
    simpsonRule (fun x => c0 + c1*x + c2*x^2 + c3*x^3) a b N =
      c0*(b-a) + c1*(b^2-a^2)/2 + c2*(b^3-a^3)/3 + c3*(b^4-a^4)/4 := by
  have hN' : (N : F) ≠ 0 := by exact_mod_cast hN.ne'
  set P : F → F := fun x => c0*x + c1*x^2/2 + c2*x^3/3 + c3*x^4/4 with hP
  set h := (b-a)/(N:F) with hh
  have key : ∀ i : Nat, h / 6 * ((c0 + c1*(a+i*h) + c2*(a+i*h)^2 + c3*(a+i*h)^3)
      + 4 * (c0 + c1*(a+i*h+h/2) + c2*(a+i*h+h/2)^2 + c3*(a+i*h+h/2)^3)
      + (c0 + c1*(a+(i+1:Nat)*h) + c2*(a+(i+1:Nat)*h)^2 + c3*(a+(i+1:Nat)*h)^3))
      = P (a + (i+1:Nat)*h) - P (a + i*h) := by
    intro i; simp only [hP]; push_cast; ring
  unfold simpsonRule
  simp only [← hh, key]
  rw [sum_range_sub (fun i : Nat => P (a + (i:F)*h))]
  have : a + (N:F)*h = b := by rw [hh]; field_simp; ring
  rw [this]
  simp only [hP]
  push_cast
  ring

end Athena.Utils
