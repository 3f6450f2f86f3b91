import Verif.Part.Exch
import Mathlib.Tactic.LinearCombination
import Mathlib.Tactic.FinCases

/-!
# src/particles/exchange.c: theorems; C85
-/

namespace Athena.Part
noncomputable section
open Classical

/-- A Domain whose Grids have at least `w` zones in each existing direction; x1 exists, x3 only with x2; the
number of ghost zones is the same everywhere. -/
structure Lattice.Good (B : Lattice) (w ng : ℤ) : Prop where
  g1 : B.L1.Good w
  g2 : B.L2.Good w
  g3 : B.L3.Good w
  n1 : B.L1.ng = ng
  n2 : B.L2.ng = ng
  n3 : B.L3.ng = ng
  act : B.L1.act = true

theorem exc_nonneg (lab : Lab) : 0 ≤ lab.exc := by cases lab <;> simp [Lab.exc]
theorem ofst_nonneg (lab : Lab) {ng : ℤ} (h : 0 ≤ ng) : 0 ≤ lab.ofst ng := by cases lab <;> simp [Lab.ofst, h]

/-- C85: the exchange stays inside the arrays, except in the predictor step of one-dimensional runs with a
reflecting inner boundary. -/
theorem exchange_ok (B : Lattice) (lab : Lab) {ng w : ℤ} (hB : B.Good w ng) (n : ℕ) (A : Coup)
    (hw : lab.ofst ng ≤ w) (h : lab = .pred → B.L2.act = true ∨ B.L1.left ≠ .reflect) :
    ∃ A', exchange B lab ng n A = .ok A' := by
  have : ¬ outOfArray B (lab.ofst ng) := by
    rintro ⟨-, hr, i, i1, i2, hi⟩
    cases lab with
    | bin => simp only [Lab.ofst] at i1; omega
    | corr => simp only [Lab.ofst] at i1; omega
    | pred =>
      rcases h rfl with h | h
      · apply hi
        have s1 : B.L1.s = ng := by simp [Line.s, hB.act, hB.n1]
        have s2 : B.L2.s = ng := by simp [Line.s, h, hB.n2]
        have := hB.n1
        have := hB.g1.wide hB.act 0 (Nat.zero_le _)
        simp only [Lab.ofst] at i1 hw
        omega
      · exact h hr
  unfold exchange
  simp only [if_neg this]
  exact ⟨_, rfl⟩

/-- C85: for every function of the zones of the Domain, the sum of the result over the zones of the Domain is
the sum of what was binned over all zones and ghost zones of all Grids, taken at the zone each stands for:
nothing is lost, doubled or put into a wrong zone, on any decomposition. -/
theorem exchange_total (B : Lattice) (lab : Lab) {ng w : ℤ} (hB : B.Good w ng) (hw : lab.exc ≤ w) (n : ℕ)
    (A A' : Coup) (h : exchange B lab ng n A = .ok A') (φ : ℤ → ℤ → ℤ → ℝ) :
    zoneSum B 0 (fun p3 p2 p1 => A'.val p3 p2 p1
        * φ (B.L3.glob p3.1 p3.2) (B.L2.glob p2.1 p2.2) (B.L1.glob p1.1 p1.2))
      = zoneSum B lab.exc (fun p3 p2 p1 => A.val p3 p2 p1 *
          B.L3.at (sign n 2) (fun g3 => B.L2.at (sign n 1) (fun g2 => B.L1.at (sign n 0) (fun g1 => φ g3 g2 g1)
            (B.L1.glob p1.1 p1.2)) (B.L2.glob p2.1 p2.2)) (B.L3.glob p3.1 p3.2)) := by
  have ho := ofst_nonneg lab (show 0 ≤ ng by rw [← hB.n1]; exact hB.g1.ng)
  rw [← passes_total B hB.g1 hB.g2 hB.g3 hw (exc_nonneg lab) ho]
  unfold exchange at h
  simp only at h
  split_ifs at h with hu
  rw [← Res.ok.inj h]
  unfold zoneSum Coup.val
  refine Finset.sum_congr rfl fun p3 hp3 => Finset.sum_congr rfl fun p2 hp2 =>
    Finset.sum_congr rfl fun p1 hp1 => ?_
  dsimp only
  rw [if_pos ⟨rng_mono ho (rng_of_mem hp3), rng_mono ho (rng_of_mem hp2), rng_mono ho (rng_of_mem hp1)⟩]

/-- How much of what lies in a zone or ghost zone belongs to zone `g` of the Domain: 1, -1 (a normal component
mirrored at a wall) or 0. -/
def Line.counts (L : Line) (sg : ℝ) (q : Σ _ : ℕ, ℤ) (g : ℤ) : ℝ :=
  match L.home sg (L.glob q.1 q.2) with
  | some (h, t) => if h = g then t else 0
  | none => 0

theorem at_ind (L : Line) (sg : ℝ) (q : Σ _ : ℕ, ℤ) (g : ℤ) (v : ℝ) :
    L.at sg (fun a => if a = g then v else 0) (L.glob q.1 q.2) = L.counts sg q g * v := by
  unfold Line.at Line.counts
  cases L.home sg (L.glob q.1 q.2) with
  | none => simp
  | some p => dsimp only; split_ifs <;> ring

theorem at_zero (L : Line) (sg : ℝ) (g : ℤ) : L.at sg (fun _ => 0) g = 0 := by
  unfold Line.at
  cases L.home sg g with
  | none => rfl
  | some p => simp

/-- Different zones of the Domain have different positions. -/
theorem glob_inj {L : Line} {w : ℤ} (h : L.Good w) {p q : Σ _ : ℕ, ℤ} (hp : p ∈ L.zones 0) (hq : q ∈ L.zones 0)
    (e : L.glob p.1 p.2 = L.glob q.1 q.2) : p = q := by
  have key : ∀ p ∈ L.zones 0, p.1 ≤ L.n ∧ L.s ≤ p.2 ∧ p.2 ≤ L.e p.1 := by
    intro p hp
    unfold Line.zones at hp
    rw [Finset.mem_sigma] at hp
    obtain ⟨a, b⟩ := hp
    have := Finset.mem_range.mp a
    refine ⟨by omega, ?_⟩
    split_ifs at b <;> (rw [Finset.mem_Icc] at b; omega)
  obtain ⟨a1, a2, a3⟩ := key p hp
  obtain ⟨b1, b2, b3⟩ := key q hq
  have e1 : L.e p.1 = L.s + L.nx p.1 - 1 := rfl
  have e2 : L.e q.1 = L.s + L.nx q.1 - 1 := rfl
  simp only [Line.glob] at e
  have hl : p.1 = q.1 := by
    rcases lt_trichotomy p.1 q.1 with hh | hh | hh
    · have := off_mono h (show p.1 + 1 ≤ q.1 from hh) (by omega)
      rw [off_succ] at this
      omega
    · exact hh
    · have := off_mono h (show q.1 + 1 ≤ p.1 from hh) (by omega)
      rw [off_succ] at this
      omega
  obtain ⟨p1, p2⟩ := p
  obtain ⟨q1, q2⟩ := q
  simp only at hl e
  subst hl
  have : p2 = q2 := by omega
  rw [this]

/-- C85: afterwards each zone of the Domain holds the sum of all that was binned, by any Grid, onto it or onto
ghost zones standing for it. -/
theorem exchange_at (B : Lattice) (lab : Lab) {ng w : ℤ} (hB : B.Good w ng) (hw : lab.exc ≤ w) (n : ℕ)
    (A A' : Coup) (h : exchange B lab ng n A = .ok A') {p3 p2 p1 : Σ _ : ℕ, ℤ}
    (hp3 : p3 ∈ B.L3.zones 0) (hp2 : p2 ∈ B.L2.zones 0) (hp1 : p1 ∈ B.L1.zones 0) :
    A'.val p3 p2 p1 = zoneSum B lab.exc (fun q3 q2 q1 => A.val q3 q2 q1 *
      (B.L3.counts (sign n 2) q3 (B.L3.glob p3.1 p3.2) * B.L2.counts (sign n 1) q2 (B.L2.glob p2.1 p2.2)
        * B.L1.counts (sign n 0) q1 (B.L1.glob p1.1 p1.2))) := by
  have t := exchange_total B lab hB hw n A A' h (fun g3 g2 g1 =>
    if g3 = B.L3.glob p3.1 p3.2 then if g2 = B.L2.glob p2.1 p2.2 then
      if g1 = B.L1.glob p1.1 p1.2 then 1 else 0 else 0 else 0)
  have l : zoneSum B 0 (fun q3 q2 q1 => A'.val q3 q2 q1 *
      (if B.L3.glob q3.1 q3.2 = B.L3.glob p3.1 p3.2 then
        if B.L2.glob q2.1 q2.2 = B.L2.glob p2.1 p2.2 then
          if B.L1.glob q1.1 q1.2 = B.L1.glob p1.1 p1.2 then 1 else 0 else 0 else 0)) = A'.val p3 p2 p1 := by
    unfold zoneSum
    rw [Finset.sum_eq_single p3, Finset.sum_eq_single p2, Finset.sum_eq_single p1]
    · simp
    · intro q hq hne
      have : ¬ B.L1.glob q.1 q.2 = B.L1.glob p1.1 p1.2 := fun e => hne (glob_inj hB.g1 hq hp1 e)
      simp [this]
    · exact fun hh => absurd hp1 hh
    · intro q hq hne
      have : ¬ B.L2.glob q.1 q.2 = B.L2.glob p2.1 p2.2 := fun e => hne (glob_inj hB.g2 hq hp2 e)
      simp [this]
    · exact fun hh => absurd hp2 hh
    · intro q hq hne
      have : ¬ B.L3.glob q.1 q.2 = B.L3.glob p3.1 p3.2 := fun e => hne (glob_inj hB.g3 hq hp3 e)
      simp [this]
    · exact fun hh => absurd hp3 hh
  rw [l] at t
  rw [t]
  unfold zoneSum
  refine Finset.sum_congr rfl fun q3 _ => Finset.sum_congr rfl fun q2 _ =>
    Finset.sum_congr rfl fun q1 _ => ?_
  congr 1
  have i1 : ∀ g3 g2 : ℤ, B.L1.at (sign n 0) (fun g1 => if g3 = B.L3.glob p3.1 p3.2 then
      if g2 = B.L2.glob p2.1 p2.2 then if g1 = B.L1.glob p1.1 p1.2 then (1:ℝ) else 0 else 0 else 0)
        (B.L1.glob q1.1 q1.2)
      = if g3 = B.L3.glob p3.1 p3.2 then if g2 = B.L2.glob p2.1 p2.2 then
          B.L1.counts (sign n 0) q1 (B.L1.glob p1.1 p1.2) else 0 else 0 := by
    intro g3 g2
    by_cases c3 : g3 = B.L3.glob p3.1 p3.2
    · by_cases c2 : g2 = B.L2.glob p2.1 p2.2
      · simp only [c3, c2, if_true]; rw [at_ind, mul_one]
      · simp only [c3, c2, if_true, if_false, at_zero]
    · simp only [c3, if_false, at_zero]
  have i2 : ∀ g3 : ℤ, B.L2.at (sign n 1) (fun g2 => if g3 = B.L3.glob p3.1 p3.2 then
      if g2 = B.L2.glob p2.1 p2.2 then B.L1.counts (sign n 0) q1 (B.L1.glob p1.1 p1.2) else 0 else 0)
        (B.L2.glob q2.1 q2.2)
      = if g3 = B.L3.glob p3.1 p3.2 then B.L2.counts (sign n 1) q2 (B.L2.glob p2.1 p2.2)
          * B.L1.counts (sign n 0) q1 (B.L1.glob p1.1 p1.2) else 0 := by
    intro g3
    by_cases c3 : g3 = B.L3.glob p3.1 p3.2
    · simp only [c3, if_true]; rw [at_ind]
    · simp only [c3, if_false, at_zero]
  simp only [i1, i2]
  rw [at_ind]
  ring

/-- No outflow boundary in this direction, and if it is the direction (0, 1, 2) of component `n`, no wall. -/
def Line.Closed (L : Line) (n d : ℕ) : Prop :=
  L.left ≠ .outflow ∧ L.right ≠ .outflow ∧ (n = d → L.left = .periodic)

theorem at_one {L : Line} {w : ℤ} (hG : L.Good w) {n d : ℕ} (h : L.Closed n d) (g : ℤ) :
    L.at (sign n d) (fun _ => 1) g = 1 := by
  obtain ⟨a, b, c⟩ := h
  have sg : L.left ≠ .periodic → sign n d = 1 := fun hne => if_neg fun e => hne (c e)
  unfold Line.at Line.home
  by_cases g1 : g < 0
  · simp only [g1, if_true]
    cases hL : L.left with
    | reflect => simp [sg (by rw [hL]; exact fun e => nomatch e)]
    | outflow => exact absurd hL a
    | periodic => simp
  · by_cases g2 : g < L.tot
    · simp [g1, g2]
    · simp only [g1, g2, if_false]
      cases hR : L.right with
      | reflect =>
        have : L.left ≠ .periodic := fun e => by have := hG.per.mp e; rw [hR] at this; cases this
        simp [sg this]
      | outflow => exact absurd hR b
      | periodic => simp

/-- C85: without outflow boundaries the total of a quantity that is not a component of a vector (`n ≥ 3`:
density, energy, stiffness), and of vector components along directions without walls, is that of what was
binned. -/
theorem exchange_conserves (B : Lattice) (lab : Lab) {ng w : ℤ} (hB : B.Good w ng) (hw : lab.exc ≤ w) (n : ℕ)
    (A A' : Coup) (h : exchange B lab ng n A = .ok A')
    (h1 : B.L1.Closed n 0) (h2 : B.L2.Closed n 1) (h3 : B.L3.Closed n 2) :
    zoneSum B 0 A'.val = zoneSum B lab.exc A.val := by
  have t := exchange_total B lab hB hw n A A' h (fun _ _ _ => 1)
  simp only [at_one hB.g1 h1, at_one hB.g2 h2, at_one hB.g3 h3, mul_one] at t
  exact t

end
end Athena.Part
