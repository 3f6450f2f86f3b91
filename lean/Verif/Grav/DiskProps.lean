import Verif.Grav.Disk
import Mathlib.Analysis.Complex.ExponentialBounds
import Mathlib.Analysis.Real.Pi.Bounds
import Mathlib.Tactic.IntervalCases

/-!
# C119, C120: self-gravity of disks, properties

Specification: the seven-point Laplacian of a potential that is periodic in the plane (`lapP`), and the potential of equally spaced infinite sheets
in otherwise empty space, `G4 dx^2 ∑ m (|k - k'| / 2 - const)`.
-/

namespace Athena.Grav
open Finset

variable {q : Par} {N1 N2 N3 : ℕ}

/-- Second differences along the plane, periodic in it. -/
noncomputable def planeLap (q : Par) (N1 N2 : ℕ) (P : ℕ → ℕ → ℝ) (i j : ℕ) : ℝ :=
  (P ((i + N1 - 1) % N1) j - 2 * P i j + P ((i + 1) % N1) j) / (q.dx1 * q.dx1)
  + (P i ((j + N2 - 1) % N2) - 2 * P i j + P i ((j + 1) % N2)) / (q.dx2 * q.dx2)

theorem diskExp_zero (L : ℝ) : diskExp q L N1 N2 0 0 = 1 := by
  unfold diskExp
  simp [kcomp_zero]

theorem PsiD_per1 {E : ℕ → ℕ → ℝ} (h : 0 < N1) (d : ℕ → ℕ → ℕ → ℝ) (i j k : ℤ) : PsiD q E N1 N2 N3 d (i + N1) j k = PsiD q E N1 N2 N3 d i j k := by
  unfold PsiD syn; simp only [ch_per1 h]

theorem PsiD_per2 {E : ℕ → ℕ → ℝ} (h : 0 < N2) (d : ℕ → ℕ → ℕ → ℝ) (i j k : ℤ) : PsiD q E N1 N2 N3 d i (j + N2) k = PsiD q E N1 N2 N3 d i j k := by
  unfold PsiD syn; simp only [ch_per2 h]

theorem wrapD1 {E : ℕ → ℕ → ℝ} (h : 0 < N1) (d : ℕ → ℕ → ℕ → ℝ) (n : ℕ) (j k : ℤ) : PsiD q E N1 N2 N3 d ((n % N1 : ℕ) : ℤ) j k = PsiD q E N1 N2 N3 d n j k := by
  induction n using Nat.strong_induction_on with
  | _ n ih =>
    by_cases hn : n < N1
    · rw [Nat.mod_eq_of_lt hn]
    · rw [Nat.mod_eq_sub_mod (by omega), ih _ (by omega), ← PsiD_per1 h]
      congr 1
      omega

theorem wrapD2 {E : ℕ → ℕ → ℝ} (h : 0 < N2) (d : ℕ → ℕ → ℕ → ℝ) (n : ℕ) (i k : ℤ) : PsiD q E N1 N2 N3 d i ((n % N2 : ℕ) : ℤ) k = PsiD q E N1 N2 N3 d i n k := by
  induction n using Nat.strong_induction_on with
  | _ n ih =>
    by_cases hn : n < N2
    · rw [Nat.mod_eq_of_lt hn]
    · rw [Nat.mod_eq_sub_mod (by omega), ih _ (by omega), ← PsiD_per2 h]
      congr 1
      omega

/-- Poisson's equation, with the extension below and above the Domain. -/
theorem diskLap (hq : q.Ok) (h1 : 0 < N1) (h2 : 0 < N2) (h3 : 0 < N3) {E : ℕ → ℕ → ℝ} (hE : E 0 0 = 1) (d : ℕ → ℕ → ℕ → ℝ) {i j k : ℕ}
    (hi : i < N1) (hj : j < N2) (hk : k < N3) :
    planeLap q N1 N2 (fun i j => PsiD q E N1 N2 N3 d i j k) i j
    + (PsiD q E N1 N2 N3 d i j (k-1) - 2 * PsiD q E N1 N2 N3 d i j k + PsiD q E N1 N2 N3 d i j (k+1)) / (q.dx3 * q.dx3) = q.G4 * d i j k := by
  rw [← PsiD_poisson hq h1 h2 h3 hE d hi hj hk]
  unfold planeLap
  dsimp only
  rw [wrapD1 h1, wrapD1 h1, wrapD2 h2, wrapD2 h2, ← PsiD_per1 h1 d (i - 1), ← PsiD_per2 h2 d i (j - 1)]
  have e1 : ((i + N1 - 1 : ℕ) : ℤ) = i - 1 + N1 := by omega
  have e2 : ((j + N2 - 1 : ℕ) : ℤ) = j - 1 + N2 := by omega
  rw [e1, e2]
  push_cast
  rfl

/-- **C119** (part).  In every zone that is in neither the lowest nor the highest plane the potential satisfies Poisson's equation with all of the density of
the zone as the source, periodic in the plane.  Missing: the two outermost planes (`disk_bottom_false`, `disk_top_false`). -/
theorem disk_poisson_partial (hq : q.Ok) (h1 : 0 < N1) (h2 : 0 < N2) (L : ℝ) (d : ℕ → ℕ → ℕ → ℝ) {i j k : ℕ}
    (hi : i < N1) (hj : j < N2) (hk0 : 1 ≤ k) (hk : k + 1 < N3) :
    planeLap q N1 N2 (fun i j => disk3 q L N1 N2 N3 d i j k) i j
    + (disk3 q L N1 N2 N3 d i j (k - 1) - 2 * disk3 q L N1 N2 N3 d i j k + disk3 q L N1 N2 N3 d i j (k + 1)) / (q.dx3 * q.dx3) = q.G4 * d i j k := by
  have h3 : 0 < N3 := by omega
  simp only [disk3_eq h1 h2 h3]
  rw [← diskLap hq h1 h2 h3 (diskExp_zero (q := q) L) d hi hj (show k < N3 by omega)]
  push_cast [hk0]
  rfl

/-! ### Planes -/

/-- Second differences sum to zero over a plane. -/
theorem sum_planeLap (q : Par) (h1 : 0 < N1) (h2 : 0 < N2) (P : ℕ → ℕ → ℝ) : ∑ i ∈ range N1, ∑ j ∈ range N2, planeLap q N1 N2 P i j = 0 := by
  have rot : ∀ {N : ℕ}, 0 < N → ∀ (s : ℕ) (f : ℕ → ℝ), ∑ i ∈ range N, f ((i + s) % N) = ∑ i ∈ range N, f i := by
    intro N hN s f
    induction s with
    | zero => exact sum_congr rfl fun i hi => by rw [Nat.add_zero, Nat.mod_eq_of_lt (mem_range.mp hi)]
    | succ s ih =>
      rw [← ih]
      obtain ⟨M, rfl⟩ : ∃ M, N = M + 1 := ⟨N - 1, by omega⟩
      rw [sum_range_succ, sum_range_succ' (fun i => f ((i + s) % (M + 1)))]
      congr 1
      · refine sum_congr rfl fun i _ => ?_
        congr 2; omega
      · congr 1
        rw [show M + (s + 1) = 0 + s + (M + 1) by omega, Nat.add_mod_right]
  unfold planeLap
  simp only [sum_add_distrib, ← sum_div, sum_sub_distrib, ← mul_sum]
  have a1 : ∑ i ∈ range N1, ∑ j ∈ range N2, P ((i + N1 - 1) % N1) j = ∑ i ∈ range N1, ∑ j ∈ range N2, P i j := by
    rw [← rot h1 (N1 - 1) (fun i => ∑ j ∈ range N2, P i j)]
    refine sum_congr rfl fun i _ => ?_
    rw [show i + N1 - 1 = i + (N1 - 1) by omega]
  have a2 := rot h1 1 (fun i => ∑ j ∈ range N2, P i j)
  have a3 : ∑ i ∈ range N1, ∑ j ∈ range N2, P i ((j + N2 - 1) % N2) = ∑ i ∈ range N1, ∑ j ∈ range N2, P i j := by
    refine sum_congr rfl fun i _ => ?_
    rw [← rot h2 (N2 - 1) (fun j => P i j)]
    refine sum_congr rfl fun j _ => ?_
    rw [show j + N2 - 1 = j + (N2 - 1) by omega]
  have a4 : ∑ i ∈ range N1, ∑ j ∈ range N2, P i ((j + 1) % N2) = ∑ i ∈ range N1, ∑ j ∈ range N2, P i j :=
    sum_congr rfl fun i _ => rot h2 1 _
  rw [a1, a2, a3, a4]
  ring

/-- The values of a column of the Grid, for the boundary functions. -/
def column (P : ℕ → ℝ) : ℤ → ℝ := fun k => P k.toNat

/-- **C119** refuted in the lowest plane.  The code fills the ghost zones below the Domain by linear extrapolation: if the mass of the lowest plane is not zero,
then in some zone of it the potential does not satisfy Poisson's equation. -/
theorem disk_bottom_false (hq : q.Ok) (h1 : 0 < N1) (h2 : 0 < N2) (h3 : 2 ≤ N3) (L : ℝ) (d : ℕ → ℕ → ℕ → ℝ) {n : ℕ} (hn : 1 ≤ n)
    (hm : ∑ i ∈ range N1, ∑ j ∈ range N2, d i j 0 ≠ 0) :
    ∃ i < N1, ∃ j < N2, planeLap q N1 N2 (fun i j => disk3 q L N1 N2 N3 d i j 0) i j
      + (obcLow 0 (column (disk3 q L N1 N2 N3 d i j)) n (-1) - 2 * obcLow 0 (column (disk3 q L N1 N2 N3 d i j)) n 0
        + obcLow 0 (column (disk3 q L N1 N2 N3 d i j)) n 1) / (q.dx3 * q.dx3) ≠ q.G4 * d i j 0 := by
  have key : ∀ (P : ℤ → ℝ) (n : ℕ), (∀ k, 0 ≤ k → obcLow 0 P n k = P k) ∧ (1 ≤ n → obcLow 0 P n (-1) = 2 * P 0 - P 1) := by
    intro P n
    induction n with
    | zero => exact ⟨fun _ _ => rfl, by omega⟩
    | succ n ih =>
      constructor
      · intro k hk
        unfold obcLow
        dsimp only
        rw [Function.update_of_ne (by omega)]
        exact ih.1 k hk
      · intro _
        unfold obcLow
        dsimp only
        by_cases h0 : n = 0
        · subst h0
          simp [obcLow]
        · rw [Function.update_of_ne (by omega)]
          exact ih.2 (by omega)
  by_contra hc
  push Not at hc
  have hs : ∑ i ∈ range N1, ∑ j ∈ range N2, planeLap q N1 N2 (fun i j => disk3 q L N1 N2 N3 d i j 0) i j = q.G4 * ∑ i ∈ range N1, ∑ j ∈ range N2, d i j 0 := by
    rw [mul_sum]
    refine sum_congr rfl fun i hi => ?_
    rw [mul_sum]
    refine sum_congr rfl fun j hj => ?_
    have := hc i (mem_range.mp hi) j (mem_range.mp hj)
    rw [(key _ n).2 hn, (key _ n).1 0 le_rfl, (key _ n).1 1 (by omega)] at this
    rw [← this]
    ring
  rw [sum_planeLap q h1 h2] at hs
  rcases mul_eq_zero.mp hs.symm with h | h
  · exact hq.G4.ne' h
  · exact hm h

/-- **C119** refuted in the highest plane. -/
theorem disk_top_false (hq : q.Ok) (h1 : 0 < N1) (h2 : 0 < N2) (L : ℝ) (d : ℕ → ℕ → ℕ → ℝ) {n ke : ℕ} (hn : 1 ≤ n) (hke : 1 ≤ ke)
    (hm : ∑ i ∈ range N1, ∑ j ∈ range N2, d i j ke ≠ 0) :
    ∃ i < N1, ∃ j < N2, planeLap q N1 N2 (fun i j => disk3 q L N1 N2 (ke + 1) d i j ke) i j
      + (obcHigh ke (column (disk3 q L N1 N2 (ke + 1) d i j)) n (ke - 1) - 2 * obcHigh ke (column (disk3 q L N1 N2 (ke + 1) d i j)) n ke
        + obcHigh ke (column (disk3 q L N1 N2 (ke + 1) d i j)) n (ke + 1)) / (q.dx3 * q.dx3) ≠ q.G4 * d i j ke := by
  have key : ∀ (P : ℤ → ℝ) (n : ℕ), (∀ k ≤ (ke : ℤ), obcHigh ke P n k = P k) ∧ (1 ≤ n → obcHigh ke P n (ke + 1) = 2 * P ke - P (ke - 1)) := by
    intro P n
    induction n with
    | zero => exact ⟨fun _ _ => rfl, by omega⟩
    | succ n ih =>
      constructor
      · intro k hk
        unfold obcHigh
        dsimp only
        rw [Function.update_of_ne (by omega)]
        exact ih.1 k hk
      · intro _
        unfold obcHigh
        dsimp only
        by_cases h0 : n = 0
        · subst h0
          simp only [obcHigh]
          push_cast
          rw [Function.update_self, show (ke : ℤ) + 1 - 1 = ke by ring, show (ke : ℤ) + 1 - 2 = ke - 1 by ring]
        · rw [Function.update_of_ne (by omega)]
          exact ih.2 (by omega)
  by_contra hc
  push Not at hc
  have hs : ∑ i ∈ range N1, ∑ j ∈ range N2, planeLap q N1 N2 (fun i j => disk3 q L N1 N2 (ke + 1) d i j ke) i j = q.G4 * ∑ i ∈ range N1, ∑ j ∈ range N2, d i j ke := by
    rw [mul_sum]
    refine sum_congr rfl fun i hi => ?_
    rw [mul_sum]
    refine sum_congr rfl fun j hj => ?_
    have := hc i (mem_range.mp hi) j (mem_range.mp hj)
    rw [(key _ n).2 hn, (key _ n).1 _ le_rfl, (key _ n).1 (ke - 1) (by omega)] at this
    rw [← this]
    ring
  rw [sum_planeLap q h1 h2] at hs
  rcases mul_eq_zero.mp hs.symm with h | h
  · exact hq.G4.ne' h
  · exact hm h

/-! ### Sheets -/

/-- The sum over a plane changes its sign half a period further. -/
theorem sum_PsiD_anti (h1 : 0 < N1) (h2 : 0 < N2) (h3 : 0 < N3) {E : ℕ → ℕ → ℝ} (hE : E 0 0 = 1) (d : ℕ → ℕ → ℕ → ℝ) (k : ℤ) :
    ∑ i ∈ range N1, ∑ j ∈ range N2, PsiD q E N1 N2 N3 d i j (k + N3) = - ∑ i ∈ range N1, ∑ j ∈ range N2, PsiD q E N1 N2 N3 d i j k := by
  have p1 : (0 : ℝ) < N1 := by exact_mod_cast h1
  have p2 : (0 : ℝ) < N2 := by exact_mod_cast h2
  have key : ∀ y : ℕ → ℕ → ℕ → ℂ, (∀ c, Even c → y 0 0 c = 0) → ∑ i ∈ range N1, ∑ j ∈ range N2, syn N1 N2 (2 * N3) y i j (k + N3)
      = - ∑ i ∈ range N1, ∑ j ∈ range N2, syn N1 N2 (2 * N3) y i j k := by
    intro y hy
    have plane : ∀ K : ℤ, ∑ i ∈ range N1, ∑ j ∈ range N2, syn N1 N2 (2 * N3) y i j K
        = ∑ c ∈ range (2 * N3), y 0 0 c * (N1 * N2 * ch N1 N2 (2 * N3) 0 0 c 0 0 K) := by
      intro K
      have s : ∀ a < N1, ∀ b < N2, ∀ c : ℕ, ∑ i ∈ range N1, ∑ j ∈ range N2, ch N1 N2 (2 * N3) a b c i j K
          = if a = 0 ∧ b = 0 then N1 * N2 * ch N1 N2 (2 * N3) 0 0 c 0 0 K else 0 := by
        intro a ha b hb c
        have e1 : ∑ i ∈ range N1, ex (a * ((i : ℤ) : ℝ) / N1) = if a = 0 then (N1 : ℂ) else 0 := by
          have := sum_ex h1 a (by omega) (by omega)
          simp only [Int.natCast_eq_zero] at this
          rw [← this]
          refine sum_congr rfl fun i _ => ?_
          congr 1; push_cast; ring
        have e2 : ∑ j ∈ range N2, ex (b * ((j : ℤ) : ℝ) / N2) = if b = 0 then (N2 : ℂ) else 0 := by
          have := sum_ex h2 b (by omega) (by omega)
          simp only [Int.natCast_eq_zero] at this
          rw [← this]
          refine sum_congr rfl fun i _ => ?_
          congr 1; push_cast; ring
        simp only [ch_split, ← mul_sum, ← sum_mul]
        rw [e1, e2]
        by_cases ha0 : a = 0
        · by_cases hb0 : b = 0
          · simp [ha0, hb0, ex_zero]
          · simp [hb0]
        · simp [ha0]
      unfold syn
      have sw : ∑ i ∈ range N1, ∑ j ∈ range N2, ∑ a ∈ range N1, ∑ b ∈ range N2, ∑ c ∈ range (2 * N3), y a b c * ch N1 N2 (2 * N3) a b c i j K
          = ∑ a ∈ range N1, ∑ b ∈ range N2, ∑ c ∈ range (2 * N3), y a b c * ∑ i ∈ range N1, ∑ j ∈ range N2, ch N1 N2 (2 * N3) a b c i j K := by
        simp only [mul_sum]
        calc _ = ∑ i ∈ range N1, ∑ a ∈ range N1, ∑ b ∈ range N2, ∑ c ∈ range (2 * N3), ∑ j ∈ range N2, y a b c * ch N1 N2 (2 * N3) a b c i j K :=
              sum_congr rfl fun i _ => swap1 _ _ _ _ _
          _ = _ := swap1 _ _ _ _ _
      rw [sw]
      have t : ∀ a ∈ range N1, ∀ b ∈ range N2, ∑ c ∈ range (2 * N3), y a b c * ∑ i ∈ range N1, ∑ j ∈ range N2, ch N1 N2 (2 * N3) a b c i j K
          = if a = 0 ∧ b = 0 then ∑ c ∈ range (2 * N3), y 0 0 c * (N1 * N2 * ch N1 N2 (2 * N3) 0 0 c 0 0 K) else 0 := by
        intro a ha b hb
        split_ifs with h
        · refine sum_congr rfl fun c _ => ?_
          rw [s a (mem_range.mp ha) b (mem_range.mp hb), if_pos h, h.1, h.2]
        · refine sum_eq_zero fun c _ => ?_
          rw [s a (mem_range.mp ha) b (mem_range.mp hb), if_neg h, mul_zero]
      rw [sum_congr rfl fun a ha => sum_congr rfl fun b hb => t a ha b hb]
      rw [sum_eq_single 0, sum_eq_single 0]
      · simp
      · intro b _ hb; exact if_neg fun h => hb h.2
      · intro h; exact absurd (mem_range.mpr h2) h
      · intro a _ ha; exact sum_eq_zero fun b _ => if_neg fun h => ha h.1
      · intro h; exact absurd (mem_range.mpr h1) h
    rw [plane, plane, ← sum_neg_distrib]
    refine sum_congr rfl fun c _ => ?_
    rw [ch_shift h3]
    rcases Nat.even_or_odd c with hc | hc
    · rw [hy c hc]; simp
    · rw [hc.neg_one_pow]; ring
  unfold PsiD
  simp only [← sum_div]
  rw [← neg_div]
  congr 1
  have k1 := key (fun a b c => (coefD q E N1 N2 N3 a b c : ℂ) * dft3 (-1) N1 N2 (2 * N3) (padz N3 fun i j k => ((d i j k * q.G4 : ℝ) : ℂ)) a b c) (by
    intro c hc
    have : coefD q E N1 N2 N3 0 0 c = 0 := by
      unfold coefD
      split_ifs
      · rfl
      · rw [hE, hc.neg_one_pow]; simp
    rw [this]; simp)
  have := congrArg Complex.re k1
  simpa only [Complex.re_sum, Complex.neg_re] using this

/-- **C120** (part).  The sum of the potential over a plane is the sum over all planes of their mass times the potential of a uniform sheet: half the distance,
up to a constant.  So a density that does not depend on the position in the plane has the potential of sheets in otherwise empty space, exactly. -/
theorem disk_sheets_partial (hq : q.Ok) (h1 : 0 < N1) (h2 : 0 < N2) (L : ℝ) (d : ℕ → ℕ → ℕ → ℝ) {k : ℕ} (hk : k < N3) :
    ∑ i ∈ range N1, ∑ j ∈ range N2, disk3 q L N1 N2 N3 d i j k
      = q.G4 * (q.dx3 * q.dx3) * ∑ k' ∈ range N3, (∑ i ∈ range N1, ∑ j ∈ range N2, d i j k') * (|(k : ℝ) - k'| / 2 - N3 / 4) := by
  have h3 : 0 < N3 := by omega
  have pz : 0 < q.dx3 * q.dx3 := by have := hq.dx3; positivity
  simp only [disk3_eq h1 h2 h3]
  have hE := diskExp_zero (q := q) (N1 := N1) (N2 := N2) L
  set E := diskExp q L N1 N2
  set h : ℤ → ℝ := fun k => ∑ i ∈ range N1, ∑ j ∈ range N2, PsiD q E N1 N2 N3 d i j k with hh
  set m : ℕ → ℝ := fun k' => ∑ i ∈ range N1, ∑ j ∈ range N2, d i j k' with hmd
  have anti : ∀ k, h (k + N3) = - h k := fun k => sum_PsiD_anti h1 h2 h3 hE d k
  have sec : ∀ k : ℕ, k < N3 → h (k - 1) - 2 * h k + h (k + 1) = q.G4 * (q.dx3 * q.dx3) * m k := by
    intro k hk
    have e : ∑ i ∈ range N1, ∑ j ∈ range N2, (planeLap q N1 N2 (fun i j => PsiD q E N1 N2 N3 d i j k) i j
        + (PsiD q E N1 N2 N3 d i j (k-1) - 2 * PsiD q E N1 N2 N3 d i j k + PsiD q E N1 N2 N3 d i j (k+1)) / (q.dx3 * q.dx3)) = q.G4 * m k := by
      rw [hmd, mul_sum]
      refine sum_congr rfl fun i hi => ?_
      rw [mul_sum]
      exact sum_congr rfl fun j hj => diskLap hq h1 h2 h3 hE d (mem_range.mp hi) (mem_range.mp hj) hk
    simp only [sum_add_distrib] at e
    have z := sum_planeLap q h1 h2 (fun i j => PsiD q E N1 N2 N3 d i j k)
    rw [z, zero_add] at e
    simp only [← sum_div, sum_add_distrib, sum_sub_distrib, ← mul_sum] at e
    rw [div_eq_iff pz.ne'] at e
    rw [hh]
    dsimp only
    rw [e]; ring
  set g : ℤ → ℝ := fun k => q.G4 * (q.dx3 * q.dx3) * ∑ k' ∈ range N3, m k' * (|(k : ℝ) - k'| / 2 - N3 / 4) with hg
  have secg : ∀ k : ℕ, k < N3 → g (k - 1) - 2 * g k + g (k + 1) = q.G4 * (q.dx3 * q.dx3) * m k := by
    intro k hk
    have e : ∀ k' : ℕ, m k' * (|(((k : ℤ) - 1 : ℤ) : ℝ) - k'| / 2 - N3 / 4) - 2 * (m k' * (|((k : ℤ) : ℝ) - k'| / 2 - N3 / 4))
        + m k' * (|(((k : ℤ) + 1 : ℤ) : ℝ) - k'| / 2 - N3 / 4) = if k' = k then m k else 0 := by
      intro k'
      push_cast
      split_ifs with hkk
      · subst hkk
        rw [show (k' : ℝ) - 1 - k' = -1 by ring, show (k' : ℝ) + 1 - k' = 1 by ring, sub_self, abs_neg, abs_one, abs_zero]
        ring
      · rcases Nat.lt_or_gt_of_ne hkk with hl | hl
        · have : (k' : ℝ) + 1 ≤ k := by exact_mod_cast hl
          rw [abs_of_nonneg (by linarith), abs_of_nonneg (by linarith), abs_of_nonneg (by linarith)]
          ring
        · have : (k : ℝ) + 1 ≤ k' := by exact_mod_cast hl
          rw [abs_of_nonpos (by linarith), abs_of_nonpos (by linarith), abs_of_nonpos (by linarith)]
          ring
    have s : ∑ k' ∈ range N3, (m k' * (|(((k : ℤ) - 1 : ℤ) : ℝ) - k'| / 2 - N3 / 4) - 2 * (m k' * (|((k : ℤ) : ℝ) - k'| / 2 - N3 / 4))
        + m k' * (|(((k : ℤ) + 1 : ℤ) : ℝ) - k'| / 2 - N3 / 4)) = m k := by
      rw [sum_congr rfl fun k' _ => e k', sum_ite_eq' (range N3) k (fun _ => m k), if_pos (mem_range.mpr hk)]
    rw [← s, hg]
    dsimp only
    simp only [sum_add_distrib, sum_sub_distrib, ← mul_sum]
    ring
  have antig : ∀ k : ℤ, -1 ≤ k → k ≤ 0 → g (k + N3) = - g k := by
    intro k h0 h1
    rw [hg]
    dsimp only
    rw [← mul_neg, ← sum_neg_distrib]
    congr 1
    refine sum_congr rfl fun k' hk' => ?_
    have hk2 := mem_range.mp hk'
    have a1 : (0 : ℝ) ≤ ((k + N3 : ℤ) : ℝ) - k' := by
      have : (k' : ℤ) ≤ k + N3 := by omega
      have : ((k' : ℤ) : ℝ) ≤ ((k + N3 : ℤ) : ℝ) := by exact_mod_cast this
      push_cast at this ⊢
      linarith
    have a2 : (k : ℝ) - k' ≤ 0 := by
      have : k ≤ (k' : ℤ) := by omega
      have : (k : ℝ) ≤ ((k' : ℤ) : ℝ) := by exact_mod_cast this
      push_cast at this
      linarith
    rw [abs_of_nonneg a1, abs_of_nonpos a2]
    push_cast
    ring
  -- the difference is linear
  have lin : ∀ n : ℕ, n ≤ N3 → h n - g n = h 0 - g 0 + n * ((h 0 - g 0) - (h (-1) - g (-1)))
      ∧ h (n - 1) - g (n - 1) = h 0 - g 0 + (n - 1) * ((h 0 - g 0) - (h (-1) - g (-1))) := by
    intro n
    induction n with
    | zero => intro _; simp
    | succ n ih =>
      intro hn
      obtain ⟨i1, i2⟩ := ih (by omega)
      have := sec n (by omega)
      have := secg n (by omega)
      push_cast
      constructor
      · linarith
      · rw [add_sub_cancel_right, add_sub_cancel_right]; exact i1
  obtain ⟨l1, l2⟩ := lin N3 le_rfl
  have b1 := anti 0
  have b2 := anti (-1)
  have b3 := antig 0 (by omega) (by omega)
  have b4 := antig (-1) (by omega) (by omega)
  rw [zero_add] at b1 b3
  rw [show (-1 + N3 : ℤ) = N3 - 1 by ring] at b2 b4
  obtain ⟨l3, -⟩ := lin k hk.le
  have c1 : (h 0 - g 0) - (h (-1) - g (-1)) = 0 := by
    obtain ⟨β, hβ⟩ : ∃ β, (h 0 - g 0) - (h (-1) - g (-1)) = β := ⟨_, rfl⟩
    rw [hβ] at l1 l2 ⊢
    have : ((N3 : ℝ) - 1) * β = N3 * β - β := by ring
    linarith
  rw [c1, mul_zero, add_zero] at l1 l3
  have : h k = g k := by linarith
  rw [hh, hg] at this
  exact this

end Athena.Grav
