import Verif.Grav.DiskProps

/-!
# C119, C120: disks in one and two dimensions; empty zones above a disk
-/

namespace Athena.Grav
open Finset

variable {q : Par}

/-! ### One dimension -/

/-- `reflect_Phi_ix1` on the column of a one-dimensional Grid, bvals_grav.c:842-858. -/
def reflLow (is : ℤ) (P : ℤ → ℝ) : ℕ → ℤ → ℝ
  | 0 => P
  | n + 1 => let P' := reflLow is P n
    Function.update P' (is - (n + 1 : ℕ)) (P' (is + ((n + 1 : ℕ) - 1)))

theorem disk1Loop_eq (is : ℤ) (d P : ℤ → ℝ) (n : ℕ) :
    (∀ i, i < is + 2 → disk1Loop q is d P n i = P i) ∧
    (∀ m : ℕ, m ≤ n → disk1Loop q is d P n (is + 1 + m) - disk1Loop q is d P n (is + m)
      = P (is + 1) - P is + q.G4 * (q.dx1 * q.dx1) * ∑ j ∈ range m, d (is + 1 + j)) := by
  induction n with
  | zero =>
    refine ⟨fun _ _ => rfl, fun m hm => ?_⟩
    obtain rfl : m = 0 := by omega
    simp [disk1Loop]
  | succ n ih =>
    obtain ⟨ih1, ih2⟩ := ih
    constructor
    · intro i hi
      unfold disk1Loop
      dsimp only
      rw [Function.update_of_ne (by omega)]
      exact ih1 i hi
    · intro m hm
      unfold disk1Loop
      dsimp only
      rcases Nat.lt_or_eq_of_le hm with hl | rfl
      · rw [Function.update_of_ne (by omega), Function.update_of_ne (by omega)]
        exact ih2 m (by omega)
      · have e : is + 1 + ((n + 1 : ℕ) : ℤ) = is + 2 + n := by push_cast; ring
        rw [e, Function.update_self, Function.update_of_ne (by omega)]
        have h := ih2 n le_rfl
        rw [sum_range_succ]
        have e1 : is + 2 + (n : ℤ) - 1 = is + 1 + n := by ring
        have e2 : is + 2 + (n : ℤ) - 2 = is + n := by ring
        have e3 : is + ((n + 1 : ℕ) : ℤ) = is + 1 + n := by push_cast; ring
        rw [e1, e2, e3]
        linarith

/-- **C120** in one dimension.  The gravity at every face of the Grid, the two ends included, is that of infinite sheets: half the difference of the mass on
either side, times `4πG dx`. -/
theorem disk1_sheets (is : ℤ) {N : ℕ} (hN : 2 ≤ N) (d P : ℤ → ℝ) {m : ℕ} (hm : m ≤ N) :
    disk1 q is N d P (is + m) - disk1 q is N d P (is + m - 1)
      = q.G4 * (q.dx1 * q.dx1) * (∑ j ∈ range m, d (is + j) - ∑ j ∈ Ico m N, d (is + j)) / 2 := by
  have hsplit : ∑ j ∈ Ico m N, d (is + j) = ∑ j ∈ range N, d (is + j) - ∑ j ∈ range m, d (is + j) := by
    rw [← sum_range_add_sum_Ico _ hm]; ring
  rw [hsplit]
  have hNr : (2 : ℝ) ≤ N := by exact_mod_cast hN
  have hN1 : (N : ℝ) - 1 ≠ 0 := by linarith
  set S := ∑ j ∈ range N, d (is + j) with hS
  unfold disk1
  rw [← hS]
  -- the first two zones
  obtain ⟨P1, hP1⟩ : ∃ P1, Function.update (Function.update (Function.update P is S) is (Function.update P is S is * (0.25 * q.G4 * (q.dx1 * q.dx1) * ((N : ℝ) - 1)))) (is + 1)
      (Function.update (Function.update P is S) is (Function.update P is S is * (0.25 * q.G4 * (q.dx1 * q.dx1) * ((N : ℝ) - 1))) is + q.G4 * (q.dx1 * q.dx1) * d is
        - 2 * Function.update (Function.update P is S) is (Function.update P is S is * (0.25 * q.G4 * (q.dx1 * q.dx1) * ((N : ℝ) - 1))) is / ((N : ℝ) - 1)) = P1 := ⟨_, rfl⟩
  rw [hP1]
  have hfirst : P1 (is + 1) - P1 is = q.G4 * (q.dx1 * q.dx1) * (d is - S / 2) := by
    rw [← hP1]
    simp only [Function.update_self]
    rw [Function.update_of_ne (show is ≠ is + 1 by omega), Function.update_self]
    field_simp
    ring
  obtain ⟨l1, l2⟩ := disk1Loop_eq (q := q) is d P1 (N - 2)
  set Q := disk1Loop q is d P1 (N - 2)
  have diff : ∀ m : ℕ, 1 ≤ m → m + 1 ≤ N → Q (is + m) - Q (is + m - 1) = q.G4 * (q.dx1 * q.dx1) * (∑ j ∈ range m, d (is + j) - S / 2) := by
    intro m h1 h2
    obtain ⟨n, rfl⟩ : ∃ n, m = n + 1 := ⟨m - 1, by omega⟩
    have h := l2 n (by omega)
    rw [hfirst] at h
    have e1 : is + ((n + 1 : ℕ) : ℤ) = is + 1 + n := by push_cast; ring
    have e2 : is + 1 + (n : ℤ) - 1 = is + n := by ring
    rw [e1, e2, h, sum_range_succ']
    have : ∑ j ∈ range n, d (is + ((j + 1 : ℕ) : ℤ)) = ∑ j ∈ range n, d (is + 1 + j) :=
      sum_congr rfl fun j _ => by congr 1; push_cast; ring
    rw [this]
    simp only [Nat.cast_zero, add_zero]
    ring
  have q0 : Q is - (2 * Q is - Q (is + 1) + q.dx1 * q.dx1 * q.G4 * d is) = q.G4 * (q.dx1 * q.dx1) * (-(S / 2)) := by
    have := diff 1 le_rfl (by omega)
    rw [sum_range_one] at this
    simp only [Nat.cast_one, Nat.cast_zero, add_zero] at this
    rw [show is + 1 - 1 = is by ring] at this
    linarith
  rcases Nat.eq_zero_or_pos m with rfl | hpos
  · simp only [Nat.cast_zero, add_zero, range_zero, sum_empty]
    rw [Function.update_of_ne (by omega), Function.update_self, Function.update_of_ne (by omega), Function.update_of_ne (by omega)]
    rw [q0]
    ring
  · rcases Nat.lt_or_eq_of_le hm with hl | rfl
    · rw [Function.update_of_ne (by omega), Function.update_of_ne (by omega), Function.update_of_ne (by omega), Function.update_of_ne (by omega),
        diff m hpos (by omega)]
      ring
    · have e : is + (m : ℤ) - 1 + 1 = is + m := by ring
      rw [e, Function.update_of_ne (by omega), Function.update_self, Function.update_of_ne (by omega), Function.update_of_ne (by omega)]
      have h := diff (m - 1) (by omega) (by omega)
      have e1 : is + ((m - 1 : ℕ) : ℤ) = is + m - 1 := by omega
      rw [e1] at h
      have hSm : S = ∑ j ∈ range (m - 1), d (is + j) + d (is + m - 1) := by
        have hr := sum_range_succ (fun j : ℕ => d (is + j)) (m - 1)
        rw [Nat.sub_add_cancel hpos, e1] at hr
        exact hr
      rw [← hS]
      generalize ∑ j ∈ range (m - 1), d (is + (j : ℤ)) = s at h hSm
      clear_value S
      subst hSm
      linarith

/-- **C119** in one dimension: Poisson's equation holds in all zones of the Grid with the ghost zones the solver sets. -/
theorem disk1_poisson (is : ℤ) {N : ℕ} (hN : 2 ≤ N) (h1 : 0 < q.dx1) (d P : ℤ → ℝ) {m : ℕ} (hm : m < N) :
    (disk1 q is N d P (is + m - 1) - 2 * disk1 q is N d P (is + m) + disk1 q is N d P (is + m + 1)) / (q.dx1 * q.dx1) = q.G4 * d (is + m) := by
  have a := disk1_sheets (q := q) is hN d P hm.le
  have b := disk1_sheets (q := q) is hN d P (m := m + 1) hm
  have e1 : is + ((m + 1 : ℕ) : ℤ) = is + m + 1 := by push_cast; ring
  have e2 : is + (m : ℤ) + 1 - 1 = is + m := by ring
  rw [e1, e2, sum_range_succ] at b
  rw [sum_eq_sum_Ico_succ_bot hm] at a
  have p : q.dx1 * q.dx1 ≠ 0 := by positivity
  rw [div_eq_iff p]
  linarith

/-- **C119** refuted in one dimension: the boundary function for reflecting walls then replaces the value below the Grid, and the potential no longer has the
gravity of the mass at the lower end, unless the total mass is zero. -/
theorem disk1_ghost_false (hq : q.Ok) (is : ℤ) {N : ℕ} (hN : 2 ≤ N) (d P : ℤ → ℝ) {n : ℕ} (hn : 1 ≤ n) (hS : ∑ j ∈ range N, d (is + j) ≠ 0) :
    reflLow is (disk1 q is N d P) n (is - 1) ≠ disk1 q is N d P (is - 1)
    ∧ (reflLow is (disk1 q is N d P) n (is - 1) - 2 * reflLow is (disk1 q is N d P) n is + reflLow is (disk1 q is N d P) n (is + 1)) / (q.dx1 * q.dx1)
      ≠ q.G4 * d is := by
  have key : ∀ (P : ℤ → ℝ) (n : ℕ), (∀ k, is ≤ k → reflLow is P n k = P k) ∧ (1 ≤ n → reflLow is P n (is - 1) = P is) := by
    intro P n
    induction n with
    | zero => exact ⟨fun _ _ => rfl, by omega⟩
    | succ n ih =>
      constructor
      · intro k hk
        unfold reflLow
        dsimp only
        rw [Function.update_of_ne (by omega)]
        exact ih.1 k hk
      · intro _
        unfold reflLow
        dsimp only
        by_cases h0 : n = 0
        · subst h0
          simp [reflLow]
        · rw [Function.update_of_ne (by omega)]
          exact ih.2 (by omega)
  have p1 := hq.dx1
  have p : 0 < q.dx1 * q.dx1 := by positivity
  have hG := hq.G4
  have a := disk1_sheets (q := q) is hN d P (m := 0) (by omega)
  simp only [Nat.cast_zero, add_zero, range_zero, sum_empty, zero_sub] at a
  rw [← range_eq_Ico] at a
  set S := ∑ j ∈ range N, d (is + j)
  have ne : disk1 q is N d P is - disk1 q is N d P (is - 1) ≠ 0 := by
    rw [a]
    have : q.G4 * (q.dx1 * q.dx1) ≠ 0 := by positivity
    exact div_ne_zero (mul_ne_zero this (neg_ne_zero.mpr hS)) two_ne_zero
  constructor
  · rw [(key _ n).2 hn]
    exact sub_ne_zero.mp ne
  · rw [(key _ n).2 hn, (key _ n).1 _ le_rfl, (key _ n).1 _ (by omega)]
    intro h
    have b := disk1_poisson (q := q) is hN p1 d P (m := 0) (by omega)
    simp only [Nat.cast_zero, add_zero] at b
    rw [← h, div_left_inj' p.ne'] at b
    apply ne
    linarith

/-- Three zones of different density. -/
example : ∑ j ∈ range 3, (fun i : ℤ => if i = 4 then (1 : ℝ) else if i = 5 then 2 else 5) (4 + (j : ℤ)) ≠ 0 := by
  simp [sum_range_succ]; norm_num

/-! ### Two dimensions -/

/-- The parameters of a three-dimensional Domain that has one zone in the second direction and whose third direction is the second of the two-dimensional one. -/
def upright (q : Par) : Par := { q with dx2 := 1, dx3 := q.dx2 }

theorem dft2_upright (s : ℝ) (N1 N2 : ℕ) (x : ℕ → ℕ → ℂ) (a b : ℕ) : dft2 s N1 N2 x a b = dft3 s N1 1 N2 (fun i _ k => x i k) a 0 b := by
  unfold dft2 dft3
  simp

/-- The two-dimensional solver is the three-dimensional one with a single zone in the second direction. -/
theorem disk2_eq {N1 N2 : ℕ} (h1 : 0 < N1) (L : ℝ) (d : ℕ → ℕ → ℝ) (i j : ℕ) :
    disk2 q L N1 N2 d i j = disk3 (upright q) L N1 1 N2 (fun i _ k => d i k) i 0 j := by
  have kc : kcomp 0 1 = 0 := kcomp_zero 1
  have hE : ∀ a : ℕ, diskExp2 q L N1 a = diskExp (upright q) L N1 1 a 0 := by
    intro a
    unfold diskExp2 diskExp upright
    dsimp only
    rw [kc, Int.cast_zero, zero_mul, zero_pow two_ne_zero, zero_div, add_zero, ← pow_two q.dx1, ← div_pow, Real.sqrt_sq_eq_abs]
  have hA : ∀ a b : ℕ, diskA2 q L N1 N2 a b = diskA (upright q) L N1 1 N2 a 0 b := by
    intro a b
    unfold diskA2 diskA
    have c1 := cos_kcomp (a := a) h1
    have c2 : (a : ℝ) * (2 * Real.pi / N1) = 2 * Real.pi * (a / N1) := by ring
    rw [hE, kc, c1, c2]
    by_cases h : b = 0 ∧ a = 0
    · rw [if_pos h, if_pos ⟨h.1, rfl, h.2⟩]
    · rw [if_neg h, if_neg (by tauto)]
      simp [upright]
  have hB : ∀ a b : ℕ, diskB2 q L N1 N2 a b = diskB (upright q) L N1 1 N2 a 0 b := by
    intro a b
    unfold diskB2 diskB
    have c1 := cos_kcomp (a := a) h1
    have c2 : (a : ℝ) * (2 * Real.pi / N1) = 2 * Real.pi * (a / N1) := by ring
    rw [hE, kc, c1, c2]
    simp [upright]
  unfold disk2 disk3
  dsimp only
  simp only [dft2_upright, hA, hB]
  have g : (upright q).G4 = q.G4 := rfl
  rw [g]
  have only : ∀ (f : ℕ → ℕ → ℕ → ℂ) (s : ℝ) (a c : ℕ), dft3 s N1 1 N2 f a 0 c = dft3 s N1 1 N2 (fun i _ k => f i 0 k) a 0 c := by
    intro f s a c
    unfold dft3
    simp
  have e1 : ∀ i j, dft3 1 N1 1 N2 (fun a b c => (diskA (upright q) L N1 1 N2 a b c : ℂ) * dft3 (-1) N1 1 N2 (fun i _ k => (⟨d i k * q.G4, 0⟩ : ℂ)) a b c) i 0 j
      = dft3 1 N1 1 N2 (fun a _ c => (diskA (upright q) L N1 1 N2 a 0 c : ℂ) * dft3 (-1) N1 1 N2 (fun i _ k => (⟨q.G4 * d i k, 0⟩ : ℂ)) a 0 c) i 0 j := by
    intro i j
    rw [only]
    simp only [mul_comm q.G4]
  have e2 : ∀ i j, dft3 1 N1 1 N2 (fun a b c => (diskB (upright q) L N1 1 N2 a b c : ℂ) * dft3 (-1) N1 1 N2 (fun i _ k =>
        (⟨Real.cos (0.5 * k * (2 * Real.pi / N2)) * (d i k * q.G4), -Real.sin (0.5 * k * (2 * Real.pi / N2)) * (d i k * q.G4)⟩ : ℂ)) a b c) i 0 j
      = dft3 1 N1 1 N2 (fun a _ c => (diskB (upright q) L N1 1 N2 a 0 c : ℂ) * dft3 (-1) N1 1 N2 (fun i _ k =>
        (⟨q.G4 * d i k * Real.cos (0.5 * k * (2 * Real.pi / N2)), q.G4 * d i k * -Real.sin (0.5 * k * (2 * Real.pi / N2))⟩ : ℂ)) a 0 c) i 0 j := by
    intro i j
    rw [only]
    congr 1
    funext a _ c
    congr 2
    funext i _ k
    congr 1 <;> ring
  rw [e1, e2, Nat.mul_one]

theorem upright_ok (hq : q.Ok) : (upright q).Ok := ⟨hq.dx1, one_pos, hq.dx2, hq.G4⟩

/-- **C119** (part), two dimensions: Poisson's equation away from the lowest and the highest row. -/
theorem disk2_poisson_partial (hq : q.Ok) {N1 N2 : ℕ} (h1 : 0 < N1) (L : ℝ) (d : ℕ → ℕ → ℝ) {i j : ℕ} (hi : i < N1) (hj0 : 1 ≤ j) (hj : j + 1 < N2) :
    (disk2 q L N1 N2 d ((i + N1 - 1) % N1) j - 2 * disk2 q L N1 N2 d i j + disk2 q L N1 N2 d ((i + 1) % N1) j) / (q.dx1 * q.dx1)
    + (disk2 q L N1 N2 d i (j - 1) - 2 * disk2 q L N1 N2 d i j + disk2 q L N1 N2 d i (j + 1)) / (q.dx2 * q.dx2) = q.G4 * d i j := by
  have := disk_poisson_partial (upright_ok hq) h1 one_pos L (fun i _ k => d i k) hi one_pos hj0 hj
  unfold planeLap at this
  simp only [← disk2_eq (q := q) h1, Nat.zero_add, Nat.add_sub_cancel, Nat.mod_self, Nat.sub_self, Nat.zero_mod] at this
  have e : ∀ x : ℝ, (x - 2 * x + x) / ((upright q).dx2 * (upright q).dx2) = 0 := by
    intro x; rw [show x - 2 * x + x = 0 by ring, zero_div]
  rw [e, add_zero] at this
  exact this

/-- **C120** (part), two dimensions. -/
theorem disk2_sheets_partial (hq : q.Ok) {N1 N2 : ℕ} (h1 : 0 < N1) (L : ℝ) (d : ℕ → ℕ → ℝ) {j : ℕ} (hj : j < N2) :
    ∑ i ∈ range N1, disk2 q L N1 N2 d i j
      = q.G4 * (q.dx2 * q.dx2) * ∑ j' ∈ range N2, (∑ i ∈ range N1, d i j') * (|(j : ℝ) - j'| / 2 - N2 / 4) := by
  have := disk_sheets_partial (upright_ok hq) h1 one_pos L (fun i _ k => d i k) hj
  simp only [sum_range_one, ← disk2_eq (q := q) h1] at this
  exact this

/-! ### Empty zones above -/

/-- One zone with mass. -/
def point (i j k : ℕ) : ℝ := if i = 0 ∧ j = 0 ∧ k = 0 then 1 else 0

theorem point_gap {N3 : ℕ} (h3 : 0 < N3) (L : ℝ) :
    disk3 q L 2 1 N3 point 0 0 0 - disk3 q L 2 1 N3 point 1 0 0 = q.G4 / N3 * ∑ c ∈ range (2 * N3), coefD q (diskExp q L 2 1) 2 1 N3 1 0 c := by
  rw [disk3_eq (by omega) (by omega) h3, disk3_eq (by omega) (by omega) h3]
  have hR : ∀ a b c : ℕ, dft3 (-1) 2 1 (2 * N3) (padz N3 fun i j k => ((point i j k * q.G4 : ℝ) : ℂ)) a b c = (q.G4 : ℂ) := by
    intro a b c
    unfold dft3 padz point
    rw [sum_eq_single 0, sum_eq_single 0, sum_eq_single 0]
    · simp [h3, ex_zero]
    · intro k _ hk; simp [hk]
    · intro h; exact absurd (mem_range.mpr (by omega)) h
    · intro j _ hj; refine sum_eq_zero fun k _ => ?_; simp [hj]
    · intro h; exact absurd (mem_range.mpr (by omega)) h
    · intro i _ hi; refine sum_eq_zero fun j _ => sum_eq_zero fun k _ => ?_; simp [hi]
    · intro h; exact absurd (mem_range.mpr (by omega)) h
  unfold PsiD syn
  simp only [hR, sum_range_succ, range_zero, sum_empty, zero_add]
  rw [← sub_div, ← Complex.sub_re]
  have c0 : ∀ c : ℕ, ch 2 1 (2 * N3) 0 0 c ((0 : ℕ) : ℤ) ((0 : ℕ) : ℤ) ((0 : ℕ) : ℤ) = 1 := fun c => by simp [ch, ex_zero]
  have c1 : ∀ c : ℕ, ch 2 1 (2 * N3) 1 0 c ((0 : ℕ) : ℤ) ((0 : ℕ) : ℤ) ((0 : ℕ) : ℤ) = 1 := fun c => by simp [ch, ex_zero]
  have c2 : ∀ c : ℕ, ch 2 1 (2 * N3) 0 0 c ((1 : ℕ) : ℤ) ((0 : ℕ) : ℤ) ((0 : ℕ) : ℤ) = 1 := fun c => by simp [ch, ex_zero]
  have c3 : ∀ c : ℕ, ch 2 1 (2 * N3) 1 0 c ((1 : ℕ) : ℤ) ((0 : ℕ) : ℤ) ((0 : ℕ) : ℤ) = -1 := fun c => by
    have : ex (1 / 2) = -1 := by
      rw [ex_eq]
      have e : 2 * Real.pi * (1 / 2) = Real.pi := by ring
      rw [e]
      apply Complex.ext <;> simp
    rw [← this]
    simp [ch]
  simp only [c0, c1, c2, c3]
  have p3 : (0 : ℝ) < N3 := by exact_mod_cast h3
  have e : (∑ x ∈ range (2 * N3), (coefD q (diskExp q L 2 1) 2 1 N3 0 0 x : ℂ) * (q.G4 : ℂ) * 1
      + ∑ x ∈ range (2 * N3), (coefD q (diskExp q L 2 1) 2 1 N3 1 0 x : ℂ) * (q.G4 : ℂ) * 1
      - (∑ x ∈ range (2 * N3), (coefD q (diskExp q L 2 1) 2 1 N3 0 0 x : ℂ) * (q.G4 : ℂ) * 1
      + ∑ x ∈ range (2 * N3), (coefD q (diskExp q L 2 1) 2 1 N3 1 0 x : ℂ) * (q.G4 : ℂ) * -1))
      = ((2 * q.G4 * ∑ c ∈ range (2 * N3), coefD q (diskExp q L 2 1) 2 1 N3 1 0 c : ℝ) : ℂ) := by
    push_cast
    simp only [← sum_mul]
    ring
  rw [e, Complex.ofReal_re]
  push_cast
  field_simp

/-- Cubes of side one. -/
def qUnit : Par := ⟨1, 1, 1, 1, 1, 0⟩

theorem qUnit_ok : qUnit.Ok := ⟨one_pos, one_pos, one_pos, one_pos⟩

theorem coef_unit (N3 c : ℕ) (L : ℝ) : coefD qUnit (diskExp qUnit L 2 1) 2 1 N3 1 0 c
    = 0.5 * (1 - (-1) ^ c * Real.exp (-(Real.pi * L))) / (2 * Real.cos (2 * Real.pi * (c / (2 * N3))) - 6) := by
  have hE : diskExp qUnit L 2 1 1 0 = Real.exp (-(Real.pi * L)) := by
    unfold diskExp
    have k1 : kcomp 1 2 = -1 := by decide
    have k2 : kcomp 0 1 = 0 := by decide
    simp only [k1, k2, qUnit]
    push_cast
    have : Real.sqrt ((-1 * (2 * Real.pi / 2)) ^ 2 / (1 * 1) + (0 * (2 * Real.pi / 1)) ^ 2 / (1 * 1)) = Real.pi := by
      rw [show (-1 * (2 * Real.pi / 2)) ^ 2 / (1 * 1) + (0 * (2 * Real.pi / 1)) ^ 2 / (1 * 1) = Real.pi ^ 2 by ring]
      exact Real.sqrt_sq Real.pi_pos.le
    rw [this]
    congr 1
    ring
  unfold coefD lam
  rw [if_neg (by omega), hE]
  simp only [qUnit]
  push_cast
  have c1 : Real.cos (2 * Real.pi * (1 / 2)) = -1 := by
    rw [show 2 * Real.pi * (1 / 2) = Real.pi by ring]; exact Real.cos_pi
  rw [c1]
  simp only [zero_div, mul_zero, Real.cos_zero]
  congr 1
  ring

/-- **C120** refuted for a density that depends on the position in the plane: an empty plane of zones put above the Domain changes the difference of the potential
between two zones.  (The height the solver is given grows with the Domain, as in the code.) -/
theorem disk_empty_false : disk3 qUnit 2 2 1 2 point 0 0 0 - disk3 qUnit 2 2 1 2 point 1 0 0
    ≠ disk3 qUnit 3 2 1 3 point 0 0 0 - disk3 qUnit 3 2 1 3 point 1 0 0 := by
  rw [point_gap (by omega), point_gap (by omega)]
  simp only [coef_unit]
  have hx : Real.exp (-(Real.pi * 2)) < 1 / 35 := by
    have h6 : Real.exp (-(Real.pi * 2)) ≤ Real.exp (-6) := Real.exp_le_exp.mpr (by have := Real.pi_gt_three; linarith)
    have he : Real.exp (-6 : ℝ) = (Real.exp 1)⁻¹ ^ 6 := by
      rw [← Real.exp_neg, ← Real.exp_nat_mul]; norm_num
    have h1 : (Real.exp 1)⁻¹ < 1 / 2 := by
      rw [inv_lt_comm₀ (Real.exp_pos 1) (by norm_num)]
      have := Real.exp_one_gt_d9
      norm_num
      linarith
    have h0 : 0 < (Real.exp 1)⁻¹ := inv_pos.mpr (Real.exp_pos 1)
    have : (Real.exp 1)⁻¹ ^ 6 < (1 / 2) ^ 6 := pow_lt_pow_left₀ h1 h0.le (by norm_num)
    have h64 : ((1 : ℝ) / 2) ^ 6 = 1 / 64 := by norm_num
    rw [h64] at this
    rw [he] at h6
    linarith
  have hy := Real.exp_pos (-(Real.pi * 3))
  generalize Real.exp (-(Real.pi * 2)) = x at hx ⊢
  generalize Real.exp (-(Real.pi * 3)) = y at hy ⊢
  simp only [Nat.reduceMul, sum_range_succ, range_zero, sum_empty, zero_add, qUnit]
  push_cast
  have a0 : Real.cos (2 * Real.pi * (0 / (2 * 2))) = 1 := by simp
  have a1 : Real.cos (2 * Real.pi * (1 / (2 * 2))) = 0 := by rw [show 2 * Real.pi * (1 / (2 * 2)) = Real.pi / 2 by ring]; exact Real.cos_pi_div_two
  have a2 : Real.cos (2 * Real.pi * (2 / (2 * 2))) = -1 := by rw [show 2 * Real.pi * (2 / (2 * 2)) = Real.pi by ring]; exact Real.cos_pi
  have a3 : Real.cos (2 * Real.pi * (3 / (2 * 2))) = 0 := by
    rw [show 2 * Real.pi * (3 / (2 * 2)) = Real.pi / 2 + Real.pi by ring, Real.cos_add_pi, Real.cos_pi_div_two, neg_zero]
  have b0 : Real.cos (2 * Real.pi * (0 / (2 * 3))) = 1 := by simp
  have b1 : Real.cos (2 * Real.pi * (1 / (2 * 3))) = 1 / 2 := by rw [show 2 * Real.pi * (1 / (2 * 3)) = Real.pi / 3 by ring]; exact Real.cos_pi_div_three
  have b2 : Real.cos (2 * Real.pi * (2 / (2 * 3))) = -(1 / 2) := by
    rw [show 2 * Real.pi * (2 / (2 * 3)) = Real.pi - Real.pi / 3 by ring, Real.cos_pi_sub, Real.cos_pi_div_three]
  have b3 : Real.cos (2 * Real.pi * (3 / (2 * 3))) = -1 := by rw [show 2 * Real.pi * (3 / (2 * 3)) = Real.pi by ring]; exact Real.cos_pi
  have b4 : Real.cos (2 * Real.pi * (4 / (2 * 3))) = -(1 / 2) := by
    rw [show 2 * Real.pi * (4 / (2 * 3)) = Real.pi / 3 + Real.pi by ring, Real.cos_add_pi, Real.cos_pi_div_three]
  have b5 : Real.cos (2 * Real.pi * (5 / (2 * 3))) = 1 / 2 := by
    rw [show 2 * Real.pi * (5 / (2 * 3)) = 2 * Real.pi - Real.pi / 3 by ring, Real.cos_two_pi_sub, Real.cos_pi_div_three]
  rw [a0, a1, a2, a3, b0, b1, b2, b3, b4, b5]
  norm_num
  intro h
  linarith

/-- The hypotheses of the other theorems: cubes of side one, a Domain of 2 by 2 by 4 zones with one massive one. -/
example : qUnit.Ok ∧ ∑ i ∈ range 2, ∑ j ∈ range 2, point i j 0 ≠ 0 :=
  ⟨qUnit_ok, by simp [point, sum_range_succ]⟩

end Athena.Grav
