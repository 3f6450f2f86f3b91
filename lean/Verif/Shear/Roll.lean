import Verif.Shear.FargoEx

/-!
# Rolling density and potential to the nearest periodic point

`RemapVar()` of src/bvals_shear.c, with which the FFT solvers for self-gravity turn the sheared
density into a periodic one, and the periodic potential back (src/gravity/selfg_fft.c:157, 251,
410, 540).  It is the advection of `Verif.Shear.Fargo` done another way: the fraction of a zone
first, from `nghost` ghost zones, and then a cyclic shift over the Grids.  One row is modelled (one
x1 column, one x3 index); the rows do not interact.
-/

namespace Athena.Shear

/-- `yshear` of a column: src/bvals_shear.c:4631, 4659, 4687. -/
noncomputable def rollY (q om x1 dt : ℝ) : ℝ := -q * om * x1 * dt

/-- `jremap` with one Grid: src/bvals_shear.c:4664-4666.  The second wrap sees the result of the first. -/
def rollIx (C : Cut) (joff j : ℤ) : ℤ :=
  let r := j - joff
  let r1 := if r < C.js then r + C.nx else r
  if r1 > C.je then r1 - C.nx else r1

open Classical in
/-- Steps 4 and 5: src/bvals_shear.c:4650-4937.  With several Grids the two halves, for offsets
above zero and the others, are Step 5 of the two edges of the shearing sheet. -/
noncomputable def rollShift (C : Cut) (joff : ℤ) (buf : ℤ → ℤ → ℝ) : Res (ℤ → ℤ → ℝ) :=
  if C.ngr = 1 then
    if ∀ j, C.js ≤ j → j ≤ C.je → C.js ≤ rollIx C joff j ∧ rollIx C joff j ≤ C.je then
      .ok (fun l j => buf l (rollIx C joff j)) else .ub
  else if joff > 0 then shift .ix1 C joff buf
  else shift .ox1 C (joff * -1) buf

/-- `RemapVar` on one row: src/bvals_shear.c:4517-4941. -/
noncomputable def roll (o : Order) (C : Cut) (dx2 y : ℝ) (V : ℤ → ℤ → ℝ) : Res (ℤ → ℤ → ℝ) :=
  rollShift C (cTrunc (y / dx2)) (fun l => remap o (cFmod y dx2 / dx2) (fillY C V l))

/-! ## Specification -/

/-- A row slid along x2 by `y`: by the whole zones, and by the remap for the rest. -/
noncomputable def slid (o : Order) (dx2 y : ℝ) (g : ℤ → ℝ) (m : ℤ) : ℝ :=
  remap o (cFmod y dx2 / dx2) g (m - cTrunc (y / dx2))

/-- It is what the orbital advection does to a row. -/
theorem carried_slid (A : Adv) (y : ℝ) (g : ℤ → ℝ) : A.carried y g = slid A.o A.dx2 y g := rfl

/-! ## Theorems -/

theorem rollShift_global {C : Cut} (h : C.Fit) {joff : ℤ} (lo : -C.total < joff) (hi : joff < C.total)
    {buf : ℤ → ℤ → ℝ} {b : ℤ → ℝ} (hb : HoldsIn C buf b) (per : ∀ m, b (m + C.total) = b m) :
    ∃ r, rollShift C joff buf = .ok r ∧ HoldsIn C r (fun m => b (m - joff)) := by
  have hx : 0 < C.nx := by have := h.ng; have := h.nx; omega
  have sub : ∀ m, b (m - C.total) = b m := by intro m; rw [← per (m - C.total)]; congr 1; ring
  unfold rollShift
  by_cases one : C.ngr = 1
  · have tot : C.total = C.nx := by unfold Cut.total; rw [one, one_mul]
    rw [tot] at lo hi
    have je : C.je = C.js + C.nx - 1 := rfl
    have ok : ∀ j, C.js ≤ j → j ≤ C.je → C.js ≤ rollIx C joff j ∧ rollIx C joff j ≤ C.je := by
      intro j a c
      simp only [rollIx]
      split_ifs <;> constructor <;> omega
    rw [if_pos one, if_pos ok]
    refine ⟨_, rfl, ?_⟩
    intro l l0 l1 j a c
    obtain ⟨p, q⟩ := ok j a c
    have hl : l = 0 := by omega
    subst hl
    dsimp only
    rw [hb 0 l0 l1 _ p q]
    simp only [rollIx]
    split_ifs with w1 w2 w2
    · rw [← sub, tot]; congr 1; omega
    · rw [← sub, tot]; congr 1; ring
    · rw [← per, tot]; congr 1; ring
    · congr 1; ring
  · rw [if_neg one]
    split_ifs with w
    · obtain ⟨r, e, hr⟩ := shift_global h .ix1 (by omega) hi hb per
      refine ⟨r, e, ?_⟩
      simpa [Edge.sign] using hr
    · obtain ⟨r, e, hr⟩ := shift_global h .ox1 (joff := joff * -1) (by omega) (by omega) hb per
      refine ⟨r, e, ?_⟩
      simpa [Edge.sign] using hr

theorem trunc_lt {x : ℝ} {N : ℤ} (h : |x| < N) : -N < cTrunc x ∧ cTrunc x < N := by
  obtain ⟨a, b⟩ := abs_lt.1 h
  unfold cTrunc
  split_ifs with c
  · have : 0 ≤ ⌊x⌋ := Int.floor_nonneg.2 c
    have q : ⌊x⌋ < N := Int.floor_lt.2 b
    exact ⟨by omega, q⟩
  · have p : -N < ⌈x⌉ := Int.lt_ceil.2 (by push_cast; exact a)
    have q : ⌈x⌉ ≤ 0 := Int.ceil_le.2 (by push_cast; linarith)
    have : (0 : ℝ) < N := lt_of_le_of_lt (abs_nonneg x) h
    have : 0 < N := by exact_mod_cast this
    exact ⟨p, by omega⟩

/-- **A row is rolled as it should be**: for any distance short of the length of the box, in
either direction, on any cut of the Domain along x2, the row ends up slid by that distance. -/
theorem roll_row {C : Cut} (h : C.Fit) (o : Order) {dx2 y : ℝ} (hd : 0 < dx2) (hy : |y| < C.total * dx2)
    {V : ℤ → ℤ → ℝ} {g : ℤ → ℝ} (hV : HoldsIn C V g) (per : ∀ m, g (m + C.total) = g m) :
    ∃ R, roll o C dx2 y V = .ok R ∧ HoldsIn C R (slid o dx2 y g) := by
  have hr := fillY_holds (C := C) h.ngr (by have := h.ng; have := h.nx; omega) (by have := h.ng; omega)
    (Or.inr h.nx) per hV
  have hx : |y / dx2| < C.total := by
    rw [abs_div, abs_of_pos hd, div_lt_iff₀ hd]
    exact hy
  obtain ⟨lo, hi⟩ := trunc_lt hx
  exact rollShift_global h lo hi (remap_global h o _ hr) (remap_periodic o per _)

/-- The time since the box was last periodic: src/gravity/selfg_fft.c:134, 386. -/
noncomputable def sincePeriodic (q om lx ly t : ℝ) : ℝ :=
  t - cTrunc (q * om * t * lx / ly) * ly / (q * om * lx)

/-- In a box which reaches no further from the origin than its own length along x1, every column
rolls by less than the length of the box along x2. -/
theorem roll_short {q om lx ly t x1 : ℝ} (hq : 0 < q * om) (hx : 0 < lx) (hy : 0 < ly) (ht : 0 ≤ t)
    (h1 : |x1| ≤ lx) : |rollY q om x1 (sincePeriodic q om lx ly t)| < ly ∧
      |rollY q om x1 (-sincePeriodic q om lx ly t)| < ly := by
  set s := q * om * t * lx / ly with hs
  have s0 : 0 ≤ s := by positivity
  have hq' : q * om ≠ 0 := hq.ne'
  have e : sincePeriodic q om lx ly t = (s - ⌊s⌋) * ly / (q * om * lx) := by
    unfold sincePeriodic cTrunc
    rw [← hs, if_pos s0]
    have : t = s * ly / (q * om * lx) := by
      rw [hs]
      generalize q * om = w at *
      field_simp
    rw [this]
    ring
  have f0 : 0 ≤ s - ⌊s⌋ := by have := Int.floor_le s; linarith
  have f1 : s - ⌊s⌋ < 1 := by have := Int.lt_floor_add_one s; linarith
  have key : |rollY q om x1 (sincePeriodic q om lx ly t)| = |x1| / lx * ((s - ⌊s⌋) * ly) := by
    rw [e]
    unfold rollY
    rw [show -q * om * x1 * ((s - ⌊s⌋) * ly / (q * om * lx)) = -(x1 / lx * ((s - ⌊s⌋) * ly)) by
      rw [show -q * om * x1 = -(q * om) * x1 by ring]
      generalize q * om = w at *
      field_simp]
    rw [abs_neg, abs_mul, abs_div, abs_of_pos hx, abs_of_nonneg (mul_nonneg f0 hy.le)]
  have lt : |x1| / lx * ((s - ⌊s⌋) * ly) < ly := by
    have a : |x1| / lx ≤ 1 := (div_le_one hx).2 h1
    have b : (s - ⌊s⌋) * ly < ly := by nlinarith
    have c : 0 ≤ (s - ⌊s⌋) * ly := mul_nonneg f0 hy.le
    have d : |x1| / lx * ((s - ⌊s⌋) * ly) ≤ 1 * ((s - ⌊s⌋) * ly) := mul_le_mul_of_nonneg_right a c
    linarith
  have neg : rollY q om x1 (-sincePeriodic q om lx ly t) = -rollY q om x1 (sincePeriodic q om lx ly t) := by
    unfold rollY; ring
  rw [neg, abs_neg, key]
  exact ⟨lt, lt⟩

/-- **What the gravity solvers get.**  At any time, in a box that reaches no further from the origin
than its length along x1: the density of a column, on any cut of the Domain along x2, is slid by
the shear since the box was last periodic, and no mass is lost. -/
theorem roll_gravity {C : Cut} (h : C.Fit) (o : Order) {q om lx dx2 t x1 : ℝ} (hq : 0 < q * om) (hx : 0 < lx)
    (hd : 0 < dx2) (ht : 0 ≤ t) (h1 : |x1| ≤ lx) {V : ℤ → ℤ → ℝ} {g : ℤ → ℝ} (hV : HoldsIn C V g)
    (per : ∀ m, g (m + C.total) = g m) :
    ∃ R, roll o C dx2 (rollY q om x1 (-sincePeriodic q om lx (C.total * dx2) t)) V = .ok R ∧
      HoldsIn C R (slid o dx2 (q * om * x1 * sincePeriodic q om lx (C.total * dx2) t) g) ∧
      rowSum C R = rowSum C V := by
  have tot : 0 < C.total := by
    have := h.ngr; have := h.ng; have := h.nx
    exact mul_pos (by omega) (by omega)
  have hy : 0 < (C.total : ℝ) * dx2 := mul_pos (by exact_mod_cast tot) hd
  obtain ⟨R, e, hR⟩ := roll_row h o hd (roll_short hq hx hy ht h1).2 hV per
  refine ⟨R, e, ?_, ?_⟩
  · rw [show q * om * x1 * sincePeriodic q om lx (C.total * dx2) t =
      rollY q om x1 (-sincePeriodic q om lx (C.total * dx2) t) by unfold rollY; ring]
    exact hR
  · have tn : ((C.total.toNat : ℕ) : ℤ) = C.total := Int.toNat_of_nonneg tot.le
    rw [rowSum_holds h hR, rowSum_holds h hV]
    have := sum_shift (g := remap o (cFmod (rollY q om x1 (-sincePeriodic q om lx (C.total * dx2) t)) dx2 / dx2) g)
      (N := C.total.toNat) (by rw [tn]; exact remap_periodic o per _)
      (-cTrunc (rollY q om x1 (-sincePeriodic q om lx (C.total * dx2) t) / dx2))
    rw [remap_sum o (by rw [tn]; exact per)] at this
    exact this

/-- **When every column has sheared by whole zones, rolling there and back changes nothing.** -/
theorem roll_back {C : Cut} (h : C.Fit) (o : Order) {dx2 : ℝ} (hd : 0 < dx2) {n : ℤ} (hn : |n| < C.total)
    {V : ℤ → ℤ → ℝ} {g : ℤ → ℝ} (hV : HoldsIn C V g) (per : ∀ m, g (m + C.total) = g m) :
    ∃ R S, roll o C dx2 (n * dx2) V = .ok R ∧ roll o C dx2 (-n * dx2) R = .ok S ∧ HoldsIn C S g := by
  have whole : ∀ (k : ℤ) (g : ℤ → ℝ) (m : ℤ), slid o dx2 (k * dx2) g m = g (m - k) := by
    intro k g m
    unfold slid cFmod
    rw [mul_div_cancel_right₀ _ hd.ne', cTrunc_int, show (k : ℝ) * dx2 - dx2 * k = 0 by ring, zero_div, remap_zero]
  have bd : ∀ k : ℤ, |k| < C.total → |(k : ℝ) * dx2| < C.total * dx2 := by
    intro k hk
    rw [abs_mul, abs_of_pos hd]
    apply mul_lt_mul_of_pos_right _ hd
    exact_mod_cast hk
  obtain ⟨R, e, hR⟩ := roll_row h o hd (bd n hn) hV per
  have hR' : HoldsIn C R (fun m => g (m - n)) := by
    intro l l0 l1 j a b
    rw [hR l l0 l1 j a b, whole]
  obtain ⟨S, e', hS⟩ := roll_row h o (y := ((-n : ℤ) : ℝ) * dx2) hd (bd (-n) (by rw [abs_neg]; exact hn)) hR' (by
    intro m
    rw [show m + C.total - n = m - n + C.total by ring, per])
  refine ⟨R, S, e, by push_cast at e'; exact e', ?_⟩
  intro l l0 l1 j a b
  rw [hS l l0 l1 j a b, whole]
  congr 1
  ring

/-- A row of twelve zones on three Grids, rolled back by seven and a half. -/
example (o : Order) : ∃ (C : Cut) (V R : ℤ → ℤ → ℝ) (g : ℤ → ℝ), C.Fit ∧ C.ngr = 3 ∧ C.total = 12 ∧ g 0 ≠ g 1 ∧
    HoldsIn C V g ∧ (∀ m, g (m + C.total) = g m) ∧ roll o C 1 (-15 / 2) V = .ok R := by
  let C : Cut := ⟨3, 4, 4⟩
  have hC : C.Fit := ⟨by norm_num [C], by norm_num [C], by norm_num [C]⟩
  let g : ℤ → ℝ := fun m => if m % 12 = 0 then 2 else 1
  have per : ∀ m, g (m + C.total) = g m := by
    intro m
    show (if (m + 3 * 4) % 12 = 0 then (2 : ℝ) else 1) = if m % 12 = 0 then 2 else 1
    rw [show (m + 3 * 4) % 12 = m % 12 by omega]
  have hV : HoldsIn C (spread C g) g := fun _ _ _ _ _ _ => rfl
  obtain ⟨R, e, -⟩ := roll_row hC o (dx2 := 1) (y := -15 / 2) (by norm_num) (by
    rw [abs_of_neg (by norm_num)]; norm_num [C, Cut.total]) hV per
  exact ⟨C, _, R, g, hC, rfl, rfl, by norm_num [g], hV, per, e⟩

/-- **A box away from the origin reads zones nobody has set.**  The offset of a column counts from
`x1 = 0`, and the single wrap of the index reaches one length of the box only; nothing checks it.
A box from 3 to 4 with four zones along x2 at half the shear period. -/
theorem roll_far_false : ¬∀ (C : Cut) (o : Order) (q om lx dx2 t x1min x1 : ℝ) (V : ℤ → ℤ → ℝ) (g : ℤ → ℝ), C.Fit →
    0 < q * om → 0 < lx → 0 < dx2 → 0 ≤ t → x1min < x1 → x1 < x1min + lx → HoldsIn C V g →
    (∀ m, g (m + C.total) = g m) →
    roll o C dx2 (rollY q om x1 (-sincePeriodic q om lx (C.total * dx2) t)) V ≠ .ub := by
  intro h
  refine h (one 4) .second 1 1 1 1 2 3 (7 / 2) (fun _ _ => 1) (fun _ => 1) (one_fit (le_refl 4)) (by norm_num)
    (by norm_num) (by norm_num) (by norm_num) (by norm_num) (by norm_num) (fun _ _ _ _ _ _ => rfl) (fun _ => rfl) ?_
  have s : sincePeriodic 1 1 1 ((one 4).total * 1) 2 = 2 := by
    unfold sincePeriodic
    rw [one_total]
    rw [show (1 : ℝ) * 1 * 2 * 1 / (((4 : ℤ) : ℝ) * 1) = 1 / 2 by norm_num, half_trunc]
    norm_num
  have y : rollY 1 1 (7 / 2) (-sincePeriodic 1 1 1 ((one 4).total * 1) 2) / 1 = ((7 : ℤ) : ℝ) := by
    rw [s]; norm_num [rollY]
  unfold roll rollShift
  rw [y, cTrunc_int, if_pos (by rfl), if_neg]
  intro bad
  have := (bad 4 (by norm_num [one, Cut.js]) (by norm_num [one, Cut.je])).1
  norm_num [rollIx, one, Cut.js, Cut.je] at this

end Athena.Shear
