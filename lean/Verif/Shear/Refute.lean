import Verif.Shear.Ex

/-!
# The shearing sheet: claims that do not hold
-/

namespace Athena.Shear

theorem one_total (n : ℤ) : (one n).total = n := by simp [one, Cut.total]

/-- The second-order remap by half a zone, from the four values it depends on. -/
theorem half_of {U : ℤ → ℝ} {j : ℤ} {a b c d x y : ℝ} (ha : U (j - 2) = a) (hb : U (j - 1) = b) (hc : U j = c)
    (hd : U (j + 1) = d)
    (hx : (if (b - a) * (c - b) > 0 then sgn (c - a) * min (1 / 2 * |c - a|) (2 * min |b - a| |c - b|) else 0) = x)
    (hy : (if (c - b) * (d - c) > 0 then sgn (d - b) * min (1 / 2 * |d - b|) (2 * min |c - b| |d - c|) else 0) = y) :
    remap .second (1 / 2) U j = 1 / 2 * (c - 1 / 4 * y) + 1 / 2 * (b + 1 / 4 * x) := by
  have s1 : slope U (j - 1) = x := by
    rw [slope_of (a := a) (c := c) ((congrArg U (by ring)).trans ha) hb ((congrArg U (by ring)).trans hc)]
    exact hx
  have s2 : slope U j = y := by rw [slope_of hb hc hd]; exact hy
  rw [remap2_pos _ (by norm_num), s2, s1, hc, hb]
  ring

/-! ## The divergence of the field -/

/-- Face fields of a layer: B1 on the left faces, B2. -/
noncomputable def faces (b1 b2 : ℝ) : Var → ℝ
  | .b1 => b1
  | .b2 => b2
  | _ => 0

/-- **The field in the ghost zones is not divergence-free** although that of the images is: the
two components are limited one by one.  Two neighbouring layers `g`, `g'` with unit zones and a field along x3
which does not change along x3. -/
theorem divergence_false : ¬∀ (C : Cut) (o : Order) (s : Edge) (B : Box) (g g' : ℤ → Var → ℝ)
    (R R' : ℤ → ℤ → Var → ℝ), C.Fit → B.Fit C → (∀ m, g (m + C.total) = g m) → (∀ m, g' (m + C.total) = g' m) →
    (∀ m, (g' m .b1 - g m .b1) + (g (m + 1) .b2 - g m .b2) = 0) →
    Gives o s C true B false (spread C g) R → Gives o s C true B false (spread C g') R' →
    ∀ l j, 0 ≤ l → l < C.ngr → C.js ≤ j → j ≤ C.je →
      (R' l j .b1 - R l j .b1) + (R l (j + 1) .b2 - R l j .b2) = 0 := by
  intro h
  let g : ℤ → Var → ℝ := cyc (faces 0 0) (faces 0 (-1)) (faces 1 (-2)) (faces 1 (-1))
  let g' : ℤ → Var → ℝ := cyc (faces 1 0) (faces 1 0) (faces 0 0) (faces 0 0)
  have per : ∀ m, g (m + 4) = g m := cyc_four _ _ _ _
  have per' : ∀ m, g' (m + 4) = g' m := cyc_four _ _ _ _
  obtain ⟨R, hR⟩ := one_gives (le_refl 4) .second (t := 1 / 2) (by norm_num) per
  obtain ⟨R', hR'⟩ := one_gives (le_refl 4) .second (t := 1 / 2) (by norm_num) per'
  have div : ∀ m, (g' m .b1 - g m .b1) + (g (m + 1) .b2 - g m .b2) = 0 := by
    intro m
    simp only [g, g', cyc]
    have : m % 4 = 0 ∨ m % 4 = 1 ∨ m % 4 = 2 ∨ m % 4 = 3 := by omega
    rcases this with e | e | e | e
    · have e' : (m + 1) % 4 = 1 := by omega
      rw [e, e']; norm_num [faces]
    · have e' : (m + 1) % 4 = 2 := by omega
      rw [e, e']; norm_num [faces]
    · have e' : (m + 1) % 4 = 3 := by omega
      rw [e, e']; norm_num [faces]
    · have e' : (m + 1) % 4 = 0 := by omega
      rw [e, e']; norm_num [faces]
  have := h (one 4) .second .ix1 (unitBox 4 (1 / 2)) g g' R R' (one_fit (le_refl 4)) (unitBox_fit (by norm_num))
    (by rw [one_total]; exact per) (by rw [one_total]; exact per') div hR hR' 0 5 (le_refl _)
    (by norm_num [one]) (by norm_num [one, Cut.js]) (by norm_num [one, Cut.je])
  have v1 : R' 0 5 .b1 = 1 := by
    rw [show (5 : ℤ) = 1 + 4 by norm_num, one_value (le_refl 4) (by norm_num) (by norm_num) per' hR' .b1
      (by norm_num) (by norm_num),
      half_of (a := 0) (b := 1) (c := 1) (d := 0) (x := 0) (y := 0) (by norm_num [g', cyc, faces])
        (by norm_num [g', cyc, faces]) (by norm_num [g', cyc, faces]) (by norm_num [g', cyc, faces])
        (by norm_num) (by norm_num)]
    norm_num
  have v2 : R 0 5 .b1 = 0 := by
    rw [show (5 : ℤ) = 1 + 4 by norm_num, one_value (le_refl 4) (by norm_num) (by norm_num) per hR .b1
      (by norm_num) (by norm_num),
      half_of (a := 1) (b := 0) (c := 0) (d := 1) (x := 0) (y := 0) (by norm_num [g, cyc, faces])
        (by norm_num [g, cyc, faces]) (by norm_num [g, cyc, faces]) (by norm_num [g, cyc, faces])
        (by norm_num) (by norm_num)]
    norm_num
  have v3 : R 0 5 .b2 = -3 / 8 := by
    rw [show (5 : ℤ) = 1 + 4 by norm_num, one_value (le_refl 4) (by norm_num) (by norm_num) per hR .b2
      (by norm_num) (by norm_num),
      half_of (a := -1) (b := 0) (c := -1) (d := -2) (x := 0) (y := -1) (by norm_num [g, cyc, faces])
        (by norm_num [g, cyc, faces]) (by norm_num [g, cyc, faces]) (by norm_num [g, cyc, faces])
        (by norm_num) (by norm_num [sgn])]
    norm_num
  have v4 : R 0 6 .b2 = -13 / 8 := by
    rw [show (6 : ℤ) = 2 + 4 by norm_num, one_value (le_refl 4) (by norm_num) (by norm_num) per hR .b2
      (by norm_num) (by norm_num),
      half_of (a := 0) (b := -1) (c := -2) (d := -1) (x := -1) (y := 0) (by norm_num [g, cyc, faces])
        (by norm_num [g, cyc, faces]) (by norm_num [g, cyc, faces]) (by norm_num [g, cyc, faces])
        (by norm_num [sgn]) (by norm_num)]
    norm_num
  rw [v1, v2, v3, show (5 : ℤ) + 1 = 6 by norm_num, v4] at this
  norm_num at this

/-! ## The third-order version -/

theorem uHalf_of {U : ℤ → ℝ} {j : ℤ} {a b c d q : ℝ} (ha : U (j - 2) = a) (hb : U (j - 1) = b) (hc : U j = c)
    (hd : U (j + 1) = d) (hq : curvHalf U j = q) : uHalf U j = 1 / 2 * ((b + c) - q / 3) := by
  unfold uHalf; rw [hq, hb, hc]

theorem curv_of {U : ℤ → ℝ} {j : ℤ} {a b c d : ℝ} (ha : U (j - 2) = a) (hb : U (j - 1) = b) (hc : U j = c)
    (hd : U (j + 1) = d) : curvHalf U j =
      (let x := 3 * (b - 2 * ((7 * (b + c) - (a + d)) / 12) + c)
       let l := a - 2 * b + c
       let r := b - 2 * c + d
       if 0 < x ∧ 0 < l ∧ 0 < r then sgn x * min (5 / 4 * min |l| |r|) |x|
       else if x < 0 ∧ l < 0 ∧ r < 0 then sgn x * min (5 / 4 * min |l| |r|) |x| else 0) := by
  unfold curvHalf; rw [ha, hb, hc, hd]

/-- A density with narrow peaks. -/
noncomputable def peaks (m : ℤ) : Var → ℝ
  | .d => if m % 3 = 1 then 10 else 1
  | _ => 0

theorem peaks_negative : remap .third (1 / 2) (fun k => peaks k .d) 3 < 0 := by
  have h2 : uHalf (fun k => peaks k .d) 2 = 11 / 2 := by
    rw [uHalf_of (a := 1) (b := 10) (c := 1) (d := 1) (q := 0) (by norm_num [peaks]) (by norm_num [peaks])
      (by norm_num [peaks]) (by norm_num [peaks])]
    · norm_num
    · rw [curv_of (a := 1) (b := 10) (c := 1) (d := 1) (by norm_num [peaks]) (by norm_num [peaks])
        (by norm_num [peaks]) (by norm_num [peaks])]
      norm_num
  have h3 : uHalf (fun k => peaks k .d) 3 = -1 / 2 := by
    rw [uHalf_of (a := 10) (b := 1) (c := 1) (d := 10) (q := 9) (by norm_num [peaks]) (by norm_num [peaks])
      (by norm_num [peaks]) (by norm_num [peaks])]
    · norm_num
    · rw [curv_of (a := 10) (b := 1) (c := 1) (d := 10) (by norm_num [peaks]) (by norm_num [peaks])
        (by norm_num [peaks]) (by norm_num [peaks])]
      norm_num [sgn]
  have h4 : uHalf (fun k => peaks k .d) 4 = 11 / 2 := by
    rw [uHalf_of (a := 1) (b := 1) (c := 10) (d := 1) (q := 0) (by norm_num [peaks]) (by norm_num [peaks])
      (by norm_num [peaks]) (by norm_num [peaks])]
    · norm_num
    · rw [curv_of (a := 1) (b := 1) (c := 10) (d := 1) (by norm_num [peaks]) (by norm_num [peaks])
        (by norm_num [peaks]) (by norm_num [peaks])]
      norm_num
  have u2 : peaks 2 .d = 1 := by norm_num [peaks]
  have u3 : peaks 3 .d = 1 := by norm_num [peaks]
  have e2 : edges (fun k => peaks k .d) 2 = (4, -1 / 2) := by
    rw [edges_eq, h2, show (2 : ℤ) + 1 = 3 by norm_num, h3, u2]
    norm_num [monotone]
  have e3 : edges (fun k => peaks k .d) 3 = (-1 / 2, 4) := by
    rw [edges_eq, h3, show (3 : ℤ) + 1 = 4 by norm_num, h4, u3]
    norm_num [monotone]
  unfold remap
  simp only [remapFlux, flux3]
  rw [if_pos (by norm_num), if_pos (by norm_num), show (3 : ℤ) + 1 - 1 = 3 by norm_num,
    show (3 : ℤ) - 1 = 2 by norm_num, e2, e3, u2, u3]
  norm_num [rightPart]

/-- **The third-order remap can make a density negative**, unlike the second-order one (`sheet_bounds`): the
flat sides of two peaks. -/
theorem positive_false : ¬∀ (C : Cut) (s : Edge) (fargo : Bool) (B : Box) (g : ℤ → Var → ℝ)
    (R : ℤ → ℤ → Var → ℝ), C.Fit → B.Fit C → (∀ m, g (m + C.total) = g m) → (∀ m, 1 ≤ g m .d) →
    Gives .third s C fargo B false (spread C g) R →
    ∀ l j, 0 ≤ l → l < C.ngr → C.js - C.ng ≤ j → j ≤ C.je + C.ng → 0 ≤ R l j .d := by
  intro h
  have per : ∀ m, peaks (m + 6) = peaks m := by
    intro m
    funext v
    cases v <;> simp only [peaks]
    rw [show (m + 6) % 3 = m % 3 by omega]
  obtain ⟨R, hR⟩ := one_gives (n := 6) (by norm_num) .third (t := 1 / 2) (by norm_num) per
  have := h (one 6) .ix1 true (unitBox 6 (1 / 2)) peaks R (one_fit (by norm_num)) (unitBox_fit (by norm_num))
    (by rw [one_total]; exact per) (by
      intro m; simp only [peaks]; split_ifs <;> norm_num) hR 0 7 (le_refl _) (by norm_num [one])
    (by norm_num [one, Cut.js]) (by norm_num [one, Cut.je])
  rw [show (7 : ℤ) = 3 + 4 by norm_num, one_value (by norm_num) (by norm_num) (by norm_num) per hR .d
    (by norm_num) (by norm_num)] at this
  exact absurd this (not_le.2 peaks_negative)

/-- A parabola with its bottom in the middle of the row. -/
noncomputable def bowl (m : ℤ) : Var → ℝ
  | .d => (((m % 8 - 4 : ℤ)) : ℝ) ^ 2
  | _ => 0

/-- **Smooth extrema are clipped at third order.**  The routine describes itself as extremum preserving; a
parabola is moved exactly where it rises or falls (`sheet_parabola_partial`) but not at its bottom. -/
theorem parabola_false : ¬∀ (C : Cut) (s : Edge) (fargo : Bool) (B : Box) (g : ℤ → Var → ℝ)
    (R : ℤ → ℤ → Var → ℝ), C.Fit → B.Fit C → (∀ m, g (m + C.total) = g m) →
    Gives .third s C fargo B false (spread C g) R → ∀ (v : Var) (p q r : ℝ) (l j : ℤ), 0 ≤ l → l < C.ngr →
    C.js - C.ng ≤ j → j ≤ C.je + C.ng →
    (∀ k : ℤ, |k| ≤ 3 → offset (bump fargo s B)
      (g (l * C.nx + (j - C.js) - s.sign * ⌊B.zones⌋ + k)) v = p + q * k + r * (k : ℝ) ^ 2) →
    R l j v = p + q * (-(s.sign * Int.fract B.zones)) + r * (-(s.sign * Int.fract B.zones)) ^ 2 := by
  intro h
  have per : ∀ m, bowl (m + 8) = bowl m := by
    intro m
    funext v
    cases v <;> simp only [bowl]
    rw [show (m + 8) % 8 = m % 8 by omega]
  obtain ⟨R, hR⟩ := one_gives (n := 8) (by norm_num) .third (t := 1 / 4) (by norm_num) per
  have := h (one 8) .ix1 true (unitBox 8 (1 / 4)) bowl R (one_fit (by norm_num)) (unitBox_fit (by norm_num))
    (by rw [one_total]; exact per) hR .d 0 0 1 0 8 (le_refl _) (by norm_num [one])
    (by norm_num [one, Cut.js]) (by norm_num [one, Cut.je]) (by
      intro k hk
      rw [abs_le] at hk
      rw [unitBox_zones, floor_zero (by norm_num) (by norm_num)]
      have e : ∀ m, offset (bump true .ix1 (unitBox 8 (1 / 4))) (bowl m) .d = bowl m .d := fun _ => rfl
      rw [e]
      simp only [bowl, one, Cut.js]
      rw [show (0 * 8 + (8 - 4) - Edge.ix1.sign * 0 + k) % 8 = 4 + k by
        simp only [Edge.sign]; omega]
      push_cast; ring)
  rw [unitBox_zones, fract_self (by norm_num) (by norm_num), show (8 : ℤ) = 4 + 4 by norm_num,
    one_value (by norm_num) (by norm_num) (by norm_num) per hR .d (by norm_num) (by norm_num)] at this
  have u1 : bowl 1 .d = 9 := by norm_num [bowl]
  have u2 : bowl 2 .d = 4 := by norm_num [bowl]
  have u3 : bowl 3 .d = 1 := by norm_num [bowl]
  have u4 : bowl 4 .d = 0 := by norm_num [bowl]
  have u5 : bowl 5 .d = 1 := by norm_num [bowl]
  have u6 : bowl 6 .d = 4 := by norm_num [bowl]
  have h4 : uHalf (fun k => bowl k .d) 4 = 1 / 6 := by
    rw [uHalf_quad (c := 2)]
    · norm_num [u3, u4]
    · norm_num [u2, u3, u4]
    · norm_num [u3, u4, u5]
  have h5 : uHalf (fun k => bowl k .d) 5 = 1 / 6 := by
    rw [uHalf_quad (c := 2)]
    · norm_num [u4, u5]
    · norm_num [u3, u4, u5]
    · norm_num [u4, u5, u6]
  have e4 : edges (fun k => bowl k .d) 4 = (0, 0) := by
    rw [edges_flat (by norm_num [h4, h5, u4]), u4]
  have e3 : edges (fun k => bowl k .d) 3 = (13 / 6, 1 / 6) := by
    rw [edges_quad (c := 2)]
    · norm_num [u2, u3, u4]
    · norm_num [u1, u2, u3]
    · norm_num [u2, u3, u4]
    · norm_num [u3, u4, u5]
    · norm_num [u2, u3, u4]
  unfold remap at this
  simp only [remapFlux, flux3] at this
  rw [if_pos (by norm_num), if_pos (by norm_num), show (4 : ℤ) + 1 - 1 = 4 by norm_num,
    show (4 : ℤ) - 1 = 3 by norm_num, e4, e3, u4, u3] at this
  norm_num [rightPart, Edge.sign] at this

/-! ## Shear in the other direction -/

/-- The code assumes that the box shears forward: with a negative offset Step 4 reads entries nobody has
written, and Step 5 has negative counts or asks for Grids that do not exist. -/
theorem backward_ub {C : Cut} (h : C.Fit) (s : Edge) {joff : ℤ} (neg : joff < 0) (buf : ℤ → ℤ → ℝ) :
    shift s C joff buf = .ub := by
  have hx : 0 < C.nx := by have := h.ng; have := h.nx; omega
  unfold shift
  by_cases g1 : C.ngr = 1
  · rw [if_pos g1, if_neg]
    intro ok
    cases s
    · have := ok C.je (by unfold Cut.js Cut.je; omega) (le_refl _)
      simp only [jremap, Cut.js, Cut.je] at this
      split_ifs at this <;> omega
    · have := ok C.js (le_refl _) (by unfold Cut.js Cut.je; omega)
      simp only [jremap, Cut.js, Cut.je] at this
      split_ifs at this <;> omega
  · rw [if_neg g1, if_neg]
    intro ok
    have hr := h.ngr
    have q0 : nGrids C joff ≤ 0 := by
      unfold nGrids
      have : Int.tdiv joff C.nx = -Int.tdiv (-joff) C.nx := by rw [Int.neg_tdiv, neg_neg]
      rw [this]
      have := Int.tdiv_nonneg (a := -joff) (b := C.nx) (by omega) hx.le
      omega
    have ov := (ok 0 (le_refl _) (by omega)).1
    have ne : nGrids C joff ≠ 0 := by
      intro e
      unfold overlap at ov
      rw [e] at ov
      omega
    cases s
    · have := ((ok (C.ngr - 1) (by omega) (by omega)).2.2 ne).1
      simp only [fromE, wrapLo] at this
      rw [if_neg (by omega)] at this
      omega
    · have := ((ok 0 (le_refl _) (by omega)).2.2 ne).1
      simp only [fromE, wrapHi] at this
      rw [if_neg (by omega)] at this
      omega

/-- **The direction of the shear matters.**  With `qshear*Omega_0 < 0` the routine does not fill the ghost
zones. -/
theorem backward_false : ¬∀ (C : Cut) (o : Order) (s : Edge) (B : Box) (g : ℤ → Var → ℝ),
    C.Fit → 0 < B.dx2 → B.ly = C.total * B.dx2 → (∀ m, g (m + C.total) = g m) →
    ∃ R, Gives o s C false B false (spread C g) R := by
  intro h
  obtain ⟨R, hR⟩ := h (one 4) .second .ix1 ⟨-1, 1, 4, 1, 1⟩ (fun _ _ => 1) (one_fit (le_refl 4)) (by norm_num)
    (by norm_num [one, Cut.total]) (fun _ => rfl)
  have f1 : cFmod (-1) 4 = -1 := by
    unfold cFmod cTrunc
    rw [if_neg (by norm_num), show ⌈(-1 / 4 : ℝ)⌉ = 0 by
      rw [Int.ceil_eq_iff]; norm_num]
    norm_num
  have j : joffset (⟨-1, 1, 4, 1, 1⟩ : Box).yshear 4 1 = -1 := by
    have : (⟨-1, 1, 4, 1, 1⟩ : Box).yshear = -1 := by norm_num [Box.yshear, Box.qomL]
    rw [this]
    unfold joffset cTrunc
    rw [f1, if_neg (by norm_num), show ⌈(-1 / 1 : ℝ)⌉ = -1 by rw [Int.ceil_eq_iff]; norm_num]
  have := hR .d
  simp only [sheet, sheetRow] at this
  rw [j, backward_ub (one_fit (le_refl 4)) _ (by norm_num)] at this
  cases this

/-! ## The centred field -/

/-- **With as many ghost zones as zones the centred B2 is stale in the last ghost zone**: it is copied from a
zone whose upper face had not been renewed. -/
theorem centred_false : ¬∀ (C : Cut) (old new : ℤ → ℤ → ℝ) (b : ℤ → ℝ), C.Fit → Holds C new b →
    (∀ m, b (m + C.total) = b m) → Holds C (centred C old new) (fun m => 1 / 2 * (b m + b (m + 1))) := by
  intro h
  have := h (one 4) (fun _ _ => 1) (fun _ _ => 0) (fun _ => 0) (one_fit (le_refl 4)) (fun _ _ _ _ _ _ => rfl)
    (fun _ => rfl) 0 (le_refl _) (by norm_num [one]) 11 (by norm_num [one, Cut.js]) (by norm_num [one, Cut.je])
  norm_num [centred, one, Cut.js, Cut.je, ghostY, rightOf, b2cRaw] at this

example : (one 5).Fit ∧ (one 5).ng < (one 5).nx := ⟨one_fit (by norm_num), by norm_num [one]⟩

/-! ## The buffers -/

/-- Values per zone in the messages of Step 9: `NVAR_SHARE`, src/bvals_shear.c:68-72 with
src/defs.h.in:164-178. -/
def share (mhd baro : Bool) (ns : ℕ) : ℕ :=
  match mhd, baro with
  | false, true => 4 + ns
  | true, true => 7 + ns + 3
  | false, false => 5 + ns
  | true, false => 8 + ns + 3

/-- `NREMAP + NSCALARS`: src/bvals_shear.c:51-66. -/
def remapped (mhd baro : Bool) (ns : ℕ) : ℕ :=
  match mhd, baro with
  | false, true => 4 + ns
  | true, true => 8 + ns
  | false, false => 5 + ns
  | true, false => 9 + ns

/-- Length of `send_buf` and `recv_buf` without FARGO: src/bvals_shear.c:5503-5507. -/
def bufLen (mhd baro : Bool) (ns ng nx2 nx3 : ℕ) : ℕ := ng * nx2 * (nx3 + 1) * remapped mhd baro ns

/-- Values packed in Step 9 in three dimensions: src/bvals_shear.c:545-575, 1141-1171. -/
def step9Len (mhd baro : Bool) (ns ng nx3 : ℕ) : ℕ := ng * ng * (nx3 + 1) * share mhd baro ns

/-- Values packed in Step 5: src/bvals_shear.c:308, 395 (at most `Nx[1]` zones in each of the `nghost` layers). -/
def step5Len (mhd baro : Bool) (ns ng n nx3 : ℕ) : ℕ := ng * n * (nx3 + 1) * remapped mhd baro ns

/-- The messages of Step 5 always fit. -/
theorem step5_fits (mhd baro : Bool) (ns ng nx2 nx3 n : ℕ) (h : n ≤ nx2) :
    step5Len mhd baro ns ng n nx3 ≤ bufLen mhd baro ns ng nx2 nx3 := by
  unfold step5Len bufLen
  exact Nat.mul_le_mul_right _ (Nat.mul_le_mul_right _ (Nat.mul_le_mul_left _ h))

/-- Those of Step 9 fit without a magnetic field, and with one if a Grid has at least one and a half times as many
zones as ghost zones. -/
theorem step9_fits_partial (mhd baro : Bool) (ns ng nx2 nx3 : ℕ)
    (h : if mhd then 3 * ng ≤ 2 * nx2 else ng ≤ nx2) :
    step9Len mhd baro ns ng nx3 ≤ bufLen mhd baro ns ng nx2 nx3 := by
  unfold step9Len bufLen
  have key : ng * share mhd baro ns ≤ nx2 * remapped mhd baro ns := by
    cases mhd <;> cases baro <;> simp only [share, remapped, Bool.false_eq_true, if_false, if_true] at h ⊢ <;>
      nlinarith
  calc ng * ng * (nx3 + 1) * share mhd baro ns = ng * (nx3 + 1) * (ng * share mhd baro ns) := by ring
    _ ≤ ng * (nx3 + 1) * (nx2 * remapped mhd baro ns) := Nat.mul_le_mul_left _ key
    _ = ng * nx2 * (nx3 + 1) * remapped mhd baro ns := by ring

example : step9Len true false 1 4 8 ≤ bufLen true false 1 4 6 8 := step9_fits_partial _ _ _ _ _ _ (by norm_num)

/-- **Step 9 writes past the end of its buffer** with a magnetic field when the Grids have as many zones along x2
as ghost zones. -/
theorem step9_false : ¬∀ (mhd baro : Bool) (ns ng nx2 nx3 : ℕ), ng ≤ nx2 →
    step9Len mhd baro ns ng nx3 ≤ bufLen mhd baro ns ng nx2 nx3 := by
  intro h
  have := h true false 0 4 4 4 (le_refl _)
  norm_num [step9Len, bufLen, share, remapped] at this

/-! ## Scalars, energy, and edges which are not periodic -/

/-- The flux of a passive scalar (and of the energy) at the edges: what the integrator has computed; it is not
remapped and not averaged.  src/integrators/integrate_3d_ctu.c:2656-2683,
src/integrators/integrate_3d_vl.c:1234-1260, src/bvals_shear.c:2066. -/
def scalarFlux (own : ℤ → ℝ) : ℤ → ℝ := own

/-- **A uniform concentration does not stay uniform.**  A scalar equal to the
density everywhere, carried by fluxes equal to the mass fluxes on all faces (which is what the Riemann solvers give
for it), is no longer equal to the density after the update, since at the edges the mass flux alone is averaged. -/
theorem concentration_false : ¬∀ (C : Cut) (o : Order) (B : Box) (fi fo : ℤ → FVar → ℝ) (Ri : ℤ → ℤ → FVar → ℝ)
    (c : Fin 3 → ℝ) (u Fd Fs F2 F3 : ℤ → ℤ → ℤ → ℝ), C.Fit → B.Fit C → (∀ m, fi (m + C.total) = fi m) →
    (∀ m, fo (m + C.total) = fo m) → GivesF 4 o .ix1 C false B (spread C fi) (spread C fo) Ri →
    HoldsIn C (fun l j => Ri l j .d) (fun m => Fd 0 m 0) → (∀ m, Fs 0 m 0 = scalarFlux (fun m => fi m .d) m) →
    (∀ i, 0 < i → ∀ j k, Fs i j k = Fd i j k) → update c u Fd F2 F3 0 0 0 = update c u Fs F2 F3 0 0 0 := by
  intro h
  have hC := one_fit (le_refl 4)
  have hB := unitBox_fit (n := 4) (t := 0) (le_refl _)
  obtain ⟨Ri, hi, hv⟩ := edgeFlux_value hC 4 .second .ix1 false hB (spread_holdsF _ fun _ _ => 0)
    (spread_holdsF _ fun _ _ => 1) (fun _ => rfl)
  have := h (one 4) .second (unitBox 4 0) (fun _ _ => 0) (fun _ _ => 1) Ri (fun _ => 1) (fun _ _ _ => 1)
    (fun i _ _ => if i = 0 then 1 / 2 else 0) (fun _ _ _ => 0) (fun _ _ _ => 0) (fun _ _ _ => 0) hC hB
    (fun _ => rfl) (fun _ => rfl) hi (by
      intro l l0 l1 j a b
      rw [hv .d l l0 l1 j a b]
      dsimp only
      rw [remap_const (a := 1) .second _ (fun _ _ _ => rfl)]
      norm_num) (fun _ => rfl) (by
      intro i hi j k
      rw [if_neg hi.ne'])
  norm_num [update] at this

/-- **The flux through an edge with another boundary condition is averaged too.**  The ghost zones of an edge are
those of the shearing sheet only if it is periodic (flag 4), but the fluxes are averaged whatever the flag: through an
outflow edge there passes half of what passes through the other one. -/
theorem outflow_false : ¬∀ (bc : ℕ) (C : Cut) (o : Order) (s : Edge) (B : Box) (fi fo : ℤ → FVar → ℝ)
    (R : ℤ → ℤ → FVar → ℝ), bc ≠ 4 → C.Fit → B.Fit C → (∀ m, fo (m + C.total) = fo m) →
    GivesF bc o s C false B (spread C fi) (spread C fo) R →
    ∀ l j, 0 ≤ l → l < C.ngr → C.js ≤ j → j ≤ C.je → R l j .d = spread C fi l j .d := by
  intro h
  have hC := one_fit (le_refl 4)
  have hB := unitBox_fit (n := 4) (t := 0) (le_refl _)
  obtain ⟨Ri, hi, hv⟩ := edgeFlux_value hC 2 .second .ix1 false hB (spread_holdsF _ fun _ _ => 0)
    (spread_holdsF _ fun _ _ => 1) (fun _ => rfl)
  have := h 2 (one 4) .second .ix1 (unitBox 4 0) (fun _ _ => 0) (fun _ _ => 1) Ri (by norm_num) hC hB
    (fun _ => rfl) hi 0 4 (le_refl _) (by norm_num [one]) (by norm_num [one, Cut.js]) (by norm_num [one, Cut.je])
  have e := hv .d 0 (le_refl _) (by norm_num [one]) 4 (by norm_num [one, Cut.js]) (by norm_num [one, Cut.je])
  dsimp only at e
  rw [remap_const (a := 1) .second _ (fun _ _ _ => rfl)] at e
  rw [e] at this
  norm_num [spread] at this

end Athena.Shear
