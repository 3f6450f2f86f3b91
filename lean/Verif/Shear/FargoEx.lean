import Verif.Shear.FargoBox
import Verif.Shear.Refute

/-!
# Orbital advection: cases, and what it does not do
-/

namespace Athena.Shear

/-- A state of the whole Domain spread over the Grids. -/
def spreadQ (C : Cut) (G : Q → ℤ → ℤ → ℤ → ℝ) : Q → Fld := fun v k i l j => G v k i (l * C.nx + (j - C.js))

theorem spreadQ_holds (A : Adv) (G : Q → ℤ → ℤ → ℤ → ℝ) : HoldsQ A (spreadQ A.cut G) G :=
  fun _ _ _ _ _ _ _ _ _ => rfl

/-- One column of a box on each side of the origin: the left one is carried by half a zone. -/
noncomputable def pairBox : SBox := ⟨1, 1, 1, -1, 1, 1, 1⟩

theorem half_trunc : cTrunc (1 / 2) = 0 := by
  unfold cTrunc
  rw [if_pos (by norm_num)]
  exact floor_zero (by norm_num) (by norm_num)

theorem minus_half_trunc : cTrunc (-(1 / 2)) = 0 := by
  unfold cTrunc
  rw [if_neg (by norm_num), Int.ceil_eq_iff]
  norm_num

/-- The advection of the pair of columns. -/
noncomputable def pairAdv (o : Order) (n : ℤ) (three mhd : Bool) : Adv := pairBox.adv o (one n) 6 4 4 three mhd

theorem pair_yc4 (o : Order) (n : ℤ) (three mhd : Bool) : (pairAdv o n three mhd).yc 4 = 1 / 2 := by
  norm_num [pairAdv, SBox.adv, SBox.x1, pairBox]

theorem pair_yc5 (o : Order) (n : ℤ) (three mhd : Bool) : (pairAdv o n three mhd).yc 5 = -(1 / 2) := by
  norm_num [pairAdv, SBox.adv, SBox.x1, pairBox]

theorem pair_yf4 (o : Order) (n : ℤ) (three mhd : Bool) : (pairAdv o n three mhd).yf 4 = ((1 : ℤ) : ℝ) := by
  norm_num [pairAdv, SBox.adv, SBox.x1, pairBox]

theorem pair_yf5 (o : Order) (n : ℤ) (three mhd : Bool) : (pairAdv o n three mhd).yf 5 = ((0 : ℤ) : ℝ) := by
  norm_num [pairAdv, SBox.adv, SBox.x1, pairBox]

theorem pair_fit (o : Order) {n : ℤ} (hn : 4 ≤ n) (three mhd : Bool) : (pairAdv o n three mhd).Fit :=
  ⟨one_fit hn, by show (4 : ℤ) ≤ 6; norm_num, Or.inl rfl, by show (0 : ℝ) < 1; norm_num⟩

theorem pair_runs (o : Order) (n : ℤ) (three mhd : Bool) (stale U : Q → Fld) :
    fargo (pairAdv o n three mhd) stale U = .ok ((pairAdv o n three mhd).out stale U) := by
  unfold fargo
  rw [if_neg]
  rintro ⟨i, i0, i1, h⟩
  have i0 : 4 ≤ i := i0
  have i1 : i ≤ 4 + 1 := i1
  have hi : i = 4 ∨ i = 5 := by omega
  have d1 : (pairAdv o n three mhd).dx2 = 1 := rfl
  have e2 : (pairAdv o n three mhd).fcut.js - (pairAdv o n three mhd).cut.js = 2 := rfl
  unfold Adv.far Adv.joff at h
  rw [e2, d1, div_one, div_one] at h
  rcases hi with rfl | rfl
  · rw [pair_yc4, pair_yf4, half_trunc, cTrunc_int] at h
    norm_num at h
  · rw [pair_yc5, pair_yf5, minus_half_trunc, cTrunc_int] at h
    norm_num at h

theorem pair_half (o : Order) (n : ℤ) (three mhd : Bool) (g : ℤ → ℝ) (m : ℤ) :
    (pairAdv o n three mhd).carried (1 / 2) g m = remap o (1 / 2) g m := by
  have d1 : (pairAdv o n three mhd).dx2 = 1 := rfl
  have e1 : (pairAdv o n three mhd).joff (1 / 2) = 0 := by
    unfold Adv.joff
    rw [d1, div_one, half_trunc]
  have e2 : (pairAdv o n three mhd).eps (1 / 2) = 1 / 2 := by
    have := (pairAdv o n three mhd).joff_eps (by rw [d1]; norm_num) (1 / 2)
    rw [e1, d1] at this
    norm_num at this
    exact this
  unfold Adv.carried
  rw [e1, e2, sub_zero]
  rfl

/-- The theorems on the advection have cases: several Grids along x2, columns carried both ways by
whole zones and fractions, magnetic fields, and a state that is not uniform. -/
example (o : Order) : ∃ (A : Adv) (stale U R : Q → Fld) (G : Q → ℤ → ℤ → ℤ → ℝ),
    A.Fit ∧ A.cut.ngr = 3 ∧ A.mhd = true ∧ A.three = true ∧
    (∀ v k i m, G v k i (m + A.cut.total) = G v k i m) ∧ HoldsQ A U G ∧ fargo A stale U = .ok R ∧
    A.yc A.is = 9 / 4 ∧ A.yc (A.ie + 1) = -9 / 4 ∧ G .d 0 A.is 0 ≠ G .d 0 A.is 1 := by
  let B : SBox := ⟨3 / 2, 1, 1, -2, 1, 1, 1⟩
  let C : Cut := ⟨3, 10, 4⟩
  let G : Q → ℤ → ℤ → ℤ → ℝ := fun _ _ _ m => if m % 30 = 0 then 2 else 1
  have run := fargo_runs (B := B) (o := o) (C := C) (is := 4) (ie := 6) (three := true) (mhd := true)
    (cour := 1) (xmin := -2) (xmax := 2) (c := 1) (by norm_num) (by norm_num [B]) (by norm_num [B])
    (by norm_num [B]) (by norm_num [B]) (by norm_num) (by norm_num [B]) (by norm_num [B]) (by norm_num [B])
    (by norm_num [B]) (by norm_num [B]) (fun _ _ _ _ _ => 0) (spreadQ C G)
  have hf : nfghost C.ng 1 (-2) 2 = 9 := by
    unfold nfghost cTrunc
    have : ⌊(3 / 2 * (1 : ℝ) * max |(-2 : ℝ)| |2|)⌋ = 3 := by
      rw [Int.floor_eq_iff]; norm_num
    rw [if_pos (by positivity), this]
    norm_num [C]
  rw [hf] at run
  refine ⟨B.adv o C 9 4 6 true true, _, _, _, G, ⟨⟨by norm_num [SBox.adv, C], by norm_num [SBox.adv, C],
    by norm_num [SBox.adv, C]⟩, by norm_num [SBox.adv, C], Or.inr (by norm_num [SBox.adv, C]),
    by norm_num [SBox.adv, B]⟩, rfl, rfl, rfl, ?_, spreadQ_holds _ G, run, ?_, ?_, ?_⟩
  · intro v k i m
    show (if (m + 3 * 10) % 30 = 0 then (2 : ℝ) else 1) = if m % 30 = 0 then 2 else 1
    rw [show (m + 3 * 10) % 30 = m % 30 by omega]
  · norm_num [SBox.adv, SBox.x1, B]
  · norm_num [SBox.adv, SBox.x1, B]
  · show (if (0 : ℤ) % 30 = 0 then (2 : ℝ) else 1) ≠ if (1 : ℤ) % 30 = 0 then 2 else 1
    norm_num

/-- A uniform magnetised state for `fargo_uniform`. -/
example (o : Order) : ∃ (u : Q → ℝ) (stale U R : Q → Fld), (pairBox.adv o (one 8) 6 4 4 true true).Fit ∧
    0 < pairBox.dx1 ∧ u .b1c = u .b1 ∧ u .b2c = u .b2 ∧ u .b3c = u .b3 ∧ 0 < u .b1 ∧ 0 < u .m1 ∧
    HoldsQ (pairBox.adv o (one 8) 6 4 4 true true) U (flatQ u) ∧ (∀ k i l j, U .b2 k i l j = u .b2) ∧
    fargo (pairBox.adv o (one 8) 6 4 4 true true) stale U = .ok R :=
  ⟨fun _ => 1, fun _ _ _ _ _ => 0, fun _ _ _ _ _ => 1, _, pair_fit o (by norm_num) true true,
    by norm_num [pairBox], rfl, rfl, rfl, by norm_num, by norm_num, fun _ _ _ _ _ _ _ _ _ => rfl,
    fun _ _ _ _ => rfl, pair_runs o 8 true true _ _⟩

/-! ## Small Grids -/

/-- A column of a wide box. -/
noncomputable def wideBox : SBox := ⟨3 / 2, 1, 2 / 5, -53 / 6, 1, 1, 1⟩

theorem wide_nf : nfghost 4 (2 / 5) (-53 / 6) (53 / 6) = 11 := by
  unfold nfghost cTrunc
  have : ⌊(3 / 2 * (2 / 5) * max |(-53 / 6 : ℝ)| |53 / 6|)⌋ = 5 := by
    rw [Int.floor_eq_iff, abs_of_neg (by norm_num), abs_of_pos (by norm_num)]
    norm_num
  rw [if_pos (by positivity), this]
  norm_num

/-- **Grids with fewer zones along x2 than extra ghost zones take part with zones nobody has set.**
The routine sends `nfghost` zones to either side and does not check that a Grid has as many.  Two
Grids of four zones in a box for which the routine itself asks for eleven, a time step the Courant
condition allows for a sound speed of 1, a uniform density of 1: a zone ends up with what the
memory held before. -/
theorem small_false : ¬∀ (B : SBox) (o : Order) (C : Cut) (is ie : ℤ) (three mhd : Bool) (cour xmin xmax : ℝ)
    (stale U R : Q → Fld) (u : Q → ℝ), C.Fit → 0 < cour → cour ≤ 1 → 0 < B.dx1 → 0 < B.dx2 → 0 < B.dt →
    B.q * B.om ≤ 3 / 2 → B.dt ≤ cour * B.dx2 → xmin ≤ B.x1min →
    B.x1min + (ie - is + 1 : ℤ) * B.dx1 ≤ xmax →
    HoldsQ (B.adv o C (nfghost C.ng cour xmin xmax) is ie three mhd) U (flatQ u) →
    fargo (B.adv o C (nfghost C.ng cour xmin xmax) is ie three mhd) stale U = .ok R →
    ∀ k i l j, is ≤ i → i ≤ ie → 0 ≤ l → l < C.ngr → C.js ≤ j → j ≤ C.je → R .d k i l j = u .d := by
  intro h
  have run := fargo_runs (B := wideBox) (o := .second) (C := ⟨2, 4, 4⟩) (is := 4) (ie := 4) (three := false)
    (mhd := false) (cour := 2 / 5) (xmin := -53 / 6) (xmax := 53 / 6) (c := 1) (by norm_num)
    (by norm_num [wideBox]) (by norm_num [wideBox])
    (by norm_num [wideBox]) (by norm_num [wideBox]) (by norm_num) (by norm_num [wideBox]) (by norm_num [wideBox])
    (by norm_num [wideBox]) (by norm_num [wideBox]) (by norm_num [wideBox]) (fun _ _ _ _ _ => 0)
    (spreadQ ⟨2, 4, 4⟩ (flatQ fun _ => 1))
  have := h wideBox .second ⟨2, 4, 4⟩ 4 4 false false (2 / 5) (-53 / 6) (53 / 6) (fun _ _ _ _ _ => 0)
    (spreadQ ⟨2, 4, 4⟩ (flatQ fun _ => 1)) _ (fun _ => 1) ⟨by norm_num, by norm_num, by norm_num⟩ (by norm_num)
    (by norm_num) (by norm_num [wideBox]) (by norm_num [wideBox]) (by norm_num [wideBox])
    (by norm_num [wideBox]) (by norm_num [wideBox]) (by norm_num [wideBox]) (by norm_num [wideBox])
    (spreadQ_holds _ _) run 0 4 0 4 (by norm_num) (by norm_num) (by norm_num) (by norm_num)
    (by norm_num [Cut.js]) (by norm_num [Cut.je])
  have e0 : (⟨2, 4, 4⟩ : Cut).ng = 4 := rfl
  rw [e0, wide_nf] at this
  set A := wideBox.adv .second ⟨2, 4, 4⟩ 11 4 4 false false with hA
  set V := A.row (fun _ _ _ _ _ => 0) (spreadQ ⟨2, 4, 4⟩ (flatQ fun _ => 1)) .d 0 4 0 with hV
  have y5 : A.yc 4 = (5 : ℤ) * A.dx2 := by
    norm_num [hA, SBox.adv, SBox.x1, wideBox]
  have vj : V 11 = 1 := by
    norm_num [hV, hA, Adv.row, fillY, fillMsg, copied, Adv.fcut, Cut.js, Cut.je, SBox.adv, spreadQ, flatQ, step1]
  have v6 : V 6 = 0 := by
    norm_num [hV, hA, Adv.row, fillY, fillMsg, copied, Adv.fcut, Cut.js, Cut.je, SBox.adv, leftOf]
  have key := fflux_tele A (A.yc 4) V 11
  rw [y5, carried_whole A (by norm_num [hA, SBox.adv, wideBox]), vj, show (11 : ℤ) - 5 = 6 by norm_num, v6, ← y5] at key
  have e : A.out (fun _ _ _ _ _ => 0) (spreadQ ⟨2, 4, 4⟩ (flatQ fun _ => 1)) .d 0 4 0 4 =
      1 - (fflux A (A.yc 4) V (11 + 1) - fflux A (A.yc 4) V 11) := rfl
  rw [e, key] at this
  norm_num at this

/-! ## Two dimensions -/

/-- **In two dimensions the vertical field does not move.**  The step carries the face value of B3
with the flow but leaves the centred value; the integrator of the next step starts from the
centred value and overwrites the other (src/integrators/integrate_2d_ctu.c:1967,
integrate_2d_vl.c:1175). -/
theorem flat_b3_false : ¬∀ (B : SBox) (o : Order) (C : Cut) (nf is ie : ℤ) (stale U R : Q → Fld)
    (G : Q → ℤ → ℤ → ℤ → ℝ), (B.adv o C nf is ie false true).Fit → 0 < B.dx1 →
    (∀ v k i m, G v k i (m + C.total) = G v k i m) → (∀ k i m, G .b3c k i m = G .b3 k i m) →
    HoldsQ (B.adv o C nf is ie false true) U G → fargo (B.adv o C nf is ie false true) stale U = .ok R →
    ∀ k i l j, is ≤ i → i ≤ ie → 0 ≤ l → l < C.ngr → C.js ≤ j → j ≤ C.je →
    R .b3c k i l j = (B.adv o C nf is ie false true).carried ((B.adv o C nf is ie false true).yc i) (G .b3c k i)
      (l * C.nx + (j - C.js)) := by
  intro h
  let G : Q → ℤ → ℤ → ℤ → ℝ := fun _ _ _ m => cyc 0 0 1 1 m
  have := h pairBox .second (one 4) 6 4 4 (fun _ _ _ _ _ => 0) (spreadQ (one 4) G) _ G
    (pair_fit .second (le_refl 4) false true) (by norm_num [pairBox]) (by
      intro v k i m
      rw [one_total]
      exact cyc_four _ _ _ _ m) (fun _ _ _ => rfl) (spreadQ_holds _ G) (pair_runs .second 4 false true _ _)
    0 4 0 4 (le_refl _) (le_refl _) (le_refl _) (by norm_num [one]) (by norm_num [one, Cut.js])
    (by norm_num [one, Cut.je])
  have e : (pairAdv .second 4 false true).out (fun _ _ _ _ _ => 0) (spreadQ (one 4) G) .b3c 0 4 0 4 = 0 := by
    show G .b3c 0 4 (0 * 4 + (4 - 4)) = 0
    norm_num [G, cyc]
  have e2 : (pairAdv .second 4 false true).carried ((pairAdv .second 4 false true).yc 4) (G .b3c 0 4)
      (0 * (one 4).nx + (4 - (one 4).js)) = 1 / 2 := by
    rw [pair_yc4, pair_half, show (0 : ℤ) * (one 4).nx + (4 - (one 4).js) = 0 by norm_num [one, Cut.js],
      half_of (a := 1) (b := 1) (c := 0) (d := 0) (x := 0) (y := 0) (by norm_num [G, cyc])
        (by norm_num [G, cyc]) (by norm_num [G, cyc]) (by norm_num [G, cyc]) (by norm_num) (by norm_num)]
    norm_num
  have : (pairAdv .second 4 false true).out (fun _ _ _ _ _ => 0) (spreadQ (one 4) G) .b3c 0 4 0 4 =
    (pairAdv .second 4 false true).carried ((pairAdv .second 4 false true).yc 4) (G .b3c 0 4)
      (0 * (one 4).nx + (4 - (one 4).js)) := this
  rw [e, e2] at this
  norm_num at this

/-! ## Positivity -/

/-- **At third order a positive density can become negative.** -/
theorem fargo_positive_false : ¬∀ (A : Adv) (stale U R : Q → Fld) (G : Q → ℤ → ℤ → ℤ → ℝ), A.Fit →
    A.o = .third → (∀ v k i m, G v k i (m + A.cut.total) = G v k i m) → (∀ k i m, 1 ≤ G .d k i m) →
    HoldsQ A U G → fargo A stale U = .ok R →
    ∀ k i l j, A.is ≤ i → i ≤ A.ie → 0 ≤ l → l < A.cut.ngr → A.cut.js ≤ j → j ≤ A.cut.je → 0 ≤ R .d k i l j := by
  intro h
  let G : Q → ℤ → ℤ → ℤ → ℝ := fun _ _ _ m => peaks m .d
  have per : ∀ v k i m, G v k i (m + (one 6).total) = G v k i m := by
    intro v k i m
    rw [one_total]
    show (if (m + 6) % 3 = 1 then (10 : ℝ) else 1) = if m % 3 = 1 then 10 else 1
    rw [show (m + 6) % 3 = m % 3 by omega]
  have hf := pair_fit .third (n := 6) (by norm_num) false false
  have run := pair_runs .third 6 false false (fun _ _ _ _ _ => 0) (spreadQ (one 6) G)
  have := h (pairAdv .third 6 false false) (fun _ _ _ _ _ => 0) (spreadQ (one 6) G) _ G hf rfl per (by
      intro k i m; show 1 ≤ (if m % 3 = 1 then (10 : ℝ) else 1); split_ifs <;> norm_num) (spreadQ_holds _ G) run
    0 4 0 7 (le_refl _) (le_refl _) (le_refl _) (by norm_num [pairAdv, SBox.adv, one])
    (by norm_num [pairAdv, SBox.adv, one, Cut.js]) (by norm_num [pairAdv, SBox.adv, one, Cut.je])
  rw [fargo_centred hf (spreadQ_holds _ G) per run (v := .d) trivial 0 (i := 4) (le_refl _)
    (by show (4 : ℤ) ≤ 5; norm_num) 0 (le_refl _) (by norm_num [pairAdv, SBox.adv, one]) 7
    (by norm_num [pairAdv, SBox.adv, one, Cut.js]) (by norm_num [pairAdv, SBox.adv, one, Cut.je]), pair_yc4, pair_half] at this
  have e : (pairAdv .third 6 false false).sourced G .d 0 4 = fun k => peaks k .d := rfl
  rw [e, show (0 : ℤ) * (pairAdv .third 6 false false).cut.nx + (7 - (pairAdv .third 6 false false).cut.js) = 3 by
    norm_num [pairAdv, SBox.adv, one, Cut.js]] at this
  exact absurd this (not_le.2 peaks_negative)

end Athena.Shear
