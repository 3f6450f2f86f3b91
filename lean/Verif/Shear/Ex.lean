import Verif.Shear.Flux
import Mathlib.Data.Fin.VecNotation

/-!
# The shearing sheet: examples, and what it does not do
-/

namespace Athena.Shear

/-! ## Rows and boxes for the examples -/

/-- The Grids of a cut, holding the row `g`. -/
def spread {α : Type} (C : Cut) (g : ℤ → α) (l j : ℤ) : α := g (l * C.nx + (j - C.js))

theorem spread_holds (C : Cut) (g : ℤ → Var → ℝ) : HoldsS C (spread C g) g :=
  fun _ _ _ _ _ _ _ => rfl

theorem spread_holdsF (C : Cut) (g : ℤ → FVar → ℝ) : HoldsF C (spread C g) g :=
  fun _ _ _ _ _ _ _ => rfl

/-- A row which repeats after four zones. -/
def cyc {α : Type} (a b c d : α) (m : ℤ) : α :=
  if m % 4 = 0 then a else if m % 4 = 1 then b else if m % 4 = 2 then c else d

theorem cyc_four {α : Type} (a b c d : α) (m : ℤ) : cyc a b c d (m + 4) = cyc a b c d m := by
  unfold cyc
  rw [show (m + 4) % 4 = m % 4 by omega]

/-- One Grid of `n` zones with four ghost zones. -/
def one (n : ℤ) : Cut := ⟨1, n, 4⟩

theorem one_fit {n : ℤ} (h : 4 ≤ n) : (one n).Fit := ⟨le_refl _, by norm_num [one], h⟩

/-- A box of `n` zones of unit length, sheared by `t`. -/
noncomputable def unitBox (n : ℤ) (t : ℝ) : Box := ⟨1, 1, n, 1, t⟩

theorem unitBox_fit {n : ℤ} {t : ℝ} (h : 0 ≤ t) : (unitBox n t).Fit (one n) := by
  refine ⟨by norm_num [unitBox], by simp [unitBox, one, Cut.total], ?_⟩
  simpa [unitBox, Box.yshear, Box.qomL] using h

theorem unitBox_zones (n : ℤ) (t : ℝ) : (unitBox n t).zones = t := by
  simp [unitBox, Box.zones, Box.yshear, Box.qomL]

theorem floor_zero {t : ℝ} (h : 0 ≤ t) (h' : t < 1) : ⌊t⌋ = 0 := Int.floor_eq_iff.mpr (by simpa using ⟨h, h'⟩)

theorem fract_self {t : ℝ} (h : 0 ≤ t) (h' : t < 1) : Int.fract t = t := Int.fract_eq_self.mpr ⟨h, h'⟩

/-- The value of a ghost zone of the inner edge in these examples (with FARGO, so that there is no
velocity offset). -/
theorem one_value {n : ℤ} (hn : 4 ≤ n) {o : Order} {t : ℝ} (t0 : 0 ≤ t) (t1 : t < 1) {g : ℤ → Var → ℝ}
    (per : ∀ m, g (m + n) = g m) {R : ℤ → ℤ → Var → ℝ}
    (hR : Gives o .ix1 (one n) true (unitBox n t) false (spread (one n) g) R) (v : Var) {m : ℤ}
    (a : -4 ≤ m) (c : m < n + 4) : R 0 (m + 4) v = remap o t (fun k => g k v) m := by
  have per' : ∀ k, g (k + (one n).total) = g k := by
    intro k; rw [show (one n).total = n by simp [one, Cut.total]]; exact per k
  have e : ∀ k, offset (bump true .ix1 (unitBox n t)) (g k) v = g k v := by
    intro k
    have b : bump true .ix1 (unitBox n t) = 0 := rfl
    rw [b]
    cases v <;> simp [offset]
  rw [sheet_value (one_fit hn) (unitBox_fit t0) (spread_holds _ g) per' hR (by simp) (le_refl _)
    (by norm_num [one]) (by simp only [one, Cut.js]; omega) (by simp only [one, Cut.je]; omega), unitBox_zones,
    floor_zero t0 t1, fract_self t0 t1]
  simp only [e, Edge.sign, Int.cast_one, one_mul, mul_zero, sub_zero, zero_mul, zero_add, one, Cut.js]
  rw [add_sub_cancel_right]

/-- The routine always ends in these examples. -/
theorem one_gives {n : ℤ} (hn : 4 ≤ n) (o : Order) {t : ℝ} (t0 : 0 ≤ t) {g : ℤ → Var → ℝ}
    (per : ∀ m, g (m + n) = g m) :
    ∃ R, Gives o .ix1 (one n) true (unitBox n t) false (spread (one n) g) R := by
  have per' : ∀ k, g (k + (one n).total) = g k := by
    intro k; rw [show (one n).total = n by simp [one, Cut.total]]; exact per k
  obtain ⟨R, h, -⟩ := sheet_state (one_fit hn) o .ix1 true (unitBox_fit t0) false
    (spread_holds _ g) per'
  exact ⟨R, h⟩

/-- A limited slope from the three values. -/
theorem slope_of {U : ℤ → ℝ} {j : ℤ} {a b c : ℝ} (ha : U (j - 1) = a) (hb : U j = b) (hc : U (j + 1) = c) :
    slope U j = if (b - a) * (c - b) > 0 then sgn (c - a) * min (1 / 2 * |c - a|) (2 * min |b - a| |c - b|)
      else 0 := by
  unfold slope
  rw [ha, hb, hc]

/-! ## The hypotheses can be met -/

/-- Three Grids of five zones, a box which has sheared by 17.25 zones, a row with structure along x2
which is the same on all Grids: the routine ends on both edges and at both orders, and moves a density. -/
example (o : Order) (s : Edge) : ∃ (C : Cut) (B : Box) (g : ℤ → Var → ℝ) (R : ℤ → ℤ → Var → ℝ),
    C.Fit ∧ B.Fit C ∧ C.ngr = 3 ∧ C.ng < C.nx ∧ B.zones = 69 / 4 ∧ (∀ m, g (m + C.total) = g m) ∧
    (∀ m, g m .d ≠ 0) ∧ g 0 .d ≠ g 1 .d ∧ HoldsS C (spread C g) g ∧ Gives o s C false B false (spread C g) R := by
  have hC : (⟨3, 5, 4⟩ : Cut).Fit := ⟨by norm_num, by norm_num, by norm_num⟩
  have hB : (⟨3 / 2, 1, 15, 1, 23 / 2⟩ : Box).Fit ⟨3, 5, 4⟩ :=
    ⟨by norm_num, by norm_num [Cut.total], by norm_num [Box.yshear, Box.qomL]⟩
  let g : ℤ → Var → ℝ := fun m _ => if m % 15 = 0 then 2 else 1
  have per : ∀ m, g (m + (⟨3, 5, 4⟩ : Cut).total) = g m := by
    intro m
    funext v
    show (if (m + 3 * 5) % 15 = 0 then (2 : ℝ) else 1) = if m % 15 = 0 then 2 else 1
    rw [show (m + 3 * 5) % 15 = m % 15 by omega]
  obtain ⟨R, h, -⟩ := sheet_state hC o s false hB false (spread_holds _ g) per
  refine ⟨_, _, g, R, hC, hB, rfl, by norm_num, by norm_num [Box.zones, Box.yshear, Box.qomL], per, ?_, ?_,
    spread_holds _ g, h⟩
  · intro m
    show (if m % 15 = 0 then (2 : ℝ) else 1) ≠ 0
    split_ifs <;> norm_num
  · show (if (0 : ℤ) % 15 = 0 then (2 : ℝ) else 1) ≠ if (1 : ℤ) % 15 = 0 then 2 else 1
    norm_num

/-- The same for the fluxes. -/
example (o : Order) : ∃ (C : Cut) (B : Box) (fi fo : ℤ → FVar → ℝ) (Ri Ro : ℤ → ℤ → FVar → ℝ),
    C.Fit ∧ B.Fit C ∧ (∀ m, fi (m + C.total) = fi m) ∧ (∀ m, fo (m + C.total) = fo m) ∧
    fi 0 .d ≠ fo 0 .d ∧
    GivesF 4 o .ix1 C false B (spread C fi) (spread C fo) Ri ∧
    GivesF 4 o .ox1 C false B (spread C fo) (spread C fi) Ro := by
  have hC := one_fit (le_refl 4)
  have hB := unitBox_fit (n := 4) (t := 5 / 2) (by norm_num)
  have p1 : ∀ m, (fun (_ : ℤ) (_ : FVar) => (1 : ℝ)) (m + (one 4).total) = fun _ => 1 := fun _ => rfl
  have p2 : ∀ m, cyc (fun (_ : FVar) => (0 : ℝ)) (fun _ => 1) (fun _ => 2) (fun _ => 3) (m + (one 4).total) =
      cyc (fun _ => 0) (fun _ => 1) (fun _ => 2) (fun _ => 3) m := by
    intro m; rw [show (one 4).total = 4 by simp [one, Cut.total]]; exact cyc_four _ _ _ _ m
  obtain ⟨Ri, hi, -⟩ := edgeFlux_value hC 4 o .ix1 false hB (spread_holdsF _ fun _ _ => 1)
    (spread_holdsF _ (cyc (fun _ => 0) (fun _ => 1) (fun _ => 2) (fun _ => 3))) p2
  obtain ⟨Ro, ho, -⟩ := edgeFlux_value hC 4 o .ox1 false hB
    (spread_holdsF _ (cyc (fun _ => 0) (fun _ => 1) (fun _ => 2) (fun _ => 3)))
    (spread_holdsF _ fun _ _ => 1) p1
  exact ⟨one 4, unitBox 4 (5 / 2), _, _, Ri, Ro, hC, hB, p1, p2, by norm_num [cyc], hi, ho⟩

/-! ## Thermal energy -/

/-- Zones of positive density and thermal energy. -/
noncomputable def hot (d m1 e : ℝ) : Var → ℝ
  | .d => d
  | .m1 => m1
  | .e => e
  | _ => 0

noncomputable def hotRow : ℤ → Var → ℝ :=
  cyc (hot 5 (-2) (7 / 5)) (hot 2 8 17) (hot 1 6 19) (hot 2 0 1)

theorem hotRow_pos (m : ℤ) : 0 < hotRow m .d ∧ 0 < thermal (hotRow m) := by
  unfold hotRow cyc
  split_ifs <;> norm_num [hot, thermal]

/-- **The pressure of a ghost zone can be negative** although the density and the pressure of all
the zones it is made from are positive, at second order already: the density, the momentum and the energy are
limited one by one. -/
theorem thermal_false : ¬∀ (C : Cut) (o : Order) (s : Edge) (fargo : Bool) (B : Box)
    (g : ℤ → Var → ℝ) (R : ℤ → ℤ → Var → ℝ), C.Fit → B.Fit C → (∀ m, g (m + C.total) = g m) →
    (∀ m, 0 < g m .d ∧ 0 < thermal (g m)) → Gives o s C fargo B false (spread C g) R →
    ∀ l j, 0 ≤ l → l < C.ngr → C.js - C.ng ≤ j → j ≤ C.je + C.ng → 0 ≤ thermal (R l j) := by
  intro h
  have per : ∀ m, hotRow (m + 4) = hotRow m := cyc_four _ _ _ _
  obtain ⟨R, hR⟩ := one_gives (le_refl 4) .second (t := 1 / 2) (by norm_num) per
  have := h (one 4) .second .ix1 true (unitBox 4 (1 / 2)) hotRow R (one_fit (le_refl 4))
    (unitBox_fit (by norm_num)) (by
      intro m; rw [show (one 4).total = 4 by simp [one, Cut.total]]; exact per m) hotRow_pos hR 0 6
    (le_refl _) (by norm_num [one]) (by norm_num [one, Cut.js]) (by norm_num [one, Cut.je])
  have val : ∀ v, R 0 6 v = remap .second (1 / 2) (fun k => hotRow k v) 2 := fun v =>
    one_value (le_refl 4) (by norm_num) (by norm_num) per hR v (m := 2) (by norm_num) (by norm_num)
  have two : ∀ v {a b c d x y : ℝ}, hotRow 0 v = a → hotRow 1 v = b → hotRow 2 v = c → hotRow 3 v = d →
      (if (b - a) * (c - b) > 0 then sgn (c - a) * min (1 / 2 * |c - a|) (2 * min |b - a| |c - b|) else 0) = x →
      (if (c - b) * (d - c) > 0 then sgn (d - b) * min (1 / 2 * |d - b|) (2 * min |c - b| |d - c|) else 0) = y →
      R 0 6 v = 1 / 2 * (c - 1 / 4 * y) + 1 / 2 * (b + 1 / 4 * x) := by
    intro v a b c d x y ha hb hc hd hx hy
    have s1 : slope (fun k => hotRow k v) 1 = x := by rw [slope_of ha hb hc]; exact hx
    have s2 : slope (fun k => hotRow k v) 2 = y := by rw [slope_of hb hc hd]; exact hy
    rw [val, remap2_pos _ (by norm_num), s2, show (2 : ℤ) - 1 = 1 by norm_num, s1, hc, hb]
    ring
  have r0 : hotRow 0 = hot 5 (-2) (7 / 5) := by simp [hotRow, cyc]
  have r1 : hotRow 1 = hot 2 8 17 := by simp [hotRow, cyc]
  have r2 : hotRow 2 = hot 1 6 19 := by simp [hotRow, cyc]
  have r3 : hotRow 3 = hot 2 0 1 := by simp [hotRow, cyc]
  have ed : R 0 6 .d = 5 / 4 := by
    rw [two .d (a := 5) (b := 2) (c := 1) (d := 2) (x := -2) (y := 0) (by rw [r0]; rfl) (by rw [r1]; rfl)
      (by rw [r2]; rfl) (by rw [r3]; rfl) (by norm_num [sgn]) (by norm_num)]
    norm_num
  have em : R 0 6 .m1 = 15 / 2 := by
    rw [two .m1 (a := -2) (b := 8) (c := 6) (d := 0) (x := 0) (y := -4) (by rw [r0]; rfl) (by rw [r1]; rfl)
      (by rw [r2]; rfl) (by rw [r3]; rfl) (by norm_num) (by norm_num [sgn])]
    norm_num
  have ee : R 0 6 .e = 37 / 2 := by
    rw [two .e (a := 7 / 5) (b := 17) (c := 19) (d := 1) (x := 4) (y := 0) (by rw [r0]; rfl) (by rw [r1]; rfl)
      (by rw [r2]; rfl) (by rw [r3]; rfl) (by norm_num [sgn, abs_of_pos]) (by norm_num)]
    norm_num
  have e2 : R 0 6 .m2 = 0 := by
    rw [two .m2 (a := 0) (b := 0) (c := 0) (d := 0) (x := 0) (y := 0) (by rw [r0]; rfl) (by rw [r1]; rfl)
      (by rw [r2]; rfl) (by rw [r3]; rfl) (by norm_num) (by norm_num)]
    norm_num
  have e3 : R 0 6 .m3 = 0 := by
    rw [two .m3 (a := 0) (b := 0) (c := 0) (d := 0) (x := 0) (y := 0) (by rw [r0]; rfl) (by rw [r1]; rfl)
      (by rw [r2]; rfl) (by rw [r3]; rfl) (by norm_num) (by norm_num)]
    norm_num
  unfold thermal at this
  rw [ed, em, ee, e2, e3] at this
  norm_num at this

end Athena.Shear
