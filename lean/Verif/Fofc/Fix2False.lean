import Verif.Fofc.Fix2Props
import Mathlib.Tactic.NormNum
import Mathlib.Tactic.IntervalCases

/-!
# C59 in two dimensions: what fails, and a plane that meets the hypotheses
-/

namespace Athena.Fofc
open Athena.Vl3
open Athena.Gen (Pla updV2)

/-- The plane of a Grid after a step with the given second-order fluxes of mass along x1; the first-order ones are 1, and `b` is the
first-order electric field. -/
noncomputable def sheet (g : Rng) (f b : Pla ℝ) : Fy 0 where
  U := (updV2 ⟨1, 1, 1, 1⟩ g still (fun j i => mass (f j i)) (fun _ _ => mass 0) (fun _ _ => 0)).U g.ks
  B1 := (updV2 ⟨1, 1, 1, 1⟩ g still (fun j i => mass (f j i)) (fun _ _ => mass 0) (fun _ _ => 0)).B1i g.ks
  B2 := (updV2 ⟨1, 1, 1, 1⟩ g still (fun j i => mass (f j i)) (fun _ _ => mass 0) (fun _ _ => 0)).B2i g.ks
  B3 := (updV2 ⟨1, 1, 1, 1⟩ g still (fun j i => mass (f j i)) (fun _ _ => mass 0) (fun _ _ => 0)).B3i g.ks
  F1 := fun j i => mass (f j i)
  F2 := fun _ _ => mass 0
  e := fun _ _ => 0
  P1 := fun _ _ => mass 1
  P2 := fun _ _ => mass 0
  p := b

/-- `dt = dx1 = dx2 = 1`. -/
noncomputable def one4 : Athena.Gen.Step ℝ := ⟨1, 1, 1, 1⟩

theorem sheet_made (g : Rng) (f b : Pla ℝ) : Made2 one4 noPot2 g still (sheet g f b) := by
  constructor
  · intro j i _
    simp only [work2, noPot2, sub_zero, mul_zero, add_zero]
    rfl
  · intro _ _ _ _ _ _; rfl
  · intro _ _ _ _ _ _; rfl
  · intro _ _ _; rfl

theorem made2_d {g : Rng} {X : Fy 0} (h : Made2 one4 noPot2 g still X) {j i : ℤ} (hz : InGrid2 g j i) :
    (X.U j i).d = 1 - ((X.F1 j (i+1)).d - (X.F1 j i).d) - ((X.F2 (j+1) i).d - (X.F2 j i).d) := by
  have a := updV2_of one4 g still X.F1 X.F2 X.e (some .d) hz
  have b : (X.U j i).d = ((updV2 one4 g still X.F1 X.F2 X.e).U g.ks j i).d := by rw [h.U j i hz]
  rw [b]
  refine Eq.trans (show _ = of2 (some CVar.d) ((updV2 one4 g still X.F1 X.F2 X.e).U g.ks j i) from rfl) (a.trans ?_)
  simp [of2, fl1, fl2, CVar.of, CVar.flux1, CVar.flux2, one4, still]

section One
variable {g : Rng} {X Z : Fy 0} {z0 : ℤ × ℤ} (hZ : Z = fixCell2 (one4.dt/one4.dx1) (one4.dt/one4.dx2) noPot2 g X z0.1 z0.2)
  (h0 : neg (X.U z0.1 z0.2) = true) (h1 : ∀ z ∈ zones2 g, z ≠ z0 → neg (X.U z.1 z.2) = false)
  (h2 : ∀ z ∈ zones2 g, neg (Z.U z.1 z.2) = false)
include hZ h0 h1 h2

theorem one_from (l : List (ℤ × ℤ)) (hl : ∀ z ∈ l, z ∈ zones2 g) :
    l.foldl (turn2 neg (one4.dt/one4.dx1) (one4.dt/one4.dx2) noPot2 g) Z = Z ∧
    l.foldl (turn2 neg (one4.dt/one4.dx1) (one4.dt/one4.dx2) noPot2 g) X = if z0 ∈ l then Z else X := by
  induction l with
  | nil => exact ⟨rfl, rfl⟩
  | cons z l ih =>
    obtain ⟨i1, i2⟩ := ih fun w hw => hl w (List.mem_cons_of_mem _ hw)
    have tZ : turn2 neg (one4.dt/one4.dx1) (one4.dt/one4.dx2) noPot2 g Z z = Z := by
      unfold turn2; rw [h2 z (hl z List.mem_cons_self)]; rfl
    rw [List.foldl_cons, List.foldl_cons, tZ]
    refine ⟨i1, ?_⟩
    by_cases hz : z = z0
    · rw [show turn2 neg (one4.dt/one4.dx1) (one4.dt/one4.dx2) noPot2 g X z = Z by unfold turn2; rw [hz, h0, hZ]; rfl, i1,
        if_pos (by rw [hz]; exact List.mem_cons_self)]
    · rw [show turn2 neg (one4.dt/one4.dx1) (one4.dt/one4.dx2) noPot2 g X z = X by unfold turn2; rw [h1 z (hl z List.mem_cons_self) hz]; rfl, i2]
      refine if_congr ?_ rfl rfl
      simp [List.mem_cons, Ne.symm hz]

theorem one_step (hm : z0 ∈ zones2 g) : step14p neg (one4.dt/one4.dx1) (one4.dt/one4.dx2) noPot2 g X = Z := by
  unfold step14p
  rw [(one_from hZ h0 h1 h2 _ fun _ h => h).2, if_pos hm]

theorem one_found {z : ℤ × ℤ} (h : FoundBad2 neg (one4.dt/one4.dx1) (one4.dt/one4.dx2) noPot2 g X z) : z = z0 := by
  by_contra hz
  obtain ⟨l, r, e, hb⟩ := h
  have hm : z ∈ zones2 g := by rw [e]; simp
  rw [(one_from hZ h0 h1 h2 l fun w hw => by rw [e]; simp [hw]).2] at hb
  split_ifs at hb with hl
  · rw [h2 z hm] at hb; exact Bool.noConfusion hb
  · rw [h1 z hm hz] at hb; exact Bool.noConfusion hb

end One

/-- Two by two zones. -/
def quad : Rng := ⟨0, 1, 0, 1, 0, 0, 4⟩

/-- A flux that empties the first zone. -/
noncomputable def out4 : Pla ℝ := fun j i => if j = 0 ∧ i = 1 then 2 else 0

/-- A first-order electric field. -/
noncomputable def emf4 : Pla ℝ := fun j _ => if j = 1 then 1 else 0

theorem quad_zones : zones2 quad = [(0, 0), (0, 1), (1, 0), (1, 1)] := by decide

theorem quad_in {j i : ℤ} (h : (j, i) ∈ zones2 quad) : (0 ≤ j ∧ j ≤ 1) ∧ (0 ≤ i ∧ i ≤ 1) := mem_zones2.1 h

theorem neg_false {u : Cons ℝ 0} (h : 0 ≤ u.d) : neg u = false := by unfold neg; simpa using h
theorem neg_true {u : Cons ℝ 0} (h : u.d < 0) : neg u = true := by unfold neg; simpa using h

theorem quad_step : step14p neg (one4.dt/one4.dx1) (one4.dt/one4.dx2) noPot2 quad (sheet quad out4 emf4) =
    fixCell2 (one4.dt/one4.dx1) (one4.dt/one4.dx2) noPot2 quad (sheet quad out4 emf4) 0 0 := by
  have hM := sheet_made quad out4 emf4
  refine one_step (z0 := (0, 0)) rfl ?_ ?_ ?_ (by decide)
  · refine neg_true ?_
    rw [made2_d hM (by unfold InGrid2 quad; decide)]
    norm_num [sheet, out4, mass]
  · rintro ⟨j, i⟩ hz hn
    refine neg_false ?_
    rw [made2_d hM (mem_zones2.1 hz)]
    obtain ⟨⟨a, b⟩, c, d⟩ := quad_in hz
    interval_cases j <;> interval_cases i <;> first | exact absurd rfl hn | norm_num [sheet, out4, mass]
  · rintro ⟨j, i⟩ hz
    refine neg_false ?_
    rw [made2_d (fix2_made hM 0 0) (mem_zones2.1 hz)]
    obtain ⟨⟨a, b⟩, c, d⟩ := quad_in hz
    simp only [fix2_F1, fix2_F2]
    interval_cases j <;> interval_cases i <;> norm_num [sheet, out4, mass]

theorem quad_around : Around quad (sheet quad out4 emf4) := by
  constructor <;> intro _ <;> simp [sheet, quad, out4, emf4]

/-- **C59 is false in 2D.** A zone at the boundary of a periodic Grid is found bad: its flux through the boundary is replaced on its own side
only, and mass appears. -/
theorem fofc2_conserves_false : ¬ ∀ (g : Rng) (n1 n2 : ℕ) (S0 : St ℝ 0) (X : Fy 0), g.ie + 1 = g.is + n1 → g.je + 1 = g.js + n2 →
    Made2 one4 noPot2 g S0 X → Around g X →
    psum n1 n2 g (fun j i => ((step14p neg (one4.dt/one4.dx1) (one4.dt/one4.dx2) noPot2 g X).U j i).d) = psum n1 n2 g (fun j i => (X.U j i).d) := by
  intro h
  have e := h quad 2 2 still (sheet quad out4 emf4) rfl rfl (sheet_made _ _ _) quad_around
  rw [quad_step] at e
  have a := made2_total (n1 := 2) (n2 := 2) rfl rfl (sheet_made quad out4 emf4) (some .d) (.inr rfl)
  have b := made2_total (n1 := 2) (n2 := 2) rfl rfl (fix2_made (sheet_made quad out4 emf4) 0 0) (some .d) (.inr rfl)
  have e' := (b.symm.trans e).trans a
  simp only [fl1, fl2, CVar.flux1, CVar.flux2, fix2_F1, fix2_F2] at e'
  norm_num [Finset.sum_range_succ, sheet, out4, mass, quad, one4] at e'

/-- The same with the field: the two copies of a face of a periodic Grid part. -/
theorem fofc2_faces_false : ¬ ∀ (g : Rng) (S0 : St ℝ 0) (X : Fy 0), Made2 one4 noPot2 g S0 X → Around g X →
    (∀ j, g.js ≤ j → j ≤ g.je → X.B1 j g.is = X.B1 j (g.ie+1)) →
    ∀ j, g.js ≤ j → j ≤ g.je → (step14p neg (one4.dt/one4.dx1) (one4.dt/one4.dx2) noPot2 g X).B1 j g.is =
      (step14p neg (one4.dt/one4.dx1) (one4.dt/one4.dx2) noPot2 g X).B1 j (g.ie+1) := by
  intro h
  have hM := sheet_made quad out4 emf4
  have e := h quad still (sheet quad out4 emf4) hM quad_around (fun j h1 h2 => by
    rw [hM.B1 j _ h1 h2 (by decide) (by decide), hM.B1 j _ h1 h2 (by decide) (by decide), updV2_B1 _ _ _ _ _ _ h1 h2 (by decide) (by decide),
      updV2_B1 _ _ _ _ _ _ h1 h2 (by decide) (by decide)]
    norm_num [sheet, still]) 0 (by decide) (by decide)
  rw [quad_step, fix2_B1 hM 0 0 (by decide) (by decide) (by decide) (by decide), fix2_B1 hM 0 0 (by decide) (by decide) (by decide) (by decide)] at e
  simp only [fix2_e] at e
  norm_num [sheet, still, one4, quad, emf4] at e

/-! ## Non-vacuity -/

/-- Three by three zones. -/
def nine : Rng := ⟨0, 2, 0, 2, 0, 0, 4⟩

/-- A flux that empties the zone in the middle. -/
noncomputable def out9 : Pla ℝ := fun j i => if j = 1 ∧ i = 2 then 2 else 0

theorem nine_in {j i : ℤ} (h : (j, i) ∈ zones2 nine) : (0 ≤ j ∧ j ≤ 2) ∧ (0 ≤ i ∧ i ≤ 2) := mem_zones2.1 h

theorem nine_ok (z : ℤ × ℤ) : FoundBad2 neg (one4.dt/one4.dx1) (one4.dt/one4.dx2) noPot2 nine (sheet nine out9 emf4) z ↔ z = (1, 1) := by
  have hM := sheet_made nine out9 emf4
  have h0 : neg ((sheet nine out9 emf4).U 1 1) = true := by
    refine neg_true ?_
    rw [made2_d hM (by unfold InGrid2 nine; decide)]
    norm_num [sheet, out9, mass]
  have h1 : ∀ z ∈ zones2 nine, z ≠ (1, 1) → neg ((sheet nine out9 emf4).U z.1 z.2) = false := by
    rintro ⟨j, i⟩ hz hn
    refine neg_false ?_
    rw [made2_d hM (mem_zones2.1 hz)]
    obtain ⟨⟨a, b⟩, c, d⟩ := nine_in hz
    interval_cases j <;> interval_cases i <;> first | exact absurd rfl hn | norm_num [sheet, out9, mass]
  have h2 : ∀ z ∈ zones2 nine, neg ((fixCell2 (one4.dt/one4.dx1) (one4.dt/one4.dx2) noPot2 nine (sheet nine out9 emf4) 1 1).U z.1 z.2) = false := by
    rintro ⟨j, i⟩ hz
    refine neg_false ?_
    rw [made2_d (fix2_made hM 1 1) (mem_zones2.1 hz)]
    obtain ⟨⟨a, b⟩, c, d⟩ := nine_in hz
    simp only [fix2_F1, fix2_F2]
    interval_cases j <;> interval_cases i <;> norm_num [sheet, out9, mass]
  constructor
  · exact one_found (z0 := (1, 1)) rfl h0 h1 h2
  · rintro rfl
    refine ⟨(zones2 nine).take 4, (zones2 nine).drop 5, by decide, ?_⟩
    rw [(one_from (z0 := (1, 1)) rfl h0 h1 h2 _ (by decide)).2, if_neg (by decide)]
    exact h0

/-- `fofc2_made`, `fofc2_divB`, `fofc2_conserves_partial`, `fofc2_first_order`: the middle zone is found bad, and no other. -/
example : Made2 one4 noPot2 nine still (sheet nine out9 emf4) ∧ (nine.ie + 1 = nine.is + (3 : ℕ) ∧ nine.je + 1 = nine.js + (3 : ℕ)) ∧
    FoundBad2 neg (one4.dt/one4.dx1) (one4.dt/one4.dx2) noPot2 nine (sheet nine out9 emf4) (1, 1) ∧
    ∀ z, AtEdge nine z → ¬FoundBad2 neg (one4.dt/one4.dx1) (one4.dt/one4.dx2) noPot2 nine (sheet nine out9 emf4) z := by
  refine ⟨sheet_made _ _ _, ⟨rfl, rfl⟩, (nine_ok _).2 rfl, fun z hz hb => ?_⟩
  rw [(nine_ok z).1 hb] at hz
  unfold AtEdge nine at hz
  revert hz
  decide

/-- `fofc2_idle`: nothing flows. -/
example : ∀ j i, InGrid2 nine j i → neg ((sheet nine (fun _ _ => 0) emf4).U j i) = false := by
  intro j i hz
  refine neg_false ?_
  rw [made2_d (sheet_made _ _ _) hz]
  norm_num [sheet, mass]

end Athena.Fofc
