import Verif.Grav.Props

/-!
# The hypotheses of the theorems on self-gravity are met
-/

namespace Athena.Grav
open Finset Athena.Vl3 Athena.Gen
open Athena.Micro (dim11 dim12 dim21 dim22 dim31 dim32)

/-- Four zones in every direction of the problem. -/
def gEx : Which → Rng
  | .d1 => ⟨4, 7, 0, 0, 0, 0, 4⟩
  | .d2 => ⟨4, 7, 4, 7, 0, 0, 4⟩
  | .d3 => ⟨4, 7, 4, 7, 4, 7, 4⟩

theorem gEx_ok (w : Which) : Ok w (gEx w) := by
  cases w <;> refine ⟨?_, ?_, ?_, ?_, ?_, ?_, ?_⟩ <;> simp [gEx]

/-- A gas with alternating density that moves along x1. -/
noncomputable def sEx : GSt 0 where
  U := fun _ j i => ⟨if i % 2 = 0 then 1 else if j % 2 = 0 then 2 else 3, 1, 0, 0, 5, 0, 0, 0, fun _ => 0⟩
  Phi := fun _ _ _ => 0
  old := fun _ _ _ => 0
  m1 := fun _ _ _ => 0
  m2 := fun _ _ _ => 0
  m3 := fun _ _ _ => 0

/-- Fluxes that change from face to face and match at the ends. -/
noncomputable def fEx : Flx 0 where
  F1 := fun _ _ i => ⟨if i % 4 = 0 then 1 else 0, if i % 4 = 1 then 2 else 1, 3, 4, if i % 4 = 2 then 2 else 5, 0, 0, fun _ => 0⟩
  F2 := fun _ j _ => ⟨if j % 4 = 0 then 1 else 0, if j % 4 = 1 then 2 else 1, 3, 4, if j % 4 = 2 then 2 else 5, 0, 0, fun _ => 0⟩
  F3 := fun k _ _ => ⟨if k % 4 = 0 then 1 else 0, if k % 4 = 1 then 2 else 1, 3, 4, if k % 4 = 2 then 2 else 5, 0, 0, fun _ => 0⟩

theorem fEx_matched (w : Which) : Matched w (gEx w) fEx := by
  cases w <;> refine ⟨fun _ _ _ _ _ _ => ?_, fun _ _ _ _ _ _ _ => ?_, fun _ _ _ _ _ _ _ => ?_⟩ <;> simp_all [gEx, fEx]

noncomputable def qEx (w : Which) : Par := ⟨1 / 10, 1, 2, 3, 1, meanRho (gEx w) sEx.U⟩

theorem qEx_ok (w : Which) : (qEx w).Ok := ⟨by simp [qEx], by simp [qEx], by simp [qEx], by simp [qEx]⟩

/-- Time steps that change. -/
noncomputable def qsEx (w : Which) (n : ℕ) : Par := { qEx w with dt := 1 / (n + 1) }

example (w : Which) : Solved w (qEx w) (gEx w) sEx.U (solveG w (qEx w) (gEx w) sEx).Phi :=
  potential_solves_poisson (qEx_ok w) (gEx_ok w) sEx (fun _ => rfl)

example (w : Which) (n : ℕ) : tot (gEx w) (fun k j i => ((runG w (qsEx w) (gEx w) (fun _ => fEx) sEx n).U k j i).M1) = tot (gEx w) (fun k j i => (sEx.U k j i).M1) :=
  (momentum_conserved_run (gEx_ok w) (qsEx w) (fun _ => fEx) (fun _ => fEx_matched w) sEx n).2.1

example (w : Which) (hw : w ≠ .d2) (n : ℕ) :
    energy (gEx w) (runG w (qsEx w) (gEx w) (fun _ => fEx) sEx n) = energy (gEx w) (runG w (qsEx w) (gEx w) (fun _ => fEx) sEx 0) :=
  energy_conserved_run_partial (gEx_ok w) hw (qsEx w) ⟨(qEx_ok w).dx1, (qEx_ok w).dx2, (qEx_ok w).dx3, (qEx_ok w).G4⟩ (fun _ => ⟨rfl, rfl, rfl, rfl, rfl⟩) (fun _ => fEx) (fun _ => fEx_matched w) sEx (fun _ => rfl) n

/-- Two Grids side by side. -/
example : Tiles (fun a _ _ => if a < 4 then ⟨0, 0, 0⟩ else ⟨4, 0, 0⟩) := by
  intro a b c; dsimp only; split_ifs <;> refine ⟨?_, ?_, ?_⟩ <;> simp <;> omega

/-- `grav_mean_rho` left at zero, which is not the mean density. -/
theorem potential_1d_example_false : ¬ Solved .d1 { qEx .d1 with rho0 := 0 } (gEx .d1) sEx.U (solveG .d1 { qEx .d1 with rho0 := 0 } (gEx .d1) sEx).Phi := by
  refine potential_1d_false ⟨by simp [qEx], by simp [qEx], by simp [qEx], by simp [qEx]⟩ (gEx_ok .d1) (by simp [gEx]) sEx (ne_of_lt ?_)
  show 0 < meanRho (gEx .d1) sEx.U
  have p : ∀ f : Arr ℝ, (∀ k j i, 0 < f k j i) → 0 < tot (gEx .d1) f := fun f hf =>
    sum_pos (fun k _ => sum_pos (fun j _ => sum_pos (fun i _ => hf k j i) ⟨4, by simp [gEx]⟩) ⟨0, by simp [gEx]⟩) ⟨0, by simp [gEx]⟩
  unfold meanRho
  refine div_pos (p _ fun k j i => ?_) (p _ fun _ _ _ => one_pos)
  simp only [sEx]; split_ifs <;> norm_num

/-- The fluxes along x2 alone. -/
noncomputable def f2Ex : Flx 0 := { fEx with F1 := fun _ _ _ => ⟨0, 1, 0, 0, 0, 0, 0, fun _ => 0⟩ }

/-- A run in two dimensions in which the first cycle loses energy. -/
theorem energy_2d_example_false :
    energy (gEx .d2) (runG .d2 (qsEx .d2) (gEx .d2) (fun _ => f2Ex) sEx 1) < energy (gEx .d2) (runG .d2 (qsEx .d2) (gEx .d2) (fun _ => f2Ex) sEx 0) := by
  have hF : Matched .d2 (gEx .d2) f2Ex := ⟨fun _ _ _ _ _ _ => rfl, (fEx_matched .d2).f2, fun e => by cases e⟩
  have ha : Act (gEx .d2) 0 4 4 := by constructor <;> simp [gEx]
  refine energy_2d_false (q := qsEx .d2 0) ⟨by simp [qsEx, qEx], by simp [qsEx, qEx], by simp [qsEx, qEx], by simp [qsEx, qEx]⟩ (gEx_ok .d2) hF _
    (solveG_solved ⟨by simp [qsEx, qEx], by simp [qsEx, qEx], by simp [qsEx, qEx], by simp [qsEx, qEx]⟩ (gEx_ok .d2) sEx (fun e => by cases e))
    (fun _ _ _ => rfl) ha ?_
  rw [cycle_d ha]
  simp only [ddif, dsum, dim21, dim22, f2Ex, fEx, qsEx, qEx, reduceIte, Bool.false_eq_true]
  norm_num

end Athena.Grav
