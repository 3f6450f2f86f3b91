import Verif.Prob.Turned

/-!
# Concrete cases of C127, C128 and C129

Each example applies a theorem to a Grid and parameters that meet its hypotheses.
-/

namespace Athena.Prob
open Athena.Pos
noncomputable section

/-- A Grid of 8 by 4 by 4 zones that spans a Domain of 2 by 1 by 1. -/
def brick : Grd := ⟨gridAxis 4 (-1) (1/4) [] 8, gridAxis 4 (-1/2) (1/4) [] 4, gridAxis 4 (-1/2) (1/4) [] 4⟩

/-- Amplitudes and a wave vector that has one length along each side of `brick`. -/
def wavelet : WavePar :=
  ⟨angles (-999.9) (-999.9) 2 1 1, 2 * Real.pi / waveLen brick (-999.9) (-999.9) 2 1 1, 1, 1, 1, 1/10, 1/10, 1⟩

theorem brick_sizes : nx brick.x1 * brick.x1.dx = 2 ∧ nx brick.x2 * brick.x2.dx = 1 ∧ nx brick.x3 * brick.x3.dx = 1 := by
  unfold nx brick gridAxis; norm_num

theorem brick_zone : Active brick 5 6 7 := by unfold Active brick gridAxis; norm_num

example : Solenoidal plate (fieldLoop plate ⟨3/2, 1, 1, 1, 1, 8, 2, 1⟩ (2/3)) :=
  field_loop_plane_partial _ _ _ (by unfold plate gridAxis; norm_num) (by unfold plate gridAxis; norm_num) rfl

example : Centred brick (fieldLoop brick ⟨3/10, 1/1000, 1, 1, 4, 2, 1, 1⟩ (2/3)) :=
  field_loop_centred _ _ _ (by unfold brick gridAxis; norm_num)

example : pressure (2/3) (rotor plate ⟨1, 1, 1, 0.1, 0.115⟩ (2/3)) 0 5 6 = 1 :=
  rotor_pressure plate ⟨1, 1, 1, 0.1, 0.115⟩ (2/3) (by norm_num) 0 5 6 (by unfold Active plate gridAxis; norm_num)

example : Solenoidal brick (blast brick ⟨2, 1/10, 1, 1, 100, 1, 1⟩ (2/3))
    ∧ Centred brick (blast brick ⟨2, 1/10, 1, 1, 100, 1, 1⟩ (2/3)) :=
  ⟨blast_solenoidal _ _ _ (by unfold brick gridAxis; norm_num),
    blast_centred _ _ _ (by unfold brick gridAxis; norm_num)⟩

example (row : ℤ) (h : blastRows brick row) : 0 ≤ row ∧ row < rows 4 brick.x2 :=
  blast_bounds 4 4 (-1/2) (1/4) brick (by norm_num) (by norm_num) rfl row h

example (row : ℤ) (h : sheetRows brick row) : 0 ≤ row ∧ row < rows 4 brick.x2 :=
  current_sheet_bounds_partial 4 4 (-1/2) (1/4) brick (by norm_num) (by norm_num) rfl row h

theorem wavelet_fits : Fits brick wavelet.an wavelet.kp :=
  default_fits _ 2 1 1 (by norm_num) (by norm_num) (by norm_num)
    (by unfold brick gridAxis; norm_num) (by unfold brick gridAxis; norm_num) (by unfold brick gridAxis; norm_num)
    (by unfold brick gridAxis; norm_num)

example : Solenoidal brick (cpaw brick ⟨wavelet, 1, 1/10, 1/10⟩ (2/3)) := cpaw_solenoidal_partial _ _ _ wavelet_fits

example : Centred brick (cpaw brick ⟨wavelet, 1, 1/10, 1/10⟩ (2/3)) :=
  cpaw_centred _ _ _ (by unfold brick gridAxis; norm_num)

example : pressure (2/3) (cpaw brick ⟨wavelet, 1, 1/10, 1/10⟩ (2/3)) 5 6 7 = 1/10 :=
  cpaw_pressure brick ⟨wavelet, 1, 1/10, 1/10⟩ (2/3) (by norm_num) 5 6 7 brick_zone

/-- The hypotheses of `cpaw_speed` on the angles are met by all angles of the generator. -/
theorem angles_unit (a2 a3 l1 l2 l3 : ℝ) :
    (angles a2 a3 l1 l2 l3).s2 ^ 2 + (angles a2 a3 l1 l2 l3).c2 ^ 2 = 1
    ∧ (angles a2 a3 l1 l2 l3).s3 ^ 2 + (angles a2 a3 l1 l2 l3).c3 ^ 2 = 1 :=
  ⟨Real.sin_sq_add_cos_sq _, Real.sin_sq_add_cos_sq _⟩

example : (cpaw brick ⟨wavelet, 1, 1/10, 1/10⟩ (2/3)).m1 5 6 7 ^ 2 + (cpaw brick ⟨wavelet, 1, 1/10, 1/10⟩ (2/3)).m2 5 6 7 ^ 2
    + (cpaw brick ⟨wavelet, 1, 1/10, 1/10⟩ (2/3)).m3 5 6 7 ^ 2 = 1 ^ 2 + (1/10) ^ 2 :=
  cpaw_speed brick ⟨wavelet, 1, 1/10, 1/10⟩ (2/3) 5 6 7 brick_zone (angles_unit _ _ _ _ _).1 (angles_unit _ _ _ _ _).2
    (by show (1:ℝ) ^ 2 = 1; norm_num)

example : (linearWave brick ⟨wavelet, 1/100, 0, 1, 1, 1, 1, 1, 1, 1⟩ (2/3)).b2 5 8 7
    = (linearWave brick ⟨wavelet, 1/100, 0, 1, 1, 1, 1, 1, 1, 1⟩ (2/3)).b2 5 4 7 :=
  (linear_wave_seam brick ⟨wavelet, 1/100, 0, 1, 1, 1, 1, 1, 1, 1⟩ (2/3) 2 1 1 (by norm_num) (by norm_num)
    (by norm_num) brick_sizes rfl rfl).2.1 (by unfold brick gridAxis; norm_num) 5 7
    (by unfold brick gridAxis; norm_num) (by unfold brick gridAxis; norm_num)

example : (cpaw brick ⟨wavelet, 1, 1/10, 1/10⟩ (2/3)).b3 8 5 7 = (cpaw brick ⟨wavelet, 1, 1/10, 1/10⟩ (2/3)).b3 4 5 7 :=
  (cpaw_seam brick ⟨wavelet, 1, 1/10, 1/10⟩ (2/3) 2 1 1 (by norm_num) (by norm_num)
    (by norm_num) brick_sizes rfl rfl).2.2 (by unfold brick gridAxis; norm_num) 5 7
    (by unfold brick gridAxis; norm_num) (by unfold brick gridAxis; norm_num)

/-- The Grid one Domain further along x1. -/
example : (linearWave (moved brick 2 0 0) ⟨wavelet, 1/100, 0, 1, 1, 1, 1, 1, 1, 1⟩ (2/3)).d
    = (linearWave brick ⟨wavelet, 1/100, 0, 1, 1, 1, 1, 1, 1, 1⟩ (2/3)).d :=
  (linear_wave_periodic brick ⟨wavelet, 1/100, 0, 1, 1, 1, 1, 1, 1, 1⟩ (2/3) (m := 1) (by
    obtain ⟨lp, e1, _, _⟩ := default_one_length brick 2 1 1 (by norm_num) (by norm_num) (by norm_num)
    show 2 * Real.pi / waveLen brick (-999.9) (-999.9) 2 1 1 * along (angles (-999.9) (-999.9) 2 1 1) 2 0 0 = _
    rw [e1]
    field_simp
    norm_num)).1

example : (fieldLoop brick ⟨3/10, 1/1000, 1, 1, 4, 2, 1, 1⟩ (2/3)).b1 5 6 12
    = (fieldLoop brick ⟨3/10, 1/1000, 1, 1, 4, 2, 1, 1⟩ (2/3)).b1 5 6 4 :=
  rotated_loop_seam brick ⟨3/10, 1/1000, 1, 1, 4, 2, 1, 1⟩ (2/3) rfl (by norm_num) (by norm_num) brick_sizes.1
    (by unfold brick gridAxis; norm_num) 5 6 (by unfold brick gridAxis; norm_num) (by unfold brick gridAxis; norm_num)

end
end Athena.Prob
