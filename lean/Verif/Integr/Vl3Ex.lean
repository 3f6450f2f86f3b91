import Verif.Integr.Vl3RunCons

/-! Instances of the hypotheses of the theorems on the 3D van Leer integrator. -/

namespace Athena.Vl3
open Athena.Bvals

/-- Advection with unit speed in all directions, donor cell. -/
noncomputable def exM : Method ℝ (Cons1 ℝ 1) 1 where
  c2p1 u _ := u
  p2c1 w _ := w
  c2p u := ⟨u.M1 / u.d, u.M2 / u.d, u.M3 / u.d, u.B1c, u.B2c, u.B3c⟩
  flux ul _ _ _ _ := ul
  lr _ w _ := (w (-1), w 0)

theorem exM_local : exM.Local := by
  intro d w w' b b' h
  simp only [exM]
  rw [(h (-1) (by omega) (by omega)).1, (h 0 (by omega) (by omega)).1]

/-- Nine by four by four zones on two Grids, periodic. -/
def D1 : Dom where
  NG := fun t => if t = 0 then 2 else 1
  nx := fun t i => if t = 0 then (if i = 0 then 4 else 5) else 4
  bcIn := fun _ => .periodic
  bcOut := fun _ => .periodic

theorem D1_gnx (C : Coord) (t : Fin 3) : D1.gnx C t = 4 ∨ D1.gnx C t = 5 := by
  simp only [D1, Dom.gnx]; split_ifs <;> simp

theorem D1_regular : Regular (cfg 4 1) D1 where
  dims C hC := by
    refine ⟨by decide, ?_, ?_⟩
    · intro t; have := D1_gnx C t; show _ ∨ _ ∧ 4 ≤ _; omega
    · intro t d _ _; have := D1_gnx C t; omega
  split t hN i hi := by have := D1_gnx (fun _ => i) t; simp only [Dom.gnx] at this; omega
  kin t := by simp [D1]
  kout t := by simp [D1]
  per t hN := ⟨fun _ => rfl, fun _ => rfl⟩

/-- A state that differs from zone to zone, with a uniform field. -/
def exG : Grid ℝ where
  nx := tot D1
  U := fun y v => match v with | .d => 1 + y 0 | .M n => 2 + y n | .E => 50 | .Bc n => 3 + n.val | .s n => y 0 + n
  Bi := fun n _ => 3 + n.val

/-- All hypotheses of `decomposed_run`, `conserved_run` and `divB_run` hold together. -/
example : ∃ (s : ℕ → Coord → Grid ℝ) (J : ℕ → Coord → Work ℝ (Cons1 ℝ 1) 1),
    IsRun exM (fun _ => ⟨0.1 / 1, 0.1 / 2, 0.1 / 3⟩) 4 (bufSize (cfg 4 1) [D1]) D1 (fun _ _ _ => false) J s ∧
    Start (cfg 4 1) (bufSize (cfg 4 1) [D1]) D1 exG (s 0) ∧ Closed (cfg 4 1) exG ∧ AllPeriodic D1 ∧
    (∀ C, D1.Has C → ∀ t, 1 < D1.gnx C t) ∧ (∀ t, D1.bcIn t ≠ .reflect ∧ D1.bcOut t ≠ .reflect) ∧ (∃ C, D1.Has C) ∧
    ∀ n, domTotal (cfg 4 1) D1 (s n) .d = domTotal (cfg 4 1) D1 (s 0) .d := by
  have hne : ∃ C, D1.Has C := ⟨fun _ => 0, by intro t; simp only [D1]; split_ifs <;> omega⟩
  have h3 : ∀ C, D1.Has C → ∀ t, 1 < D1.gnx C t := fun C _ t => by have := D1_gnx C t; omega
  let si : Coord → Grid ℝ := fun C => ⟨D1.gnx C, fun y v => exG.U (gl D1 C y) v, fun n y => exG.Bi n (gl D1 C y)⟩
  have hact : ∀ C, D1.Has C → ∀ f : Fld, f.In (cfg 4 1) → ∀ y, Active (cfg 4 1) (D1.gnx C) f y →
      f.val (si C) y = f.val exG (gl D1 C y) := fun C _ f _ y _ => by cases f <;> rfl
  obtain ⟨s0, G', e1, _, _⟩ := decomposed_eq_single (cfg 4 1) [D1] D1 (List.mem_singleton.2 rfl) D1_regular hne
    (fun _ _ => false) (fun _ _ => false) si exG (fun _ _ => rfl) rfl hact
  have hok := D1_regular.ok (List.mem_singleton.2 rfl)
  let J : ℕ → Coord → Work ℝ (Cons1 ℝ 1) 1 := fun _ _ =>
    let z : Cons1 ℝ 1 := ⟨0, 0, 0, 0, 0, 0, 0, fun _ => 0⟩
    ⟨fun _ _ _ => ⟨0, 0, 0, 0, 0, 0, 0, 0, fun _ => 0⟩, fun _ _ _ => 7, fun _ _ _ => 7, fun _ _ _ => 7, fun _ _ _ => z, fun _ _ _ => z,
     fun _ _ _ => z, fun _ _ _ => 7, fun _ _ _ => 7, fun _ _ _ => 7, fun _ _ _ => 7, fun _ _ _ => 7, fun _ _ _ => 7,
     fun _ _ _ _ => z, fun _ _ _ _ => z, fun _ => z, fun _ => 7⟩
  obtain ⟨s, es, hr⟩ := run_exists exM (fun _ => ⟨0.1 / 1, 0.1 / 2, 0.1 / 3⟩) (List.mem_singleton.2 rfl) D1_regular
    (fun _ _ _ => false) J s0 (fun C hC => bvals_nx hok (s := si) _ (fun _ _ => rfl) hC (e1 C hC))
  have hst : Start (cfg 4 1) (bufSize (cfg 4 1) [D1]) D1 exG (s 0) := by
    rw [es]
    exact ⟨rfl, si, _, fun _ _ => rfl, hact, e1⟩
  have hcl : Closed (cfg 4 1) exG := fun t y _ _ => rfl
  have hP : AllPeriodic D1 := fun t => ⟨rfl, rfl⟩
  exact ⟨s, J, hr, hst, hcl, hP, h3, fun t => ⟨by simp [D1], by simp [D1]⟩, hne, fun n =>
    conserved_run exM exM_local _ (by omega) [D1] D1 (List.mem_singleton.2 rfl) D1_regular h3 hP _ J s hr exG hst hcl .d trivial n⟩

/-- The hypotheses of `update_conserves` and `update_divB`. -/
example : Size ⟨4, 7, 4, 8, 4, 9, 4⟩ 4 5 6 ∧ (⟨4, 7, 4, 8, 4, 9, 4⟩ : Rng).Ok :=
  ⟨⟨by decide, by decide, by decide⟩, ⟨by decide, by decide, by decide, by decide⟩⟩

end Athena.Vl3
