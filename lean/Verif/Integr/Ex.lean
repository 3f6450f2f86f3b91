import Verif.Integr.All

/-! Instances of the hypotheses of the theorems on all integrators. -/

namespace Athena.Gen
open Athena.Bvals hiding Rng
open Athena.Vl3

deriving instance Inhabited for Cons1
deriving instance Inhabited for Cons
deriving instance Inhabited for Prim
deriving instance Inhabited for Prim1
deriving instance Inhabited for Work1
deriving instance Inhabited for WorkV2
deriving instance Inhabited for WorkC2
deriving instance Inhabited for Work
deriving instance Inhabited for WorkC3
deriving instance Inhabited for Works

/-- Isothermal-like conversion, upwind flux by the sign of the velocity, donor cell. -/
noncomputable def exF : Funs ℝ 1 where
  c2p1 u _ := ⟨u.d, u.Mx / u.d, u.My / u.d, u.Mz / u.d, u.E, u.By, u.Bz, fun n => u.s n / u.d⟩
  p2c1 w _ := ⟨w.d, w.d * w.Vx, w.d * w.Vy, w.d * w.Vz, w.P, w.By, w.Bz, fun n => w.d * w.r n⟩
  c2p u := ⟨u.M1 / u.d, u.M2 / u.d, u.M3 / u.d, u.B1c, u.B2c, u.B3c⟩
  flux ul ur wl _ _ := if 0 < wl.Vx then ul else ur
  lr _ _ _ w _ := (w (-1), w 0)
  dMin := 1 / 1000

theorem exF_local : exF.Local := by
  intro _ _ d w w' b b' h
  simp only [exF]
  rw [(h (-1) (by omega) (by omega)).1, (h 0 (by omega) (by omega)).1]

/-- Nine zones in x1 on two Grids, four in each further direction, periodic. -/
def exD (w : Which) : Dom where
  NG := fun t => if t = 0 then 2 else 1
  nx := fun t i => if t = 0 then (if i = 0 then 4 else 5) else if dims w t then 4 else 1
  bcIn := fun _ => .periodic
  bcOut := fun _ => .periodic

theorem exD_gnx (w : Which) (C : Coord) (t : Fin 3) :
    (dims w t = true ∧ ((exD w).gnx C t = 4 ∨ (exD w).gnx C t = 5)) ∨ (t ≠ 0 ∧ dims w t = false ∧ (exD w).gnx C t = 1) := by
  cases w <;> rcases three t with rfl | rfl | rfl <;> simp [exD, Dom.gnx, dims, A1, A2, A3] <;> exact em _

theorem exD_regular (w : Which) : Regular (cfg 4 1) (exD w) where
  dims C hC := by
    refine ⟨by decide, ?_, ?_⟩
    · intro t; have := exD_gnx w C t; show _ ∨ _ ∧ 4 ≤ _; omega
    · intro t d htd h
      have hd := exD_gnx w C d
      have ht := exD_gnx w C t
      cases w <;> rcases three t with rfl | rfl | rfl <;> rcases three d with rfl | rfl | rfl <;>
        simp [dims, A1, A2, A3] at hd ht htd <;> omega
  split t hN i hi := by
    rcases three t with rfl | rfl | rfl
    · have := exD_gnx w (fun _ => i) 0; simp only [Dom.gnx] at this
      have h : dims w 0 = true := by cases w <;> rfl
      rw [h] at this
      simp at this; omega
    · simp [exD] at hN
    · simp [exD] at hN
  kin t := by simp [exD]
  kout t := by simp [exD]
  per t hN := ⟨fun _ => rfl, fun _ => rfl⟩

/-- A state that differs from zone to zone, with a uniform field. -/
def exG2 (w : Which) : Grid ℝ where
  nx := tot (exD w)
  U := fun y v => match v with | .d => 1 + y 0 | .M n => 2 + y n | .E => 50 | .Bc n => 3 + n.val | .s n => y 0 + n
  Bi := fun n _ => 3 + n.val

theorem exD_tot (w : Which) (t : Fin 3) : tot (exD w) t = if t = 0 then 9 else if dims w t then 4 else 1 := by
  cases w <;> rcases three t with rfl | rfl | rfl <;> decide

theorem exD_init (K : Kind) (w : Which) : integrateInit K (tot (exD w)) false = .ok (some w) := by
  have h0 : tot (exD w) 0 = 9 := by rw [exD_tot, if_pos rfl]
  have h1 := exD_tot w 1
  have h2 := exD_tot w 2
  unfold integrateInit
  rw [h0, h1, h2]
  cases w <;> cases K <;> rfl

/-- For every integrator and dimension all hypotheses of `run_decomposed`, `run_conserves` and `run_divB` hold together, on a
Domain divided into two Grids, next to a run of the undivided Domain. -/
example (K : Kind) (w : Which) : ∃ (s : ℕ → Coord → Grid ℝ) (G : ℕ → Grid ℝ) (o' : ℕ → Fin 3 → Coord → Bool)
    (J : ℕ → Coord → Works ℝ 1) (J' : ℕ → Works ℝ 1),
    integrateInit K (tot (exD w)) false = .ok (some w) ∧ Regular (cfg 4 1) (exD w) ∧
    IsRun (integ exF K w) (fun _ => ⟨0.1, 1, 2, 3⟩) 4 (bufSize (cfg 4 1) [exD w]) (exD w) (fun _ _ _ => false) J s ∧
    IsRun (integ exF K w) (fun _ => ⟨0.1, 1, 2, 3⟩) 4 0 (single (exD w)) o' (fun n _ => J' n) (fun n _ => G n) ∧
    (∀ C, (exD w).Has C → (s 0 C).nx = (exD w).gnx C) ∧ (G 0).nx = tot (exD w) ∧
    (∀ C, (exD w).Has C → ∀ f : Fld, f.In (cfg 4 1) → ∀ y, Stored (cfg 4 1) ((exD w).gnx C) f y →
      f.val (s 0 C) y = f.val (G 0) (gl (exD w) C y)) ∧
    Start (cfg 4 1) (bufSize (cfg 4 1) [exD w]) (exD w) (exG2 w) (s 0) ∧ Closed (cfg 4 1) (exG2 w) ∧ AllPeriodic (dims w) (exD w) ∧
    (∀ t, (exD w).bcIn t ≠ .reflect ∧ (exD w).bcOut t ≠ .reflect) ∧ (∃ C, (exD w).Has C) ∧
    ∀ n, domTotal (cfg 4 1) (exD w) (s n) (.cell .d) = domTotal (cfg 4 1) (exD w) (s 0) (.cell .d) := by
  have hne : ∃ C, (exD w).Has C := ⟨fun _ => 0, by intro t; simp only [exD]; split_ifs <;> omega⟩
  have hR := exD_regular w
  have hm : exD w ∈ [exD w] := List.mem_singleton.2 rfl
  let si : Coord → Grid ℝ := fun C => ⟨(exD w).gnx C, fun y v => (exG2 w).U (gl (exD w) C y) v, fun n y => (exG2 w).Bi n (gl (exD w) C y)⟩
  have hact : ∀ C, (exD w).Has C → ∀ f : Fld, f.In (cfg 4 1) → ∀ y, Active (cfg 4 1) ((exD w).gnx C) f y →
      f.val (si C) y = f.val (exG2 w) (gl (exD w) C y) := fun C _ f _ y _ => by cases f <;> rfl
  obtain ⟨s0, G', e1, e2, e3⟩ := decomposed_eq_single (cfg 4 1) [exD w] (exD w) hm hR hne
    (fun _ _ => false) (fun _ _ => false) si (exG2 w) (fun _ _ => rfl) rfl hact
  have hok := hR.ok hm
  let J : ℕ → Coord → Works ℝ 1 := fun _ _ => default
  have h0 : ∀ C, (exD w).Has C → (s0 C).nx = (exD w).gnx C := by
    intro C hC
    obtain ⟨σ, _, e3, hσ⟩ := bvals_all hok (fun _ _ => false) si (fun _ _ => rfl)
    have h := e1 C hC
    rw [e3 C hC] at h
    injection h with h
    rw [← h]
    exact (hσ 2 C hC).2.1
  obtain ⟨s, es, hr⟩ := run_exists (integ exF K w) (fun _ => ⟨0.1, 1, 2, 3⟩) hm hR (fun _ _ _ => false) J s0 h0
  have hst : Start (cfg 4 1) (bufSize (cfg 4 1) [exD w]) (exD w) (exG2 w) (s 0) := by
    rw [es]
    exact ⟨rfl, si, _, fun _ _ => rfl, hact, e1⟩
  have hcl : Closed (cfg 4 1) (exG2 w) := fun t y _ _ => rfl
  have hP : AllPeriodic (dims w) (exD w) := fun t _ => ⟨rfl, rfl⟩
  obtain ⟨G, o0, o', J', _, hG, hGn, hsn, hE⟩ := companion (integ_lattice exF exF_local K w) _ (by omega) [exD w] (exD w) hm hR hne
    (init_hasDim (exD_init K w) hm hR (fun _ => Iff.rfl)) _ J s hr (exG2 w) hst
  exact ⟨s, G, o', J, J', exD_init K w, hR, hr, hG, hsn 0, hGn 0, hE 0, hst, hcl, hP, fun t => ⟨by simp [exD], by simp [exD]⟩, hne, fun n =>
    run_conserves exF exF_local K _ false w (exD_init K w) _ (by omega) [exD w] (exD w) hm hR (fun _ => Iff.rfl) hP _ J s hr
      (exG2 w) hst hcl (.cell .d) trivial n⟩

end Athena.Gen
