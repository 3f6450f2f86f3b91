import Verif.Integr.Uniform
import Verif.Micro.DiffuseRun

/-!
# C69: a uniform flow stays exactly uniform, with explicit diffusion; the hypotheses hold together
-/

namespace Athena.Micro
open Athena.Bvals hiding Rng
open Athena.Vl3 Athena.Gen

variable {ns : ℕ}

theorem diff1_const (w : Which) (p : DiffQ ns) (c : Fld → ℝ) (hc : ∀ t, c (.cell (.Bc t)) = c (.face t))
    (h1 : (p.cond = true ∧ p.res = false ∧ p.visc = false) ∨ (p.cond = false ∧ p.res = true ∧ p.visc = false) ∨
      (p.cond = false ∧ p.res = false ∧ p.visc = true)) : latDiff w p (constSt ns c) = constSt ns c := by
  refine const_step ((diffuse_lattice w).shift p) (latDiff_conserves w p) c hc fun L' e cs => ?_
  rcases h1 with ⟨a, b, d⟩ | ⟨a, b, d⟩ | ⟨a, b, d⟩
  · have e' : L' = latCond w p.q (constSt ns c) := by rw [e]; simp [latDiff, a, b, d]
    subst e'
    exact ⟨hc 0, hc 1, hc 2⟩
  · have e' : L' = latRes w p.q (lEta p.q (constSt ns c)) (constSt ns c) := by rw [e]; simp [latDiff, a, b, d]
    have g : ∀ x y : ℝ, x = 0.5 * (y + y) → x = y := by intro x y h; rw [h]; ring
    cases w
    · have h1 : (L'.U 0 0 0).B1c = c (.cell (.Bc 0)) := by rw [e']; rfl
      have h2 : L'.B1i 0 0 0 = c (.face 0) := by rw [e']; rfl
      have h3 : L'.B2i 0 0 0 = (L'.U 0 0 0).B2c := by rw [e']; rfl
      have h4 : L'.B3i 0 0 0 = (L'.U 0 0 0).B3c := by rw [e']; rfl
      exact ⟨by rw [h1, h2, hc], h3.symm, h4.symm⟩
    · have h1 : (L'.U 0 0 0).B1c = 0.5 * (L'.B1i 0 0 0 + L'.B1i 0 0 (0+1)) := by rw [e']; rfl
      have h2 : (L'.U 0 0 0).B2c = 0.5 * (L'.B2i 0 0 0 + L'.B2i 0 (0+1) 0) := by rw [e']; rfl
      have h4 : L'.B3i 0 0 0 = (L'.U 0 0 0).B3c := by rw [e']; rfl
      rw [(cs 0 0 (0+1)).2.1] at h1
      rw [(cs 0 (0+1) 0).2.2.1] at h2
      exact ⟨g _ _ h1, g _ _ h2, h4.symm⟩
    · have h1 : (L'.U 0 0 0).B1c = 0.5 * (L'.B1i 0 0 0 + L'.B1i 0 0 (0+1)) := by rw [e']; rfl
      have h2 : (L'.U 0 0 0).B2c = 0.5 * (L'.B2i 0 0 0 + L'.B2i 0 (0+1) 0) := by rw [e']; rfl
      have h3 : (L'.U 0 0 0).B3c = 0.5 * (L'.B3i 0 0 0 + L'.B3i (0+1) 0 0) := by rw [e']; rfl
      rw [(cs 0 0 (0+1)).2.1] at h1
      rw [(cs 0 (0+1) 0).2.2.1] at h2
      rw [(cs (0+1) 0 0).2.2.2] at h3
      exact ⟨g _ _ h1, g _ _ h2, g _ _ h3⟩
  · have e' : L' = latVisc w p.q (constSt ns c) := by rw [e]; simp [latDiff, a, b, d]
    rw [e']
    cases w <;> exact ⟨hc 0, hc 1, hc 2⟩

/-- Conduction, resistivity and viscosity leave a uniform state as it is. -/
theorem latDiff_const (w : Which) (p : DiffQ ns) (c : Fld → ℝ) (hc : ∀ t, c (.cell (.Bc t)) = c (.face t)) :
    latDiff w p (constSt ns c) = constSt ns c := by
  have e1 : latCond w p.q (constSt ns c) = constSt ns c := diff1_const w ⟨true, false, false, p.q⟩ c hc (Or.inl ⟨rfl, rfl, rfl⟩)
  have e2 : latRes w p.q (lEta p.q (constSt ns c)) (constSt ns c) = constSt ns c :=
    diff1_const w ⟨false, true, false, p.q⟩ c hc (Or.inr (Or.inl ⟨rfl, rfl, rfl⟩))
  have e3 : latVisc w p.q (constSt ns c) = constSt ns c := diff1_const w ⟨false, false, true, p.q⟩ c hc (Or.inr (Or.inr ⟨rfl, rfl, rfl⟩))
  simp only [latDiff, e1, e2, e3, ite_self]

/-- **C69.** The same with explicit conduction, resistivity and viscosity in any combination: a uniform state stays exactly as it is. -/
theorem run_uniform_diffusion (M : Funs ℝ ns) (hM : M.Local) (K : Gen.Kind) (Nx : Fin 3 → ℕ) (big : Bool) (w : Which)
    (hI : integrateInit K Nx big = .ok (some w)) (x : ℕ → Step ℝ ⊕ DiffQ ns) {ng : ℕ} (hng : 4 ≤ ng) (Ds : List Dom)
    (D : Dom) (hDs : D ∈ Ds) (hD : Regular (cfg ng ns) D) (hN : ∀ t, 1 < Nx t ↔ 1 < tot D t)
    (c : Fld → ℝ) (hc : ∀ t, c (.cell (.Bc t)) = c (.face t)) (hF : ∀ t, Fits (D.bcIn t) t c ∧ Fits (D.bcOut t) t c)
    (o : ℕ → Fin 3 → Coord → Bool) (J : ℕ → Coord → Works ℝ ns × WorkD) (s : ℕ → Coord → Grid ℝ)
    (hs : IsRun (cycle M K w) x ng (bufSize (cfg ng ns) Ds) D o J s) (Gi : Grid ℝ)
    (hst : Start (cfg ng ns) (bufSize (cfg ng ns) Ds) D Gi (s 0)) (h0 : UniformA ng ns c Gi) (n : ℕ) (C : Coord) (hC : D.Has C) (f : Fld)
    (hf : f.In (cfg ng ns)) (y : Idx) (hy : Stored (cfg ng ns) (D.gnx C) f y) : f.val (s n C) y = c f :=
  uniform_run (cycle_lattice M hM K w) x
    (fun n => by
      show latCycle M K w (x n) (constSt ns c) = _
      cases x n with
      | inl q => exact latt_const M hM K w q c hc
      | inr p => exact latDiff_const w p c hc)
    hng Ds D hDs hD (init_hasDim hI hDs hD hN) hF o J s hs Gi hst h0 n C hC f hf y hy

/-! ### All hypotheses together -/

/-- A flow along x1 with a field along it. -/
def exC : Fld → ℝ
  | .cell .d => 2
  | .cell (.M n) => if n = 0 then 3 else 0
  | .cell .E => 9
  | .cell (.Bc n) => if n = 0 then 1 else 0
  | .cell (.s _) => 5
  | .face n => if n = 0 then 1 else 0

/-- Nine zones in x1 on two Grids with outflow on the right; walls in the other directions. -/
def exDu (w : Which) : Dom where
  NG := (exD w).NG
  nx := (exD w).nx
  bcIn := fun t => if t = 0 then .outflow else .reflect
  bcOut := fun t => if t = 0 then .outflow else .reflect

theorem exDu_regular (w : Which) : Regular (cfg 4 1) (exDu w) where
  dims := (exD_regular w).dims
  split := (exD_regular w).split
  kin t := by simp only [exDu]; split_ifs <;> decide
  kout t := by simp only [exDu]; split_ifs <;> decide
  per t hN := by
    simp only [exDu]

theorem exDu_tot (w : Which) : tot (exDu w) = tot (exD w) := by
  funext t
  cases w <;> rcases three t with rfl | rfl | rfl <;> decide

/-- Outflow in x1 and reflecting walls in x2 and x3: all hypotheses of `run_uniform_diffusion` (and, with integration steps only, of `run_uniform`)
hold together. -/
example (K : Gen.Kind) (w : Which) : ∃ (s : ℕ → Coord → Grid ℝ) (J : ℕ → Coord → Works ℝ 1 × WorkD),
    IsRun (cycle exF K w) (fun n => if n % 2 = 0 then .inr exP else .inl ⟨1/10, 1, 2, 3⟩) 4 (bufSize (cfg 4 1) [exDu w]) (exDu w)
      (fun _ _ _ => false) J s ∧ (∀ t, Fits ((exDu w).bcIn t) t exC ∧ Fits ((exDu w).bcOut t) t exC) ∧
    ∀ n, (s n (fun _ => 0)).U (fun t => if t = 0 then 3 else 0) (.M 0) = 3 := by
  have c0 : (exDu w).Has (fun _ => 0) := by intro t; simp only [exDu, exD]; split_ifs <;> omega
  have hR := exDu_regular w
  have hm : exDu w ∈ [exDu w] := List.mem_singleton.2 rfl
  obtain ⟨s, hst, hr⟩ := runs_exist (ng := 4) (cycle exF K w) (fun n => if n % 2 = 0 then .inr exP else .inl ⟨1/10, 1, 2, 3⟩) hm hR ⟨_, c0⟩
    (fun _ _ _ => false) (fun _ _ => default) ⟨tot (exDu w), fun _ v => exC (.cell v), fun n _ => exC (.face n)⟩ rfl
  have hF : ∀ t, Fits ((exDu w).bcIn t) t exC ∧ Fits ((exDu w).bcOut t) t exC := by
    intro t
    rcases three t with rfl | rfl | rfl
    · refine ⟨⟨fun h => by simp [exDu] at h, fun h => by simp [exDu] at h⟩, ⟨fun h => by simp [exDu] at h, fun h => by simp [exDu] at h⟩⟩
    all_goals refine ⟨⟨fun _ => by simp [exC], fun h => by simp [exDu] at h⟩, ⟨fun _ => by simp [exC], fun h => by simp [exDu] at h⟩⟩
  refine ⟨s, _, hr, hF, fun n => ?_⟩
  refine (run_uniform_diffusion exF exF_local K _ false w (exD_init K w) _ (by omega) [exDu w] (exDu w) hm hR (fun t => by rw [exDu_tot]) exC (fun t => rfl) hF _ _ s hr _
    hst (fun f _ y _ => by cases f <;> rfl) n (fun _ => 0) c0 (.cell (.M 0)) (by simp [Fld.In, vars]) (fun t => if t = 0 then 3 else 0) ?_).trans rfl
  intro t
  cases w <;> rcases three t with rfl | rfl | rfl <;> decide

end Athena.Micro
