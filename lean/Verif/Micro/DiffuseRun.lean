import Verif.Micro.Diffuse
import Verif.Integr.Ex
import Verif.Integr.Sym

/-!
# Runs of the program with explicit diffusion

One step of the run is either a call of the integrator or a call of the diffusion operators, each followed by `bvals_mhd`.
-/

namespace Athena.Micro
open Athena.Bvals hiding Rng
open Athena.Vl3 Athena.Gen

section Runs
variable {ns : ℕ} (M : Funs ℝ ns) (hM : M.Local) (K : Gen.Kind) (Nx : Fin 3 → ℕ) (big : Bool) (w : Which)
  (hI : integrateInit K Nx big = .ok (some w)) (x : ℕ → Step ℝ ⊕ DiffQ ns) {ng : ℕ} (hng : 4 ≤ ng)
  (Ds : List Dom) (D : Dom) (hDs : D ∈ Ds) (hD : Regular (cfg ng ns) D) (hN : ∀ t, 1 < Nx t ↔ 1 < tot D t)
include hM hI hng hDs hD hN

/-- A run with thermal conduction, resistivity and viscosity, in any combination, has the same result on every division of the Domain
into Grids. -/
theorem run_decomposed_diffusion
    (o o' : ℕ → Fin 3 → Coord → Bool) (J : ℕ → Coord → Works ℝ ns × WorkD) (J' : ℕ → Works ℝ ns × WorkD) (s : ℕ → Coord → Grid ℝ)
    (G : ℕ → Grid ℝ)
    (hs : IsRun (cycle M K w) x ng (bufSize (cfg ng ns) Ds) D o J s)
    (hG : IsRun (cycle M K w) x ng 0 (single D) o' (fun n _ => J' n) (fun n _ => G n))
    (hsn : ∀ C, D.Has C → (s 0 C).nx = D.gnx C) (hGn : (G 0).nx = tot D)
    (h0 : ∀ C, D.Has C → ∀ f : Fld, f.In (cfg ng ns) → ∀ y, Stored (cfg ng ns) (D.gnx C) f y →
      f.val (s 0 C) y = f.val (G 0) (gl D C y)) :
    ∀ n C, D.Has C → ∀ f : Fld, f.In (cfg ng ns) → ∀ y, Stored (cfg ng ns) (D.gnx C) f y →
      f.val (s n C) y = f.val (G n) (gl D C y) :=
  decomposed_run (cycle_lattice M hM K w) x hng Ds D hDs hD (init_hasDim hI hDs hD hN) o o' J J' s G hs hG hsn hGn h0

/-- On a periodic Domain a run with thermal conduction, resistivity and viscosity conserves what a run without them conserves. -/
theorem run_conserves_diffusion (hP : AllPeriodic (dims w) D)
    (o : ℕ → Fin 3 → Coord → Bool) (J : ℕ → Coord → Works ℝ ns × WorkD) (s : ℕ → Coord → Grid ℝ)
    (hs : IsRun (cycle M K w) x ng (bufSize (cfg ng ns) Ds) D o J s) (Gi : Grid ℝ)
    (hst : Start (cfg ng ns) (bufSize (cfg ng ns) Ds) D Gi (s 0)) (hcl : Closed (cfg ng ns) Gi) (f : Fld) (hf : Kept (dims w) ns f) (n : ℕ) :
    domTotal (cfg ng ns) D (s n) f = domTotal (cfg ng ns) D (s 0) f :=
  conserved_run (cycle_lattice M hM K w) x
    (fun n => by
      cases x n with
      | inl q => exact latt_conserves M K w q
      | inr p => exact latDiff_conserves w p)
    hng Ds D hDs hD (init_hasDim hI hDs hD hN) hP o J s hs Gi hst hcl f hf n

/-- On a Domain without reflecting boundaries neither the integrator nor resistivity changes the divergence of the field of any zone. -/
theorem run_divB_diffusion (dx : Fin 3 → ℝ)
    (hx : ∀ n, match x n with
      | .inl q => q.dx1 = dx 0 ∧ q.dx2 = dx 1 ∧ q.dx3 = dx 2
      | .inr p => p.q.dx1 = dx 0 ∧ p.q.dx2 = dx 1 ∧ p.q.dx3 = dx 2)
    (hR : ∀ t, dims w t = true → D.bcIn t ≠ .reflect ∧ D.bcOut t ≠ .reflect)
    (o : ℕ → Fin 3 → Coord → Bool) (J : ℕ → Coord → Works ℝ ns × WorkD) (s : ℕ → Coord → Grid ℝ)
    (hs : IsRun (cycle M K w) x ng (bufSize (cfg ng ns) Ds) D o J s) (Gi : Grid ℝ)
    (hst : Start (cfg ng ns) (bufSize (cfg ng ns) Ds) D Gi (s 0)) (n : ℕ) (C : Coord) (hC : D.Has C) (y : Idx)
    (hy : ∀ t, lo (cfg ng ns) (D.gnx C) t ≤ y t ∧ y t ≤ hi (cfg ng ns) (D.gnx C) t) :
    Gen.gdivB dx (s n C) y = Gen.gdivB dx (s 0 C) y := by
  refine divB_run (cycle_lattice M hM K w) x dx (fun n => ?_) hng Ds D hDs hD (init_hasDim hI hDs hD hN) hR o J s hs Gi hst n C hC y hy
  have h := hx n
  cases hq : x n with
  | inl q =>
    rw [hq] at h
    obtain ⟨dt, d1, d2, d3⟩ := q
    obtain ⟨rfl, rfl, rfl⟩ := h
    intro g S W k j i hg h1 h2 h3 h4 h5 h6
    exact integ_divB M K w dt dx g S W.1 k j i hg h1 h2 h3 h4 h5 h6
  | inr p =>
    rw [hq] at h
    intro g S W k j i hg h1 h2 h3 h4 h5 h6
    exact diffuse_divB w p h g S W.2 k j i hg h1 h2 h3 h4 h5 h6

/-- Twice the energy of the evolved magnetic field in the active zones of the Domain (per unit volume of a zone): the interface field
along the directions of the Domain, the zone-centred field along the others. -/
def magEnergy (c : Cfg) (A : Fin 3 → Bool) (D : Dom) (s : Coord → Grid ℝ) : ℝ :=
  domSum c D s (fun v => ∑ t : Fin 3, v (bfld A t) ^ 2)

omit hM hI hng hDs hD hN in
theorem latDiff_mag (p : DiffQ ns) (N : Fin 3 → ℕ) (is js ks : ℤ) (L : St ℝ ns) :
    magSum (dims w) N is js ks (latDiff w p L) =
      if p.res then magSum (dims w) N is js ks (latRes w p.q (lEta p.q L) (if p.cond then latCond w p.q L else L))
      else magSum (dims w) N is js ks L := by
  obtain ⟨c, r, v, q⟩ := p
  cases w <;> cases c <;> cases r <;> cases v <;> rfl

omit hM hI hng hDs hD hN in
theorem latCond_mag (q : Diff ns) (N : Fin 3 → ℕ) (is js ks : ℤ) (L : St ℝ ns) :
    magSum (dims w) N is js ks (latCond w q L) = magSum (dims w) N is js ks L := by
  cases w <;> rfl

omit hM hI hng hDs hD hN in
theorem bfld_in (t : Fin 3) : (bfld (dims w) t).In (cfg ng ns) := by
  unfold bfld
  split_ifs
  · trivial
  · rcases three t with rfl | rfl | rfl <;> simp [Fld.In, vars, cfg]

/-- On a periodic Domain divided into Grids in any way: a diffusion step whose `dt` obeys the limit of `new_dt_diff` for the diffusivities
of the zones never increases the energy of the magnetic field of the Domain: Ohmic diffusion in any number of
dimensions, Ohmic and ambipolar in one, whatever the state reached, whatever the function `get_eta` uses, and with conduction and viscosity or
without. -/
theorem run_ohm_decays (hne : ∃ C, D.Has C) (hP : AllPeriodic (dims w) D)
    (o : ℕ → Fin 3 → Coord → Bool) (J : ℕ → Coord → Works ℝ ns × WorkD) (s : ℕ → Coord → Grid ℝ)
    (hs : IsRun (cycle M K w) x ng (bufSize (cfg ng ns) Ds) D o J s) (Gi : Grid ℝ)
    (hst : Start (cfg ng ns) (bufSize (cfg ng ns) Ds) D Gi (s 0)) (hcl : Closed (cfg ng ns) Gi)
    (n : ℕ) (p : DiffQ ns) (hp : x n = .inr p) (ht : 0 < p.q.tiny) (hAD : p.q.qAD ≤ 0 ∨ w = .d1)
    (h1 : 0 < p.q.dx1) (h2 : 0 < p.q.dx2) (h3 : 0 < p.q.dx3) (hdt : 0 ≤ p.q.dt) {em cour : ℝ} (hc0 : 0 ≤ cour) (hc : cour ≤ 1)
    (hem : ∀ C, D.Has C → ∀ y : Idx, (∀ t, lo (cfg ng ns) (D.gnx C) t ≤ y t ∧ y t ≤ hi (cfg ng ns) (D.gnx C) t) →
      let e := p.q.eta ((toSt ns (s n C)).U (y 2) (y 1) (y 0))
      0 ≤ e.1 ∧ 0 ≤ e.2.2 ∧ e.1 + e.2.2 ≤ em)
    (hdt' : em * p.q.dt ≤ cour * qa w p.q) :
    magEnergy (cfg ng ns) (dims w) D (s (n+1)) ≤ magEnergy (cfg ng ns) (dims w) D (s n) := by
  have hA := init_hasDim hI hDs hD hN
  have hok := hD.ok hDs
  obtain ⟨L, hL, hstep, hnx, hval, hag⟩ := lattice_run (cycle_lattice M hM K w) x hng Ds D hDs hD hne hA hP o J s hs Gi hst hcl
  have heq : ∀ m, magEnergy (cfg ng ns) (dims w) D (s m) = magSum (dims w) (tot D) (lo (cfg ng ns) (tot D) 0) (lo (cfg ng ns) (tot D) 1)
      (lo (cfg ng ns) (tot D) 2) (L m) := by
    intro m
    unfold magEnergy magSum
    have := domSum_eq (L := L m) (s := s m) (by omega) hok hA (hnx m) (fun C hC f hf y hy g =>
      hval m C hC f hf y (Gen.active_stored (hA C hC) (by show 1 ≤ ng; omega) hy) g)
      (φ := fun v => ∑ t : Fin 3, v (bfld (dims w) t) ^ 2) (ψ := fun v => ∑ t : Fin 3, v (bfld (dims w) t) ^ 2) (by
        intro v v' hv
        refine Finset.sum_congr rfl fun t _ => ?_
        rw [hv _ (bfld_in w t)])
    exact this
  rw [heq, heq, hstep, hp]
  show magSum _ _ _ _ _ (latDiff w p (L n)) ≤ _
  rw [latDiff_mag]
  by_cases hr : p.res = true
  · rw [if_pos hr]
    have he : EtaLe (lEta p.q (L n)) em := by
      intro k j i
      obtain ⟨C, hC, y, hy, e⟩ := zone_of hok hA hne (hL n) k j i
      have ag := agreeA (A := dims w) (by rw [hnx n C hC]; exact hA C hC) (hag n C hC)
      have key : (toSt ns (s n C)).U (y 2) (y 1) (y 0) = (L n).U k j i := by
        rw [e]
        have w0 : ∀ t, 0 ≤ wid (dims w t) ng := fun t => by unfold wid; split_ifs <;> omega
        have eg : ((cfg ng ns).ng : ℤ) = ng := rfl
        have a2 := hy 2; have a1 := hy 1; have a0 := hy 0
        have := w0 0; have := w0 1; have := w0 2
        refine ag.U (y 2) (y 1) (y 0) ?_ ?_ ?_ ?_ ?_ ?_ <;> simp only [rngOf, hnx n C hC, eg] <;> omega
      have := hem C hC y hy
      rw [key] at this
      exact this
    have hL1 : Periodic (tot D) (if p.cond then latCond w p.q (L n) else L n) := by
      split_ifs
      · intro m; rw [latCond_shift, hL n m]
      · exact hL n
    refine (latRes_decays hL1 (lEta_per (hL n) p.q) ht hAD he h1 h2 h3 hdt hc0 hc hdt' _ _ _).trans (le_of_eq ?_)
    by_cases hc : p.cond = true
    · rw [if_pos hc]
      exact latCond_mag w _ _ _ _ _ _
    · rw [if_neg hc]
  · rw [if_neg hr]

end Runs

/-! ### All hypotheses together -/

/-- All three operators, Ohmic diffusivity 1/100. -/
noncomputable def exP : DiffQ 1 where
  cond := true
  res := true
  visc := true
  q := ⟨1/10, 1, 2, 3, 1/100, 1/100, 2/3, 1/10^20, 1/100, 1/100, 0, 0, fun _ => (1/100, 0, 0)⟩

deriving instance Inhabited for V3
deriving instance Inhabited for VF
deriving instance Inhabited for WorkC
deriving instance Inhabited for WorkR
deriving instance Inhabited for WorkV
deriving instance Inhabited for WorkD

/-- Diffusion and integration in turn, on a periodic Domain of two Grids, for every integrator and dimension: every diffusion
step meets the hypotheses of `run_ohm_decays`, and every step those of the other theorems. -/
example (K : Gen.Kind) (w : Which) : ∃ (s : ℕ → Coord → Grid ℝ) (J : ℕ → Coord → Works ℝ 1 × WorkD),
    IsRun (cycle exF K w) (fun n => if n % 2 = 0 then .inr exP else .inl ⟨1/10, 1, 2, 3⟩) 4 (bufSize (cfg 4 1) [exD w]) (exD w)
      (fun _ _ _ => false) J s ∧
    (∀ n, magEnergy (cfg 4 1) (dims w) (exD w) (s (2 * n + 1)) ≤ magEnergy (cfg 4 1) (dims w) (exD w) (s (2 * n))) ∧
    (∀ n, domTotal (cfg 4 1) (exD w) (s n) (.cell .E) = domTotal (cfg 4 1) (exD w) (s 0) (.cell .E)) ∧
    ∀ n C, (exD w).Has C → ∀ y, (∀ t, lo (cfg 4 1) ((exD w).gnx C) t ≤ y t ∧ y t ≤ hi (cfg 4 1) ((exD w).gnx C) t) →
      Gen.gdivB (fun t => (t.val : ℝ) + 1) (s n C) y = Gen.gdivB (fun t => (t.val : ℝ) + 1) (s 0 C) y := by
  have hne : ∃ C, (exD w).Has C := ⟨fun _ => 0, by intro t; simp only [exD]; split_ifs <;> omega⟩
  have hR := exD_regular w
  have hm : exD w ∈ [exD w] := List.mem_singleton.2 rfl
  obtain ⟨s, hst, hr⟩ := runs_exist (ng := 4) (cycle exF K w) (fun n => if n % 2 = 0 then .inr exP else .inl ⟨1/10, 1, 2, 3⟩) hm hR hne
    (fun _ _ _ => false) (fun _ _ => default) (Gen.exG2 w) rfl
  have hcl : Closed (cfg 4 1) (Gen.exG2 w) := fun t y _ _ => rfl
  have hP : AllPeriodic (dims w) (exD w) := fun t _ => ⟨rfl, rfl⟩
  refine ⟨s, _, hr, fun n => ?_, fun n => ?_, fun n C hC y hy => ?_⟩
  · refine run_ohm_decays exF exF_local K _ false w (exD_init K w) _ (by omega) [exD w] (exD w) hm hR (fun _ => Iff.rfl) hne hP _ _ s hr _ hst hcl
      (2 * n) exP (by rw [if_pos (by omega)]) (by norm_num [exP]) (Or.inl (by norm_num [exP])) (by norm_num [exP]) (by norm_num [exP]) (by norm_num [exP])
      (by norm_num [exP]) (em := 1/100) (cour := 1/2) (by norm_num) (by norm_num) ?_ ?_
    · intro C hC y hy
      norm_num [exP]
    · cases w <;> norm_num [exP, qa]
  · exact run_conserves_diffusion exF exF_local K _ false w (exD_init K w) _ (by omega) [exD w] (exD w) hm hR (fun _ => Iff.rfl) hP _ _ s hr _ hst hcl
      (.cell .E) trivial n
  · refine run_divB_diffusion exF exF_local K _ false w (exD_init K w) _ (by omega) [exD w] (exD w) hm hR (fun _ => Iff.rfl) _ ?_
      (fun t _ => ⟨by simp [exD], by simp [exD]⟩) _ _ s hr _ hst n C hC y hy
    intro n
    by_cases h : n % 2 = 0
    · simp only [if_pos h]; norm_num [exP]
    · simp only [if_neg h]; norm_num

end Athena.Micro
