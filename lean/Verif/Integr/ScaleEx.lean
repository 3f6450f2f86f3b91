import Verif.Integr.ScaleCode
import Verif.Recon.Ex

/-!
# C130, C131: runs of the code in other units and with the field reversed; where they are not the same
-/

namespace Athena.Gen
open Athena.Bvals hiding Rng
open Athena.Vl3
open Athena.Recon (Order)
open Athena.Hydro (Phys FloorOk)

noncomputable section
variable {ns : ℕ} (p : Phys) (cf : Recon.Cfg) (dMin : ℝ)

/-- **C130.** `run_units_partial` for the HLLE solver, with and without magnetic field: the second run has the speed of sound and the density floor
in its own units.  Partial: not for the compact third-order reconstruction (`compact_units_false`); and for an adiabatic gas the floor `TINY_NUMBER`
of the pressure would have to be given in units, too (`FloorOk`, `floor_units_false`).  For an isothermal gas there is no further condition. -/
theorem code_run_units_partial {a v x tiny : ℝ} (ha : 0 < a) (hv : 0 < v) (hx : 0 < x) {ord : Order} (hord : ord.NotCompact)
    (ht : FloorOk p a v tiny) (K : Kind) (w : Which) (q : ℕ → Step ℝ) {ng : ℕ} (hng : 4 ≤ ng)
    (Ds Ds' : List Dom) (D D' : Dom) (hDs : D ∈ Ds) (hDs' : D' ∈ Ds') (hD : Regular (cfg ng ns) D) (hD' : Regular (cfg ng ns) D')
    (hw : integrateInit K (tot D) false = .ok (some w)) (hDD : AlikeDomain D D')
    (o o' : ℕ → Fin 3 → Coord → Bool) (J J' : ℕ → Coord → Works ℝ ns) (s s' : ℕ → Coord → Grid ℝ)
    (hs : IsRun (integ (codeFuns ns p ord cf dMin) K w) q ng (bufSize (cfg ng ns) Ds) D o J s)
    (hs' : IsRun (integ (codeFuns ns (p.un v tiny) ord cf (a * a * dMin)) K w) (fun n => (q n).un v x) ng (bufSize (cfg ng ns) Ds') D' o' J' s')
    (Gi Gi' : Grid ℝ) (hst : Start (cfg ng ns) (bufSize (cfg ng ns) Ds) D Gi (s 0))
    (hst' : Start (cfg ng ns) (bufSize (cfg ng ns) Ds') D' Gi' (s' 0))
    (h0 : ∀ f : Fld, f.In (cfg ng ns) → ∀ y, Active (cfg ng ns) (tot D) f y → f.val Gi' y = unFac a v f * f.val Gi y)
    (n : ℕ) (C C' : Coord) (hC : D.Has C) (hC' : D'.Has C') (f : Fld) (hf : f.In (cfg ng ns)) (y y' : Idx)
    (hy : Stored (cfg ng ns) (D.gnx C) f y) (hy' : Stored (cfg ng ns) (D'.gnx C') f y') (hyy : gl D C y = gl D' C' y') :
    f.val (s' n C') y' = unFac a v f * f.val (s n C) y :=
  run_units_partial ha.ne' hv hx _ _ (code_local _ ord cf _) (code_local _ ord cf _) (code_units ns cf dMin hord ha hv hx ht) K w q hng Ds Ds' D D'
    hDs hDs' hD hD' hw hDD o o' J J' s s' hs hs' Gi Gi' hst hst' h0 n C C' hC hC' f hf y y' hy hy' hyy

/-- What reversing the magnetic field does to the values of a field. -/
def revSgn : Fld → ℝ
  | .cell (.Bc _) => -1
  | .face _ => -1
  | _ => 1

theorem unFac_rev (f : Fld) : unFac (-1) 1 f = revSgn f := by
  cases f with
  | face _ => simp [unFac, revSgn]
  | cell w => cases w <;> simp [unFac, revSgn]

/-- **C131.** Two runs of the same configuration (HLLE solver, any equation of state, any reconstruction, any integrator) with the same time steps,
whose initial data differ in the sign of the magnetic field alone: after any number of cycles every zone and face of every Grid, ghost zones
included, differs in the sign of the magnetic field alone.  Partial: the time steps are given to be the same (`dt_reverse_false`). -/
theorem code_run_reverse_partial (ord : Order) (K : Kind) (w : Which) (q : ℕ → Step ℝ) {ng : ℕ} (hng : 4 ≤ ng)
    (Ds Ds' : List Dom) (D D' : Dom) (hDs : D ∈ Ds) (hDs' : D' ∈ Ds') (hD : Regular (cfg ng ns) D) (hD' : Regular (cfg ng ns) D')
    (hw : integrateInit K (tot D) false = .ok (some w)) (hDD : AlikeDomain D D')
    (o o' : ℕ → Fin 3 → Coord → Bool) (J J' : ℕ → Coord → Works ℝ ns) (s s' : ℕ → Coord → Grid ℝ)
    (hs : IsRun (integ (codeFuns ns p ord cf dMin) K w) q ng (bufSize (cfg ng ns) Ds) D o J s)
    (hs' : IsRun (integ (codeFuns ns p ord cf dMin) K w) q ng (bufSize (cfg ng ns) Ds') D' o' J' s')
    (Gi Gi' : Grid ℝ) (hst : Start (cfg ng ns) (bufSize (cfg ng ns) Ds) D Gi (s 0))
    (hst' : Start (cfg ng ns) (bufSize (cfg ng ns) Ds') D' Gi' (s' 0))
    (h0 : ∀ f : Fld, f.In (cfg ng ns) → ∀ y, Active (cfg ng ns) (tot D) f y → f.val Gi' y = revSgn f * f.val Gi y)
    (n : ℕ) (C C' : Coord) (hC : D.Has C) (hC' : D'.Has C') (f : Fld) (hf : f.In (cfg ng ns)) (y y' : Idx)
    (hy : Stored (cfg ng ns) (D.gnx C) f y) (hy' : Stored (cfg ng ns) (D'.gnx C') f y') (hyy : gl D C y = gl D' C' y') :
    f.val (s' n C') y' = revSgn f * f.val (s n C) y := by
  have hq : (fun n => (q n).un 1 1) = q := by funext n; cases q n; simp [Step.un]
  have := run_units_partial (a := -1) (v := 1) (x := 1) (by norm_num) one_pos one_pos _ _ (code_local p ord cf dMin) (code_local p ord cf dMin)
    (code_reverse ns p ord cf dMin) K w q hng Ds Ds' D D' hDs hDs' hD hD' hw hDD o o' J J' s s' hs (by rw [hq]; exact hs') Gi Gi' hst hst'
    (fun f hf y hy => by rw [unFac_rev]; exact h0 f hf y hy) n C C' hC hC' f hf y y' hy hy' hyy
  rwa [unFac_rev] at this

/-! ## Instances -/

/-- The contents of `G` in other units. -/
def unGrid (a v : ℝ) (G : Grid ℝ) : Grid ℝ where
  nx := G.nx
  U := fun y w => unFac a v (.cell w) * G.U y w
  Bi := fun n y => unFac a v (.face n) * G.Bi n y

theorem unGrid_val (a v : ℝ) (G : Grid ℝ) (f : Fld) (y : Idx) : f.val (unGrid a v G) y = unFac a v f * f.val G y := by
  cases f <;> rfl

/-- Runs, for every integrator and dimension, that satisfy the hypotheses of `code_run_units_partial`: piecewise parabolic reconstruction,
isothermal magnetohydrodynamics, different walls at the two ends, a state that differs from zone to zone; the units of density, speed and
length are 1/4, 1/1000 and 1/10 of the old ones.  So the conclusion holds for them. -/
example (K : Kind) (w : Which) : ∃ (s s' : ℕ → Coord → Grid ℝ) (J : ℕ → Coord → Works ℝ 1),
    IsRun (integ (codeFuns 1 ⟨true, true, 0, 1, 1/100⟩ .ppm cf (1/1000)) K w) (fun _ => ⟨0.1, 1, 2, 3⟩) 4 (bufSize (cfg 4 1) [exDm w false]) (exDm w false)
      (fun _ _ _ => false) J s ∧
    IsRun (integ (codeFuns 1 (Phys.un ⟨true, true, 0, 1, 1/100⟩ 1000 (1/100)) .ppm cf (2 * 2 * (1/1000))) K w) (fun _ => Step.un 1000 10 ⟨0.1, 1, 2, 3⟩) 4
      (bufSize (cfg 4 1) [exDm w false]) (exDm w false) (fun _ _ _ => true) J s' ∧
    Start (cfg 4 1) (bufSize (cfg 4 1) [exDm w false]) (exDm w false) ⟨tot (exDm w false), (exG2 w).U, (exG2 w).Bi⟩ (s 0) ∧
    (∀ n, (s' n (fun _ => 0)).U (mkIdx 5 0 0) (.M 0) = 4000 * (s n (fun _ => 0)).U (mkIdx 5 0 0) (.M 0)) := by
  have hm : exDm w false ∈ [exDm w false] := List.mem_singleton.2 rfl
  let J : ℕ → Coord → Works ℝ 1 := fun _ _ => default
  let Gi : Grid ℝ := ⟨tot (exDm w false), (exG2 w).U, (exG2 w).Bi⟩
  obtain ⟨s, hst, hr⟩ := runs_exist (integ (codeFuns 1 ⟨true, true, 0, 1, 1/100⟩ .ppm cf (1/1000)) K w) (fun _ => ⟨0.1, 1, 2, 3⟩) hm (exDm_regular w false)
    ⟨_, has_exDm w false⟩ (fun _ _ _ => false) J Gi rfl
  obtain ⟨s', hst', hr'⟩ := runs_exist (integ (codeFuns 1 (Phys.un ⟨true, true, 0, 1, 1/100⟩ 1000 (1/100)) .ppm cf (2 * 2 * (1/1000))) K w)
    (fun _ => Step.un 1000 10 ⟨0.1, 1, 2, 3⟩) hm (exDm_regular w false) ⟨_, has_exDm w false⟩ (fun _ _ _ => true) J (unGrid 2 1000 Gi) rfl
  refine ⟨s, s', J, hr, hr', hst, fun n => ?_⟩
  have := code_run_units_partial ⟨true, true, 0, 1, 1/100⟩ cf (1/1000) (a := 2) (v := 1000) (x := 10) (by norm_num) (by norm_num) (by norm_num)
    (ord := .ppm) trivial (Or.inl rfl) K w (fun _ => ⟨0.1, 1, 2, 3⟩) (by omega) _ _ _ _ hm hm (exDm_regular w false) (exDm_regular w false) (exDm_init K w false)
    ⟨rfl, rfl, rfl⟩ _ _ J J s s' hr hr' Gi _ hst hst' (fun f _ y _ => unGrid_val _ _ _ _ _) n (fun _ => 0) (fun _ => 0) (has_exDm _ _) (has_exDm _ _)
    (.cell (.M 0)) (by simp [Fld.In, vars]) (mkIdx 5 0 0) (mkIdx 5 0 0)
    (by intro t; cases w <;> rcases three t with rfl | rfl | rfl <;> decide) (by intro t; cases w <;> rcases three t with rfl | rfl | rfl <;> decide) rfl
  simp only [Fld.val, unFac] at this
  rw [this]; norm_num

/-- The same for `code_run_reverse_partial`: adiabatic magnetohydrodynamics, third-order compact reconstruction. -/
example (K : Kind) (w : Which) : ∃ (s s' : ℕ → Coord → Grid ℝ) (J : ℕ → Coord → Works ℝ 1),
    IsRun (integ (codeFuns 1 ⟨false, true, 5/3, 0, 1/100⟩ (.p3c true) cf (1/1000)) K w) (fun _ => ⟨0.1, 1, 2, 3⟩) 4 (bufSize (cfg 4 1) [exDm w false])
      (exDm w false) (fun _ _ _ => false) J s ∧
    IsRun (integ (codeFuns 1 ⟨false, true, 5/3, 0, 1/100⟩ (.p3c true) cf (1/1000)) K w) (fun _ => ⟨0.1, 1, 2, 3⟩) 4 (bufSize (cfg 4 1) [exDm w false])
      (exDm w false) (fun _ _ _ => true) J s' ∧
    Start (cfg 4 1) (bufSize (cfg 4 1) [exDm w false]) (exDm w false) ⟨tot (exDm w false), (exG2 w).U, (exG2 w).Bi⟩ (s 0) ∧
    (∀ n, (s' n (fun _ => 0)).U (mkIdx 5 0 0) (.Bc 1) = -(s n (fun _ => 0)).U (mkIdx 5 0 0) (.Bc 1)) := by
  have hm : exDm w false ∈ [exDm w false] := List.mem_singleton.2 rfl
  let J : ℕ → Coord → Works ℝ 1 := fun _ _ => default
  let Gi : Grid ℝ := ⟨tot (exDm w false), (exG2 w).U, (exG2 w).Bi⟩
  obtain ⟨s, hst, hr⟩ := runs_exist (integ (codeFuns 1 ⟨false, true, 5/3, 0, 1/100⟩ (.p3c true) cf (1/1000)) K w) (fun _ => ⟨0.1, 1, 2, 3⟩) hm
    (exDm_regular w false) ⟨_, has_exDm w false⟩ (fun _ _ _ => false) J Gi rfl
  obtain ⟨s', hst', hr'⟩ := runs_exist (integ (codeFuns 1 ⟨false, true, 5/3, 0, 1/100⟩ (.p3c true) cf (1/1000)) K w) (fun _ => ⟨0.1, 1, 2, 3⟩) hm
    (exDm_regular w false) ⟨_, has_exDm w false⟩ (fun _ _ _ => true) J (unGrid (-1) 1 Gi) rfl
  refine ⟨s, s', J, hr, hr', hst, fun n => ?_⟩
  have := code_run_reverse_partial ⟨false, true, 5/3, 0, 1/100⟩ cf (1/1000) (.p3c true) K w (fun _ => ⟨0.1, 1, 2, 3⟩) (by omega) _ _ _ _ hm hm
    (exDm_regular w false) (exDm_regular w false) (exDm_init K w false)
    ⟨rfl, rfl, rfl⟩ _ _ J J s s' hr hr' Gi _ hst hst' (fun f _ y _ => by rw [unGrid_val, unFac_rev]) n (fun _ => 0) (fun _ => 0) (has_exDm _ _) (has_exDm _ _)
    (.cell (.Bc 1)) (by simp [Fld.In, vars, cfg]) (mkIdx 5 0 0) (mkIdx 5 0 0)
    (by intro t; cases w <;> rcases three t with rfl | rfl | rfl <;> decide) (by intro t; cases w <;> rcases three t with rfl | rfl | rfl <;> decide) rfl
  simpa [Fld.val, revSgn] using this

/-! ## What does depend on the units -/

/-- **C130** fails for the compact reconstruction with the LimO3 limiter: the states at an interface depend on the unit of length alone (densities
1, 1, 2: with zones of size 1 the state to the left is 1, with zones of size 20 it is 4/3). -/
theorem compact_units_false : ¬ ∀ (p : Phys) (cf : Recon.Cfg) (dt dx x : ℝ) (w : ℤ → Prim1 ℝ 0) (b : ℤ → ℝ), 0 < x →
    lrCode p (.p3c true) cf (x * dt) (x * dx) w b = lrCode p (.p3c true) cf dt dx w b := by
  intro h
  have := congrArg (fun r => r.1.d) (h ⟨true, false, 0, 1, 0⟩ ⟨false, false⟩ 1 1 20 (fun m => ⟨if m < 0 then 1 else 2, 0, 0, 0, 0, 0, 0, fun _ => 0⟩) (fun _ => 0) (by norm_num))
  simp only [lrCode, Recon.lrAt, Prod.map, dec0] at this
  rw [(Recon.p3c_states _ _ _ _ _ _ _ (by norm_num) (by norm_num)).1, (Recon.p3c_states _ _ _ _ _ _ _ (by norm_num) (by norm_num)).1] at this
  unfold Recon.outC at this
  simp only [enc0, Sum.elim_inl, Matrix.cons_val_zero, if_true] at this
  norm_num [Recon.limO3, Recon.theta, Recon.sgn, Recon.eps, Hydro.fmin, Hydro.fmax] at this

/-- **C130** fails for an adiabatic gas with the constant `TINY_NUMBER` of the code: a cold gas has that pressure whatever the units of density are. -/
theorem floor_units_false : ¬ ∀ (p : Phys) (U : Hydro.Cons1D 0) (Bx : ℝ), 0 < p.tiny →
    Hydro.cons1DToPrim1D p (U.un 2 1) (2 * 1 * Bx) = (Hydro.cons1DToPrim1D p U Bx).map (Hydro.Prim1D.un 2 1) := by
  intro h
  have := h ⟨false, false, 2, 0, 1⟩ ⟨1, 0, 0, 0, 0, 0, 0, fun _ => 0⟩ 0 (by norm_num)
  simp [Hydro.cons1DToPrim1D, Hydro.Cons1D.un, Hydro.Prim1D.un, Hydro.fdiv, Phys.gamma1] at this
  norm_num [Hydro.fmax] at this

end
end Athena.Gen
