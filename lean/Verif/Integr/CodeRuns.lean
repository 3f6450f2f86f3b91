import Verif.Integr.CodeProps
import Verif.Integr.Wall
import Verif.Integr.MirrorEx
import Verif.Integr.Uniform

/-!
# C60, C64, C67, C68, C98: runs of the code with `--with-flux=hlle`
-/

namespace Athena.Gen
open Athena.Bvals hiding Rng
open Athena.Vl3
open Athena.Recon (Order)
open Athena.Hydro (Phys cons1DToPrim1D prim1DToCons1D)

noncomputable section
variable {ns : ℕ} (p : Phys) (ord : Order) (cf : Recon.Cfg) (dMin : ℝ)

/-- **C60.** `run_decomposed` for the HLLE solver, every equation of state and every reconstruction of the code. -/
theorem code_run_decomposed (K : Kind) (Nx : Fin 3 → ℕ)
    (big : Bool) (w : Which) (hI : integrateInit K Nx big = .ok (some w)) (q : ℕ → Step ℝ) {ng : ℕ} (hng : 4 ≤ ng) (Ds : List Dom)
    (D : Dom) (hDs : D ∈ Ds) (hD : Regular (cfg ng ns) D) (hN : ∀ t, 1 < Nx t ↔ 1 < tot D t)
    (o o' : ℕ → Fin 3 → Coord → Bool) (J : ℕ → Coord → Works ℝ ns) (J' : ℕ → Works ℝ ns) (s : ℕ → Coord → Grid ℝ) (G : ℕ → Grid ℝ)
    (hs : IsRun (integ (codeFuns ns p ord cf dMin) K w) q ng (bufSize (cfg ng ns) Ds) D o J s)
    (hG : IsRun (integ (codeFuns ns p ord cf dMin) K w) q ng 0 (single D) o' (fun n _ => J' n) (fun n _ => G n))
    (hsn : ∀ C, D.Has C → (s 0 C).nx = D.gnx C) (hGn : (G 0).nx = tot D)
    (h0 : ∀ C, D.Has C → ∀ f : Fld, f.In (cfg ng ns) → ∀ y, Stored (cfg ng ns) (D.gnx C) f y →
      f.val (s 0 C) y = f.val (G 0) (gl D C y)) :
    ∀ n C, D.Has C → ∀ f : Fld, f.In (cfg ng ns) → ∀ y, Stored (cfg ng ns) (D.gnx C) f y →
      f.val (s n C) y = f.val (G n) (gl D C y) :=
  run_decomposed _ (code_local p ord cf dMin) K Nx big w hI q hng Ds D hDs hD hN o o' J J' s G hs hG hsn hGn h0

/-- **C64.** `run_rotated` for the HLLE solver, every equation of state and every reconstruction of the code. -/
theorem code_run_rotated (K : Kind) (q : ℕ → Step ℝ) {ng : ℕ} (hng : 4 ≤ ng)
    (Ds Ds' : List Dom) (D D' : Dom) (hDs : D ∈ Ds) (hDs' : D' ∈ Ds') (hD : Regular (cfg ng ns) D) (hD' : Regular (cfg ng ns) D')
    (hdim : ∀ t, 1 < tot D t) (hDD : SameDomain D D')
    (o o' : ℕ → Fin 3 → Coord → Bool) (J J' : ℕ → Coord → Works ℝ ns) (s s' : ℕ → Coord → Grid ℝ)
    (hs : IsRun (integ (codeFuns ns p ord cf dMin) K .d3) q ng (bufSize (cfg ng ns) Ds) D o J s)
    (hs' : IsRun (integ (codeFuns ns p ord cf dMin) K .d3) (fun n => (q n).rot) ng (bufSize (cfg ng ns) Ds') D' o' J' s')
    (Gi Gi' : Grid ℝ) (hst : Start (cfg ng ns) (bufSize (cfg ng ns) Ds) D Gi (s 0))
    (hst' : Start (cfg ng ns) (bufSize (cfg ng ns) Ds') D' Gi' (s' 0))
    (h0 : ∀ f : Fld, f.In (cfg ng ns) → ∀ y, Active (cfg ng ns) (tot D') f y → f.val Gi' y = (oldFld f).val Gi (oldIdx y))
    (n : ℕ) (C C' : Coord) (hC : D.Has C) (hC' : D'.Has C') (f : Fld) (hf : f.In (cfg ng ns)) (y y' : Idx)
    (hy : Stored (cfg ng ns) (D.gnx C) (oldFld f) y) (hy' : Stored (cfg ng ns) (D'.gnx C') f y') (hyy : gl D C y = oldIdx (gl D' C' y')) :
    f.val (s' n C') y' = (oldFld f).val (s n C) y :=
  run_rotated _ (code_local p ord cf dMin) (code_isotropic p ord cf dMin) K q hng Ds Ds' D D' hDs hDs' hD hD' hdim hDD o o' J J' s s' hs hs' Gi Gi' hst hst' h0
    n C C' hC hC' f hf y y' hy hy' hyy

/-- **C67.** With the HLLE solver, every equation of state, with and without magnetic field, and every reconstruction of the code: two runs whose
initial data and boundary conditions are mirror images in direction `t` remain so.  Partial: no outflow boundary in that direction. -/
theorem code_run_mirror_partial (K : Kind) (w : Which) (q : ℕ → Step ℝ)
    {ng : ℕ} (hng : 4 ≤ ng)
    (Ds Ds' : List Dom) (D D' : Dom) (hDs : D ∈ Ds) (hDs' : D' ∈ Ds') (hD : Regular (cfg ng ns) D) (hD' : Regular (cfg ng ns) D')
    (hw : integrateInit K (tot D) false = .ok (some w)) (t : Fin 3) (hDD : MirrorDomain t D D')
    (ho : 1 < tot D t → D.bcIn t ≠ .outflow ∧ D.bcOut t ≠ .outflow)
    (o o' : ℕ → Fin 3 → Coord → Bool) (J J' : ℕ → Coord → Works ℝ ns) (s s' : ℕ → Coord → Grid ℝ)
    (hs : IsRun (integ (codeFuns ns p ord cf dMin) K w) q ng (bufSize (cfg ng ns) Ds) D o J s)
    (hs' : IsRun (integ (codeFuns ns p ord cf dMin) K w) q ng (bufSize (cfg ng ns) Ds') D' o' J' s')
    (Gi Gi' : Grid ℝ) (hst : Start (cfg ng ns) (bufSize (cfg ng ns) Ds) D Gi (s 0))
    (hst' : Start (cfg ng ns) (bufSize (cfg ng ns) Ds') D' Gi' (s' 0))
    (h0 : ∀ f : Fld, f.In (cfg ng ns) → ∀ y, Active (cfg ng ns) (tot D) f y → f.val Gi' y = mirSgn t f * f.val Gi (mirIdx (cfg ng ns) (tot D) t f y))
    (n : ℕ) (C C' : Coord) (hC : D.Has C) (hC' : D'.Has C') (f : Fld) (hf : f.In (cfg ng ns)) (y y' : Idx)
    (hy : Stored (cfg ng ns) (D.gnx C) f y) (hy' : Stored (cfg ng ns) (D'.gnx C') f y')
    (hyy : gl D C y = mirIdx (cfg ng ns) (tot D) t f (gl D' C' y')) :
    f.val (s' n C') y' = mirSgn t f * f.val (s n C) y :=
  run_mirror_partial _ (code_local p ord cf dMin) (code_mirror p ord cf dMin) K w (fun _ => code_isotropic p ord cf dMin) q hng Ds Ds' D D' hDs hDs' hD hD' hw t hDD ho
    o o' J J' s s' hs hs' Gi Gi' hst hst' h0 n C C' hC hC' f hf y y' hy hy' hyy

/-- **C67.** The same for data that are symmetric about the middle of the Domain. -/
theorem code_run_symmetric_partial (K : Kind) (w : Which) (q : ℕ → Step ℝ)
    {ng : ℕ} (hng : 4 ≤ ng) (Ds : List Dom) (D : Dom) (hDs : D ∈ Ds) (hD : Regular (cfg ng ns) D)
    (hw : integrateInit K (tot D) false = .ok (some w)) (t : Fin 3) (hbc : D.bcIn t = D.bcOut t) (ho : 1 < tot D t → D.bcIn t ≠ .outflow)
    (o : ℕ → Fin 3 → Coord → Bool) (J : ℕ → Coord → Works ℝ ns) (s : ℕ → Coord → Grid ℝ)
    (hs : IsRun (integ (codeFuns ns p ord cf dMin) K w) q ng (bufSize (cfg ng ns) Ds) D o J s)
    (Gi : Grid ℝ) (hst : Start (cfg ng ns) (bufSize (cfg ng ns) Ds) D Gi (s 0))
    (h0 : ∀ f : Fld, f.In (cfg ng ns) → ∀ y, Active (cfg ng ns) (tot D) f y → f.val Gi y = mirSgn t f * f.val Gi (mirIdx (cfg ng ns) (tot D) t f y))
    (n : ℕ) (C C' : Coord) (hC : D.Has C) (hC' : D.Has C') (f : Fld) (hf : f.In (cfg ng ns)) (y y' : Idx)
    (hy : Stored (cfg ng ns) (D.gnx C) f y) (hy' : Stored (cfg ng ns) (D.gnx C') f y')
    (hyy : gl D C y = mirIdx (cfg ng ns) (tot D) t f (gl D C' y')) :
    f.val (s n C') y' = mirSgn t f * f.val (s n C) y :=
  run_symmetric_partial _ (code_local p ord cf dMin) (code_mirror p ord cf dMin) K w (fun _ => code_isotropic p ord cf dMin) q hng Ds D hDs hD hw t hbc ho
    o J s hs Gi hst h0 n C C' hC hC' f hf y y' hy hy' hyy

/-- **C98.** With the HLLE solver, every equation of state, with and without magnetic field, and every reconstruction of the code: a reflecting
wall does what the mirrored fluid behind it would do.  Partial: the far end is reflecting or conducting. -/
theorem code_wall_is_symmetry_partial (K : Kind) (w : Which) (q : ℕ → Step ℝ)
    {ng : ℕ} (hng : 4 ≤ ng)
    (Ds Ds' : List Dom) (D D' : Dom) (hDs : D ∈ Ds) (hDs' : D' ∈ Ds') (hD : Regular (cfg ng ns) D) (hD' : Regular (cfg ng ns) D')
    (hw : integrateInit K (tot D) false = .ok (some w)) (t : Fin 3) (ht : 1 < tot D t) (hDD : Doubled t D D')
    (o o' : ℕ → Fin 3 → Coord → Bool) (J J' : ℕ → Coord → Works ℝ ns) (s s' : ℕ → Coord → Grid ℝ)
    (hs : IsRun (integ (codeFuns ns p ord cf dMin) K w) q ng (bufSize (cfg ng ns) Ds) D o J s)
    (hs' : IsRun (integ (codeFuns ns p ord cf dMin) K w) q ng (bufSize (cfg ng ns) Ds') D' o' J' s')
    (Gi Gi' : Grid ℝ) (hst : Start (cfg ng ns) (bufSize (cfg ng ns) Ds) D Gi (s 0))
    (hst' : Start (cfg ng ns) (bufSize (cfg ng ns) Ds') D' Gi' (s' 0))
    (h0 : ∀ f : Fld, f.In (cfg ng ns) → ∀ y, Active (cfg ng ns) (tot D) f y → f.val Gi' (upper t (tot D t) y) = f.val Gi y)
    (hsym : ∀ f : Fld, f.In (cfg ng ns) → ∀ y, Active (cfg ng ns) (tot D') f y → f.val Gi' y = mirSgn t f * f.val Gi' (mirIdx (cfg ng ns) (tot D') t f y))
    (n : ℕ) (C C' : Coord) (hC : D.Has C) (hC' : D'.Has C') (f : Fld) (hf : f.In (cfg ng ns)) (y y' : Idx)
    (hy : Stored (cfg ng ns) (D.gnx C) f y) (hy' : Stored (cfg ng ns) (D'.gnx C') f y')
    (hyy : gl D' C' y' = upper t (tot D t) (gl D C y)) :
    f.val (s n C) y = f.val (s' n C') y' :=
  wall_is_symmetry_partial _ (code_local p ord cf dMin) (code_mirror p ord cf dMin) K w (fun _ => code_isotropic p ord cf dMin) q hng Ds Ds' D D' hDs hDs' hD hD' hw t
    ht hDD o o' J J' s s' hs hs' Gi Gi' hst hst' h0 hsym n C C' hC hC' f hf y y' hy hy' hyy

/-! ## C68 -/

/-- In the active zones the density is not 0 and, unless the equation of state is isothermal, the pressure is not below the floor `TINY_NUMBER`. -/
def NoFloor (ng ns : ℕ) (p : Phys) (D : Dom) (s : Coord → Grid ℝ) : Prop :=
  ∀ C, D.Has C → ∀ y, Active (cfg ng ns) (D.gnx C) (.cell .d) y → (s C).U y .d ≠ 0 ∧ (p.iso = false → p.gamma ≠ 1 ∧
    p.tiny ≤ (p.gamma - 1) * ((s C).U y .E - ((s C).U y (.M 0) ^ 2 + (s C).U y (.M 1) ^ 2 + (s C).U y (.M 2) ^ 2) / (2 * (s C).U y .d)
      - if p.mhd then ((s C).U y (.Bc 0) ^ 2 + (s C).U y (.Bc 1) ^ 2 + (s C).U y (.Bc 2) ^ 2) / 2 else 0))

variable {p}

theorem code_back (u : Cons1 ℝ ns) (b : ℝ) (hd : u.d ≠ 0) (h : p.iso = false → p.gamma ≠ 1 ∧
    p.tiny ≤ (p.gamma - 1) * (u.E - (u.Mx ^ 2 + u.My ^ 2 + u.Mz ^ 2) / (2 * u.d) - if p.mhd then (b ^ 2 + u.By ^ 2 + u.Bz ^ 2) / 2 else 0)) :
    (codeFuns ns p ord cf dMin).p2c1 ((codeFuns ns p ord cf dMin).c2p1 u b) b = u := by
  cases hi : p.iso
  · obtain ⟨h1, h2⟩ := h hi
    have hg : p.gamma - 1 ≠ 0 := sub_ne_zero.2 h1
    have key : Hydro.fmax ((if p.mhd then u.E - 1/2 * (u.Mx * u.Mx + u.My * u.My + u.Mz * u.Mz) * (1 / u.d) - 1/2 * (b * b + u.By * u.By + u.Bz * u.Bz)
        else u.E - 1/2 * (u.Mx * u.Mx + u.My * u.My + u.Mz * u.Mz) * (1 / u.d)) * p.gamma1) p.tiny
        = (p.gamma - 1) * (u.E - (u.Mx ^ 2 + u.My ^ 2 + u.Mz ^ 2) / (2 * u.d) - if p.mhd then (b ^ 2 + u.By ^ 2 + u.Bz ^ 2) / 2 else 0) := by
      have e : (if p.mhd then u.E - 1/2 * (u.Mx * u.Mx + u.My * u.My + u.Mz * u.Mz) * (1 / u.d) - 1/2 * (b * b + u.By * u.By + u.Bz * u.Bz)
        else u.E - 1/2 * (u.Mx * u.Mx + u.My * u.My + u.Mz * u.Mz) * (1 / u.d)) * p.gamma1
        = (p.gamma - 1) * (u.E - (u.Mx ^ 2 + u.My ^ 2 + u.Mz ^ 2) / (2 * u.d) - if p.mhd then (b ^ 2 + u.By ^ 2 + u.Bz ^ 2) / 2 else 0) := by
        unfold Phys.gamma1
        split_ifs <;> field_simp <;> ring
      rw [e]
      generalize (p.gamma - 1) * _ = x at h2
      unfold Hydro.fmax
      split_ifs <;> first | rfl | linarith
    simp only [codeFuns, cons1DToPrim1D, prim1DToCons1D, Hydro.fdiv, toC, hd, if_false, hi, Bool.false_eq_true, Option.bind_eq_bind, Option.bind_some, Option.pure_def,
      Option.map_some, Option.getD_some, ofW, fillW, fillC, ofC, toW, key, show p.gamma1 ≠ 0 from hg]
    ext <;> simp only []
    all_goals first | rfl | (cases p.mhd <;> rfl) | skip
    · field_simp
    · field_simp
    · field_simp
    · unfold Phys.gamma1
      cases p.mhd <;> simp only [if_true, if_false, Bool.false_eq_true] <;> field_simp <;> ring
    · field_simp
  · simp only [codeFuns, cons1DToPrim1D, prim1DToCons1D, Hydro.fdiv, toC, hd, if_false, hi, if_true, Option.bind_eq_bind, Option.bind_some, Option.pure_def,
      Option.map_some, Option.getD_some, ofW, fillW, fillC, ofC, toW]
    ext <;> simp only []
    all_goals first | rfl | (cases p.mhd <;> rfl) | field_simp

theorem code_roundTrip {ng : ℕ} {D : Dom} {s : Coord → Grid ℝ} (h : NoFloor ng ns p D s) : RoundTrip ng (codeFuns ns p ord cf dMin) D s := by
  intro C hC y hy
  exact code_back ord cf dMin _ _ (h C hC y hy).1 (h C hC y hy).2

/-- **C68.** With the van Leer integrator and the HLLE solver, every equation of state, with and without magnetic field, and every
reconstruction: a 2D run and a 3D run that start from the same data hold the same data before every cycle. -/
theorem code_2d_in_3d_vl (dt : ℕ → ℝ) (dx1 dx2 dx3 dx3' : ℝ) {ng : ℕ} (hng : 4 ≤ ng)
    {D D' : Dom} (hE : Extends 2 D D') {s s' : ℕ → Coord → Grid ℝ}
    (hs : PerRun (codeFuns ns p ord cf dMin) .vl .d2 (fun n => ⟨dt n, dx1, dx2, dx3⟩) ng D s)
    (hs' : PerRun (codeFuns ns p ord cf dMin) .vl .d3 (fun n => ⟨dt n, dx1, dx2, dx3'⟩) ng D' s')
    (h0 : SameFlow ng ns 2 D D' (s 0) (s' 0)) (n : ℕ) : SameAll ng ns 2 D D' (s n) (s' n) :=
  run_2d_in_3d _ (code_local p ord cf dMin) (code_plain ord cf dMin) .vl dt dx1 dx2 dx3 dx3' hng hE hs hs' h0 (fun h => absurd h (by decide)) n

/-- **C68.** The same for the CTU integrator and the isothermal equation of state, for a field without divergence and densities not below `d_MIN`. -/
theorem code_2d_in_3d_ctu (hi : p.iso = true) (hd : 0 < dMin) (dt : ℕ → ℝ) (dx1 dx2 dx3 dx3' : ℝ) {ng : ℕ} (hng : 4 ≤ ng)
    {D D' : Dom} (hE : Extends 2 D D') {s s' : ℕ → Coord → Grid ℝ}
    (hs : PerRun (codeFuns ns p ord cf dMin) .ctu .d2 (fun n => ⟨dt n, dx1, dx2, dx3⟩) ng D s)
    (hs' : PerRun (codeFuns ns p ord cf dMin) .ctu .d3 (fun n => ⟨dt n, dx1, dx2, dx3'⟩) ng D' s')
    (h0 : SameFlow ng ns 2 D D' (s 0) (s' 0)) (hF : FieldOk ng ns D dx1 dx2 (s 0)) (ha : ∀ n, Above ng ns D dMin (s n)) (n : ℕ) :
    SameAll ng ns 2 D D' (s n) (s' n) :=
  run_2d_in_3d _ (code_local p ord cf dMin) (code_plain ord cf dMin) .ctu dt dx1 dx2 dx3 dx3' hng hE hs hs' h0
    (fun _ => ⟨code_exact ord cf dMin hi hd, hF, ha⟩) n

/-- **C68.** A 1D run and a 2D run with the van Leer integrator, every equation of state and reconstruction, where the pressure floor does not act. -/
theorem code_1d_in_2d_vl (dt : ℕ → ℝ) (dx1 dx2 dx2' dx3 dx3' : ℝ) {ng : ℕ} (hng : 4 ≤ ng)
    {D D' : Dom} (hE : Extends 1 D D') {s s' : ℕ → Coord → Grid ℝ}
    (hs : PerRun (codeFuns ns p ord cf dMin) .vl .d1 (fun n => ⟨dt n, dx1, dx2, dx3⟩) ng D s)
    (hs' : PerRun (codeFuns ns p ord cf dMin) .vl .d2 (fun n => ⟨dt n, dx1, dx2', dx3'⟩) ng D' s')
    (h0 : SameFlow ng ns 1 D D' (s 0) (s' 0)) (b : ℝ) (hb : Along ng ns D b (s 0)) (hV : ∀ n, NoFloor ng ns p D (s n)) (n : ℕ) :
    SameAll ng ns 1 D D' (s n) (s' n) :=
  run_1d_in_2d _ (code_local p ord cf dMin) (code_plain ord cf dMin) .vl dt dx1 dx2 dx2' dx3 dx3' hng hE hs hs' h0 b hb
    (fun _ n => code_roundTrip ord cf dMin (hV n)) (fun h => absurd h (by decide)) n

/-- **C68.** The same for the CTU integrator and the isothermal equation of state, for densities not below `d_MIN`. -/
theorem code_1d_in_2d_ctu (hi : p.iso = true) (hd : 0 < dMin) (dt : ℕ → ℝ) (dx1 dx2 dx2' dx3 dx3' : ℝ) {ng : ℕ} (hng : 4 ≤ ng)
    {D D' : Dom} (hE : Extends 1 D D') {s s' : ℕ → Coord → Grid ℝ}
    (hs : PerRun (codeFuns ns p ord cf dMin) .ctu .d1 (fun n => ⟨dt n, dx1, dx2, dx3⟩) ng D s)
    (hs' : PerRun (codeFuns ns p ord cf dMin) .ctu .d2 (fun n => ⟨dt n, dx1, dx2', dx3'⟩) ng D' s')
    (h0 : SameFlow ng ns 1 D D' (s 0) (s' 0)) (b : ℝ) (hb : Along ng ns D b (s 0)) (ha : ∀ n, Above ng ns D dMin (s n)) (n : ℕ) :
    SameAll ng ns 1 D D' (s n) (s' n) :=
  run_1d_in_2d _ (code_local p ord cf dMin) (code_plain ord cf dMin) .ctu dt dx1 dx2 dx2' dx3 dx3' hng hE hs hs' h0 b hb
    (fun h => absurd h (by decide)) (fun _ => ⟨code_exact ord cf dMin hi hd, ha⟩) n

/-! ## Instances -/

/-- Runs of the code, for every integrator, dimension, equation of state and reconstruction, that satisfy the hypotheses of `code_run_mirror_partial`: different
walls at the two ends, a state that differs from zone to zone; so the conclusion holds for them. -/
example (p : Phys) (K : Kind) (w : Which) : ∃ (s s' : ℕ → Coord → Grid ℝ) (J : ℕ → Coord → Works ℝ 1),
    IsRun (integ (codeFuns 1 p ord cf dMin) K w) (fun _ => ⟨0.1, 1, 2, 3⟩) 4 (bufSize (cfg 4 1) [exDm w false]) (exDm w false) (fun _ _ _ => false) J s ∧
    IsRun (integ (codeFuns 1 p ord cf dMin) K w) (fun _ => ⟨0.1, 1, 2, 3⟩) 4 (bufSize (cfg 4 1) [exDm w true]) (exDm w true) (fun _ _ _ => true) J s' ∧
    Start (cfg 4 1) (bufSize (cfg 4 1) [exDm w false]) (exDm w false) ⟨tot (exDm w false), (exG2 w).U, (exG2 w).Bi⟩ (s 0) ∧
    (∀ n, (s' n (fun _ => 0)).U (mkIdx 5 0 0) (.M 0) = -(s n (fun _ => 0)).U (mkIdx 11 0 0) (.M 0)) := by
  have hm : exDm w false ∈ [exDm w false] := List.mem_singleton.2 rfl
  have hm' : exDm w true ∈ [exDm w true] := List.mem_singleton.2 rfl
  let J : ℕ → Coord → Works ℝ 1 := fun _ _ => default
  let Gi : Grid ℝ := ⟨tot (exDm w false), (exG2 w).U, (exG2 w).Bi⟩
  obtain ⟨s, hst, hr⟩ := runs_exist (integ (codeFuns 1 p ord cf dMin) K w) (fun _ => ⟨0.1, 1, 2, 3⟩) hm (exDm_regular w false) ⟨_, has_exDm w false⟩
    (fun _ _ _ => false) J Gi rfl
  obtain ⟨s', hst', hr'⟩ := runs_exist (integ (codeFuns 1 p ord cf dMin) K w) (fun _ => ⟨0.1, 1, 2, 3⟩) hm' (exDm_regular w true) ⟨_, has_exDm w true⟩
    (fun _ _ _ => true) J (mirGrid (cfg 4 1) 0 Gi) rfl
  have key := code_run_mirror_partial p ord cf dMin K w (fun _ => ⟨0.1, 1, 2, 3⟩) (by omega) _ _ _ _ hm hm'
    (exDm_regular w false) (exDm_regular w true) (exDm_init K w false) 0 (exDm_mirror w) (fun _ => by simp [exDm]) _ _ J J s s' hr hr' Gi _ hst hst'
    (fun f _ y _ => mirGrid_val _ _ _ _ _)
  refine ⟨s, s', J, hr, hr', hst, fun n => ?_⟩
  have := key n (fun _ => 0) (fun _ => 0) (has_exDm _ _) (has_exDm _ _) (.cell (.M 0)) (by simp [Fld.In, vars]) (mkIdx 11 0 0) (mkIdx 5 0 0)
        (by intro t; cases w <;> rcases three t with rfl | rfl | rfl <;> decide) (by intro t; cases w <;> rcases three t with rfl | rfl | rfl <;> decide)
        (by funext t; cases w <;> rcases three t with rfl | rfl | rfl <;> decide)
  simpa [mirSgn, Fld.val] using this

/-- There is a run from the state of `flatG`, which differs along x1. -/
theorem code_flat_run (p : Phys) (K : Kind) (w : Which) (q : ℕ → Step ℝ) : ∃ s, PerRun (codeFuns 1 p ord cf dMin) K w q 4 (exD w) s ∧
    ∀ C, (exD w).Has C → ∀ f : Fld, f.In (cfg 4 1) → ∀ y, Stored (cfg 4 1) ((exD w).gnx C) f y →
      f.val (s 0 C) y = flatVal (wrap 4 9 (gl (exD w) C y 0)) f := by
  have hm : exD w ∈ [exD w] := List.mem_singleton.2 rfl
  have hR := exD_regular w
  obtain ⟨s, hst, hr⟩ := runs_exist (integ (codeFuns 1 p ord cf dMin) K w) q hm hR ⟨_, exD_has w⟩ (fun _ _ _ => false) (fun _ _ => default) (flatG w) rfl
  refine ⟨s, ⟨[exD w], _, _, flatG w, hm, hR, ⟨_, exD_has w⟩, init_hasDim (exD_init K w) hm hR (fun _ => Iff.rfl), fun _ _ => ⟨rfl, rfl⟩, hr, hst,
    flatG_closed w⟩, fun C hC f hf y hy => ?_⟩
  rw [start_ext (code_local p ord cf dMin) hr hst (flatG_closed w) hC hf hy, flatG_val]
  have h0 : tot (exD w) 0 = 9 := by rw [exD_tot, if_pos rfl]
  simp only [h0, show lo (cfg 4 1) (tot (exD w)) 0 = 4 by simp [lo, h0, cfg]]

/-- The hypotheses of `code_2d_in_3d_vl` hold together. -/
example (p : Phys) : ∃ s s' : ℕ → Coord → Grid ℝ, PerRun (codeFuns 1 p ord cf dMin) .vl .d2 (fun _ => ⟨0.1, 1, 2, 3⟩) 4 (exD .d2) s ∧
    PerRun (codeFuns 1 p ord cf dMin) .vl .d3 (fun _ => ⟨0.1, 1, 2, 7⟩) 4 (exD .d3) s' ∧ SameFlow 4 1 2 (exD .d2) (exD .d3) (s 0) (s' 0) ∧
    ∀ n, (s' n (fun _ => 0)).Bi 2 (mkIdx 5 6 7) = (s n (fun _ => 0)).U (mkIdx 5 6 0) (.Bc 2) := by
  obtain ⟨s, hs, h⟩ := code_flat_run ord cf dMin p .vl .d2 (fun _ => ⟨0.1, 1, 2, 3⟩)
  obtain ⟨s', hs', h'⟩ := code_flat_run ord cf dMin p .vl .d3 (fun _ => ⟨0.1, 1, 2, 7⟩)
  have hE : Extends 2 (exD .d2) (exD .d3) := ⟨by rw [exD_tot]; rfl, fun t ht => by
    rw [exD_tot, exD_tot]; rcases three t with rfl | rfl | rfl <;> first | rfl | exact absurd rfl ht⟩
  have hsame := flat_same (t0 := 2) (by decide) h h'
  refine ⟨s, s', hs, hs', hsame, fun n => ?_⟩
  exact code_2d_in_3d_vl ord cf dMin (fun _ => 0.1) 1 2 3 7 (by omega) hE hs hs' hsame n
    (fun _ => 0) (fun _ => 0) (exD_has _) (exD_has _) (.face 2) rfl (mkIdx 5 6 0) (mkIdx 5 6 7)
    (by intro t; rcases three t with rfl | rfl | rfl <;> decide) (by intro t; rcases three t with rfl | rfl | rfl <;> decide)
    (by intro t ht; rcases three t with rfl | rfl | rfl <;> first | rfl | exact absurd rfl ht)

/-- A moving, magnetized state. -/
def moving : Fld → ℝ
  | .cell .d => 1
  | .cell (.M n) => n.val + 1
  | .cell .E => 40
  | .cell (.Bc n) => n.val + 2
  | .cell (.s _) => 1
  | .face n => n.val + 2

/-- There is a run from it, and it holds this state before every cycle. -/
theorem code_moving_run (p : Phys) (K : Kind) (w : Which) (q : ℕ → Step ℝ) : ∃ s, PerRun (codeFuns 1 p ord cf dMin) K w q 4 (exD w) s ∧
    ∀ n C, (exD w).Has C → ∀ f : Fld, f.In (cfg 4 1) → ∀ y, Stored (cfg 4 1) ((exD w).gnx C) f y → f.val (s n C) y = moving f := by
  have hm : exD w ∈ [exD w] := List.mem_singleton.2 rfl
  have hR := exD_regular w
  let Gi : Grid ℝ := ⟨tot (exD w), fun _ v => moving (.cell v), fun n _ => moving (.face n)⟩
  have hv : ∀ (f : Fld) y, f.val Gi y = moving f := by intro f y; cases f <;> rfl
  have hcl : Closed (cfg 4 1) Gi := by intro t y _ h; rcases three t with rfl | rfl | rfl <;> rfl
  obtain ⟨s, hst, hr⟩ := runs_exist (integ (codeFuns 1 p ord cf dMin) K w) q hm hR ⟨_, exD_has w⟩ (fun _ _ _ => false) (fun _ _ => default) Gi rfl
  refine ⟨s, ⟨[exD w], _, _, Gi, hm, hR, ⟨_, exD_has w⟩, init_hasDim (exD_init K w) hm hR (fun _ => Iff.rfl), fun _ _ => ⟨rfl, rfl⟩, hr, hst, hcl⟩,
    fun n C hC f hf y hy => ?_⟩
  refine run_uniform _ (code_local p ord cf dMin) K (tot (exD w)) false w (exD_init K w) q (by omega) _ _ hm hR (fun _ => Iff.rfl) moving (fun t => rfl)
    (fun t => ?_) _ _ s hr Gi hst (fun f _ y _ => hv f y) n C hC f hf y hy
  have hb : (exD w).bcIn t = .periodic ∧ (exD w).bcOut t = .periodic := ⟨rfl, rfl⟩
  rw [hb.1, hb.2]
  exact ⟨⟨fun h => absurd h (by decide), fun h => absurd h (by decide)⟩, ⟨fun h => absurd h (by decide), fun h => absurd h (by decide)⟩⟩

/-- The hypotheses of `code_2d_in_3d_ctu` hold together. -/
example (p : Phys) : ∃ s s' : ℕ → Coord → Grid ℝ, PerRun (codeFuns 1 p ord cf (1/10)) .ctu .d2 (fun _ => ⟨0.1, 1, 2, 3⟩) 4 (exD .d2) s ∧
    PerRun (codeFuns 1 p ord cf (1/10)) .ctu .d3 (fun _ => ⟨0.1, 1, 2, 7⟩) 4 (exD .d3) s' ∧ SameFlow 4 1 2 (exD .d2) (exD .d3) (s 0) (s' 0) ∧
    FieldOk 4 1 (exD .d2) 1 2 (s 0) ∧ ∀ n, Above 4 1 (exD .d2) (1/10) (s n) := by
  obtain ⟨s, hs, h⟩ := code_moving_run ord cf (1/10) p .ctu .d2 (fun _ => ⟨0.1, 1, 2, 3⟩)
  obtain ⟨s', hs', h'⟩ := code_moving_run ord cf (1/10) p .ctu .d3 (fun _ => ⟨0.1, 1, 2, 7⟩)
  refine ⟨s, s', hs, hs', ?_, ?_, ?_⟩
  · intro C C' hC hC' f hf y y' hy hy' hyy
    rw [h 0 C hC _ (lowFld_in hf) y (flat_stored hC hy), h' 0 C' hC' f hf y' (flat_stored hC' hy')]
    unfold lowFld
    split_ifs with e
    · rw [e]; rfl
    · rfl
  · intro C hC y hy
    have hst : ∀ f : Fld, Stored (cfg 4 1) ((exD .d2).gnx C) f y := fun f => flat_stored hC fun u => by
      have h1 := hy u
      have h2 : extra ((exD .d2).gnx C) (.cell .d) u = 0 := by simp [extra]
      have h4 : 0 ≤ extra ((exD .d2).gnx C) f u := by unfold extra; split_ifs <;> omega
      omega
    have a0 := h 0 C hC (.face 0) rfl y (hst _)
    have a1 := h 0 C hC (.face 1) rfl y (hst _)
    have b0 := h 0 C hC (.face 0) rfl (next y 0) (flat_next hC rfl hy)
    have b1 := h 0 C hC (.face 1) rfl (next y 1) (flat_next hC rfl hy)
    have c0 := h 0 C hC (.cell (.Bc 0)) (by simp [Fld.In, vars, cfg]) y (hst _)
    have c1 := h 0 C hC (.cell (.Bc 1)) (by simp [Fld.In, vars, cfg]) y (hst _)
    simp only [Fld.val] at a0 a1 b0 b1 c0 c1
    rw [a0, a1, b0, b1, c0, c1]
    refine ⟨?_, ?_, ?_⟩ <;> simp only [moving] <;> ring
  · intro n C hC y hy
    refine le_of_le_of_eq ?_ (h n C hC (.cell .d) (by simp [Fld.In, vars]) y (flat_stored hC hy)).symm
    simp only [moving]; norm_num

/-- The hypotheses of `code_1d_in_2d_vl` hold together, with adiabatic MHD; those of `code_1d_in_2d_ctu` in the same way. -/
example (p : Phys) (hg : p.gamma = 5/3) (ht : p.tiny = 1/1000) : ∃ s s' : ℕ → Coord → Grid ℝ,
    PerRun (codeFuns 1 p ord cf (1/10)) .vl .d1 (fun _ => ⟨0.1, 1, 2, 3⟩) 4 (exD .d1) s ∧
    PerRun (codeFuns 1 p ord cf (1/10)) .vl .d2 (fun _ => ⟨0.1, 1, 2, 7⟩) 4 (exD .d2) s' ∧ SameFlow 4 1 1 (exD .d1) (exD .d2) (s 0) (s' 0) ∧
    Along 4 1 (exD .d1) 2 (s 0) ∧ (∀ n, NoFloor 4 1 p (exD .d1) (s n)) ∧ ∀ n, Above 4 1 (exD .d1) (1/10) (s n) := by
  obtain ⟨s, hs, h⟩ := code_moving_run ord cf (1/10) p .vl .d1 (fun _ => ⟨0.1, 1, 2, 3⟩)
  obtain ⟨s', hs', h'⟩ := code_moving_run ord cf (1/10) p .vl .d2 (fun _ => ⟨0.1, 1, 2, 7⟩)
  refine ⟨s, s', hs, hs', ?_, ?_, ?_, ?_⟩
  · intro C C' hC hC' f hf y y' hy hy' hyy
    rw [h 0 C hC _ (lowFld_in hf) y (flat_stored hC hy), h' 0 C' hC' f hf y' (flat_stored hC' hy')]
    unfold lowFld
    split_ifs with e
    · rw [e]; rfl
    · rfl
  · intro C hC y hy
    have hst : Stored (cfg 4 1) ((exD .d1).gnx C) (.face 0) y := flat_stored hC fun u => by
      have h1 := hy u
      have h2 : extra ((exD .d1).gnx C) (.cell .d) u = 0 := by simp [extra]
      have h4 : 0 ≤ extra ((exD .d1).gnx C) (.face 0) u := by unfold extra; split_ifs <;> omega
      omega
    refine ⟨(h 0 C hC (.face 0) rfl y hst).trans ?_, (h 0 C hC (.cell (.Bc 0)) (by simp [Fld.In, vars, cfg]) y (flat_stored hC hy)).trans ?_⟩ <;>
      simp [moving]
  · intro n C hC y hy
    have v : ∀ c, (Fld.cell c).In (cfg 4 1) → (s n C).U y c = moving (.cell c) := fun c hc => h n C hC (.cell c) hc y (by
      have := flat_stored hC hy
      exact this)
    rw [v .d (by simp [Fld.In, vars]), v .E (by simp [Fld.In, vars, cfg]), v (.M 0) (by simp [Fld.In, vars]), v (.M 1) (by simp [Fld.In, vars]),
      v (.M 2) (by simp [Fld.In, vars]), v (.Bc 0) (by simp [Fld.In, vars, cfg]), v (.Bc 1) (by simp [Fld.In, vars, cfg]), v (.Bc 2) (by simp [Fld.In, vars, cfg])]
    refine ⟨by simp [moving], fun _ => ⟨by rw [hg]; norm_num, ?_⟩⟩
    rw [hg, ht]
    simp only [moving]
    split_ifs <;> norm_num
  · intro n C hC y hy
    refine le_of_le_of_eq ?_ (h n C hC (.cell .d) (by simp [Fld.In, vars]) y (flat_stored hC hy)).symm
    simp only [moving]; norm_num

end
end Athena.Gen
