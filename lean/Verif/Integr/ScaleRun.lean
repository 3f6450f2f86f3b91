import Verif.Integr.Scale
import Verif.Integr.MirrorRun

/-!
# A run in other units is the run, in other units (C130, C131)
-/

namespace Athena.Gen
open Athena.Bvals hiding Rng
open Athena.Vl3

variable {ns : ℕ}

/-! ## Specification -/

/-- What a field is multiplied by when densities are multiplied by `a²`, speeds by `v` and magnetic fields by `a v`. -/
def unFac (a v : ℝ) : Fld → ℝ
  | .cell .d => a * a
  | .cell (.M _) => a * a * v
  | .cell .E => a * a * (v * v)
  | .cell (.Bc _) => a * v
  | .cell (.s _) => a * a
  | .face _ => a * v

/-- The two Domains have the same number of zones and the same boundary conditions. -/
structure AlikeDomain (D D' : Dom) : Prop where
  size : tot D' = tot D
  bcIn : D'.bcIn = D.bcIn
  bcOut : D'.bcOut = D.bcOut

/-! ## Proof -/

theorem val_un {ng : ℕ} (g g' : Grid ℝ) (L : St ℝ ns) (a v : ℝ) {f : Fld} (hf : f.In (cfg ng ns)) (y : Idx) :
    f.val (ofSt g' (L.un a v)) y = unFac a v f * f.val (ofSt g L) y := by
  cases f with
  | cell w =>
    cases w with
    | s n =>
      have hn : n < ns := by simpa [Fld.In, vars, cfg] using hf
      simp [Fld.val, ofSt, St.un, Cons.un, Cons.get, hn, unFac]
    | M n => rcases three n with rfl | rfl | rfl <;> simp [Fld.val, ofSt, St.un, Cons.un, Cons.get, unFac]
    | Bc n => rcases three n with rfl | rfl | rfl <;> simp [Fld.val, ofSt, St.un, Cons.un, Cons.get, unFac]
    | _ => simp [Fld.val, ofSt, St.un, Cons.un, Cons.get, unFac]
  | face n => rcases three n with rfl | rfl | rfl <;> simp [Fld.val, ofSt, St.un, unFac]

theorem image_un {c : Cfg} {G G' : Grid ℝ} (h : G'.nx = G.nx) (ki ko : Fin 3 → Bvals.Kind) (a v : ℝ) (f : Fld) (y : Idx)
    (hv : f.val G' (fun u => imgJ (ki u) (ko u) (lo c G'.nx u) (hi c G'.nx u) (extra G'.nx f u) (G'.nx u) (y u)) =
      unFac a v f * f.val G (fun u => imgJ (ki u) (ko u) (lo c G'.nx u) (hi c G'.nx u) (extra G'.nx f u) (G'.nx u) (y u))) :
    image c ki ko G' f y = unFac a v f * image c ki ko G f y := by
  unfold image
  dsimp only
  rw [hv, h]
  split_ifs <;> ring

/-- Related on the active zones. -/
def UnA (ng ns : ℕ) (a v : ℝ) (G G' : Grid ℝ) : Prop :=
  ∀ f : Fld, f.In (cfg ng ns) → ∀ y, Active (cfg ng ns) G'.nx f y → f.val G' y = unFac a v f * f.val G y
/-- Related everywhere. -/
def UnS (ng ns : ℕ) (a v : ℝ) (G G' : Grid ℝ) : Prop :=
  ∀ f : Fld, f.In (cfg ng ns) → ∀ y, Stored (cfg ng ns) G'.nx f y → f.val G' y = unFac a v f * f.val G y

theorem advance_un {a v x : ℝ} (ha : a ≠ 0) (hv : 0 < v) (hx : 0 < x) {M M' : Funs ℝ ns} (hL : M.Local) (hL' : M'.Local) (hM : M.Scale M' a v x)
    (K : Kind) (w : Which) (q : Step ℝ) {ng : ℕ} (hng : 4 ≤ ng) (J J' : Works ℝ ns) {G G' : Grid ℝ} (hA : HasDim (dims w) G.nx) (h : G'.nx = G.nx)
    (hs : UnS ng ns a v G G') : UnA ng ns a v (advance (integ M K w) q ng J G) (advance (integ M' K w) (q.un v x) ng J' G') := by
  have hA' : HasDim (dims w) G'.nx := by rw [h]; exact hA
  have hI := integ_lattice M hL K w
  have hI' := integ_lattice M' hL' K w
  intro f hf y hy
  change Active (cfg ng ns) G'.nx f y at hy
  rw [hI'.active (q.un v x) ng J' G' ((toSt ns G).un a v) hng hA' (fun f hf y hy => by
      rw [hs f hf y hy, val_un G _ _ a v hf y, ofSt_toSt _ _ hf]) f hf y hy,
    latt_un ha hv hx hM, val_un G _ _ a v hf y]
  congr 1
  exact (hI.active q ng J G (toSt ns G) hng hA (fun f hf y hy => (ofSt_toSt _ _ hf _).symm) _ hf _ (by rw [← h]; exact hy)).symm

/-- **C130.** Two runs with the same numbers of zones and the same boundary conditions, the second in other units: the initial densities are
multiplied by `a²`, the speeds by `v` and the fields by `a v`, the sizes of the zones by `x` and the time steps by `x / v`.  In exact arithmetic,
after any number of cycles, every zone and face, ghost zones included, of every Grid of the second holds what the first holds in the same place,
in the other units.  With every integrator, in one, two and three dimensions, and however the two runs are divided into Grids.  Partial: the flux
function, reconstruction and conversions are such that they themselves do not depend on the units (`Funs.Scale`). -/
theorem run_units_partial {a v x : ℝ} (ha : a ≠ 0) (hv : 0 < v) (hx : 0 < x) (M M' : Funs ℝ ns) (hL : M.Local) (hL' : M'.Local)
    (hM : M.Scale M' a v x) (K : Kind) (w : Which) (q : ℕ → Step ℝ) {ng : ℕ} (hng : 4 ≤ ng)
    (Ds Ds' : List Dom) (D D' : Dom) (hDs : D ∈ Ds) (hDs' : D' ∈ Ds') (hD : Regular (cfg ng ns) D) (hD' : Regular (cfg ng ns) D')
    (hw : integrateInit K (tot D) false = .ok (some w)) (hDD : AlikeDomain D D')
    (o o' : ℕ → Fin 3 → Coord → Bool) (J J' : ℕ → Coord → Works ℝ ns) (s s' : ℕ → Coord → Grid ℝ)
    (hs : IsRun (integ M K w) q ng (bufSize (cfg ng ns) Ds) D o J s)
    (hs' : IsRun (integ M' K w) (fun n => (q n).un v x) ng (bufSize (cfg ng ns) Ds') D' o' J' s')
    (Gi Gi' : Grid ℝ) (hst : Start (cfg ng ns) (bufSize (cfg ng ns) Ds) D Gi (s 0))
    (hst' : Start (cfg ng ns) (bufSize (cfg ng ns) Ds') D' Gi' (s' 0))
    (h0 : ∀ f : Fld, f.In (cfg ng ns) → ∀ y, Active (cfg ng ns) (tot D) f y → f.val Gi' y = unFac a v f * f.val Gi y)
    (n : ℕ) (C C' : Coord) (hC : D.Has C) (hC' : D'.Has C') (f : Fld) (hf : f.In (cfg ng ns)) (y y' : Idx)
    (hy : Stored (cfg ng ns) (D.gnx C) f y) (hy' : Stored (cfg ng ns) (D'.gnx C') f y') (hyy : gl D C y = gl D' C' y') :
    f.val (s' n C') y' = unFac a v f * f.val (s n C) y := by
  have hdD := init_hasDim hw hDs hD (fun _ => Iff.rfl)
  have hdD' := init_hasDim hw hDs' hD' (fun u => by rw [hDD.size])
  obtain ⟨G, G', hR, hE, hE'⟩ := runs_related (integ_lattice M hL K w) (integ_lattice M' hL' K w) q (fun n => (q n).un v x) hng Ds Ds' D D' hDs hDs'
    hD hD' ⟨C, hC⟩ ⟨C', hC'⟩ hdD hdD'
    (UnA ng ns a v) (UnS ng ns a v) (by
      intro G G' H H' hG hG' hA hF hF' f hf y hy
      have hn : G'.nx = G.nx := by rw [hG, hG']; exact hDD.size
      rw [hF'.1] at hy
      rw [hF'.2 f hf y hy, hF.2 _ hf _ (by rw [← hn]; exact hy), hDD.bcIn, hDD.bcOut]
      refine image_un hn _ _ a v f y ?_
      refine hA f hf _ ?_
      have := image_active (nx := G'.nx) (by rw [hG']; exact dims_tot (hD'.ok hDs') hC') hD'.kin hD'.kout f y hy
      rw [hDD.bcIn, hDD.bcOut] at this
      exact this)
    (by
      intro n J J' G G' hG hG' hS
      refine advance_un ha hv hx hL hL' hM K w (q n) hng J J' ?_ ?_ hS
      · rw [hG]; exact hasDim_tot (hD.ok hDs) hC (hdD C hC)
      · rw [hG, hG']; exact hDD.size)
    o o' J J' s s' hs hs' Gi Gi' hst hst' (by
      intro f hf y hy
      rw [hst'.1, hDD.size] at hy
      exact h0 f hf y hy)
  rw [hE' n C' hC' f hf y' hy', hE n C hC _ hf y hy, hyy]
  refine (hR n).2.2 f hf _ ?_
  rw [(hR n).2.1]
  exact stored_iff.1 (inR_gl (hD'.ok hDs') hC' (stored_iff.2 hy'))

end Athena.Gen
