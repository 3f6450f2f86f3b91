import Verif.Micro.ResistProps
import Verif.Integr.GenLat

/-!
# src/microphysics/integrate_diffusion.c: the three diffusion operators together, and runs of the program with explicit diffusion
-/

namespace Athena.Micro
open Athena.Bvals hiding Rng
open Athena.Vl3 Athena.Gen

/-- The operators compiled in, and their parameters. -/
structure DiffQ (ns : ℕ) where
  cond : Bool
  res : Bool
  visc : Bool
  q : Diff ns

structure WorkD where
  c : WorkC
  r : WorkR
  v : WorkV

section Model
variable {ns : ℕ}

/-- `integrate_diff` for one Grid, integrate_diffusion.c:37-54: conduction, resistivity, viscosity, in this order.  The diffusivities
are those `get_eta` computed from the state at the end of the last cycle (new_dt_diff.c:36-49, called from new_dt.c after
`bvals_mhd`), that is, from the state before this call.  (With super time stepping this holds for the first sub-step; for the others it is a simplification
unless the diffusivities do not depend on the state.) -/
noncomputable def diffuse (w : Which) (p : DiffQ ns) (g : Rng) (S : St ℝ ns) (W : WorkD) : St ℝ ns :=
  let S1 := if p.cond then conduct w p.q g S W.c else S
  let S2 := if p.res then resist w p.q g S1 (getEta w p.q g S W.r.eta) W.r else S1
  if p.visc then viscous w p.q g S2 W.v else S2

/-- The same on a lattice. -/
noncomputable def latDiff (w : Which) (p : DiffQ ns) (L : St ℝ ns) : St ℝ ns :=
  let L1 := if p.cond then latCond w p.q L else L
  let L2 := if p.res then latRes w p.q (lEta p.q L) L1 else L1
  if p.visc then latVisc w p.q L2 else L2

/-- The program with explicit diffusion calls, with `bvals_mhd` after each, the diffusion operators (main.c:517-540, once or `N_STS` times per cycle) and
the integrator (main.c:545-552, 605-612): one step of a run is either. -/
noncomputable def cycle (M : Funs ℝ ns) (K : Gen.Kind) (w : Which) : Integ (Step ℝ ⊕ DiffQ ns) ℝ (Works ℝ ns × WorkD) ns := fun x g S W =>
  match x with
  | .inl q => integ M K w q g S W.1
  | .inr p => diffuse w p g S W.2

noncomputable def latCycle (M : Funs ℝ ns) (K : Gen.Kind) (w : Which) : Step ℝ ⊕ DiffQ ns → St ℝ ns → St ℝ ns
  | .inl q => latt M K w q
  | .inr p => latDiff w p

end Model

section Lemmas
variable {ns : ℕ} {w : Which} {q : Diff ns} {g : Rng} {S L : St ℝ ns}

theorem agM_cond {e e' : Arr (ℝ × ℝ × ℝ)} (h : AgM w g e e' S L) (J : WorkC) : AgM w g e e' (conduct w q g S J) (latCond w q L) := by
  refine ⟨fun {k j i} h1 h2 h3 h4 h5 h6 => ?_, h.b1, h.b2, h.b3⟩
  obtain ⟨a, b, c, d⟩ := h.c h1 h2 h3 h4 h5 h6
  obtain ⟨x, hx⟩ := (conduct_only_E w q g S J k j i).1
  rw [hx]
  exact ⟨a, b, c, d⟩

/-- Density, momentum and scalars. -/
def fluid (u : Cons ℝ ns) : ℝ × ℝ × ℝ × ℝ × (Fin ns → ℝ) := (u.d, u.M1, u.M2, u.M3, u.s)

theorem fluid_mod3 (kl ku jl ju il iu : ℤ) (f : ℤ → ℤ → ℤ → Cons ℝ ns → Cons ℝ ns) (hf : ∀ k j i u, fluid (f k j i u) = fluid u)
    (U : Arr (Cons ℝ ns)) (k j i : ℤ) : fluid (mod3 kl ku jl ju il iu f U k j i) = fluid (U k j i) := by
  unfold mod3 loop3
  split_ifs
  · exact hf _ _ _ _
  · rfl

theorem fluid_cEU (e : Arr (ℝ × ℝ × ℝ)) (W : WorkR) (k j i : ℤ) : fluid (cEU w q g S e W k j i) = fluid (S.U k j i) := by
  unfold cEU addE
  dsimp only
  split_ifs <;> (repeat (rw [fluid_mod3]; swap; · intro _ _ _ _; rfl)) <;>
    exact fluid_mod3 _ _ _ _ _ _ _ (by intro _ _ _ _; rfl) _ _ _ _

/-- The resistive update touches neither density nor momentum nor scalars, in any zone. -/
theorem resist_fluid (e : Arr (ℝ × ℝ × ℝ)) (W : WorkR) (k j i : ℤ) : fluid ((resist w q g S e W).U k j i) = fluid (S.U k j i) := by
  cases w <;> unfold resist act <;> dsimp only <;>
    (repeat (rw [fluid_mod3]; swap; · intro _ _ _ _; rfl)) <;> exact fluid_cEU _ _ _ _ _

theorem lat_fluid (e : Arr (ℝ × ℝ × ℝ)) (k j i : ℤ) : fluid ((latRes w q e L).U k j i) = fluid (L.U k j i) := by
  cases w <;> rfl

theorem agV_fluid {S' L' : St ℝ ns} (h : AgV w g S L) (hS : ∀ k j i, fluid (S'.U k j i) = fluid (S.U k j i))
    (hL : ∀ k j i, fluid (L'.U k j i) = fluid (L.U k j i)) : AgV w g S' L' := by
  intro k j i h1 h2 h3 h4 h5 h6
  obtain ⟨a, b⟩ := h k j i h1 h2 h3 h4 h5 h6
  have x := hS k j i; have y := hL k j i
  simp only [fluid, Prod.mk.injEq] at x y
  obtain ⟨x1, x2, x3, x4, _⟩ := x
  obtain ⟨y1, y2, y3, y4, _⟩ := y
  refine ⟨by rw [x1, y1, a], ?_⟩
  simp only [vel] at b ⊢
  rw [x1, x2, x3, x4, y1, y2, y3, y4, b]

theorem conduct_fluid (J : WorkC) (k j i : ℤ) : fluid ((conduct w q g S J).U k j i) = fluid (S.U k j i) := by
  obtain ⟨x, hx⟩ := (conduct_only_E w q g S J k j i).1
  rw [hx]
  rfl

end Lemmas

section Results
variable {ns : ℕ}

theorem diffuse_lattice (w : Which) : Lattice (dims w) (diffuse (ns := ns) w) (latDiff w) := by
  refine lattice_of (fun p L a b d => ?_) fun p g S L W hg ha => ?_
  · unfold latDiff
    obtain ⟨c, r, v, q⟩ := p
    cases c <;> cases r <;> cases v <;> simp only [if_true, if_false, Bool.false_eq_true, latVisc_shift, latCond_shift, latRes_shift] <;> rfl
  · have m := agM_of (q := p.q) hg ha W.r.eta
    have v := agV_of hg ha
    have a0 := act_of hg ha
    have m1 : AgM w g (getEta w p.q g S W.r.eta) (lEta p.q L) (if p.cond then conduct w p.q g S W.c else S) (if p.cond then latCond w p.q L else L) := by
      split_ifs
      · exact agM_cond m _
      · exact m
    have v1 : AgV w g (if p.cond then conduct w p.q g S W.c else S) (if p.cond then latCond w p.q L else L) := by
      split_ifs
      · exact agV_fluid v (conduct_fluid _) (fun _ _ _ => rfl)
      · exact v
    have a1 : ActEq (dims w) g (if p.cond then conduct w p.q g S W.c else S) (if p.cond then latCond w p.q L else L) := by
      split_ifs
      · exact conduct_act hg ha
      · exact a0
    unfold diffuse latDiff
    dsimp only
    generalize (if p.cond then conduct w p.q g S W.c else S) = S1 at *
    generalize (if p.cond then latCond w p.q L else L) = L1 at *
    by_cases hr : p.res = true
    · simp only [hr, if_true]
      have v2 := agV_fluid v1 (resist_fluid (w := w) (q := p.q) (g := g) (S := S1) (getEta w p.q g S W.r.eta) W.r)
        (lat_fluid (w := w) (q := p.q) (L := L1) (lEta p.q L))
      have a2 := resist_act (q := p.q) (W := W.r) hg m1 a1
      split_ifs
      · exact viscous_act v2 a2
      · exact a2
    · simp only [hr, Bool.false_eq_true, if_false]
      split_ifs
      · exact viscous_act v1 a1
      · exact a1

theorem latDiff_conserves (w : Which) (p : DiffQ ns) : Conserves (dims w) (latDiff w p) := by
  intro N L hL hN f hf is js ks
  have h1 : Periodic N (if p.cond then latCond w p.q L else L) := by
    split_ifs
    · intro m; rw [latCond_shift, hL m]
    · exact hL
  have s1 : zsum (N 0) (N 1) (N 2) is js ks (lval f (if p.cond then latCond w p.q L else L)) = zsum (N 0) (N 1) (N 2) is js ks (lval f L) := by
    split_ifs
    · exact latCond_conserves w p.q N L hL hN f hf is js ks
    · rfl
  unfold latDiff
  dsimp only
  generalize (if p.cond then latCond w p.q L else L) = L1 at *
  have hp := lEta_per hL p.q
  have h2 : Periodic N (if p.res then latRes w p.q (lEta p.q L) L1 else L1) := by
    split_ifs
    · intro m
      rw [latRes_shift, h1 m]
      congr 1
      have := congrArg (lEta p.q) (hL m)
      exact this
    · exact h1
  have s2 : zsum (N 0) (N 1) (N 2) is js ks (lval f (if p.res then latRes w p.q (lEta p.q L) L1 else L1)) = zsum (N 0) (N 1) (N 2) is js ks (lval f L1) := by
    split_ifs
    · exact latRes_sums w p.q _ N L1 h1 hp f hf is js ks
    · rfl
  generalize (if p.res then latRes w p.q (lEta p.q L) L1 else L1) = L2 at *
  rw [← s1, ← s2]
  split_ifs
  · exact latVisc_conserves w p.q N L2 h2 hN f hf is js ks
  · rfl

theorem diffuse_divB (w : Which) (p : DiffQ ns) {dx : Fin 3 → ℝ} (hd : p.q.dx1 = dx 0 ∧ p.q.dx2 = dx 1 ∧ p.q.dx3 = dx 2) :
    KeepsDivB (dims w) dx (diffuse w p) := by
  intro g S W k j i hg h1 h2 h3 h4 h5 h6
  unfold diffuse
  dsimp only
  have e1 : divA (dims w) dx (if p.cond then conduct w p.q g S W.c else S) k j i = divA (dims w) dx S k j i := by
    split_ifs <;> rfl
  generalize (if p.cond then conduct w p.q g S W.c else S) = S1 at *
  have e2 : divA (dims w) dx (if p.res then resist w p.q g S1 (getEta w p.q g S W.r.eta) W.r else S1) k j i = divA (dims w) dx S1 k j i := by
    split_ifs
    · exact resist_div w p.q _ W.r hd g S1 k j i h1 h2 h3 h4 h5 h6
    · rfl
  rw [← e1, ← e2]
  split_ifs <;> rfl

theorem cycle_lattice (M : Funs ℝ ns) (hM : M.Local) (K : Gen.Kind) (w : Which) : Lattice (dims w) (cycle M K w) (latCycle M K w) where
  shift := by
    rintro (q | p) L a b d
    · exact (integ_lattice M hM K w).shift q L a b d
    · exact (diffuse_lattice w).shift p L a b d
  active := by
    rintro (q | p) ng J g L hng hA hv f hf y hy
    · exact (integ_lattice M hM K w).active q ng J.1 g L hng hA hv f hf y hy
    · exact (diffuse_lattice w).active p ng J.2 g L hng hA hv f hf y hy

end Results
end Athena.Micro
