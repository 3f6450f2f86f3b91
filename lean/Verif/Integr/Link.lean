import Verif.Integr.Step
import Verif.Recon.Props3

/-! # The reconstructions meet what the integrators assume of them -/

namespace Athena.Gen
open Athena.Recon

variable {k ns ns' : ℕ}

/-- A set of functions whose `lr_states` is a reconstruction with a stencil of at most three zones on either side, whatever was
left in its output arrays, is `Local`. -/
theorem stencil_funs (M : Funs ℝ ns') (r : ℤ) (hr : r ≤ 3) (lr : ℝ → ℝ → (ℤ → Vec k ns) → (ℤ → ℝ) → ℤ → ℤ → Out k ns → Out k ns)
    (h : ∀ dt dx, StencilL r (lr dt dx)) (toV : Prim1 ℝ ns' → Vec k ns) (ofV : Vec k ns → Prim1 ℝ ns') (o : Out k ns)
    (hM : ∀ dt dx d w b, M.lr dt dx d w b =
      (ofV ((lr dt dx (fun m => toV (w m)) b 0 0 o).Wl 0), ofV ((lr dt dx (fun m => toV (w m)) b 0 0 o).Wr 0))) : M.Local := by
  intro dt dx d w w' b b' hw
  rw [hM, hM]
  have := h dt dx (fun m => toV (w m)) (fun m => toV (w' m)) b b' 0 0 0 0 o o 0 0 (by omega) (by omega) (by omega) (by omega)
    (fun m h1 h2 => by
      rw [add_zero]
      obtain ⟨e1, e2⟩ := hw m (by omega) (by omega)
      exact ⟨by rw [e1], e2⟩)
  simp only [add_zero] at this
  rw [this.1, this.2]

/-- The six files of src/reconstruction. -/
inductive Scheme | dc | prim2 | plm | prim3 | ppm | p3c (limo3 : Bool)

/-- `lr_states` of the scheme; `cf` selects the integrator and solver, `es` is the eigensystem. -/
noncomputable def Scheme.lr (cf : Cfg) (es : Vec k ns → ℝ → Eig k) (Wh : ℤ → Vec k ns) (st : Out k ns → PpmSt k ns) : Scheme →
    ℝ → ℝ → (ℤ → Vec k ns) → (ℤ → ℝ) → ℤ → ℤ → Out k ns → Out k ns
  | .dc, _, _, W, _, il, iu, o => lrDc W il iu o
  | .prim2, dt, dx, W, B, il, iu, o => lrPrim2 cf es (dt / dx) W B il iu o
  | .plm, dt, dx, W, B, il, iu, o => lrPlm cf es (dt / dx) W B il iu o
  | .prim3, dt, dx, W, B, il, iu, o => lrPrim3 cf es (dt / dx) W B il iu Wh o
  | .ppm, dt, dx, W, B, il, iu, o => (lrPpm cf es (dt / dx) W B il iu (st o)).o
  | .p3c l, _, dx, W, _, il, iu, o => lrP3c l dx W il iu o

theorem StencilL.mono {r r' : ℤ} (hr : r ≤ r') {lr : (ℤ → Vec k ns) → (ℤ → ℝ) → ℤ → ℤ → Out k ns → Out k ns} (h : StencilL r lr) :
    StencilL r' lr :=
  fun W W' B B' il iu il' iu' o o' i t h1 h2 h3 h4 hw => h W W' B B' il iu il' iu' o o' i t h1 h2 h3 h4
    (fun m a b => hw m (by omega) (by omega))

/-- **C60, C36.** Whichever reconstruction is configured, the functions called by the integrators satisfy the hypothesis of
`run_decomposed`, `run_conserves` and `run_divB`. -/
theorem scheme_local (X : Scheme) (cf : Cfg) (es : Vec k ns → ℝ → Eig k) (Wh : ℤ → Vec k ns) (st : Out k ns → PpmSt k ns)
    (toV : Prim1 ℝ ns' → Vec k ns) (ofV : Vec k ns → Prim1 ℝ ns') (o : Out k ns) (M : Funs ℝ ns')
    (hM : ∀ dt dx d w b, M.lr dt dx d w b =
      (ofV ((X.lr cf es Wh st dt dx (fun m => toV (w m)) b 0 0 o).Wl 0),
       ofV ((X.lr cf es Wh st dt dx (fun m => toV (w m)) b 0 0 o).Wr 0))) : M.Local := by
  refine stencil_funs M 3 (by omega) (X.lr cf es Wh st) (fun dt dx => ?_) toV ofV o hM
  cases X with
  | dc => exact StencilL.mono (by omega) dc_stencil
  | prim2 => exact StencilL.mono (by omega) (prim2_stencil cf es _)
  | plm => exact StencilL.mono (by omega) (plm_stencil cf es _)
  | prim3 => exact prim3_stencil cf es _ Wh
  | ppm => exact ppm_stencil cf es _ st
  | p3c l => exact StencilL.mono (by omega) (p3c_stencil l dx)

/-- The members of `Prim1DS` with `NWAVE = 7` (adiabatic MHD) in the order of src/athena.h:161-176. -/
def toV7 (w : Prim1 ℝ ns) : Vec 3 ns
  | .inl n => ![w.d, w.Vx, w.Vy, w.Vz, w.P, w.By, w.Bz] n
  | .inr n => w.r n
/-- And back. -/
def ofV7 (v : Vec 3 ns) : Prim1 ℝ ns :=
  ⟨v (.inl 0), v (.inl 1), v (.inl 2), v (.inl 3), v (.inl 4), v (.inl 5), v (.inl 6), fun n => v (.inr n)⟩

example (w : Prim1 ℝ ns) : ofV7 (toV7 w) = w := rfl

/-- For adiabatic MHD every scheme gives such functions. -/
example (X : Scheme) (cf : Cfg) (es : Vec 3 ns → ℝ → Eig 3) (Wh : ℤ → Vec 3 ns) (st : Out 3 ns → PpmSt 3 ns) (o : Out 3 ns) (M : Funs ℝ ns) :
    ({ M with lr := fun dt dx _ w b => (ofV7 ((X.lr cf es Wh st dt dx (fun m => toV7 (w m)) b 0 0 o).Wl 0),
       ofV7 ((X.lr cf es Wh st dt dx (fun m => toV7 (w m)) b 0 0 o).Wr 0)) } : Funs ℝ ns).Local :=
  scheme_local X cf es Wh st toV7 ofV7 o _ (fun _ _ _ _ _ => rfl)

end Athena.Gen
