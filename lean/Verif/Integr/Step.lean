import Verif.Integr.All

/-! # One step of any Newtonian integrator on one Grid -/

namespace Athena.Gen
open Athena.Bvals hiding Rng
open Athena.Vl3

variable {ns : ℕ}

/-- The arrays `x1Flux`, `x2Flux`, `x3Flux` at the end of the step (the directions with one zone have none). -/
def endFlux {R : Type} [NumC R] (M : Funs R ns) (K : Kind) (w : Which) (q : Step R) (g : Rng) (S : St R ns) (J : Works R ns) :
    Fin 3 → Arr (Cons1 R ns) :=
  match K, w with
  | .vl, .d1 => fun _ _ _ i => v1Flux' M q g S J.w1 i
  | .ctu, .d1 => fun _ _ _ i => c1Flux M q g S J.w1 i
  | .vl, .d2 => fun t _ j i => if t = 0 then p2G1 M q g (plane S g.ks) J.v2 j i else p2G2 M q g (plane S g.ks) J.v2 j i
  | .ctu, .d2 => fun t _ j i => if t = 0 then c2G1 M q g (plane S g.ks) J.c2 j i else c2G2 M q g (plane S g.ks) J.c2 j i
  | .vl, .d3 => fun t => if t = 0 then yFlux1 (M.vl q) (coef q) g S J.v3 else if t = 1 then yFlux2 (M.vl q) (coef q) g S J.v3
      else yFlux3 (M.vl q) (coef q) g S J.v3
  | .ctu, .d3 => fun t => if t = 0 then c3G1 M q g S J.c3 else if t = 1 then c3G2 M q g S J.c3 else c3G3 M q g S J.c3

theorem update1_flux (q : Step ℝ) {g : Rng} {n1 : ℕ} (hg : Size g n1 1 1) (S : St ℝ ns) (F : ℤ → Cons1 ℝ ns) (v : CVar ns) :
    zsum n1 1 1 g.is g.js g.ks (fun k j i => v.of ((update1 q g S F).U k j i)) =
      zsum n1 1 1 g.is g.js g.ks (fun k j i => v.of (S.U k j i))
        - q.dt / q.dx1 * (fsum1 1 1 g.js g.ks (g.ie+1) (fun _ _ i => v.flux1 (F i)) - fsum1 1 1 g.js g.ks g.is (fun _ _ i => v.flux1 (F i))) := by
  have := zsum_flux n1 1 1 g.is g.js g.ks (fun k j i => v.of (S.U k j i)) (fun _ _ i => v.flux1 (F i)) (fun _ _ _ => 0) (fun _ _ _ => 0)
    (q.dt / q.dx1) 0 0
  simp only [zero_mul, sub_zero] at this
  rw [hg.h1, ← this]
  refine zsum_congr fun k j i a1 a2 a3 a4 a5 a6 => ?_
  have h1 := hg.h1; have h2 := hg.h2; have h3 := hg.h3
  push_cast at h2 h3 a2 a4
  simp (disch := omega) only [update1, loop3_in]
  cases v <;> rfl

theorem updV2_flux (q : Step ℝ) {g : Rng} {n1 n2 : ℕ} (hg : Size g n1 n2 1) (S : St ℝ ns) (F1 F2 : Pla (Cons1 ℝ ns)) (e : Pla ℝ)
    (v : CVar ns) :
    zsum n1 n2 1 g.is g.js g.ks (fun k j i => v.of ((updV2 q g S F1 F2 e).U k j i)) =
      zsum n1 n2 1 g.is g.js g.ks (fun k j i => v.of (S.U k j i))
        - q.dt / q.dx1 * (fsum1 n2 1 g.js g.ks (g.ie+1) (fun _ j i => v.flux1 (F1 j i)) - fsum1 n2 1 g.js g.ks g.is (fun _ j i => v.flux1 (F1 j i)))
        - q.dt / q.dx2 * (fsum2 n1 1 g.is g.ks (g.je+1) (fun _ j i => v.flux2 (F2 j i)) - fsum2 n1 1 g.is g.ks g.js (fun _ j i => v.flux2 (F2 j i))) := by
  have := zsum_flux n1 n2 1 g.is g.js g.ks (fun k j i => v.of (S.U k j i)) (fun _ j i => v.flux1 (F1 j i)) (fun _ j i => v.flux2 (F2 j i))
    (fun _ _ _ => 0) (q.dt / q.dx1) (q.dt / q.dx2) 0
  simp only [zero_mul, sub_zero] at this
  rw [hg.h1, hg.h2, ← this]
  refine zsum_congr fun k j i a1 a2 a3 a4 a5 a6 => ?_
  have h1 := hg.h1; have h2 := hg.h2; have h3 := hg.h3
  push_cast at h3 a2
  obtain rfl : k = g.ks := by omega
  simp (disch := omega) only [updV2, setPl_in, mod2_in]
  cases v <;> rfl

/-- **C32.** One step of any Newtonian integrator on a Grid of any size, with any contents of ghost zones and work
arrays, changes the sum of each conserved variable over the active zones by dt/dx times the differences of the integrator's
fluxes through the opposite faces of the Grid. -/
theorem step_flux (M : Funs ℝ ns) (K : Kind) (w : Which) (q : Step ℝ) {g : Rng} {n1 n2 n3 : ℕ} (hg : Size g n1 n2 n3)
    (h2 : dims w 1 = false → n2 = 1) (h3 : dims w 2 = false → n3 = 1) (S : St ℝ ns) (J : Works ℝ ns) (v : CVar ns) :
    zsum n1 n2 n3 g.is g.js g.ks (fun k j i => v.of ((integ M K w q g S J).U k j i)) =
      zsum n1 n2 n3 g.is g.js g.ks (fun k j i => v.of (S.U k j i))
        - q.dt / q.dx1 * (fsum1 n2 n3 g.js g.ks (g.ie+1) (fun k j i => v.flux1 (endFlux M K w q g S J 0 k j i))
            - fsum1 n2 n3 g.js g.ks g.is (fun k j i => v.flux1 (endFlux M K w q g S J 0 k j i)))
        - (if dims w 1 then q.dt / q.dx2 * (fsum2 n1 n3 g.is g.ks (g.je+1) (fun k j i => v.flux2 (endFlux M K w q g S J 1 k j i))
            - fsum2 n1 n3 g.is g.ks g.js (fun k j i => v.flux2 (endFlux M K w q g S J 1 k j i))) else 0)
        - (if dims w 2 then q.dt / q.dx3 * (fsum3 n1 n2 g.is g.js (g.ke+1) (fun k j i => v.flux3 (endFlux M K w q g S J 2 k j i))
            - fsum3 n1 n2 g.is g.js g.ks (fun k j i => v.flux3 (endFlux M K w q g S J 2 k j i))) else 0) := by
  cases w
  · obtain rfl := h2 rfl; obtain rfl := h3 rfl
    simp only [dims, A1, Fin.isValue, Fin.reduceBEq, Bool.false_eq_true, if_false, sub_zero]
    cases K <;> exact update1_flux q hg S _ v
  · obtain rfl := h3 rfl
    simp only [dims, A2, Fin.isValue, bne_self_eq_false, Bool.false_eq_true, if_false, sub_zero]
    cases K
    · exact updV2_flux q hg S _ _ _ v
    · simp only [integ, ctu2, updC2_eq]
      exact updV2_flux q hg S _ _ _ v
  · cases K
    · exact update_conserves (coef q) hg S _ _ _ _ _ _ v
    · simp only [integ, ctu3, updC3_eq]
      exact update_conserves (coef q) hg S _ _ _ _ _ _ v

/-- Grid sizes to which `step_flux` applies, in 1D, 2D and 3D. -/
example : Size ⟨4, 12, 0, 0, 0, 0, 4⟩ 9 1 1 ∧ Size ⟨4, 12, 4, 8, 0, 0, 4⟩ 9 5 1 ∧ Size ⟨4, 12, 4, 8, 4, 9, 4⟩ 9 5 6 :=
  ⟨⟨by decide, by decide, by decide⟩, ⟨by decide, by decide, by decide⟩, ⟨by decide, by decide, by decide⟩⟩

end Athena.Gen
