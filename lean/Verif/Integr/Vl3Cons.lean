import Verif.Integr.Vl3Props
import Mathlib.Data.Real.Basic
import Mathlib.Algebra.BigOperators.Intervals
import Mathlib.Algebra.BigOperators.Ring.Finset
import Mathlib.Tactic.Ring
import Mathlib.Tactic.LinearCombination
import Mathlib.Tactic.NormNum

/-!
# C32, C33 for the 3D van Leer integrator: conservation and div B, in exact arithmetic
-/

namespace Athena.Vl3
open Athena.Bvals

noncomputable instance : Num ℝ where
  half := 1 / 2
  quarter := 1 / 4
  gt0 x := decide (x > 0)
  lt0 x := decide (x < 0)

variable {W : Type} {ns : ℕ}

/-! ## Specification -/

/-- Sum over the `n1 × n2 × n3` zones from `(is, js, ks)`. -/
def zsum (n1 n2 n3 : ℕ) (is js ks : ℤ) (f : Arr ℝ) : ℝ :=
  ∑ c ∈ Finset.range n3, ∑ b ∈ Finset.range n2, ∑ a ∈ Finset.range n1, f (ks + c) (js + b) (is + a)

/-- Sum over the faces with index `i` normal to x1. -/
def fsum1 (n2 n3 : ℕ) (js ks i : ℤ) (f : Arr ℝ) : ℝ :=
  ∑ c ∈ Finset.range n3, ∑ b ∈ Finset.range n2, f (ks + c) (js + b) i
/-- Sum over the faces with index `j` normal to x2. -/
def fsum2 (n1 n3 : ℕ) (is ks j : ℤ) (f : Arr ℝ) : ℝ :=
  ∑ c ∈ Finset.range n3, ∑ a ∈ Finset.range n1, f (ks + c) j (is + a)
/-- Sum over the faces with index `k` normal to x3. -/
def fsum3 (n1 n2 : ℕ) (is js k : ℤ) (f : Arr ℝ) : ℝ :=
  ∑ b ∈ Finset.range n2, ∑ a ∈ Finset.range n1, f k (js + b) (is + a)

/-- The conserved variables. -/
inductive CVar (ns : ℕ) where
  | d
  | M1
  | M2
  | M3
  | E
  | s (n : Fin ns)

/-- The conserved variable of a zone. -/
def CVar.of : CVar ns → Cons ℝ ns → ℝ
  | .d, u => u.d
  | .M1, u => u.M1
  | .M2, u => u.M2
  | .M3, u => u.M3
  | .E, u => u.E
  | .s n, u => u.s n

/-- Its flux in the x1-direction: `x`, `y`, `z` are 1, 2, 3. -/
def CVar.flux1 : CVar ns → Cons1 ℝ ns → ℝ
  | .d, u => u.d
  | .M1, u => u.Mx
  | .M2, u => u.My
  | .M3, u => u.Mz
  | .E, u => u.E
  | .s n, u => u.s n
/-- Its flux in the x2-direction: `x`, `y`, `z` are 2, 3, 1. -/
def CVar.flux2 : CVar ns → Cons1 ℝ ns → ℝ
  | .d, u => u.d
  | .M1, u => u.Mz
  | .M2, u => u.Mx
  | .M3, u => u.My
  | .E, u => u.E
  | .s n, u => u.s n
/-- Its flux in the x3-direction: `x`, `y`, `z` are 3, 1, 2. -/
def CVar.flux3 : CVar ns → Cons1 ℝ ns → ℝ
  | .d, u => u.d
  | .M1, u => u.My
  | .M2, u => u.Mz
  | .M3, u => u.Mx
  | .E, u => u.E
  | .s n, u => u.s n

/-- Divergence of the interface fields of zone `(k, j, i)`. -/
noncomputable def divB (dx1 dx2 dx3 : ℝ) (S : St ℝ ns) (k j i : ℤ) : ℝ :=
  (S.B1i k j (i+1) - S.B1i k j i) / dx1 + (S.B2i k (j+1) i - S.B2i k j i) / dx2 + (S.B3i (k+1) j i - S.B3i k j i) / dx3

/-! ## Lemmas -/

theorem cv_upd (v : CVar ns) (q1 q2 q3 : ℝ) (r1 l1 r2 l2 r3 l3 : Cons1 ℝ ns) (B1 B2 B3 : Arr ℝ) (k j i : ℤ) (u : Cons ℝ ns) :
    v.of (upd3 q3 r3 l3 (upd2 q2 r2 l2 (upd1 q1 r1 l1 (avgB B1 B2 B3 k j i u)))) =
      v.of u - q1 * (v.flux1 r1 - v.flux1 l1) - q2 * (v.flux2 r2 - v.flux2 l2) - q3 * (v.flux3 r3 - v.flux3 l3) := by
  cases v <;> rfl

theorem tel (n : ℕ) (s : ℤ) (f : ℤ → ℝ) :
    ∑ a ∈ Finset.range n, (f (s + a + 1) - f (s + a)) = f (s + n) - f s := by
  have := Finset.sum_range_sub (fun a : ℕ => f (s + a)) n
  simp only [Nat.cast_zero, add_zero] at this
  rw [← this]
  refine Finset.sum_congr rfl fun a _ => ?_
  rw [show s + (a : ℤ) + 1 = s + ((a + 1 : ℕ) : ℤ) by push_cast; ring]

theorem zsum_congr {n1 n2 n3 : ℕ} {is js ks : ℤ} {f g : Arr ℝ} (h : ∀ k j i, ks ≤ k → k < ks + n3 → js ≤ j → j < js + n2 →
    is ≤ i → i < is + n1 → f k j i = g k j i) : zsum n1 n2 n3 is js ks f = zsum n1 n2 n3 is js ks g := by
  refine Finset.sum_congr rfl fun c hc => Finset.sum_congr rfl fun b hb => Finset.sum_congr rfl fun a ha => ?_
  have h1 := Finset.mem_range.1 hc
  have h2 := Finset.mem_range.1 hb
  have h3 := Finset.mem_range.1 ha
  exact h _ _ _ (by omega) (by omega) (by omega) (by omega) (by omega) (by omega)

theorem zsum_flux (n1 n2 n3 : ℕ) (is js ks : ℤ) (u F1 F2 F3 : Arr ℝ) (q1 q2 q3 : ℝ) :
    zsum n1 n2 n3 is js ks (fun k j i => u k j i - q1 * (F1 k j (i+1) - F1 k j i) - q2 * (F2 k (j+1) i - F2 k j i)
        - q3 * (F3 (k+1) j i - F3 k j i)) =
      zsum n1 n2 n3 is js ks u - q1 * (fsum1 n2 n3 js ks (is + n1) F1 - fsum1 n2 n3 js ks is F1)
        - q2 * (fsum2 n1 n3 is ks (js + n2) F2 - fsum2 n1 n3 is ks js F2)
        - q3 * (fsum3 n1 n2 is js (ks + n3) F3 - fsum3 n1 n2 is js ks F3) := by
  have e1 : zsum n1 n2 n3 is js ks (fun k j i => F1 k j (i+1) - F1 k j i) =
      fsum1 n2 n3 js ks (is + n1) F1 - fsum1 n2 n3 js ks is F1 := by
    unfold zsum fsum1
    simp only [← Finset.sum_sub_distrib]
    refine Finset.sum_congr rfl fun c _ => Finset.sum_congr rfl fun b _ => ?_
    exact tel n1 is (fun i => F1 (ks + c) (js + b) i)
  have e2 : zsum n1 n2 n3 is js ks (fun k j i => F2 k (j+1) i - F2 k j i) =
      fsum2 n1 n3 is ks (js + n2) F2 - fsum2 n1 n3 is ks js F2 := by
    unfold zsum fsum2
    simp only [← Finset.sum_sub_distrib]
    refine Finset.sum_congr rfl fun c _ => ?_
    rw [Finset.sum_comm]
    refine Finset.sum_congr rfl fun a _ => ?_
    exact tel n2 js (fun j => F2 (ks + c) j (is + a))
  have e3 : zsum n1 n2 n3 is js ks (fun k j i => F3 (k+1) j i - F3 k j i) =
      fsum3 n1 n2 is js (ks + n3) F3 - fsum3 n1 n2 is js ks F3 := by
    unfold zsum fsum3
    simp only [← Finset.sum_sub_distrib]
    rw [Finset.sum_comm]
    refine Finset.sum_congr rfl fun b _ => ?_
    rw [Finset.sum_comm]
    refine Finset.sum_congr rfl fun a _ => ?_
    exact tel n3 ks (fun k => F3 k (js + b) (is + a))
  rw [← e1, ← e2, ← e3]
  unfold zsum
  simp only [Finset.sum_sub_distrib, ← Finset.mul_sum]

/-! ## One step on one Grid -/

/-- The active zones of `g` number `n1 × n2 × n3`. -/
structure Size (g : Rng) (n1 n2 n3 : ℕ) : Prop where
  h1 : g.ie + 1 = g.is + n1
  h2 : g.je + 1 = g.js + n2
  h3 : g.ke + 1 = g.ks + n3

/-- **C32.** Whatever the fluxes and the electric fields, the sum of each conserved variable over the active
zones changes by the differences of the fluxes summed over opposite faces of the Grid. -/
theorem update_conserves (c : Coef ℝ) {g : Rng} {n1 n2 n3 : ℕ} (hg : Size g n1 n2 n3) (S : St ℝ ns)
    (F1 F2 F3 : Arr (Cons1 ℝ ns)) (e1 e2 e3 : Arr ℝ) (v : CVar ns) :
    zsum n1 n2 n3 g.is g.js g.ks (fun k j i => v.of ((update c g S F1 F2 F3 e1 e2 e3).U k j i)) =
      zsum n1 n2 n3 g.is g.js g.ks (fun k j i => v.of (S.U k j i))
        - c.dtodx1 * (fsum1 n2 n3 g.js g.ks (g.ie+1) (fun k j i => v.flux1 (F1 k j i)) - fsum1 n2 n3 g.js g.ks g.is (fun k j i => v.flux1 (F1 k j i)))
        - c.dtodx2 * (fsum2 n1 n3 g.is g.ks (g.je+1) (fun k j i => v.flux2 (F2 k j i)) - fsum2 n1 n3 g.is g.ks g.js (fun k j i => v.flux2 (F2 k j i)))
        - c.dtodx3 * (fsum3 n1 n2 g.is g.js (g.ke+1) (fun k j i => v.flux3 (F3 k j i)) - fsum3 n1 n2 g.is g.js g.ks (fun k j i => v.flux3 (F3 k j i))) := by
  rw [hg.h1, hg.h2, hg.h3, ← zsum_flux]
  refine zsum_congr fun k j i a1 a2 a3 a4 a5 a6 => ?_
  have := hg.h1; have := hg.h2; have := hg.h3
  simp (disch := omega) only [update, actLoop_in]
  exact cv_upd v _ _ _ _ _ _ _ _ _ _ _ _ _ _ _ _

/-- **C33.** Whatever the electric fields, the divergence of the interface fields of every active zone is
unchanged. -/
theorem update_divB (dt dx1 dx2 dx3 : ℝ) (g : Rng) (S : St ℝ ns)
    (F1 F2 F3 : Arr (Cons1 ℝ ns)) (e1 e2 e3 : Arr ℝ) {k j i : ℤ} (hk : g.ks ≤ k) (hk' : k ≤ g.ke) (hj : g.js ≤ j) (hj' : j ≤ g.je)
    (hi : g.is ≤ i) (hi' : i ≤ g.ie) :
    divB dx1 dx2 dx3 (update ⟨dt/dx1, dt/dx2, dt/dx3⟩ g S F1 F2 F3 e1 e2 e3) k j i = divB dx1 dx2 dx3 S k j i := by
  simp only [divB, update, ctB1, ctB2, ctB3]
  rw [addFaces1_in _ _ hk hk' hj hj' (by omega) (by omega), addFaces1_in _ _ hk hk' hj hj' hi (by omega),
    addFaces2_in _ _ hk hk' (by omega) (by omega) hi hi', addFaces2_in _ _ hk hk' hj (by omega) hi hi',
    addFaces3_in _ _ (by omega) (by omega) hj hj' hi hi', addFaces3_in _ _ hk (by omega) hj hj' hi hi']
  simp only [ct1, ct2, ct3]
  ring

end Athena.Vl3
