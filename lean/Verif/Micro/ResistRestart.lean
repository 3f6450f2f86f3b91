import Verif.Micro.ResistLin

/-!
# Restarting a run with resistivity

The diffusivities are kept in arrays of the Grid that `get_eta` fills.  It is called from `new_dt_diff` only, hence by `new_dt`, and
main.c:431 does not call `new_dt` on restart; nor does the restart file contain the arrays.
-/

namespace Athena.Micro
open Athena.Bvals hiding Rng
open Athena.Vl3 Athena.Gen

variable {ns : ℕ}

/-- What a Grid holds between two cycles of a resistive run: the state and the diffusivities. -/
structure ResGrid (ns : ℕ) where
  S : St ℝ ns
  eta : Arr (ℝ × ℝ × ℝ)

/-- `calloc_3d_array` of `eta_Ohm`, `eta_Hall`, `eta_AD`: init_grid.c:188-197. -/
def zeroEta : Arr (ℝ × ℝ × ℝ) := fun _ _ _ => (0, 0, 0)

/-- A new run, main.c:339, 370-431: `init_grid`, `problem`, `new_dt` (with `get_eta`, new_dt_diff.c:38-49). -/
def fresh (w : Which) (q : Diff ns) (g : Rng) (S : St ℝ ns) : ResGrid ns := ⟨S, getEta w q g S zeroEta⟩

/-- A restarted run, main.c:339, 368-369, 431: the state is read from the file; `new_dt` is not called. -/
def restarted (S : St ℝ ns) : ResGrid ns := ⟨S, zeroEta⟩

/-- One cycle, main.c:517-625: `resistivity` with the diffusivities at hand, whatever else changes the state (`rest`), and `get_eta`
within `new_dt`. -/
noncomputable def resCycle (w : Which) (q : Diff ns) (g : Rng) (W : WorkR) (rest : St ℝ ns → St ℝ ns) (r : ResGrid ns) : ResGrid ns :=
  let S := rest (resist w q g r.S r.eta W)
  ⟨S, getEta w q g S r.eta⟩

/-- The first cycle after a restart has no resistivity at all: it changes neither energy nor field of any active zone or face,
whatever the coefficients. -/
theorem restart_skips_resistivity {w : Which} {q : Diff ns} {g : Rng} (hg : RngOk (dims w) g) (W : WorkR) (S : St ℝ ns)
    {k j i : ℤ} (ha : Active g k j i) :
    ((resCycle w q g W id (restarted S)).S.U k j i).E = (S.U k j i).E ∧
    (resCycle w q g W id (restarted S)).S.B1i k j i = S.B1i k j i ∧
    (dims w 1 = true → (resCycle w q g W id (restarted S)).S.B2i k j i = S.B2i k j i) ∧
    (dims w 2 = true → (resCycle w q g W id (restarted S)).S.B3i k j i = S.B3i k j i) := by
  have a' : AgM w g zeroEta zeroEta S S := ⟨fun _ _ _ _ _ _ => ⟨rfl, rfl, rfl, rfl⟩, fun _ _ _ _ _ _ => rfl, fun _ _ _ _ _ _ => rfl,
    fun _ _ _ _ _ _ => rfl⟩
  have r := resist_act (q := q) (W := W) hg a' (act_of hg (agree_self _ g S))
  have em : lEmf w q zeroEta S = fun _ _ _ => V3.zero := by
    funext k j i
    have e0 : ohm w zeroEta (curl w q S) k j i = V3.zero := by
      cases w <;> simp [ohm, zeroEta, V3.zero]
    have e1 : ambi w q S zeroEta (curl w q S) k j i = V3.zero := by
      cases w <;> simp [ambi, ad1, ad2, ad3, perp, zeroEta, V3.zero]
    have e2 : V3.add V3.zero V3.zero = V3.zero := by simp [V3.add, V3.zero]
    unfold lEmf
    dsimp only
    rw [e0, e1, e2]
    split_ifs <;> first | rfl | exact e2
  have w0 : ∀ t, 0 ≤ wid (dims w t) 1 := fun t => by unfold wid; split_ifs <;> omega
  have := w0 0; have := w0 1; have := w0 2
  obtain ⟨k0, k1, j0, j1, i0, i1⟩ := ha
  have hU := r.U k j i k0 k1 j0 j1 i0 i1
  have hB1 := r.B1 k j i k0 k1 j0 j1 i0 (by omega)
  have hB2 := r.B2 k j i k0 k1 j0 (by omega) i0 i1
  have hB3 := r.B3 k j i k0 (by omega) j0 j1 i0 i1
  have hE : lRE w q zeroEta S k j i = 0 := by
    cases w <;> simp [lRE, lEn1, lEn2, lEn3, em, ener1, ener2, ener3, V3.zero]
  refine ⟨?_, ?_, fun hw => ?_, fun hw => ?_⟩
  · show ((resist w q g S zeroEta W).U k j i).E = _
    rw [hU]
    cases w <;> simp [latRes, lRU, ct1, hE]
  · refine hB1.trans ?_
    cases w <;> simp [latRes, lB1, dB1, em, V3.zero]
  · refine hB2.trans ?_
    simp only [latRes, hw, if_true, lB2, dB2, em]
    simp
  · refine hB3.trans ?_
    simp only [latRes, hw, if_true, lB3, dB3, em]
    simp

/-- **Restarting a resistive run does not continue it.** A run that is stopped, written without loss and restarted does not in
general reach the state of the run that was not stopped. -/
theorem restart_resistive_false : ¬ ∀ (w : Which) (q : Diff 0) (g : Rng) (W : WorkR) (rest : St ℝ 0 → St ℝ 0) (S : St ℝ 0), RngOk (dims w) g →
    ∀ k j i, Active g k j i →
      (resCycle w q g W rest (restarted S)).S.U k j i = (resCycle w q g W rest (fresh w q g S)).S.U k j i := by
  intro H
  let G : Grad := fun a b => if a = 1 ∧ b = 0 then 1 else 0
  let W : WorkR := ⟨fun _ _ _ => V3.zero, fun _ _ _ => V3.zero, fun _ _ _ => 0, fun _ _ _ => 0, fun _ _ _ => 0, zeroEta⟩
  have hl : LinB .d1 exO (fun _ => 0) G (linSt exO (fun _ => 0) G) := linSt_lin .d1 exO _ G (by
    intro a b h; rcases three b with rfl | rfl | rfl <;> simp [dims0, G] at h ⊢)
  have h := congrArg Cons.E (H .d1 exO exG W id (linSt exO (fun _ => 0) G) exG_ok 0 0 6 exG_act)
  rw [(restart_skips_resistivity exG_ok W _ exG_act).1] at h
  have h2 := (ohmic_heating (w := .d1) (q := exO) (by norm_num [exO, exQ]) (by norm_num [exO, exQ]) (by norm_num [exO, exQ]) hl exG_ok W
    (by norm_num [exO]) (by norm_num [exO]) (e := 3) (fun _ _ _ => rfl) exG_act).1
  have h3 : (resCycle .d1 exO exG W id (fresh .d1 exO exG (linSt exO (fun _ => 0) G))).S.U 0 0 6
      = (resistE .d1 exO exG (linSt exO (fun _ => 0) G) W).U 0 0 6 := rfl
  rw [h3, h2, Fin.sum_univ_three] at h
  simp only [linSt, exO, exQ, current, G, Fin.isValue, Fin.reduceEq, and_true, and_false, true_and, false_and, if_true, if_false] at h
  norm_num at h

/-- What is missing after a restart is exactly one call of `get_eta`: with it, and with a state that is written and read
without loss, the run continues as if it had not been stopped, from whatever cycle. -/
theorem restart_resistive_partial (w : Which) (q : Diff ns) (g : Rng) (W : ℕ → WorkR) (rest : ℕ → St ℝ ns → St ℝ ns) (r0 : ResGrid ns) (n m : ℕ)
    (run : ℕ → ResGrid ns) (h0 : run 0 = r0) (hr : ∀ n, run (n+1) = resCycle w q g (W n) (rest n) (run n))
    (run' : ℕ → ResGrid ns) (h0' : run' 0 = ⟨(run (n+1)).S, getEta w q g (run (n+1)).S (run n).eta⟩)
    (hr' : ∀ k, run' (k+1) = resCycle w q g (W (n+1+k)) (rest (n+1+k)) (run' k)) : run' m = run (n+1+m) := by
  induction m with
  | zero => rw [h0']; rw [hr n]; rfl
  | succ m ih => rw [hr', ih, ← hr]; rfl

end Athena.Micro
