import Verif.Integr.Vl3Run

/-!
# C60: a run on any decomposition is the run on a single Grid

Nothing is assumed about the arithmetic, so the statement is about the doubles computed: every decomposition
gives the same bits.
-/

namespace Athena.Vl3
open Athena.Bvals

variable {R W : Type} {ns : ℕ} [Num R] [Zero R]

theorem bvals_nx {c : Cfg} {sz : ℕ} {D : Dom} (hD : DomOk c sz D) (o : Fin 3 → Coord → Bool) {s : Coord → Grid R}
    (hnx : ∀ C, D.Has C → (s C).nx = D.gnx C) {C : Coord} (hC : D.Has C) {g : Grid R}
    (h : bvals c sz D o s C = .ok g) : g.nx = D.gnx C := by
  obtain ⟨σ, _, e3, hσ⟩ := bvals_all hD o s hnx
  rw [e3 C hC] at h
  injection h with h
  rw [← h]
  exact (hσ 2 C hC).2.1

theorem single_domOk {c : Cfg} {Ds : List Dom} {D : Dom} (hDs : D ∈ Ds) (hD : Regular c D) (hne : ∃ C, D.Has C) :
    DomOk c 0 (single D) := by
  obtain ⟨C0, hC0⟩ := hne
  have := single_ok (hD.ok hDs) hC0
  exact ⟨this.dims, this.split, this.kin, this.kout, this.per, fun C d _ h => absurd h (by simp [single])⟩

theorem run_nx {M : Method R W ns} {q : ℕ → Coef R} {ng sz : ℕ} {D : Dom} (hD : DomOk (cfg ng ns) sz D)
    {o : ℕ → Fin 3 → Coord → Bool} {J : ℕ → Coord → Work R W ns} {s : ℕ → Coord → Grid R}
    (hr : IsRun M q ng sz D o J s) (h0 : ∀ C, D.Has C → (s 0 C).nx = D.gnx C) :
    ∀ n C, D.Has C → (s n C).nx = D.gnx C := by
  intro n
  induction n with
  | zero => exact h0
  | succ n ih => intro C hC; exact bvals_nx hD (o n) (s := fun C => advance M (q n) ng (J n C) (s n C)) ih hC (hr n C hC)

/-- No Grid reads outside its arrays or waits forever, so there is a run from every initial state. -/
theorem run_exists (M : Method R W ns) (q : ℕ → Coef R) {ng : ℕ} {Ds : List Dom} {D : Dom} (hDs : D ∈ Ds)
    (hD : Regular (cfg ng ns) D) (o : ℕ → Fin 3 → Coord → Bool) (J : ℕ → Coord → Work R W ns) (s0 : Coord → Grid R)
    (h0 : ∀ C, D.Has C → (s0 C).nx = D.gnx C) :
    ∃ s, s 0 = s0 ∧ IsRun M q ng (bufSize (cfg ng ns) Ds) D o J s := by
  have step : ∀ n (s : Coord → Grid R), (∀ C, D.Has C → (s C).nx = D.gnx C) → ∃ s' : Coord → Grid R,
      (∀ C, D.Has C → bvals (cfg ng ns) (bufSize (cfg ng ns) Ds) D (o n) (fun C => advance M (q n) ng (J n C) (s C)) C = .ok (s' C)) ∧
      (∀ C, D.Has C → (s' C).nx = D.gnx C) := by
    intro n s hs
    obtain ⟨σ, _, e3, hσ⟩ := bvals_all (hD.ok hDs) (o n) (fun C => advance M (q n) ng (J n C) (s C)) hs
    exact ⟨σ 3, e3, fun C hC => (hσ 2 C hC).2.1⟩
  let T := {s : Coord → Grid R // ∀ C, D.Has C → (s C).nx = D.gnx C}
  let nxt : ℕ → T → T := fun n s => ⟨Classical.choose (step n s.1 s.2), (Classical.choose_spec (step n s.1 s.2)).2⟩
  let r : ℕ → T := fun n => Nat.rec ⟨s0, h0⟩ nxt n
  exact ⟨fun n => (r n).1, rfl, fun n => (Classical.choose_spec (step n (r n).1 (r n).2)).1⟩

/-- **C60.** Let the Grids of a Domain hold, ghost zones included, the values of the undivided Domain.  After any
number of cycles of `integrate_3d_vl` and `bvals_mhd`, in whatever order messages arrive and whatever the work
arrays contained, every zone and face of every Grid holds the value of the undivided Domain. -/
theorem decomposed_run (M : Method R W ns) (hM : M.Local) (q : ℕ → Coef R) {ng : ℕ} (hng : 4 ≤ ng) (Ds : List Dom)
    (D : Dom) (hDs : D ∈ Ds) (hD : Regular (cfg ng ns) D) (h3 : ∀ C, D.Has C → ∀ t, 1 < D.gnx C t)
    (o o' : ℕ → Fin 3 → Coord → Bool) (J : ℕ → Coord → Work R W ns) (J' : ℕ → Work R W ns) (s : ℕ → Coord → Grid R) (G : ℕ → Grid R)
    (hs : IsRun M q ng (bufSize (cfg ng ns) Ds) D o J s) (hG : IsRun M q ng 0 (single D) o' (fun n _ => J' n) (fun n _ => G n))
    (hsn : ∀ C, D.Has C → (s 0 C).nx = D.gnx C) (hGn : (G 0).nx = tot D)
    (h0 : ∀ C, D.Has C → ∀ f : Fld, f.In (cfg ng ns) → ∀ y, Stored (cfg ng ns) (D.gnx C) f y →
      f.val (s 0 C) y = f.val (G 0) (gl D C y)) :
    ∀ n C, D.Has C → ∀ f : Fld, f.In (cfg ng ns) → ∀ y, Stored (cfg ng ns) (D.gnx C) f y →
      f.val (s n C) y = f.val (G n) (gl D C y) := by
  intro n
  by_cases hne : ∃ C, D.Has C
  swap
  · intro C hC; exact absurd ⟨C, hC⟩ hne
  have hok := hD.ok hDs
  have hsing := single_domOk hDs hD hne
  have nxs := run_nx hok hs hsn
  have nxG := run_nx hsing hG (fun C hC => by
    have : C = fun _ => 0 := by funext t; have := hC t; simp only [single] at this; omega
    subst this; exact hGn)
  induction n with
  | zero => exact h0
  | succ n ih =>
    have eG : (G n).nx = tot D := nxG n (fun _ => 0) (has_single D)
    obtain ⟨s', G', e1, e2, hA⟩ := decomposed_eq_single (cfg ng ns) Ds D hDs hD hne (o n) (o' n)
      (fun C => advance M (q n) ng (J n C) (s n C)) (advance M (q n) ng (J' n) (G n))
      (fun C hC => nxs n C hC) eG (by
        intro C hC f hf y hy
        have hy2 : Active (cfg ng ns) (tot D) f (gl D C y) := active_iff.1 (inR_gl hok hC (active_iff.2 hy))
        have enx := nxs n C hC
        refine advance_eq hM (q n) hng _ _ (o := fun t => (disp D t (C t) : ℤ)) ?_ ?_ ?_ hf ?_ ?_
        · rw [enx]; exact h3 C hC
        · rw [eG]; intro t; exact (gnx_tot hok hC t).1.1 (h3 C hC t)
        · rw [enx]; exact ih C hC
        · rw [enx]; exact hy
        · rw [eG]; exact hy2)
    intro C hC f hf y hy
    have r1 := hs n C hC
    rw [e1 C hC] at r1
    have r2 := hG n (fun _ => 0) (has_single D)
    rw [e2] at r2
    injection r1 with r1
    injection r2 with r2
    dsimp only at r2
    rw [← r1, ← r2]
    exact hA C hC f hf y hy

end Athena.Vl3
