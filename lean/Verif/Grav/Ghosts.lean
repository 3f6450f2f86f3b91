import Verif.Grav.Parallel
import Verif.Bvals.Phi

/-!
# Self-gravity on several Grids: the solver and the ghost zones together

`selfg_fft_3d` / `selfg_fft_2d` followed by `bvals_grav`, as in main.c:446-447 and 579-580, on a periodic Domain.
-/

namespace Athena.GravGrids
open Finset Athena.Fft Athena.Bvals
open Athena.Grav (Par Par.Ok Loc setup3 setup2 Divided3 Divided2 IsPotential selfg3 selfg2 selfg3_parallel_partial selfg2_parallel_partial)

/-! ## Specification -/

/-- The process that has the Grid `C` of the Domain, and what the solver on that process is told about its Grid (`pD->GData`, `pG->Nx`, `pG->Disp`). -/
structure Numbered (D : Dom) (P : ℕ) (pid : Coord → ℕ) (L : ℕ → Loc) : Prop where
  lt : ∀ C, D.Has C → pid C < P
  onto : ∀ p < P, ∃ C, D.Has C ∧ pid C = p
  loc : ∀ C, D.Has C → L (pid C) = ⟨disp D 0 (C 0), disp D 1 (C 1), disp D 2 (C 2), D.gnx C 0, D.gnx C 1, D.gnx C 2⟩

/-- The index of the first zone that is not a ghost zone: `nghost`, or 0 in a direction with one zone. -/
def first0 (c : Cfg) (D : Dom) (t : Fin 3) : ℤ := if 1 < tot D t then c.ng else 0

/-- The zone of the Domain with index `y` in the array of the Grid `C`. -/
def zoneOf (c : Cfg) (D : Dom) (C : Coord) (y : Idx) (t : Fin 3) : ℤ := y t - first0 c D t + disp D t (C t)

/-- All zones of the arrays `s` of all Grids, ghost zones and corners included, hold the potential. -/
def HoldAll (c : Cfg) (D : Dom) (ψ : ℤ → ℤ → ℤ → ℝ) (s : Coord → Idx → ℝ) : Prop :=
  ∀ C, D.Has C → ∀ y, (∀ t, 0 ≤ y t ∧ y t < size c (D.gnx C) t) → s C y = ψ (zoneOf c D C y 0) (zoneOf c D C y 1) (zoneOf c D C y 2)

/-! ## Proofs -/

/-- Every zone of the Domain belongs to a Grid. -/
theorem grid_of (D : Dom) (t : Fin 3) (n : ℕ) {a : ℕ} (h : a < disp D t n) : ∃ i < n, disp D t i ≤ a ∧ a < disp D t i + D.nx t i := by
  induction n with
  | zero => simp [disp] at h
  | succ n ih =>
    by_cases g : a < disp D t n
    · obtain ⟨i, hi, h'⟩ := ih g
      exact ⟨i, by omega, h'⟩
    · exact ⟨n, by omega, by omega, h⟩

theorem end_le {D : Dom} {C : Coord} (hC : D.Has C) (t : Fin 3) : disp D t (C t) + D.gnx C t ≤ tot D t := disp_add_le (hC t)

theorem Numbered.divided3 {D : Dom} {P : ℕ} {pid : Coord → ℕ} {L : ℕ → Loc} (h : Numbered D P pid L) : Divided3 P (tot D 0) (tot D 1) (tot D 2) L := by
  constructor
  · intro p hp
    obtain ⟨C, hC, rfl⟩ := h.onto p hp
    rw [h.loc C hC]
    exact ⟨end_le hC 0, end_le hC 1, end_le hC 2⟩
  · intro a ha b hb c hc
    obtain ⟨i, hi, h1⟩ := grid_of D 0 _ ha
    obtain ⟨j, hj, h2⟩ := grid_of D 1 _ hb
    obtain ⟨k, hk, h3⟩ := grid_of D 2 _ hc
    have hC : D.Has (fun t => if t = 0 then i else if t = 1 then j else k) := by
      intro t
      have ht : t = 0 ∨ t = 1 ∨ t = 2 := by fin_cases t <;> decide
      rcases ht with rfl | rfl | rfl <;> simpa
    refine ⟨_, h.lt _ hC, ?_⟩
    rw [h.loc _ hC]
    exact ⟨h1, h2, h3⟩

theorem Numbered.divided2 {D : Dom} {P : ℕ} {pid : Coord → ℕ} {L : ℕ → Loc} (h : Numbered D P pid L) (h2 : 0 < tot D 2) :
    Divided2 P (tot D 0) (tot D 1) L := by
  have := h.divided3
  exact ⟨fun p hp => ⟨(this.sub p hp).1, (this.sub p hp).2.1⟩, fun a ha b hb => by
    obtain ⟨p, hp, h1, h2, -⟩ := this.cov a ha b hb 0 h2
    exact ⟨p, hp, h1, h2⟩⟩

theorem lo_first {c : Cfg} {Ds : List Dom} {D : Dom} (hm : D ∈ Ds) (hD : Regular c D) {C : Coord} (hC : D.Has C) (t : Fin 3) :
    lo c (D.gnx C) t = first0 c D t := by
  have := (gnx_tot (hD.ok hm) hC t).1
  unfold first0
  by_cases h : 1 < D.gnx C t
  · rw [lo_pos h, if_pos (this.1 h)]
  · rw [lo_one h, if_neg (fun k => h (this.2 k))]

theorem hi_first {c : Cfg} {Ds : List Dom} {D : Dom} (hm : D ∈ Ds) (hD : Regular c D) {C : Coord} (hC : D.Has C) (t : Fin 3) :
    hi c (D.gnx C) t = first0 c D t + D.gnx C t - 1 := by
  have h1 := lo_first hm hD hC t
  have hz := (hD.dims C hC).zones t
  by_cases h : 1 < D.gnx C t
  · rw [lo_pos h] at h1; rw [hi_pos h]; omega
  · rw [lo_one h] at h1; rw [hi_one h]; omega

/-- `bvals_grav` completes the arrays. -/
theorem fill_ghosts {c : Cfg} {Ds : List Dom} {D : Dom} (hm : D ∈ Ds) (hD : Regular c D) (hp : ∀ d, D.bcIn d = .periodic ∧ D.bcOut d = .periodic)
    {ψ : ℤ → ℤ → ℤ → ℝ} (p1 : ∀ i j k, ψ (i + tot D 0) j k = ψ i j k) (p2 : ∀ i j k, ψ i (j + tot D 1) k = ψ i j k)
    (p3 : ∀ i j k, ψ i j (k + tot D 2) = ψ i j k) (o : Fin 3 → Coord → Bool) (s : Coord → Idx → ℝ)
    (hs : ∀ C, D.Has C → ∀ y, (∀ t, lo c (D.gnx C) t ≤ y t ∧ y t ≤ hi c (D.gnx C) t) →
      s C y = ψ (zoneOf c D C y 0) (zoneOf c D C y 1) (zoneOf c D C y 2)) :
    ∃ s', (∀ C, D.Has C → bvalsPhi c (bufPhi c Ds) D o s C = .ok (s' C)) ∧ HoldAll c D ψ s' := by
  have e : ∀ C y, ψ (zoneOf c D C y 0) (zoneOf c D C y 1) (zoneOf c D C y 2) =
      (fun Y : Idx => ψ (Y 0 - first0 c D 0) (Y 1 - first0 c D 1) (Y 2 - first0 c D 2)) (gl D C y) := by
    intro C y
    unfold zoneOf gl
    dsimp only
    congr 1 <;> ring
  obtain ⟨s', h⟩ := phi_ghosts c Ds D hm hD hp o (fun Y : Idx => ψ (Y 0 - first0 c D 0) (Y 1 - first0 c D 1) (Y 2 - first0 c D 2)) (by
    intro d _ y
    dsimp only
    have hd' : d = 0 ∨ d = 1 ∨ d = 2 := by fin_cases d <;> decide
    rcases hd' with rfl | rfl | rfl
    · rw [setD_self, setD_ne _ _ _ _ (by decide), setD_ne _ _ _ _ (by decide), ← p1 (y 0 - first0 c D 0)]
      congr 1; ring
    · rw [setD_self, setD_ne _ _ _ _ (by decide), setD_ne _ _ _ _ (by decide), ← p2 _ (y 1 - first0 c D 1)]
      congr 1; ring
    · rw [setD_self, setD_ne _ _ _ _ (by decide), setD_ne _ _ _ _ (by decide), ← p3 _ _ (y 2 - first0 c D 2)]
      congr 1; ring) s (fun C hC y hy => by rw [hs C hC y hy, e])
  exact ⟨s', fun C hC => (h C hC).1, fun C hC y hy => by rw [(h C hC).2 y hy, e]⟩

/-! ## Properties -/

/-- **The potential on every Grid of a periodic Domain, ghost zones included.**  For every density there is one potential of the Domain
(`IsPotential`) such that for every division into Grids for which the transform is right (`Counts`), all orders of messages and whatever the arrays
held before, the solver succeeds and, once its result is stored in the active zones of `Phi`, `bvals_grav` succeeds and every zone of every array
`Phi` holds that potential. -/
theorem gravity3_everywhere_partial {q : Par} (hq : q.Ok) (c : Cfg) (Ds : List Dom) (D : Dom) (hm : D ∈ Ds) (hD : Regular c D)
    (hp : ∀ d, D.bcIn d = .periodic ∧ D.bcOut d = .periodic) (h3 : ∀ t, 0 < tot D t) (P : ℕ) (hP : 0 < P) (pid : Coord → ℕ) (L : ℕ → Loc)
    (hn : Numbered D P pid L) (hc : (setup3 P (tot D 0) (tot D 1) (tot D 2) L).Counts) (ρ : ℕ → ℕ → ℕ → ℝ) :
    ∃ ψ, IsPotential q (tot D 0) (tot D 1) (tot D 2) ρ ψ ∧ ∀ scr scr' ord ord' b b',
      Arrive (setup3 P (tot D 0) (tot D 1) (tot D 2) L) ord → Arrive (setup3 P (tot D 0) (tot D 1) (tot D 2) L) ord' →
      ∃ Φ, selfg3 q P (tot D 0) (tot D 1) (tot D 2) L scr scr' ord ord' (fun p i j k => ρ ((L p).D1 + i) ((L p).D2 + j) ((L p).D3 + k)) b b' = some Φ
        ∧ ∀ (o : Fin 3 → Coord → Bool) (s : Coord → Idx → ℝ),
          (∀ C, D.Has C → ∀ i < D.gnx C 0, ∀ j < D.gnx C 1, ∀ k < D.gnx C 2,
            s C (mkIdx (first0 c D 0 + i) (first0 c D 1 + j) (first0 c D 2 + k)) = Φ (pid C) i j k) →
          ∃ s', (∀ C, D.Has C → bvalsPhi c (bufPhi c Ds) D o s C = .ok (s' C)) ∧ HoldAll c D ψ s' := by
  obtain ⟨ψ, hψ, h⟩ := selfg3_parallel_partial hq (h3 0) (h3 1) (h3 2) ρ
  refine ⟨ψ, hψ, fun scr scr' ord ord' b b' ho ho' => ?_⟩
  obtain ⟨Φ, e, hΦ⟩ := h P L hP hn.divided3 hc scr scr' ord ord' b b' ho ho'
  refine ⟨Φ, e, fun o s hs => fill_ghosts hm hD hp hψ.per1 hψ.per2 hψ.per3 o s ?_⟩
  intro C hC y hy
  have hb : ∀ t, 0 ≤ y t - first0 c D t ∧ y t - first0 c D t < D.gnx C t := by
    intro t
    have := hy t
    rw [lo_first hm hD hC, hi_first hm hD hC] at this
    omega
  have hi : ∀ t, (((y t - first0 c D t).toNat : ℕ) : ℤ) = y t - first0 c D t := fun t => Int.toNat_of_nonneg (hb t).1
  have hl : ∀ t, (y t - first0 c D t).toNat < D.gnx C t := fun t => by have := hi t; have := hb t; omega
  have := hs C hC _ (hl 0) _ (hl 1) _ (hl 2)
  rw [hi, hi, hi, add_sub_cancel, add_sub_cancel, add_sub_cancel] at this
  have ey : mkIdx (y 0) (y 1) (y 2) = y := by
    funext t
    have ht : t = 0 ∨ t = 1 ∨ t = 2 := by fin_cases t <;> decide
    rcases ht with rfl | rfl | rfl <;> rfl
  rw [ey] at this
  rw [this, hΦ _ (hn.lt C hC) _ (by rw [hn.loc C hC]; exact hl 0) _ (by rw [hn.loc C hC]; exact hl 1) _ (by rw [hn.loc C hC]; exact hl 2), hn.loc C hC]
  unfold zoneOf
  have e0 := hi 0
  have e1 := hi 1
  have e2 := hi 2
  dsimp only
  push_cast
  congr 1 <;> omega

/-- **The same in two dimensions.** -/
theorem gravity2_everywhere_partial {q : Par} (hq : q.Ok) (c : Cfg) (Ds : List Dom) (D : Dom) (hm : D ∈ Ds) (hD : Regular c D)
    (hp : ∀ d, D.bcIn d = .periodic ∧ D.bcOut d = .periodic) (h0 : 0 < tot D 0) (h1 : 0 < tot D 1) (h2 : tot D 2 = 1) (P : ℕ) (hP : 0 < P)
    (pid : Coord → ℕ) (L : ℕ → Loc) (hn : Numbered D P pid L) (hc : (setup2 P (tot D 0) (tot D 1) L).Counts) (ρ : ℕ → ℕ → ℝ) :
    ∃ ψ, IsPotential q (tot D 0) (tot D 1) 1 (fun i j _ => ρ i j) ψ ∧ ∀ scr scr' ord ord' b b',
      Arrive2 (setup2 P (tot D 0) (tot D 1) L) ord → Arrive2 (setup2 P (tot D 0) (tot D 1) L) ord' →
      ∃ Φ, selfg2 q P (tot D 0) (tot D 1) L scr scr' ord ord' (fun p i j => ρ ((L p).D1 + i) ((L p).D2 + j)) b b' = some Φ
        ∧ ∀ (o : Fin 3 → Coord → Bool) (s : Coord → Idx → ℝ),
          (∀ C, D.Has C → ∀ i < D.gnx C 0, ∀ j < D.gnx C 1, s C (mkIdx (first0 c D 0 + i) (first0 c D 1 + j) 0) = Φ (pid C) i j) →
          ∃ s', (∀ C, D.Has C → bvalsPhi c (bufPhi c Ds) D o s C = .ok (s' C)) ∧ HoldAll c D ψ s' := by
  obtain ⟨ψ, hψ, h⟩ := selfg2_parallel_partial hq h0 h1 ρ
  refine ⟨ψ, hψ, fun scr scr' ord ord' b b' ho ho' => ?_⟩
  obtain ⟨Φ, e, hΦ⟩ := h P L hP (hn.divided2 (by omega)) hc scr scr' ord ord' b b' ho ho'
  refine ⟨Φ, e, fun o s hs => fill_ghosts hm hD hp hψ.per1 hψ.per2 (by rw [h2]; exact hψ.per3) o s ?_⟩
  intro C hC y hy
  have hf : first0 c D 2 = 0 := by unfold first0; rw [if_neg (by omega)]
  have hb : ∀ t, 0 ≤ y t - first0 c D t ∧ y t - first0 c D t < D.gnx C t := by
    intro t
    have := hy t
    rw [lo_first hm hD hC, hi_first hm hD hC] at this
    omega
  have hi : ∀ t, (((y t - first0 c D t).toNat : ℕ) : ℤ) = y t - first0 c D t := fun t => Int.toNat_of_nonneg (hb t).1
  have hl : ∀ t, (y t - first0 c D t).toNat < D.gnx C t := fun t => by have := hi t; have := hb t; omega
  have := hs C hC _ (hl 0) _ (hl 1)
  rw [hi, hi, add_sub_cancel, add_sub_cancel] at this
  have hb2 := hb 2
  have he := end_le hC 2
  rw [hf] at hb2
  have y2 : y 2 = 0 := by omega
  have d2 : disp D 2 (C 2) = 0 := by omega
  have ey : mkIdx (y 0) (y 1) 0 = y := by
    funext t
    have ht : t = 0 ∨ t = 1 ∨ t = 2 := by fin_cases t <;> decide
    rcases ht with rfl | rfl | rfl
    · rfl
    · rfl
    · rw [y2]; rfl
  rw [ey] at this
  rw [this, hΦ _ (hn.lt C hC) _ (by rw [hn.loc C hC]; exact hl 0) _ (by rw [hn.loc C hC]; exact hl 1), hn.loc C hC]
  unfold zoneOf
  have e0 := hi 0
  have e1 := hi 1
  dsimp only
  rw [hf, d2, y2]
  push_cast
  congr 1 <;> omega

/-- The hypotheses are met: `8 * 4 * 6` zones, periodic, on two Grids divided along x1. -/
example : ∃ (D : Dom) (P : ℕ) (pid : Coord → ℕ) (L : ℕ → Loc), Regular ⟨2, false, false, 0⟩ D ∧ (∀ d, D.bcIn d = .periodic ∧ D.bcOut d = .periodic)
    ∧ (∀ t, 0 < tot D t) ∧ 1 < P ∧ Numbered D P pid L ∧ (setup3 P (tot D 0) (tot D 1) (tot D 2) L).Counts := by
  refine ⟨⟨fun t => if t = 0 then 2 else 1, fun t _ => if t = 0 then 4 else if t = 1 then 4 else 6, fun _ => .periodic, fun _ => .periodic⟩, 2,
    fun C => C 0, fun p => ⟨4 * p, 0, 0, 4, 4, 6⟩, ⟨?_, ?_, ?_, ?_, ?_⟩, fun _ => ⟨rfl, rfl⟩, ?_, by decide, ⟨?_, ?_, ?_⟩, ?_⟩
  · intro C _
    refine ⟨by decide, ?_, ?_⟩
    · intro t
      have ht : t = 0 ∨ t = 1 ∨ t = 2 := by fin_cases t <;> decide
      rcases ht with rfl | rfl | rfl <;> simp [Dom.gnx]
    · intro t d _ _
      have ht : t = 0 ∨ t = 1 ∨ t = 2 := by fin_cases t <;> decide
      rcases ht with rfl | rfl | rfl <;> simp [Dom.gnx]
  · intro t _ i _
    have ht : t = 0 ∨ t = 1 ∨ t = 2 := by fin_cases t <;> decide
    rcases ht with rfl | rfl | rfl <;> simp
  · intro _; simp
  · intro _; simp
  · intro _ _; exact Iff.rfl
  · intro t
    have ht : t = 0 ∨ t = 1 ∨ t = 2 := by fin_cases t <;> decide
    rcases ht with rfl | rfl | rfl <;> decide
  · intro C hC; exact hC 0
  · intro p hp
    refine ⟨fun t => if t = 0 then p else 0, fun t => ?_, by simp⟩
    have ht : t = 0 ∨ t = 1 ∨ t = 2 := by fin_cases t <;> decide
    rcases ht with rfl | rfl | rfl <;> simp
    omega
  · intro C hC
    have h0 : C 0 < 2 := hC 0
    have h1 : C 1 < 1 := hC 1
    have h2 : C 2 < 1 := hC 2
    have c1 : C 1 = 0 := by omega
    have c2 : C 2 = 0 := by omega
    rw [c1, c2]
    have : C 0 = 0 ∨ C 0 = 1 := by omega
    rcases this with h | h <;> rw [h] <;> rfl
  · exact counts_distinct _ (by decide) (by decide) (by decide) (by decide) (by decide)

end Athena.GravGrids
