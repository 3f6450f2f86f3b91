import Verif.Integr.FlatRun
import Verif.Integr.Ex
import Verif.Integr.Sym
import Mathlib.Tactic.FieldSimp

/-!
# C68: the hypotheses of the theorems hold together
-/

namespace Athena.Gen
open Athena.Bvals hiding Rng
open Athena.Vl3
open Num

/-- Exact conversions, central fluxes with some diffusion, no mass flux, donor cell. -/
noncomputable def plainF : Funs ℝ 1 where
  c2p1 u _ := ⟨u.d, u.Mx / u.d, u.My / u.d, u.Mz / u.d, u.E, u.By, u.Bz, fun n => u.s n / u.d⟩
  p2c1 w _ := ⟨w.d, w.d * w.Vx, w.d * w.Vy, w.d * w.Vz, w.P, w.By, w.Bz, fun n => w.d * w.r n⟩
  c2p u := ⟨u.M1 / u.d, u.M2 / u.d, u.M3 / u.d, u.B1c, u.B2c, u.B3c⟩
  flux ul ur wl wr b := ⟨0, (wl.By ^ 2 + wr.By ^ 2) / 2, ul.Mx * wl.Vy - b * wr.By, ur.Mx * wr.Vz - b * wl.Bz, ul.E - ur.E,
    (wl.By * wl.Vx - b * wl.Vy + (wr.By * wr.Vx - b * wr.Vy)) / 2 - (ur.By - ul.By),
    (wl.Bz * wl.Vx - b * wl.Vz + (wr.Bz * wr.Vx - b * wr.Vz)) / 2 - (ur.Bz - ul.Bz), fun n => wl.Vx * ul.s n⟩
  lr _ _ _ w _ := (w (-1), w 0)
  dMin := 1 / 1000

theorem plainF_local : plainF.Local := by
  intro _ _ d w w' b b' h
  simp only [plainF]
  rw [(h (-1) (by omega) (by omega)).1, (h 0 (by omega) (by omega)).1]

theorem plainF_plain : plainF.Plain where
  fluxY u w b := by simp only [plainF]; ring
  fluxZ u w b := by simp only [plainF]; ring
  lr _ _ _ _ _ := rfl
  d _ _ := rfl
  x _ _ := rfl
  y _ _ := rfl
  z _ _ := rfl
  By _ _ := rfl
  Bz _ _ := rfl
  c2p _ := rfl

theorem plainF_exact : plainF.Exact where
  dens _ _ := rfl
  back u b h := by
    have h' : u.d ≠ 0 := by have : (1 / 1000 : ℝ) ≤ u.d := h; intro e; rw [e] at this; norm_num at this
    simp only [plainF]
    ext <;> simp only <;> field_simp
  forth w b h := by
    have h' : w.d ≠ 0 := by have : (1 / 1000 : ℝ) ≤ w.d := h; intro e; rw [e] at this; norm_num at this
    simp only [plainF]
    ext <;> simp only <;> field_simp

/-- The density does not change. -/
theorem plainF_d (K : Kind) {w : Which} (hw : w ≠ .d3) (q : Step ℝ) (L : St ℝ 1) (k j i : ℤ) :
    ((latt plainF K w q L).U k j i).d = (L.U k j i).d := by
  have f0 : ∀ ul ur wl wr b, (plainF.flux ul ur wl wr b).d = 0 := fun _ _ _ _ _ => rfl
  cases w
  · cases K <;> simp only [latt, lat1, updA1, upd1, lvFlux', lcFlux, side, f0, sub_self, mul_zero, sub_zero]
  · cases K <;> simp only [latt, latV2, latC2, lat2, avg2, updB1, updB2, upd1, upd2, o2G1, o2G2, d2G1, d2G2, side, fluxC, f0, sub_self, mul_zero,
      sub_zero]
  · exact absurd rfl hw

/-- A state that differs along x1 only. -/
noncomputable def flatVal (x : ℤ) : Fld → ℝ
  | .cell .d => 2 + 1 / (1 + (x : ℝ) ^ 2)
  | .cell (.M n) => (n.val + 1) * x
  | .cell .E => 3
  | .cell (.Bc n) => if n = 0 then 1 / 2 else n.val * x
  | .cell (.s _) => x
  | .face n => if n = 0 then 1 / 2 else n.val * x

noncomputable def flatG (w : Which) : Grid ℝ := ⟨tot (exD w), fun y v => flatVal (y 0) (.cell v), fun n y => flatVal (y 0) (.face n)⟩

theorem flatG_val (w : Which) (f : Fld) (y : Idx) : f.val (flatG w) y = flatVal (y 0) f := by cases f <;> rfl

theorem flatG_closed (w : Which) : Closed (cfg 4 1) (flatG w) := by
  intro t y _ h
  rcases three t with rfl | rfl | rfl <;> rfl

/-- The state before the first cycle. -/
theorem start_ext {M : Funs ℝ 1} (hM : M.Local) {K : Kind} {w : Which} {q : ℕ → Step ℝ} {o : ℕ → Fin 3 → Coord → Bool} {J : ℕ → Coord → Works ℝ 1}
    {s : ℕ → Coord → Grid ℝ} {Gi : Grid ℝ} (hs : IsRun (integ M K w) q 4 (bufSize (cfg 4 1) [exD w]) (exD w) o J s)
    (hst : Start (cfg 4 1) (bufSize (cfg 4 1) [exD w]) (exD w) Gi (s 0)) (hcl : Closed (cfg 4 1) Gi) {C : Coord} (hC : (exD w).Has C) {f : Fld}
    (hf : f.In (cfg 4 1)) {y : Idx} (hy : Stored (cfg 4 1) ((exD w).gnx C) f y) :
    f.val (s 0 C) y = f.val Gi (fun t => wrap (lo (cfg 4 1) (tot (exD w)) t) (tot (exD w) t) (gl (exD w) C y t)) := by
  have hm : exD w ∈ [exD w] := List.mem_singleton.2 rfl
  have hR := exD_regular w
  have hA := init_hasDim (exD_init K w) hm hR (fun _ => Iff.rfl)
  obtain ⟨G, o0, o', J', e0, _, hGn, hsn, hE⟩ := companion (integ_lattice M hM K w) q (by omega) [exD w] (exD w) hm hR ⟨C, hC⟩ hA o J s hs Gi hst
  have hA' := hasDim_tot (hR.ok hm) hC (hA C hC)
  have hb0 := bvals_lat (ng := 4) (L := ext 1 (cfg 4 1) Gi) (fun t _ => ⟨rfl, rfl⟩) hst.nx (dims_tot (hR.ok hm) hC) hA' hR.kin hR.kout e0
    (by rw [← hst.nx]; exact ext_periodic _ _) (fun f hf y hy => ext_active (by rw [hst.nx]; exact hA') hcl hf (by rw [hst.nx]; exact hy))
  rw [hE 0 C hC f hf y hy, hb0.2 f hf _ (by rw [hb0.1]; exact stored_iff.1 (inR_gl (hR.ok hm) hC (stored_iff.2 hy)))]
  have hg : f.val (ofSt (G 0) (ext 1 (cfg 4 1) Gi)) (gl (exD w) C y) = f.val (ofSt Gi (ext 1 (cfg 4 1) Gi)) (gl (exD w) C y) := by
    cases f with
    | face n => rfl
    | cell v =>
      cases v with
      | s n =>
        have hn : n < 1 := by simpa [Fld.In, vars, cfg] using hf
        simp only [Fld.val, ofSt, Cons.get, hn, dif_pos]
      | _ => rfl
  rw [hg, ext_val 4 _ hf, hst.nx]


theorem exD_has (w : Which) : (exD w).Has (fun _ => 0) := by intro t; simp only [exD]; split_ifs <;> omega

/-- There is a run from this state. -/
theorem flat_run (K : Kind) (w : Which) (q : ℕ → Step ℝ) : ∃ s, PerRun plainF K w q 4 (exD w) s ∧
    ∀ C, (exD w).Has C → ∀ f : Fld, f.In (cfg 4 1) → ∀ y, Stored (cfg 4 1) ((exD w).gnx C) f y →
      f.val (s 0 C) y = flatVal (wrap 4 9 (gl (exD w) C y 0)) f := by
  have hm : exD w ∈ [exD w] := List.mem_singleton.2 rfl
  have hR := exD_regular w
  obtain ⟨s, hst, hr⟩ := runs_exist (integ plainF K w) q hm hR ⟨_, exD_has w⟩ (fun _ _ _ => false) (fun _ _ => default) (flatG w) rfl
  refine ⟨s, ⟨[exD w], _, _, flatG w, hm, hR, ⟨_, exD_has w⟩, init_hasDim (exD_init K w) hm hR (fun _ => Iff.rfl), fun _ _ => ⟨rfl, rfl⟩, hr, hst,
    flatG_closed w⟩, fun C hC f hf y hy => ?_⟩
  rw [start_ext plainF_local hr hst (flatG_closed w) hC hf hy, flatG_val]
  have h0 : tot (exD w) 0 = 9 := by rw [exD_tot, if_pos rfl]
  simp only [h0, show lo (cfg 4 1) (tot (exD w)) 0 = 4 by simp [lo, h0, cfg]]

theorem flat_stored {w : Which} {C : Coord} (hC : (exD w).Has C) {f : Fld} {y : Idx} (h : Active (cfg 4 1) ((exD w).gnx C) f y) :
    Stored (cfg 4 1) ((exD w).gnx C) f y :=
  Gen.active_stored (init_hasDim (exD_init .vl w) (List.mem_singleton.2 rfl) (exD_regular w) (fun _ => Iff.rfl) C hC) (show 1 ≤ 4 by omega) h

theorem flat_same {w w' : Which} {t0 : Fin 3} (ht : t0 ≠ 0) {s s' : Coord → Grid ℝ}
    (h : ∀ C, (exD w).Has C → ∀ f : Fld, f.In (cfg 4 1) → ∀ y, Stored (cfg 4 1) ((exD w).gnx C) f y →
      f.val (s C) y = flatVal (wrap 4 9 (gl (exD w) C y 0)) f)
    (h' : ∀ C, (exD w').Has C → ∀ f : Fld, f.In (cfg 4 1) → ∀ y, Stored (cfg 4 1) ((exD w').gnx C) f y →
      f.val (s' C) y = flatVal (wrap 4 9 (gl (exD w') C y 0)) f) : SameFlow 4 1 t0 (exD w) (exD w') s s' := by
  intro C C' hC hC' f hf y y' hy hy' hyy
  rw [h C hC _ (lowFld_in hf) y (flat_stored hC hy), h' C' hC' f hf y' (flat_stored hC' hy'), hyy 0 (Ne.symm ht)]
  unfold lowFld
  split_ifs with e
  · rw [e]; rfl
  · rfl

theorem flat_above {K : Kind} {w : Which} (hw : w ≠ .d3) {q : ℕ → Step ℝ} {s : ℕ → Coord → Grid ℝ} (hs : PerRun plainF K w q 4 (exD w) s)
    (h : ∀ C, (exD w).Has C → ∀ f : Fld, f.In (cfg 4 1) → ∀ y, Stored (cfg 4 1) ((exD w).gnx C) f y →
      f.val (s 0 C) y = flatVal (wrap 4 9 (gl (exD w) C y 0)) f) (n : ℕ) : Above 4 1 (exD w) plainF.dMin (s n) := by
  obtain ⟨sz, L, hL⟩ := hs.follows plainF_local (by omega)
  have hd : (Fld.cell .d).In (cfg 4 1) := by simp [Fld.In, vars]
  have h0 : ∀ x : Idx, plainF.dMin ≤ ((L 0).U (x 2) (x 1) (x 0)).d := by
    intro x
    obtain ⟨C, hC, y, hy, hv, _⟩ := near hL.ok hL.dim hL.ne (by omega) (hL.per 0) (hL.val 0) x
    refine le_of_le_of_eq ?_ (hv (.cell .d) hd (s 0 C))
    rw [h C hC _ hd y (flat_stored hC hy)]
    have : (0 : ℝ) ≤ 1 / (1 + ((wrap 4 9 (gl (exD w) C y 0) : ℤ) : ℝ) ^ 2) := by positivity
    show (1 / 1000 : ℝ) ≤ 2 + 1 / (1 + ((wrap 4 9 (gl (exD w) C y 0) : ℤ) : ℝ) ^ 2)
    linarith
  have hn : ∀ n k j i, ((L n).U k j i).d = ((L 0).U k j i).d := by
    intro n
    induction n with
    | zero => exact fun _ _ _ => rfl
    | succ n ih => intro k j i; rw [hL.step, plainF_d K hw, ih]
  intro C hC y hy
  refine le_of_le_of_eq (h0 (gl (exD w) C y)) ?_
  rw [← hn n]
  exact (hL.val n C hC (.cell .d) hd y (flat_stored hC hy) (s n C)).symm

theorem flat_next {w : Which} {C : Coord} (hC : (exD w).Has C) {t : Fin 3} (ht : dims w t = true) {y : Idx}
    (h : Active (cfg 4 1) ((exD w).gnx C) (.cell .d) y) : Stored (cfg 4 1) ((exD w).gnx C) (.face t) (next y t) := by
  have hA := init_hasDim (exD_init .vl w) (List.mem_singleton.2 rfl) (exD_regular w) (fun _ => Iff.rfl) C hC
  refine flat_stored hC fun u => ?_
  have h1 := h u
  have h2 : extra ((exD w).gnx C) (.cell .d) u = 0 := by simp [extra]
  have h3 : extra ((exD w).gnx C) (.face t) t = 1 := by simp [extra, ((hA) t).1.2 ht]
  have h4 : 0 ≤ extra ((exD w).gnx C) (.face t) u := by unfold extra; split_ifs <;> omega
  by_cases hu : u = t
  · subst hu; simp only [next, reduceIte]; omega
  · simp only [next, if_neg hu]; omega

/-- All hypotheses of `run_2d_in_3d` hold together, for both integrators, on Domains divided into two Grids. -/
example (K : Kind) : ∃ s s' : ℕ → Coord → Grid ℝ, PerRun plainF K .d2 (fun _ => ⟨0.1, 1, 2, 3⟩) 4 (exD .d2) s ∧
    PerRun plainF K .d3 (fun _ => ⟨0.1, 1, 2, 7⟩) 4 (exD .d3) s' ∧ Extends 2 (exD .d2) (exD .d3) ∧ SameFlow 4 1 2 (exD .d2) (exD .d3) (s 0) (s' 0) ∧
    FieldOk 4 1 (exD .d2) 1 2 (s 0) ∧ (∀ n, Above 4 1 (exD .d2) plainF.dMin (s n)) ∧
    ∀ n, (s' n (fun _ => 0)).Bi 2 (mkIdx 5 6 7) = (s n (fun _ => 0)).U (mkIdx 5 6 0) (.Bc 2) := by
  obtain ⟨s, hs, h⟩ := flat_run K .d2 (fun _ => ⟨0.1, 1, 2, 3⟩)
  obtain ⟨s', hs', h'⟩ := flat_run K .d3 (fun _ => ⟨0.1, 1, 2, 7⟩)
  have hE : Extends 2 (exD .d2) (exD .d3) := ⟨by rw [exD_tot]; rfl, fun t ht => by
    rw [exD_tot, exD_tot]; rcases three t with rfl | rfl | rfl <;> first | rfl | exact absurd rfl ht⟩
  have hF : FieldOk 4 1 (exD .d2) 1 2 (s 0) := by
    intro C hC y hy
    have hst : ∀ f : Fld, Stored (cfg 4 1) ((exD .d2).gnx C) f y := fun f => flat_stored hC fun u => by
      have h1 := hy u
      have h2 : extra ((exD .d2).gnx C) (.cell .d) u = 0 := by simp [extra]
      have h4 : 0 ≤ extra ((exD .d2).gnx C) f u := by unfold extra; split_ifs <;> omega
      omega
    have a0 := h C hC (.face 0) rfl y (hst _)
    have a1 := h C hC (.face 1) rfl y (hst _)
    have b0 := h C hC (.face 0) rfl (next y 0) (flat_next hC rfl hy)
    have b1 := h C hC (.face 1) rfl (next y 1) (flat_next hC rfl hy)
    have c0 := h C hC (.cell (.Bc 0)) (by simp [Fld.In, vars, cfg]) y (hst _)
    have c1 := h C hC (.cell (.Bc 1)) (by simp [Fld.In, vars, cfg]) y (hst _)
    have e : gl (exD .d2) C (next y 1) 0 = gl (exD .d2) C y 0 := rfl
    rw [e] at b1
    simp only [Fld.val] at a0 a1 b0 b1 c0 c1
    rw [a0, a1, b0, b1, c0, c1]
    refine ⟨?_, ?_, ?_⟩ <;> simp only [flatVal, reduceIte] <;> ring
  have hab := flat_above (by decide) hs h
  have hsame := flat_same (t0 := 2) (by decide) h h'
  refine ⟨s, s', hs, hs', hE, hsame, hF, hab, fun n => ?_⟩
  have := run_2d_in_3d plainF plainF_local plainF_plain K (fun _ => 0.1) 1 2 3 7 (by omega) hE hs hs' hsame (fun _ => ⟨plainF_exact, hF, hab⟩) n
    (fun _ => 0) (fun _ => 0) (exD_has _) (exD_has _) (.face 2) rfl (mkIdx 5 6 0) (mkIdx 5 6 7)
    (by intro t; rcases three t with rfl | rfl | rfl <;> decide) (by intro t; rcases three t with rfl | rfl | rfl <;> decide)
    (by intro t ht; rcases three t with rfl | rfl | rfl <;> first | rfl | exact absurd rfl ht)
  exact this

/-- All hypotheses of `run_1d_in_2d` hold together, for both integrators. -/
example (K : Kind) : ∃ s s' : ℕ → Coord → Grid ℝ, PerRun plainF K .d1 (fun _ => ⟨0.1, 1, 5, 3⟩) 4 (exD .d1) s ∧
    PerRun plainF K .d2 (fun _ => ⟨0.1, 1, 2, 7⟩) 4 (exD .d2) s' ∧ Extends 1 (exD .d1) (exD .d2) ∧ SameFlow 4 1 1 (exD .d1) (exD .d2) (s 0) (s' 0) ∧
    Along 4 1 (exD .d1) (1 / 2) (s 0) ∧ (∀ n, RoundTrip 4 plainF (exD .d1) (s n)) ∧ (∀ n, Above 4 1 (exD .d1) plainF.dMin (s n)) ∧
    ∀ n, (s' n (fun _ => 0)).Bi 1 (mkIdx 5 6 0) = (s n (fun _ => 0)).U (mkIdx 5 0 0) (.Bc 1) := by
  obtain ⟨s, hs, h⟩ := flat_run K .d1 (fun _ => ⟨0.1, 1, 5, 3⟩)
  obtain ⟨s', hs', h'⟩ := flat_run K .d2 (fun _ => ⟨0.1, 1, 2, 7⟩)
  have hE : Extends 1 (exD .d1) (exD .d2) := ⟨by rw [exD_tot]; rfl, fun t ht => by
    rw [exD_tot, exD_tot]; rcases three t with rfl | rfl | rfl <;> first | rfl | exact absurd rfl ht⟩
  have hab := flat_above (by decide) hs h
  have hsame := flat_same (t0 := 1) (by decide) h h'
  have hR : ∀ n, RoundTrip 4 plainF (exD .d1) (s n) := fun n C hC y hy => plainF_exact.back _ _ (hab n C hC y hy)
  have hal : Along 4 1 (exD .d1) (1 / 2) (s 0) := by
    intro C hC y hy
    have hst : Stored (cfg 4 1) ((exD .d1).gnx C) (.face 0) y := flat_stored hC fun u => by
      have h1 := hy u
      have h2 : extra ((exD .d1).gnx C) (.cell .d) u = 0 := by simp [extra]
      have h4 : 0 ≤ extra ((exD .d1).gnx C) (.face 0) u := by unfold extra; split_ifs <;> omega
      omega
    exact ⟨h C hC (.face 0) rfl y hst, h C hC (.cell (.Bc 0)) (by simp [Fld.In, vars, cfg]) y (flat_stored hC hy)⟩
  refine ⟨s, s', hs, hs', hE, hsame, hal, hR, hab, fun n => ?_⟩
  have := run_1d_in_2d plainF plainF_local plainF_plain K (fun _ => 0.1) 1 5 2 3 7 (by omega) hE hs hs' hsame (1 / 2) hal (fun _ => hR)
    (fun _ => ⟨plainF_exact, hab⟩) n (fun _ => 0) (fun _ => 0) (exD_has _) (exD_has _) (.face 1) rfl (mkIdx 5 0 0) (mkIdx 5 6 0)
    (by intro t; rcases three t with rfl | rfl | rfl <;> decide) (by intro t; rcases three t with rfl | rfl | rfl <;> decide)
    (by intro t ht; rcases three t with rfl | rfl | rfl <;> first | rfl | exact absurd rfl ht)
  exact this

end Athena.Gen
