import Verif.Integr.MirrorRun
import Mathlib.Tactic.FieldSimp

/-!
# Mirrored runs: instances and the outflow boundary (C67)
-/

namespace Athena.Gen
open Athena.Bvals hiding Rng
open Athena.Vl3

/-- The flux of ideal MHD along x, adiabatic index 5/3. -/
noncomputable def mhdF (u : Cons1 ℝ 1) (w : Prim1 ℝ 1) (b : ℝ) : Cons1 ℝ 1 where
  d := u.Mx
  Mx := u.Mx * w.Vx + w.P + (u.By ^ 2 + u.Bz ^ 2 - b ^ 2) / 2
  My := u.Mx * w.Vy - b * u.By
  Mz := u.Mx * w.Vz - b * u.Bz
  E := (u.E + w.P + (b ^ 2 + u.By ^ 2 + u.Bz ^ 2) / 2) * w.Vx - b * (b * w.Vx + u.By * w.Vy + u.Bz * w.Vz)
  By := u.By * w.Vx - b * w.Vy
  Bz := u.Bz * w.Vx - b * w.Vz
  s := fun n => u.s n * w.Vx

/-- Donor cell and a local Lax-Friedrichs flux: the mean of the fluxes of the two states less half a speed times their difference. -/
noncomputable def exM : Funs ℝ 1 where
  c2p1 u b := ⟨u.d, u.Mx / u.d, u.My / u.d, u.Mz / u.d,
    (u.E - (u.Mx ^ 2 + u.My ^ 2 + u.Mz ^ 2) / u.d / 2 - (b ^ 2 + u.By ^ 2 + u.Bz ^ 2) / 2) * 2 / 3, u.By, u.Bz, fun n => u.s n / u.d⟩
  p2c1 w b := ⟨w.d, w.d * w.Vx, w.d * w.Vy, w.d * w.Vz,
    w.P * 3 / 2 + w.d * (w.Vx ^ 2 + w.Vy ^ 2 + w.Vz ^ 2) / 2 + (b ^ 2 + w.By ^ 2 + w.Bz ^ 2) / 2, w.By, w.Bz, fun n => w.d * w.r n⟩
  c2p u := ⟨u.M1 / u.d, u.M2 / u.d, u.M3 / u.d, u.B1c, u.B2c, u.B3c⟩
  flux ul ur wl wr b :=
    let F := mhdF ul wl b
    let G := mhdF ur wr b
    let a := |wl.Vx| + |wr.Vx| + 1
    ⟨(F.d + G.d - a * (ur.d - ul.d)) / 2, (F.Mx + G.Mx - a * (ur.Mx - ul.Mx)) / 2, (F.My + G.My - a * (ur.My - ul.My)) / 2,
      (F.Mz + G.Mz - a * (ur.Mz - ul.Mz)) / 2, (F.E + G.E - a * (ur.E - ul.E)) / 2, (F.By + G.By - a * (ur.By - ul.By)) / 2,
      (F.Bz + G.Bz - a * (ur.Bz - ul.Bz)) / 2, fun n => (F.s n + G.s n - a * (ur.s n - ul.s n)) / 2⟩
  lr _ _ _ w _ := (w (-1), w 0)
  dMin := 1 / 1000

theorem exM_local : exM.Local := by
  intro _ _ d w w' b b' h
  simp only [exM]
  rw [(h (-1) (by omega) (by omega)).1, (h 0 (by omega) (by omega)).1]

theorem exM_isotropic : exM.Isotropic := ⟨fun _ _ _ _ _ _ => rfl, fun _ => rfl⟩

theorem exM_mirror : exM.Mirror where
  toX u b := by simp [exM, Cons1.mX, Prim1.mX, neg_div]
  toY u b := by simp [exM, Cons1.nY, Prim1.nY, neg_div]
  toZ u b := by simp [exM, Cons1.nZ, Prim1.nZ, neg_div]
  ofX u b := by simp [exM, Cons1.mX, Prim1.mX]
  ofY u b := by simp [exM, Cons1.nY, Prim1.nY]
  ofZ u b := by simp [exM, Cons1.nZ, Prim1.nZ]
  to1 u := by simp [exM, Cons.m1, Prim.m1, neg_div]
  to2 u := by simp [exM, Cons.m2, Prim.m2, neg_div]
  to3 u := by simp [exM, Cons.m3, Prim.m3, neg_div]
  fluxX ul ur wl wr b := by
    simp only [exM, mhdF, Cons1.mX, Prim1.mX, Cons1.fX, abs_neg, Cons1.mk.injEq]
    refine ⟨?_, ?_, ?_, ?_, ?_, ?_, ?_, funext fun n => ?_⟩ <;> ring
  fluxY ul ur wl wr b := by
    simp only [exM, mhdF, Cons1.nY, Prim1.nY, Cons1.mk.injEq]
    refine ⟨?_, ?_, ?_, ?_, ?_, ?_, ?_, ?_⟩ <;> first | trivial | ring
  fluxZ ul ur wl wr b := by
    simp only [exM, mhdF, Cons1.nZ, Prim1.nZ, Cons1.mk.injEq]
    refine ⟨?_, ?_, ?_, ?_, ?_, ?_, ?_, ?_⟩ <;> first | trivial | ring
  lrX _ _ _ w b := by simp [exM]
  lrY _ _ _ w b := by simp [exM]
  lrZ _ _ _ w b := by simp [exM]

/-- The contents of `G` with direction `t` reversed. -/
noncomputable def mirGrid (c : Cfg) (t : Fin 3) (G : Grid ℝ) : Grid ℝ where
  nx := G.nx
  U := fun y v => mirSgn t (.cell v) * G.U (mirIdx c G.nx t (.cell v) y) v
  Bi := fun n y => mirSgn t (.face n) * G.Bi n (mirIdx c G.nx t (.face n) y)

theorem mirGrid_val (c : Cfg) (t : Fin 3) (G : Grid ℝ) (f : Fld) (y : Idx) :
    f.val (mirGrid c t G) y = mirSgn t f * f.val G (mirIdx c G.nx t f y) := by
  cases f <;> rfl

/-- `exD` with a reflecting wall at the inner and a conducting one at the outer end of x1, on one Grid in that direction, and its image. -/
def exDm (w : Which) (sw : Bool) : Dom where
  NG := fun _ => 1
  nx := fun t _ => if t = 0 then 9 else if dims w t then 4 else 1
  bcIn := fun t => if t = 0 then (if sw then .conduct else .reflect) else .periodic
  bcOut := fun t => if t = 0 then (if sw then .reflect else .conduct) else .periodic

theorem exDm_regular (w : Which) (sw : Bool) : Regular (cfg 4 1) (exDm w sw) where
  dims C hC := by
    have e : ∀ t, (exDm w sw).gnx C t = if t = 0 then 9 else if dims w t then 4 else 1 := fun t => rfl
    refine ⟨by decide, ?_, ?_⟩
    · intro t; rw [e]; show _ ∨ _ ∧ 4 ≤ _; split_ifs <;> omega
    · intro t d htd h
      rw [e] at h ⊢
      cases w <;> rcases three t with rfl | rfl | rfl <;> rcases three d with rfl | rfl | rfl <;>
        simp [dims, A1, A2, A3] at htd h ⊢
  split t hN := by simp [exDm] at hN
  kin t := by simp only [exDm]; split_ifs <;> simp
  kout t := by simp only [exDm]; split_ifs <;> simp
  per t hN := by simp [exDm] at hN

theorem exDm_tot (w : Which) (sw : Bool) (t : Fin 3) : tot (exDm w sw) t = if t = 0 then 9 else if dims w t then 4 else 1 := by
  cases w <;> rcases three t with rfl | rfl | rfl <;> rfl

theorem exDm_init (K : Kind) (w : Which) (sw : Bool) : integrateInit K (tot (exDm w sw)) false = .ok (some w) := by
  have h0 : tot (exDm w sw) 0 = 9 := by rw [exDm_tot, if_pos rfl]
  have h1 := exDm_tot w sw 1
  have h2 := exDm_tot w sw 2
  unfold integrateInit
  rw [h0, h1, h2]
  cases w <;> cases K <;> rfl

theorem exDm_mirror (w : Which) : MirrorDomain 0 (exDm w false) (exDm w true) :=
  ⟨rfl, fun u => by simp only [exDm]; split_ifs <;> simp_all, fun u => by simp only [exDm]; split_ifs <;> simp_all⟩

theorem has_exDm (w : Which) (sw : Bool) : (exDm w sw).Has (fun _ => 0) := by intro t; simp [exDm]

/-- Runs, for every integrator and dimension, that satisfy the hypotheses of `run_mirror_partial`: different walls at the two ends, a state
that differs from zone to zone; so the conclusion holds for them. -/
example (K : Kind) (w : Which) : ∃ (s s' : ℕ → Coord → Grid ℝ) (J : ℕ → Coord → Works ℝ 1),
    IsRun (integ exM K w) (fun _ => ⟨0.1, 1, 2, 3⟩) 4 (bufSize (cfg 4 1) [exDm w false]) (exDm w false) (fun _ _ _ => false) J s ∧
    IsRun (integ exM K w) (fun _ => ⟨0.1, 1, 2, 3⟩) 4 (bufSize (cfg 4 1) [exDm w true]) (exDm w true) (fun _ _ _ => true) J s' ∧
    Start (cfg 4 1) (bufSize (cfg 4 1) [exDm w false]) (exDm w false) ⟨tot (exDm w false), (exG2 w).U, (exG2 w).Bi⟩ (s 0) ∧
    (∀ n, (s' n (fun _ => 0)).U (mkIdx 5 4 4) (.M 0) = -(s n (fun _ => 0)).U (mkIdx 11 4 4) (.M 0) ∨ w ≠ .d3) ∧
    (∀ n, (s' n (fun _ => 0)).U (mkIdx 5 0 0) .d = (s n (fun _ => 0)).U (mkIdx 11 0 0) .d) := by
  have hm : exDm w false ∈ [exDm w false] := List.mem_singleton.2 rfl
  have hm' : exDm w true ∈ [exDm w true] := List.mem_singleton.2 rfl
  let J : ℕ → Coord → Works ℝ 1 := fun _ _ => default
  let Gi : Grid ℝ := ⟨tot (exDm w false), (exG2 w).U, (exG2 w).Bi⟩
  obtain ⟨s, hst, hr⟩ := runs_exist (integ exM K w) (fun _ => ⟨0.1, 1, 2, 3⟩) hm (exDm_regular w false) ⟨_, has_exDm w false⟩ (fun _ _ _ => false) J Gi rfl
  obtain ⟨s', hst', hr'⟩ := runs_exist (integ exM K w) (fun _ => ⟨0.1, 1, 2, 3⟩) hm' (exDm_regular w true) ⟨_, has_exDm w true⟩ (fun _ _ _ => true) J
    (mirGrid (cfg 4 1) 0 Gi) rfl
  have key := run_mirror_partial exM exM_local exM_mirror K w (fun _ => exM_isotropic) (fun _ => ⟨0.1, 1, 2, 3⟩) (by omega) _ _ _ _ hm hm'
    (exDm_regular w false) (exDm_regular w true) (exDm_init K w false) 0 (exDm_mirror w) (fun _ => by simp [exDm]) _ _ J J s s' hr hr' Gi _ hst hst'
    (fun f _ y _ => mirGrid_val _ _ _ _ _)
  refine ⟨s, s', J, hr, hr', hst, fun n => ?_, fun n => ?_⟩
  · by_cases hw : w = .d3
    · subst hw
      left
      have := key n (fun _ => 0) (fun _ => 0) (has_exDm _ _) (has_exDm _ _) (.cell (.M 0)) (by simp [Fld.In, vars]) (mkIdx 11 4 4) (mkIdx 5 4 4)
        (by intro t; rcases three t with rfl | rfl | rfl <;> decide) (by intro t; rcases three t with rfl | rfl | rfl <;> decide)
        (by funext t; rcases three t with rfl | rfl | rfl <;> decide)
      simpa [mirSgn, Fld.val] using this
    · right; exact hw
  · have := key n (fun _ => 0) (fun _ => 0) (has_exDm _ _) (has_exDm _ _) (.cell .d) (by simp [Fld.In, vars]) (mkIdx 11 0 0) (mkIdx 5 0 0)
      (by intro t; cases w <;> rcases three t with rfl | rfl | rfl <;> decide) (by intro t; cases w <;> rcases three t with rfl | rfl | rfl <;> decide)
      (by funext t; cases w <;> rcases three t with rfl | rfl | rfl <;> decide)
    simpa [mirSgn, Fld.val] using this

/-! ## Outflow -/

/-- Four by four zones on one Grid, outflow at both ends of x1. -/
def exDo : Dom where
  NG := fun _ => 1
  nx := fun t _ => if t = 2 then 1 else 4
  bcIn := fun t => if t = 0 then .outflow else .periodic
  bcOut := fun t => if t = 0 then .outflow else .periodic

theorem exDo_regular : Regular (cfg 4 1) exDo where
  dims C hC := by
    refine ⟨by decide, ?_, ?_⟩
    · intro t; show _ ∨ _ ∧ 4 ≤ _; simp only [Dom.gnx, exDo]; split_ifs <;> omega
    · intro t d htd h
      rcases three t with rfl | rfl | rfl <;> rcases three d with rfl | rfl | rfl <;> simp [Dom.gnx, exDo] at htd h ⊢
  split t hN := by simp [exDo] at hN
  kin t := by simp only [exDo]; split_ifs <;> simp
  kout t := by simp only [exDo]; split_ifs <;> simp
  per t hN := by simp [exDo] at hN

/-- Gas at rest with the divergence-free field (x1, -x2). -/
noncomputable def exGo : Grid ℝ where
  nx := tot exDo
  U := fun y v => match v with | .d => 1 | .M _ => 0 | .E => 50 | .Bc n => if n = 0 then y 0 + 1 / 2 else if n = 1 then -(y 1 + 1 / 2) else 0 | .s _ => 0
  Bi := fun n y => if n = 0 then y 0 else if n = 1 then -(y 1) else 0

/-- Outflow and periodic boundaries change no sign. -/
theorem image_plain {c : Cfg} {ki ko : Fin 3 → Bvals.Kind} (h : ∀ t, ki t ≠ .reflect ∧ ki t ≠ .conduct ∧ ko t ≠ .reflect ∧ ko t ≠ .conduct)
    (G : Grid ℝ) (f : Fld) (y : Idx) :
    image c ki ko G f y = f.val G (fun t => imgJ (ki t) (ko t) (lo c G.nx t) (hi c G.nx t) (extra G.nx f t) (G.nx t) (y t)) := by
  have ho : ∀ t, ¬ Bvals.Odd (ki t) t f ∧ ¬ Bvals.Odd (ko t) t f := by
    intro t; have := h t; simp [Bvals.Odd, this.1, this.2.1, this.2.2.1, this.2.2.2]
  have hw : ¬ ∃ t, OnWall c ki ko G.nx f y t := by
    rintro ⟨t, _, _, ⟨h1, _⟩ | ⟨h1, _⟩⟩
    · exact (h t).1 h1
    · exact (h t).2.2.1 h1
  have hm : ∀ t, ¬ Minus c ki ko G.nx f y t := by
    rintro t (⟨_, h1⟩ | ⟨_, h1⟩)
    · exact (ho t).1 h1
    · exact (ho t).2 h1
  unfold image
  dsimp only
  rw [if_neg hw, if_neg (hm 2), if_neg (hm 1), if_neg (hm 0)]

/-- **C67.** With outflow boundaries the statement is false: two runs with mirrored data and boundary conditions whose ghost faces are not
images of each other.  The inner boundary copies the field of the face on the boundary, the outer one that of the face before. -/
theorem outflow_mirror_false (K : Kind) (q : ℕ → Step ℝ) :
    ∃ (D : Dom) (Gi Gi' : Grid ℝ) (s s' : ℕ → Coord → Grid ℝ) (J : ℕ → Coord → Works ℝ 1) (y y' : Idx),
      Regular (cfg 4 1) D ∧ integrateInit K (tot D) false = .ok (some .d2) ∧ MirrorDomain 0 D D ∧
      IsRun (integ exM K .d2) q 4 (bufSize (cfg 4 1) [D]) D (fun _ _ _ => false) J s ∧
      IsRun (integ exM K .d2) q 4 (bufSize (cfg 4 1) [D]) D (fun _ _ _ => false) J s' ∧
      Start (cfg 4 1) (bufSize (cfg 4 1) [D]) D Gi (s 0) ∧ Start (cfg 4 1) (bufSize (cfg 4 1) [D]) D Gi' (s' 0) ∧
      (∀ f : Fld, f.In (cfg 4 1) → ∀ y, Active (cfg 4 1) (tot D) f y → f.val Gi' y = mirSgn 0 f * f.val Gi (mirIdx (cfg 4 1) (tot D) 0 f y)) ∧
      D.Has (fun _ => 0) ∧ Stored (cfg 4 1) (D.gnx (fun _ => 0)) (.face 0) y ∧ Stored (cfg 4 1) (D.gnx (fun _ => 0)) (.face 0) y' ∧
      gl D (fun _ => 0) y = mirIdx (cfg 4 1) (tot D) 0 (.face 0) (gl D (fun _ => 0) y') ∧
      (s' 0 (fun _ => 0)).Bi 0 y' ≠ -(s 0 (fun _ => 0)).Bi 0 y := by
  have hm : exDo ∈ [exDo] := List.mem_singleton.2 rfl
  have hC : exDo.Has (fun _ => 0) := by intro t; simp [exDo]
  have hin : integrateInit K (tot exDo) false = .ok (some .d2) := by cases K <;> rfl
  let J : ℕ → Coord → Works ℝ 1 := fun _ _ => default
  obtain ⟨s, hst, hr⟩ := runs_exist (integ exM K .d2) q hm exDo_regular ⟨_, hC⟩ (fun _ _ _ => false) J exGo rfl
  obtain ⟨s', hst', hr'⟩ := runs_exist (integ exM K .d2) q hm exDo_regular ⟨_, hC⟩ (fun _ _ _ => false) J (mirGrid (cfg 4 1) 0 exGo) rfl
  have hy : Stored (cfg 4 1) (exDo.gnx (fun _ => 0)) (.face 0) (mkIdx 3 4 0) := by
    intro t; rcases three t with rfl | rfl | rfl <;> decide
  have hy' : Stored (cfg 4 1) (exDo.gnx (fun _ => 0)) (.face 0) (mkIdx 9 4 0) := by
    intro t; rcases three t with rfl | rfl | rfl <;> decide
  have hg : ∀ y, gl exDo (fun _ => 0) y = y := by
    intro y; funext t; rcases three t with rfl | rfl | rfl <;> simp [gl, exDo, disp]
  refine ⟨exDo, exGo, _, s, s', J, mkIdx 3 4 0, mkIdx 9 4 0, exDo_regular, hin,
    ⟨rfl, fun u => by simp only [exDo]; split_ifs <;> simp_all, fun u => by simp only [exDo]; split_ifs <;> simp_all⟩, hr, hr', hst, hst',
    fun f _ y _ => mirGrid_val _ _ _ _ _, hC, hy, hy', ?_, ?_⟩
  · rw [hg, hg]; funext t; rcases three t with rfl | rfl | rfl <;> decide
  have hdD := init_hasDim hin hm exDo_regular (fun _ => Iff.rfl)
  obtain ⟨G, o0, _, _, e0, _, _, _, hE⟩ := companion (integ_lattice exM exM_local K .d2) q (by omega) _ _ hm exDo_regular ⟨_, hC⟩ hdD _ _ s hr _ hst
  obtain ⟨G', o0', _, _, e0', _, _, _, hE'⟩ := companion (integ_lattice exM exM_local K .d2) q (by omega) _ _ hm exDo_regular ⟨_, hC⟩ hdD _ _ s' hr' _ hst'
  have v := hE 0 _ hC (.face 0) rfl _ hy
  have v' := hE' 0 _ hC (.face 0) rfl _ hy'
  rw [hg] at v v'
  have ht : tot exDo = exDo.gnx (fun _ => 0) := by funext t; rcases three t with rfl | rfl | rfl <;> decide
  have hk : ∀ t, exDo.bcIn t ≠ .reflect ∧ exDo.bcIn t ≠ .conduct ∧ exDo.bcOut t ≠ .reflect ∧ exDo.bcOut t ≠ .conduct := by
    intro t; simp only [exDo]; split_ifs <;> simp
  rw [(filled_of hm exDo_regular ⟨_, hC⟩ rfl e0).2 (.face 0) rfl _ (show Stored (cfg 4 1) (tot exDo) _ _ by rw [ht]; exact hy), image_plain hk] at v
  rw [(filled_of hm exDo_regular ⟨_, hC⟩ rfl e0').2 (.face 0) rfl _ (show Stored (cfg 4 1) (tot exDo) _ _ by rw [ht]; exact hy'), image_plain hk,
    mirGrid_val] at v'
  simp only [Fld.val] at v v'
  rw [v, v']
  have a0 : imgJ (exDo.bcIn 0) (exDo.bcOut 0) (lo (cfg 4 1) exGo.nx 0) (hi (cfg 4 1) exGo.nx 0) (extra exGo.nx (.face 0) 0) (exGo.nx 0) (mkIdx 3 4 0 0) = 4 := by
    show imgJ (exDo.bcIn 0) (exDo.bcOut 0) (lo (cfg 4 1) (tot exDo) 0) (hi (cfg 4 1) (tot exDo) 0) (extra (tot exDo) (.face 0) 0) (tot exDo 0) (mkIdx 3 4 0 0) = 4
    decide
  have a1 : mirIdx (cfg 4 1) exGo.nx 0 (.face 0) (fun t => imgJ (exDo.bcIn t) (exDo.bcOut t) (lo (cfg 4 1) (mirGrid (cfg 4 1) 0 exGo).nx t)
      (hi (cfg 4 1) (mirGrid (cfg 4 1) 0 exGo).nx t) (extra (mirGrid (cfg 4 1) 0 exGo).nx (.face 0) t) ((mirGrid (cfg 4 1) 0 exGo).nx t) (mkIdx 9 4 0 t)) 0 = 5 := by
    show mirIdx (cfg 4 1) (tot exDo) 0 (.face 0) (fun t => imgJ (exDo.bcIn t) (exDo.bcOut t) (lo (cfg 4 1) (tot exDo) t)
      (hi (cfg 4 1) (tot exDo) t) (extra (tot exDo) (.face 0) t) (tot exDo t) (mkIdx 9 4 0 t)) 0 = 5
    decide
  show _ * exGo.Bi 0 _ ≠ -exGo.Bi 0 _
  have b : ∀ y, exGo.Bi 0 y = y 0 := fun y => rfl
  rw [b, b, a1, a0]
  norm_num [mirSgn]

end Athena.Gen
