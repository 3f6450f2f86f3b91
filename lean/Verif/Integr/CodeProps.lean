import Verif.Integr.Code
import Verif.Integr.FlatEx

/-!
# C60, C67, C68, C98: the theorems about runs for the functions of the code
-/

namespace Athena.Gen
open Athena.Bvals hiding Rng
open Athena.Vl3
open Athena.Recon (Vec flipV Order lrAt esysIsoHyd esysAdbHyd esysIsoMhd esysAdbMhd)
open Athena.Hydro (Phys cons1DToPrim1D prim1DToCons1D consToPrim hlle)

noncomputable section
variable {ns : ℕ} (p : Phys) (ord : Order) (cf : Recon.Cfg) (dMin : ℝ)

/-! ## Members that are not declared -/

/-- The members of `Cons1DS` that the configuration declares are the same. -/
def SameC (u v : Cons1 ℝ ns) : Prop :=
  u.d = v.d ∧ u.Mx = v.Mx ∧ u.My = v.My ∧ u.Mz = v.Mz ∧ u.s = v.s ∧ (p.iso = false → u.E = v.E) ∧ (p.mhd = true → u.By = v.By ∧ u.Bz = v.Bz)
/-- The members of `Prim1DS` that the configuration declares are the same. -/
def SameW (u v : Prim1 ℝ ns) : Prop :=
  u.d = v.d ∧ u.Vx = v.Vx ∧ u.Vy = v.Vy ∧ u.Vz = v.Vz ∧ u.r = v.r ∧ (p.iso = false → u.P = v.P) ∧ (p.mhd = true → u.By = v.By ∧ u.Bz = v.Bz)

variable {p}

theorem sameC_eq {u v : Cons1 ℝ ns} (h : SameC p u v) : v = ⟨u.d, u.Mx, u.My, u.Mz, if p.iso then v.E else u.E, if p.mhd then u.By else v.By,
    if p.mhd then u.Bz else v.Bz, u.s⟩ := by
  obtain ⟨h1, h2, h3, h4, h5, h6, h7⟩ := h
  cases hi : p.iso <;> cases hm : p.mhd <;> simp_all
theorem sameW_eq {u v : Prim1 ℝ ns} (h : SameW p u v) : v = ⟨u.d, u.Vx, u.Vy, u.Vz, if p.iso then v.P else u.P, if p.mhd then u.By else v.By,
    if p.mhd then u.Bz else v.Bz, u.r⟩ := by
  obtain ⟨h1, h2, h3, h4, h5, h6, h7⟩ := h
  cases hi : p.iso <;> cases hm : p.mhd <;> simp_all

theorem c2p_decl {u v : Cons1 ℝ ns} (h : SameC p u v) (b b' : ℝ) (hb : p.mhd = true → b = b') : cons1DToPrim1D p (toC u) b = cons1DToPrim1D p (toC v) b' := by
  rw [sameC_eq h]
  unfold cons1DToPrim1D toC
  cases hi : p.iso <;> cases hm : p.mhd <;> simp_all
theorem p2c_decl {u v : Prim1 ℝ ns} (h : SameW p u v) (b b' : ℝ) (hb : p.mhd = true → b = b') : prim1DToCons1D p (toW u) b = prim1DToCons1D p (toW v) b' := by
  rw [sameW_eq h]
  unfold prim1DToCons1D toW
  cases hi : p.iso <;> cases hm : p.mhd <;> simp_all
theorem hlle_decl {ul ul' ur ur' : Cons1 ℝ ns} {wl wl' wr wr' : Prim1 ℝ ns} (h1 : SameC p ul ul') (h2 : SameC p ur ur') (h3 : SameW p wl wl')
    (h4 : SameW p wr wr') (b b' : ℝ) (hb : p.mhd = true → b = b') :
    hlle p (toC ul) (toC ur) (toW wl) (toW wr) b = hlle p (toC ul') (toC ur') (toW wl') (toW wr') b' := by
  rw [sameC_eq h1, sameC_eq h2, sameW_eq h3, sameW_eq h4]
  clear h1 h2 h3 h4
  have e1 : Hydro.speeds p (toC ul) (toC ur) (toW wl) (toW wr) b = Hydro.speeds p
      (toC ⟨ul.d, ul.Mx, ul.My, ul.Mz, if p.iso then ul'.E else ul.E, if p.mhd then ul.By else ul'.By, if p.mhd then ul.Bz else ul'.Bz, ul.s⟩)
      (toC ⟨ur.d, ur.Mx, ur.My, ur.Mz, if p.iso then ur'.E else ur.E, if p.mhd then ur.By else ur'.By, if p.mhd then ur.Bz else ur'.Bz, ur.s⟩)
      (toW ⟨wl.d, wl.Vx, wl.Vy, wl.Vz, if p.iso then wl'.P else wl.P, if p.mhd then wl.By else wl'.By, if p.mhd then wl.Bz else wl'.Bz, wl.r⟩)
      (toW ⟨wr.d, wr.Vx, wr.Vy, wr.Vz, if p.iso then wr'.P else wr.P, if p.mhd then wr.By else wr'.By, if p.mhd then wr.Bz else wr'.Bz, wr.r⟩) b' := by
    unfold Hydro.speeds Hydro.roeAvg Hydro.sideC Hydro.roeC Hydro.magP toC toW
    cases hm : p.mhd
    · cases hi : p.iso <;> simp only [hi, hm, if_true, if_false, Bool.false_eq_true]
    · rw [hb hm]
      cases hi : p.iso <;> simp only [hi, hm, if_true, if_false, Bool.false_eq_true]
  have e2 : ∀ (u v : Cons1 ℝ ns) (w z : Prim1 ℝ ns) x, Hydro.sideFlux p (toC u) (toW w) b x = Hydro.sideFlux p
      (toC ⟨u.d, u.Mx, u.My, u.Mz, if p.iso then v.E else u.E, if p.mhd then u.By else v.By, if p.mhd then u.Bz else v.Bz, u.s⟩)
      (toW ⟨w.d, w.Vx, w.Vy, w.Vz, if p.iso then z.P else w.P, if p.mhd then w.By else z.By, if p.mhd then w.Bz else z.Bz, w.r⟩) b' x := by
    intro u v w z x
    unfold Hydro.sideFlux Hydro.magP toC toW
    cases hm : p.mhd
    · cases hi : p.iso <;> simp only [hi, hm, if_true, if_false, Bool.false_eq_true]
    · rw [hb hm]
      cases hi : p.iso <;> simp only [hi, hm, if_true, if_false, Bool.false_eq_true]
  unfold hlle
  rw [← e1]
  simp only [← e2]
  rfl

theorem lrAt_nob {k : ℕ} (E : Vec k ns → Recon.Eig k) (dt dx : ℝ) (W : ℤ → Vec k ns) (b b' : ℤ → ℝ) :
    lrAt ord cf (fun W _ => E W) dt dx W b = lrAt ord cf (fun W _ => E W) dt dx W b' := by
  cases ord <;> rfl

theorem lr_decl {w w' : ℤ → Prim1 ℝ ns} (h : ∀ m, SameW p (w m) (w' m)) (dt dx : ℝ) (b b' : ℤ → ℝ) (hb : p.mhd = true → b = b') :
    lrCode p ord cf dt dx w b = lrCode p ord cf dt dx w' b' := by
  unfold lrCode
  cases hm : p.mhd <;> cases hi : p.iso <;> dsimp only
  · have e : (fun m => enc1 (w m)) = fun m => enc1 (w' m) := by funext m; rw [sameW_eq (h m)]; simp [enc1, hi]
    rw [e, lrAt_nob ord cf _ dt dx _ b b']
  · have e : (fun m => enc0 (w m)) = fun m => enc0 (w' m) := by funext m; rw [sameW_eq (h m)]; simp [enc0]
    rw [e, lrAt_nob ord cf _ dt dx _ b b']
  · have e : (fun m => enc3 (w m)) = fun m => enc3 (w' m) := by funext m; rw [sameW_eq (h m)]; simp [enc3, hi, hm]
    rw [e, hb hm]
  · have e : (fun m => enc2 (w m)) = fun m => enc2 (w' m) := by funext m; rw [sameW_eq (h m)]; simp [enc2, hm]
    rw [e, hb hm]

theorem fillW_decl (z z' w : Prim1 ℝ ns) : SameW p (fillW p z w) (fillW p z' w) := by
  cases hi : p.iso <;> cases hm : p.mhd <;> simp [SameW, fillW, hi, hm]
theorem fillC_decl (z z' w : Cons1 ℝ ns) : SameC p (fillC p z w) (fillC p z' w) := by
  cases hi : p.iso <;> cases hm : p.mhd <;> simp [SameC, fillC, hi, hm]

/-- What the functions return in the members that the configuration declares depends only on such members of the arguments (where the result
of the conversion to primitive variables is defined, and that of the solver). -/
theorem code_decl : let M := codeFuns ns p ord cf dMin
    (∀ u v b b', SameC p u v → (p.mhd = true → b = b') → u.d ≠ 0 → SameW p (M.c2p1 u b) (M.c2p1 v b')) ∧
    (∀ w z b b', SameW p w z → (p.mhd = true → b = b') → SameC p (M.p2c1 w b) (M.p2c1 z b')) ∧
    (∀ ul ul' ur ur' wl wl' wr wr' b b', SameC p ul ul' → SameC p ur ur' → SameW p wl wl' → SameW p wr wr' → (p.mhd = true → b = b') →
      SameC p (M.flux ul ur wl wr b) (M.flux ul' ur' wl' wr' b')) ∧
    (∀ dt dx t w w' b b', (∀ m, SameW p (w m) (w' m)) → (p.mhd = true → b = b') →
      SameW p (M.lr dt dx t w b).1 (M.lr dt dx t w' b').1 ∧ SameW p (M.lr dt dx t w b).2 (M.lr dt dx t w' b').2) := by
  refine ⟨fun u v b b' h hb hd => ?_, fun w z b b' h hb => ?_, fun ul ul' ur ur' wl wl' wr wr' b b' h1 h2 h3 h4 hb => ?_, fun dt dx t w w' b b' h hb => ?_⟩
  · simp only [codeFuns]
    rw [c2p_decl h b b' hb]
    have hs : ∃ x, cons1DToPrim1D p (toC v) b' = some x := by
      unfold cons1DToPrim1D Hydro.fdiv
      rw [if_neg (show (toC v).d ≠ 0 from fun e => hd (h.1.trans e))]
      exact ⟨_, rfl⟩
    obtain ⟨x, hx⟩ := hs
    rw [hx]
    exact fillW_decl _ _ _
  · simp only [codeFuns]
    rw [p2c_decl h b b' hb]
    exact fillC_decl _ _ _
  · simp only [codeFuns]
    rw [hlle_decl h1 h2 h3 h4 b b' hb]
    rcases hlle p (toC ul') (toC ur') (toW wl') (toW wr') b' with _ | x
    · have e := sameW_eq h3
      have e' := sameW_eq h4
      cases hm : p.mhd
      · cases hi : p.iso <;> simp [SameC, fillC, nanF, hi, hm]
      · rw [hb hm, e, e']
        cases hi : p.iso <;> simp [SameC, fillC, nanF, hi, hm]
    · exact fillC_decl _ _ _
  · simp only [codeFuns]
    rw [lr_decl ord cf h dt dx b b' hb]
    exact ⟨fillW_decl _ _ _, fillW_decl _ _ _⟩

/-! ## C68 -/

theorem lrAt_uniform {k : ℕ} (es : Vec k ns → ℝ → Recon.Eig k) (dt dx : ℝ) (v : Vec k ns) (b : ℤ → ℝ) : lrAt ord cf es dt dx (fun _ => v) b = (v, v) := by
  have h : ∀ {a c : Vec k ns}, a = v ∧ c = v → (a, c) = (v, v) := fun h => by rw [h.1, h.2]
  unfold lrAt
  cases ord with
  | dc => exact h (Recon.dc_states _ 0 0 _ 0 (by omega) (by omega))
  | prim2 => exact h (Recon.prim2_uniform cf es _ _ b 0 0 _ 0 (by omega) (by omega) v (fun _ _ _ => rfl))
  | plm => exact h (Recon.plm_uniform cf es _ _ b 0 0 _ 0 (by omega) (by omega) v (fun _ _ _ => rfl))
  | prim3 => exact h (Recon.prim3_uniform cf es _ _ b 0 0 _ _ 0 (by omega) (by omega) v (fun _ _ _ => rfl))
  | ppm => exact h (Recon.ppm_uniform cf es _ _ b 0 0 _ 0 (by omega) (by omega) v (fun _ _ _ => rfl))
  | p3c l => exact h (Recon.p3c_uniform l dx _ 0 0 _ 0 (by omega) (by omega) v (fun _ _ _ => rfl))

theorem lr_uniform (dt dx : ℝ) (t : Fin 3) (w : Prim1 ℝ ns) (b : ℤ → ℝ) : (codeFuns ns p ord cf dMin).lr dt dx t (fun _ => w) b = (w, w) := by
  have e : fillW p w (lrCode p ord cf dt dx (fun _ => w) b).1 = w ∧ fillW p w (lrCode p ord cf dt dx (fun _ => w) b).2 = w := by
    unfold lrCode
    cases hm : p.mhd <;> cases hi : p.iso <;> dsimp only <;> rw [lrAt_uniform] <;>
      simp [Prod.map, fillW, hm, hi, enc0, dec0, enc1, dec1, enc2, dec2, enc3, dec3]
  simp only [codeFuns, e]

theorem hlle_ind {ul ur : Hydro.Cons1D ns} {w : Hydro.Prim1D ns} {b : ℝ} {F : Hydro.Cons1D ns} (hm : p.mhd = true) (h : hlle p ul ur w w b = some F) :
    F.By = w.By * w.Vx - b * w.Vy ∧ F.Bz = w.Bz * w.Vx - b * w.Vz := by
  unfold hlle at h
  rcases hs : Hydro.speeds p ul ur w w b with _ | ⟨al, ar⟩
  · rw [hs] at h; simp at h
  · rw [hs] at h
    simp only [Option.bind_eq_bind, Option.bind_some] at h
    generalize Hydro.fmax ar 0 = x at h
    generalize Hydro.fmin al 0 = y at h
    unfold Hydro.fdiv at h
    by_cases hxy : x - y = 0
    · rw [if_pos hxy] at h; simp at h
    · rw [if_neg hxy] at h
      simp only [Option.bind_some, Option.pure_def, Option.some.injEq] at h
      rw [← h]
      simp only [Hydro.scalars, Hydro.comb, Hydro.sideFlux, hm, if_true]
      constructor <;> (field_simp; ring)

theorem flux_ind (u v : Cons1 ℝ ns) (w : Prim1 ℝ ns) (b : ℝ) : ((codeFuns ns p ord cf dMin).flux u v w w b).By = w.By * w.Vx - b * w.Vy ∧
    ((codeFuns ns p ord cf dMin).flux u v w w b).Bz = w.Bz * w.Vx - b * w.Vz := by
  simp only [codeFuns, fillC, nanF]
  cases hm : p.mhd
  · simp only [Bool.false_eq_true, if_false]
    constructor <;> ring
  · simp only [if_true]
    rcases h : hlle p (toC u) (toC v) (toW w) (toW w) b with _ | F
    · simp only [Option.map_none, Option.getD_none]
      constructor <;> ring
    · exact hlle_ind hm h

theorem code_c2p1 (u : Cons1 ℝ ns) (b : ℝ) : let w := (codeFuns ns p ord cf dMin).c2p1 u b
    w.d = u.d ∧ w.Vx = u.Mx / u.d ∧ w.Vy = u.My / u.d ∧ w.Vz = u.Mz / u.d ∧ w.By = u.By ∧ w.Bz = u.Bz := by
  simp only [codeFuns, cons1DToPrim1D, Hydro.fdiv, toC]
  by_cases h : u.d = 0
  · simp [h, fillW, nanW]
  · simp only [h, if_false, Option.bind_eq_bind, Option.bind_some, Option.pure_def, Option.map_some, Option.getD_some, ofW, fillW, mul_one_div, true_and]
    cases p.mhd <;> simp

/-- **C68.** The functions of the code keep what is uniform. -/
theorem code_plain : (codeFuns ns p ord cf dMin).Plain where
  fluxY u w b := (flux_ind ord cf dMin u u w b).1
  fluxZ u w b := (flux_ind ord cf dMin u u w b).2
  lr dt dx t u b := lr_uniform ord cf dMin dt dx t _ _
  d u b := (code_c2p1 ord cf dMin u b).1
  x u b := (code_c2p1 ord cf dMin u b).2.1
  y u b := (code_c2p1 ord cf dMin u b).2.2.1
  z u b := (code_c2p1 ord cf dMin u b).2.2.2.1
  By u b := (code_c2p1 ord cf dMin u b).2.2.2.2.1
  Bz u b := (code_c2p1 ord cf dMin u b).2.2.2.2.2
  c2p u := code_c2p p ord cf dMin u

/-- **C68.** With the isothermal equation of state the conversions undo each other. -/
theorem code_exact (hi : p.iso = true) (hd : 0 < dMin) : (codeFuns ns p ord cf dMin).Exact where
  dens w b := by simp [codeFuns, prim1DToCons1D, hi, fillC, ofC, toW]
  back u b h := by
    have h0 : u.d ≠ 0 := by have : dMin ≤ u.d := h; linarith
    simp only [codeFuns, cons1DToPrim1D, prim1DToCons1D, Hydro.fdiv, toC, h0, if_false, hi, if_true, Option.bind_eq_bind, Option.bind_some, Option.pure_def,
      Option.map_some, Option.getD_some, ofW, fillW, fillC, ofC, toW]
    ext <;> simp only []
    all_goals first | rfl | (cases p.mhd <;> rfl) | field_simp
  forth w b h := by
    have h0 : w.d ≠ 0 := by have : dMin ≤ w.d := h; linarith
    simp only [codeFuns, cons1DToPrim1D, prim1DToCons1D, Hydro.fdiv, toC, h0, if_false, hi, if_true, Option.bind_eq_bind, Option.bind_some, Option.pure_def,
      Option.map_some, Option.getD_some, ofW, fillW, fillC, ofC, toW]
    ext <;> simp only []
    all_goals first | rfl | (cases p.mhd <;> rfl) | field_simp

end
end Athena.Gen
