import Verif.Integr.ScaleRun
import Verif.Integr.Code

/-!
# C130, C131: the functions of the code in other units

With `--with-flux=hlle`.
-/

namespace Athena.Gen
open Athena.Vl3
open Athena.Recon (Vec flipV Order lrAt un0 un1 un2 un3 rv2 rv3)
open Athena.Hydro (Phys FloorOk cons1DToPrim1D prim1DToCons1D consToPrim hlle un_iso un_mhd un_gamma cs_un)

noncomputable section
variable {ns : ℕ} {p : Phys} {a v x tiny : ℝ}

theorem fillW_un (z w : Prim1 ℝ ns) : fillW (p.un v tiny) (z.un a v) (w.un a v) = (fillW p z w).un a v := by
  simp only [fillW, Prim1.un, un_iso, un_mhd, Prim1.mk.injEq, true_and, and_true]
  refine ⟨?_, ?_, ?_⟩ <;> split_ifs <;> rfl
theorem fillC_un (z w : Cons1 ℝ ns) : fillC (p.un v tiny) (z.un a v) (w.un a v) = (fillC p z w).un a v := by
  simp only [fillC, Cons1.un, un_iso, un_mhd, Cons1.mk.injEq, true_and, and_true]
  refine ⟨?_, ?_, ?_⟩ <;> split_ifs <;> rfl
theorem fillC_fl (z w : Cons1 ℝ ns) : fillC (p.un v tiny) (z.fl a v) (w.fl a v) = (fillC p z w).fl a v := by
  simp only [fillC, Cons1.fl, un_iso, un_mhd, Cons1.mk.injEq, true_and, and_true]
  refine ⟨?_, ?_, ?_⟩ <;> split_ifs <;> rfl

theorem enc_un (w : Prim1 ℝ ns) : enc0 (w.un a v) = flipV (un0 a v) (enc0 w) ∧ enc1 (w.un a v) = flipV (un1 a v) (enc1 w) ∧
    enc2 (w.un a v) = flipV (un2 a v) (enc2 w) ∧ enc3 (w.un a v) = flipV (un3 a v) (enc3 w) := by
  refine ⟨?_, ?_, ?_, ?_⟩ <;> funext n <;> rcases n with n | n
  · rcases Recon.four n with rfl | rfl | rfl | rfl <;> simp [enc0, flipV, Recon.sg, un0, Prim1.un]
  · simp [enc0, flipV, Recon.sg, Prim1.un]
  · rcases Recon.five n with rfl | rfl | rfl | rfl | rfl <;> simp [enc1, flipV, Recon.sg, un1, Prim1.un]
  · simp [enc1, flipV, Recon.sg, Prim1.un]
  · rcases Recon.six n with rfl | rfl | rfl | rfl | rfl | rfl <;> simp [enc2, flipV, Recon.sg, un2, Prim1.un]
  · simp [enc2, flipV, Recon.sg, Prim1.un]
  · rcases Recon.seven n with rfl | rfl | rfl | rfl | rfl | rfl | rfl <;> simp [enc3, flipV, Recon.sg, un3, Prim1.un]
  · simp [enc3, flipV, Recon.sg, Prim1.un]
theorem dec0_un (y : Vec 0 ns) : dec0 (flipV (un0 a v) y) = (dec0 y).un a v := by simp [dec0, flipV, Recon.sg, un0, Prim1.un]
theorem dec1_un (y : Vec 1 ns) : dec1 (flipV (un1 a v) y) = (dec1 y).un a v := by simp [dec1, flipV, Recon.sg, un1, Prim1.un]
theorem dec2_un (y : Vec 2 ns) : dec2 (flipV (un2 a v) y) = (dec2 y).un a v := by simp [dec2, flipV, Recon.sg, un2, Prim1.un]
theorem dec3_un (y : Vec 3 ns) : dec3 (flipV (un3 a v) y) = (dec3 y).un a v := by simp [dec3, flipV, Recon.sg, un3, Prim1.un]

theorem un_rv : un2 (-1) 1 = rv2 ∧ un3 (-1) 1 = rv3 := by
  constructor <;> simp [un2, un3, rv2, rv3]

/-- `lr_states`, for all four configurations. -/
theorem lrCode_un (ord : Order) (cf : Recon.Cfg) (ho : ord.NotCompact) (ha : 0 < a) (hv : 0 < v) {dt dx dt' dx' : ℝ} (hq : v * (dt' / dx') = dt / dx)
    (w : ℤ → Prim1 ℝ ns) (b : ℤ → ℝ) :
    lrCode (p.un v tiny) ord cf dt' dx' (fun m => (w m).un a v) (fun m => a * v * b m) =
      ((lrCode p ord cf dt dx w b).1.un a v, (lrCode p ord cf dt dx w b).2.un a v) := by
  have hz := Recon.noZero_un ha hv
  unfold lrCode
  rw [un_mhd, un_iso, un_gamma, cs_un hv]
  split
  · simp only [(enc_un _).1]
    rw [Recon.lrAt_sc (f := un0 a v) ord ho hv hz.1 rfl (fun _ => Recon.isoHyd_U ha hv p.cs) hq (fun m => enc0 (w m)) b]
    simp only [Prod.map, dec0_un]
  · simp only [(enc_un _).2.1]
    rw [Recon.lrAt_sc (f := un1 a v) ord ho hv hz.2.1 rfl (fun _ => Recon.adbHyd_U ha hv p.gamma) hq (fun m => enc1 (w m)) b]
    simp only [Prod.map, dec1_un]
  · simp only [(enc_un _).2.2.1]
    rw [Recon.lrAt_sc (f := un2 a v) ord ho hv hz.2.2.1 rfl (fun _ => Recon.isoMhd_U ha hv p.cs) hq (fun m => enc2 (w m)) b]
    simp only [Prod.map, dec2_un]
  · simp only [(enc_un _).2.2.2]
    rw [Recon.lrAt_sc (f := un3 a v) ord ho hv hz.2.2.2 rfl (fun _ => Recon.adbMhd_U ha hv p.gamma) hq (fun m => enc3 (w m)) b]
    simp only [Prod.map, dec3_un]

/-- Everything but `lr_states`. -/
theorem code_scale_of {ord : Order} {cf : Recon.Cfg} {dMin : ℝ} (ha : a ≠ 0) (hv : 0 < v) (ht : FloorOk p a v tiny)
    (hlr : ∀ (dt dx : ℝ) (w : ℤ → Prim1 ℝ ns) (b : ℤ → ℝ), lrCode (p.un v tiny) ord cf (x / v * dt) (x * dx) (fun m => (w m).un a v) (fun m => a * v * b m) =
      ((lrCode p ord cf dt dx w b).1.un a v, (lrCode p ord cf dt dx w b).2.un a v)) :
    (codeFuns ns p ord cf dMin).Scale (codeFuns ns (p.un v tiny) ord cf (a * a * dMin)) a v x where
  to1 u b := by
    have e : ((cons1DToPrim1D (p.un v tiny) ((toC u).un a v) (a * v * b)).map ofW).getD (nanW (u.un a v)) =
        (((cons1DToPrim1D p (toC u) b).map ofW).getD (nanW u)).un a v := by
      rw [Hydro.c2p_un ha hv ht]
      exact getD_map ofW (Prim1.un a v) (Hydro.Prim1D.un a v) (fun _ => rfl) _ _ _ (by simp [nanW, Prim1.un, Cons1.un, quot_un ha])
    refine Eq.trans ?_ (fillW_un (p := p) (tiny := tiny) ⟨u.d, u.Mx, u.My, u.Mz, u.E, u.By, u.Bz, u.s⟩ _)
    rw [← e]
    simp only [codeFuns, fillW, Prim1.un, Cons1.un, un_iso]; rfl
  of1 w b := by
    have e : ((prim1DToCons1D (p.un v tiny) ((toW w).un a v) (a * v * b)).map ofC).getD nanC =
        (((prim1DToCons1D p (toW w) b).map ofC).getD nanC).un a v := by
      rw [Hydro.p2c_un ha hv]
      exact getD_map ofC (Cons1.un a v) (Hydro.Cons1D.un a v) (fun _ => rfl) _ _ _ (by simp [nanC, Cons1.un])
    refine Eq.trans ?_ (fillC_un (p := p) (tiny := tiny) ⟨w.d, w.Vx, w.Vy, w.Vz, w.P, w.By, w.Bz, w.r⟩ _)
    rw [← e]
    simp only [codeFuns, fillC, Prim1.un, Cons1.un, un_iso]; rfl
  to3 u := by
    rw [code_c2p, code_c2p]
    simp only [Cons.un, Prim.un, quot_un ha]
  flux ul ur wl wr b := by
    have z : nanF (wl.un a v) (wr.un a v) (a * v * b) = (nanF wl wr b).fl a v := by
      simp only [nanF, Cons1.fl, Prim1.un, Cons1.mk.injEq, mul_zero, true_and, and_true]
      constructor <;> ring
    have e : ((hlle (p.un v tiny) ((toC ul).un a v) ((toC ur).un a v) ((toW wl).un a v) ((toW wr).un a v) (a * v * b)).map ofC).getD
        (nanF (wl.un a v) (wr.un a v) (a * v * b)) = (((hlle p (toC ul) (toC ur) (toW wl) (toW wr) b).map ofC).getD (nanF wl wr b)).fl a v := by
      rw [Hydro.hlle_un ha hv ht]
      exact getD_map ofC (Cons1.fl a v) (Hydro.Cons1D.fl a v) (fun _ => rfl) _ _ _ z
    refine Eq.trans ?_ (fillC_fl (p := p) (tiny := tiny) (nanF wl wr b) _)
    rw [← e, ← z]; rfl
  lr dt dx _ w b := by
    simp only [codeFuns, hlr]
    rw [← fillW_un (p := p) (tiny := tiny), ← fillW_un (p := p) (tiny := tiny)]
  dMin := rfl

/-- **C130.** The code's functions in other units of density, length and time. -/
theorem code_units (ns : ℕ) {ord : Order} (cf : Recon.Cfg) (dMin : ℝ) (ho : ord.NotCompact) (ha : 0 < a) (hv : 0 < v) (hx : 0 < x) (ht : FloorOk p a v tiny) :
    (codeFuns ns p ord cf dMin).Scale (codeFuns ns (p.un v tiny) ord cf (a * a * dMin)) a v x :=
  code_scale_of ha.ne' hv ht fun dt dx w b => lrCode_un ord cf ho ha hv (by rw [mul_comm]; exact dq hv hx dt dx) w b

/-- The compact schemes use neither the field nor the waves. -/
theorem lrAt_p3c {k : ℕ} (l : Bool) (cf : Recon.Cfg) (es es' : Vec k ns → ℝ → Recon.Eig k) (dt dt' dx : ℝ) (W : ℤ → Vec k ns) (b b' : ℤ → ℝ) :
    lrAt (.p3c l) cf es dt dx W b = lrAt (.p3c l) cf es' dt' dx W b' := rfl

theorem compact_or (ord : Order) : ord.NotCompact ∨ ∃ l, ord = .p3c l := by
  cases ord with
  | p3c l => exact Or.inr ⟨l, rfl⟩
  | _ => exact Or.inl trivial

theorem signs_rv : Recon.Signs (k := 2) rv2 ∧ Recon.Signs (k := 3) rv3 := by
  refine ⟨fun n => ?_, fun n => ?_⟩
  · rcases Recon.six n with rfl | rfl | rfl | rfl | rfl | rfl <;> simp [rv2]
  · rcases Recon.seven n with rfl | rfl | rfl | rfl | rfl | rfl | rfl <;> simp [rv3]

theorem flipV_one {k : ℕ} {f : Fin (k + 4) → ℝ} (hf : ∀ n, f n = 1) (W : Vec k ns) : flipV f W = W := by
  funext n
  rcases n with n | n <;> simp [flipV, Recon.sg, hf]

/-- `lr_states` with the field reversed, for every `--with-order`. -/
theorem lrCode_rv (ord : Order) (cf : Recon.Cfg) (dt dx : ℝ) (w : ℤ → Prim1 ℝ ns) (b : ℤ → ℝ) :
    lrCode (p.un 1 p.tiny) ord cf dt dx (fun m => (w m).un (-1) 1) (fun m => -1 * 1 * b m) =
      ((lrCode p ord cf dt dx w b).1.un (-1) 1, (lrCode p ord cf dt dx w b).2.un (-1) 1) := by
  have hz := Recon.noZero_un (r := 1) (v := 1) one_pos one_pos
  have e0 : ∀ n, un0 (-1) 1 n = 1 := fun n => by rcases Recon.four n with rfl | rfl | rfl | rfl <;> simp [un0]
  have e1 : ∀ n, un1 (-1) 1 n = 1 := fun n => by rcases Recon.five n with rfl | rfl | rfl | rfl | rfl <;> simp [un1]
  have g0 : un0 1 1 = un0 (-1) 1 := by simp [un0]
  have g1 : un1 1 1 = un1 (-1) 1 := by simp [un1]
  have hb : (fun m => -1 * 1 * b m) = fun m => (-1 : ℝ) * b m := by simp
  have hq : (1 : ℝ) * (dt / dx) = dt / dx := one_mul _
  unfold lrCode
  rw [un_mhd, un_iso, un_gamma, cs_un one_pos, one_mul, hb]
  split
  · simp only [(enc_un _).1]
    have : lrAt ord cf (fun W _ => Recon.esysIsoHyd ns p.cs W) dt dx (fun m => flipV (un0 (-1) 1) (enc0 (w m))) (fun m => -1 * b m) =
        (flipV (un0 (-1) 1) (lrAt ord cf (fun W _ => Recon.esysIsoHyd ns p.cs W) dt dx (fun m => enc0 (w m)) b).1,
         flipV (un0 (-1) 1) (lrAt ord cf (fun W _ => Recon.esysIsoHyd ns p.cs W) dt dx (fun m => enc0 (w m)) b).2) := by
      rcases compact_or ord with hc | ⟨l, rfl⟩
      · have := Recon.lrAt_sc (cf := cf) (f := un0 1 1) ord hc one_pos hz.1 rfl
          (fun _ => Recon.isoHyd_U (β := -1) one_pos one_pos p.cs) hq (fun m => enc0 (w m)) b
        rw [g0, one_mul] at this; exact this
      · simp only [flipV_one e0]; rfl
    rw [this]
    simp only [Prod.map, dec0_un]
  · simp only [(enc_un _).2.1]
    have : lrAt ord cf (fun W _ => Recon.esysAdbHyd ns p.gamma W) dt dx (fun m => flipV (un1 (-1) 1) (enc1 (w m))) (fun m => -1 * b m) =
        (flipV (un1 (-1) 1) (lrAt ord cf (fun W _ => Recon.esysAdbHyd ns p.gamma W) dt dx (fun m => enc1 (w m)) b).1,
         flipV (un1 (-1) 1) (lrAt ord cf (fun W _ => Recon.esysAdbHyd ns p.gamma W) dt dx (fun m => enc1 (w m)) b).2) := by
      rcases compact_or ord with hc | ⟨l, rfl⟩
      · have := Recon.lrAt_sc (cf := cf) (f := un1 1 1) ord hc one_pos hz.2.1 rfl
          (fun _ => Recon.adbHyd_U (β := -1) one_pos one_pos p.gamma) hq (fun m => enc1 (w m)) b
        rw [g1] at this; exact this
      · simp only [flipV_one e1]; rfl
    rw [this]
    simp only [Prod.map, dec1_un]
  · simp only [(enc_un _).2.2.1]
    have : lrAt ord cf (Recon.esysIsoMhd ns p.cs) dt dx (fun m => flipV (un2 (-1) 1) (enc2 (w m))) (fun m => -1 * b m) =
        (flipV (un2 (-1) 1) (lrAt ord cf (Recon.esysIsoMhd ns p.cs) dt dx (fun m => enc2 (w m)) b).1,
         flipV (un2 (-1) 1) (lrAt ord cf (Recon.esysIsoMhd ns p.cs) dt dx (fun m => enc2 (w m)) b).2) := by
      rw [un_rv.1]
      rcases compact_or ord with hc | ⟨l, rfl⟩
      · exact Recon.lrAt_sc (cf := cf) (f := rv2) ord hc one_pos Recon.noZero_rv.1 rfl
          (fun _ => Recon.isoMhd_R p.cs) hq (fun m => enc2 (w m)) b
      · rw [lrAt_p3c l cf _ (Recon.esysIsoMhd ns p.cs) dt dt dx _ _ b]
        exact Recon.lrAt_flip (.p3c l) signs_rv.1 rfl (fun h => h.elim) dt dx (fun m => enc2 (w m)) b
    rw [this]
    simp only [Prod.map, dec2_un]
  · simp only [(enc_un _).2.2.2]
    have : lrAt ord cf (Recon.esysAdbMhd ns p.gamma) dt dx (fun m => flipV (un3 (-1) 1) (enc3 (w m))) (fun m => -1 * b m) =
        (flipV (un3 (-1) 1) (lrAt ord cf (Recon.esysAdbMhd ns p.gamma) dt dx (fun m => enc3 (w m)) b).1,
         flipV (un3 (-1) 1) (lrAt ord cf (Recon.esysAdbMhd ns p.gamma) dt dx (fun m => enc3 (w m)) b).2) := by
      rw [un_rv.2]
      rcases compact_or ord with hc | ⟨l, rfl⟩
      · exact Recon.lrAt_sc (cf := cf) (f := rv3) ord hc one_pos Recon.noZero_rv.2 rfl
          (fun _ => Recon.adbMhd_R p.gamma) hq (fun m => enc3 (w m)) b
      · rw [lrAt_p3c l cf _ (Recon.esysAdbMhd ns p.gamma) dt dt dx _ _ b]
        exact Recon.lrAt_flip (.p3c l) signs_rv.2 rfl (fun h => h.elim) dt dx (fun m => enc3 (w m)) b
    rw [this]
    simp only [Prod.map, dec3_un]

/-- **C131.** The code's functions with the magnetic field reversed. -/
theorem code_reverse (ns : ℕ) (p : Phys) (ord : Order) (cf : Recon.Cfg) (dMin : ℝ) :
    (codeFuns ns p ord cf dMin).Scale (codeFuns ns p ord cf dMin) (-1) 1 1 := by
  have hp : p.un 1 p.tiny = p := by cases p; simp [Phys.un]
  have := code_scale_of (ns := ns) (p := p) (tiny := p.tiny) (x := 1) (ord := ord) (cf := cf) (dMin := dMin) (a := -1) (v := 1) (by norm_num) one_pos
    (Or.inr ⟨by simp, Or.inl (by norm_num)⟩) (fun dt dx w b => by
      rw [div_one, one_mul, one_mul]; exact lrCode_rv ord cf dt dx w b)
  rw [hp] at this
  simpa using this

end
end Athena.Gen
