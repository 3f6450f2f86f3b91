import Verif.Integr.Wall
import Verif.Integr.MirrorEx
import Verif.Hydro.HlleMirror
import Verif.Recon.MirrorEs

/-!
# The functions the integrators call, as configured

`Funs` collects the functions an integrator calls; the theorems about runs take a `Funs` with some properties.  Here is the one of the code with
`--with-flux=hlle`, for each equation of state, with and without magnetic field, and every `--with-order`; it has the properties.
-/

namespace Athena.Gen
open Athena.Vl3
open Athena.Recon (Vec flipV Order lrAt sX0 sY0 sZ0 sX1 sY1 sZ1 sX2 sY2 sZ2 sX3 sY3 sZ3 esysIsoHyd esysAdbHyd esysIsoMhd esysAdbMhd)
open Athena.Hydro (Phys cons1DToPrim1D prim1DToCons1D consToPrim hlle)

noncomputable section
variable {ns : ℕ}

/-! ## The same structures of C under two names -/

def toC (u : Cons1 ℝ ns) : Hydro.Cons1D ns := ⟨u.d, u.Mx, u.My, u.Mz, u.E, u.By, u.Bz, u.s⟩
def ofC (u : Hydro.Cons1D ns) : Cons1 ℝ ns := ⟨u.d, u.Mx, u.My, u.Mz, u.E, u.By, u.Bz, u.s⟩
def toW (w : Prim1 ℝ ns) : Hydro.Prim1D ns := ⟨w.d, w.Vx, w.Vy, w.Vz, w.P, w.By, w.Bz, w.r⟩
def ofW (w : Hydro.Prim1D ns) : Prim1 ℝ ns := ⟨w.d, w.Vx, w.Vy, w.Vz, w.P, w.By, w.Bz, w.r⟩
def toU (u : Cons ℝ ns) : Hydro.Cons ns := ⟨u.d, u.M1, u.M2, u.M3, u.E, u.B1c, u.B2c, u.B3c, u.s⟩
def ofP (w : Hydro.Prim ns) : Prim ℝ := ⟨w.V1, w.V2, w.V3, w.B1c, w.B2c, w.B3c⟩

/-- Stands for a result of `Prim1D_to_Cons1D` that is not a number (adiabatic index 1). -/
def nanC : Cons1 ℝ ns := ⟨0, 0, 0, 0, 0, 0, 0, fun _ => 0⟩
/-- Stands for a result of `Cons1D_to_Prim1D` that is not a number (density 0; in Lean `x / 0 = 0`). -/
def nanW (u : Cons1 ℝ ns) : Prim1 ℝ ns := ⟨u.d, u.Mx / u.d, u.My / u.d, u.Mz / u.d, 0, u.By, u.Bz, fun _ => 0⟩
/-- Stands for a result of `Cons_to_Prim` that is not a number (density 0). -/
def nanP (p : Phys) (u : Cons ℝ ns) : Prim ℝ :=
  ⟨u.M1 / u.d, u.M2 / u.d, u.M3 / u.d, if p.mhd then u.B1c else 0, if p.mhd then u.B2c else 0, if p.mhd then u.B3c else 0⟩
/-- Stands for a flux that is not a number. -/
def nanF (wl wr : Prim1 ℝ ns) (b : ℝ) : Cons1 ℝ ns :=
  ⟨0, 0, 0, 0, 0, 1/2 * (wl.By * wl.Vx - b * wl.Vy + (wr.By * wr.Vx - b * wr.Vy)), 1/2 * (wl.Bz * wl.Vx - b * wl.Vz + (wr.Bz * wr.Vx - b * wr.Vz)),
    fun _ => 0⟩

/-! ## `Prim1DS` as an array of `NWAVE` (and `NSCALARS`) numbers, src/athena.h:160-175 -/

/-- Isothermal hydrodynamics; members not declared are 0. -/
def enc0 (w : Prim1 ℝ ns) : Vec 0 ns := Sum.elim ![w.d, w.Vx, w.Vy, w.Vz] w.r
def dec0 (v : Vec 0 ns) : Prim1 ℝ ns := ⟨v (.inl 0), v (.inl 1), v (.inl 2), v (.inl 3), 0, 0, 0, fun n => v (.inr n)⟩
/-- Adiabatic hydrodynamics; members not declared are 0. -/
def enc1 (w : Prim1 ℝ ns) : Vec 1 ns := Sum.elim ![w.d, w.Vx, w.Vy, w.Vz, w.P] w.r
def dec1 (v : Vec 1 ns) : Prim1 ℝ ns := ⟨v (.inl 0), v (.inl 1), v (.inl 2), v (.inl 3), v (.inl 4), 0, 0, fun n => v (.inr n)⟩
/-- Isothermal mhd; members not declared are 0. -/
def enc2 (w : Prim1 ℝ ns) : Vec 2 ns := Sum.elim ![w.d, w.Vx, w.Vy, w.Vz, w.By, w.Bz] w.r
def dec2 (v : Vec 2 ns) : Prim1 ℝ ns := ⟨v (.inl 0), v (.inl 1), v (.inl 2), v (.inl 3), 0, v (.inl 4), v (.inl 5), fun n => v (.inr n)⟩
/-- Adiabatic mhd; members not declared are 0. -/
def enc3 (w : Prim1 ℝ ns) : Vec 3 ns := Sum.elim ![w.d, w.Vx, w.Vy, w.Vz, w.P, w.By, w.Bz] w.r
def dec3 (v : Vec 3 ns) : Prim1 ℝ ns := ⟨v (.inl 0), v (.inl 1), v (.inl 2), v (.inl 3), v (.inl 4), v (.inl 5), v (.inl 6), fun n => v (.inr n)⟩

/-- `lr_states` as configured, with the `esys_prim` function of the configuration (src/reconstruction/prototypes.h, lr_states_plm.c:109-122, …). -/
def lrCode (p : Phys) (ord : Order) (cf : Recon.Cfg) (dt dx : ℝ) (w : ℤ → Prim1 ℝ ns) (b : ℤ → ℝ) : Prim1 ℝ ns × Prim1 ℝ ns :=
  match p.mhd, p.iso with
  | false, true => (lrAt ord cf (fun W _ => esysIsoHyd ns p.cs W) dt dx (fun m => enc0 (w m)) b).map dec0 dec0
  | false, false => (lrAt ord cf (fun W _ => esysAdbHyd ns p.gamma W) dt dx (fun m => enc1 (w m)) b).map dec1 dec1
  | true, true => (lrAt ord cf (esysIsoMhd ns p.cs) dt dx (fun m => enc2 (w m)) b).map dec2 dec2
  | true, false => (lrAt ord cf (esysAdbMhd ns p.gamma) dt dx (fun m => enc3 (w m)) b).map dec3 dec3

/-! Members that the configuration does not declare: the integrators of the model, written for adiabatic MHD, carry them along.  C has no
such members; here they are given some value, on which nothing declared depends (`code_decl`). -/

def fillW (p : Phys) (z w : Prim1 ℝ ns) : Prim1 ℝ ns :=
  { w with P := if p.iso then z.P else w.P, By := if p.mhd then w.By else z.By, Bz := if p.mhd then w.Bz else z.Bz }
def fillC (p : Phys) (z u : Cons1 ℝ ns) : Cons1 ℝ ns :=
  { u with E := if p.iso then z.E else u.E, By := if p.mhd then u.By else z.By, Bz := if p.mhd then u.Bz else z.Bz }
def fillP (p : Phys) (u : Cons ℝ ns) (w : Prim ℝ) : Prim ℝ :=
  { w with B1c := if p.mhd then w.B1c else u.B1c, B2c := if p.mhd then w.B2c else u.B2c, B3c := if p.mhd then w.B3c else u.B3c }

/-- The functions the integrators call with `--with-flux=hlle` and `--with-order` as given by `ord`: convert_var.c, rsolvers/hlle.c,
reconstruction/.  Where the arithmetic has no real result the value is that of `nanC`, `nanW`, `nanP`, `nanF`. -/
def codeFuns (ns : ℕ) (p : Phys) (ord : Order) (cf : Recon.Cfg) (dMin : ℝ) : Funs ℝ ns where
  c2p1 u b := fillW p ⟨u.d, u.Mx, u.My, u.Mz, u.E, u.By, u.Bz, u.s⟩ (((cons1DToPrim1D p (toC u) b).map ofW).getD (nanW u))
  p2c1 w b := fillC p ⟨w.d, w.Vx, w.Vy, w.Vz, w.P, w.By, w.Bz, w.r⟩ (((prim1DToCons1D p (toW w) b).map ofC).getD nanC)
  c2p u := fillP p u (((consToPrim p (toU u)).map ofP).getD (nanP p u))
  flux ul ur wl wr b := fillC p (nanF wl wr b) (((hlle p (toC ul) (toC ur) (toW wl) (toW wr) b).map ofC).getD (nanF wl wr b))
  lr dt dx _ w b := (fillW p (w (-1)) (lrCode p ord cf dt dx w b).1, fillW p (w 0) (lrCode p ord cf dt dx w b).2)
  dMin := dMin

variable (p : Phys) (ord : Order) (cf : Recon.Cfg) (dMin : ℝ)

theorem getD_map {α β : Type} (f : α → β) (g : β → β) (h : α → α) (hf : ∀ a, f (h a) = g (f a)) (x : Option α) (z z' : β) (hz : z' = g z) :
    ((x.map h).map f).getD z' = g ((x.map f).getD z) := by
  cases x with
  | none => exact hz
  | some a => exact hf a

theorem fillW_m (z w : Prim1 ℝ ns) : fillW p z.mX w.mX = (fillW p z w).mX ∧ fillW p z.nY w.nY = (fillW p z w).nY ∧ fillW p z.nZ w.nZ = (fillW p z w).nZ := by
  cases h : p.mhd <;> simp [fillW, h, Prim1.mX, Prim1.nY, Prim1.nZ]
theorem fillC_m (z w : Cons1 ℝ ns) : fillC p z.mX w.mX = (fillC p z w).mX ∧ fillC p z.nY w.nY = (fillC p z w).nY ∧ fillC p z.nZ w.nZ = (fillC p z w).nZ ∧
    fillC p z.fX w.fX = (fillC p z w).fX := by
  cases h : p.mhd <;> cases h' : p.iso <;> simp [fillC, h, h', Cons1.mX, Cons1.nY, Cons1.nZ, Cons1.fX]

theorem c2p_eq (u : Cons ℝ ns) : ((consToPrim p (toU u)).map ofP).getD (nanP p u) = nanP p u := by
  unfold consToPrim cons1DToPrim1D Hydro.fdiv toU
  by_cases h : u.d = 0
  · simp [h]
  · simp only [h, if_false, Option.bind_eq_bind, Option.bind_some, Option.pure_def, Option.map_some, Option.getD_some, ofP, nanP, mul_one_div]
    cases p.mhd <;> simp

theorem code_c2p (u : Cons ℝ ns) : (codeFuns ns p ord cf dMin).c2p u = ⟨u.M1 / u.d, u.M2 / u.d, u.M3 / u.d, u.B1c, u.B2c, u.B3c⟩ := by
  simp only [codeFuns, c2p_eq]
  cases h : p.mhd <;> simp [fillP, nanP, h]

/-- The code's functions use three zones on either side of an interface at most. -/
theorem code_local : (codeFuns ns p ord cf dMin).Local := by
  intro dt dx d w w' b b' h
  have e : lrCode p ord cf dt dx w b = lrCode p ord cf dt dx w' b' := by
    unfold lrCode
    split <;> rw [Recon.lrAt_local ord dt dx _ _ b b' (fun m h1 h2 => ⟨by rw [(h m h1 h2).1], (h m h1 h2).2⟩)]
  simp only [codeFuns]
  rw [e, (h (-1) (by omega) (by omega)).1, (h 0 (by omega) (by omega)).1]

/-- They do not distinguish the directions. -/
theorem code_isotropic : (codeFuns ns p ord cf dMin).Isotropic where
  lr _ _ _ _ _ _ := rfl
  c2p u := by
    rw [code_c2p, code_c2p]
    rfl

theorem enc0_X (w : Prim1 ℝ ns) : enc0 w.mX = flipV sX0 (enc0 w) := by
  funext n
  rcases n with n | n
  · rcases Recon.four n with rfl | rfl | rfl | rfl <;> simp [enc0, flipV, Recon.sg, sX0, Prim1.mX]
  · simp [enc0, flipV, Recon.sg, Prim1.mX]
theorem dec0_X (v : Vec 0 ns) : dec0 (flipV sX0 v) = (dec0 v).mX := by
  simp [dec0, flipV, Recon.sg, sX0, Prim1.mX]
theorem enc0_Y (w : Prim1 ℝ ns) : enc0 w.nY = flipV sY0 (enc0 w) := by
  funext n
  rcases n with n | n
  · rcases Recon.four n with rfl | rfl | rfl | rfl <;> simp [enc0, flipV, Recon.sg, sY0, Prim1.nY]
  · simp [enc0, flipV, Recon.sg, Prim1.nY]
theorem dec0_Y (v : Vec 0 ns) : dec0 (flipV sY0 v) = (dec0 v).nY := by
  simp [dec0, flipV, Recon.sg, sY0, Prim1.nY]
theorem enc0_Z (w : Prim1 ℝ ns) : enc0 w.nZ = flipV sZ0 (enc0 w) := by
  funext n
  rcases n with n | n
  · rcases Recon.four n with rfl | rfl | rfl | rfl <;> simp [enc0, flipV, Recon.sg, sZ0, Prim1.nZ]
  · simp [enc0, flipV, Recon.sg, Prim1.nZ]
theorem dec0_Z (v : Vec 0 ns) : dec0 (flipV sZ0 v) = (dec0 v).nZ := by
  simp [dec0, flipV, Recon.sg, sZ0, Prim1.nZ]
theorem enc1_X (w : Prim1 ℝ ns) : enc1 w.mX = flipV sX1 (enc1 w) := by
  funext n
  rcases n with n | n
  · rcases Recon.five n with rfl | rfl | rfl | rfl | rfl <;> simp [enc1, flipV, Recon.sg, sX1, Prim1.mX]
  · simp [enc1, flipV, Recon.sg, Prim1.mX]
theorem dec1_X (v : Vec 1 ns) : dec1 (flipV sX1 v) = (dec1 v).mX := by
  simp [dec1, flipV, Recon.sg, sX1, Prim1.mX]
theorem enc1_Y (w : Prim1 ℝ ns) : enc1 w.nY = flipV sY1 (enc1 w) := by
  funext n
  rcases n with n | n
  · rcases Recon.five n with rfl | rfl | rfl | rfl | rfl <;> simp [enc1, flipV, Recon.sg, sY1, Prim1.nY]
  · simp [enc1, flipV, Recon.sg, Prim1.nY]
theorem dec1_Y (v : Vec 1 ns) : dec1 (flipV sY1 v) = (dec1 v).nY := by
  simp [dec1, flipV, Recon.sg, sY1, Prim1.nY]
theorem enc1_Z (w : Prim1 ℝ ns) : enc1 w.nZ = flipV sZ1 (enc1 w) := by
  funext n
  rcases n with n | n
  · rcases Recon.five n with rfl | rfl | rfl | rfl | rfl <;> simp [enc1, flipV, Recon.sg, sZ1, Prim1.nZ]
  · simp [enc1, flipV, Recon.sg, Prim1.nZ]
theorem dec1_Z (v : Vec 1 ns) : dec1 (flipV sZ1 v) = (dec1 v).nZ := by
  simp [dec1, flipV, Recon.sg, sZ1, Prim1.nZ]
theorem enc2_X (w : Prim1 ℝ ns) : enc2 w.mX = flipV sX2 (enc2 w) := by
  funext n
  rcases n with n | n
  · rcases Recon.six n with rfl | rfl | rfl | rfl | rfl | rfl <;> simp [enc2, flipV, Recon.sg, sX2, Prim1.mX]
  · simp [enc2, flipV, Recon.sg, Prim1.mX]
theorem dec2_X (v : Vec 2 ns) : dec2 (flipV sX2 v) = (dec2 v).mX := by
  simp [dec2, flipV, Recon.sg, sX2, Prim1.mX]
theorem enc2_Y (w : Prim1 ℝ ns) : enc2 w.nY = flipV sY2 (enc2 w) := by
  funext n
  rcases n with n | n
  · rcases Recon.six n with rfl | rfl | rfl | rfl | rfl | rfl <;> simp [enc2, flipV, Recon.sg, sY2, Prim1.nY]
  · simp [enc2, flipV, Recon.sg, Prim1.nY]
theorem dec2_Y (v : Vec 2 ns) : dec2 (flipV sY2 v) = (dec2 v).nY := by
  simp [dec2, flipV, Recon.sg, sY2, Prim1.nY]
theorem enc2_Z (w : Prim1 ℝ ns) : enc2 w.nZ = flipV sZ2 (enc2 w) := by
  funext n
  rcases n with n | n
  · rcases Recon.six n with rfl | rfl | rfl | rfl | rfl | rfl <;> simp [enc2, flipV, Recon.sg, sZ2, Prim1.nZ]
  · simp [enc2, flipV, Recon.sg, Prim1.nZ]
theorem dec2_Z (v : Vec 2 ns) : dec2 (flipV sZ2 v) = (dec2 v).nZ := by
  simp [dec2, flipV, Recon.sg, sZ2, Prim1.nZ]
theorem enc3_X (w : Prim1 ℝ ns) : enc3 w.mX = flipV sX3 (enc3 w) := by
  funext n
  rcases n with n | n
  · rcases Recon.seven n with rfl | rfl | rfl | rfl | rfl | rfl | rfl <;> simp [enc3, flipV, Recon.sg, sX3, Prim1.mX]
  · simp [enc3, flipV, Recon.sg, Prim1.mX]
theorem dec3_X (v : Vec 3 ns) : dec3 (flipV sX3 v) = (dec3 v).mX := by
  simp [dec3, flipV, Recon.sg, sX3, Prim1.mX]
theorem enc3_Y (w : Prim1 ℝ ns) : enc3 w.nY = flipV sY3 (enc3 w) := by
  funext n
  rcases n with n | n
  · rcases Recon.seven n with rfl | rfl | rfl | rfl | rfl | rfl | rfl <;> simp [enc3, flipV, Recon.sg, sY3, Prim1.nY]
  · simp [enc3, flipV, Recon.sg, Prim1.nY]
theorem dec3_Y (v : Vec 3 ns) : dec3 (flipV sY3 v) = (dec3 v).nY := by
  simp [dec3, flipV, Recon.sg, sY3, Prim1.nY]
theorem enc3_Z (w : Prim1 ℝ ns) : enc3 w.nZ = flipV sZ3 (enc3 w) := by
  funext n
  rcases n with n | n
  · rcases Recon.seven n with rfl | rfl | rfl | rfl | rfl | rfl | rfl <;> simp [enc3, flipV, Recon.sg, sZ3, Prim1.nZ]
  · simp [enc3, flipV, Recon.sg, Prim1.nZ]
theorem dec3_Z (v : Vec 3 ns) : dec3 (flipV sZ3 v) = (dec3 v).nZ := by
  simp [dec3, flipV, Recon.sg, sZ3, Prim1.nZ]

theorem lrCode_X (dt dx : ℝ) (w : ℤ → Prim1 ℝ ns) (b : ℤ → ℝ) :
    lrCode p ord cf dt dx (fun m => (w (-1 - m)).mX) (fun m => -b (-1 - m)) = ((lrCode p ord cf dt dx w b).2.mX, (lrCode p ord cf dt dx w b).1.mX) := by
  unfold lrCode
  split
  · simp only [enc0_X]
    rw [Recon.lrAt_rev (σ := sX0) ord Recon.signs0.1 rfl (fun _ => Recon.isoHyd_X _) dt dx (fun m => enc0 (w m)) b]
    simp only [Prod.map, dec0_X]
  · simp only [enc1_X]
    rw [Recon.lrAt_rev (σ := sX1) ord Recon.signs1.1 rfl (fun _ => Recon.adbHyd_X _) dt dx (fun m => enc1 (w m)) b]
    simp only [Prod.map, dec1_X]
  · simp only [enc2_X]
    rw [Recon.lrAt_rev (σ := sX2) ord Recon.signs2.1 rfl (fun _ => Recon.isoMhd_X _) dt dx (fun m => enc2 (w m)) b]
    simp only [Prod.map, dec2_X]
  · simp only [enc3_X]
    rw [Recon.lrAt_rev (σ := sX3) ord Recon.signs3.1 rfl (fun _ => Recon.adbMhd_X _) dt dx (fun m => enc3 (w m)) b]
    simp only [Prod.map, dec3_X]

theorem lrCode_Y (dt dx : ℝ) (w : ℤ → Prim1 ℝ ns) (b : ℤ → ℝ) :
    lrCode p ord cf dt dx (fun m => (w m).nY) b = ((lrCode p ord cf dt dx w b).1.nY, (lrCode p ord cf dt dx w b).2.nY) := by
  unfold lrCode
  split
  · simp only [enc0_Y]
    rw [Recon.lrAt_flip (σ := sY0) ord Recon.signs0.2.1 rfl (fun _ => Recon.isoHyd_Y _) dt dx (fun m => enc0 (w m)) b]
    simp only [Prod.map, dec0_Y]
  · simp only [enc1_Y]
    rw [Recon.lrAt_flip (σ := sY1) ord Recon.signs1.2.1 rfl (fun _ => Recon.adbHyd_Y _) dt dx (fun m => enc1 (w m)) b]
    simp only [Prod.map, dec1_Y]
  · simp only [enc2_Y]
    rw [Recon.lrAt_flip (σ := sY2) ord Recon.signs2.2.1 rfl (fun _ => Recon.isoMhd_Y _) dt dx (fun m => enc2 (w m)) b]
    simp only [Prod.map, dec2_Y]
  · simp only [enc3_Y]
    rw [Recon.lrAt_flip (σ := sY3) ord Recon.signs3.2.1 rfl (fun _ => Recon.adbMhd_Y _) dt dx (fun m => enc3 (w m)) b]
    simp only [Prod.map, dec3_Y]

theorem lrCode_Z (dt dx : ℝ) (w : ℤ → Prim1 ℝ ns) (b : ℤ → ℝ) :
    lrCode p ord cf dt dx (fun m => (w m).nZ) b = ((lrCode p ord cf dt dx w b).1.nZ, (lrCode p ord cf dt dx w b).2.nZ) := by
  unfold lrCode
  split
  · simp only [enc0_Z]
    rw [Recon.lrAt_flip (σ := sZ0) ord Recon.signs0.2.2 rfl (fun _ => Recon.isoHyd_Z _) dt dx (fun m => enc0 (w m)) b]
    simp only [Prod.map, dec0_Z]
  · simp only [enc1_Z]
    rw [Recon.lrAt_flip (σ := sZ1) ord Recon.signs1.2.2 rfl (fun _ => Recon.adbHyd_Z _) dt dx (fun m => enc1 (w m)) b]
    simp only [Prod.map, dec1_Z]
  · simp only [enc2_Z]
    rw [Recon.lrAt_flip (σ := sZ2) ord Recon.signs2.2.2 rfl (fun _ => Recon.isoMhd_Z _) dt dx (fun m => enc2 (w m)) b]
    simp only [Prod.map, dec2_Z]
  · simp only [enc3_Z]
    rw [Recon.lrAt_flip (σ := sZ3) ord Recon.signs3.2.2 rfl (fun _ => Recon.adbMhd_Z _) dt dx (fun m => enc3 (w m)) b]
    simp only [Prod.map, dec3_Z]

/-- **C67.** The code's functions do not distinguish left from right. -/
theorem code_mirror : (codeFuns ns p ord cf dMin).Mirror where
  toX u b := by
    have e : ((cons1DToPrim1D p (toC u).mirror (-b)).map ofW).getD (nanW u.mX) = (((cons1DToPrim1D p (toC u) b).map ofW).getD (nanW u)).mX := by
      rw [Hydro.c2p_mirror]
      exact getD_map ofW Prim1.mX Hydro.Prim1D.mirror (fun _ => rfl) _ _ _ (by simp [nanW, Prim1.mX, Cons1.mX, neg_div])
    refine Eq.trans ?_ (fillW_m p ⟨u.d, u.Mx, u.My, u.Mz, u.E, u.By, u.Bz, u.s⟩ _).1
    rw [← e]; rfl
  toY u b := by
    have e : ((cons1DToPrim1D p (toC u).flipY b).map ofW).getD (nanW u.nY) = (((cons1DToPrim1D p (toC u) b).map ofW).getD (nanW u)).nY := by
      rw [Hydro.c2p_flipY]
      exact getD_map ofW Prim1.nY Hydro.Prim1D.flipY (fun _ => rfl) _ _ _ (by simp [nanW, Prim1.nY, Cons1.nY, neg_div])
    refine Eq.trans ?_ (fillW_m p ⟨u.d, u.Mx, u.My, u.Mz, u.E, u.By, u.Bz, u.s⟩ _).2.1
    rw [← e]; rfl
  toZ u b := by
    have e : ((cons1DToPrim1D p (toC u).flipZ b).map ofW).getD (nanW u.nZ) = (((cons1DToPrim1D p (toC u) b).map ofW).getD (nanW u)).nZ := by
      rw [Hydro.c2p_flipZ]
      exact getD_map ofW Prim1.nZ Hydro.Prim1D.flipZ (fun _ => rfl) _ _ _ (by simp [nanW, Prim1.nZ, Cons1.nZ, neg_div])
    refine Eq.trans ?_ (fillW_m p ⟨u.d, u.Mx, u.My, u.Mz, u.E, u.By, u.Bz, u.s⟩ _).2.2
    rw [← e]; rfl
  ofX w b := by
    have e : ((prim1DToCons1D p (toW w).mirror (-b)).map ofC).getD nanC = (((prim1DToCons1D p (toW w) b).map ofC).getD nanC).mX := by
      rw [Hydro.p2c_mirror]
      exact getD_map ofC Cons1.mX Hydro.Cons1D.mirror (fun _ => rfl) _ _ _ (by simp [nanC, Cons1.mX])
    refine Eq.trans ?_ (fillC_m p ⟨w.d, w.Vx, w.Vy, w.Vz, w.P, w.By, w.Bz, w.r⟩ _).1
    rw [← e]; rfl
  ofY w b := by
    have e : ((prim1DToCons1D p (toW w).flipY b).map ofC).getD nanC = (((prim1DToCons1D p (toW w) b).map ofC).getD nanC).nY := by
      rw [Hydro.p2c_flipY]
      exact getD_map ofC Cons1.nY Hydro.Cons1D.flipY (fun _ => rfl) _ _ _ (by simp [nanC, Cons1.nY])
    refine Eq.trans ?_ (fillC_m p ⟨w.d, w.Vx, w.Vy, w.Vz, w.P, w.By, w.Bz, w.r⟩ _).2.1
    rw [← e]; rfl
  ofZ w b := by
    have e : ((prim1DToCons1D p (toW w).flipZ b).map ofC).getD nanC = (((prim1DToCons1D p (toW w) b).map ofC).getD nanC).nZ := by
      rw [Hydro.p2c_flipZ]
      exact getD_map ofC Cons1.nZ Hydro.Cons1D.flipZ (fun _ => rfl) _ _ _ (by simp [nanC, Cons1.nZ])
    refine Eq.trans ?_ (fillC_m p ⟨w.d, w.Vx, w.Vy, w.Vz, w.P, w.By, w.Bz, w.r⟩ _).2.2.1
    rw [← e]; rfl
  to1 u := by
    rw [code_c2p, code_c2p]
    simp only [Cons.m1, Prim.m1, neg_div]
  to2 u := by
    rw [code_c2p, code_c2p]
    simp only [Cons.m2, Prim.m2, neg_div]
  to3 u := by
    rw [code_c2p, code_c2p]
    simp only [Cons.m3, Prim.m3, neg_div]
  fluxX ul ur wl wr b := by
    have z : nanF wr.mX wl.mX (-b) = (nanF wl wr b).fX := by
      simp only [nanF, Cons1.fX, Prim1.mX, Cons1.mk.injEq, neg_zero, true_and, and_true]
      constructor <;> ring
    have e : ((hlle p (toC ur).mirror (toC ul).mirror (toW wr).mirror (toW wl).mirror (-b)).map ofC).getD (nanF wr.mX wl.mX (-b)) =
        (((hlle p (toC ul) (toC ur) (toW wl) (toW wr) b).map ofC).getD (nanF wl wr b)).fX := by
      rw [Hydro.hlle_mirror_all]
      exact getD_map ofC Cons1.fX Hydro.Cons1D.mirrorFlux (fun _ => rfl) _ _ _ z
    refine Eq.trans ?_ (fillC_m p (nanF wl wr b) _).2.2.2
    rw [← e, ← z]; rfl
  fluxY ul ur wl wr b := by
    have z : nanF wl.nY wr.nY b = (nanF wl wr b).nY := by
      simp only [nanF, Cons1.nY, Prim1.nY, Cons1.mk.injEq, neg_zero, true_and, and_true]
      ring
    have e : ((hlle p (toC ul).flipY (toC ur).flipY (toW wl).flipY (toW wr).flipY b).map ofC).getD (nanF wl.nY wr.nY b) =
        (((hlle p (toC ul) (toC ur) (toW wl) (toW wr) b).map ofC).getD (nanF wl wr b)).nY := by
      rw [Hydro.hlle_flipY]
      exact getD_map ofC Cons1.nY Hydro.Cons1D.flipY (fun _ => rfl) _ _ _ z
    refine Eq.trans ?_ (fillC_m p (nanF wl wr b) _).2.1
    rw [← e, ← z]; rfl
  fluxZ ul ur wl wr b := by
    have z : nanF wl.nZ wr.nZ b = (nanF wl wr b).nZ := by
      simp only [nanF, Cons1.nZ, Prim1.nZ, Cons1.mk.injEq, neg_zero, true_and, and_true]
      ring
    have e : ((hlle p (toC ul).flipZ (toC ur).flipZ (toW wl).flipZ (toW wr).flipZ b).map ofC).getD (nanF wl.nZ wr.nZ b) =
        (((hlle p (toC ul) (toC ur) (toW wl) (toW wr) b).map ofC).getD (nanF wl wr b)).nZ := by
      rw [Hydro.hlle_flipZ]
      exact getD_map ofC Cons1.nZ Hydro.Cons1D.flipZ (fun _ => rfl) _ _ _ z
    refine Eq.trans ?_ (fillC_m p (nanF wl wr b) _).2.2.1
    rw [← e, ← z]; rfl
  lrX dt dx _ w b := by
    simp only [codeFuns, lrCode_X]
    rw [← (fillW_m p _ _).1, ← (fillW_m p _ _).1]
    rfl
  lrY dt dx _ w b := by
    simp only [codeFuns, lrCode_Y]
    rw [← (fillW_m p _ _).2.1, ← (fillW_m p _ _).2.1]
  lrZ dt dx _ w b := by
    simp only [codeFuns, lrCode_Z]
    rw [← (fillW_m p _ _).2.2, ← (fillW_m p _ _).2.2]

end
end Athena.Gen
