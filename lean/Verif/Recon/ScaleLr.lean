import Verif.Recon.Scale

/-!
# C130, C131: `lr_states` in other units
-/

namespace Athena.Recon
noncomputable section
open Athena.Hydro
variable {k ns : ℕ} {f : Fin (k + 4) → ℝ} {s β : ℝ} {cf : Cfg} {es es' : Vec k ns → ℝ → Eig k}

theorem vx_sc (h1 : f 1 = s) (W : Vec k ns) : vx (flipV f W) = s * vx W := by rw [← h1]; rfl

variable (W : ℤ → Vec k ns) (b : ℤ → ℝ)

theorem z2_sc (hf : NoZero f) (j : ℤ) : z2 (fun m => flipV f (W m)) j = (flipV f (z2 W j).1, flipV f (z2 W j).2) := by
  unfold z2
  refine Prod.ext ?_ ?_ <;> funext n <;> (simp only [flipV]; rw [prim2Zone_sc (hf.sg n)])

theorem out2_sc (hs : 0 < s) (hf : NoZero f) (h1 : f 1 = s) (hes : cf.ctu = true → UnitSym s β f es es') (q : ℝ) (j : ℤ) :
    out2 cf es' q (fun m => flipV f (W m)) (fun m => β * b m) j = (flipV f (out2 cf es (s * q) W b j).1, flipV f (out2 cf es (s * q) W b j).2) := by
  unfold out2
  rw [z2_sc W hf]
  split_ifs with hc
  · obtain ⟨h2, h3, h4⟩ := hes hc
    rw [vx_sc h1]
    exact prim2Trace_sc hs (h2 _ _) (h3 _ _) (h4 _ _) _ _ _ _ _
  · rfl

theorem zM_sc (hf : NoZero f) (hes : UnitSym s β f es es') (j : ℤ) :
    zM es' (fun m => flipV f (W m)) (fun m => β * b m) j = (flipV f (zM es W b j).1, flipV f (zM es W b j).2) := by
  unfold zM
  dsimp only
  rw [charSlope_sc hf (hes.img _ _)]
  refine Prod.ext ?_ ?_ <;> funext n <;> (simp only [flipV]; rw [plmZone_sc (hf.sg n)])

theorem outM_sc (hs : 0 < s) (hf : NoZero f) (h1 : f 1 = s) (hes : UnitSym s β f es es') (q : ℝ) (j : ℤ) :
    outM cf es' q (fun m => flipV f (W m)) (fun m => β * b m) j = (flipV f (outM cf es (s * q) W b j).1, flipV f (outM cf es (s * q) W b j).2) := by
  unfold outM
  rw [zM_sc W b hf hes]
  split_ifs with hc
  · rw [vx_sc h1]
    exact plmTrace_sc hs (hes.img _ _) (hes.lo _ _) (hes.hi _ _) _ _ _ _ _
  · rfl

theorem wh3_sc (hf : NoZero f) (j : ℤ) : wh3 (fun m => flipV f (W m)) j = flipV f (wh3 W j) := by
  funext n
  simp only [wh3, flipV]
  rw [half3_sc (hf.sg n)]

theorem z3_sc (hf : NoZero f) (j : ℤ) : z3 (fun m => flipV f (W m)) j = (flipV f (z3 W j).1, flipV f (z3 W j).2) := by
  unfold z3
  rw [wh3_sc W hf, wh3_sc W hf]
  refine Prod.ext ?_ ?_ <;> funext n <;> (simp only [flipV]; rw [prim3Zone_sc (hf.sg n)])

theorem out3_sc (hs : 0 < s) (hf : NoZero f) (h1 : f 1 = s) (hes : cf.ctu = true → UnitSym s β f es es') (q : ℝ) (j : ℤ) :
    out3 cf es' q (fun m => flipV f (W m)) (fun m => β * b m) j = (flipV f (out3 cf es (s * q) W b j).1, flipV f (out3 cf es (s * q) W b j).2) := by
  unfold out3
  rw [z3_sc W hf]
  split_ifs with hc
  · obtain ⟨h2, h3, h4⟩ := hes hc
    rw [vx_sc h1]
    exact prim3Trace_sc hs (h2 _ _) (h3 _ _) (h4 _ _) _ _ _ _ _ _
  · rfl

theorem whP_sc (hf : NoZero f) (hes : UnitSym s β f es es') (j : ℤ) :
    whP es' (fun m => flipV f (W m)) (fun m => β * b m) j = flipV f (whP es W b j) := by
  funext n
  simp only [whP, dmP]
  rw [charSlope_sc hf (hes.img _ _), charSlope_sc hf (hes.img _ _)]
  simp only [flipV]
  rw [ppmHalf_sc]
  rfl

theorem zP_sc (hf : NoZero f) (hes : UnitSym s β f es es') (j : ℤ) :
    zP es' (fun m => flipV f (W m)) (fun m => β * b m) j = (flipV f (zP es W b j).1, flipV f (zP es W b j).2) := by
  unfold zP
  rw [whP_sc W b hf hes, whP_sc W b hf hes]
  refine Prod.ext ?_ ?_ <;> funext n <;> (simp only [flipV]; rw [mono3_sc (hf.sg n), clip_sc (hf.sg n)])

theorem outP_sc (hs : 0 < s) (hf : NoZero f) (h1 : f 1 = s) (hes : UnitSym s β f es es') (q : ℝ) (j : ℤ) :
    outP cf es' q (fun m => flipV f (W m)) (fun m => β * b m) j = (flipV f (outP cf es (s * q) W b j).1, flipV f (outP cf es (s * q) W b j).2) := by
  unfold outP
  rw [zP_sc W b hf hes]
  split_ifs with hc
  · rw [vx_sc h1]
    exact ppmTrace_sc hs (hes.img _ _) (hes.lo _ _) (hes.hi _ _) _ _ _ _ _ _
  · rfl

/-- `--with-order` is not `3pck` or `3pcl`. -/
def Order.NotCompact : Order → Prop
  | .p3c _ => False
  | _ => True

/-- **C130.** `lr_states` in other units of the variables and of `dt/dx`; not for the third-order compact schemes. -/
theorem lrAt_sc (ord : Order) (ho : ord.NotCompact) (hs : 0 < s) (hf : NoZero f) (h1 : f 1 = s) (hes : ord.UsesEs cf → UnitSym s β f es es')
    {dt dx dt' dx' : ℝ} (hq : s * (dt' / dx') = dt / dx) (W : ℤ → Vec k ns) (b : ℤ → ℝ) :
    lrAt ord cf es' dt' dx' (fun m => flipV f (W m)) (fun m => β * b m) =
      (flipV f (lrAt ord cf es dt dx W b).1, flipV f (lrAt ord cf es dt dx W b).2) := by
  cases ord with
  | dc =>
    simp only [lrAt]
    rw [(dc_states _ 0 0 _ 0 (by omega) (by omega)).1, (dc_states _ 0 0 _ 0 (by omega) (by omega)).2,
      (dc_states _ 0 0 _ 0 (by omega) (by omega)).1, (dc_states _ 0 0 _ 0 (by omega) (by omega)).2]
  | prim2 =>
    simp only [lrAt]
    rw [(prim2_states _ _ _ _ _ 0 0 _ 0 (by omega) (by omega)).1, (prim2_states _ _ _ _ _ 0 0 _ 0 (by omega) (by omega)).2,
      (prim2_states _ _ _ _ _ 0 0 _ 0 (by omega) (by omega)).1, (prim2_states _ _ _ _ _ 0 0 _ 0 (by omega) (by omega)).2,
      out2_sc W b hs hf h1 hes, out2_sc W b hs hf h1 hes, hq]
  | plm =>
    simp only [lrAt]
    rw [(plm_states _ _ _ _ _ 0 0 _ 0 (by omega) (by omega)).1, (plm_states _ _ _ _ _ 0 0 _ 0 (by omega) (by omega)).2,
      (plm_states _ _ _ _ _ 0 0 _ 0 (by omega) (by omega)).1, (plm_states _ _ _ _ _ 0 0 _ 0 (by omega) (by omega)).2,
      outM_sc W b hs hf h1 (hes trivial), outM_sc W b hs hf h1 (hes trivial), hq]
  | prim3 =>
    simp only [lrAt]
    rw [(prim3_states _ _ _ _ _ 0 0 _ _ 0 (by omega) (by omega)).1, (prim3_states _ _ _ _ _ 0 0 _ _ 0 (by omega) (by omega)).2,
      (prim3_states _ _ _ _ _ 0 0 _ _ 0 (by omega) (by omega)).1, (prim3_states _ _ _ _ _ 0 0 _ _ 0 (by omega) (by omega)).2,
      out3_sc W b hs hf h1 hes, out3_sc W b hs hf h1 hes, hq]
  | ppm =>
    simp only [lrAt]
    rw [(ppm_states _ _ _ _ _ 0 0 _ 0 (by omega) (by omega)).1, (ppm_states _ _ _ _ _ 0 0 _ 0 (by omega) (by omega)).2,
      (ppm_states _ _ _ _ _ 0 0 _ 0 (by omega) (by omega)).1, (ppm_states _ _ _ _ _ 0 0 _ 0 (by omega) (by omega)).2,
      outP_sc W b hs hf h1 (hes trivial), outP_sc W b hs hf h1 (hes trivial), hq]
  | p3c l => exact absurd ho id

end
end Athena.Recon
