import Verif.Recon.Mirror

/-!
# C67: `lr_states` and mirrored zones
-/

namespace Athena.Recon
noncomputable section
open Athena.Hydro
variable {k ns : ℕ}

/-- The choices of `--with-order`, configure.ac:284-314: `1`, `2p`, `2`, `3p`, `3`, `3pck` or `3pcl`. -/
inductive Order
  | dc
  | prim2
  | plm
  | prim3
  | ppm
  | p3c (limo3 : Bool)

/-- `lr_states` at one interface, numbered 0: the zone to the left of it is number -1, the one to the right number 0. -/
def lrAt (ord : Order) (cf : Cfg) (es : Vec k ns → ℝ → Eig k) (dt dx : ℝ) (W : ℤ → Vec k ns) (b : ℤ → ℝ) : Vec k ns × Vec k ns :=
  let o : Out k ns := ⟨fun _ _ => 0, fun _ _ => 0⟩
  let r : Out k ns := match ord with
    | .dc => lrDc W 0 0 o
    | .prim2 => lrPrim2 cf es (dt / dx) W b 0 0 o
    | .plm => lrPlm cf es (dt / dx) W b 0 0 o
    | .prim3 => lrPrim3 cf es (dt / dx) W b 0 0 (fun _ _ => 0) o
    | .ppm => (lrPpm cf es (dt / dx) W b 0 0 ⟨⟨fun _ => 0, fun _ _ => 0, fun _ _ => 0⟩, fun _ _ => 0, fun _ _ => 0, o⟩).o
    | .p3c l => lrP3c l dx W 0 0 o
  (r.Wl 0, r.Wr 0)

/-- The schemes that call an `esys_prim` function. -/
def Order.UsesEs (ord : Order) (cf : Cfg) : Prop :=
  match ord with
  | .dc | .p3c _ => False
  | .plm | .ppm => True
  | .prim2 | .prim3 => cf.ctu = true

/-- The waves of the image of a state, the direction of propagation reversed, are the images of its waves. -/
structure RevSym (σ : Fin (k + 4) → ℝ) (es : Vec k ns → ℝ → Eig k) : Prop where
  img : ∀ W b, Img (-1) σ (es W b) (es (flipV σ W) (-b))
  lo : ∀ W b, (es (flipV σ W) (-b)).lo = -(es W b).hi
  hi : ∀ W b, (es (flipV σ W) (-b)).hi = -(es W b).lo

/-- The same for a transverse direction. -/
structure FlipSym (σ : Fin (k + 4) → ℝ) (es : Vec k ns → ℝ → Eig k) : Prop where
  img : ∀ W b, Img 1 σ (es W b) (es (flipV σ W) b)
  lo : ∀ W b, (es (flipV σ W) b).lo = (es W b).lo
  hi : ∀ W b, (es (flipV σ W) b).hi = (es W b).hi

variable {σ : Fin (k + 4) → ℝ} {cf : Cfg} {es : Vec k ns → ℝ → Eig k}

theorem vx_flip (W : Vec k ns) : vx (flipV σ W) = σ 1 * vx W := rfl

theorem pm2 {f : ℝ → ℝ → ℝ → ℝ × ℝ} (hf : ∀ a b c, f (-a) (-b) (-c) = (-(f a b c).1, -(f a b c).2)) {s : ℝ} (h : s = 1 ∨ s = -1) (a b c : ℝ) :
    f (s * a) (s * b) (s * c) = (s * (f a b c).1, s * (f a b c).2) := by
  rcases h with rfl | rfl
  · simp only [one_mul]
  · simp only [neg_mul, one_mul, hf]

theorem plmZone_sg {s : ℝ} (h : s = 1 ∨ s = -1) (a b c m : ℝ) :
    plmZone (s * a) (s * b) (s * c) (s * m) = (s * (plmZone a b c m).1, s * (plmZone a b c m).2) := by
  rcases h with rfl | rfl
  · simp only [one_mul]
  · simp only [neg_mul, one_mul, plmZone_neg]

theorem half3_sg {s : ℝ} (h : s = 1 ∨ s = -1) (a b c d : ℝ) : half3 (s * a) (s * b) (s * c) (s * d) = s * half3 a b c d := by
  rcases h with rfl | rfl
  · simp only [one_mul]
  · simp only [neg_mul, one_mul, half3_neg]

theorem ppmHalf_sg {s : ℝ} (h : s = 1 ∨ s = -1) (a b c d : ℝ) : ppmHalf (s * a) (s * b) (s * c) (s * d) = s * ppmHalf a b c d := by
  rcases h with rfl | rfl
  · simp only [one_mul]
  · simp only [neg_mul, one_mul, ppmHalf_neg]

theorem prim3Zone_sg {s : ℝ} (h : s = 1 ∨ s = -1) (a b c d e l r : ℝ) : prim3Zone (s * a) (s * b) (s * c) (s * d) (s * e) (s * l) (s * r) =
    (s * (prim3Zone a b c d e l r).1, s * (prim3Zone a b c d e l r).2) := by
  rcases h with rfl | rfl
  · simp only [one_mul]
  · simp only [neg_mul, one_mul, prim3Zone_neg]

theorem clip_sg {s : ℝ} (h : s = 1 ∨ s = -1) (a b x : ℝ) : clip (s * a) (s * b) (s * x) = s * clip a b x := by
  rcases h with rfl | rfl
  · simp only [one_mul]
  · simp only [neg_mul, one_mul, clip_neg]

theorem p3cLim_sg {s : ℝ} (h : s = 1 ∨ s = -1) (l : Bool) (eta x y : ℝ) : p3cLim l eta (s * x) (s * y) = s * p3cLim l eta x y := by
  rcases h with rfl | rfl
  · simp only [one_mul]
  · simp only [neg_mul, one_mul, p3cLim_neg]

section rev
variable {W W' : ℤ → Vec k ns} {b b' : ℤ → ℝ}

theorem z2_rev (hσ : Signs σ) (hW : ∀ m, W' m = flipV σ (W (-1 - m))) (j : ℤ) :
    z2 W' (-1 - j) = (flipV σ (z2 W j).2, flipV σ (z2 W j).1) := by
  unfold z2
  rw [hW, hW, hW, show -1 - (-1 - j - 1) = j + 1 by ring, show -1 - (-1 - j) = j by ring, show -1 - (-1 - j + 1) = j - 1 by ring]
  refine Prod.ext ?_ ?_ <;> funext n <;> (simp only [flipV]; rw [pm2 prim2Zone_neg (hσ.sg n), prim2Zone_swap])

theorem out2_rev (hσ : Signs σ) (h1 : σ 1 = -1) (hes : cf.ctu = true → RevSym σ es) (hW : ∀ m, W' m = flipV σ (W (-1 - m)))
    (hb : ∀ m, b' m = -b (-1 - m)) (q : ℝ) (j : ℤ) :
    out2 cf es q W' b' (-1 - j) = (flipV σ (out2 cf es q W b j).2, flipV σ (out2 cf es q W b j).1) := by
  unfold out2
  rw [z2_rev hσ hW, hW, hb, show -1 - (-1 - j) = j by ring]
  split_ifs with hc
  · obtain ⟨h2, h3, h4⟩ := hes hc
    rw [vx_flip, h1, neg_one_mul]
    exact prim2Trace_rev hσ (h2 _ _) (h3 _ _) (h4 _ _) _ _ _ _ _
  · rfl

theorem dm_rev (hσ : Signs σ) (hes : RevSym σ es) (hW : ∀ m, W' m = flipV σ (W (-1 - m))) (hb : ∀ m, b' m = -b (-1 - m)) (j : ℤ) :
    charSlope (es (W' (-1 - j)) (b' (-1 - j))) (W' (-1 - j - 1)) (W' (-1 - j)) (W' (-1 - j + 1)) =
      fun n => -flipV σ (charSlope (es (W j) (b j)) (W (j - 1)) (W j) (W (j + 1))) n := by
  rw [hW, hW, hW, hb, show -1 - (-1 - j - 1) = j + 1 by ring, show -1 - (-1 - j) = j by ring, show -1 - (-1 - j + 1) = j - 1 by ring,
    charSlope_rev, charSlope_img hσ (hes.img _ _)]

theorem zM_rev (hσ : Signs σ) (hes : RevSym σ es) (hW : ∀ m, W' m = flipV σ (W (-1 - m))) (hb : ∀ m, b' m = -b (-1 - m)) (j : ℤ) :
    zM es W' b' (-1 - j) = (flipV σ (zM es W b j).2, flipV σ (zM es W b j).1) := by
  unfold zM
  rw [dm_rev hσ hes hW hb]
  rw [hW, hW, hW, show -1 - (-1 - j - 1) = j + 1 by ring, show -1 - (-1 - j) = j by ring, show -1 - (-1 - j + 1) = j - 1 by ring]
  refine Prod.ext ?_ ?_ <;> funext n <;> (simp only [flipV]; rw [← mul_neg, plmZone_sg (hσ.sg n), plmZone_swap])

theorem outM_rev (hσ : Signs σ) (h1 : σ 1 = -1) (hes : RevSym σ es) (hW : ∀ m, W' m = flipV σ (W (-1 - m)))
    (hb : ∀ m, b' m = -b (-1 - m)) (q : ℝ) (j : ℤ) :
    outM cf es q W' b' (-1 - j) = (flipV σ (outM cf es q W b j).2, flipV σ (outM cf es q W b j).1) := by
  unfold outM
  rw [zM_rev hσ hes hW hb, hW, hb, show -1 - (-1 - j) = j by ring]
  split_ifs with hc
  · rw [vx_flip, h1, neg_one_mul]
    exact plmTrace_rev hσ (hes.img _ _) (hes.lo _ _) (hes.hi _ _) _ _ _ _ _
  · rfl

theorem wh3_rev (hσ : Signs σ) (hW : ∀ m, W' m = flipV σ (W (-1 - m))) (j : ℤ) : wh3 W' (-j) = flipV σ (wh3 W j) := by
  unfold wh3
  rw [hW, hW, hW, hW, show -1 - (-j - 2) = j + 1 by ring, show -1 - (-j - 1) = j by ring, show -1 - -j = j - 1 by ring,
    show -1 - (-j + 1) = j - 2 by ring]
  funext n
  simp only [flipV]
  rw [half3_sg (hσ.sg n), half3_rev]

theorem z3_rev (hσ : Signs σ) (hW : ∀ m, W' m = flipV σ (W (-1 - m))) (j : ℤ) :
    z3 W' (-1 - j) = (flipV σ (z3 W j).2, flipV σ (z3 W j).1) := by
  unfold z3
  rw [show -1 - j + 1 = -j by ring, wh3_rev hσ hW, show wh3 W' (-1 - j) = flipV σ (wh3 W (j + 1)) by
    rw [← wh3_rev hσ hW]; congr 1; ring]
  rw [hW, hW, hW, hW, hW, show -1 - (-1 - j - 2) = j + 2 by ring, show -1 - (-1 - j - 1) = j + 1 by ring, show -1 - (-1 - j) = j by ring,
    show -1 - -j = j - 1 by ring, show -1 - (-1 - j + 2) = j - 2 by ring]
  refine Prod.ext ?_ ?_ <;> funext n <;> (simp only [flipV]; rw [prim3Zone_sg (hσ.sg n), prim3Zone_swap])

theorem out3_rev (hσ : Signs σ) (h1 : σ 1 = -1) (hes : cf.ctu = true → RevSym σ es) (hW : ∀ m, W' m = flipV σ (W (-1 - m)))
    (hb : ∀ m, b' m = -b (-1 - m)) (q : ℝ) (j : ℤ) :
    out3 cf es q W' b' (-1 - j) = (flipV σ (out3 cf es q W b j).2, flipV σ (out3 cf es q W b j).1) := by
  unfold out3
  rw [z3_rev hσ hW, hW, hb, show -1 - (-1 - j) = j by ring]
  split_ifs with hc
  · obtain ⟨h2, h3, h4⟩ := hes hc
    rw [vx_flip, h1, neg_one_mul]
    exact prim3Trace_rev hσ (h2 _ _) (h3 _ _) (h4 _ _) _ _ _ _ _ _
  · rfl

theorem whP_rev (hσ : Signs σ) (hes : RevSym σ es) (hW : ∀ m, W' m = flipV σ (W (-1 - m))) (hb : ∀ m, b' m = -b (-1 - m)) (j : ℤ) :
    whP es W' b' (-j) = flipV σ (whP es W b j) := by
  have hd : ∀ j, dmP es W' b' (-1 - j) = fun n => -flipV σ (dmP es W b j) n := dm_rev hσ hes hW hb
  unfold whP
  rw [show dmP es W' b' (-j) = fun n => -flipV σ (dmP es W b (j - 1)) n by rw [← hd]; congr 1; ring,
    show dmP es W' b' (-j - 1) = fun n => -flipV σ (dmP es W b j) n by rw [← hd]; congr 1; ring, hW, hW,
    show -1 - (-j - 1) = j by ring, show -1 - -j = j - 1 by ring]
  funext n
  simp only [flipV]
  rw [← mul_neg, ← mul_neg, ppmHalf_sg (hσ.sg n), ppmHalf_swap]

theorem zP_rev (hσ : Signs σ) (hes : RevSym σ es) (hW : ∀ m, W' m = flipV σ (W (-1 - m))) (hb : ∀ m, b' m = -b (-1 - m)) (j : ℤ) :
    zP es W' b' (-1 - j) = (flipV σ (zP es W b j).2, flipV σ (zP es W b j).1) := by
  unfold zP
  rw [show -1 - j + 1 = -j by ring, whP_rev hσ hes hW hb, show whP es W' b' (-1 - j) = flipV σ (whP es W b (j + 1)) by
    rw [← whP_rev hσ hes hW hb]; congr 1; ring]
  rw [hW, hW, hW, show -1 - (-1 - j - 1) = j + 1 by ring, show -1 - (-1 - j) = j by ring, show -1 - -j = j - 1 by ring]
  refine Prod.ext ?_ ?_ <;> funext n <;> (simp only [flipV]; rw [pm2 mono3_neg (hσ.sg n), mono3_swap, clip_sg (hσ.sg n)])

theorem outP_rev (hσ : Signs σ) (h1 : σ 1 = -1) (hes : RevSym σ es) (hW : ∀ m, W' m = flipV σ (W (-1 - m)))
    (hb : ∀ m, b' m = -b (-1 - m)) (q : ℝ) (j : ℤ) :
    outP cf es q W' b' (-1 - j) = (flipV σ (outP cf es q W b j).2, flipV σ (outP cf es q W b j).1) := by
  unfold outP
  rw [zP_rev hσ hes hW hb, hW, hb, show -1 - (-1 - j) = j by ring]
  split_ifs with hc
  · rw [vx_flip, h1, neg_one_mul]
    exact ppmTrace_rev hσ (hes.img _ _) (hes.lo _ _) (hes.hi _ _) _ _ _ _ _ _
  · rfl

theorem outC_eq (l : Bool) (dx : ℝ) (W : ℤ → Vec k ns) (i : ℤ) : outC l dx W i =
    (fun n => W i n + p3cLim l (((W i n - W (i - 1) n) * (W i n - W (i - 1) n) + (W (i + 1) n - W i n) * (W (i + 1) n - W i n)) /
        ((1/10 * dx) * (1/10 * dx))) (W i n - W (i - 1) n) (W (i + 1) n - W i n),
      fun n => W i n - p3cLim l (((W i n - W (i - 1) n) * (W i n - W (i - 1) n) + (W (i + 1) n - W i n) * (W (i + 1) n - W i n)) /
        ((1/10 * dx) * (1/10 * dx))) (W (i + 1) n - W i n) (W i n - W (i - 1) n)) := rfl

theorem p3c_elem {s : ℝ} (h : s = 1 ∨ s = -1) (l : Bool) (D b c d : ℝ) :
    s * c + p3cLim l (((s * c - s * d) * (s * c - s * d) + (s * b - s * c) * (s * b - s * c)) / D) (s * c - s * d) (s * b - s * c) =
      s * (c - p3cLim l (((c - b) * (c - b) + (d - c) * (d - c)) / D) (d - c) (c - b)) := by
  have e : (s * c - s * d) * (s * c - s * d) + (s * b - s * c) * (s * b - s * c) = (c - b) * (c - b) + (d - c) * (d - c) := by
    linear_combination ((c - d) * (c - d) + (b - c) * (b - c)) * sq_one h
  rw [e, show s * c - s * d = s * -(d - c) by ring, show s * b - s * c = s * -(c - b) by ring, p3cLim_sg h, p3cLim_neg]; ring

theorem p3c_elem' {s : ℝ} (h : s = 1 ∨ s = -1) (l : Bool) (D b c d : ℝ) :
    s * c - p3cLim l (((s * c - s * d) * (s * c - s * d) + (s * b - s * c) * (s * b - s * c)) / D) (s * b - s * c) (s * c - s * d) =
      s * (c + p3cLim l (((c - b) * (c - b) + (d - c) * (d - c)) / D) (c - b) (d - c)) := by
  have e : (s * c - s * d) * (s * c - s * d) + (s * b - s * c) * (s * b - s * c) = (c - b) * (c - b) + (d - c) * (d - c) := by
    linear_combination ((c - d) * (c - d) + (b - c) * (b - c)) * sq_one h
  rw [e, show s * c - s * d = s * -(d - c) by ring, show s * b - s * c = s * -(c - b) by ring, p3cLim_sg h, p3cLim_neg]; ring

theorem outC_rev (hσ : Signs σ) (hW : ∀ m, W' m = flipV σ (W (-1 - m))) (l : Bool) (dx : ℝ) (j : ℤ) :
    outC l dx W' (-1 - j) = (flipV σ (outC l dx W j).2, flipV σ (outC l dx W j).1) := by
  rw [outC_eq, outC_eq]
  rw [hW, hW, hW, show -1 - (-1 - j - 1) = j + 1 by ring, show -1 - (-1 - j) = j by ring, show -1 - (-1 - j + 1) = j - 1 by ring]
  refine Prod.ext ?_ ?_ <;> funext n
  · exact p3c_elem (hσ.sg n) l _ _ _ _
  · exact p3c_elem' (hσ.sg n) l _ _ _ _

theorem glue (f f' : ℤ → Vec k ns × Vec k ns) (h : ∀ j, f' (-1 - j) = (flipV σ (f j).2, flipV σ (f j).1)) :
    ((f' (0 - 1)).1, (f' 0).2) = (flipV σ (f 0).2, flipV σ (f (0 - 1)).1) := by
  have h0 := h 0
  have h1 := h (0 - 1)
  rw [show -1 - (0 - 1) = (0 : ℤ) by ring] at h1
  rw [show -1 - (0 : ℤ) = 0 - 1 by ring] at h0
  rw [h0, h1]

/-- C67: `lr_states` from the mirrored zones gives the mirrored states, left and right exchanged. -/
theorem lrAt_rev (ord : Order) (hσ : Signs σ) (h1 : σ 1 = -1) (hes : ord.UsesEs cf → RevSym σ es) (dt dx : ℝ) (W : ℤ → Vec k ns) (b : ℤ → ℝ) :
    lrAt ord cf es dt dx (fun m => flipV σ (W (-1 - m))) (fun m => -b (-1 - m)) =
      (flipV σ (lrAt ord cf es dt dx W b).2, flipV σ (lrAt ord cf es dt dx W b).1) := by
  cases ord with
  | dc =>
    simp only [lrAt]
    rw [(dc_states _ 0 0 _ 0 (by omega) (by omega)).1, (dc_states _ 0 0 _ 0 (by omega) (by omega)).2,
      (dc_states _ 0 0 _ 0 (by omega) (by omega)).1, (dc_states _ 0 0 _ 0 (by omega) (by omega)).2]
    rfl
  | prim2 =>
    simp only [lrAt]
    rw [(prim2_states _ _ _ _ _ 0 0 _ 0 (by omega) (by omega)).1, (prim2_states _ _ _ _ _ 0 0 _ 0 (by omega) (by omega)).2,
      (prim2_states _ _ _ _ _ 0 0 _ 0 (by omega) (by omega)).1, (prim2_states _ _ _ _ _ 0 0 _ 0 (by omega) (by omega)).2]
    have h := out2_rev (cf := cf) (es := es) hσ h1 hes (fun m => (rfl : (fun m => flipV σ (W (-1 - m))) m = _)) (fun m => (rfl : (fun m => -b (-1 - m)) m = _)) (dt / dx)
    exact glue _ _ h
  | plm =>
    simp only [lrAt]
    rw [(plm_states _ _ _ _ _ 0 0 _ 0 (by omega) (by omega)).1, (plm_states _ _ _ _ _ 0 0 _ 0 (by omega) (by omega)).2,
      (plm_states _ _ _ _ _ 0 0 _ 0 (by omega) (by omega)).1, (plm_states _ _ _ _ _ 0 0 _ 0 (by omega) (by omega)).2]
    have h := outM_rev (cf := cf) hσ h1 (hes trivial) (fun m => (rfl : (fun m => flipV σ (W (-1 - m))) m = _)) (fun m => (rfl : (fun m => -b (-1 - m)) m = _)) (dt / dx)
    exact glue _ _ h
  | prim3 =>
    simp only [lrAt]
    rw [(prim3_states _ _ _ _ _ 0 0 _ _ 0 (by omega) (by omega)).1, (prim3_states _ _ _ _ _ 0 0 _ _ 0 (by omega) (by omega)).2,
      (prim3_states _ _ _ _ _ 0 0 _ _ 0 (by omega) (by omega)).1, (prim3_states _ _ _ _ _ 0 0 _ _ 0 (by omega) (by omega)).2]
    have h := out3_rev (cf := cf) (es := es) hσ h1 hes (fun m => (rfl : (fun m => flipV σ (W (-1 - m))) m = _)) (fun m => (rfl : (fun m => -b (-1 - m)) m = _)) (dt / dx)
    exact glue _ _ h
  | ppm =>
    simp only [lrAt]
    rw [(ppm_states _ _ _ _ _ 0 0 _ 0 (by omega) (by omega)).1, (ppm_states _ _ _ _ _ 0 0 _ 0 (by omega) (by omega)).2,
      (ppm_states _ _ _ _ _ 0 0 _ 0 (by omega) (by omega)).1, (ppm_states _ _ _ _ _ 0 0 _ 0 (by omega) (by omega)).2]
    have h := outP_rev (cf := cf) hσ h1 (hes trivial) (fun m => (rfl : (fun m => flipV σ (W (-1 - m))) m = _)) (fun m => (rfl : (fun m => -b (-1 - m)) m = _)) (dt / dx)
    exact glue _ _ h
  | p3c l =>
    simp only [lrAt]
    rw [(p3c_states _ _ _ 0 0 _ 0 (by omega) (by omega)).1, (p3c_states _ _ _ 0 0 _ 0 (by omega) (by omega)).2,
      (p3c_states _ _ _ 0 0 _ 0 (by omega) (by omega)).1, (p3c_states _ _ _ 0 0 _ 0 (by omega) (by omega)).2]
    have h := outC_rev hσ (fun m => (rfl : (fun m => flipV σ (W (-1 - m))) m = _)) l dx
    exact glue _ _ h

end rev

/-! ## Transverse directions -/

section flip
variable (W : ℤ → Vec k ns) (b : ℤ → ℝ)

theorem z2_flip (hσ : Signs σ) (j : ℤ) : z2 (fun m => flipV σ (W m)) j = (flipV σ (z2 W j).1, flipV σ (z2 W j).2) := by
  unfold z2
  refine Prod.ext ?_ ?_ <;> funext n <;> (simp only [flipV]; rw [pm2 prim2Zone_neg (hσ.sg n)])

theorem out2_flip (hσ : Signs σ) (h1 : σ 1 = 1) (hes : cf.ctu = true → FlipSym σ es) (q : ℝ) (j : ℤ) :
    out2 cf es q (fun m => flipV σ (W m)) b j = (flipV σ (out2 cf es q W b j).1, flipV σ (out2 cf es q W b j).2) := by
  unfold out2
  rw [z2_flip W hσ]
  split_ifs with hc
  · obtain ⟨h2, h3, h4⟩ := hes hc
    rw [vx_flip, h1, one_mul]
    exact prim2Trace_flip hσ (h2 _ _) (h3 _ _) (h4 _ _) _ _ _ _ _
  · rfl

theorem zM_flip (hσ : Signs σ) (hes : FlipSym σ es) (j : ℤ) : zM es (fun m => flipV σ (W m)) b j = (flipV σ (zM es W b j).1, flipV σ (zM es W b j).2) := by
  unfold zM
  dsimp only
  rw [charSlope_img hσ (hes.img _ _)]
  refine Prod.ext ?_ ?_ <;> funext n <;> (simp only [flipV]; rw [plmZone_sg (hσ.sg n)])

theorem outM_flip (hσ : Signs σ) (h1 : σ 1 = 1) (hes : FlipSym σ es) (q : ℝ) (j : ℤ) :
    outM cf es q (fun m => flipV σ (W m)) b j = (flipV σ (outM cf es q W b j).1, flipV σ (outM cf es q W b j).2) := by
  unfold outM
  rw [zM_flip W b hσ hes]
  split_ifs with hc
  · rw [vx_flip, h1, one_mul]
    exact plmTrace_flip hσ (hes.img _ _) (hes.lo _ _) (hes.hi _ _) _ _ _ _ _
  · rfl

theorem wh3_flip (hσ : Signs σ) (j : ℤ) : wh3 (fun m => flipV σ (W m)) j = flipV σ (wh3 W j) := by
  funext n
  simp only [wh3, flipV]
  rw [half3_sg (hσ.sg n)]

theorem z3_flip (hσ : Signs σ) (j : ℤ) : z3 (fun m => flipV σ (W m)) j = (flipV σ (z3 W j).1, flipV σ (z3 W j).2) := by
  unfold z3
  rw [wh3_flip W hσ, wh3_flip W hσ]
  refine Prod.ext ?_ ?_ <;> funext n <;> (simp only [flipV]; rw [prim3Zone_sg (hσ.sg n)])

theorem out3_flip (hσ : Signs σ) (h1 : σ 1 = 1) (hes : cf.ctu = true → FlipSym σ es) (q : ℝ) (j : ℤ) :
    out3 cf es q (fun m => flipV σ (W m)) b j = (flipV σ (out3 cf es q W b j).1, flipV σ (out3 cf es q W b j).2) := by
  unfold out3
  rw [z3_flip W hσ]
  split_ifs with hc
  · obtain ⟨h2, h3, h4⟩ := hes hc
    rw [vx_flip, h1, one_mul]
    exact prim3Trace_flip hσ (h2 _ _) (h3 _ _) (h4 _ _) _ _ _ _ _ _
  · rfl

theorem whP_flip (hσ : Signs σ) (hes : FlipSym σ es) (j : ℤ) : whP es (fun m => flipV σ (W m)) b j = flipV σ (whP es W b j) := by
  funext n
  simp only [whP, dmP]
  rw [charSlope_img hσ (hes.img _ _), charSlope_img hσ (hes.img _ _)]
  simp only [flipV]
  rw [ppmHalf_sg (hσ.sg n)]
  rfl

theorem zP_flip (hσ : Signs σ) (hes : FlipSym σ es) (j : ℤ) : zP es (fun m => flipV σ (W m)) b j = (flipV σ (zP es W b j).1, flipV σ (zP es W b j).2) := by
  unfold zP
  rw [whP_flip W b hσ hes, whP_flip W b hσ hes]
  refine Prod.ext ?_ ?_ <;> funext n <;> (simp only [flipV]; rw [pm2 mono3_neg (hσ.sg n), clip_sg (hσ.sg n)])

theorem outP_flip (hσ : Signs σ) (h1 : σ 1 = 1) (hes : FlipSym σ es) (q : ℝ) (j : ℤ) :
    outP cf es q (fun m => flipV σ (W m)) b j = (flipV σ (outP cf es q W b j).1, flipV σ (outP cf es q W b j).2) := by
  unfold outP
  rw [zP_flip W b hσ hes]
  split_ifs with hc
  · rw [vx_flip, h1, one_mul]
    exact ppmTrace_flip hσ (hes.img _ _) (hes.lo _ _) (hes.hi _ _) _ _ _ _ _ _
  · rfl

theorem outC_flip (hσ : Signs σ) (l : Bool) (dx : ℝ) (j : ℤ) :
    outC l dx (fun m => flipV σ (W m)) j = (flipV σ (outC l dx W j).1, flipV σ (outC l dx W j).2) := by
  have e : ∀ {s : ℝ}, s * s = 1 → ∀ a b c : ℝ, (s * b - s * a) * (s * b - s * a) + (s * c - s * b) * (s * c - s * b) =
      (b - a) * (b - a) + (c - b) * (c - b) := fun h a b c => by
    linear_combination ((b - a) * (b - a) + (c - b) * (c - b)) * h
  rw [outC_eq, outC_eq]
  refine Prod.ext ?_ ?_ <;> funext n <;>
    (simp only [flipV]; rw [e (sq_one (hσ.sg n)), ← mul_sub, ← mul_sub, p3cLim_sg (hσ.sg n)]; ring)

/-- C67: reversing a transverse direction in the zones reverses it in the states given by `lr_states`. -/
theorem lrAt_flip (ord : Order) (hσ : Signs σ) (h1 : σ 1 = 1) (hes : ord.UsesEs cf → FlipSym σ es) (dt dx : ℝ) (W : ℤ → Vec k ns) (b : ℤ → ℝ) :
    lrAt ord cf es dt dx (fun m => flipV σ (W m)) b = (flipV σ (lrAt ord cf es dt dx W b).1, flipV σ (lrAt ord cf es dt dx W b).2) := by
  cases ord with
  | dc =>
    simp only [lrAt]
    rw [(dc_states _ 0 0 _ 0 (by omega) (by omega)).1, (dc_states _ 0 0 _ 0 (by omega) (by omega)).2,
      (dc_states _ 0 0 _ 0 (by omega) (by omega)).1, (dc_states _ 0 0 _ 0 (by omega) (by omega)).2]
  | prim2 =>
    simp only [lrAt]
    rw [(prim2_states _ _ _ _ _ 0 0 _ 0 (by omega) (by omega)).1, (prim2_states _ _ _ _ _ 0 0 _ 0 (by omega) (by omega)).2,
      (prim2_states _ _ _ _ _ 0 0 _ 0 (by omega) (by omega)).1, (prim2_states _ _ _ _ _ 0 0 _ 0 (by omega) (by omega)).2,
      out2_flip W b hσ h1 hes, out2_flip W b hσ h1 hes]
  | plm =>
    simp only [lrAt]
    rw [(plm_states _ _ _ _ _ 0 0 _ 0 (by omega) (by omega)).1, (plm_states _ _ _ _ _ 0 0 _ 0 (by omega) (by omega)).2,
      (plm_states _ _ _ _ _ 0 0 _ 0 (by omega) (by omega)).1, (plm_states _ _ _ _ _ 0 0 _ 0 (by omega) (by omega)).2,
      outM_flip W b hσ h1 (hes trivial), outM_flip W b hσ h1 (hes trivial)]
  | prim3 =>
    simp only [lrAt]
    rw [(prim3_states _ _ _ _ _ 0 0 _ _ 0 (by omega) (by omega)).1, (prim3_states _ _ _ _ _ 0 0 _ _ 0 (by omega) (by omega)).2,
      (prim3_states _ _ _ _ _ 0 0 _ _ 0 (by omega) (by omega)).1, (prim3_states _ _ _ _ _ 0 0 _ _ 0 (by omega) (by omega)).2,
      out3_flip W b hσ h1 hes, out3_flip W b hσ h1 hes]
  | ppm =>
    simp only [lrAt]
    rw [(ppm_states _ _ _ _ _ 0 0 _ 0 (by omega) (by omega)).1, (ppm_states _ _ _ _ _ 0 0 _ 0 (by omega) (by omega)).2,
      (ppm_states _ _ _ _ _ 0 0 _ 0 (by omega) (by omega)).1, (ppm_states _ _ _ _ _ 0 0 _ 0 (by omega) (by omega)).2,
      outP_flip W b hσ h1 (hes trivial), outP_flip W b hσ h1 (hes trivial)]
  | p3c l =>
    simp only [lrAt]
    rw [(p3c_states _ _ _ 0 0 _ 0 (by omega) (by omega)).1, (p3c_states _ _ _ 0 0 _ 0 (by omega) (by omega)).2,
      (p3c_states _ _ _ 0 0 _ 0 (by omega) (by omega)).1, (p3c_states _ _ _ 0 0 _ 0 (by omega) (by omega)).2,
      outC_flip W hσ, outC_flip W hσ]

end flip

/-- `lr_states` uses three zones on either side. -/
theorem lrAt_local (ord : Order) (dt dx : ℝ) (W W' : ℤ → Vec k ns) (b b' : ℤ → ℝ) (h : ∀ m, -3 ≤ m → m ≤ 2 → W m = W' m ∧ b m = b' m) :
    lrAt ord cf es dt dx W b = lrAt ord cf es dt dx W' b' := by
  have h' : ∀ r : ℤ, r ≤ 3 → ∀ m, 0 - r ≤ m → m < 0 + r → W m = W' (m + 0) ∧ b m = b' (m + 0) := by
    intro r hr m h1 h2
    rw [add_zero]; exact h m (by omega) (by omega)
  cases ord with
  | dc =>
    have := dc_stencil (k := k) (ns := ns) W W' b b' 0 0 0 0 ⟨fun _ _ => 0, fun _ _ => 0⟩ ⟨fun _ _ => 0, fun _ _ => 0⟩ 0 0 (by omega) (by omega) (by omega) (by omega) (h' 1 (by omega))
    exact Prod.ext this.1 this.2
  | prim2 =>
    have := prim2_stencil (k := k) (ns := ns) cf es (dt / dx) W W' b b' 0 0 0 0 ⟨fun _ _ => 0, fun _ _ => 0⟩ ⟨fun _ _ => 0, fun _ _ => 0⟩ 0 0 (by omega) (by omega) (by omega) (by omega) (h' 2 (by omega))
    exact Prod.ext this.1 this.2
  | plm =>
    have := plm_stencil (k := k) (ns := ns) cf es (dt / dx) W W' b b' 0 0 0 0 ⟨fun _ _ => 0, fun _ _ => 0⟩ ⟨fun _ _ => 0, fun _ _ => 0⟩ 0 0 (by omega) (by omega) (by omega) (by omega) (h' 2 (by omega))
    exact Prod.ext this.1 this.2
  | prim3 =>
    have := prim3_stencil (k := k) (ns := ns) cf es (dt / dx) (fun _ _ => 0) W W' b b' 0 0 0 0 ⟨fun _ _ => 0, fun _ _ => 0⟩ ⟨fun _ _ => 0, fun _ _ => 0⟩ 0 0 (by omega) (by omega) (by omega) (by omega) (h' 3 (by omega))
    exact Prod.ext this.1 this.2
  | ppm =>
    have := ppm_stencil (k := k) (ns := ns) cf es (dt / dx) (fun o => ⟨⟨fun _ => 0, fun _ _ => 0, fun _ _ => 0⟩, fun _ _ => 0, fun _ _ => 0, o⟩) W W' b b' 0 0 0 0 ⟨fun _ _ => 0, fun _ _ => 0⟩ ⟨fun _ _ => 0, fun _ _ => 0⟩ 0 0 (by omega) (by omega) (by omega) (by omega) (h' 3 (by omega))
    exact Prod.ext this.1 this.2
  | p3c l =>
    simp only [lrAt]
    rw [(p3c_states _ _ _ 0 0 _ 0 (by omega) (by omega)).1, (p3c_states _ _ _ 0 0 _ 0 (by omega) (by omega)).2,
      (p3c_states _ _ _ 0 0 _ 0 (by omega) (by omega)).1, (p3c_states _ _ _ 0 0 _ 0 (by omega) (by omega)).2, outC_eq, outC_eq, outC_eq, outC_eq,
      (h 0 (by omega) (by omega)).1, (h (0 - 1) (by omega) (by omega)).1, (h (0 + 1) (by omega) (by omega)).1,
      (h (0 - 1 - 1) (by omega) (by omega)).1, (h (0 - 1 + 1) (by omega) (by omega)).1]

end
end Athena.Recon
