import Verif.Hydro.RsolveProps

/-!
# C35, C67: the conversions and the HLLE flux of mirrored arguments, defined or not

Unlike `hlle_mirror` these hold for all arguments, whether or not they are physical states, and whether or not the flux is defined.
-/

namespace Athena.Hydro
noncomputable section
variable {ns : ℕ} {p : Phys}

/-- Reflection in y. -/
def Prim1D.flipY (W : Prim1D ns) : Prim1D ns := { W with Vy := -W.Vy, By := -W.By }
def Cons1D.flipY (U : Cons1D ns) : Cons1D ns := { U with My := -U.My, By := -U.By }
/-- Reflection in z. -/
def Prim1D.flipZ (W : Prim1D ns) : Prim1D ns := { W with Vz := -W.Vz, Bz := -W.Bz }
def Cons1D.flipZ (U : Cons1D ns) : Cons1D ns := { U with Mz := -U.Mz, Bz := -U.Bz }

theorem c2p_mirror (U : Cons1D ns) (Bx : ℝ) : cons1DToPrim1D p U.mirror (-Bx) = (cons1DToPrim1D p U Bx).map Prim1D.mirror := by
  unfold cons1DToPrim1D Cons1D.mirror
  dsimp only
  cases fdiv 1 U.d <;> simp [Prim1D.mirror]
theorem c2p_flipY (U : Cons1D ns) (Bx : ℝ) : cons1DToPrim1D p U.flipY Bx = (cons1DToPrim1D p U Bx).map Prim1D.flipY := by
  unfold cons1DToPrim1D Cons1D.flipY
  dsimp only
  cases fdiv 1 U.d <;> simp [Prim1D.flipY]
  split_ifs <;> simp
theorem c2p_flipZ (U : Cons1D ns) (Bx : ℝ) : cons1DToPrim1D p U.flipZ Bx = (cons1DToPrim1D p U Bx).map Prim1D.flipZ := by
  unfold cons1DToPrim1D Cons1D.flipZ
  dsimp only
  cases fdiv 1 U.d <;> simp [Prim1D.flipZ]
  split_ifs <;> simp

theorem p2c_mirror (W : Prim1D ns) (Bx : ℝ) : prim1DToCons1D p W.mirror (-Bx) = (prim1DToCons1D p W Bx).map Cons1D.mirror := by
  unfold prim1DToCons1D Prim1D.mirror
  dsimp only
  cases p.iso <;> cases fdiv W.P p.gamma1 <;> simp [Cons1D.mirror]
theorem p2c_flipY (W : Prim1D ns) (Bx : ℝ) : prim1DToCons1D p W.flipY Bx = (prim1DToCons1D p W Bx).map Cons1D.flipY := by
  unfold prim1DToCons1D Prim1D.flipY
  dsimp only
  cases p.mhd <;> cases p.iso <;> cases fdiv W.P p.gamma1 <;> simp [Cons1D.flipY]
theorem p2c_flipZ (W : Prim1D ns) (Bx : ℝ) : prim1DToCons1D p W.flipZ Bx = (prim1DToCons1D p W Bx).map Cons1D.flipZ := by
  unfold prim1DToCons1D Prim1D.flipZ
  dsimp only
  cases p.mhd <;> cases p.iso <;> cases fdiv W.P p.gamma1 <;> simp [Cons1D.flipZ]

theorem roeAvg_mir (Ul Ur : Cons1D ns) (Wl Wr : Prim1D ns) (Bx : ℝ) :
    roeAvg p Ur.mirror Ul.mirror Wr.mirror Wl.mirror (-Bx) = (roeAvg p Ul Ur Wl Wr Bx).map fun r => { r with v1 := -r.v1 } := by
  have mp : ∀ W : Prim1D ns, magP p W.mirror (-Bx) = magP p W Bx := fun W => by simp [magP, Prim1D.mirror, sqr]
  unfold roeAvg
  simp only [mp]
  simp only [Cons1D.mirror, Prim1D.mirror]
  rcases fsqrt Wl.d with _ | sl <;> rcases fsqrt Wr.d with _ | sr <;> try rfl
  simp only [Option.bind_eq_bind, Option.bind_some]
  rw [add_comm sr sl, show sqr (Wr.By - Wl.By) = sqr (Wl.By - Wr.By) by unfold sqr; ring,
    show sqr (Wr.Bz - Wl.Bz) = sqr (Wl.Bz - Wr.Bz) by unfold sqr; ring, add_comm Wr.d Wl.d, mul_comm sr sl]
  have a1 : sr * -Wr.Vx + sl * -Wl.Vx = -(sl * Wl.Vx + sr * Wr.Vx) := by ring
  have a2 : ∀ q r : ℝ, sr * r + sl * q = sl * q + sr * r := fun q r => by ring
  have a3 : ∀ q r : ℝ, sl * r + sr * q = sr * q + sl * r := fun q r => by ring
  simp only [a1, a2 Wl.Vy Wr.Vy, a2 Wl.Vz Wr.Vz, a3 Wl.By Wr.By, a3 Wl.Bz Wr.Bz]
  rcases fdiv 1 (sl + sr) with _ | i
  · rfl
  simp only [Option.bind_some]
  generalize fdiv (1/2 * (sqr (Wl.By - Wr.By) + sqr (Wl.Bz - Wr.Bz))) (sqr (sl + sr)) = X
  generalize fdiv (1/2 * (Wl.d + Wr.d)) (sl * sr) = Y
  generalize fdiv (Ul.E + Wl.P + magP p Wl Bx) sl = A
  generalize fdiv (Ur.E + Wr.P + magP p Wr Bx) sr = B
  cases p.mhd <;> cases p.iso <;> cases X <;> cases Y <;> cases A <;> cases B <;> simp <;> ring_nf <;> simp

/-- Reflection in y of the averages. -/
def Roe.flipY (r : Roe) : Roe := { r with v2 := -r.v2, b2 := -r.b2 }
/-- Reflection in z. -/
def Roe.flipZ (r : Roe) : Roe := { r with v3 := -r.v3, b3 := -r.b3 }

theorem roeAvg_flipY (Ul Ur : Cons1D ns) (Wl Wr : Prim1D ns) (Bx : ℝ) :
    roeAvg p Ul.flipY Ur.flipY Wl.flipY Wr.flipY Bx = (roeAvg p Ul Ur Wl Wr Bx).map Roe.flipY := by
  have mp : ∀ W : Prim1D ns, magP p W.flipY Bx = magP p W Bx := fun W => by simp [magP, Prim1D.flipY, sqr]
  unfold roeAvg
  simp only [mp]
  simp only [Cons1D.flipY, Prim1D.flipY]
  rcases fsqrt Wl.d with _ | sl <;> rcases fsqrt Wr.d with _ | sr <;> try rfl
  simp only [Option.bind_eq_bind, Option.bind_some]
  rw [show sqr (-Wl.By - -Wr.By) = sqr (Wl.By - Wr.By) by unfold sqr; ring]
  have a1 : sl * -Wl.Vy + sr * -Wr.Vy = -(sl * Wl.Vy + sr * Wr.Vy) := by ring
  have a2 : sr * -Wl.By + sl * -Wr.By = -(sr * Wl.By + sl * Wr.By) := by ring
  simp only [a1, a2]
  rcases fdiv 1 (sl + sr) with _ | i
  · rfl
  simp only [Option.bind_some]
  generalize fdiv (1/2 * (sqr (Wl.By - Wr.By) + sqr (Wl.Bz - Wr.Bz))) (sqr (sl + sr)) = X
  generalize fdiv (1/2 * (Wl.d + Wr.d)) (sl * sr) = Y
  generalize fdiv (Ul.E + Wl.P + magP p Wl Bx) sl = A
  generalize fdiv (Ur.E + Wr.P + magP p Wr Bx) sr = B
  cases p.mhd <;> cases p.iso <;> cases X <;> cases Y <;> cases A <;> cases B <;> simp [Roe.flipY, -neg_add_rev]

theorem roeAvg_flipZ (Ul Ur : Cons1D ns) (Wl Wr : Prim1D ns) (Bx : ℝ) :
    roeAvg p Ul.flipZ Ur.flipZ Wl.flipZ Wr.flipZ Bx = (roeAvg p Ul Ur Wl Wr Bx).map Roe.flipZ := by
  have mp : ∀ W : Prim1D ns, magP p W.flipZ Bx = magP p W Bx := fun W => by simp [magP, Prim1D.flipZ, sqr]
  unfold roeAvg
  simp only [mp]
  simp only [Cons1D.flipZ, Prim1D.flipZ]
  rcases fsqrt Wl.d with _ | sl <;> rcases fsqrt Wr.d with _ | sr <;> try rfl
  simp only [Option.bind_eq_bind, Option.bind_some]
  rw [show sqr (-Wl.Bz - -Wr.Bz) = sqr (Wl.Bz - Wr.Bz) by unfold sqr; ring]
  have a1 : sl * -Wl.Vz + sr * -Wr.Vz = -(sl * Wl.Vz + sr * Wr.Vz) := by ring
  have a2 : sr * -Wl.Bz + sl * -Wr.Bz = -(sr * Wl.Bz + sl * Wr.Bz) := by ring
  simp only [a1, a2]
  rcases fdiv 1 (sl + sr) with _ | i
  · rfl
  simp only [Option.bind_some]
  generalize fdiv (1/2 * (sqr (Wl.By - Wr.By) + sqr (Wl.Bz - Wr.Bz))) (sqr (sl + sr)) = X
  generalize fdiv (1/2 * (Wl.d + Wr.d)) (sl * sr) = Y
  generalize fdiv (Ul.E + Wl.P + magP p Wl Bx) sl = A
  generalize fdiv (Ur.E + Wr.P + magP p Wr Bx) sr = B
  cases p.mhd <;> cases p.iso <;> cases X <;> cases Y <;> cases A <;> cases B <;> simp [Roe.flipZ, -neg_add_rev]

theorem roeC_mirror (r : Roe) (Bx : ℝ) : roeC p { r with v1 := -r.v1 } (-Bx) = roeC p r Bx := by
  unfold roeC; simp only [neg_mul_neg]
theorem roeC_flipY (r : Roe) (Bx : ℝ) : roeC p r.flipY Bx = roeC p r Bx := by
  unfold roeC Roe.flipY; simp only [neg_mul_neg]
theorem roeC_flipZ (r : Roe) (Bx : ℝ) : roeC p r.flipZ Bx = roeC p r Bx := by
  unfold roeC Roe.flipZ; simp only [neg_mul_neg]

theorem sideC_mirror' (U : Cons1D ns) (W : Prim1D ns) (Bx : ℝ) : sideC p U.mirror W.mirror (-Bx) = sideC p U W Bx := by
  unfold sideC Cons1D.mirror Prim1D.mirror; simp only [neg_mul_neg]
theorem sideC_flipY (U : Cons1D ns) (W : Prim1D ns) (Bx : ℝ) : sideC p U.flipY W.flipY Bx = sideC p U W Bx := by
  unfold sideC Cons1D.flipY Prim1D.flipY; simp only [neg_mul_neg]
theorem sideC_flipZ (U : Cons1D ns) (W : Prim1D ns) (Bx : ℝ) : sideC p U.flipZ W.flipZ Bx = sideC p U W Bx := by
  unfold sideC Cons1D.flipZ Prim1D.flipZ; simp only [neg_mul_neg]

theorem fmin_neg' (a b : ℝ) : fmin (-a) (-b) = -fmax a b := by
  unfold fmin fmax; split_ifs <;> first | rfl | (exfalso; linarith)
theorem fmax_neg' (a b : ℝ) : fmax (-a) (-b) = -fmin a b := by
  unfold fmin fmax; split_ifs <;> first | rfl | (exfalso; linarith)

theorem speeds_mirror' (Ul Ur : Cons1D ns) (Wl Wr : Prim1D ns) (Bx : ℝ) :
    speeds p Ur.mirror Ul.mirror Wr.mirror Wl.mirror (-Bx) = (speeds p Ul Ur Wl Wr Bx).map fun a => (-a.2, -a.1) := by
  unfold speeds
  rw [roeAvg_mir, sideC_mirror', sideC_mirror']
  rcases roeAvg p Ul Ur Wl Wr Bx with _ | r
  · rfl
  simp only [Option.map_some, Option.bind_eq_bind, Option.bind_some, roeC_mirror]
  rcases roeC p r Bx with _ | c
  · rfl
  rcases sideC p Ul Wl Bx with _ | cl <;> rcases sideC p Ur Wr Bx with _ | cr <;> try rfl
  simp only [Option.bind_some, Option.pure_def, Option.map_some, Prim1D.mirror, Option.some.injEq, Prod.mk.injEq]
  rw [← fmin_neg', ← fmax_neg']
  constructor <;> congr 1 <;> ring

theorem speeds_flipY (Ul Ur : Cons1D ns) (Wl Wr : Prim1D ns) (Bx : ℝ) :
    speeds p Ul.flipY Ur.flipY Wl.flipY Wr.flipY Bx = speeds p Ul Ur Wl Wr Bx := by
  unfold speeds
  rw [roeAvg_flipY, sideC_flipY, sideC_flipY]
  rcases roeAvg p Ul Ur Wl Wr Bx with _ | r
  · rfl
  simp only [Option.map_some, Option.bind_eq_bind, Option.bind_some, roeC_flipY]
  rfl
theorem speeds_flipZ (Ul Ur : Cons1D ns) (Wl Wr : Prim1D ns) (Bx : ℝ) :
    speeds p Ul.flipZ Ur.flipZ Wl.flipZ Wr.flipZ Bx = speeds p Ul Ur Wl Wr Bx := by
  unfold speeds
  rw [roeAvg_flipZ, sideC_flipZ, sideC_flipZ]
  rcases roeAvg p Ul Ur Wl Wr Bx with _ | r
  · rfl
  simp only [Option.map_some, Option.bind_eq_bind, Option.bind_some, roeC_flipZ]
  rfl

theorem sideFlux_flipY (U : Cons1D ns) (W : Prim1D ns) (Bx b : ℝ) : sideFlux p U.flipY W.flipY Bx b = (sideFlux p U W Bx b).flipY := by
  cases hi : p.iso <;> cases hm : p.mhd <;>
    simp only [sideFlux, Cons1D.flipY, Prim1D.flipY, magP, sqr, hi, hm, Bool.false_eq_true, if_true, if_false, Cons1D.mk.injEq] <;>
    refine ⟨?_, ?_, ?_, ?_, ?_, ?_, ?_, ?_⟩ <;> (try funext n) <;> first | rfl | trivial | ring
theorem sideFlux_flipZ (U : Cons1D ns) (W : Prim1D ns) (Bx b : ℝ) : sideFlux p U.flipZ W.flipZ Bx b = (sideFlux p U W Bx b).flipZ := by
  cases hi : p.iso <;> cases hm : p.mhd <;>
    simp only [sideFlux, Cons1D.flipZ, Prim1D.flipZ, magP, sqr, hi, hm, Bool.false_eq_true, if_true, if_false, Cons1D.mk.injEq] <;>
    refine ⟨?_, ?_, ?_, ?_, ?_, ?_, ?_, ?_⟩ <;> (try funext n) <;> first | rfl | trivial | ring

/-- C35: whatever the arguments, the flux between the mirrored states is the mirror image of the flux, and is defined when that is. -/
theorem hlle_mirror_all (Ul Ur : Cons1D ns) (Wl Wr : Prim1D ns) (Bx : ℝ) :
    hlle p Ur.mirror Ul.mirror Wr.mirror Wl.mirror (-Bx) = (hlle p Ul Ur Wl Wr Bx).map Cons1D.mirrorFlux := by
  unfold hlle
  rw [speeds_mirror']
  rcases speeds p Ul Ur Wl Wr Bx with _ | ⟨al, ar⟩
  · rfl
  simp only [Option.map_some, Option.bind_eq_bind, Option.bind_some, (fm_mirror al ar).1, (fm_mirror al ar).2, sideFlux_mirror]
  have e : fdiv (1/2 * (-fmin al 0 + -fmax ar 0)) (-fmin al 0 - -fmax ar 0) = (fdiv (1/2 * (fmax ar 0 + fmin al 0)) (fmax ar 0 - fmin al 0)).map (- ·) := by
    unfold fdiv
    rw [show -fmin al 0 - -fmax ar 0 = fmax ar 0 - fmin al 0 by ring]
    split_ifs
    · rfl
    · rw [Option.map_some, ← neg_div]; congr 2; ring
  rw [e]
  rcases fdiv (1/2 * (fmax ar 0 + fmin al 0)) (fmax ar 0 - fmin al 0) with _ | tmp
  · rfl
  simp only [Option.map_some, Option.bind_some, Option.pure_def]
  rw [comb_mirror (fun a b => 1/2 * (a + b) + (a - b) * tmp) (fun a b => 1/2 * (a + b) + (a - b) * -tmp) (fun x y => by ring) (fun x y => by ring),
    scalars_mirror]

theorem comb_flipY (f : ℝ → ℝ → ℝ) (hf : ∀ x y, f (-x) (-y) = -f x y) (F G : Cons1D ns) : comb p f F.flipY G.flipY = (comb p f F G).flipY := by
  unfold comb Cons1D.flipY
  cases p.mhd <;> simp [hf]
theorem comb_flipZ (f : ℝ → ℝ → ℝ) (hf : ∀ x y, f (-x) (-y) = -f x y) (F G : Cons1D ns) : comb p f F.flipZ G.flipZ = (comb p f F G).flipZ := by
  unfold comb Cons1D.flipZ
  cases p.mhd <;> simp [hf]

/-- C35: the same for the transverse directions. -/
theorem hlle_flipY (Ul Ur : Cons1D ns) (Wl Wr : Prim1D ns) (Bx : ℝ) :
    hlle p Ul.flipY Ur.flipY Wl.flipY Wr.flipY Bx = (hlle p Ul Ur Wl Wr Bx).map Cons1D.flipY := by
  unfold hlle
  rw [speeds_flipY]
  rcases speeds p Ul Ur Wl Wr Bx with _ | ⟨al, ar⟩
  · rfl
  simp only [Option.bind_eq_bind, Option.bind_some, sideFlux_flipY]
  rcases fdiv (1/2 * (fmax ar 0 + fmin al 0)) (fmax ar 0 - fmin al 0) with _ | tmp
  · rfl
  simp only [Option.map_some, Option.bind_some, Option.pure_def]
  rw [comb_flipY _ (fun x y => by ring)]
  rfl
theorem hlle_flipZ (Ul Ur : Cons1D ns) (Wl Wr : Prim1D ns) (Bx : ℝ) :
    hlle p Ul.flipZ Ur.flipZ Wl.flipZ Wr.flipZ Bx = (hlle p Ul Ur Wl Wr Bx).map Cons1D.flipZ := by
  unfold hlle
  rw [speeds_flipZ]
  rcases speeds p Ul Ur Wl Wr Bx with _ | ⟨al, ar⟩
  · rfl
  simp only [Option.bind_eq_bind, Option.bind_some, sideFlux_flipZ]
  rcases fdiv (1/2 * (fmax ar 0 + fmin al 0)) (fmax ar 0 - fmin al 0) with _ | tmp
  · rfl
  simp only [Option.map_some, Option.bind_some, Option.pure_def]
  rw [comb_flipZ _ (fun x y => by ring)]
  rfl

end
end Athena.Hydro
