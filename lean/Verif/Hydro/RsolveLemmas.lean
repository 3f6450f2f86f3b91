import Verif.Hydro.Rsolve

/-! # Lemmas on the Riemann solvers: closed forms, wave speeds -/

namespace Athena.Hydro
noncomputable section
variable {ns : ℕ}

/-! ## Specification -/

/-- Run-time constants for which the equations are hyperbolic: positive sound speed, γ > 1, and γ ≤ 2 for adiabatic MHD (there the
Roe averages contain `γ - 2`). -/
structure Phys.Ok (p : Phys) : Prop where
  cs : p.iso = true → 0 < p.cs2
  gamma : p.iso = false → 1 < p.gamma
  gamma2 : p.iso = false → p.mhd = true → p.gamma ≤ 2
  tiny : 0 < p.tiny

/-- `W` is a physical state (positive density and pressure) and `U` its conserved variables. -/
structure State (p : Phys) (Bx : ℝ) (W : Prim1D ns) (U : Cons1D ns) : Prop where
  wf : W.Wf p
  d : 0 < W.d
  P : p.iso = false → 0 < W.P
  cons : prim1DToCons1D p W Bx = some U

/-- Gas pressure of a primitive state. -/
def press (p : Phys) (W : Prim1D ns) : ℝ := if p.iso then p.cs2 * W.d else W.P

/-- Total energy density of a primitive state. -/
def energy (p : Phys) (W : Prim1D ns) (Bx : ℝ) : ℝ :=
  W.P / (p.gamma - 1) + W.d * (W.Vx ^ 2 + W.Vy ^ 2 + W.Vz ^ 2) / 2 + if p.mhd then (Bx ^ 2 + W.By ^ 2 + W.Bz ^ 2) / 2 else 0

/-- The x-flux of ideal (magneto-)hydrodynamics. -/
def physFlux (p : Phys) (W : Prim1D ns) (Bx : ℝ) : Cons1D ns :=
  let bx := if p.mhd then Bx else 0
  let pt := press p W + (bx ^ 2 + W.By ^ 2 + W.Bz ^ 2) / 2
  { d := W.d * W.Vx
    Mx := W.d * W.Vx ^ 2 + pt - bx ^ 2
    My := W.d * W.Vx * W.Vy - bx * W.By
    Mz := W.d * W.Vx * W.Vz - bx * W.Bz
    E := if p.iso then 0 else (energy p W Bx + pt) * W.Vx - bx * (bx * W.Vx + W.By * W.Vy + W.Bz * W.Vz)
    By := W.By * W.Vx - bx * W.Vy
    Bz := W.Bz * W.Vx - bx * W.Vz
    s := fun n => W.d * W.Vx * W.r n }

/-- Reflection in x (`Bx` is replaced by `-Bx` with it). -/
def Prim1D.mirror (W : Prim1D ns) : Prim1D ns := { W with Vx := -W.Vx }
/-- Reflection in x. -/
def Cons1D.mirror (U : Cons1D ns) : Cons1D ns := { U with Mx := -U.Mx }
/-- Reflection in x of a flux: momentum flux unchanged, all others change sign. -/
def Cons1D.mirrorFlux (F : Cons1D ns) : Cons1D ns := ⟨-F.d, F.Mx, -F.My, -F.Mz, -F.E, -F.By, -F.Bz, fun n => -F.s n⟩

/-! ## States -/

theorem State.eq {p : Phys} {Bx : ℝ} {W : Prim1D ns} {U : Cons1D ns} (hp : p.Ok) (h : State p Bx W U) :
    U = ⟨W.d, W.d * W.Vx, W.d * W.Vy, W.d * W.Vz, if p.iso then 0 else energy p W Bx, W.By, W.Bz, fun n => W.r n * W.d⟩ := by
  have h1 := h.cons
  rw [p2c_eq p W Bx (fun hi => (hp.gamma hi).ne')] at h1
  rw [← Option.some.inj h1]
  obtain ⟨-, h2⟩ := h.wf
  ext
  · rfl
  · rfl
  · rfl
  · rfl
  · show (if p.iso = true then (0:ℝ) else _) = if p.iso = true then (0:ℝ) else _
    cases p.iso
    · simp only [Bool.false_eq_true, if_false, energy]; ring
    · rfl
  · show (if p.mhd = true then W.By else 0) = W.By
    cases hm : p.mhd
    · simp [(h2 hm).1]
    · rfl
  · show (if p.mhd = true then W.Bz else 0) = W.Bz
    cases hm : p.mhd
    · simp [(h2 hm).2]
    · rfl
  · rfl

theorem State.mirror {p : Phys} {Bx : ℝ} {W : Prim1D ns} {U : Cons1D ns} (h : State p Bx W U) :
    State p (-Bx) W.mirror U.mirror := by
  refine ⟨h.wf, h.d, h.P, ?_⟩
  have h1 := h.cons
  unfold prim1DToCons1D at h1 ⊢
  cases hi : p.iso
  · by_cases hg : p.gamma1 = 0
    · simp [hi, fdiv, hg] at h1
    · simp only [hi, Bool.false_eq_true, if_false, fdiv_ne hg, Option.pure_def, Option.bind_eq_bind, Option.bind_some,
        Option.some.injEq] at h1 ⊢
      rw [← h1]; simp [Prim1D.mirror, Cons1D.mirror]
  · simp only [hi, if_true, Option.pure_def, Option.bind_eq_bind, Option.bind_some, Option.some.injEq] at h1 ⊢
    rw [← h1]; simp [Prim1D.mirror, Cons1D.mirror]

theorem press_pos {p : Phys} {Bx : ℝ} {W : Prim1D ns} {U : Cons1D ns} (hp : p.Ok) (h : State p Bx W U) : 0 < press p W := by
  unfold press; cases hi : p.iso
  · simpa using h.P hi
  · simpa using mul_pos (hp.cs hi) h.d

/-- Flux minus `b` times the state. -/
theorem sideFlux_eq {p : Phys} {Bx : ℝ} {W : Prim1D ns} {U : Cons1D ns} (hp : p.Ok) (h : State p Bx W U) (b : ℝ) :
    sideFlux p U W Bx b =
      let F := physFlux p W Bx
      ⟨F.d - b * U.d, F.Mx - b * U.Mx, F.My - b * U.My, F.Mz - b * U.Mz, F.E - b * U.E, F.By - b * U.By, F.Bz - b * U.Bz,
        fun n => F.s n - b * U.s n⟩ := by
  obtain ⟨-, h2⟩ := h.wf
  rw [h.eq hp]
  have e1 : p.mhd = false → W.By = 0 := fun h => (h2 h).1
  have e2 : p.mhd = false → W.Bz = 0 := fun h => (h2 h).2
  cases hi : p.iso <;> cases hm : p.mhd <;> simp only [hm, forall_const, reduceCtorEq, false_implies] at e1 e2 <;>
    simp only [sideFlux, physFlux, press, energy, magP, sqr, hi, hm, Bool.false_eq_true, if_true, if_false, Cons1D.mk.injEq] <;>
    refine ⟨?_, ?_, ?_, ?_, ?_, ?_, ?_, ?_⟩ <;> (try funext n) <;> (try rw [e1]) <;> (try rw [e2]) <;> first | trivial | ring1

/-! ## Roe averages and wave speeds -/

/-- Fast speed squared as computed by the solvers, positive. -/
theorem fast_root (vax ct2 tw : ℝ) (hv : 0 ≤ vax) (hc : 0 ≤ ct2) (ht : 0 < tw) :
    ∃ q, fsqrt ((vax + ct2 - tw) * (vax + ct2 - tw) + 4 * tw * ct2) = some q ∧
      ∃ c, fsqrt (1/2 * ((vax + ct2 + tw) + q)) = some c ∧ 0 < c ∧ tw ≤ c ^ 2 := by
  have h0 : 0 ≤ (vax + ct2 - tw) * (vax + ct2 - tw) + 4 * tw * ct2 := by
    have := mul_nonneg ht.le hc; nlinarith [mul_self_nonneg (vax + ct2 - tw)]
  refine ⟨_, fsqrt_nonneg h0, ?_⟩
  have hq := Real.sqrt_nonneg ((vax + ct2 - tw) * (vax + ct2 - tw) + 4 * tw * ct2)
  have hge := (neg_le_abs _).trans (sqrt_disc_ge tw vax ct2 ht.le hc)
  set q := Real.sqrt ((vax + ct2 - tw) * (vax + ct2 - tw) + 4 * tw * ct2)
  have hpos : 0 < 1/2 * ((vax + ct2 + tw) + q) := by linarith
  refine ⟨_, fsqrt_nonneg hpos.le, Real.sqrt_pos.mpr hpos, ?_⟩
  rw [Real.sq_sqrt hpos.le]; linarith

/-- The Roe averages of physical states exist. -/
theorem roeAvg_eq {p : Phys} (Ul Ur : Cons1D ns) {Wl Wr : Prim1D ns} (Bx : ℝ) (hl : 0 < Wl.d) (hr : 0 < Wr.d) :
    roeAvg p Ul Ur Wl Wr Bx =
      let a := Real.sqrt Wl.d
      let b := Real.sqrt Wr.d
      some { d := a * b
             v1 := (a * Wl.Vx + b * Wr.Vx) / (a + b)
             v2 := (a * Wl.Vy + b * Wr.Vy) / (a + b)
             v3 := (a * Wl.Vz + b * Wr.Vz) / (a + b)
             h := if p.iso then 0 else ((Ul.E + Wl.P + magP p Wl Bx) / a + (Ur.E + Wr.P + magP p Wr Bx) / b) / (a + b)
             b2 := if p.mhd then (b * Wl.By + a * Wr.By) / (a + b) else 0
             b3 := if p.mhd then (b * Wl.Bz + a * Wr.Bz) / (a + b) else 0
             x := if p.mhd then (1/2 * (sqr (Wl.By - Wr.By) + sqr (Wl.Bz - Wr.Bz))) / sqr (a + b) else 0
             y := if p.mhd then 1/2 * (Wl.d + Wr.d) / (a * b) else 0 } := by
  have ha := Real.sqrt_pos.mpr hl
  have hb := Real.sqrt_pos.mpr hr
  unfold roeAvg
  rw [fsqrt_nonneg hl.le, fsqrt_nonneg hr.le]
  simp only [Option.bind_eq_bind, Option.bind_some]
  set a := Real.sqrt Wl.d
  set b := Real.sqrt Wr.d
  have hab : a + b ≠ 0 := by positivity
  have hs : sqr (a + b) ≠ 0 := by unfold sqr; positivity
  have hm : a * b ≠ 0 := by positivity
  rw [fdiv_ne hab, fdiv_ne hs, fdiv_ne hm, fdiv_ne ha.ne', fdiv_ne hb.ne']
  simp only [Option.bind_some, Option.pure_def, mul_one_div]
  cases p.mhd <;> cases p.iso <;> simp

theorem roeC_pos {p : Phys} (hp : p.Ok) (r : Roe) (Bx : ℝ) (hd : 0 < r.d) (hx : 0 ≤ r.x) (hy : p.mhd = true → 0 < r.y) :
    ∃ c, roeC p r Bx = some c ∧ 0 < c := by
  unfold roeC
  cases hm : p.mhd
  · cases hi : p.iso
    · simp only [Bool.false_eq_true, if_false]
      have hg := hp.gamma hi
      have : 0 < p.gamma1 * fmax (r.h - 1/2 * (r.v1 * r.v1 + r.v2 * r.v2 + r.v3 * r.v3)) p.tiny := by
        rw [fmax_eq]
        exact mul_pos (by unfold Phys.gamma1; linarith) (lt_of_lt_of_le hp.tiny (le_max_right _ _))
      exact ⟨_, fsqrt_nonneg this.le, Real.sqrt_pos.mpr this⟩
    · exact ⟨p.cs, by simp, Real.sqrt_pos.mpr (hp.cs hi)⟩
  · simp only [if_true]
    rw [fdiv_pos hd]
    simp only [Option.bind_eq_bind, Option.bind_some]
    have hbt : 0 ≤ r.b2 * r.b2 + r.b3 * r.b3 := add_nonneg (mul_self_nonneg _) (mul_self_nonneg _)
    have hdi : 0 < 1 / r.d := one_div_pos.mpr hd
    have hv : 0 ≤ Bx * Bx * (1 / r.d) := mul_nonneg (mul_self_nonneg _) hdi.le
    have hy := hy hm
    have key : ∀ bt tw, 0 ≤ bt → 0 < tw → ∃ c, ((fsqrt ((Bx * Bx * (1 / r.d) + bt * (1 / r.d) - tw) *
        (Bx * Bx * (1 / r.d) + bt * (1 / r.d) - tw) + 4 * tw * (bt * (1 / r.d)))).bind fun q =>
          fsqrt (1/2 * ((Bx * Bx * (1 / r.d) + bt * (1 / r.d) + tw) + q))) = some c ∧ 0 < c := by
      intro bt tw hb ht
      obtain ⟨q, h1, c, h2, h3, -⟩ := fast_root _ (bt * (1 / r.d)) tw hv (mul_nonneg hb hdi.le) ht
      exact ⟨c, by rw [h1]; exact h2, h3⟩
    apply key
    · cases hi : p.iso
      · simp only [Bool.false_eq_true, if_false]
        have := hp.gamma hi
        have := hp.gamma2 hi hm
        refine mul_nonneg ?_ hbt
        unfold Phys.gamma1 Phys.gamma2
        nlinarith
      · simp only [if_true]; positivity
    · cases hi : p.iso
      · simp only [Bool.false_eq_true, if_false]
        rw [fmax_eq]; exact lt_of_lt_of_le hp.tiny (le_max_right _ _)
      · simp only [if_true]; have := hp.cs hi; linarith

/-- The signal speed of one side is the fast speed. -/
theorem sideC_pos {p : Phys} {Bx : ℝ} {W : Prim1D ns} {U : Cons1D ns} (hp : p.Ok) (h : State p Bx W U) :
    ∃ c, sideC p U W Bx = some c ∧ 0 < c ∧ soundSq p W ≤ c ^ 2 ∧ (p.mhd = false → c = Real.sqrt (soundSq p W)) ∧
      cfastPrim p W Bx = some c := by
  have ha : 0 < soundSq p W := by
    unfold soundSq; cases hi : p.iso
    · simpa using div_pos (mul_pos (by linarith [hp.gamma hi]) (h.P hi)) h.d
    · simpa using hp.cs hi
  have e : (if p.iso = true then some p.cs2 else fdiv (p.gamma * W.P) W.d : Option ℝ) = some (soundSq p W) := by
    unfold soundSq; cases p.iso
    · simp [fdiv_pos h.d]
    · simp
  have e' : cfastPrim p W Bx = fastSpeed p (soundSq p W) W.By W.Bz W.d Bx := by
    unfold cfastPrim soundSq; cases p.iso
    · simp [fdiv_pos h.d]
    · simp
  rw [e']
  unfold sideC fastSpeed
  rw [e, fdiv_pos h.d, fdiv_pos h.d, fdiv_pos h.d, h.eq hp]
  simp only [Option.bind_eq_bind, Option.bind_some]
  have hB : 0 ≤ (W.By * W.By + W.Bz * W.Bz) / W.d :=
    div_nonneg (add_nonneg (mul_self_nonneg _) (mul_self_nonneg _)) h.d.le
  have hX : 0 ≤ Bx * Bx / W.d := div_nonneg (mul_self_nonneg _) h.d.le
  cases hm : p.mhd
  · simp only [Bool.false_eq_true, if_false, Option.pure_def, Option.bind_some]
    obtain ⟨q, h1, c, h2, h3, h4⟩ := fast_root 0 0 _ le_rfl le_rfl ha
    have hq : q = soundSq p W := by
      rw [show ((0:ℝ) + 0 - soundSq p W) * (0 + 0 - soundSq p W) + 4 * soundSq p W * 0 = soundSq p W ^ 2 by ring,
        fsqrt_nonneg (sq_nonneg _), Real.sqrt_sq ha.le] at h1
      exact (Option.some.inj h1).symm
    have hc : c = Real.sqrt (soundSq p W) := by
      rw [hq, show 1/2 * ((0:ℝ) + 0 + soundSq p W + soundSq p W) = soundSq p W by ring, fsqrt_nonneg ha.le] at h2
      exact (Option.some.inj h2).symm
    refine ⟨c, by rw [h1]; exact h2, h3, h4, fun _ => hc, ?_⟩
    rw [fsqrt_nonneg ha.le, hc]
  · simp only [if_true, Option.bind_some]
    obtain ⟨q, h1, c, h2, h3, h4⟩ := fast_root _ _ _ hX hB ha
    refine ⟨c, by rw [h1]; exact h2, h3, h4, by simp, ?_⟩
    rw [h1]
    simp only [Option.bind_some]
    rw [← h2]; congr 1; ring

/-- The wave speeds of physical states. -/
theorem speeds_spec {p : Phys} {Bx : ℝ} {Wl Wr : Prim1D ns} {Ul Ur : Cons1D ns} (hp : p.Ok) (hl : State p Bx Wl Ul)
    (hr : State p Bx Wr Ur) :
    ∃ r c cl cr, roeAvg p Ul Ur Wl Wr Bx = some r ∧ roeC p r Bx = some c ∧ cfastPrim p Wl Bx = some cl ∧
      cfastPrim p Wr Bx = some cr ∧ 0 < c ∧ 0 < cl ∧ 0 < cr ∧
      speeds p Ul Ur Wl Wr Bx = some (min (r.v1 - c) (Wl.Vx - cl), max (r.v1 + c) (Wr.Vx + cr)) := by
  have ha := Real.sqrt_pos.mpr hl.d
  have hb := Real.sqrt_pos.mpr hr.d
  obtain ⟨r, h1, hd, hx, hy⟩ : ∃ r, roeAvg p Ul Ur Wl Wr Bx = some r ∧ 0 < r.d ∧ 0 ≤ r.x ∧ (p.mhd = true → 0 < r.y) := by
    refine ⟨_, roeAvg_eq (p := p) Ul Ur Bx hl.d hr.d, mul_pos ha hb, ?_, ?_⟩
    · show 0 ≤ if p.mhd = true then _ else (0:ℝ)
      split_ifs
      · unfold sqr
        exact div_nonneg (mul_nonneg (by norm_num) (add_nonneg (mul_self_nonneg _) (mul_self_nonneg _))) (mul_self_nonneg _)
      · exact le_rfl
    · intro hm
      show 0 < if p.mhd = true then _ else (0:ℝ)
      rw [if_pos hm]
      have := hl.d; have := hr.d
      positivity
  obtain ⟨c, h2, h2'⟩ := roeC_pos hp r Bx hd hx hy
  obtain ⟨cl, h3, h3', -, -, h3''⟩ := sideC_pos hp hl
  obtain ⟨cr, h4, h4', -, -, h4''⟩ := sideC_pos hp hr
  refine ⟨_, c, cl, cr, h1, h2, h3'', h4'', h2', h3', h4', ?_⟩
  unfold speeds
  rw [h1, h3, h4]
  simp only [Option.bind_eq_bind, Option.bind_some]
  rw [h2]
  simp [fmax_eq, fmin_eq]

theorem speeds_bounds {p : Phys} {Bx : ℝ} {Wl Wr : Prim1D ns} {Ul Ur : Cons1D ns} (hp : p.Ok) (hl : State p Bx Wl Ul)
    (hr : State p Bx Wr Ur) :
    ∃ al ar, speeds p Ul Ur Wl Wr Bx = some (al, ar) ∧ al < ar ∧ al < Wl.Vx ∧ Wr.Vx < ar := by
  obtain ⟨r, c, cl, cr, -, -, -, -, h1, h2, h3, h⟩ := speeds_spec hp hl hr
  refine ⟨_, _, h, ?_, ?_, ?_⟩
  · exact lt_of_le_of_lt (min_le_left _ _) (lt_of_lt_of_le (by linarith) (le_max_left _ _))
  · exact lt_of_le_of_lt (min_le_right _ _) (by linarith)
  · exact lt_of_lt_of_le (by linarith) (le_max_right _ _)

theorem fsqrt_some {a c : ℝ} (h : fsqrt a = some c) : c = Real.sqrt a := by
  unfold fsqrt at h; split_ifs at h; exact (Option.some.inj h).symm

/-- Mirrored states have mirrored wave speeds. -/
theorem speeds_mirror {p : Phys} {Bx : ℝ} {Wl Wr : Prim1D ns} {Ul Ur : Cons1D ns} (hp : p.Ok) (hl : State p Bx Wl Ul)
    (hr : State p Bx Wr Ur) {al ar : ℝ} (h : speeds p Ul Ur Wl Wr Bx = some (al, ar)) :
    speeds p Ur.mirror Ul.mirror Wr.mirror Wl.mirror (-Bx) = some (-ar, -al) := by
  obtain ⟨r, c, cl, cr, h1, h2, h3, h4, -, -, -, h5⟩ := speeds_spec hp hl hr
  obtain ⟨r', c', cl', cr', h1', h2', h3', h4', -, -, -, h5'⟩ := speeds_spec hp hr.mirror hl.mirror
  rw [h5]at h
  obtain ⟨rfl, rfl⟩ := Prod.mk.inj (Option.some.inj h)
  rw [h5']
  have hr' : r' = { r with v1 := -r.v1 } := by
    rw [roeAvg_eq _ _ _ hl.d hr.d] at h1
    rw [roeAvg_eq _ _ _ (by exact hr.d) (by exact hl.d)] at h1'
    rw [← Option.some.inj h1, ← Option.some.inj h1']
    simp only [Prim1D.mirror, Cons1D.mirror, magP, sqr, Roe.mk.injEq]
    refine ⟨by ring, by ring, by ring, by ring, ?_, ?_, ?_, ?_, ?_⟩
    · split_ifs <;> first | rfl | ring
    · split_ifs <;> first | rfl | ring
    · split_ifs <;> first | rfl | ring
    · split_ifs <;> first | rfl | (congr 1 <;> ring)
    · split_ifs <;> first | rfl | (congr 1 <;> ring)
  have hc : c' = c := by
    have : roeC p r' (-Bx) = roeC p r Bx := by rw [hr']; simp [roeC]
    rw [this, h2] at h2'
    exact (Option.some.inj h2').symm
  have hl' : cl' = cr := by
    have : cfastPrim p Wr.mirror (-Bx) = cfastPrim p Wr Bx := by simp [cfastPrim, fastSpeed, Prim1D.mirror]
    rw [this, h4] at h3'; exact (Option.some.inj h3').symm
  have hr'' : cr' = cl := by
    have : cfastPrim p Wl.mirror (-Bx) = cfastPrim p Wl Bx := by simp [cfastPrim, fastSpeed, Prim1D.mirror]
    rw [this, h3] at h4'; exact (Option.some.inj h4').symm
  rw [hc, hl', hr'', hr']
  simp only [Prim1D.mirror, Option.some.injEq, Prod.mk.injEq]
  constructor
  · rw [← min_neg_neg]; congr 1 <;> ring
  · rw [← max_neg_neg]; congr 1 <;> ring

theorem sideFlux_mirror (p : Phys) (U : Cons1D ns) (W : Prim1D ns) (Bx b : ℝ) :
    sideFlux p U.mirror W.mirror (-Bx) (-b) = (sideFlux p U W Bx b).mirrorFlux := by
  cases hi : p.iso <;> cases hm : p.mhd <;>
    simp only [sideFlux, Cons1D.mirror, Prim1D.mirror, Cons1D.mirrorFlux, magP, sqr, hi, hm, Bool.false_eq_true, if_true, if_false,
      Cons1D.mk.injEq] <;>
    refine ⟨?_, ?_, ?_, ?_, ?_, ?_, ?_, ?_⟩ <;> (try funext n) <;> ring

end
end Athena.Hydro
