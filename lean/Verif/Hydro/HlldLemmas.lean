import Verif.Hydro.Hlld
import Verif.Hydro.RsolveProps

/-!
# Closed forms for the HLLD solver
-/

namespace Athena.Hydro
noncomputable section
variable {ns : ℕ} {p : Phys} {Wl Wr W : Prim1D ns} {Ul Ur U : Cons1D ns} {Bx : ℝ}

/-- The square of the transverse field. -/
def Prim1D.bt2 (W : Prim1D ns) : ℝ := W.By ^ 2 + W.Bz ^ 2

/-- The solver's fast speed of a state and its lower bounds. -/
theorem hlldCf_eq (hp : p.Ok) (h : State p Bx W U) : ∃ c, hlldCf p W Bx = some c ∧ 0 < c ∧
    hlldGp p W + W.bt2 / 2 ≤ W.d * c ^ 2 ∧ Bx ^ 2 + W.bt2 / 2 ≤ W.d * c ^ 2 ∧ (p.mhd = true → cfastPrim p W Bx = some c) := by
  have hd := h.d
  have hg : 0 < hlldGp p W := by
    unfold hlldGp; cases hi : p.iso
    · simpa using mul_pos (by linarith [hp.gamma hi]) (h.P hi)
    · simpa using mul_pos hd (hp.cs hi)
  set gp := hlldGp p W with hgp
  have hb : 0 ≤ W.bt2 := by unfold Prim1D.bt2; positivity
  have e2 : gp + 2 * hlldPb W Bx = gp + Bx ^ 2 + W.bt2 := by unfold hlldPb sqr Prim1D.bt2; ring
  have eR : sqr (gp + 2 * hlldPb W Bx) - 4 * gp * (Bx * Bx) = (gp - Bx ^ 2) ^ 2 + W.bt2 * (2 * gp + 2 * Bx ^ 2 + W.bt2) := by
    rw [e2]; unfold sqr; ring
  have hR : (gp - Bx ^ 2) ^ 2 ≤ sqr (gp + 2 * hlldPb W Bx) - 4 * gp * (Bx * Bx) := by
    rw [eR]; have := mul_nonneg hb (show (0:ℝ) ≤ 2 * gp + 2 * Bx ^ 2 + W.bt2 by positivity); linarith
  have hR0 := (sq_nonneg _).trans hR
  have hr : |gp - Bx ^ 2| ≤ Real.sqrt (sqr (gp + 2 * hlldPb W Bx) - 4 * gp * (Bx * Bx)) := by
    rw [← Real.sqrt_sq_eq_abs]; exact Real.sqrt_le_sqrt hR
  set r := Real.sqrt (sqr (gp + 2 * hlldPb W Bx) - 4 * gp * (Bx * Bx)) with hrr
  have h1 := (le_abs_self _).trans hr
  have h2 := (neg_le_abs _).trans hr
  have hq : 0 < (gp + 2 * hlldPb W Bx + r) / (2 * W.d) := by
    rw [e2]; have := (abs_nonneg _).trans hr; positivity
  refine ⟨Real.sqrt ((gp + 2 * hlldPb W Bx + r) / (2 * W.d)), ?_, Real.sqrt_pos.mpr hq, ?_, ?_, ?_⟩
  · unfold hlldCf
    dsimp only
    rw [← hgp, fsqrt_nonneg hR0, Option.bind_eq_bind, Option.bind_some, fdiv_ne (by positivity), Option.bind_some, fsqrt_nonneg hq.le]
  · rw [Real.sq_sqrt hq.le, e2]
    have : W.d * ((gp + Bx ^ 2 + W.bt2 + r) / (2 * W.d)) = (gp + Bx ^ 2 + W.bt2 + r) / 2 := by field_simp
    rw [this]; linarith
  · rw [Real.sq_sqrt hq.le, e2]
    have : W.d * ((gp + Bx ^ 2 + W.bt2 + r) / (2 * W.d)) = (gp + Bx ^ 2 + W.bt2 + r) / 2 := by field_simp
    rw [this]; linarith
  · intro hm
    have ea : cfastPrim p W Bx = fastSpeed p (gp / W.d) W.By W.Bz W.d Bx := by
      rw [hgp]; unfold hlldGp cfastPrim
      cases hi : p.iso
      · simp only [Bool.false_eq_true, if_false, fdiv_ne hd.ne', Option.bind_eq_bind, Option.bind_some]
      · simp only [if_true, Option.bind_eq_bind, Option.pure_def, Option.bind_some]; rw [mul_div_cancel_left₀ _ hd.ne']
    rw [ea]; unfold fastSpeed
    rw [if_pos hm, fdiv_ne hd.ne', Option.bind_eq_bind, Option.bind_some, fdiv_ne hd.ne', Option.bind_some]
    have es : (Bx * Bx / W.d + (W.By * W.By + W.Bz * W.Bz) / W.d - gp / W.d) *
        (Bx * Bx / W.d + (W.By * W.By + W.Bz * W.Bz) / W.d - gp / W.d) + 4 * (gp / W.d) * ((W.By * W.By + W.Bz * W.Bz) / W.d) =
        (sqr (gp + 2 * hlldPb W Bx) - 4 * gp * (Bx * Bx)) / W.d ^ 2 := by
      unfold hlldPb sqr; field_simp; ring
    dsimp only
    rw [es, fsqrt_nonneg (by positivity), Option.bind_some, Real.sqrt_div hR0, Real.sqrt_sq hd.le, ← hrr]
    have eq : 1/2 * (gp / W.d + (W.By * W.By + W.Bz * W.Bz) / W.d + Bx * Bx / W.d + r / W.d) =
        (gp + 2 * hlldPb W Bx + r) / (2 * W.d) := by
      unfold hlldPb sqr; field_simp; ring
    rw [eq, fsqrt_nonneg hq.le]

/-- `Fl`, `Fr` are the physical fluxes. -/
theorem hlldF_eq (hp : p.Ok) (hm : p.mhd = true) (h : State p Bx W U) : hlldF p U W Bx = physFlux p W Bx := by
  rw [h.eq hp]
  unfold hlldF physFlux hlldPt hlldPb sqr press
  simp only [hm, if_true]
  cases hi : p.iso <;> simp only [Bool.false_eq_true, if_true, if_false, Cons1D.mk.injEq] <;>
    refine ⟨?_, ?_, ?_, ?_, ?_, ?_, ?_, ?_⟩ <;> first | trivial | (funext n; ring1) | ring1 | (try (unfold energy; ring1))

/-- The total pressure of a state. -/
theorem hlldPt_eq (p : Phys) (W : Prim1D ns) (Bx : ℝ) : hlldPt p W Bx = press p W + (Bx ^ 2 + W.bt2) / 2 := by
  unfold hlldPt hlldPb sqr press Prim1D.bt2; split_ifs <;> ring

/-- The outer speeds of the adiabatic solver. -/
theorem hlldEnds_eq (hp : p.Ok) (hl : State p Bx Wl Ul) (hr : State p Bx Wr Ur) : ∃ cl cr, hlldCf p Wl Bx = some cl ∧
    hlldCf p Wr Bx = some cr ∧ 0 < cl ∧ 0 < cr ∧
    hlldEnds p Wl Wr Bx = some (min Wl.Vx Wr.Vx - max cl cr, max Wl.Vx Wr.Vx + max cl cr) := by
  obtain ⟨cl, h1, h1', -⟩ := hlldCf_eq hp hl
  obtain ⟨cr, h2, h2', -⟩ := hlldCf_eq hp hr
  refine ⟨cl, cr, h1, h2, h1', h2', ?_⟩
  unfold hlldEnds
  rw [h1, h2]
  simp only [Option.bind_eq_bind, Option.bind_some, Option.pure_def, fmax_eq, Option.some.injEq]
  split_ifs with h
  · rw [min_eq_left h, max_eq_right h]
  · push Not at h; rw [min_eq_right h.le, max_eq_left h.le]

/-! ## Adiabatic solver: contact speed -/

/-- What the solver's outer speeds satisfy. -/
structure Outer (p : Phys) (Wl Wr : Prim1D ns) (Bx s0 s4 : ℝ) : Prop where
  hXl : 0 < Wl.Vx - s0
  hYr : 0 < s4 - Wr.Vx
  hXr : 0 < Wr.Vx - s0
  hYl : 0 < s4 - Wl.Vx
  l1 : hlldGp p Wl + Wl.bt2 / 2 ≤ Wl.d * (Wl.Vx - s0) ^ 2
  l2 : Bx ^ 2 + Wl.bt2 / 2 ≤ Wl.d * (Wl.Vx - s0) ^ 2
  r1 : hlldGp p Wr + Wr.bt2 / 2 ≤ Wr.d * (s4 - Wr.Vx) ^ 2
  r2 : Bx ^ 2 + Wr.bt2 / 2 ≤ Wr.d * (s4 - Wr.Vx) ^ 2
  l3 : hlldGp p Wl + Wl.bt2 / 2 ≤ Wl.d * (Wl.Vx - s0) * (s4 - Wl.Vx)
  r3 : hlldGp p Wr + Wr.bt2 / 2 ≤ Wr.d * (s4 - Wr.Vx) * (Wr.Vx - s0)

theorem sq_bound {d c x : ℝ} (hd : 0 < d) (hc : 0 < c) (h : c ≤ x) : d * c ^ 2 ≤ d * x ^ 2 :=
  mul_le_mul_of_nonneg_left (pow_le_pow_left₀ hc.le h 2) hd.le

theorem prod_bound {d c x y : ℝ} (hd : 0 < d) (hc : 0 < c) (h : c ≤ x) (h' : c ≤ y) : d * c ^ 2 ≤ d * x * y := by
  have : c ^ 2 ≤ x * y := by rw [sq]; exact mul_le_mul h h' hc.le (hc.le.trans h)
  rw [mul_assoc]; exact mul_le_mul_of_nonneg_left this hd.le

theorem hlldEnds_outer (hp : p.Ok) (hl : State p Bx Wl Ul) (hr : State p Bx Wr Ur) {s0 s4 : ℝ}
    (h : hlldEnds p Wl Wr Bx = some (s0, s4)) : Outer p Wl Wr Bx s0 s4 := by
  obtain ⟨cl, hcl, cl0, a1, a2, -⟩ := hlldCf_eq hp hl
  obtain ⟨cr, hcr, cr0, b1, b2, -⟩ := hlldCf_eq hp hr
  obtain ⟨cl', cr', e1, e2, -, -, e⟩ := hlldEnds_eq hp hl hr
  rw [hcl] at e1; obtain rfl := Option.some.inj e1
  rw [hcr] at e2; obtain rfl := Option.some.inj e2
  rw [h] at e
  obtain ⟨rfl, rfl⟩ := Prod.mk.inj (Option.some.inj e)
  have m1 := le_max_left cl cr
  have m2 := le_max_right cl cr
  have n1 := min_le_left Wl.Vx Wr.Vx
  have n2 := min_le_right Wl.Vx Wr.Vx
  have n3 := le_max_left Wl.Vx Wr.Vx
  have n4 := le_max_right Wl.Vx Wr.Vx
  exact ⟨by linarith, by linarith, by linarith, by linarith,
    a1.trans (sq_bound hl.d cl0 (by linarith)), a2.trans (sq_bound hl.d cl0 (by linarith)),
    b1.trans (sq_bound hr.d cr0 (by linarith)), b2.trans (sq_bound hr.d cr0 (by linarith)),
    a1.trans (prod_bound hl.d cl0 (by linarith) (by linarith)), b1.trans (prod_bound hr.d cr0 (by linarith) (by linarith))⟩

/-- The contact moves strictly inside the fan. -/
theorem hlldSM_in (hp : p.Ok) (hi : p.iso = false) (hl : State p Bx Wl Ul) (hr : State p Bx Wr Ur) {s0 s4 : ℝ}
    (h : Outer p Wl Wr Bx s0 s4) : ∃ sM, hlldSM p Wl Wr Bx s0 s4 = some sM ∧ s0 < sM ∧ sM < s4 ∧
      Wl.d * (Wl.Vx - s0) * (sM - Wl.Vx) + Wr.d * (s4 - Wr.Vx) * (sM - Wr.Vx) = hlldPt p Wl Bx - hlldPt p Wr Bx := by
  have ha := mul_pos hl.d h.hXl
  have hb := mul_pos hr.d h.hYr
  have hab : 0 < (s4 - Wr.Vx) * Wr.d - (s0 - Wl.Vx) * Wl.d := by linarith
  have eM := (div_mul_cancel₀ ((s4 - Wr.Vx) * Wr.d * Wr.Vx - (s0 - Wl.Vx) * Wl.d * Wl.Vx - hlldPt p Wr Bx + hlldPt p Wl Bx) hab.ne')
  refine ⟨_, fdiv_ne hab.ne', ?_⟩
  generalize ((s4 - Wr.Vx) * Wr.d * Wr.Vx - (s0 - Wl.Vx) * Wl.d * Wl.Vx - hlldPt p Wr Bx + hlldPt p Wl Bx) /
    ((s4 - Wr.Vx) * Wr.d - (s0 - Wl.Vx) * Wl.d) = z at *
  have hPl := h.l1
  have hPr := h.r1
  have hl3 := h.l3
  have hr3 := h.r3
  have hl2 := h.l2
  have hr2 := h.r2
  have pl := hl.P hi
  have pr := hr.P hi
  have g := hp.gamma hi
  have gl : Wl.P ≤ hlldGp p Wl := by simp only [hlldGp, hi, Bool.false_eq_true, if_false]; nlinarith
  have gr : Wr.P ≤ hlldGp p Wr := by simp only [hlldGp, hi, Bool.false_eq_true, if_false]; nlinarith
  have el : hlldPt p Wl Bx = Wl.P + (Bx ^ 2 + Wl.bt2) / 2 := by rw [hlldPt_eq]; simp [press, hi]
  have er : hlldPt p Wr Bx = Wr.P + (Bx ^ 2 + Wr.bt2) / 2 := by rw [hlldPt_eq]; simp [press, hi]
  have tl : 0 ≤ Wl.bt2 := by unfold Prim1D.bt2; positivity
  have tr : 0 ≤ Wr.bt2 := by unfold Prim1D.bt2; positivity
  have tx := sq_nonneg Bx
  refine ⟨?_, ?_, by linarith⟩
  · have : 0 < (z - s0) * ((s4 - Wr.Vx) * Wr.d - (s0 - Wl.Vx) * Wl.d) := by rw [el, er] at eM; nlinarith only [eM, hPl, hPr, hl3, hr3, hl2, hr2, pl, pr, gl, gr, tl, tr, tx]
    by_contra hh; push Not at hh; nlinarith
  · have : 0 < (s4 - z) * ((s4 - Wr.Vx) * Wr.d - (s0 - Wl.Vx) * Wl.d) := by rw [el, er] at eM; nlinarith only [eM, hPl, hPr, hl3, hr3, hl2, hr2, pl, pr, gl, gr, tl, tr, tx]
    by_contra hh; push Not at hh; nlinarith

end
end Athena.Hydro
