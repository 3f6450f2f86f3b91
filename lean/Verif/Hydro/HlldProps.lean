import Verif.Hydro.HlldFan

/-!
# C34, C35, C65: the adiabatic HLLD flux
-/

namespace Athena.Hydro
noncomputable section
variable {ns : ℕ} {p : Phys} {Wl Wr W : Prim1D ns} {Ul Ur U : Cons1D ns} {Bx : ℝ}

/-- What the fan of the adiabatic solver satisfies. -/
structure FanOk (p : Phys) (Ul Ur : Cons1D ns) (Wl Wr : Prim1D ns) (Bx s0 s4 : ℝ) (f : HlldFan ns) (vbl vbr : ℝ) : Prop where
  e0 : f.s0 = s0
  e4 : f.s4 = s4
  e2 : hlldSM p Wl Wr Bx s0 s4 = some f.s2
  lo : s0 < f.s2
  hi : f.s2 < s4
  ptl : f.pt = hlldPt p Wl Bx + Wl.d * (s0 - Wl.Vx) * (f.s2 - Wl.Vx)
  ptr : f.pt = hlldPt p Wr Bx + Wr.d * (s4 - Wr.Vx) * (f.s2 - Wr.Vx)
  starL : hlldStar p Ul Wl Bx s0 f.s2 f.pt = some (f.UL, vbl)
  starR : hlldStar p Ur Wr Bx s4 f.s2 f.pt = some (f.UR, vbr)
  L : Star p Wl Ul Bx s0 f.s2 f.pt f.UL vbl
  R : Star p Wr Ur Bx s4 f.s2 f.pt f.UR vbr
  e1 : f.s1 = f.s2 - |Bx| / Real.sqrt f.UL.d
  e3 : f.s3 = f.s2 + |Bx| / Real.sqrt f.UR.d
  dbl : hlldDouble p f.UL f.UR vbl vbr (Real.sqrt f.UL.d) (Real.sqrt f.UR.d) Bx f.s2 f.pt = some (f.ULL, f.URR)
  D : Double Bx f.s2 f.pt f.UL f.UR f.ULL f.URR f.s1 f.s3

theorem hlldFan_ok (hp : p.Ok) (hi : p.iso = false) (hm : p.mhd = true) (hl : State p Bx Wl Ul) (hr : State p Bx Wr Ur) {s0 s4 : ℝ}
    (h : Outer p Wl Wr Bx s0 s4) :
    ∃ f vbl vbr, hlldFan p Ul Ur Wl Wr Bx s0 s4 = some f ∧ FanOk p Ul Ur Wl Wr Bx s0 s4 f vbl vbr := by
  obtain ⟨sM, hM, h0, h4, hbal⟩ := hlldSM_in hp hi hl hr h
  have hl2 := h.l2
  have hr2 := h.r2
  have tl : 0 ≤ Wl.bt2 := by unfold Prim1D.bt2; positivity
  have tr : 0 ≤ Wr.bt2 := by unfold Prim1D.bt2; positivity
  have pl : 0 < hlldPt p Wl Bx := by rw [hlldPt_eq]; have := press_pos hp hl; positivity
  have pr : 0 < hlldPt p Wr Bx := by rw [hlldPt_eq]; have := press_pos hp hr; positivity
  have ha := mul_pos hl.d h.hXl
  have hb := mul_pos hr.d h.hYr
  have eU : Ul.d = Wl.d := by rw [hl.eq hp]
  set pt := hlldPt p Wl Bx + Wl.d * (s0 - Wl.Vx) * (sM - Wl.Vx) with hpt
  have hpt' : pt = hlldPt p Wr Bx + Wr.d * (s4 - Wr.Vx) * (sM - Wr.Vx) := by rw [hpt]; linarith
  have dl : Wl.d * (s0 - Wl.Vx) * (s0 - sM) - Bx ^ 2 = 0 → 0 < pt := by
    intro e
    by_contra hh; push Not at hh
    have k : 0 < Wl.d * (Wl.Vx - s0) * (sM - Wl.Vx) := by rw [hpt] at hh; linarith
    have : Wl.d * (s0 - Wl.Vx) * (s0 - sM) - Bx ^ 2 = (Wl.d * (Wl.Vx - s0) ^ 2 - Bx ^ 2) + Wl.d * (Wl.Vx - s0) * (sM - Wl.Vx) := by ring
    linarith
  have dr : Wr.d * (s4 - Wr.Vx) * (s4 - sM) - Bx ^ 2 = 0 → 0 < pt := by
    intro e
    by_contra hh; push Not at hh
    have k : 0 < Wr.d * (s4 - Wr.Vx) * (Wr.Vx - sM) := by rw [hpt'] at hh; linarith
    have : Wr.d * (s4 - Wr.Vx) * (s4 - sM) - Bx ^ 2 = (Wr.d * (s4 - Wr.Vx) ^ 2 - Bx ^ 2) + Wr.d * (s4 - Wr.Vx) * (Wr.Vx - sM) := by ring
    linarith
  have h1 := h.hXl
  have h2 := h.hYr
  obtain ⟨UL, vbl, eL, sL⟩ := hlldStar_star (s := s0) (sM := sM) (pt := pt) hp hi hm hl (div_pos_of_neg_of_neg (by linarith) (by linarith)) dl hpt
  obtain ⟨UR, vbr, eR, sR⟩ := hlldStar_star (s := s4) (sM := sM) (pt := pt) hp hi hm hr (div_pos h2 (by linarith)) dr hpt'
  obtain ⟨ULL, URR, eD, dD⟩ := hlldDouble_double hm sL sR
  have q1 : 0 < Real.sqrt UL.d := Real.sqrt_pos.mpr sL.pos
  have q2 : 0 < Real.sqrt UR.d := Real.sqrt_pos.mpr sR.pos
  refine ⟨⟨s0, sM - |Bx| / Real.sqrt UL.d, sM, sM + |Bx| / Real.sqrt UR.d, s4, pt, UL, ULL, URR, UR⟩, vbl, vbr, ?_, ?_⟩
  · unfold hlldFan
    have ept : hlldPt p Wl Bx + Ul.d * (s0 - Wl.Vx) * ((s0 - Wl.Vx) - (s0 - sM)) = pt := by rw [hpt, eU]; ring
    rw [hM]
    simp only [Option.bind_eq_bind, Option.bind_some, ept, eL, eR, fsqrt_nonneg sL.pos.le, fsqrt_nonneg sR.pos.le, fdiv_ne q1.ne',
      fdiv_ne q2.ne', eD, Option.pure_def]
  · exact ⟨rfl, rfl, hM, h0, h4, hpt, hpt', eL, eR, sL, sR, rfl, rfl, eD, dD⟩

theorem FanOk.le1 {s0 s4 vbl vbr : ℝ} {f : HlldFan ns} (h : FanOk p Ul Ur Wl Wr Bx s0 s4 f vbl vbr) : f.s1 ≤ f.s2 := by
  rw [h.e1]; have := div_nonneg (abs_nonneg Bx) (Real.sqrt_nonneg f.UL.d); linarith

theorem FanOk.le3 {s0 s4 vbl vbr : ℝ} {f : HlldFan ns} (h : FanOk p Ul Ur Wl Wr Bx s0 s4 f vbl vbr) : f.s2 ≤ f.s3 := by
  rw [h.e3]; have := div_nonneg (abs_nonneg Bx) (Real.sqrt_nonneg f.UR.d); linarith

/-- The outcome of the solver. -/
theorem hlldA_eq (hp : p.Ok) (hi : p.iso = false) (hm : p.mhd = true) (hl : State p Bx Wl Ul) (hr : State p Bx Wr Ur) :
    ∃ s0 s4 f vbl vbr, hlldEnds p Wl Wr Bx = some (s0, s4) ∧ Outer p Wl Wr Bx s0 s4 ∧ FanOk p Ul Ur Wl Wr Bx s0 s4 f vbl vbr ∧
      hlldFan p Ul Ur Wl Wr Bx s0 s4 = some f ∧
      hlldA p Ul Ur Wl Wr Bx = some (if 0 ≤ s0 then physFlux p Wl Bx else if s4 ≤ 0 then physFlux p Wr Bx else
        scalars Wl Wr (hlldPick p Ul Ur Wl Wr Bx f)) := by
  obtain ⟨cl, cr, -, -, -, -, he⟩ := hlldEnds_eq hp hl hr
  have ho := hlldEnds_outer hp hl hr he
  obtain ⟨f, vbl, vbr, hf, hok⟩ := hlldFan_ok hp hi hm hl hr ho
  refine ⟨_, _, f, vbl, vbr, he, ho, hok, hf, ?_⟩
  unfold hlldA
  rw [he, hlldF_eq hp hm hl, hlldF_eq hp hm hr]
  simp only [Option.bind_eq_bind, Option.bind_some, Option.pure_def, hf]
  split_ifs <;> rfl

/-- C34: the adiabatic HLLD solver gives a flux for all physical states. -/
theorem hlldA_defined (hp : p.Ok) (hi : p.iso = false) (hm : p.mhd = true) (hl : State p Bx Wl Ul) (hr : State p Bx Wr Ur) :
    ∃ F, hlldA p Ul Ur Wl Wr Bx = some F := by
  obtain ⟨s0, s4, f, vbl, vbr, -, -, -, -, h⟩ := hlldA_eq hp hi hm hl hr
  exact ⟨_, h⟩

/-- C34: if both flows are faster than both fast speeds, the flux is that of the upwind state. -/
theorem hlldA_upwind (hp : p.Ok) (hi : p.iso = false) (hm : p.mhd = true) (hl : State p Bx Wl Ul) (hr : State p Bx Wr Ur) :
    ∃ cl cr, cfastPrim p Wl Bx = some cl ∧ cfastPrim p Wr Bx = some cr ∧
      (max cl cr ≤ Wl.Vx → max cl cr ≤ Wr.Vx → hlldA p Ul Ur Wl Wr Bx = some (physFlux p Wl Bx)) ∧
      (Wl.Vx ≤ -max cl cr → Wr.Vx ≤ -max cl cr → hlldA p Ul Ur Wl Wr Bx = some (physFlux p Wr Bx)) := by
  obtain ⟨cl, hcl, cl0, -, -, kl⟩ := hlldCf_eq hp hl
  obtain ⟨cr, hcr, cr0, -, -, kr⟩ := hlldCf_eq hp hr
  obtain ⟨cl', cr', e1, e2, -, -, e⟩ := hlldEnds_eq hp hl hr
  rw [hcl] at e1; obtain rfl := Option.some.inj e1
  rw [hcr] at e2; obtain rfl := Option.some.inj e2
  obtain ⟨s0, s4, f, vbl, vbr, he, -, -, -, h⟩ := hlldA_eq hp hi hm hl hr
  rw [e] at he; obtain ⟨rfl, rfl⟩ := Prod.mk.inj (Option.some.inj he)
  refine ⟨cl, cr, kl hm, kr hm, fun h1 h2 => ?_, fun h1 h2 => ?_⟩
  · rw [h, if_pos (by linarith [le_min h1 h2])]
  · have := max_le h1 h2
    have := le_max_left cl cr
    have := min_le_left Wl.Vx Wr.Vx
    have c1 : ¬ 0 ≤ min Wl.Vx Wr.Vx - max cl cr := by push Not; linarith
    rw [h, if_neg c1, if_pos (by linarith)]

/-- The passive scalars follow the mass flux. -/
theorem hlldA_scalars (hp : p.Ok) (hi : p.iso = false) (hm : p.mhd = true) (hl : State p Bx Wl Ul) (hr : State p Bx Wr Ur) {F : Cons1D ns}
    (h : hlldA p Ul Ur Wl Wr Bx = some F) (n : Fin ns) : F.s n = if 0 ≤ F.d then F.d * Wl.r n else F.d * Wr.r n := by
  obtain ⟨s0, s4, f, vbl, vbr, -, ho, -, -, e⟩ := hlldA_eq hp hi hm hl hr
  rw [h] at e; obtain rfl := Option.some.inj e
  have := ho.hXl; have := ho.hYr
  split_ifs with a b c d
  · rfl
  · exfalso; apply b; show 0 ≤ Wl.d * Wl.Vx; have := hl.d; exact mul_nonneg this.le (by linarith)
  · have h1 : Wr.d * Wr.Vx < 0 := mul_neg_of_pos_of_neg hr.d (by linarith)
    exact absurd h1 (not_lt.mpr d)
  · rfl
  · rename_i hh; exact if_pos hh
  · rename_i hh; exact if_neg hh

/-! ## The fan satisfies the jump conditions -/

/-- The solver's tests for degenerate waves are false or harmless: the outer waves are not close to Alfven waves (or do not change the
state), and the normal field is zero or not small. -/
structure Regular (Wl Wr : Prim1D ns) (Bx : ℝ) (f : HlldFan ns) : Prop where
  l : smallNumber * f.pt ≤ |Wl.d * (f.s0 - Wl.Vx) * (f.s0 - f.s2) - Bx ^ 2| ∨ f.s2 = Wl.Vx ∨ (Wl.By = 0 ∧ Wl.Bz = 0)
  r : smallNumber * f.pt ≤ |Wr.d * (f.s4 - Wr.Vx) * (f.s4 - f.s2) - Bx ^ 2| ∨ f.s2 = Wr.Vx ∨ (Wr.By = 0 ∧ Wr.Bz = 0)
  b : Bx = 0 ∨ smallNumber * f.pt ≤ Bx ^ 2 / 2

/-- The state of the fan at the interface. -/
def HlldFan.here (f : HlldFan ns) : Cons1D ns :=
  if 0 ≤ f.s1 then f.UL else if 0 ≤ f.s2 then f.ULL else if 0 < f.s3 then f.URR else f.UR

theorem outer_eq {F Us U G : Cons1D ns} {s : ℝ} (h : RH s U F Us G) (hs : ∀ n, G.s n = 0) : hlldOuter F Us U s = G := by
  unfold hlldOuter
  ext
  · linarith [h.d]
  · linarith [h.Mx]
  · linarith [h.My]
  · linarith [h.Mz]
  · linarith [h.E]
  · linarith [h.By]
  · linarith [h.Bz]
  · exact (hs _).symm

theorem inner_eq {F Us U V G H : Cons1D ns} {s s1 : ℝ} (h : RH s U F Us G) (h' : RH s1 Us G V H) (hs : ∀ n, H.s n = 0) :
    hlldInner F U Us V s s1 = H := by
  unfold hlldInner
  ext
  · linarith [h.d, h'.d]
  · linarith [h.Mx, h'.Mx]
  · linarith [h.My, h'.My]
  · linarith [h.Mz, h'.Mz]
  · linarith [h.E, h'.E]
  · linarith [h.By, h'.By]
  · linarith [h.Bz, h'.Bz]
  · exact (hs _).symm

/-- All jump conditions of the fan. -/
structure FanRH (p : Phys) (Ul Ur : Cons1D ns) (Wl Wr : Prim1D ns) (Bx : ℝ) (f : HlldFan ns) : Prop where
  h0 : RH f.s0 Ul (physFlux p Wl Bx) f.UL (mhdFlux f.pt Bx f.UL)
  h1 : RH f.s1 f.UL (mhdFlux f.pt Bx f.UL) f.ULL (mhdFlux f.pt Bx f.ULL)
  h2 : RH f.s2 f.ULL (mhdFlux f.pt Bx f.ULL) f.URR (mhdFlux f.pt Bx f.URR)
  h3 : RH f.s3 f.URR (mhdFlux f.pt Bx f.URR) f.UR (mhdFlux f.pt Bx f.UR)
  h4 : RH f.s4 f.UR (mhdFlux f.pt Bx f.UR) Ur (physFlux p Wr Bx)

theorem FanOk.rh {s0 s4 vbl vbr : ℝ} {f : HlldFan ns} (h : FanOk p Ul Ur Wl Wr Bx s0 s4 f vbl vbr) (hr : Regular Wl Wr Bx f) :
    FanRH p Ul Ur Wl Wr Bx f := by
  have cl := hr.l
  have cr := hr.r
  rw [h.e0] at cl; rw [h.e4] at cr
  refine ⟨h.e0 ▸ h.L.rh ?_, h.D.rh1, h.D.rh2 ?_, h.D.rh3.rev, h.e4 ▸ (h.R.rh ?_).rev⟩
  · exact cl.imp (fun c => by unfold Degen; exact not_lt.mpr c) id
  · exact hr.b.imp id not_lt.mpr
  · exact cr.imp (fun c => by unfold Degen; exact not_lt.mpr c) id

theorem FanRH.pick (hp : p.Ok) (hm : p.mhd = true) (hl : State p Bx Wl Ul) (hr : State p Bx Wr Ur) {f : HlldFan ns}
    (h : FanRH p Ul Ur Wl Wr Bx f) : hlldPick p Ul Ur Wl Wr Bx f = mhdFlux f.pt Bx f.here := by
  unfold hlldPick HlldFan.here
  rw [hlldF_eq hp hm hl, hlldF_eq hp hm hr]
  by_cases c1 : 0 ≤ f.s1
  · rw [if_pos c1, if_pos c1]; exact outer_eq h.h0 fun _ => rfl
  · rw [if_neg c1, if_neg c1]
    by_cases c2 : 0 ≤ f.s2
    · rw [if_pos c2, if_pos c2]; exact inner_eq h.h0 h.h1 fun _ => rfl
    · rw [if_neg c2, if_neg c2]
      by_cases c3 : 0 < f.s3
      · rw [if_pos c3, if_pos c3]; exact inner_eq h.h4.rev h.h3.rev fun _ => rfl
      · rw [if_neg c3, if_neg c3]; exact outer_eq h.h4.rev fun _ => rfl

/-- C34: inside the fan the adiabatic HLLD solver has a contact strictly between its outer waves, intermediate states of positive
density on both sides that move with the contact, and its flux is the ideal MHD flux of the intermediate state at the interface for a fan in
which the jump conditions hold across all five waves.  (Not if the solver declares a wave degenerate: `Regular`.) -/
theorem hlldA_fan (hp : p.Ok) (hi : p.iso = false) (hm : p.mhd = true) (hl : State p Bx Wl Ul) (hr : State p Bx Wr Ur) {s0 s4 : ℝ}
    (he : hlldEnds p Wl Wr Bx = some (s0, s4)) (h0 : s0 < 0) (h4 : 0 < s4) :
    ∃ f, hlldFan p Ul Ur Wl Wr Bx s0 s4 = some f ∧ f.s0 = s0 ∧ f.s4 = s4 ∧ s0 < f.s2 ∧ f.s2 < s4 ∧ f.s1 ≤ f.s2 ∧ f.s2 ≤ f.s3 ∧
      0 < f.UL.d ∧ 0 < f.UR.d ∧ f.ULL.d = f.UL.d ∧ f.URR.d = f.UR.d ∧ f.UL.Mx = f.UL.d * f.s2 ∧ f.UR.Mx = f.UR.d * f.s2 ∧
      (Regular Wl Wr Bx f → FanRH p Ul Ur Wl Wr Bx f ∧
        hlldA p Ul Ur Wl Wr Bx = some (scalars Wl Wr (mhdFlux f.pt Bx f.here))) := by
  obtain ⟨s0', s4', f, vbl, vbr, he', -, ok, hf, e⟩ := hlldA_eq hp hi hm hl hr
  rw [he] at he'; obtain ⟨rfl, rfl⟩ := Prod.mk.inj (Option.some.inj he')
  refine ⟨f, hf, ok.e0, ok.e4, ok.lo, ok.hi, ok.le1, ok.le3, ok.L.pos, ok.R.pos, ok.D.dL, ok.D.dR, ok.L.mx, ok.R.mx, fun hreg => ?_⟩
  have rh := ok.rh hreg
  refine ⟨rh, ?_⟩
  rw [e, if_neg (not_le.mpr h0), if_neg (not_le.mpr h4), rh.pick hp hm hl hr]

/-! ## Isolated discontinuities -/

/-- With equal normal velocities and total pressures the outer waves do not change the states. -/
theorem FanOk.still {s0 s4 vbl vbr : ℝ} {f : HlldFan ns} (h : FanOk p Ul Ur Wl Wr Bx s0 s4 f vbl vbr)
    (ho : Outer p Wl Wr Bx s0 s4) (hl : State p Bx Wl Ul) (hr : State p Bx Wr Ur)
    (hv : Wl.Vx = Wr.Vx) (hP : hlldPt p Wl Bx = hlldPt p Wr Bx) :
    f.s2 = Wl.Vx ∧ f.pt = hlldPt p Wl Bx ∧ f.UL = { Ul with s := fun _ => 0 } ∧ f.UR = { Ur with s := fun _ => 0 } := by
  have e1 := h.ptl
  have e2 := h.ptr
  have ha := mul_pos hl.d ho.hXl
  have hb := mul_pos hr.d ho.hYr
  have hs : f.s2 = Wl.Vx := by
    rw [← hv, ← hP] at e2
    rw [← hv] at hb
    have : (Wl.d * (Wl.Vx - s0) + Wr.d * (s4 - Wl.Vx)) * (f.s2 - Wl.Vx) = 0 := by linarith
    rcases mul_eq_zero.mp this with h | h <;> linarith
  have hpt : f.pt = hlldPt p Wl Bx := by rw [e1, hs]; ring
  exact ⟨hs, hpt, h.L.same hs hpt, h.R.same (hs.trans hv) (hpt.trans hP)⟩

theorem mhdFlux_phys (hp : p.Ok) (hi : p.iso = false) (hm : p.mhd = true) (h : State p Bx W U) :
    mhdFlux (hlldPt p W Bx) Bx ({ U with s := fun _ => 0 } : Cons1D ns) = { physFlux p W Bx with s := fun _ => 0 } := by
  rw [h.eq hp]
  have hd := h.d
  unfold mhdFlux physFlux
  rw [hlldPt_eq]
  simp only [hm, hi, if_true, Bool.false_eq_true, if_false, press, Prim1D.bt2]
  ext <;> dsimp only <;> (try field_simp) <;> try ring

theorem scalars_drop (F : Cons1D ns) (x : Fin ns → ℝ) : scalars Wl Wr { F with s := x } = scalars Wl Wr F := rfl

theorem same_avg {σ τ g v b : ℝ} (hσ : 0 < σ) (hτ : 0 < τ) :
    (σ * v + τ * v + g * (b - b)) / (σ + τ) = v ∧ (σ * b + τ * b + g * σ * τ * (v - v)) / (σ + τ) = b := by
  have : σ + τ ≠ 0 := (add_pos hσ hτ).ne'
  constructor <;> field_simp <;> ring

/-- Without a jump of the transverse velocity and field the Alfven waves do not change the states. -/
theorem FanOk.noAlfven {s0 s4 vbl vbr : ℝ} {f : HlldFan ns} (h : FanOk p Ul Ur Wl Wr Bx s0 s4 f vbl vbr) (hm : p.mhd = true)
    (zl : f.UL.s = fun _ => 0) (zr : f.UR.s = fun _ => 0)
    (hy : f.UR.My / f.UR.d = f.UL.My / f.UL.d) (hz : f.UR.Mz / f.UR.d = f.UL.Mz / f.UL.d) (hb : f.UR.By = f.UL.By) (hc : f.UR.Bz = f.UL.Bz) :
    f.ULL = f.UL ∧ f.URR = f.UR := by
  by_cases hB : 1/2 * (Bx * Bx) < smallNumber * f.pt
  · exact h.D.same (by linarith)
  · have h1 := h.dbl
    have dl := h.L.pos
    have dr := h.R.pos
    have h2 := hlldDouble_eq (p := p) (sM := f.s2) f.UL f.UR vbl vbr hm dl dr hB
    dsimp only at h2
    rw [h1] at h2
    obtain ⟨h3, h4⟩ := Prod.mk.inj (Option.some.inj h2)
    have q1 : 0 < Real.sqrt f.UL.d := Real.sqrt_pos.mpr dl
    have q2 : 0 < Real.sqrt f.UR.d := Real.sqrt_pos.mpr dr
    have vb : vbl = f.s2 * Bx + (f.UL.My / f.UL.d * f.UL.By + f.UL.Mz / f.UL.d * f.UL.Bz) := by rw [h.L.vb]; ring
    have vb' : vbr = f.s2 * Bx + (f.UL.My / f.UL.d * f.UL.By + f.UL.Mz / f.UL.d * f.UL.Bz) := by rw [h.R.vb, ← hy, ← hz, ← hb, ← hc]; ring
    rw [hy, hz, hb, hc, (same_avg q1 q2).1, (same_avg q1 q2).2, (same_avg q1 q2).1, (same_avg q1 q2).2] at h3 h4
    have yR : f.UR.d * (f.UL.My / f.UL.d) = f.UR.My := by rw [← hy]; field_simp
    have zR : f.UR.d * (f.UL.Mz / f.UL.d) = f.UR.Mz := by rw [← hz]; field_simp
    rw [← vb, sub_self, mul_zero, sub_zero] at h3
    rw [← vb', sub_self, mul_zero, add_zero, yR, zR, ← hb, ← hc, ← zr] at h4
    rw [← zl] at h3
    refine ⟨?_, h4⟩
    rw [h3]
    ext <;> dsimp only <;> field_simp

/-- Jump conditions of the fan if the outer waves do not change the states. -/
theorem FanOk.stillRH {s0 s4 vbl vbr : ℝ} {f : HlldFan ns} (ok : FanOk p Ul Ur Wl Wr Bx s0 s4 f vbl vbr) (hs : f.s2 = Wl.Vx)
    (hs' : f.s2 = Wr.Vx) (h2 : RH f.s2 f.ULL (mhdFlux f.pt Bx f.ULL) f.URR (mhdFlux f.pt Bx f.URR)) : FanRH p Ul Ur Wl Wr Bx f := by
  have q0 := ok.L.rh (Or.inr (Or.inl hs))
  have q4 := ok.R.rh (Or.inr (Or.inl hs'))
  exact ⟨by rw [ok.e0]; exact q0, ok.D.rh1, h2, ok.D.rh3.rev, by rw [ok.e4]; exact q4.rev⟩

theorem State.vy (hp : p.Ok) (h : State p Bx W U) : U.My / U.d = W.Vy ∧ U.Mz / U.d = W.Vz ∧ U.By = W.By ∧ U.Bz = W.Bz ∧ U.d = W.d ∧ U.Mx = W.d * W.Vx := by
  have := h.d
  rw [h.eq hp]; dsimp only
  exact ⟨by field_simp, by field_simp, rfl, rfl, rfl, rfl⟩

/-- An isolated contact or tangential discontinuity, including equal states: the flux at the interface. -/
theorem hlldA_steady (hp : p.Ok) (hi : p.iso = false) (hm : p.mhd = true) (hl : State p Bx Wl Ul) (hr : State p Bx Wr Ur)
    (hv : Wl.Vx = Wr.Vx) (hP : hlldPt p Wl Bx = hlldPt p Wr Bx)
    (hB : Bx = 0 ∨ (Wl.Vy = Wr.Vy ∧ Wl.Vz = Wr.Vz ∧ Wl.By = Wr.By ∧ Wl.Bz = Wr.Bz)) :
    hlldA p Ul Ur Wl Wr Bx = some (scalars Wl Wr (if 0 ≤ Wl.Vx then physFlux p Wl Bx else physFlux p Wr Bx)) := by
  obtain ⟨s0, s4, f, vbl, vbr, -, ho, ok, -, e⟩ := hlldA_eq hp hi hm hl hr
  obtain ⟨hs, hpt, eL, eR⟩ := ok.still ho hl hr hv hP
  obtain ⟨l1, l2, l3, l4, l5, -⟩ := hl.vy hp
  obtain ⟨r1, r2, r3, r4, r5, -⟩ := hr.vy hp
  have x1 := ho.hXl
  have x2 := ho.hYl
  rw [e]
  congr 1
  by_cases c0 : 0 ≤ s0
  · rw [if_pos c0, if_pos (by linarith)]
    exact (scalars_left (F := physFlux p Wl Bx) (mul_nonneg hl.d.le (by linarith)) fun n => rfl).symm
  rw [if_neg c0]
  by_cases c4 : s4 ≤ 0
  · rw [if_pos c4, if_neg (by linarith)]
    exact (scalars_right (F := physFlux p Wr Bx) (mul_neg_of_pos_of_neg hr.d (by linarith)) fun n => rfl).symm
  rw [if_neg c4]
  have fl : mhdFlux f.pt Bx f.UL = { physFlux p Wl Bx with s := fun _ => 0 } := by rw [hpt, eL, mhdFlux_phys hp hi hm hl]
  have fr : mhdFlux f.pt Bx f.UR = { physFlux p Wr Bx with s := fun _ => 0 } := by rw [hpt, hP, eR, mhdFlux_phys hp hi hm hr]
  by_cases hB0 : Bx = 0
  · have rh := ok.stillRH hs (hs.trans hv) (ok.D.rh2 (Or.inl hB0))
    rw [rh.pick hp hm hl hr]
    have s1 : f.s1 = Wl.Vx := by rw [ok.e1, hB0, abs_zero, zero_div, sub_zero, hs]
    have s3 : f.s3 = Wl.Vx := by rw [ok.e3, hB0, abs_zero, zero_div, add_zero, hs]
    unfold HlldFan.here
    rw [s1, s3, hs]
    by_cases c : 0 ≤ Wl.Vx
    · rw [if_pos c, if_pos c, fl]; rfl
    · rw [if_neg c, if_neg c, if_neg c, if_neg (by linarith), fr]; rfl
  · obtain ⟨b1, b2, b3, b4⟩ := hB.resolve_left hB0
    have hA := ok.noAlfven hm (by rw [eL]) (by rw [eR])
      (by rw [eL, eR]; show Ur.My / Ur.d = Ul.My / Ul.d; rw [l1, r1, b1]) (by rw [eL, eR]; show Ur.Mz / Ur.d = Ul.Mz / Ul.d; rw [l2, r2, b2])
      (by rw [eL, eR]; show Ur.By = Ul.By; rw [l3, r3, b3]) (by rw [eL, eR]; show Ur.Bz = Ul.Bz; rw [l4, r4, b4])
    have rh := ok.stillRH hs (hs.trans hv) (by
      rw [hA.1, hA.2]
      refine contactRH ok.L.pos ok.R.pos ok.L.mx ok.R.mx ?_ ?_ (Or.inr ⟨?_, ?_⟩)
      · rw [eL, eR]; show Ul.My / Ul.d = Ur.My / Ur.d; rw [l1, r1, b1]
      · rw [eL, eR]; show Ul.Mz / Ul.d = Ur.Mz / Ur.d; rw [l2, r2, b2]
      · rw [eL, eR]; show Ul.By = Ur.By; rw [l3, r3, b3]
      · rw [eL, eR]; show Ul.Bz = Ur.Bz; rw [l4, r4, b4])
    rw [rh.pick hp hm hl hr]
    have k1 := ok.le1
    have k3 := ok.le3
    unfold HlldFan.here
    rw [hA.1, hA.2]
    by_cases c : 0 ≤ Wl.Vx
    · have c2 : 0 ≤ f.s2 := by rw [hs]; exact c
      rw [if_pos c, if_pos c2, ite_self, fl]; rfl
    · have c2 : ¬ 0 ≤ f.s2 := by rw [hs]; exact c
      have c1 : ¬ 0 ≤ f.s1 := fun h => c2 (h.trans k1)
      rw [if_neg c, if_neg c1, if_neg c2, ite_self, fr]; rfl

/-- C34: for one and the same state the adiabatic HLLD flux is the physical flux. -/
theorem hlldA_consistent (hp : p.Ok) (hi : p.iso = false) (hm : p.mhd = true) (h : State p Bx W U) :
    hlldA p U U W W Bx = some (physFlux p W Bx) := by
  rw [hlldA_steady hp hi hm h h rfl rfl (Or.inr ⟨rfl, rfl, rfl, rfl⟩), ite_self]
  exact congrArg some (scalars_same (F := physFlux p W Bx) fun n => rfl)

end
end Athena.Hydro
