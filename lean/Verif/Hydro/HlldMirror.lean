import Verif.Hydro.HlldJump

/-!
# C35: mirror symmetry of the adiabatic HLLD solver
-/

namespace Athena.Hydro
noncomputable section
variable {ns : ℕ} {p : Phys} {Wl Wr W : Prim1D ns} {Ul Ur U : Cons1D ns} {Bx : ℝ}

theorem hlldCf_mirror (p : Phys) (W : Prim1D ns) (Bx : ℝ) : hlldCf p W.mirror (-Bx) = hlldCf p W Bx := by
  unfold hlldCf hlldGp hlldPb Prim1D.mirror; simp only [neg_mul_neg]

theorem hlldPt_mirror (p : Phys) (W : Prim1D ns) (Bx : ℝ) : hlldPt p W.mirror (-Bx) = hlldPt p W Bx := by
  unfold hlldPt hlldPb Prim1D.mirror; simp only [neg_mul_neg]

theorem hlldEnds_mirror (hp : p.Ok) (hl : State p Bx Wl Ul) (hr : State p Bx Wr Ur) {s0 s4 : ℝ}
    (h : hlldEnds p Wl Wr Bx = some (s0, s4)) : hlldEnds p Wr.mirror Wl.mirror (-Bx) = some (-s4, -s0) := by
  obtain ⟨cl, cr, h1, h2, -, -, h3⟩ := hlldEnds_eq hp hl hr
  obtain ⟨cr', cl', h1', h2', -, -, h3'⟩ := hlldEnds_eq hp hr.mirror hl.mirror
  rw [hlldCf_mirror] at h1' h2'
  rw [h2] at h1'; obtain rfl := Option.some.inj h1'
  rw [h1] at h2'; obtain rfl := Option.some.inj h2'
  rw [h] at h3; obtain ⟨rfl, rfl⟩ := Prod.mk.inj (Option.some.inj h3)
  rw [h3']
  have e1 : min Wr.mirror.Vx Wl.mirror.Vx = -max Wl.Vx Wr.Vx := by
    show min (-Wr.Vx) (-Wl.Vx) = _
    rw [min_neg_neg, max_comm]
  have e2 : max Wr.mirror.Vx Wl.mirror.Vx = -min Wl.Vx Wr.Vx := by
    show max (-Wr.Vx) (-Wl.Vx) = _
    rw [max_neg_neg, min_comm]
  rw [e1, e2, max_comm cr cl]
  congr 2 <;> ring

theorem energy_mirror (p : Phys) (W : Prim1D ns) (Bx : ℝ) : energy p W.mirror (-Bx) = energy p W Bx := by
  unfold energy Prim1D.mirror; simp only [neg_sq]

theorem hlldStar_mirror (hp : p.Ok) (hi : p.iso = false) (h : State p Bx W U) {s sM pt vb : ℝ} {Us : Cons1D ns}
    (h1 : s ≠ sM) (h2 : s ≠ W.Vx) (h3 : W.d * (s - W.Vx) * (s - sM) - Bx ^ 2 = 0 → 0 < pt)
    (he : hlldStar p U W Bx s sM pt = some (Us, vb)) :
    hlldStar p U.mirror W.mirror (-Bx) (-s) (-sM) pt = some (Us.mirror, vb) := by
  obtain ⟨t, t', ht, e⟩ := hlldStar_eq hp hi h h1 h2 h3
  have hD : W.mirror.d * (-s - W.mirror.Vx) * (-s - -sM) - (-Bx) ^ 2 = W.d * (s - W.Vx) * (s - sM) - Bx ^ 2 := by
    show W.d * (-s - -W.Vx) * (-s - -sM) - (-Bx) ^ 2 = _; ring
  obtain ⟨u, u', hu, e'⟩ := hlldStar_eq (s := -s) (sM := -sM) (pt := pt) hp hi h.mirror (fun h => h1 (neg_inj.mp h))
    (fun h => h2 (neg_inj.mp h)) (by rw [hD]; exact h3)
  have hDeg : Degen W.mirror (-Bx) (-s) (-sM) pt ↔ Degen W Bx s sM pt := by unfold Degen; rw [hD]
  rw [he] at e
  obtain ⟨rfl, rfl⟩ := Prod.mk.inj (Option.some.inj e)
  have huv : u = t ∧ u' = t' := by
    rw [hD] at hu
    by_cases hg : Degen W Bx s sM pt
    · rw [if_pos hg] at ht; rw [if_pos (hDeg.mpr hg)] at hu
      exact ⟨hu.1.trans ht.1.symm, hu.2.trans ht.2.symm⟩
    · rw [if_neg hg] at ht; rw [if_neg (fun h => hg (hDeg.mp h))] at hu
      refine ⟨?_, ?_⟩
      · rw [hu.1, ht.1]; show -Bx * (-sM - -W.Vx) / _ = _; congr 1; ring
      · rw [hu.2, ht.2]; show (W.d * (-s - -W.Vx) ^ 2 - (-Bx) ^ 2) / _ = _; congr 1; ring
  obtain ⟨rfl, rfl⟩ := huv
  rw [e', energy_mirror, hlldPt_mirror]
  have ed : W.mirror.d * (-s - W.mirror.Vx) / (-s - -sM) = W.d * (s - W.Vx) / (s - sM) := by
    show W.d * (-s - -W.Vx) / (-s - -sM) = _
    rw [show W.d * (-s - -W.Vx) = -(W.d * (s - W.Vx)) by ring, show -s - -sM = -(s - sM) by ring, neg_div_neg_eq]
  rw [ed]
  have ev : -sM * -Bx + (W.mirror.Vy - W.mirror.By * u) * (W.mirror.By * u') + (W.mirror.Vz - W.mirror.Bz * u) * (W.mirror.Bz * u') =
      sM * Bx + (W.Vy - W.By * u) * (W.By * u') + (W.Vz - W.Bz * u) * (W.Bz * u') := by
    show -sM * -Bx + (W.Vy - W.By * u) * (W.By * u') + (W.Vz - W.Bz * u) * (W.Bz * u') = _; ring
  rw [ev]
  refine congrArg some (Prod.ext ?_ rfl)
  generalize sM * Bx + (W.Vy - W.By * u) * (W.By * u') + (W.Vz - W.Bz * u) * (W.Bz * u') = vb
  generalize W.d * (s - W.Vx) / (s - sM) = D
  unfold Cons1D.mirror
  ext
  · rfl
  · show D * -sM = -(D * sM); ring
  · rfl
  · rfl
  · show ((-s - -W.Vx) * energy p W Bx - hlldPt p W Bx * -W.Vx + pt * -sM + -Bx * (-W.Vx * -Bx + W.Vy * W.By + W.Vz * W.Bz - vb)) / (-s - -sM) =
      ((s - W.Vx) * energy p W Bx - hlldPt p W Bx * W.Vx + pt * sM + Bx * (W.Vx * Bx + W.Vy * W.By + W.Vz * W.Bz - vb)) / (s - sM)
    rw [← neg_div_neg_eq]; congr 1 <;> ring
  · rfl
  · rfl
  · rfl

theorem bsig_neg (h : Bx ≠ 0) : bsig (-Bx) = -bsig Bx := by
  unfold bsig
  rcases lt_or_gt_of_ne h with h | h
  · rw [if_pos (by linarith), if_neg (by linarith)]; norm_num
  · rw [if_neg (by linarith), if_pos h]

theorem hlldDouble_mirror (hm : p.mhd = true) (hB : Bx ≠ 0) {UL UR ULL URR : Cons1D ns} {vbl vbr sM pt : ℝ} (hL : 0 < UL.d) (hR : 0 < UR.d)
    (h : hlldDouble p UL UR vbl vbr (Real.sqrt UL.d) (Real.sqrt UR.d) Bx sM pt = some (ULL, URR)) :
    hlldDouble p UR.mirror UL.mirror vbr vbl (Real.sqrt UR.mirror.d) (Real.sqrt UL.mirror.d) (-Bx) (-sM) pt = some (URR.mirror, ULL.mirror) := by
  by_cases hb : 1/2 * (Bx * Bx) < smallNumber * pt
  · unfold hlldDouble at h ⊢
    rw [if_pos hb] at h
    obtain ⟨rfl, rfl⟩ := Prod.mk.inj (Option.some.inj h)
    rw [neg_mul_neg, if_pos hb]
  · have e := hlldDouble_eq (p := p) (sM := sM) UL UR vbl vbr hm hL hR hb
    have e' := hlldDouble_eq (p := p) (Bx := -Bx) (sM := -sM) (pt := pt) UR.mirror UL.mirror vbr vbl hm hR hL (by rw [neg_mul_neg]; exact hb)
    dsimp only at e e'
    rw [h] at e
    obtain ⟨rfl, rfl⟩ := Prod.mk.inj (Option.some.inj e)
    rw [e', bsig_neg hB]
    have q1 : 0 < Real.sqrt UL.d := Real.sqrt_pos.mpr hL
    have q2 : 0 < Real.sqrt UR.d := Real.sqrt_pos.mpr hR
    have a1 : ∀ vl vr bl br : ℝ, (Real.sqrt UR.d * vr + Real.sqrt UL.d * vl + -bsig Bx * (bl - br)) / (Real.sqrt UR.d + Real.sqrt UL.d) =
        (Real.sqrt UL.d * vl + Real.sqrt UR.d * vr + bsig Bx * (br - bl)) / (Real.sqrt UL.d + Real.sqrt UR.d) := by
      intro vl vr bl br; congr 1 <;> ring
    have a2 : ∀ vl vr bl br : ℝ, (Real.sqrt UR.d * bl + Real.sqrt UL.d * br + -bsig Bx * Real.sqrt UR.d * Real.sqrt UL.d * (vl - vr)) /
        (Real.sqrt UR.d + Real.sqrt UL.d) =
        (Real.sqrt UL.d * br + Real.sqrt UR.d * bl + bsig Bx * Real.sqrt UL.d * Real.sqrt UR.d * (vr - vl)) / (Real.sqrt UL.d + Real.sqrt UR.d) := by
      intro vl vr bl br; congr 1 <;> ring
    simp only [Cons1D.mirror]
    rw [a1, a1, a2, a2]
    simp only [Option.some.injEq, Prod.mk.injEq, Cons1D.mk.injEq, and_true, true_and]
    constructor <;> ring

theorem hlldOuter_mirror (F Us U : Cons1D ns) (s : ℝ) : hlldOuter F.mirrorFlux Us.mirror U.mirror (-s) = (hlldOuter F Us U s).mirrorFlux := by
  unfold hlldOuter Cons1D.mirrorFlux Cons1D.mirror
  ext <;> dsimp only <;> ring

theorem hlldInner_mirror (F U Us V : Cons1D ns) (s s1 : ℝ) :
    hlldInner F.mirrorFlux U.mirror Us.mirror V.mirror (-s) (-s1) = (hlldInner F U Us V s s1).mirrorFlux := by
  unfold hlldInner Cons1D.mirrorFlux Cons1D.mirror
  ext <;> dsimp only <;> ring

/-- The fan of the mirrored states is the mirrored fan. -/
theorem FanOk.mirror (hp : p.Ok) (hi : p.iso = false) (hm : p.mhd = true) (hl : State p Bx Wl Ul) (hr : State p Bx Wr Ur) {s0 s4 vbl vbr vbl' vbr' : ℝ}
    {f f' : HlldFan ns} (ho : Outer p Wl Wr Bx s0 s4) (ok : FanOk p Ul Ur Wl Wr Bx s0 s4 f vbl vbr)
    (ok' : FanOk p Ur.mirror Ul.mirror Wr.mirror Wl.mirror (-Bx) (-s4) (-s0) f' vbl' vbr') :
    f'.s2 = -f.s2 ∧ f'.pt = f.pt ∧ f'.UL = f.UR.mirror ∧ f'.UR = f.UL.mirror ∧ f'.s1 = -f.s3 ∧ f'.s3 = -f.s1 ∧
      (Bx ≠ 0 → f'.ULL = f.URR.mirror ∧ f'.URR = f.ULL.mirror) := by
  have a1 := ok.ptl
  have a2 := ok.ptr
  have b1 := ok'.ptl
  have b2 := ok'.ptr
  rw [hlldPt_mirror] at b1 b2
  change f'.pt = hlldPt p Wr Bx + Wr.d * (-s4 - -Wr.Vx) * (f'.s2 - -Wr.Vx) at b1
  change f'.pt = hlldPt p Wl Bx + Wl.d * (-s0 - -Wl.Vx) * (f'.s2 - -Wl.Vx) at b2
  have ha := mul_pos hl.d ho.hXl
  have hb := mul_pos hr.d ho.hYr
  have hs : f'.s2 = -f.s2 := by
    have : (Wl.d * (Wl.Vx - s0) + Wr.d * (s4 - Wr.Vx)) * (f'.s2 + f.s2) = 0 := by linarith
    rcases mul_eq_zero.mp this with h | h <;> linarith
  have hpt : f'.pt = f.pt := by rw [b2, a1, hs]; ring
  have lo := ok.lo
  have hii := ok.hi
  have x1 := ho.hXl
  have x2 := ho.hYr
  have pl : 0 < hlldPt p Wl Bx := by rw [hlldPt_eq]; have := press_pos hp hl; unfold Prim1D.bt2; positivity
  have pr : 0 < hlldPt p Wr Bx := by rw [hlldPt_eq]; have := press_pos hp hr; unfold Prim1D.bt2; positivity
  have tl : 0 ≤ Wl.bt2 := by unfold Prim1D.bt2; positivity
  have tr : 0 ≤ Wr.bt2 := by unfold Prim1D.bt2; positivity
  have hl2 := ho.l2
  have hr2 := ho.r2
  have sL := hlldStar_mirror hp hi hl (by linarith) (by linarith) (by
    intro e
    by_contra hh; push Not at hh
    have k : 0 < Wl.d * (Wl.Vx - s0) * (f.s2 - Wl.Vx) := by rw [a1] at hh; linarith
    have : Wl.d * (s0 - Wl.Vx) * (s0 - f.s2) - Bx ^ 2 = (Wl.d * (Wl.Vx - s0) ^ 2 - Bx ^ 2) + Wl.d * (Wl.Vx - s0) * (f.s2 - Wl.Vx) := by ring
    linarith) ok.starL
  have sR := hlldStar_mirror hp hi hr (by linarith) (by linarith) (by
    intro e
    by_contra hh; push Not at hh
    have k : 0 < Wr.d * (s4 - Wr.Vx) * (Wr.Vx - f.s2) := by rw [a2] at hh; linarith
    have : Wr.d * (s4 - Wr.Vx) * (s4 - f.s2) - Bx ^ 2 = (Wr.d * (s4 - Wr.Vx) ^ 2 - Bx ^ 2) + Wr.d * (s4 - Wr.Vx) * (Wr.Vx - f.s2) := by ring
    linarith) ok.starR
  have sL' := ok'.starL
  have sR' := ok'.starR
  rw [hs, hpt] at sL' sR'
  rw [sR] at sL'
  rw [sL] at sR'
  obtain ⟨eL, vL⟩ := Prod.mk.inj (Option.some.inj sL')
  obtain ⟨eR, vR⟩ := Prod.mk.inj (Option.some.inj sR')
  refine ⟨hs, hpt, eL.symm, eR.symm, ?_, ?_, fun hB => ?_⟩
  · rw [ok'.e1, ok.e3, hs, ← eL, abs_neg]; show -f.s2 - |Bx| / Real.sqrt f.UR.d = _; ring
  · rw [ok'.e3, ok.e1, hs, ← eR, abs_neg]; show -f.s2 + |Bx| / Real.sqrt f.UL.d = _; ring
  · have h1 := hlldDouble_mirror hm hB ok.L.pos ok.R.pos ok.dbl
    have h2 := ok'.dbl
    rw [hs, hpt, ← eL, ← eR, ← vL, ← vR, h1] at h2
    obtain ⟨k1, k2⟩ := Prod.mk.inj (Option.some.inj h2)
    exact ⟨k1.symm, k2.symm⟩

/-- C35 (in part): the adiabatic HLLD solver is mirror symmetric, unless its contact is exactly at rest at the interface and it declares one
of its waves degenerate. -/
theorem hlldA_mirror_partial (hp : p.Ok) (hi : p.iso = false) (hm : p.mhd = true) (hl : State p Bx Wl Ul) (hr : State p Bx Wr Ur)
    (hreg : ∀ s0 s4 f, hlldEnds p Wl Wr Bx = some (s0, s4) → hlldFan p Ul Ur Wl Wr Bx s0 s4 = some f → f.s2 = 0 → Regular Wl Wr Bx f) :
    ∃ F, hlldA p Ul Ur Wl Wr Bx = some F ∧ hlldA p Ur.mirror Ul.mirror Wr.mirror Wl.mirror (-Bx) = some F.mirrorFlux := by
  obtain ⟨s0, s4, f, vbl, vbr, he, ho, ok, hf, e⟩ := hlldA_eq hp hi hm hl hr
  obtain ⟨s0', s4', f', vbl', vbr', he', ho', ok', hf', e'⟩ := hlldA_eq hp hi hm hr.mirror hl.mirror
  rw [hlldEnds_mirror hp hl hr he] at he'
  obtain ⟨rfl, rfl⟩ := Prod.mk.inj (Option.some.inj he')
  obtain ⟨m2, mp, mL, mR, m1, m3, mD⟩ := ok.mirror hp hi hm hl hr ho ok'
  have reg := hreg s0 s4 f he hf
  refine ⟨_, e, ?_⟩
  rw [e']
  congr 1
  have lo := ok.lo
  have hii := ok.hi
  rw [physFlux_mirror, physFlux_mirror]
  by_cases c0 : 0 ≤ s0
  · have c4 : ¬ 0 ≤ -s4 := by push Not; linarith
    rw [if_neg c4, if_pos (by linarith), if_pos c0]
  by_cases c4 : s4 ≤ 0
  · rw [if_pos (by linarith), if_neg c0, if_pos c4]
  have c4' : ¬ 0 ≤ -s4 := fun h => c4 (by linarith)
  have c0' : ¬ -s0 ≤ 0 := fun h => c0 (by linarith)
  rw [if_neg c4', if_neg c0', if_neg c0, if_neg c4, ← scalars_mirror]
  congr 1
  have k1 := ok.le1
  have k3 := ok.le3
  have eB : |Bx| / Real.sqrt f.UL.d = f.s2 - f.s1 := by rw [ok.e1]; ring
  have eB' : |Bx| / Real.sqrt f.UR.d = f.s3 - f.s2 := by rw [ok.e3]; ring
  have hB1 : f.s1 < f.s2 → Bx ≠ 0 := by rintro h rfl; rw [abs_zero, zero_div] at eB; linarith
  have hB3 : f.s2 < f.s3 → Bx ≠ 0 := by rintro h rfl; rw [abs_zero, zero_div] at eB'; linarith
  have n0 : f'.s0 = -f.s4 := by rw [ok'.e0, ok.e4]
  have n4 : f'.s4 = -f.s0 := by rw [ok'.e4, ok.e0]
  have FL : hlldF p Ul.mirror Wl.mirror (-Bx) = (physFlux p Wl Bx).mirrorFlux := by rw [hlldF_eq hp hm hl.mirror, physFlux_mirror]
  have FR : hlldF p Ur.mirror Wr.mirror (-Bx) = (physFlux p Wr Bx).mirrorFlux := by rw [hlldF_eq hp hm hr.mirror, physFlux_mirror]
  unfold hlldPick
  rw [FL, FR, hlldF_eq hp hm hl, hlldF_eq hp hm hr, m1, m2, m3, mL, mR, n0, n4]
  rcases lt_trichotomy f.s2 0 with c | c | c
  · have d1 : ¬ f.s1 ≥ 0 := by push Not; linarith
    rw [if_neg d1, if_neg (not_le.mpr c)]
    by_cases c3 : 0 < f.s3
    · rw [if_pos c3, if_neg (by push Not; linarith), if_pos (by linarith), (mD (hB3 (by linarith))).1, hlldInner_mirror]
    · rw [if_neg c3, if_pos (by linarith), hlldOuter_mirror]
  · have rh := ok.rh (reg c)
    by_cases hB : Bx = 0
    · subst hB
      rw [abs_zero, zero_div] at eB eB'
      rw [if_pos (by linarith), if_pos (by linarith), hlldOuter_mirror]
      congr 1
      have r0 : RH 0 f.UR (mhdFlux f.pt 0 f.UR) f.UL (mhdFlux f.pt 0 f.UL) := by
        have k := rh.h1
        have k' := rh.h2
        have k'' := rh.h3
        rw [show f.s1 = 0 by linarith] at k
        rw [c] at k'
        rw [show f.s3 = 0 by linarith] at k''
        refine ⟨?_, ?_, ?_, ?_, ?_, ?_, ?_⟩
        · linarith [k.d, k'.d, k''.d]
        · linarith [k.Mx, k'.Mx, k''.Mx]
        · linarith [k.My, k'.My, k''.My]
        · linarith [k.Mz, k'.Mz, k''.Mz]
        · linarith [k.E, k'.E, k''.E]
        · linarith [k.By, k'.By, k''.By]
        · linarith [k.Bz, k'.Bz, k''.Bz]
      rw [outer_eq rh.h4.rev fun _ => rfl, outer_eq rh.h0 fun _ => rfl]
      ext
      · linarith [r0.d]
      · linarith [r0.Mx]
      · linarith [r0.My]
      · linarith [r0.Mz]
      · linarith [r0.E]
      · linarith [r0.By]
      · linarith [r0.Bz]
      · rfl
    · have p1 : 0 < |Bx| / Real.sqrt f.UL.d := div_pos (abs_pos.mpr hB) (Real.sqrt_pos.mpr ok.L.pos)
      have p3 : 0 < |Bx| / Real.sqrt f.UR.d := div_pos (abs_pos.mpr hB) (Real.sqrt_pos.mpr ok.R.pos)
      rw [if_neg (by push Not; linarith), if_pos (by linarith), if_neg (by push Not; linarith), if_pos (by linarith), (mD hB).1,
        hlldInner_mirror, inner_eq rh.h4.rev rh.h3.rev fun _ => rfl, inner_eq rh.h0 rh.h1 fun _ => rfl]
      congr 1
      have k := rh.h2
      rw [c] at k
      ext
      · linarith [k.d]
      · linarith [k.Mx]
      · linarith [k.My]
      · linarith [k.Mz]
      · linarith [k.E]
      · linarith [k.By]
      · linarith [k.Bz]
      · rfl
  · rw [if_neg (by push Not; linarith), if_neg (by push Not; linarith)]
    by_cases c1 : f.s1 ≥ 0
    · rw [if_neg (by push Not; linarith), if_pos c1, hlldOuter_mirror]
    · push Not at c1
      rw [if_pos (by linarith), if_neg (not_le.mpr c1), if_pos (le_of_lt c), (mD (hB1 (by linarith))).2, hlldInner_mirror]

end
end Athena.Hydro
