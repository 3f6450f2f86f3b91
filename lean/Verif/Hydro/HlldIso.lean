import Verif.Hydro.HlldMirror

/-!
# C34, C65: the isothermal HLLD solver
-/

namespace Athena.Hydro
noncomputable section
variable {ns : ℕ} {p : Phys} {Wl Wr W : Prim1D ns} {Ul Ur U : Cons1D ns} {Bx dmin : ℝ}

theorem hlldEndsI_eq (hp : p.Ok) (hl : State p Bx Wl Ul) (hr : State p Bx Wr Ur) : ∃ cl cr, hlldCf p Wl Bx = some cl ∧
    hlldCf p Wr Bx = some cr ∧ 0 < cl ∧ 0 < cr ∧
    hlldEndsI p Wl Wr Bx = some (min (Wl.Vx - cl) (Wr.Vx - cr), max (Wl.Vx + cl) (Wr.Vx + cr)) := by
  obtain ⟨cl, h1, h1', -⟩ := hlldCf_eq hp hl
  obtain ⟨cr, h2, h2', -⟩ := hlldCf_eq hp hr
  refine ⟨cl, cr, h1, h2, h1', h2', ?_⟩
  unfold hlldEndsI
  rw [h1, h2]
  simp only [Option.bind_eq_bind, Option.bind_some, Option.pure_def, fmax_eq, fmin_eq]

/-- The density of the fan: the average over the fan, or the floor `d_MIN` if the average is less. -/
def isoDen (dmin : ℝ) (Wl Wr : Prim1D ns) (s0 s4 : ℝ) : ℝ :=
  max dmin ((Wr.d * (s4 - Wr.Vx) + Wl.d * (Wl.Vx - s0)) / (s4 - s0))

/-- What the solver computes inside the fan. -/
structure IsoOk (p : Phys) (dmin : ℝ) (Ul Ur : Cons1D ns) (Wl Wr : Prim1D ns) (Bx s0 s4 : ℝ) (f : HlldFanI ns) (dh mh : ℝ) : Prop where
  e0 : f.s0 = s0
  e4 : f.s4 = s4
  eDh : dh = isoDen dmin Wl Wr s0 s4
  pos : 0 < dh
  eU : f.u = (s4 * (physFlux p Wl Bx).d - s0 * (physFlux p Wr Bx).d + s4 * s0 * (Ur.d - Ul.d)) / (s4 - s0) / dh
  eFm : f.fm = (s4 * (physFlux p Wl Bx).Mx - s0 * (physFlux p Wr Bx).Mx + s4 * s0 * (Ur.Mx - Ul.Mx)) / (s4 - s0)
  eMh : mh = (s4 * Ur.Mx - s0 * Ul.Mx - (physFlux p Wr Bx).Mx + (physFlux p Wl Bx).Mx) / (s4 - s0)
  e1 : f.s1 = f.u - |Bx| / Real.sqrt dh
  e3 : f.s3 = f.u + |Bx| / Real.sqrt dh
  L : hlldStarI Ul Wl Bx s0 f.s1 f.s3 dh mh f.u = some f.UL
  R : hlldStarI Ur Wr Bx s4 f.s1 f.s3 dh mh f.u = some f.UR
  C : f.UC = { d := dh, Mx := mh
               My := (f.UL.My + f.UR.My + Real.sqrt dh * sign1 Bx * (f.UR.By - f.UL.By)) / 2
               Mz := (f.UL.Mz + f.UR.Mz + Real.sqrt dh * sign1 Bx * (f.UR.Bz - f.UL.Bz)) / 2
               E := 0
               By := (f.UL.By + f.UR.By + (f.UR.My - f.UL.My) / (Real.sqrt dh * sign1 Bx)) / 2
               Bz := (f.UL.Bz + f.UR.Bz + (f.UR.Mz - f.UL.Mz) / (Real.sqrt dh * sign1 Bx)) / 2
               s := fun _ => 0 }

/-- One of the outer intermediate states: equal to the given one if the wave is degenerate, otherwise by formula. -/
theorem hlldStarI_eq (hp : p.Ok) (h : State p Bx W U) {s s1 s3 dh mh u : ℝ} (hs : s ≠ 0) (hd : 0 < dh) :
    ∃ t t', hlldStarI U W Bx s s1 s3 dh mh u =
        some { d := dh, Mx := mh, My := if hlldNear s s1 ∨ hlldNear s s3 then U.My else dh * W.Vy - W.By * t
               Mz := if hlldNear s s1 ∨ hlldNear s s3 then U.Mz else dh * W.Vz - W.Bz * t, E := 0
               By := if hlldNear s s1 ∨ hlldNear s s3 then U.By else W.By * t'
               Bz := if hlldNear s s1 ∨ hlldNear s s3 then U.Bz else W.Bz * t', s := fun _ => 0 } ∧
      (¬(hlldNear s s1 ∨ hlldNear s s3) → (s - s1) * (s - s3) ≠ 0 ∧ t = Bx * (u - W.Vx) / ((s - s1) * (s - s3)) ∧
        t' = (W.d * (s - W.Vx) ^ 2 - Bx ^ 2) / (dh * ((s - s1) * (s - s3)))) := by
  have ed : U.d = W.d := by rw [h.eq hp]
  have eB : U.By = W.By := by rw [h.eq hp]
  have eC : U.Bz = W.Bz := by rw [h.eq hp]
  by_cases hn : hlldNear s s1 ∨ hlldNear s s3
  · refine ⟨0, 0, ?_, fun h => absurd hn h⟩
    unfold hlldStarI
    simp only [if_pos hn]
  · have near : ∀ x, s - x = 0 → hlldNear s x := by
      intro x hx
      have : s = x := by linarith
      subst this
      refine ⟨hs, ?_⟩
      rw [div_self hs, sub_self, abs_zero]; norm_num [smallNumber]
    have ht : (s - s1) * (s - s3) ≠ 0 := by
      intro h0
      rcases mul_eq_zero.mp h0 with h | h
      · exact hn (Or.inl (near _ h))
      · exact hn (Or.inr (near _ h))
    refine ⟨_, _, ?_, fun _ => ⟨ht, rfl, rfl⟩⟩
    unfold hlldStarI
    simp only [if_neg hn, fdiv_ne ht, fdiv_ne (mul_ne_zero hd.ne' ht), Option.bind_eq_bind, Option.bind_some, Option.pure_def]
    rw [ed, eB, eC]
    unfold sqr
    simp only [Option.some.injEq, Cons1D.mk.injEq, true_and, and_true]
    refine ⟨?_, ?_⟩ <;> ring

/-- The speeds enclose both velocities. -/
structure Encl (Wl Wr : Prim1D ns) (s0 s4 : ℝ) : Prop where
  l0 : s0 < Wl.Vx
  r0 : s0 < Wr.Vx
  l4 : Wl.Vx < s4
  r4 : Wr.Vx < s4

theorem hlldEndsI_encl (hp : p.Ok) (hl : State p Bx Wl Ul) (hr : State p Bx Wr Ur) {s0 s4 : ℝ}
    (h : hlldEndsI p Wl Wr Bx = some (s0, s4)) : Encl Wl Wr s0 s4 := by
  obtain ⟨cl, cr, -, -, h1, h2, e⟩ := hlldEndsI_eq hp hl hr
  rw [h] at e; obtain ⟨rfl, rfl⟩ := Prod.mk.inj (Option.some.inj e)
  exact ⟨by linarith [min_le_left (Wl.Vx - cl) (Wr.Vx - cr)], by linarith [min_le_right (Wl.Vx - cl) (Wr.Vx - cr)],
    by linarith [le_max_left (Wl.Vx + cl) (Wr.Vx + cr)], by linarith [le_max_right (Wl.Vx + cl) (Wr.Vx + cr)]⟩

theorem sign1_ne (a : ℝ) : sign1 a ≠ 0 := by unfold sign1; split_ifs <;> norm_num
theorem sign1_sq (a : ℝ) : sign1 a * sign1 a = 1 := by unfold sign1; split_ifs <;> norm_num
theorem sign1_abs (a : ℝ) : |a| * sign1 a = a := by
  unfold sign1; split_ifs with h
  · rw [abs_of_neg h]; ring
  · rw [abs_of_nonneg (not_lt.mp h)]; ring

theorem hlldFanI_ok (hp : p.Ok) (hm : p.mhd = true) (hl : State p Bx Wl Ul) (hr : State p Bx Wr Ur) {s0 s4 : ℝ}
    (h : Encl Wl Wr s0 s4) (n0 : s0 ≠ 0) (n4 : s4 ≠ 0) :
    ∃ f dh mh, hlldFanI p dmin Ul Ur Wl Wr Bx s0 s4 = some f ∧ IsoOk p dmin Ul Ur Wl Wr Bx s0 s4 f dh mh := by
  have hs : 0 < s4 - s0 := by linarith [h.l0, h.l4]
  have hav : 0 < (Wr.d * (s4 - Wr.Vx) + Wl.d * (Wl.Vx - s0)) / (s4 - s0) :=
    div_pos (add_pos (mul_pos hr.d (by linarith [h.r4])) (mul_pos hl.d (by linarith [h.l0]))) hs
  have hpos : 0 < isoDen dmin Wl Wr s0 s4 := lt_max_of_lt_right hav
  have hdh : hlldDh p Ul Ur Wl Wr Bx s0 s4 = some ((Wr.d * (s4 - Wr.Vx) + Wl.d * (Wl.Vx - s0)) / (s4 - s0)) := by
    unfold hlldDh
    rw [hlldF_eq hp hm hl, hlldF_eq hp hm hr, fdiv_ne hs.ne', hl.eq hp, hr.eq hp]
    simp only [Option.bind_eq_bind, Option.bind_some, Option.pure_def, physFlux, Option.some.injEq]
    ring
  have hfl : (if (Wr.d * (s4 - Wr.Vx) + Wl.d * (Wl.Vx - s0)) / (s4 - s0) < dmin then dmin
      else (Wr.d * (s4 - Wr.Vx) + Wl.d * (Wl.Vx - s0)) / (s4 - s0)) = isoDen dmin Wl Wr s0 s4 := by
    unfold isoDen
    split_ifs with c
    · rw [max_eq_left c.le]
    · rw [max_eq_right (not_lt.mp c)]
  set dh := isoDen dmin Wl Wr s0 s4 with hdd
  have hq : 0 < Real.sqrt dh := Real.sqrt_pos.mpr hpos
  set u := (s4 * (physFlux p Wl Bx).d - s0 * (physFlux p Wr Bx).d + s4 * s0 * (Ur.d - Ul.d)) / (s4 - s0) / dh with hu
  set mh := (s4 * Ur.Mx - s0 * Ul.Mx - (physFlux p Wr Bx).Mx + (physFlux p Wl Bx).Mx) / (s4 - s0) with hmh
  obtain ⟨tl, tl', eL, -⟩ := hlldStarI_eq (s1 := u - |Bx| / Real.sqrt dh) (s3 := u + |Bx| / Real.sqrt dh) (mh := mh) (u := u) hp hl n0 hpos
  obtain ⟨tr, tr', eR, -⟩ := hlldStarI_eq (s1 := u - |Bx| / Real.sqrt dh) (s3 := u + |Bx| / Real.sqrt dh) (mh := mh) (u := u) hp hr n4 hpos
  generalize hUL : ({ d := dh, Mx := mh, My := _, Mz := _, E := 0, By := _, Bz := _, s := fun _ => 0 } : Cons1D ns) = UL at eL
  generalize hUR : ({ d := dh, Mx := mh, My := _, Mz := _, E := 0, By := _, Bz := _, s := fun _ => 0 } : Cons1D ns) = UR at eR
  have hX : Real.sqrt dh * sign1 Bx ≠ 0 := mul_ne_zero hq.ne' (sign1_ne Bx)
  refine ⟨⟨s0, u - |Bx| / Real.sqrt dh, u + |Bx| / Real.sqrt dh, s4, u,
    (s4 * (physFlux p Wl Bx).Mx - s0 * (physFlux p Wr Bx).Mx + s4 * s0 * (Ur.Mx - Ul.Mx)) / (s4 - s0), UL,
    ⟨dh, mh, (UL.My + UR.My + Real.sqrt dh * sign1 Bx * (UR.By - UL.By)) / 2,
      (UL.Mz + UR.Mz + Real.sqrt dh * sign1 Bx * (UR.Bz - UL.Bz)) / 2, 0,
      (UL.By + UR.By + (UR.My - UL.My) / (Real.sqrt dh * sign1 Bx)) / 2,
      (UL.Bz + UR.Bz + (UR.Mz - UL.Mz) / (Real.sqrt dh * sign1 Bx)) / 2, fun _ => 0⟩, UR⟩, dh, mh, ?_,
    ⟨rfl, rfl, rfl, hpos, rfl, rfl, rfl, rfl, rfl, eL, eR, rfl⟩⟩
  unfold hlldFanI
  dsimp only
  rw [hlldF_eq hp hm hl, hlldF_eq hp hm hr, fdiv_ne hs.ne', hdh]
  simp only [Option.bind_eq_bind, Option.bind_some, Option.pure_def]
  rw [hfl, fsqrt_nonneg hpos.le]
  simp only [Option.bind_some, fdiv_ne hpos.ne', fdiv_ne hq.ne', fdiv_ne hX]
  have e1 : ∀ x : ℝ, x * (1 / (s4 - s0)) = x / (s4 - s0) := fun x => by ring
  simp only [e1]
  rw [← hu, ← hmh, eL, eR]
  simp only [Option.bind_some, Option.some.injEq, HlldFanI.mk.injEq, Cons1D.mk.injEq, true_and, and_true]
  refine ⟨?_, ?_, ?_, ?_⟩ <;> ring

theorem hlldI_eq (hp : p.Ok) (hm : p.mhd = true) (hl : State p Bx Wl Ul) (hr : State p Bx Wr Ur) :
    ∃ s0 s4, hlldEndsI p Wl Wr Bx = some (s0, s4) ∧ Encl Wl Wr s0 s4 ∧
      (0 ≤ s0 → hlldI p dmin Ul Ur Wl Wr Bx = some (physFlux p Wl Bx)) ∧
      (s4 ≤ 0 → hlldI p dmin Ul Ur Wl Wr Bx = some (physFlux p Wr Bx)) ∧
      (s0 < 0 → 0 < s4 → ∃ f dh mh, hlldFanI p dmin Ul Ur Wl Wr Bx s0 s4 = some f ∧ IsoOk p dmin Ul Ur Wl Wr Bx s0 s4 f dh mh ∧
        hlldI p dmin Ul Ur Wl Wr Bx = some (scalars Wl Wr
          (if 0 ≤ f.s1 then hlldOuter (physFlux p Wl Bx) f.UL Ul s0
           else if f.s3 ≤ 0 then hlldOuter (physFlux p Wr Bx) f.UR Ur s4
           else { d := dh * f.u, Mx := f.fm, My := f.UC.My * f.u - Bx * f.UC.By, Mz := f.UC.Mz * f.u - Bx * f.UC.Bz, E := 0
                  By := f.UC.By * f.u - Bx * f.UC.My / dh, Bz := f.UC.Bz * f.u - Bx * f.UC.Mz / dh, s := fun _ => 0 }))) := by
  obtain ⟨cl, cr, -, -, -, -, he⟩ := hlldEndsI_eq hp hl hr
  have hen := hlldEndsI_encl hp hl hr he
  generalize min (Wl.Vx - cl) (Wr.Vx - cr) = s0 at he hen
  generalize max (Wl.Vx + cl) (Wr.Vx + cr) = s4 at he hen
  refine ⟨s0, s4, he, hen, fun h => ?_, fun h => ?_, fun h0 h4 => ?_⟩
  · unfold hlldI
    rw [he, hlldF_eq hp hm hl, hlldF_eq hp hm hr]
    simp only [Option.bind_eq_bind, Option.bind_some, Option.pure_def]
    rw [if_pos h]
  · have c : ¬ s0 ≥ 0 := by push Not; linarith [hen.l0, hen.l4]
    unfold hlldI
    rw [he, hlldF_eq hp hm hl, hlldF_eq hp hm hr]
    simp only [Option.bind_eq_bind, Option.bind_some, Option.pure_def]
    rw [if_neg c, if_pos h]
  · obtain ⟨f, dh, mh, hf, ok⟩ := hlldFanI_ok (dmin := dmin) hp hm hl hr hen h0.ne h4.ne'
    refine ⟨f, dh, mh, hf, ok, ?_⟩
    unfold hlldI
    rw [he, hlldF_eq hp hm hl, hlldF_eq hp hm hr]
    simp only [Option.bind_eq_bind, Option.bind_some, Option.pure_def]
    rw [if_neg (not_le.mpr h0), if_neg (not_le.mpr h4), hf, Option.bind_some]
    unfold hlldPickI
    rw [hlldF_eq hp hm hl, hlldF_eq hp hm hr, ok.e0, ok.e4]
    by_cases c1 : 0 ≤ f.s1
    · rw [if_pos c1, if_pos c1, Option.bind_some]
    · rw [if_neg c1, if_neg c1]
      by_cases c3 : f.s3 ≤ 0
      · rw [if_pos c3, if_pos c3, Option.bind_some]
      · rw [if_neg c3, if_neg c3]
        have ed : f.UC.d = dh := by rw [ok.C]
        unfold hlldCentre
        rw [ed]
        simp only [fdiv_ne ok.pos.ne', Option.bind_eq_bind, Option.bind_some, Option.pure_def]

/-- C34: the isothermal HLLD solver gives a flux for all physical states. -/
theorem hlldI_defined (hp : p.Ok) (hm : p.mhd = true) (hl : State p Bx Wl Ul) (hr : State p Bx Wr Ur) :
    ∃ F, hlldI p dmin Ul Ur Wl Wr Bx = some F := by
  obtain ⟨s0, s4, -, -, h1, h2, h3⟩ := hlldI_eq (dmin := dmin) hp hm hl hr
  by_cases c0 : 0 ≤ s0
  · exact ⟨_, h1 c0⟩
  by_cases c4 : s4 ≤ 0
  · exact ⟨_, h2 c4⟩
  obtain ⟨f, dh, mh, -, -, e⟩ := h3 (not_le.mp c0) (not_le.mp c4)
  exact ⟨_, e⟩

/-- C34: if both flows are faster than the fast speed of their state, the flux of the isothermal HLLD solver is that of the upwind state. -/
theorem hlldI_upwind (hp : p.Ok) (hm : p.mhd = true) (hl : State p Bx Wl Ul) (hr : State p Bx Wr Ur) :
    ∃ cl cr, cfastPrim p Wl Bx = some cl ∧ cfastPrim p Wr Bx = some cr ∧
      (cl ≤ Wl.Vx → cr ≤ Wr.Vx → hlldI p dmin Ul Ur Wl Wr Bx = some (physFlux p Wl Bx)) ∧
      (Wl.Vx ≤ -cl → Wr.Vx ≤ -cr → hlldI p dmin Ul Ur Wl Wr Bx = some (physFlux p Wr Bx)) := by
  obtain ⟨cl, hcl, cl0, -, -, kl⟩ := hlldCf_eq hp hl
  obtain ⟨cr, hcr, cr0, -, -, kr⟩ := hlldCf_eq hp hr
  obtain ⟨cl', cr', e1, e2, -, -, e⟩ := hlldEndsI_eq hp hl hr
  rw [hcl] at e1; obtain rfl := Option.some.inj e1
  rw [hcr] at e2; obtain rfl := Option.some.inj e2
  obtain ⟨s0, s4, he, -, h1, h2, -⟩ := hlldI_eq (dmin := dmin) hp hm hl hr
  rw [e] at he; obtain ⟨rfl, rfl⟩ := Prod.mk.inj (Option.some.inj he)
  exact ⟨cl, cr, kl hm, kr hm, fun a b => h1 (le_min (by linarith) (by linarith)), fun a b => h2 (max_le (by linarith) (by linarith))⟩

/-- The passive scalars follow the mass flux. -/
theorem hlldI_scalars (hp : p.Ok) (hm : p.mhd = true) (hl : State p Bx Wl Ul) (hr : State p Bx Wr Ur) {F : Cons1D ns}
    (h : hlldI p dmin Ul Ur Wl Wr Bx = some F) (n : Fin ns) : F.s n = if 0 ≤ F.d then F.d * Wl.r n else F.d * Wr.r n := by
  obtain ⟨s0, s4, -, he, h1, h2, h3⟩ := hlldI_eq (dmin := dmin) hp hm hl hr
  by_cases c0 : 0 ≤ s0
  · rw [h1 c0] at h; obtain rfl := Option.some.inj h
    have : 0 ≤ (physFlux p Wl Bx).d := mul_nonneg hl.d.le (by linarith [he.l0])
    rw [if_pos this]; rfl
  by_cases c4 : s4 ≤ 0
  · rw [h2 c4] at h; obtain rfl := Option.some.inj h
    have : (physFlux p Wr Bx).d < 0 := mul_neg_of_pos_of_neg hr.d (by linarith [he.r4])
    rw [if_neg (not_le.mpr this)]; rfl
  obtain ⟨f, dh, mh, -, -, e⟩ := h3 (not_le.mp c0) (not_le.mp c4)
  rw [e] at h; obtain rfl := Option.some.inj h
  rw [scalars_s]
  split_ifs <;> first | rfl | contradiction

/-! ## Jump conditions -/

/-- The flux of an intermediate state of the isothermal fan: the mass flux and normal momentum flux are those of the whole fan. -/
def isoFlux (u fm Bx : ℝ) (U : Cons1D ns) : Cons1D ns where
  d := U.d * u
  Mx := fm
  My := U.My * u - Bx * U.By
  Mz := U.Mz * u - Bx * U.Bz
  E := 0
  By := U.By * u - Bx * U.My / U.d
  Bz := U.Bz * u - Bx * U.Mz / U.d
  s := fun _ => 0

/-- The fan is not floored and not degenerate. -/
structure RegularI (dmin : ℝ) (Wl Wr : Prim1D ns) (f : HlldFanI ns) : Prop where
  floor : dmin ≤ (Wr.d * (f.s4 - Wr.Vx) + Wl.d * (Wl.Vx - f.s0)) / (f.s4 - f.s0)
  l : ¬(hlldNear f.s0 f.s1 ∨ hlldNear f.s0 f.s3)
  r : ¬(hlldNear f.s4 f.s1 ∨ hlldNear f.s4 f.s3)

/-- Jump conditions at the four waves of the isothermal fan. -/
structure FanRHI (p : Phys) (Ul Ur : Cons1D ns) (Wl Wr : Prim1D ns) (Bx : ℝ) (f : HlldFanI ns) : Prop where
  h0 : RH f.s0 Ul (physFlux p Wl Bx) f.UL (isoFlux f.u f.fm Bx f.UL)
  h1 : RH f.s1 f.UL (isoFlux f.u f.fm Bx f.UL) f.UC (isoFlux f.u f.fm Bx f.UC)
  h3 : RH f.s3 f.UC (isoFlux f.u f.fm Bx f.UC) f.UR (isoFlux f.u f.fm Bx f.UR)
  h4 : RH f.s4 f.UR (isoFlux f.u f.fm Bx f.UR) Ur (physFlux p Wr Bx)

/-- The intermediate state at the interface. -/
def HlldFanI.here (f : HlldFanI ns) : Cons1D ns := if 0 ≤ f.s1 then f.UL else if f.s3 ≤ 0 then f.UR else f.UC

/-- An outer jump: `q` is the mass flux through the wave. -/
theorem isoOuter {d dh v u s a q b w bx t t' D : ℝ} (hd : 0 < dh) (ha : q = d * (v - s)) (hb : q = dh * (u - s)) (hD : D ≠ 0)
    (eD : D = (s - u) ^ 2 - a ^ 2) (ea : a ^ 2 * dh = bx ^ 2) (ht : t = bx * (u - v) / D) (ht' : t' = (d * (s - v) ^ 2 - bx ^ 2) / (dh * D)) :
    ((dh * w - b * t) * u - bx * (b * t')) - (d * v * w - bx * b) = s * ((dh * w - b * t) - d * w) ∧
    (b * t' * u - bx * (dh * w - b * t) / dh) - (b * v - bx * w) = s * (b * t' - b) := by
  have h1 : t * D = bx * (u - v) := by rw [ht]; field_simp
  have h2 : t' * dh * D = d * (s - v) ^ 2 - bx ^ 2 := by rw [ht']; field_simp
  have e1 : dh * D = dh * (s - u) ^ 2 - bx ^ 2 := by rw [eD]; linear_combination -ea
  have hq : d * (v - s) = dh * (u - s) := by rw [← ha, hb]
  constructor
  · have : dh * D * (((dh * w - b * t) * u - bx * (b * t')) - (d * v * w - bx * b) - s * ((dh * w - b * t) - d * w)) = 0 := by
      have x1 : ((dh * w - b * t) * u - bx * (b * t')) - (d * v * w - bx * b) - s * ((dh * w - b * t) - d * w) =
          w * (dh * (u - s) - d * (v - s)) - b * t * (u - s) - bx * b * t' + bx * b := by ring
      rw [x1]
      linear_combination (dh * D * w) * (-hq) - b * (u - s) * dh * h1 - bx * b * h2 + bx * b * e1 + bx * b * (s - v) * hq
    rcases mul_eq_zero.mp this with h | h
    · exact absurd h (mul_ne_zero hd.ne' hD)
    · linarith
  · have : dh * D * ((b * t' * u - bx * (dh * w - b * t) / dh) - (b * v - bx * w) - s * (b * t' - b)) = 0 := by
      have x1 : dh * D * ((b * t' * u - bx * (dh * w - b * t) / dh) - (b * v - bx * w) - s * (b * t' - b)) =
          b * (u - s) * (t' * dh * D) + bx * b * (t * D) - b * (v - s) * (dh * D) := by field_simp; ring
      rw [x1, h1, h2, e1]
      linear_combination (b * (u - s) * (s-v) * (-1)) * hq 
    rcases mul_eq_zero.mp this with h | h
    · exact absurd h (mul_ne_zero hd.ne' hD)
    · linarith

end
end Athena.Hydro
