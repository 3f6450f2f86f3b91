import Verif.Hydro.HlldIsoProps

/-!
# C35: mirror symmetry of the isothermal HLLD solver; witnesses against C35 and C65 for both HLLD solvers
-/

namespace Athena.Hydro
noncomputable section
variable {ns : ℕ} {p : Phys} {Wl Wr W : Prim1D ns} {Ul Ur U : Cons1D ns} {Bx dmin : ℝ}

theorem hlldEndsI_mirror (hp : p.Ok) (hl : State p Bx Wl Ul) (hr : State p Bx Wr Ur) {s0 s4 : ℝ}
    (h : hlldEndsI p Wl Wr Bx = some (s0, s4)) : hlldEndsI p Wr.mirror Wl.mirror (-Bx) = some (-s4, -s0) := by
  obtain ⟨cl, cr, h1, h2, -, -, h3⟩ := hlldEndsI_eq hp hl hr
  obtain ⟨cr', cl', h1', h2', -, -, h3'⟩ := hlldEndsI_eq hp hr.mirror hl.mirror
  rw [hlldCf_mirror] at h1' h2'
  rw [h2] at h1'; obtain rfl := Option.some.inj h1'
  rw [h1] at h2'; obtain rfl := Option.some.inj h2'
  rw [h] at h3; obtain ⟨rfl, rfl⟩ := Prod.mk.inj (Option.some.inj h3)
  rw [h3']
  show some (min (-Wr.Vx - cr) (-Wl.Vx - cl), max (-Wr.Vx + cr) (-Wl.Vx + cl)) = _
  rw [show -Wr.Vx - cr = -(Wr.Vx + cr) by ring, show -Wl.Vx - cl = -(Wl.Vx + cl) by ring, show -Wr.Vx + cr = -(Wr.Vx - cr) by ring,
    show -Wl.Vx + cl = -(Wl.Vx - cl) by ring, min_neg_neg, max_neg_neg, max_comm (Wr.Vx + cr), min_comm (Wr.Vx - cr)]

theorem hlldNear_neg (s t : ℝ) : hlldNear (-s) (-t) ↔ hlldNear s t := by
  unfold hlldNear; rw [neg_div_neg_eq, neg_ne_zero]

theorem hlldStarI_mirror (U : Cons1D ns) (W : Prim1D ns) (Bx s s1 s3 dh mh u : ℝ) :
    hlldStarI U.mirror W.mirror (-Bx) (-s) (-s3) (-s1) dh (-mh) (-u) = (hlldStarI U W Bx s s1 s3 dh mh u).map Cons1D.mirror := by
  unfold hlldStarI
  simp only [hlldNear_neg]
  by_cases hn : hlldNear s s1 ∨ hlldNear s s3
  · rw [if_pos hn, if_pos hn.symm]; rfl
  · rw [if_neg hn, if_neg (fun h => hn h.symm)]
    have a1 : -Bx * (-u - W.mirror.Vx) = Bx * (u - W.Vx) := by show -Bx * (-u - -W.Vx) = _; ring
    have a2 : (-s - -s3) * (-s - -s1) = (s - s1) * (s - s3) := by ring
    have a3 : U.mirror.d * sqr (-s - W.mirror.Vx) - -Bx * -Bx = U.d * sqr (s - W.Vx) - Bx * Bx := by
      show U.d * sqr (-s - -W.Vx) - -Bx * -Bx = _; unfold sqr; ring
    rw [a1, a2, a3]
    cases fdiv (Bx * (u - W.Vx)) ((s - s1) * (s - s3)) with
    | none => rfl
    | some x =>
      cases fdiv (U.d * sqr (s - W.Vx) - Bx * Bx) (dh * ((s - s1) * (s - s3))) with
      | none => rfl
      | some y => rfl

theorem sign1_neg {a : ℝ} (h : a ≠ 0) : sign1 (-a) = -sign1 a := by
  unfold sign1
  rcases lt_or_gt_of_ne h with h | h
  · rw [if_neg (by linarith), if_pos h]; norm_num
  · rw [if_pos (by linarith), if_neg (by linarith)]

theorem IsoOk.mirror {s0 s4 dh mh dh' mh' : ℝ} {f f' : HlldFanI ns} (he : Encl Wl Wr s0 s4) (ok : IsoOk p dmin Ul Ur Wl Wr Bx s0 s4 f dh mh)
    (ok' : IsoOk p dmin Ur.mirror Ul.mirror Wr.mirror Wl.mirror (-Bx) (-s4) (-s0) f' dh' mh') :
    dh' = dh ∧ f'.u = -f.u ∧ f'.fm = f.fm ∧ f'.s1 = -f.s3 ∧ f'.s3 = -f.s1 ∧ f'.UL = f.UR.mirror ∧ f'.UR = f.UL.mirror ∧
      (Bx ≠ 0 → f'.UC = f.UC.mirror) := by
  have hs : s4 - s0 ≠ 0 := by linarith [he.l0, he.l4]
  have ed : dh' = dh := by
    rw [ok'.eDh, ok.eDh]; unfold isoDen
    show max dmin ((Wl.d * (-s0 - -Wl.Vx) + Wr.d * (-Wr.Vx - -s4)) / (-s0 - -s4)) = _
    congr 1
    rw [show -s0 - -s4 = s4 - s0 by ring]; congr 1; ring
  have eF : ∀ W : Prim1D ns, (physFlux p W.mirror (-Bx)).d = -(physFlux p W Bx).d ∧ (physFlux p W.mirror (-Bx)).Mx = (physFlux p W Bx).Mx :=
    fun W => by rw [physFlux_mirror]; exact ⟨rfl, rfl⟩
  have eu : f'.u = -f.u := by
    rw [ok'.eU, ok.eU, (eF _).1, (eF _).1, ed, ← neg_div]
    show (-s0 * -(physFlux p Wr Bx).d - -s4 * -(physFlux p Wl Bx).d + -s0 * -s4 * (Ul.d - Ur.d)) / (-s0 - -s4) / dh = _
    congr 1
    rw [show -s0 - -s4 = s4 - s0 by ring, ← neg_div]; congr 1; ring
  have ef : f'.fm = f.fm := by
    rw [ok'.eFm, ok.eFm, (eF _).2, (eF _).2]
    show (-s0 * (physFlux p Wr Bx).Mx - -s4 * (physFlux p Wl Bx).Mx + -s0 * -s4 * (-Ul.Mx - -Ur.Mx)) / (-s0 - -s4) = _
    rw [show -s0 - -s4 = s4 - s0 by ring]; congr 1; ring
  have em : mh' = -mh := by
    rw [ok'.eMh, ok.eMh, (eF _).2, (eF _).2]
    show (-s0 * -Ul.Mx - -s4 * -Ur.Mx - (physFlux p Wl Bx).Mx + (physFlux p Wr Bx).Mx) / (-s0 - -s4) = _
    rw [show -s0 - -s4 = s4 - s0 by ring, ← neg_div]; congr 1; ring
  have e1 : f'.s1 = -f.s3 := by rw [ok'.e1, ok.e3, eu, ed, abs_neg]; ring
  have e3 : f'.s3 = -f.s1 := by rw [ok'.e3, ok.e1, eu, ed, abs_neg]; ring
  have hL := ok'.L
  have hR := ok'.R
  rw [e1, e3, ed, em, eu, hlldStarI_mirror] at hL hR
  rw [ok.R] at hL
  rw [ok.L] at hR
  have hL := (Option.some.inj hL).symm
  have hR := (Option.some.inj hR).symm
  refine ⟨ed, eu, ef, e1, e3, hL, hR, fun hB => ?_⟩
  rw [ok'.C, ok.C, hL, hR, ed, em, sign1_neg hB]
  unfold Cons1D.mirror
  ext <;> dsimp only
  · ring
  · ring
  · rw [mul_neg, div_neg]; ring
  · rw [mul_neg, div_neg]; ring

/-- C35 (in part): the isothermal HLLD solver is mirror symmetric; without a normal field this needs that the average density of the fan is
not below the density floor. -/
theorem hlldI_mirror_partial (hp : p.Ok) (hi : p.iso = true) (hm : p.mhd = true) (hl : State p Bx Wl Ul) (hr : State p Bx Wr Ur)
    (hfl : Bx ≠ 0 ∨ ∀ s0 s4, hlldEndsI p Wl Wr Bx = some (s0, s4) → dmin ≤ (Wr.d * (s4 - Wr.Vx) + Wl.d * (Wl.Vx - s0)) / (s4 - s0)) :
    ∃ F, hlldI p dmin Ul Ur Wl Wr Bx = some F ∧ hlldI p dmin Ur.mirror Ul.mirror Wr.mirror Wl.mirror (-Bx) = some F.mirrorFlux := by
  obtain ⟨s0, s4, he, hen, h1, h2, h3⟩ := hlldI_eq (dmin := dmin) hp hm hl hr
  obtain ⟨s0', s4', he', -, h1', h2', h3'⟩ := hlldI_eq (dmin := dmin) hp hm hr.mirror hl.mirror
  rw [hlldEndsI_mirror hp hl hr he] at he'
  obtain ⟨rfl, rfl⟩ := Prod.mk.inj (Option.some.inj he')
  rw [physFlux_mirror] at h1' h2'
  by_cases c0 : 0 ≤ s0
  · exact ⟨_, h1 c0, h2' (by linarith)⟩
  by_cases c4 : s4 ≤ 0
  · exact ⟨_, h2 c4, h1' (by linarith)⟩
  push Not at c0 c4
  obtain ⟨f, dh, mh, -, ok, e⟩ := h3 c0 c4
  obtain ⟨f', dh', mh', -, ok', e'⟩ := h3' (by linarith) (by linarith)
  obtain ⟨md, mu, mf, m1, m3, mL, mR, mC⟩ := ok.mirror hen ok'
  refine ⟨_, e, ?_⟩
  rw [e', ← scalars_mirror, m1, m3, mL, mR, physFlux_mirror, physFlux_mirror, hlldOuter_mirror, hlldOuter_mirror]
  congr 2
  have a0 : 0 ≤ |Bx| / Real.sqrt dh := by positivity
  have k : f.s1 ≤ f.s3 := by rw [ok.e1, ok.e3]; linarith
  by_cases c1 : 0 ≤ f.s1
  · rw [if_pos c1]
    by_cases c3 : f.s3 ≤ 0
    · rw [if_pos (by linarith)]
      have z1 : f.s1 = 0 := le_antisymm (k.trans c3) c1
      have z3 : f.s3 = 0 := le_antisymm c3 (c1.trans k)
      have hu : f.u = 0 := by have := ok.e1; have := ok.e3; linarith
      have hB : Bx = 0 := by
        have hz : |Bx| / Real.sqrt dh = 0 := by have := ok.e1; linarith
        rcases div_eq_zero_iff.mp hz with h | h
        · exact abs_eq_zero.mp h
        · exact absurd h (Real.sqrt_pos.mpr ok.pos).ne'
      have hf := (hfl.resolve_left (not_not.mpr hB)) s0 s4 he
      have rh := ok.rh hp hi hm hl hr hen c0.ne c4.ne' ⟨by rw [ok.e0, ok.e4]; exact hf,
        by rw [z1, z3]; rintro (h | h) <;> exact h.1 rfl, by rw [z1, z3]; rintro (h | h) <;> exact h.1 rfl⟩
      have k0 := rh.h0
      have k4 := rh.h4
      rw [ok.e0] at k0
      rw [ok.e4] at k4
      rw [outer_eq k0 fun _ => rfl, outer_eq k4.rev fun _ => rfl, hu, hB]
      congr 1
      unfold isoFlux
      ext <;> dsimp only <;> ring
    · rw [if_neg (by intro h; apply c3; linarith), if_pos (by linarith)]
  · rw [if_neg c1]
    by_cases c3 : f.s3 ≤ 0
    · rw [if_pos c3, if_pos (by linarith)]
    · have hB : Bx ≠ 0 := by
        rintro rfl
        have := ok.e1; have := ok.e3
        rw [abs_zero, zero_div] at *
        apply c1; push Not at c3; linarith
      rw [if_neg c3, if_neg (by intro h; apply c3; linarith), if_neg (by intro h; apply c1; linarith), mC hB, md, mu, mf]
      unfold Cons1D.mirror Cons1D.mirrorFlux
      ext <;> dsimp only <;> ring

/-! ## Witnesses -/

/-- Isothermal MHD, sound speed 1. -/
def phJ : Phys := ⟨true, true, 0, 1, 1/100⟩
theorem phJ_ok : phJ.Ok := ⟨by norm_num [phJ], by simp [phJ], by norm_num [phJ], by norm_num [phJ]⟩
/-- Two streams of density 1 that leave the interface with speed 9. -/
def wIl : Prim1D 0 := ⟨1, -9, 0, 0, 0, 0, 0, fun _ => 0⟩
/-- Right state. -/
def wIr : Prim1D 0 := ⟨1, 9, 0, 0, 0, 0, 0, fun _ => 0⟩

theorem cf_wI (W : Prim1D 0) (h : W = wIl ∨ W = wIr) : hlldCf phJ W 0 = some 1 := by
  have e : hlldGp phJ W = 1 ∧ hlldPb W 0 = 0 ∧ W.d = 1 := by rcases h with rfl | rfl <;> norm_num [hlldGp, hlldPb, sqr, phJ, wIl, wIr]
  unfold hlldCf
  rw [e.1, e.2.1, e.2.2]
  norm_num [sqr, fsqrt, fdiv]

theorem ends_wI : hlldEndsI phJ wIl wIr 0 = some (-10, 10) := by
  unfold hlldEndsI
  rw [cf_wI _ (Or.inl rfl), cf_wI _ (Or.inr rfl)]
  simp only [Option.bind_eq_bind, Option.bind_some, Option.pure_def, fmax_eq, fmin_eq, wIl, wIr]
  norm_num

/-- C35 fails for the isothermal HLLD solver when the average density of the fan is below the density floor: two equal streams that leave
the interface with equal and opposite velocities give a mass flux through the interface. -/
theorem hlldI_mirror_false : ∃ (p : Phys) (dmin : ℝ) (Wl Wr : Prim1D 0) (Ul Ur F : Cons1D 0), p.Ok ∧ p.iso = true ∧ p.mhd = true ∧
    State p 0 Wl Ul ∧ State p 0 Wr Ur ∧ 0 < dmin ∧ dmin < Wl.d ∧ dmin < Wr.d ∧ Wr.mirror = Wl ∧ Ur.mirror = Ul ∧
    hlldI p dmin Ul Ur Wl Wr 0 = some F ∧ F.d ≠ 0 ∧ hlldI p dmin Ur.mirror Ul.mirror Wr.mirror Wl.mirror (-0) ≠ some F.mirrorFlux := by
  obtain ⟨Ul, hl⟩ := state_of phJ phJ_ok 0 wIl (by simp [Prim1D.Wf, phJ, wIl]) (by norm_num [wIl]) (by norm_num [phJ])
  obtain ⟨Ur, hr⟩ := state_of phJ phJ_ok 0 wIr (by simp [Prim1D.Wf, phJ, wIr]) (by norm_num [wIr]) (by norm_num [phJ])
  have mW : wIr.mirror = wIl := by simp [Prim1D.mirror, wIl, wIr]
  have mW' : wIl.mirror = wIr := by simp [Prim1D.mirror, wIl, wIr]
  have mU : Ur.mirror = Ul := by rw [hl.eq phJ_ok, hr.eq phJ_ok]; simp [Cons1D.mirror, wIl, wIr, phJ]
  have mU' : Ul.mirror = Ur := by rw [← mU]; simp [Cons1D.mirror]
  obtain ⟨s0, s4, he, hen, -, -, h3⟩ := hlldI_eq (dmin := 1/5) phJ_ok rfl hl hr
  rw [ends_wI] at he
  obtain ⟨rfl, rfl⟩ := Prod.mk.inj (Option.some.inj he)
  obtain ⟨f, dh, mh, -, ok, e⟩ := h3 (by norm_num) (by norm_num)
  have ed : dh = 1/5 := by rw [ok.eDh]; norm_num [isoDen, wIl, wIr]
  have eu : f.u = 0 := by
    rw [ok.eU, hl.eq phJ_ok, hr.eq phJ_ok]; norm_num [physFlux, wIl, wIr]
  have e1 : f.s1 = 0 := by rw [ok.e1, eu]; simp
  rw [if_pos e1.ge] at e
  have dL : f.UL.d = 1/5 := by
    obtain ⟨t, t', hL, -⟩ := hlldStarI_eq (s1 := f.s1) (s3 := f.s3) (mh := mh) (u := f.u) (s := -10) phJ_ok hl (by norm_num) ok.pos
    rw [ok.L] at hL; rw [Option.some.inj hL, ed]
  have hd : (scalars wIl wIr (hlldOuter (physFlux phJ wIl 0) f.UL Ul (-10))).d = -1 := by
    show (physFlux phJ wIl 0).d + -10 * (f.UL.d - Ul.d) = -1
    rw [dL, hl.eq phJ_ok]; norm_num [physFlux, wIl]
  refine ⟨phJ, 1/5, wIl, wIr, Ul, Ur, _, phJ_ok, rfl, rfl, hl, hr, by norm_num, by norm_num [wIl], by norm_num [wIr], mW, mU, e, ?_, ?_⟩
  · rw [hd]; norm_num
  · rw [mW, mW', mU, mU', neg_zero, e]
    intro h
    have := congrArg Cons1D.d (Option.some.inj h)
    rw [show ∀ F : Cons1D 0, F.mirrorFlux.d = -F.d from fun _ => rfl, hd] at this
    norm_num at this

/-- At rest, with a small normal field: the flux is that of the left state whatever the tangential fields are. -/
theorem hlldA_small (hp : p.Ok) (hi : p.iso = false) (hm : p.mhd = true) (hl : State p Bx Wl Ul) (hr : State p Bx Wr Ur)
    (hv : Wl.Vx = 0) (hv' : Wr.Vx = 0) (hP : hlldPt p Wl Bx = hlldPt p Wr Bx) (hB : Bx ≠ 0) (hb : Bx ^ 2 / 2 < smallNumber * hlldPt p Wl Bx) :
    hlldA p Ul Ur Wl Wr Bx = some (scalars Wl Wr (physFlux p Wl Bx)) := by
  obtain ⟨s0, s4, f, vbl, vbr, -, ho, ok, -, e⟩ := hlldA_eq hp hi hm hl hr
  obtain ⟨hs, hpt, eL, eR⟩ := ok.still ho hl hr (hv.trans hv'.symm) hP
  have x1 := ho.hXl
  have x2 := ho.hYl
  have hA := ok.D.same (by rw [hpt]; exact hb)
  have p1 : 0 < |Bx| / Real.sqrt f.UL.d := div_pos (abs_pos.mpr hB) (Real.sqrt_pos.mpr ok.L.pos)
  have c0 : ¬ 0 ≤ s0 := by push Not; linarith
  have c4 : ¬ s4 ≤ 0 := by push Not; linarith
  rw [e, if_neg c0, if_neg c4]
  unfold hlldPick
  have k := ok.e1
  rw [if_neg (by push Not; linarith), if_pos (by rw [hs, hv]), hA.1, eL, hlldF_eq hp hm hl]
  refine congrArg some ((congrArg (scalars Wl Wr) ?_).trans (scalars_drop (physFlux p Wl Bx) fun _ => 0))
  unfold hlldInner
  ext <;> dsimp only <;> ring

/-- A current sheet at rest: opposite tangential fields. -/
def wCl : Prim1D 0 := ⟨1, 0, 0, 0, 1, -1, 0, fun _ => 0⟩
/-- Right state. -/
def wCr : Prim1D 0 := ⟨1, 0, 0, 0, 1, 1, 0, fun _ => 0⟩

/-- C35 fails for the adiabatic HLLD solver when the normal field is small but not zero: the flux of the tangential momentum at a current
sheet at rest is taken from the left, also in the mirrored problem. -/
theorem hlldA_mirror_false : ∃ (p : Phys) (Bx : ℝ) (Wl Wr : Prim1D 0) (Ul Ur F F' : Cons1D 0), p.Ok ∧ p.iso = false ∧ p.mhd = true ∧
    State p Bx Wl Ul ∧ State p Bx Wr Ur ∧ hlldA p Ul Ur Wl Wr Bx = some F ∧
    hlldA p Ur.mirror Ul.mirror Wr.mirror Wl.mirror (-Bx) = some F' ∧ F' ≠ F.mirrorFlux := by
  obtain ⟨Ul, hl⟩ := state_of phF phF_ok (1/100000) wCl (by simp [Prim1D.Wf, phF]) (by norm_num [wCl]) (by norm_num [wCl])
  obtain ⟨Ur, hr⟩ := state_of phF phF_ok (1/100000) wCr (by simp [Prim1D.Wf, phF]) (by norm_num [wCr]) (by norm_num [wCr])
  have h1 := hlldA_small phF_ok rfl rfl hl hr rfl rfl (by norm_num [hlldPt, hlldPb, sqr, phF, wCl, wCr]) (by norm_num)
    (by norm_num [smallNumber, hlldPt, hlldPb, sqr, phF, wCl])
  have h2 := hlldA_small phF_ok rfl rfl hr.mirror hl.mirror (by norm_num [Prim1D.mirror, wCr]) (by norm_num [Prim1D.mirror, wCl])
    (by norm_num [hlldPt, hlldPb, sqr, phF, wCl, wCr, Prim1D.mirror]) (by norm_num)
    (by norm_num [smallNumber, hlldPt, hlldPb, sqr, phF, wCr, Prim1D.mirror])
  refine ⟨phF, 1/100000, wCl, wCr, Ul, Ur, _, _, phF_ok, rfl, rfl, hl, hr, h1, h2, ?_⟩
  intro h
  have := congrArg Cons1D.My h
  norm_num [scalars, physFlux, Cons1D.mirrorFlux, Prim1D.mirror, phF, wCl, wCr] at this

/-- The waves of the adiabatic HLLD fan need not be ordered: an Alfven wave can be faster than the outer wave on its side. -/
def wOl : Prim1D 0 := ⟨1, 0, 0, 0, 1/10, 0, 0, fun _ => 0⟩
/-- Right state. -/
def wOr : Prim1D 0 := ⟨5/3, 0, 0, 0, 1, 0, 0, fun _ => 0⟩

theorem ends_wO : hlldEnds phF wOl wOr 1 = some (-1, 1) := by
  have r1 : Real.sqrt (25/36) = 5/6 := by rw [show (25/36 : ℝ) = (5/6) ^ 2 by norm_num, Real.sqrt_sq (by norm_num)]
  have r2 : Real.sqrt (4/9) = 2/3 := by rw [show (4/9 : ℝ) = (2/3) ^ 2 by norm_num, Real.sqrt_sq (by norm_num)]
  have c1 : hlldCf phF wOl 1 = some 1 := by
    unfold hlldCf
    norm_num [hlldGp, hlldPb, sqr, phF, wOl, fsqrt, fdiv, r1]
  have c2 : hlldCf phF wOr 1 = some 1 := by
    unfold hlldCf
    norm_num [hlldGp, hlldPb, sqr, phF, wOr, fsqrt, fdiv, r2]
  unfold hlldEnds
  rw [c1, c2]
  norm_num [fmax_eq, wOl, wOr]

theorem hlldA_order_false : ∃ (p : Phys) (Bx : ℝ) (Wl Wr : Prim1D 0) (Ul Ur : Cons1D 0) (s0 s4 : ℝ) (f : HlldFan 0), p.Ok ∧ p.iso = false ∧
    p.mhd = true ∧ State p Bx Wl Ul ∧ State p Bx Wr Ur ∧ hlldEnds p Wl Wr Bx = some (s0, s4) ∧ s0 < 0 ∧ 0 < s4 ∧
    hlldFan p Ul Ur Wl Wr Bx s0 s4 = some f ∧ f.s1 < f.s0 := by
  obtain ⟨Ul, hl⟩ := state_of phF phF_ok 1 wOl (by simp [Prim1D.Wf, phF]) (by norm_num [wOl]) (by norm_num [wOl])
  obtain ⟨Ur, hr⟩ := state_of phF phF_ok 1 wOr (by simp [Prim1D.Wf, phF]) (by norm_num [wOr]) (by norm_num [wOr])
  obtain ⟨s0, s4, f, vbl, vbr, he, ho, ok, hf, -⟩ := hlldA_eq phF_ok rfl rfl hl hr
  rw [ends_wO] at he
  obtain ⟨rfl, rfl⟩ := Prod.mk.inj (Option.some.inj he)
  refine ⟨phF, 1, wOl, wOr, Ul, Ur, -1, 1, f, phF_ok, rfl, rfl, hl, hr, ends_wO, by norm_num, by norm_num, hf, ?_⟩
  have a1 := ok.ptl
  have a2 := ok.ptr
  have hs : f.s2 = -27/80 := by
    norm_num [hlldPt, hlldPb, sqr, phF, wOl, wOr] at a1 a2
    linarith
  have hd : f.UL.d = 80/53 := by
    obtain ⟨t, t', -, e⟩ := hlldStar_eq (s := -1) (sM := f.s2) (pt := f.pt) phF_ok rfl hl (by rw [hs]; norm_num) (by norm_num [wOl])
      (fun h => by norm_num [hs, wOl] at h)
    rw [ok.starL] at e
    rw [(Prod.mk.inj (Option.some.inj e)).1, hs]
    norm_num [wOl]
  rw [ok.e1, ok.e0, hs, hd, abs_one]
  have : Real.sqrt (80/53) < 80/53 := by
    rw [Real.sqrt_lt' (by norm_num)]; norm_num
  have h0 : 0 < Real.sqrt (80/53) := Real.sqrt_pos.mpr (by norm_num)
  have : 53/80 < 1 / Real.sqrt (80/53) := by rw [lt_div_iff₀ h0]; linarith
  linarith

/-! ## The hypotheses are met -/

/-- `hlldA_*`: moving gas, oblique field; the two states have different fields. -/
example : ∃ Ul Ur : Cons1D 0, phF.Ok ∧ phF.iso = false ∧ phF.mhd = true ∧ State phF (3/4) wFl Ul ∧ State phF (3/4) wFr Ur := by
  obtain ⟨Ul, hl⟩ := state_of phF phF_ok (3/4) wFl (by simp [Prim1D.Wf, phF]) (by norm_num [wFl]) (by norm_num [wFl])
  obtain ⟨Ur, hr⟩ := state_of phF phF_ok (3/4) wFr (by simp [Prim1D.Wf, phF]) (by norm_num [wFr]) (by norm_num [wFr])
  exact ⟨Ul, Ur, phF_ok, rfl, rfl, hl, hr⟩

/-- `hlldA_fan` and `hlldA_mirror_partial`: the fan of `ends_wO` is regular, and its contact is not at the interface. -/
example : ∃ (Ul Ur : Cons1D 0) (f : HlldFan 0), State phF 1 wOl Ul ∧ State phF 1 wOr Ur ∧ hlldFan phF Ul Ur wOl wOr 1 (-1) 1 = some f ∧
    Regular wOl wOr 1 f ∧ f.s2 ≠ 0 := by
  obtain ⟨Ul, hl⟩ := state_of phF phF_ok 1 wOl (by simp [Prim1D.Wf, phF]) (by norm_num [wOl]) (by norm_num [wOl])
  obtain ⟨Ur, hr⟩ := state_of phF phF_ok 1 wOr (by simp [Prim1D.Wf, phF]) (by norm_num [wOr]) (by norm_num [wOr])
  obtain ⟨s0, s4, f, vbl, vbr, he, ho, ok, hf, -⟩ := hlldA_eq phF_ok rfl rfl hl hr
  rw [ends_wO] at he
  obtain ⟨rfl, rfl⟩ := Prod.mk.inj (Option.some.inj he)
  have a1 := ok.ptl
  have a2 := ok.ptr
  have hs : f.s2 = -27/80 := by
    norm_num [hlldPt, hlldPb, sqr, phF, wOl, wOr] at a1 a2
    linarith
  have hp : f.pt = 15/16 := by
    rw [a1, hs]; norm_num [hlldPt, hlldPb, sqr, phF, wOl]
  exact ⟨Ul, Ur, f, hl, hr, hf, ⟨Or.inr (Or.inr ⟨rfl, rfl⟩), Or.inr (Or.inr ⟨rfl, rfl⟩), Or.inr (by rw [hp]; norm_num [smallNumber])⟩,
    by rw [hs]; norm_num⟩

/-- A rotational discontinuity: the field turns from y to z. -/
def wRl (iso : Bool) : Prim1D 0 := ⟨1, 3, 0, 0, if iso then 0 else 1, 1, 0, fun _ => 0⟩
/-- Right state. -/
def wRr (iso : Bool) : Prim1D 0 := ⟨1, 3, 1, -1, if iso then 0 else 1, 0, 1, fun _ => 0⟩

/-- `hlldA_jump`, `hlldI_jump`: a rotational discontinuity with speed 5 (normal velocity 3, Alfven speed 2). -/
theorem rotJump (p : Phys) (hp : p.Ok) (hm : p.mhd = true) : ∃ Ul Ur : Cons1D 0, State p 2 (wRl p.iso) Ul ∧ State p 2 (wRr p.iso) Ur ∧
    RH 5 Ul (physFlux p (wRl p.iso) 2) Ur (physFlux p (wRr p.iso) 2) ∧ Ul ≠ Ur := by
  obtain ⟨Ul, hl⟩ := state_of p hp 2 (wRl p.iso) ⟨fun h => by simp [wRl, h], by simp [hm]⟩ (by norm_num [wRl]) (fun h => by simp [wRl, h])
  obtain ⟨Ur, hr⟩ := state_of p hp 2 (wRr p.iso) ⟨fun h => by simp [wRr, h], by simp [hm]⟩ (by norm_num [wRr]) (fun h => by simp [wRr, h])
  refine ⟨Ul, Ur, hl, hr, ?_, fun h => ?_⟩
  · rw [hl.eq hp, hr.eq hp]
    cases hi : p.iso <;> constructor <;> simp [physFlux, press, energy, hm, hi, wRl, wRr] <;> ring
  · rw [hl.eq hp, hr.eq hp] at h
    have := congrArg Cons1D.By h
    norm_num [wRl, wRr] at this

example : ∃ Ul Ur : Cons1D 0, State phF 2 (wRl false) Ul ∧ State phF 2 (wRr false) Ur ∧ (wRl false).Vx = (wRr false).Vx ∧
    hlldPt phF (wRl false) 2 = hlldPt phF (wRr false) 2 ∧ smallNumber * hlldPt phF (wRl false) 2 ≤ 2 ^ 2 / 2 ∧
    RH 5 Ul (physFlux phF (wRl false) 2) Ur (physFlux phF (wRr false) 2) ∧ Ul ≠ Ur := by
  obtain ⟨Ul, Ur, h1, h2, h3, h4⟩ := rotJump phF phF_ok rfl
  exact ⟨Ul, Ur, h1, h2, rfl, by norm_num [hlldPt, hlldPb, sqr, phF, wRl, wRr], by norm_num [hlldPt, hlldPb, sqr, phF, wRl, smallNumber],
    h3, h4⟩

example : ∃ Ul Ur : Cons1D 0, State phJ 2 (wRl true) Ul ∧ State phJ 2 (wRr true) Ur ∧ (wRl true).d = (wRr true).d ∧
    (wRl true).Vx = (wRr true).Vx ∧ (wRl true).bt2 = (wRr true).bt2 ∧ 1/100 ≤ (wRl true).d ∧
    RH 5 Ul (physFlux phJ (wRl true) 2) Ur (physFlux phJ (wRr true) 2) ∧ Ul ≠ Ur := by
  obtain ⟨Ul, Ur, h1, h2, h3, h4⟩ := rotJump phJ phJ_ok rfl
  exact ⟨Ul, Ur, h1, h2, rfl, rfl, by norm_num [Prim1D.bt2, wRl, wRr], by norm_num [wRl], h3, h4⟩

/-- `hlldI_fan`, `hlldI_mirror_partial`: the leaving streams with a floor below the average density. -/
example : ∃ (Ul Ur : Cons1D 0) (f : HlldFanI 0), State phJ 0 wIl Ul ∧ State phJ 0 wIr Ur ∧ hlldEndsI phJ wIl wIr 0 = some (-10, 10) ∧
    hlldFanI phJ (1/100) Ul Ur wIl wIr 0 (-10) 10 = some f ∧ RegularI (1/100) wIl wIr f := by
  obtain ⟨Ul, hl⟩ := state_of phJ phJ_ok 0 wIl (by simp [Prim1D.Wf, phJ, wIl]) (by norm_num [wIl]) (by norm_num [phJ])
  obtain ⟨Ur, hr⟩ := state_of phJ phJ_ok 0 wIr (by simp [Prim1D.Wf, phJ, wIr]) (by norm_num [wIr]) (by norm_num [phJ])
  obtain ⟨f, dh, mh, hf, ok⟩ := hlldFanI_ok (dmin := 1/100) phJ_ok rfl hl hr (hlldEndsI_encl phJ_ok hl hr ends_wI) (by norm_num) (by norm_num)
  have eu : f.u = 0 := by
    rw [ok.eU, hl.eq phJ_ok, hr.eq phJ_ok]; norm_num [physFlux, wIl, wIr]
  have z1 : f.s1 = 0 := by rw [ok.e1, eu]; simp
  have z3 : f.s3 = 0 := by rw [ok.e3, eu]; simp
  refine ⟨Ul, Ur, f, hl, hr, ends_wI, hf, ?_, ?_, ?_⟩
  · rw [ok.e0, ok.e4]; norm_num [wIl, wIr]
  · rw [z1, z3]; rintro (h | h) <;> exact h.1 rfl
  · rw [z1, z3]; rintro (h | h) <;> exact h.1 rfl

end
end Athena.Hydro
