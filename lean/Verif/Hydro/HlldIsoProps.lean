import Verif.Hydro.HlldIso

/-!
# C34, C35, C65: fan, isolated discontinuities and mirror symmetry of the isothermal HLLD solver
-/

namespace Athena.Hydro
noncomputable section
variable {ns : ℕ} {p : Phys} {Wl Wr W : Prim1D ns} {Ul Ur U : Cons1D ns} {Bx dmin : ℝ}

/-- The mass flux through the outer waves. -/
theorem isoMass (hp : p.Ok) (hl : State p Bx Wl Ul) (hr : State p Bx Wr Ur) {s0 s4 dh mh : ℝ} {f : HlldFanI ns} (he : Encl Wl Wr s0 s4)
    (ok : IsoOk p dmin Ul Ur Wl Wr Bx s0 s4 f dh mh)
    (hf : dmin ≤ (Wr.d * (s4 - Wr.Vx) + Wl.d * (Wl.Vx - s0)) / (s4 - s0)) :
    Wl.d * (Wl.Vx - s0) = dh * (f.u - s0) ∧ Wr.d * (Wr.Vx - s4) = dh * (f.u - s4) := by
  have hs : s4 - s0 ≠ 0 := by linarith [he.l0, he.l4]
  have e1 : dh * (s4 - s0) = Wr.d * (s4 - Wr.Vx) + Wl.d * (Wl.Vx - s0) := by
    rw [ok.eDh]; unfold isoDen; rw [max_eq_right hf]; field_simp
  have e2 : dh * f.u * (s4 - s0) = s4 * (Wl.d * Wl.Vx) - s0 * (Wr.d * Wr.Vx) + s4 * s0 * (Wr.d - Wl.d) := by
    rw [ok.eU, hl.eq hp, hr.eq hp]
    have := ok.pos
    show dh * ((s4 * (Wl.d * Wl.Vx) - s0 * (Wr.d * Wr.Vx) + s4 * s0 * (Wr.d - Wl.d)) / (s4 - s0) / dh) * (s4 - s0) = _
    field_simp
  constructor <;> apply mul_right_cancel₀ hs
  · linear_combination -e2 + s0 * e1
  · linear_combination -e2 + s4 * e1

theorem isoAlf {dh : ℝ} (hd : 0 < dh) (Bx : ℝ) : (|Bx| / Real.sqrt dh) ^ 2 * dh = Bx ^ 2 := by
  rw [div_pow, Real.sq_sqrt hd.le, sq_abs]; field_simp

/-- The Alfven waves satisfy the jump conditions. -/
theorem isoInner {dh a X u b m b' m' bx : ℝ} (hd : 0 < dh) (hX : X ≠ 0) (h1 : a * X = bx) (h2 : X ^ 2 = dh) :
    let mc := (m + m' + X * (b' - b)) / 2
    let bc := (b + b' + (m' - m) / X) / 2
    (mc * u - bx * bc) - (m * u - bx * b) = (u - a) * (mc - m) ∧ (bc * u - bx * mc / dh) - (b * u - bx * m / dh) = (u - a) * (bc - b) ∧
    (m' * u - bx * b') - (mc * u - bx * bc) = (u + a) * (m' - mc) ∧ (b' * u - bx * m' / dh) - (bc * u - bx * mc / dh) = (u + a) * (b' - bc) := by
  subst h1 h2
  dsimp only
  refine ⟨?_, ?_, ?_, ?_⟩ <;> field_simp <;> ring

theorem IsoOk.alf (hm : p.mhd = true) {s0 s4 dh mh : ℝ} {f : HlldFanI ns}
    (ok : IsoOk p dmin Ul Ur Wl Wr Bx s0 s4 f dh mh) (dL : f.UL.d = dh) (dR : f.UR.d = dh) (mL : f.UL.Mx = mh) (mR : f.UR.Mx = mh)
    (eL : f.UL.E = 0) (eR : f.UR.E = 0) :
    RH f.s1 f.UL (isoFlux f.u f.fm Bx f.UL) f.UC (isoFlux f.u f.fm Bx f.UC) ∧
      RH f.s3 f.UC (isoFlux f.u f.fm Bx f.UC) f.UR (isoFlux f.u f.fm Bx f.UR) := by
  have hq : 0 < Real.sqrt dh := Real.sqrt_pos.mpr ok.pos
  have hX : Real.sqrt dh * sign1 Bx ≠ 0 := mul_ne_zero hq.ne' (sign1_ne Bx)
  have hX2 : (Real.sqrt dh * sign1 Bx) ^ 2 = dh := by
    rw [mul_pow, Real.sq_sqrt ok.pos.le, sq (sign1 Bx), sign1_sq, mul_one]
  have haX : |Bx| / Real.sqrt dh * (Real.sqrt dh * sign1 Bx) = Bx := by
    rw [← mul_assoc, div_mul_cancel₀ _ hq.ne', sign1_abs]
  have y := isoInner (u := f.u) (b := f.UL.By) (m := f.UL.My) (b' := f.UR.By) (m' := f.UR.My) ok.pos hX haX hX2
  have z := isoInner (u := f.u) (b := f.UL.Bz) (m := f.UL.Mz) (b' := f.UR.Bz) (m' := f.UR.Mz) ok.pos hX haX hX2
  dsimp only at y z
  rw [← ok.e1, ← ok.e3] at y z
  have c1 : f.UC.My = (f.UL.My + f.UR.My + Real.sqrt dh * sign1 Bx * (f.UR.By - f.UL.By)) / 2 := by rw [ok.C]
  have c2 : f.UC.Mz = (f.UL.Mz + f.UR.Mz + Real.sqrt dh * sign1 Bx * (f.UR.Bz - f.UL.Bz)) / 2 := by rw [ok.C]
  have c3 : f.UC.By = (f.UL.By + f.UR.By + (f.UR.My - f.UL.My) / (Real.sqrt dh * sign1 Bx)) / 2 := by rw [ok.C]
  have c4 : f.UC.Bz = (f.UL.Bz + f.UR.Bz + (f.UR.Mz - f.UL.Mz) / (Real.sqrt dh * sign1 Bx)) / 2 := by rw [ok.C]
  have c5 : f.UC.d = dh := by rw [ok.C]
  have c6 : f.UC.Mx = mh := by rw [ok.C]
  have c7 : f.UC.E = 0 := by rw [ok.C]
  rw [← c1, ← c3] at y
  rw [← c2, ← c4] at z
  unfold isoFlux
  constructor
  · refine ⟨?_, ?_, y.1, z.1, ?_, ?_, ?_⟩ <;> dsimp only
    · rw [dL, c5]; ring
    · rw [mL, c6]; ring
    · rw [eL, c7]; ring
    · rw [dL, c5]; exact y.2.1
    · rw [dL, c5]; exact z.2.1
  · refine ⟨?_, ?_, y.2.2.1, z.2.2.1, ?_, ?_, ?_⟩ <;> dsimp only
    · rw [dR, c5]; ring
    · rw [mR, c6]; ring
    · rw [eR, c7]; ring
    · rw [dR, c5]; exact y.2.2.2
    · rw [dR, c5]; exact z.2.2.2

theorem IsoOk.rh (hp : p.Ok) (hi : p.iso = true) (hm : p.mhd = true) (hl : State p Bx Wl Ul) (hr : State p Bx Wr Ur) {s0 s4 dh mh : ℝ}
    {f : HlldFanI ns} (he : Encl Wl Wr s0 s4) (n0 : s0 ≠ 0) (n4 : s4 ≠ 0)
    (ok : IsoOk p dmin Ul Ur Wl Wr Bx s0 s4 f dh mh) (reg : RegularI dmin Wl Wr f) : FanRHI p Ul Ur Wl Wr Bx f := by
  have hs : s4 - s0 ≠ 0 := by linarith [he.l0, he.l4]
  have r0 := reg.floor
  have rl := reg.l
  have rr := reg.r
  rw [ok.e0, ok.e4] at r0
  rw [ok.e0] at rl
  rw [ok.e4] at rr
  obtain ⟨ma, mb⟩ := isoMass hp hl hr he ok r0
  obtain ⟨tl, tl', hL, kL⟩ := hlldStarI_eq (s1 := f.s1) (s3 := f.s3) (mh := mh) (u := f.u) hp hl n0 ok.pos
  obtain ⟨tr, tr', hR, kR⟩ := hlldStarI_eq (s1 := f.s1) (s3 := f.s3) (mh := mh) (u := f.u) hp hr n4 ok.pos
  obtain ⟨k1, k2, k3⟩ := kL rl
  obtain ⟨g1, g2, g3⟩ := kR rr
  rw [ok.L] at hL
  rw [ok.R] at hR
  simp only [if_neg rl] at hL
  simp only [if_neg rr] at hR
  have hL := Option.some.inj hL
  have hR := Option.some.inj hR
  have dD : (s0 - f.s1) * (s0 - f.s3) = (s0 - f.u) ^ 2 - (|Bx| / Real.sqrt dh) ^ 2 := by rw [ok.e1, ok.e3]; ring
  have dD' : (s4 - f.s1) * (s4 - f.s3) = (s4 - f.u) ^ 2 - (|Bx| / Real.sqrt dh) ^ 2 := by rw [ok.e1, ok.e3]; ring
  have ay := isoOuter (w := Wl.Vy) (b := Wl.By) ok.pos rfl ma k1 dD (isoAlf ok.pos Bx) k2 k3
  have az := isoOuter (w := Wl.Vz) (b := Wl.Bz) ok.pos rfl ma k1 dD (isoAlf ok.pos Bx) k2 k3
  have by' := isoOuter (w := Wr.Vy) (b := Wr.By) ok.pos rfl mb g1 dD' (isoAlf ok.pos Bx) g2 g3
  have bz' := isoOuter (w := Wr.Vz) (b := Wr.Bz) ok.pos rfl mb g1 dD' (isoAlf ok.pos Bx) g2 g3
  obtain ⟨i1, i3⟩ := ok.alf hm (by rw [hL]) (by rw [hR]) (by rw [hL]) (by rw [hR]) (by rw [hL]) (by rw [hR])
  have eE : ∀ W : Prim1D ns, (physFlux p W Bx).E = 0 := fun W => by simp [physFlux, hi]
  have eY : ∀ W : Prim1D ns, (physFlux p W Bx).My = W.d * W.Vx * W.Vy - Bx * W.By := fun W => by simp [physFlux, hm]
  have eZ : ∀ W : Prim1D ns, (physFlux p W Bx).Mz = W.d * W.Vx * W.Vz - Bx * W.Bz := fun W => by simp [physFlux, hm]
  have eB : ∀ W : Prim1D ns, (physFlux p W Bx).By = W.By * W.Vx - Bx * W.Vy := fun W => by simp [physFlux, hm]
  have eC : ∀ W : Prim1D ns, (physFlux p W Bx).Bz = W.Bz * W.Vx - Bx * W.Vz := fun W => by simp [physFlux, hm]
  have eD : ∀ W : Prim1D ns, (physFlux p W Bx).d = W.d * W.Vx := fun W => rfl
  have xm : f.fm * (s4 - s0) = s4 * (physFlux p Wl Bx).Mx - s0 * (physFlux p Wr Bx).Mx + s4 * s0 * (Ur.Mx - Ul.Mx) := by
    rw [ok.eFm]; field_simp
  have xh : mh * (s4 - s0) = s4 * Ur.Mx - s0 * Ul.Mx - (physFlux p Wr Bx).Mx + (physFlux p Wl Bx).Mx := by rw [ok.eMh]; field_simp
  refine ⟨?_, i1, i3, ?_⟩
  · rw [ok.e0, hL]
    unfold isoFlux
    constructor <;> dsimp only
    · rw [eD, hl.eq hp]; dsimp only; linear_combination -ma
    · apply mul_right_cancel₀ hs; linear_combination xm - s0 * xh
    · rw [eY, hl.eq hp]; exact ay.1
    · rw [eZ, hl.eq hp]; exact az.1
    · rw [eE, hl.eq hp]; dsimp only; rw [if_pos hi]; ring
    · rw [eB, hl.eq hp]; exact ay.2
    · rw [eC, hl.eq hp]; exact az.2
  · refine RH.rev ?_
    rw [ok.e4, hR]
    unfold isoFlux
    constructor <;> dsimp only
    · rw [eD, hr.eq hp]; dsimp only; linear_combination -mb
    · apply mul_right_cancel₀ hs; linear_combination xm - s4 * xh
    · rw [eY, hr.eq hp]; exact by'.1
    · rw [eZ, hr.eq hp]; exact bz'.1
    · rw [eE, hr.eq hp]; dsimp only; rw [if_pos hi]; ring
    · rw [eB, hr.eq hp]; exact by'.2
    · rw [eC, hr.eq hp]; exact bz'.2

/-- C34: inside the fan of the isothermal HLLD solver the density is positive, and its flux is that of the intermediate state at the
interface of a fan of four waves across which the jump conditions hold: mass and normal momentum fluxes are constant between the outer
waves, and the transverse momenta and fields are carried with the velocity `u` and the normal field.  (Not if the density floor is used or a
wave is declared degenerate.) -/
theorem hlldI_fan (hp : p.Ok) (hi : p.iso = true) (hm : p.mhd = true) (hl : State p Bx Wl Ul) (hr : State p Bx Wr Ur) {s0 s4 : ℝ}
    (he : hlldEndsI p Wl Wr Bx = some (s0, s4)) (h0 : s0 < 0) (h4 : 0 < s4) :
    ∃ f, hlldFanI p dmin Ul Ur Wl Wr Bx s0 s4 = some f ∧ f.s0 = s0 ∧ f.s4 = s4 ∧ f.s1 ≤ f.u ∧ f.u ≤ f.s3 ∧ 0 < f.UC.d ∧ dmin ≤ f.UC.d ∧
      f.UL.d = f.UC.d ∧ f.UR.d = f.UC.d ∧
      (RegularI dmin Wl Wr f → FanRHI p Ul Ur Wl Wr Bx f ∧ s0 < f.u ∧ f.u < s4 ∧
        hlldI p dmin Ul Ur Wl Wr Bx = some (scalars Wl Wr (isoFlux f.u f.fm Bx f.here))) := by
  obtain ⟨s0', s4', he', hen, -, -, h3⟩ := hlldI_eq (dmin := dmin) hp hm hl hr
  rw [he] at he'; obtain ⟨rfl, rfl⟩ := Prod.mk.inj (Option.some.inj he')
  obtain ⟨f, dh, mh, hf, ok, e⟩ := h3 h0 h4
  obtain ⟨tl, tl', hL, -⟩ := hlldStarI_eq (s1 := f.s1) (s3 := f.s3) (mh := mh) (u := f.u) hp hl h0.ne ok.pos
  obtain ⟨tr, tr', hR, -⟩ := hlldStarI_eq (s1 := f.s1) (s3 := f.s3) (mh := mh) (u := f.u) hp hr h4.ne' ok.pos
  rw [ok.L] at hL
  rw [ok.R] at hR
  have hC : f.UC.d = dh := by rw [ok.C]
  have ha : 0 ≤ |Bx| / Real.sqrt dh := by positivity
  refine ⟨f, hf, ok.e0, ok.e4, by linarith [ok.e1], by linarith [ok.e3], hC ▸ ok.pos, ?_, ?_, ?_, fun reg => ?_⟩
  · rw [hC, ok.eDh]; exact le_max_left _ _
  · rw [Option.some.inj hL, hC]
  · rw [Option.some.inj hR, hC]
  have rh := ok.rh hp hi hm hl hr hen h0.ne h4.ne' reg
  have r0 := reg.floor
  rw [ok.e0, ok.e4] at r0
  obtain ⟨ma, mb⟩ := isoMass hp hl hr hen ok r0
  refine ⟨rh, ?_, ?_, ?_⟩
  · have : 0 < dh * (f.u - s0) := ma ▸ mul_pos hl.d (by linarith [hen.l0])
    linarith [pos_of_mul_pos_right this ok.pos.le]
  · have : 0 < dh * (s4 - f.u) := by have := mul_pos hr.d (show 0 < s4 - Wr.Vx by linarith [hen.r4]); linarith
    linarith [pos_of_mul_pos_right this ok.pos.le]
  · rw [e]
    congr 2
    unfold HlldFanI.here
    have k0 := rh.h0
    have k4 := rh.h4
    rw [ok.e0] at k0
    rw [ok.e4] at k4
    by_cases c1 : 0 ≤ f.s1
    · rw [if_pos c1, if_pos c1]; exact outer_eq k0 fun _ => rfl
    · rw [if_neg c1, if_neg c1]
      by_cases c3 : f.s3 ≤ 0
      · rw [if_pos c3, if_pos c3]; exact outer_eq k4.rev fun _ => rfl
      · rw [if_neg c3, if_neg c3]
        unfold isoFlux
        rw [hC]

/-! ## Isolated discontinuities -/

/-- With equal densities, normal velocities and total pressures the outer waves do not change the states. -/
theorem IsoOk.still (hp : p.Ok) (hi : p.iso = true) (hm : p.mhd = true) (hl : State p Bx Wl Ul) (hr : State p Bx Wr Ur) {s0 s4 dh mh : ℝ}
    {f : HlldFanI ns} (he : Encl Wl Wr s0 s4) (n0 : s0 ≠ 0) (n4 : s4 ≠ 0) (ok : IsoOk p dmin Ul Ur Wl Wr Bx s0 s4 f dh mh)
    (hd : Wl.d = Wr.d) (hv : Wl.Vx = Wr.Vx) (hb : Wl.bt2 = Wr.bt2) (hdm : dmin ≤ Wl.d) :
    dh = Wl.d ∧ f.u = Wl.Vx ∧ f.fm = (physFlux p Wl Bx).Mx ∧ f.UL = { Ul with s := fun _ => 0 } ∧ f.UR = { Ur with s := fun _ => 0 } := by
  have hs : s4 - s0 ≠ 0 := by linarith [he.l0, he.l4]
  have hm0 := hl.d
  have av : (Wr.d * (s4 - Wr.Vx) + Wl.d * (Wl.Vx - s0)) / (s4 - s0) = Wl.d := by rw [← hd, ← hv]; field_simp; ring
  have edh : dh = Wl.d := by rw [ok.eDh]; unfold isoDen; rw [av, max_eq_right hdm]
  have eu : f.u = Wl.Vx := by
    have e := (isoMass hp hl hr he ok (by rw [av]; exact hdm)).1
    rw [edh] at e
    have := mul_left_cancel₀ hm0.ne' e
    linarith
  have eF : (physFlux p Wr Bx).Mx = (physFlux p Wl Bx).Mx := by
    unfold Prim1D.bt2 at hb
    simp only [physFlux, hm, if_true, press, hi]
    rw [hd, hv]; linarith
  have eM : Ur.Mx = Ul.Mx := by rw [hl.eq hp, hr.eq hp]; show Wr.d * Wr.Vx = Wl.d * Wl.Vx; rw [hd, hv]
  have efm : f.fm = (physFlux p Wl Bx).Mx := by rw [ok.eFm, eF, eM]; field_simp; ring
  have emh : mh = Ul.Mx := by rw [ok.eMh, eF, eM]; field_simp; ring
  obtain ⟨tl, tl', hL, kL⟩ := hlldStarI_eq (s1 := f.s1) (s3 := f.s3) (mh := mh) (u := f.u) hp hl n0 ok.pos
  obtain ⟨tr, tr', hR, kR⟩ := hlldStarI_eq (s1 := f.s1) (s3 := f.s3) (mh := mh) (u := f.u) hp hr n4 ok.pos
  rw [ok.L] at hL
  rw [ok.R] at hR
  have al := isoAlf ok.pos Bx
  have key : ∀ (s : ℝ) (t t' : ℝ), (s - f.s1) * (s - f.s3) ≠ 0 → t = Bx * (f.u - Wl.Vx) / ((s - f.s1) * (s - f.s3)) →
      t' = (Wl.d * (s - Wl.Vx) ^ 2 - Bx ^ 2) / (dh * ((s - f.s1) * (s - f.s3))) → t = 0 ∧ t' = 1 := by
    intro s t t' h1 h2 h3
    refine ⟨by rw [h2, eu]; simp, ?_⟩
    rw [h3, div_eq_one_iff_eq (mul_ne_zero ok.pos.ne' h1), ok.e1, ok.e3, eu]
    rw [← al, edh]; ring
  have eE : Ul.E = 0 ∧ Ur.E = 0 := by rw [hl.eq hp, hr.eq hp]; simp [hi]
  refine ⟨edh, eu, efm, ?_, ?_⟩
  · rw [Option.some.inj hL]
    by_cases hn : hlldNear s0 f.s1 ∨ hlldNear s0 f.s3
    · simp only [if_pos hn]
      rw [edh, emh, ← eE.1]
      ext <;> try rfl
      rw [hl.eq hp]
    · obtain ⟨k1, k2, k3⟩ := kL hn
      obtain ⟨rfl, rfl⟩ := key _ _ _ k1 k2 k3
      simp only [if_neg hn]
      rw [edh, emh]
      obtain ⟨q1, q2⟩ := eE
      ext <;> dsimp only
      · rw [hl.eq hp]
      · rw [hl.eq hp]; ring
      · rw [hl.eq hp]; ring
      · rw [q1]
      · rw [hl.eq hp]; ring
      · rw [hl.eq hp]; ring
  · rw [Option.some.inj hR]
    by_cases hn : hlldNear s4 f.s1 ∨ hlldNear s4 f.s3
    · simp only [if_pos hn]
      rw [edh, emh, ← eE.2, ← eM]
      ext <;> try rfl
      rw [hr.eq hp]; exact hd
    · obtain ⟨k1, k2, k3⟩ := kR hn
      rw [← hv] at k2
      rw [← hv, ← hd] at k3
      obtain ⟨rfl, rfl⟩ := key _ _ _ k1 k2 k3
      simp only [if_neg hn]
      rw [edh, emh, ← eM]
      obtain ⟨q1, q2⟩ := eE
      ext <;> dsimp only
      · rw [hr.eq hp]; exact hd
      · rw [hr.eq hp, hd]; ring
      · rw [hr.eq hp, hd]; ring
      · rw [q2]
      · rw [hr.eq hp]; ring
      · rw [hr.eq hp]; ring

theorem isoFlux_phys (hp : p.Ok) (hi : p.iso = true) (hm : p.mhd = true) (h : State p Bx W U) {u fm : ℝ} (hu : u = W.Vx)
    (hf : fm = (physFlux p W Bx).Mx) :
    isoFlux u fm Bx ({ U with s := fun _ => 0 } : Cons1D ns) = { physFlux p W Bx with s := fun _ => 0 } := by
  have hd := h.d
  rw [h.eq hp, hu, hf]
  unfold isoFlux physFlux
  simp only [hm, hi, if_true]
  ext <;> dsimp only <;> (try field_simp) <;> try ring

/-- C65: a discontinuity across which density, normal velocity and total pressure do not change (a rotational discontinuity, or a tangential
one with equal densities) and which moves with speed `s`, i.e. satisfies the jump conditions, is kept exactly by the isothermal HLLD solver. -/
theorem hlldI_jump (hp : p.Ok) (hi : p.iso = true) (hm : p.mhd = true) (hl : State p Bx Wl Ul) (hr : State p Bx Wr Ur)
    (hd : Wl.d = Wr.d) (hv : Wl.Vx = Wr.Vx) (hb : Wl.bt2 = Wr.bt2) (hdm : dmin ≤ Wl.d)
    (s : ℝ) (hj : RH s Ul (physFlux p Wl Bx) Ur (physFlux p Wr Bx)) :
    hlldI p dmin Ul Ur Wl Wr Bx = some (scalars Wl Wr (if 0 ≤ s then physFlux p Wl Bx else physFlux p Wr Bx)) := by
  have hdl := hl.d
  have jj := hj
  rw [hl.eq hp, hr.eq hp] at jj
  obtain ⟨-, -, j3, j4, -, j6, j7⟩ := jj
  simp only [physFlux, hm, if_true, ← hd, ← hv] at j3 j4 j6 j7
  have jM : (Wl.Vx - s) * (Wl.d * (Wr.Vy - Wl.Vy)) = Bx * (Wr.By - Wl.By) := by linear_combination j3
  have jN : (Wl.Vx - s) * (Wl.d * (Wr.Vz - Wl.Vz)) = Bx * (Wr.Bz - Wl.Bz) := by linear_combination j4
  have jB : (Wl.Vx - s) * (Wr.By - Wl.By) = Bx * (Wr.Vy - Wl.Vy) := by linear_combination j6
  have jC : (Wl.Vx - s) * (Wr.Bz - Wl.Bz) = Bx * (Wr.Vz - Wl.Vz) := by linear_combination j7
  have alt : (Wl.Vx - s) ^ 2 * Wl.d = Bx ^ 2 ∨ (Wl.Vy = Wr.Vy ∧ Wl.Vz = Wr.Vz ∧ Wl.By = Wr.By ∧ Wl.Bz = Wr.Bz) := by
    by_cases hne : (Wl.Vx - s) ^ 2 * Wl.d = Bx ^ 2
    · exact Or.inl hne
    right
    have k1 : ((Wl.Vx - s) ^ 2 * Wl.d - Bx ^ 2) * (Wr.Vy - Wl.Vy) = 0 := by linear_combination (Wl.Vx - s) * jM + Bx * jB
    have k2 : ((Wl.Vx - s) ^ 2 * Wl.d - Bx ^ 2) * (Wr.Vz - Wl.Vz) = 0 := by linear_combination (Wl.Vx - s) * jN + Bx * jC
    have k3 : ((Wl.Vx - s) ^ 2 * Wl.d - Bx ^ 2) * (Wr.By - Wl.By) = 0 := by linear_combination (Wl.Vx - s) * Wl.d * jB + Bx * jM
    have k4 : ((Wl.Vx - s) ^ 2 * Wl.d - Bx ^ 2) * (Wr.Bz - Wl.Bz) = 0 := by linear_combination (Wl.Vx - s) * Wl.d * jC + Bx * jN
    have hne' := sub_ne_zero.mpr hne
    exact ⟨by linarith [(mul_eq_zero.mp k1).resolve_left hne'], by linarith [(mul_eq_zero.mp k2).resolve_left hne'],
      by linarith [(mul_eq_zero.mp k3).resolve_left hne'], by linarith [(mul_eq_zero.mp k4).resolve_left hne']⟩
  have same : (Wl.Vy = Wr.Vy ∧ Wl.Vz = Wr.Vz ∧ Wl.By = Wr.By ∧ Wl.Bz = Wr.Bz) →
      scalars Wl Wr (physFlux p Wl Bx) = scalars Wl Wr (physFlux p Wr Bx) := by
    rintro ⟨h1, h2, h3, h4⟩
    refine scalars_congr (U := physFlux p Wl Bx) (V := physFlux p Wl Bx) ?_
    constructor <;> simp only [physFlux, hm, if_true, hi, press, ← hv, ← hd, ← h1, ← h2, ← h3, ← h4] <;> ring
  have z0 : s = 0 → scalars Wl Wr (physFlux p Wl Bx) = scalars Wl Wr (physFlux p Wr Bx) := fun h => scalars_congr (h ▸ hj)
  -- the fast speed is at least the Alfven speed
  obtain ⟨cl, hcl, cl0, -, al, -⟩ := hlldCf_eq hp hl
  obtain ⟨cr, hcr, cr0, -, ar, -⟩ := hlldCf_eq hp hr
  obtain ⟨cl', cr', e1, e2, -, -, e⟩ := hlldEndsI_eq hp hl hr
  rw [hcl] at e1; obtain rfl := Option.some.inj e1
  rw [hcr] at e2; obtain rfl := Option.some.inj e2
  obtain ⟨s0, s4, he, hen, h1, h2, h3⟩ := hlldI_eq (dmin := dmin) hp hm hl hr
  rw [e] at he; obtain ⟨q0, q4⟩ := Prod.mk.inj (Option.some.inj he)
  have tl : 0 ≤ Wl.bt2 := by unfold Prim1D.bt2; positivity
  have out : (Wl.Vx - s) ^ 2 * Wl.d = Bx ^ 2 → s0 ≤ s ∧ s ≤ s4 := by
    intro h
    have : (Wl.Vx - s) ^ 2 ≤ cl ^ 2 := le_of_mul_le_mul_right (a := Wl.d) (by linarith) hdl
    have := abs_le_of_sq_le_sq' this cl0.le
    have n1 := min_le_left (Wl.Vx - cl) (Wr.Vx - cr)
    have n2 := le_max_left (Wl.Vx + cl) (Wr.Vx + cr)
    constructor <;> linarith [this.1, this.2]
  by_cases c0 : 0 ≤ s0
  · have hL : scalars Wl Wr (physFlux p Wl Bx) = physFlux p Wl Bx :=
      scalars_left (F := physFlux p Wl Bx) (mul_nonneg hl.d.le (by linarith [hen.l0])) fun n => rfl
    rw [h1 c0]
    congr 1
    split_ifs with c
    · exact hL.symm
    · rcases alt with h | h
      · exact absurd (c0.trans (out h).1) c
      · rw [← same h, hL]
  by_cases c4 : s4 ≤ 0
  · have hR : scalars Wl Wr (physFlux p Wr Bx) = physFlux p Wr Bx :=
      scalars_right (F := physFlux p Wr Bx) (mul_neg_of_pos_of_neg hr.d (by linarith [hen.r4])) fun n => rfl
    rw [h2 c4]
    congr 1
    split_ifs with c
    · rcases alt with h | h
      · rw [z0 (le_antisymm ((out h).2.trans c4) c), hR]
      · rw [same h, hR]
    · exact hR.symm
  obtain ⟨f, dh, mh, -, ok, e⟩ := h3 (not_le.mp c0) (not_le.mp c4)
  obtain ⟨edh, eu, efm, eL, eR⟩ := ok.still hp hi hm hl hr hen (not_le.mp c0).ne (not_le.mp c4).ne' hd hv hb hdm
  rw [e]
  congr 1
  have a0 : 0 ≤ |Bx| / Real.sqrt dh := by positivity
  have hq : 0 < Real.sqrt dh := Real.sqrt_pos.mpr ok.pos
  have hs' : (Wl.Vx - s) ^ 2 * Wl.d = Bx ^ 2 → s = f.s1 ∨ s = f.s3 := by
    intro h
    rw [← edh, ← isoAlf ok.pos Bx] at h
    have := mul_right_cancel₀ ok.pos.ne' h
    rw [ok.e1, ok.e3, eu]
    rcases sq_eq_sq_iff_eq_or_eq_neg.mp this with h | h
    · left; linarith
    · right; linarith
  have oL : hlldOuter (physFlux p Wl Bx) f.UL Ul s0 = { physFlux p Wl Bx with s := fun _ => 0 } := by
    rw [eL]; unfold hlldOuter; ext <;> dsimp only <;> ring
  have oR : hlldOuter (physFlux p Wr Bx) f.UR Ur s4 = { physFlux p Wr Bx with s := fun _ => 0 } := by
    rw [eR]; unfold hlldOuter; ext <;> dsimp only <;> ring
  rw [oL, oR]
  by_cases c1 : 0 ≤ f.s1
  · rw [if_pos c1, scalars_drop]
    split_ifs with c
    · rfl
    · rcases alt with h | h
      · rcases hs' h with h | h
        · exact absurd (h ▸ c1) c
        · exact absurd (by rw [h, ok.e3]; rw [ok.e1] at c1; linarith) c
      · exact same h
  rw [if_neg c1]
  by_cases c3 : f.s3 ≤ 0
  · rw [if_pos c3, scalars_drop]
    split_ifs with c
    · rcases alt with h | h
      · have : s ≤ 0 := by
          rcases hs' h with h | h
          · rw [h]; exact (not_le.mp c1).le
          · rw [h]; exact c3
        exact (z0 (le_antisymm this c)).symm
      · exact (same h).symm
    · rfl
  rw [if_neg c3]
  -- between the Alfven waves
  have hB : Bx ≠ 0 := by
    rintro rfl
    rw [ok.e1, abs_zero, zero_div] at c1; rw [ok.e3, abs_zero, zero_div] at c3
    apply c1; push Not at c3; linarith
  have hX : Real.sqrt dh * sign1 Bx ≠ 0 := mul_ne_zero hq.ne' (sign1_ne Bx)
  have hX2 : (Real.sqrt dh * sign1 Bx) ^ 2 = dh := by rw [mul_pow, Real.sq_sqrt ok.pos.le, sq (sign1 Bx), sign1_sq, mul_one]
  have haX : |Bx| / Real.sqrt dh * (Real.sqrt dh * sign1 Bx) = Bx := by rw [← mul_assoc, div_mul_cancel₀ _ hq.ne', sign1_abs]
  generalize hXX : Real.sqrt dh * sign1 Bx = X at hX hX2 haX
  have hA : |Bx| / Real.sqrt dh ≠ 0 := by intro h; rw [h, zero_mul] at haX; exact hB haX.symm
  obtain ⟨a, ha⟩ : ∃ a, a = |Bx| / Real.sqrt dh := ⟨_, rfl⟩
  have f1 := ok.e1
  have f3 := ok.e3
  rw [← ha] at haX hA f1 f3 a0
  have hC := ok.C
  rw [hXX, eL, eR, hl.eq hp, hr.eq hp] at hC
  dsimp only at hC
  have mid : ∀ W : Prim1D ns, W.d = Wl.d → W.Vx = Wl.Vx → W.bt2 = Wl.bt2 → f.UC.My = W.d * W.Vy → f.UC.Mz = W.d * W.Vz → f.UC.By = W.By →
      f.UC.Bz = W.Bz → scalars Wl Wr { d := dh * f.u, Mx := f.fm, My := f.UC.My * f.u - Bx * f.UC.By, Mz := f.UC.Mz * f.u - Bx * f.UC.Bz, E := 0
                                       By := f.UC.By * f.u - Bx * f.UC.My / dh, Bz := f.UC.Bz * f.u - Bx * f.UC.Mz / dh, s := fun _ => 0 } =
        scalars Wl Wr (physFlux p W Bx) := by
    intro W g1 g2 g3 g4 g5 g6 g7
    unfold Prim1D.bt2 at g3
    refine scalars_congr (U := physFlux p Wl Bx) (V := physFlux p Wl Bx) ?_
    rw [g4, g5, g6, g7, edh, eu, efm]
    constructor <;> simp only [physFlux, hm, if_true, hi, press, g1, g2] <;>
      first | ring1 | linear_combination (1/2 : ℝ) * g3 | (field_simp; ring1) | field_simp
  -- the Alfven relation of the jump, for each component
  have rel3 : s = f.s3 → ∀ v v' b b' : ℝ, (Wl.Vx - s) * (Wl.d * (v' - v)) = Bx * (b' - b) →
      (Wl.d * v + Wr.d * v' + X * (b' - b)) / 2 = Wl.d * v ∧ (b + b' + (Wr.d * v' - Wl.d * v) / X) / 2 = b := by
    intro hs v v' b b' h
    have : X * (b' - b) = -(Wl.d * (v' - v)) := by
      apply mul_left_cancel₀ hA
      rw [show Wl.Vx - s = -a by rw [hs, f3, eu]; ring] at h
      linear_combination (b' - b) * haX - h
    constructor
    · rw [this, ← hd]; ring
    · rw [← hd]; field_simp; linear_combination this
  have rel1 : s = f.s1 → ∀ v v' b b' : ℝ, (Wl.Vx - s) * (Wl.d * (v' - v)) = Bx * (b' - b) →
      (Wl.d * v + Wr.d * v' + X * (b' - b)) / 2 = Wr.d * v' ∧ (b + b' + (Wr.d * v' - Wl.d * v) / X) / 2 = b' := by
    intro hs v v' b b' h
    have : X * (b' - b) = Wl.d * (v' - v) := by
      apply mul_left_cancel₀ hA
      rw [show Wl.Vx - s = a by rw [hs, f1, eu]; ring] at h
      linear_combination (b' - b) * haX - h
    constructor
    · rw [this, ← hd]; ring
    · rw [← hd]; field_simp; linear_combination -this
  rcases alt with h | h
  · rcases hs' h with h | h
    · have y := rel1 h _ _ _ _ jM
      have z := rel1 h _ _ _ _ jN
      rw [if_neg (by rw [h]; exact c1)]
      exact mid Wr hd.symm hv.symm hb.symm (by rw [hC]; exact y.1) (by rw [hC]; exact z.1) (by rw [hC]; exact y.2) (by rw [hC]; exact z.2)
    · have y := rel3 h _ _ _ _ jM
      have z := rel3 h _ _ _ _ jN
      rw [if_pos (by rw [h]; exact (not_le.mp c3).le)]
      exact mid Wl rfl rfl rfl (by rw [hC]; exact y.1) (by rw [hC]; exact z.1) (by rw [hC]; exact y.2) (by rw [hC]; exact z.2)
  · have hh := same h
    obtain ⟨t1, t2, t3, t4⟩ := h
    have e0 : (if 0 ≤ s then scalars Wl Wr (physFlux p Wl Bx) else scalars Wl Wr (physFlux p Wr Bx)) = scalars Wl Wr (physFlux p Wl Bx) := by
      rw [hh, ite_self]
    rw [apply_ite (scalars Wl Wr), e0]
    refine mid Wl rfl rfl rfl ?_ ?_ ?_ ?_ <;> rw [hC] <;> dsimp only <;> rw [← hd]
    · rw [← t1, ← t3]; ring
    · rw [← t2, ← t4]; ring
    · rw [← t1, ← t3]; field_simp; ring
    · rw [← t2, ← t4]; field_simp; ring

/-- C34: for one and the same state of at least the floor density the isothermal HLLD flux is the physical flux. -/
theorem hlldI_consistent (hp : p.Ok) (hi : p.iso = true) (hm : p.mhd = true) (h : State p Bx W U) (hdm : dmin ≤ W.d) :
    hlldI p dmin U U W W Bx = some (physFlux p W Bx) := by
  rw [hlldI_jump hp hi hm h h rfl rfl rfl hdm 0 (RH.refl _ _ _), ite_self]
  exact congrArg some (scalars_same (F := physFlux p W Bx) fun n => rfl)

end
end Athena.Hydro
