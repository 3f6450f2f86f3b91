import Verif.Hydro.HlldProps

/-!
# C65: the adiabatic HLLD solver keeps contact, tangential and rotational discontinuities exactly
-/

namespace Athena.Hydro
noncomputable section
variable {ns : ℕ} {p : Phys} {Wl Wr W : Prim1D ns} {Ul Ur U : Cons1D ns} {Bx : ℝ}

theorem scalars_congr {F G U V : Cons1D ns} (h : RH 0 U F V G) : scalars Wl Wr F = scalars Wl Wr G := by
  have e1 := h.d
  have e2 := h.Mx
  have e3 := h.My
  have e4 := h.Mz
  have e5 := h.E
  have e6 := h.By
  have e7 := h.Bz
  have e1' : F.d = G.d := by linarith
  unfold scalars
  ext
  · exact e1'
  · dsimp only; linarith
  · dsimp only; linarith
  · dsimp only; linarith
  · dsimp only; linarith
  · dsimp only; linarith
  · dsimp only; linarith
  · dsimp only; rw [e1']

/-- The jump conditions in primitive variables, for equal normal velocities and total pressures. -/
structure LinearJump (p : Phys) (Wl Wr : Prim1D ns) (Bx s : ℝ) : Prop where
  d : (Wl.Vx - s) * (Wr.d - Wl.d) = 0
  My : (Wl.Vx - s) * (Wr.d * Wr.Vy - Wl.d * Wl.Vy) = Bx * (Wr.By - Wl.By)
  Mz : (Wl.Vx - s) * (Wr.d * Wr.Vz - Wl.d * Wl.Vz) = Bx * (Wr.Bz - Wl.Bz)
  By : (Wl.Vx - s) * (Wr.By - Wl.By) = Bx * (Wr.Vy - Wl.Vy)
  Bz : (Wl.Vx - s) * (Wr.Bz - Wl.Bz) = Bx * (Wr.Vz - Wl.Vz)
  E : (Wl.Vx - s) * (energy p Wr Bx - energy p Wl Bx) = Bx * (Wr.Vy * Wr.By + Wr.Vz * Wr.Bz - (Wl.Vy * Wl.By + Wl.Vz * Wl.Bz))

theorem linearJump (hp : p.Ok) (hi : p.iso = false) (hm : p.mhd = true) (hl : State p Bx Wl Ul) (hr : State p Bx Wr Ur)
    (hv : Wl.Vx = Wr.Vx) (hP : hlldPt p Wl Bx = hlldPt p Wr Bx) {s : ℝ} (h : RH s Ul (physFlux p Wl Bx) Ur (physFlux p Wr Bx)) :
    LinearJump p Wl Wr Bx s := by
  rw [hl.eq hp, hr.eq hp] at h
  rw [hlldPt_eq, hlldPt_eq] at hP
  unfold Prim1D.bt2 at hP
  obtain ⟨h1, -, h3, h4, h5, h6, h7⟩ := h
  simp only [physFlux, hm, if_true, hi, Bool.false_eq_true, if_false, press] at *
  rw [← hv] at *
  constructor
  · linear_combination h1
  · linear_combination h3
  · linear_combination h4
  · linear_combination h6
  · linear_combination h7
  · linear_combination h5 + Wl.Vx * hP

/-- Equal transverse fields and velocities, density and normal velocity: the fluxes agree. -/
theorem LinearJump.same (hi : p.iso = false) (hm : p.mhd = true) {s : ℝ} (h : LinearJump p Wl Wr Bx s) (hv : Wl.Vx = Wr.Vx)
    (hP : hlldPt p Wl Bx = hlldPt p Wr Bx)
    (hs : Wl.Vx ≠ s) (hd : Wr.d = Wl.d) (h1 : Wl.Vy = Wr.Vy) (h2 : Wl.Vz = Wr.Vz) (h3 : Wl.By = Wr.By) (h4 : Wl.Bz = Wr.Bz) :
    scalars Wl Wr (physFlux p Wl Bx) = scalars Wl Wr (physFlux p Wr Bx) := by
  have hE := h.E
  rw [h1, h2, h3, h4, sub_self, mul_zero] at hE
  have hE' := (mul_eq_zero.mp hE).resolve_left (sub_ne_zero.mpr hs)
  rw [hlldPt_eq, hlldPt_eq] at hP
  unfold Prim1D.bt2 at hP
  refine scalars_congr (U := physFlux p Wl Bx) (V := physFlux p Wl Bx) ?_
  simp only [press, hi, Bool.false_eq_true, if_false] at hP
  constructor <;> simp only [physFlux, hm, if_true, hi, Bool.false_eq_true, if_false, press, ← hv, hd, ← h1, ← h2, ← h3, ← h4]
  · ring
  · rw [← h3, ← h4] at hP; linear_combination -hP
  · ring
  · ring
  · rw [← h3, ← h4] at hP; linear_combination Wl.Vx * hE' - Wl.Vx * hP
  · ring
  · ring

theorem alf_left {σ g vl vr bl br : ℝ} (hσ : 0 < σ) (hg : g * g = 1) (h : σ * (vr - vl) = g * (br - bl)) :
    (σ * vl + σ * vr + g * (br - bl)) / (σ + σ) = vr ∧ (σ * br + σ * bl + g * σ * σ * (vr - vl)) / (σ + σ) = br := by
  constructor
  · rw [← h]; field_simp; ring
  · have : g * σ * σ * (vr - vl) = σ * (br - bl) := by linear_combination g * σ * h + σ * (br - bl) * hg
    rw [this]; field_simp; ring

theorem alf_right {σ g vl vr bl br : ℝ} (hσ : 0 < σ) (hg : g * g = 1) (h : σ * (vr - vl) = -(g * (br - bl))) :
    (σ * vl + σ * vr + g * (br - bl)) / (σ + σ) = vl ∧ (σ * br + σ * bl + g * σ * σ * (vr - vl)) / (σ + σ) = bl := by
  constructor
  · rw [show g * (br - bl) = -(σ * (vr - vl)) by linarith]; field_simp; ring
  · have : g * σ * σ * (vr - vl) = -(σ * (br - bl)) := by linear_combination g * σ * h - σ * (br - bl) * hg
    rw [this]; field_simp; ring

/-- A rotational discontinuity: the inner states of the fan are the state behind it. -/
theorem FanOk.rotate {s0 s4 vbl vbr : ℝ} {f : HlldFan ns} (ok : FanOk p Ul Ur Wl Wr Bx s0 s4 f vbl vbr) (hm : p.mhd = true)
    (zl : f.UL.s = fun _ => 0) (zr : f.UR.s = fun _ => 0) (hb : smallNumber * f.pt ≤ Bx ^ 2 / 2)
    (hd : f.UR.d = f.UL.d) {ε : ℝ} (hε : ε * ε = 1)
    (hy : Real.sqrt f.UL.d * (f.UR.My / f.UR.d - f.UL.My / f.UL.d) = ε * (bsig Bx * (f.UR.By - f.UL.By)))
    (hz : Real.sqrt f.UL.d * (f.UR.Mz / f.UR.d - f.UL.Mz / f.UL.d) = ε * (bsig Bx * (f.UR.Bz - f.UL.Bz)))
    (hE : f.UR.E - f.UL.E = ε * (Real.sqrt f.UL.d * bsig Bx * (vbr - vbl))) :
    (ε = 1 → f.ULL = f.UR ∧ f.URR = f.UR) ∧ (ε = -1 → f.ULL = f.UL ∧ f.URR = f.UL) := by
  have dl := ok.L.pos
  have dr := ok.R.pos
  have hB : ¬ 1/2 * (Bx * Bx) < smallNumber * f.pt := by push Not; linarith
  have h1 := ok.dbl
  have h2 := hlldDouble_eq (p := p) (sM := f.s2) f.UL f.UR vbl vbr hm dl dr hB
  dsimp only at h2
  rw [h1] at h2
  obtain ⟨h3, h4⟩ := Prod.mk.inj (Option.some.inj h2)
  have q : 0 < Real.sqrt f.UL.d := Real.sqrt_pos.mpr dl
  have vb : vbl = f.s2 * Bx + (f.UL.My / f.UL.d * f.UL.By + f.UL.Mz / f.UL.d * f.UL.Bz) := by rw [ok.L.vb]; ring
  have vb' : vbr = f.s2 * Bx + (f.UR.My / f.UR.d * f.UR.By + f.UR.Mz / f.UR.d * f.UR.Bz) := by rw [ok.R.vb]; ring
  have hg := bsig_sq Bx
  have mx : f.UR.Mx = f.UL.Mx := by rw [ok.L.mx, ok.R.mx, hd]
  have eq : Real.sqrt f.UR.d = Real.sqrt f.UL.d := by rw [hd]
  rw [eq] at h3 h4
  have yR : f.UR.d * (f.UR.My / f.UR.d) = f.UR.My := by field_simp
  have zR : f.UR.d * (f.UR.Mz / f.UR.d) = f.UR.Mz := by field_simp
  have yL : f.UL.d * (f.UL.My / f.UL.d) = f.UL.My := by field_simp
  have zL : f.UL.d * (f.UL.Mz / f.UL.d) = f.UL.Mz := by field_simp
  constructor
  · rintro rfl
    rw [one_mul] at hy hz hE
    obtain ⟨a1, a2⟩ := alf_left q hg hy
    obtain ⟨a3, a4⟩ := alf_left q hg hz
    rw [a1, a2, a3, a4, ← vb'] at h3 h4
    rw [h3, h4, yR, zR]
    constructor
    · ext <;> dsimp only
      · rw [hd]
      · rw [mx]
      · rw [← hd, yR]
      · rw [← hd, zR]
      · linarith
      · rw [zr]
    · ext <;> dsimp only
      · ring
      · rw [zr]
  · rintro rfl
    have hy' : Real.sqrt f.UL.d * (f.UR.My / f.UR.d - f.UL.My / f.UL.d) = -(bsig Bx * (f.UR.By - f.UL.By)) := by linarith
    have hz' : Real.sqrt f.UL.d * (f.UR.Mz / f.UR.d - f.UL.Mz / f.UL.d) = -(bsig Bx * (f.UR.Bz - f.UL.Bz)) := by linarith
    obtain ⟨a1, a2⟩ := alf_right q hg hy'
    obtain ⟨a3, a4⟩ := alf_right q hg hz'
    rw [a1, a2, a3, a4, ← vb] at h3 h4
    rw [h3, h4, yL, zL]
    constructor
    · ext <;> dsimp only
      · ring
      · rw [zl]
    · ext <;> dsimp only
      · exact hd
      · exact mx
      · rw [hd, yL]
      · rw [hd, zL]
      · linarith
      · rw [zl]

/-- C65: a discontinuity across which the normal velocity and the total pressure do not change (a contact, tangential or rotational
discontinuity) and which moves with speed `s`, i.e. satisfies the jump conditions, is kept exactly by the adiabatic HLLD solver: the flux is
that of the left state if the discontinuity moves to the right and that of the right state if it moves to the left; the scalars follow the
mass flux.  The normal field must be zero or not small. -/
theorem hlldA_jump (hp : p.Ok) (hi : p.iso = false) (hm : p.mhd = true) (hl : State p Bx Wl Ul) (hr : State p Bx Wr Ur)
    (hv : Wl.Vx = Wr.Vx) (hP : hlldPt p Wl Bx = hlldPt p Wr Bx) (hB : Bx = 0 ∨ smallNumber * hlldPt p Wl Bx ≤ Bx ^ 2 / 2)
    (s : ℝ) (hj : RH s Ul (physFlux p Wl Bx) Ur (physFlux p Wr Bx)) :
    hlldA p Ul Ur Wl Wr Bx = some (scalars Wl Wr (if 0 ≤ s then physFlux p Wl Bx else physFlux p Wr Bx)) := by
  have J := linearJump hp hi hm hl hr hv hP hj
  by_cases hs : Wl.Vx = s
  · subst hs
    have b1 := J.My
    have b2 := J.Mz
    have b3 := J.By
    have b4 := J.Bz
    rw [sub_self, zero_mul] at b1 b2 b3 b4
    refine hlldA_steady hp hi hm hl hr hv hP ?_
    by_cases h0 : Bx = 0
    · exact Or.inl h0
    · refine Or.inr ⟨?_, ?_, ?_, ?_⟩
      · rcases mul_eq_zero.mp b3.symm with h | h
        · exact absurd h h0
        · linarith
      · rcases mul_eq_zero.mp b4.symm with h | h
        · exact absurd h h0
        · linarith
      · rcases mul_eq_zero.mp b1.symm with h | h
        · exact absurd h h0
        · linarith
      · rcases mul_eq_zero.mp b2.symm with h | h
        · exact absurd h h0
        · linarith
  have hw : Wl.Vx - s ≠ 0 := sub_ne_zero.mpr hs
  have hd : Wr.d = Wl.d := by have := (mul_eq_zero.mp J.d).resolve_left hw; linarith
  have hdl := hl.d
  have jM := J.My
  have jN := J.Mz
  have jB := J.By
  have jC := J.Bz
  rw [hd] at jM jN
  by_cases hT : Wl.Vy = Wr.Vy ∧ Wl.Vz = Wr.Vz ∧ Wl.By = Wr.By ∧ Wl.Bz = Wr.Bz
  · obtain ⟨t1, t2, t3, t4⟩ := hT
    rw [hlldA_steady hp hi hm hl hr hv hP (Or.inr ⟨t1, t2, t3, t4⟩)]
    have := J.same hi hm hv hP hs hd t1 t2 t3 t4
    congr 1
    split_ifs
    · rfl
    · exact this
    · exact this.symm
    · rfl
  -- a rotational discontinuity
  have hw2 : (Wl.Vx - s) ^ 2 * Wl.d = Bx ^ 2 := by
    by_contra hne
    apply hT
    have k1 : ((Wl.Vx - s) ^ 2 * Wl.d - Bx ^ 2) * (Wr.Vy - Wl.Vy) = 0 := by linear_combination (Wl.Vx - s) * jM + Bx * jB
    have k2 : ((Wl.Vx - s) ^ 2 * Wl.d - Bx ^ 2) * (Wr.Vz - Wl.Vz) = 0 := by linear_combination (Wl.Vx - s) * jN + Bx * jC
    have k3 : ((Wl.Vx - s) ^ 2 * Wl.d - Bx ^ 2) * (Wr.By - Wl.By) = 0 := by
      linear_combination (Wl.Vx - s) * Wl.d * jB + Bx * jM
    have k4 : ((Wl.Vx - s) ^ 2 * Wl.d - Bx ^ 2) * (Wr.Bz - Wl.Bz) = 0 := by
      linear_combination (Wl.Vx - s) * Wl.d * jC + Bx * jN
    have hne' := sub_ne_zero.mpr hne
    have m1 := (mul_eq_zero.mp k1).resolve_left hne'
    have m2 := (mul_eq_zero.mp k2).resolve_left hne'
    have m3 := (mul_eq_zero.mp k3).resolve_left hne'
    have m4 := (mul_eq_zero.mp k4).resolve_left hne'
    exact ⟨by linarith, by linarith, by linarith, by linarith⟩
  have hB0 : Bx ≠ 0 := by
    rintro rfl
    have : 0 < (Wl.Vx - s) ^ 2 * Wl.d := mul_pos (by positivity) hdl
    rw [hw2] at this; norm_num at this
  have hb := hB.resolve_left hB0
  obtain ⟨s0, s4, f, vbl, vbr, -, ho, ok, -, e⟩ := hlldA_eq hp hi hm hl hr
  obtain ⟨hs2, hpt, eL, eR⟩ := ok.still ho hl hr hv hP
  obtain ⟨l1, l2, l3, l4, l5, -⟩ := hl.vy hp
  obtain ⟨r1, r2, r3, r4, r5, -⟩ := hr.vy hp
  have x1 := ho.hXl
  have x2 := ho.hYr
  have x3 := ho.l2
  have x4 := ho.r2
  have tl : 0 ≤ Wl.bt2 := by unfold Prim1D.bt2; positivity
  have tr : 0 ≤ Wr.bt2 := by unfold Prim1D.bt2; positivity
  rw [e]
  congr 1
  have fl : mhdFlux f.pt Bx f.UL = { physFlux p Wl Bx with s := fun _ => 0 } := by rw [hpt, eL, mhdFlux_phys hp hi hm hl]
  have fr : mhdFlux f.pt Bx f.UR = { physFlux p Wr Bx with s := fun _ => 0 } := by rw [hpt, hP, eR, mhdFlux_phys hp hi hm hr]
  have z0 : s = 0 → scalars Wl Wr (physFlux p Wl Bx) = scalars Wl Wr (physFlux p Wr Bx) := fun h => scalars_congr (h ▸ hj)
  by_cases c0 : 0 ≤ s0
  · have : 0 ≤ s := by
      have h1 : (Wl.Vx - s) ^ 2 ≤ (Wl.Vx - s0) ^ 2 := by
        have : (Wl.Vx - s) ^ 2 * Wl.d ≤ (Wl.Vx - s0) ^ 2 * Wl.d := by rw [hw2]; linarith
        exact le_of_mul_le_mul_right this hdl
      have := abs_le_of_sq_le_sq' h1 x1.le
      linarith [this.2]
    rw [if_pos c0, if_pos this]
    exact (scalars_left (F := physFlux p Wl Bx) (mul_nonneg hl.d.le (by linarith)) fun n => rfl).symm
  rw [if_neg c0]
  by_cases c4 : s4 ≤ 0
  · have hs' : s ≤ 0 := by
      have h1 : (Wl.Vx - s) ^ 2 ≤ (s4 - Wl.Vx) ^ 2 := by
        have : (Wl.Vx - s) ^ 2 * Wl.d ≤ (s4 - Wl.Vx) ^ 2 * Wl.d := by rw [hw2, ← hd, hv]; linarith
        exact le_of_mul_le_mul_right this hdl
      have := abs_le_of_sq_le_sq' h1 (by linarith)
      linarith [this.1]
    have hR : scalars Wl Wr (physFlux p Wr Bx) = physFlux p Wr Bx :=
      scalars_right (F := physFlux p Wr Bx) (mul_neg_of_pos_of_neg hr.d (by linarith)) fun n => rfl
    rw [if_pos c4]
    split_ifs with h
    · rw [z0 (le_antisymm hs' h), hR]
    · exact hR.symm
  rw [if_neg c4]
  -- inside the fan
  have dL : f.UL.d = Wl.d := by rw [eL]; exact l5
  have dR : f.UR.d = Wl.d := by rw [eR]; exact r5.trans hd
  have hσ : 0 < Real.sqrt Wl.d := Real.sqrt_pos.mpr hdl
  have hσ2 : Real.sqrt Wl.d * Real.sqrt Wl.d = Wl.d := Real.mul_self_sqrt hdl.le
  have hA : 0 < |Bx| := abs_pos.mpr hB0
  have hg := bsig_sq Bx
  have hgB := bsig_abs Bx
  have key : ∃ ε : ℝ, (ε = 1 ∨ ε = -1) ∧ (Wl.Vx - s) * Real.sqrt Wl.d = ε * |Bx| := by
    have : ((Wl.Vx - s) * Real.sqrt Wl.d) ^ 2 = |Bx| ^ 2 := by
      rw [sq_abs, mul_pow, sq (Real.sqrt _), hσ2, hw2]
    rcases sq_eq_sq_iff_eq_or_eq_neg.mp this with h | h
    · exact ⟨1, Or.inl rfl, by rw [h, one_mul]⟩
    · exact ⟨-1, Or.inr rfl, by rw [h]; ring⟩
  obtain ⟨ε, hε, hws⟩ := key
  have hεε : ε * ε = 1 := by rcases hε with rfl | rfl <;> norm_num
  have tr1 : ∀ {v b : ℝ}, (Wl.Vx - s) * (Wl.d * v) = Bx * b → Real.sqrt Wl.d * v = ε * (bsig Bx * b) := by
    intro v b h
    have : |Bx| * (Real.sqrt Wl.d * v) = |Bx| * (ε * (bsig Bx * b)) := by
      have h' : ε * |Bx| * (Real.sqrt Wl.d * v) = Bx * b := by
        linear_combination (-(Real.sqrt Wl.d * v)) * hws + (Wl.Vx - s) * v * hσ2 + h
      linear_combination ε * h' - |Bx| * (Real.sqrt Wl.d * v) * hεε - ε * b * hgB
    exact mul_left_cancel₀ hA.ne' this
  have hE : Ur.E - Ul.E = ε * (Real.sqrt Wl.d * bsig Bx * (vbr - vbl)) := by
    have jE := J.E
    have e1 : Ul.E = energy p Wl Bx := by rw [hl.eq hp, hi]; rfl
    have e2 : Ur.E = energy p Wr Bx := by rw [hr.eq hp, hi]; rfl
    have v1 : vbl = f.s2 * Bx + (Wl.Vy * Wl.By + Wl.Vz * Wl.Bz) := by
      rw [ok.L.vb, eL]; show _ + (Ul.My * Ul.By + Ul.Mz * Ul.Bz) / Ul.d = _; rw [← l1, ← l2, ← l3, ← l4]; ring
    have v2 : vbr = f.s2 * Bx + (Wr.Vy * Wr.By + Wr.Vz * Wr.Bz) := by
      rw [ok.R.vb, eR]; show _ + (Ur.My * Ur.By + Ur.Mz * Ur.Bz) / Ur.d = _; rw [← r1, ← r2, ← r3, ← r4]; ring
    have h3 : vbr - vbl = Wr.Vy * Wr.By + Wr.Vz * Wr.Bz - (Wl.Vy * Wl.By + Wl.Vz * Wl.Bz) := by rw [v1, v2]; ring
    rw [e1, e2]
    have : |Bx| * (energy p Wr Bx - energy p Wl Bx) = |Bx| * (ε * (Real.sqrt Wl.d * bsig Bx * (vbr - vbl))) := by
      rw [h3]
      have h' : ε * |Bx| * (energy p Wr Bx - energy p Wl Bx) =
        Real.sqrt Wl.d * (Bx * (Wr.Vy * Wr.By + Wr.Vz * Wr.Bz - (Wl.Vy * Wl.By + Wl.Vz * Wl.Bz))) := by rw [← hws, ← jE]; ring
      linear_combination ε * h' - |Bx| * (energy p Wr Bx - energy p Wl Bx) * hεε -
        ε * Real.sqrt Wl.d * (Wr.Vy * Wr.By + Wr.Vz * Wr.Bz - (Wl.Vy * Wl.By + Wl.Vz * Wl.Bz)) * hgB
    exact mul_left_cancel₀ hA.ne' this
  have rot := ok.rotate hm (by rw [eL]) (by rw [eR]) (by rw [hpt]; exact hb) (by rw [dL, dR]) hεε
    (by rw [eL, eR]; show Real.sqrt Ul.d * (Ur.My / Ur.d - Ul.My / Ul.d) = ε * (bsig Bx * (Ur.By - Ul.By))
        rw [l1, r1, l3, r3, l5]; apply tr1; linarith)
    (by rw [eL, eR]; show Real.sqrt Ul.d * (Ur.Mz / Ur.d - Ul.Mz / Ul.d) = ε * (bsig Bx * (Ur.Bz - Ul.Bz))
        rw [l2, r2, l4, r4, l5]; apply tr1; linarith)
    (by rw [dL, eL, eR]; exact hE)
  have e1 : f.s1 = Wl.Vx - |Bx| / Real.sqrt Wl.d := by rw [ok.e1, hs2, dL]
  have e3 : f.s3 = Wl.Vx + |Bx| / Real.sqrt Wl.d := by rw [ok.e3, hs2, dR]
  have hq : 0 < |Bx| / Real.sqrt Wl.d := div_pos hA hσ
  rcases hε with rfl | rfl
  · obtain ⟨a1, a2⟩ := rot.1 rfl
    have es : s = f.s1 := by
      rw [e1]; have : Wl.Vx - s = |Bx| / Real.sqrt Wl.d := by rw [eq_div_iff hσ.ne', hws, one_mul]
      linarith
    have rh := ok.stillRH hs2 (hs2.trans hv) (by rw [a1, a2]; exact RH.refl _ _ _)
    rw [rh.pick hp hm hl hr]
    unfold HlldFan.here
    rw [a1, a2, ite_self, ite_self, ← es]
    split_ifs
    · rw [fl]; rfl
    · rw [fr]; rfl
  · obtain ⟨a1, a2⟩ := rot.2 rfl
    have es : s = f.s3 := by
      rw [e3]; have : s - Wl.Vx = |Bx| / Real.sqrt Wl.d := by rw [eq_div_iff hσ.ne']; linarith
      linarith
    have rh := ok.stillRH hs2 (hs2.trans hv) (by rw [a1, a2]; exact RH.refl _ _ _)
    rw [rh.pick hp hm hl hr]
    unfold HlldFan.here
    rw [a1, a2]
    by_cases c : 0 < f.s3
    · rw [if_pos c, ite_self, ite_self, if_pos (es ▸ c.le), fl]; rfl
    · have c2 : ¬ 0 ≤ f.s2 := by rw [hs2]; rw [e3] at c; push Not at c ⊢; linarith
      have c1 : ¬ 0 ≤ f.s1 := fun h => c2 (h.trans ok.le1)
      rw [if_neg c1, if_neg c2, if_neg c]
      split_ifs with h
      · rw [z0 (le_antisymm (by rw [es]; push Not at c; exact c) h), fr]; rfl
      · rw [fr]; rfl

end
end Athena.Hydro
