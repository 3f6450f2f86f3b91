import Verif.Hydro.RoeState

/-! # Roe's property of the eigensystem -/

namespace Athena.Hydro
noncomputable section
open Classical
variable {ns : ℕ} {p : Phys} {Bx : ℝ} {Wl Wr W : Prim1D ns} {Ul Ur U : Cons1D ns}

theorem roe_esys (hp : p.Ok) (hl : State p Bx Wl Ul) (hr : State p Bx Wr Ur)
    (fl : AboveFloor p Wl) (fr : AboveFloor p Wr) {r : Roe} (h : roeAvg p Ul Ur Wl Wr Bx = some r)
    {ws : List Wave} (hw : esysRoe p r Bx = some ws) : Esys p ws := by
  obtain ⟨hd, hx, hy⟩ := avg_pos p Bx Ul Ur hl.d hr.d h
  unfold esysRoe at hw
  cases hm : p.mhd <;> cases hi : p.iso <;> simp only [hm, hi, Bool.false_eq_true, if_false, if_true] at hw
  · have hg : 0 < p.gamma1 := by have := hp.gamma hi; unfold Phys.gamma1; linarith
    exact esysAdbHyd_esys p hi hm hg hp.tiny _ _ _ _ (floor_hyd hp hi hm hl hr fl fr h) hw
  · exact esysIsoHyd_esys p hi hm _ _ _ (Real.sqrt_pos.mpr (hp.cs hi)) hw
  · have hg : 0 < p.gamma1 := by have := hp.gamma hi; unfold Phys.gamma1; linarith
    exact esysAdbMhd_esys p _ _ _ _ _ _ _ _ _ _ hd hg (Ypos hp hi hm (hy hm)) hp.tiny (floor_mhd hp hi hm hl hr fl fr h) hw
  · exact esysIsoMhd_esys p hi _ _ _ _ _ _ _ _ _ hd (hy hm) (by have := hp.cs hi; linarith) hw

/-- By how much the coefficients of the magnetic pressure in the momentum equation miss the linearisation: 0 without magnetic fields. -/
def roeMiss (p : Phys) (Wl Wr : Prim1D ns) (r : Roe) : ℝ :=
  if p.mhd then (if p.iso then 1 else -p.gamma2) * (r.y - 1) * (r.b2 * (Wr.By - Wl.By) + r.b3 * (Wr.Bz - Wl.Bz)) else 0

set_option maxHeartbeats 1000000 in
set_option maxRecDepth 4000 in
/-- The matrix with this eigensystem maps the jump of the conserved variables to the jump of the fluxes, except for `roeMiss`. -/
theorem roe_flow (hp : p.Ok) (hl : State p Bx Wl Ul) (hr : State p Bx Wr Ur)
    (fl : AboveFloor p Wl) (fr : AboveFloor p Wr) {r : Roe} (h : roeAvg p Ul Ur Wl Wr Bx = some r)
    {ws : List Wave} (hw : esysRoe p r Bx = some ws) :
    flow ws (Ur.v.sub Ul.v) = ((physFlux p Wr Bx).v.sub (physFlux p Wl Bx).v).add
      ⟨0, roeMiss p Wl Wr r, 0, 0, if p.iso then 0 else r.v1 * roeMiss p Wl Wr r, 0, 0⟩ := by
  obtain ⟨hd, hx, hy⟩ := avg_pos p Bx Ul Ur hl.d hr.d h
  have hwf := State.vWf hp hl hr
  have ha := Real.sqrt_pos.mpr hl.d
  have hb := Real.sqrt_pos.mpr hr.d
  have ea := Real.mul_self_sqrt hl.d.le
  have eb := Real.mul_self_sqrt hr.d.le
  have z1 := hl.wf.2
  have z2 := hr.wf.2
  unfold esysRoe at hw
  unfold roeMiss
  cases hm : p.mhd <;> cases hi : p.iso <;> simp only [hm, hi, Bool.false_eq_true, if_false, if_true] at hw
  · have hg : 0 < p.gamma1 := by have := hp.gamma hi; unfold Phys.gamma1; linarith
    have hg2 : p.gamma - 1 ≠ 0 := by have := hp.gamma hi; linarith
    obtain ⟨y1, y2⟩ := z1 hm
    obtain ⟨y3, y4⟩ := z2 hm
    rw [flowAdbHyd p hm hg hp.tiny _ _ _ _ (floor_hyd hp hi hm hl hr fl fr h) hw _ hwf]
    rw [roeAvg_eq _ _ _ hl.d hr.d] at h
    rw [← Option.some.inj h]
    dsimp only
    rw [hl.eq hp, hr.eq hp]
    simp only [hi, hm, Bool.false_eq_true, if_false, magP, energy, Cons1D.v, V7.sub, V7.add, physFlux, press, Phys.gamma1, y1, y2, y3, y4]
    clear hl hr fl fr h hw hwf z1 z2
    set a := Real.sqrt Wl.d
    set b := Real.sqrt Wr.d
    rw [← ea, ← eb]
    ext <;> dsimp only <;> (try field_simp) <;> ring
  · obtain ⟨y1, y2⟩ := z1 hm
    obtain ⟨y3, y4⟩ := z2 hm
    rw [flowIsoHyd p hi hm _ _ _ (Real.sqrt_pos.mpr (hp.cs hi)) hw _ hwf]
    have ecs : p.cs ^ 2 = p.cs2 := Real.sq_sqrt (hp.cs hi).le
    rw [ecs]
    rw [roeAvg_eq _ _ _ hl.d hr.d] at h
    rw [← Option.some.inj h]
    dsimp only
    rw [hl.eq hp, hr.eq hp]
    simp only [hi, hm, Bool.false_eq_true, if_false, if_true, Cons1D.v, V7.sub, V7.add, physFlux, press, y1, y2, y3, y4]
    clear hl hr fl fr h hw hwf z1 z2
    set a := Real.sqrt Wl.d
    set b := Real.sqrt Wr.d
    rw [← ea, ← eb]
    ext <;> dsimp only <;> (try field_simp) <;> ring
  · have hg : 0 < p.gamma1 := by have := hp.gamma hi; unfold Phys.gamma1; linarith
    have hg2 : p.gamma - 1 ≠ 0 := by have := hp.gamma hi; linarith
    rw [flowAdbMhd p _ _ _ _ _ _ _ _ _ _ hi hm hd hg (Ypos hp hi hm (hy hm)) hp.tiny (floor_mhd hp hi hm hl hr fl fr h) hw]
    rw [roeAvg_eq _ _ _ hl.d hr.d] at h
    rw [← Option.some.inj h]
    dsimp only
    rw [hl.eq hp, hr.eq hp]
    simp only [hi, hm, Bool.false_eq_true, if_false, if_true, magP, energy, Cons1D.v, V7.sub, V7.add, physFlux, press, Phys.gamma1, Phys.gamma2, sqr]
    clear hl hr fl fr h hw hwf z1 z2
    set a := Real.sqrt Wl.d
    set b := Real.sqrt Wr.d
    rw [← ea, ← eb]
    ext <;> dsimp only <;> (try field_simp) <;> ring
  · rw [flowIsoMhd p hi _ _ _ _ _ _ _ _ _ hd (hy hm) (by have := hp.cs hi; linarith) hw _ hwf]
    rw [roeAvg_eq _ _ _ hl.d hr.d] at h
    rw [← Option.some.inj h]
    dsimp only
    rw [hl.eq hp, hr.eq hp]
    simp only [hi, hm, if_true, Cons1D.v, V7.sub, V7.add, physFlux, press, sqr]
    clear hl hr fl fr h hw hwf z1 z2
    set a := Real.sqrt Wl.d
    set b := Real.sqrt Wr.d
    rw [← ea, ← eb]
    ext <;> dsimp only <;> (try field_simp) <;> ring

end
end Athena.Hydro
