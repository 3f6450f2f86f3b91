import Verif.Hydro.RoeFlow

/-! # Roe's solver on physical states: the averages linearise the flux exactly -/

namespace Athena.Hydro
noncomputable section
open Classical
variable {ns : ℕ} {p : Phys} {Bx : ℝ} {Wl Wr W : Prim1D ns} {Ul Ur U : Cons1D ns}

/-- The floor `TINY_NUMBER` on the sound speed of the averages (esystem_roe.c:140, :436) is below the sound speed of the state. -/
def AboveFloor (p : Phys) (W : Prim1D ns) : Prop :=
  p.iso = false → p.tiny ≤ p.gamma * W.P / W.d ∧ p.tiny ≤ p.gamma * W.P / ((p.gamma - 1) * W.d)

theorem roeSide_eq (hp : p.Ok) (h : State p Bx W U) : roeSide p U W Bx = physFlux p W Bx := by
  obtain ⟨-, h2⟩ := h.wf
  rw [h.eq hp]
  have e1 : p.mhd = false → W.By = 0 := fun h => (h2 h).1
  have e2 : p.mhd = false → W.Bz = 0 := fun h => (h2 h).2
  cases hi : p.iso <;> cases hm : p.mhd <;> simp only [hm, forall_const, reduceCtorEq, false_implies] at e1 e2 <;>
    simp only [roeSide, physFlux, press, energy, magP, sqr, hi, hm, Bool.false_eq_true, if_true, if_false, Cons1D.mk.injEq] <;>
    refine ⟨?_, ?_, ?_, ?_, ?_, ?_, ?_, ?_⟩ <;> (try funext n) <;> (try rw [e1]) <;> (try rw [e2]) <;> first | trivial | ring1

/-- `u` holds the conserved variables of a gas with positive density and without negative pressure. -/
def Admissible (p : Phys) (Bx : ℝ) (u : V7) : Prop :=
  ∃ W : Prim1D 0, 0 < W.d ∧ u.d = W.d ∧ u.mx = W.d * W.Vx ∧ u.my = W.d * W.Vy ∧ u.mz = W.d * W.Vz ∧ u.b = W.By ∧ u.c = W.Bz ∧
    (p.iso = false → 0 ≤ W.P ∧ u.e = energy p W Bx)

/-- The test made by the solver on the intermediate states rejects exactly the inadmissible ones. -/
theorem badState_iff (hp : p.Ok) (u : V7) : badState p Bx u ↔ ¬ Admissible p Bx u := by
  rw [iff_not_comm]
  constructor
  · rintro ⟨W, hd, e1, e2, e3, e4, e5, e6, he⟩ (h | ⟨hi, h⟩)
    · linarith
    · obtain ⟨hP, e7⟩ := he hi
      have hg := hp.gamma hi
      have : 0 ≤ W.P / (p.gamma - 1) := div_nonneg hP (by linarith)
      rw [e1, e2, e3, e4, e5, e6, e7] at h
      have e : 1/2 * (sqr (W.d * W.Vx) + sqr (W.d * W.Vy) + sqr (W.d * W.Vz)) / W.d = W.d * (W.Vx ^ 2 + W.Vy ^ 2 + W.Vz ^ 2) / 2 := by
        unfold sqr; field_simp
      rw [e] at h
      unfold energy sqr at h
      cases hm : p.mhd <;> simp only [hm, Bool.false_eq_true, if_false, if_true] at h <;> linarith
  · intro h
    unfold badState at h
    push Not at h
    obtain ⟨hd, h⟩ := h
    refine ⟨⟨u.d, u.mx / u.d, u.my / u.d, u.mz / u.d, (p.gamma - 1) * (u.e - 1/2 * (sqr u.mx + sqr u.my + sqr u.mz) / u.d
      - (if p.mhd then 1/2 * (sqr u.b + sqr u.c + sqr Bx) else 0)), u.b, u.c, fun i => i.elim0⟩, hd, rfl, ?_, ?_, ?_, rfl, rfl, fun hi => ⟨?_, ?_⟩⟩
    · field_simp
    · field_simp
    · field_simp
    · have hg := hp.gamma hi
      exact mul_nonneg (by linarith) (h hi)
    · have hg := hp.gamma hi
      have hg' : p.gamma - 1 ≠ 0 := by linarith
      unfold energy sqr
      cases hm : p.mhd <;> simp only [hm, Bool.false_eq_true, if_false, if_true] <;> field_simp <;> ring

theorem good_state (hp : p.Ok) (h : State p Bx W U) : ¬ badState p Bx U.v := by
  have hd := h.d
  rw [h.eq hp]
  rintro (h1 | ⟨hi, h1⟩)
  · simp only [Cons1D.v] at h1; linarith
  · have hP := h.P hi
    have hg := hp.gamma hi
    have hm := h.wf.2
    have : 0 < W.P / (p.gamma - 1) := div_pos hP (by linarith)
    simp only [Cons1D.v, hi, Bool.false_eq_true, if_false, energy, sqr] at h1
    have e : 1/2 * (W.d * W.Vx * (W.d * W.Vx) + W.d * W.Vy * (W.d * W.Vy) + W.d * W.Vz * (W.d * W.Vz)) / W.d =
        W.d * (W.Vx ^ 2 + W.Vy ^ 2 + W.Vz ^ 2) / 2 := by field_simp
    rw [e] at h1
    cases hm : p.mhd <;> simp only [hm, Bool.false_eq_true, if_false, if_true] at h1 <;> nlinarith

theorem State.vWf (hp : p.Ok) (hl : State p Bx Wl Ul) (hr : State p Bx Wr Ur) : (Ur.v.sub Ul.v).Wf p := by
  obtain ⟨h1, h2⟩ := hl.zeros hp
  obtain ⟨h3, h4⟩ := hr.zeros hp
  refine ⟨fun h => ?_, fun h => ⟨?_, ?_⟩⟩
  · simp [V7.sub, Cons1D.v, h1 h, h3 h]
  · simp [V7.sub, Cons1D.v, (h2 h).1, (h4 h).1]
  · simp [V7.sub, Cons1D.v, (h2 h).2, (h4 h).2]

/-- The averages of physical states. -/
theorem avg_pos (p : Phys) (Bx : ℝ) (Ul Ur : Cons1D ns) (hl : 0 < Wl.d) (hr : 0 < Wr.d) {r : Roe} (h : roeAvg p Ul Ur Wl Wr Bx = some r) :
    0 < r.d ∧ 0 ≤ r.x ∧ (p.mhd = true → 0 < r.y) := by
  have ha := Real.sqrt_pos.mpr hl
  have hb := Real.sqrt_pos.mpr hr
  rw [roeAvg_eq _ _ _ hl hr] at h
  rw [← Option.some.inj h]
  refine ⟨mul_pos ha hb, ?_, ?_⟩
  · show 0 ≤ if p.mhd = true then _ else (0:ℝ)
    split_ifs
    · unfold sqr
      exact div_nonneg (mul_nonneg (by norm_num) (add_nonneg (mul_self_nonneg _) (mul_self_nonneg _))) (mul_self_nonneg _)
    · exact le_rfl
  · intro hm
    show 0 < if p.mhd = true then _ else (0:ℝ)
    rw [if_pos hm]
    positivity

theorem Ypos (hp : p.Ok) (hi : p.iso = false) (hm : p.mhd = true) {y : ℝ} (hy : 0 < y) : 0 < p.gamma1 - p.gamma2 * y := by
  have := hp.gamma hi
  have := hp.gamma2 hi hm
  unfold Phys.gamma1 Phys.gamma2
  nlinarith

/-- The eigensystem exists; its extreme speeds are those of the linearised fan. -/
theorem esysRoe_ends (hp : p.Ok) (r : Roe) (Bx : ℝ) (hd : 0 < r.d) (hx : 0 ≤ r.x) (hy : p.mhd = true → 0 < r.y) :
    ∃ ws c, esysRoe p r Bx = some ws ∧ roeC p r Bx = some c ∧ 0 < c ∧
      ws.head?.map Wave.ev = some (r.v1 - c) ∧ ws.getLast?.map Wave.ev = some (r.v1 + c) := by
  obtain ⟨c, hc, hc0⟩ := roeC_pos hp r Bx hd hx hy
  cases hm : p.mhd
  · cases hi : p.iso
    · have hg : 0 < p.gamma1 := by have := hp.gamma hi; unfold Phys.gamma1; linarith
      obtain ⟨ws, h1, h2, h3⟩ := esysAdbHyd_eq p hg hp.tiny r.v1 r.v2 r.v3 r.h
      refine ⟨ws, c, ?_, hc, hc0, ?_, ?_⟩
      · simp [esysRoe, hm, hi, h1]
      all_goals
        simp only [roeC, hm, hi, Bool.false_eq_true, if_false] at hc
        rw [fsqrt_some hc]
        assumption
    · have hcs : 0 < p.cs := Real.sqrt_pos.mpr (hp.cs hi)
      obtain ⟨ws, h1, h2, h3⟩ := esysIsoHyd_eq p r.v1 r.v2 r.v3 hcs
      refine ⟨ws, c, ?_, hc, hc0, ?_, ?_⟩
      · simp [esysRoe, hm, hi, h1]
      all_goals
        simp only [roeC, hm, hi, Bool.false_eq_true, if_false, if_true, Option.pure_def, Option.some.injEq] at hc
        rw [← hc]
        assumption
  · cases hi : p.iso
    · have hg : 0 < p.gamma1 := by have := hp.gamma hi; unfold Phys.gamma1; linarith
      have hT : 0 < fmax (p.gamma1 * (r.h - (Bx * Bx * (1 / r.d) + (r.b2 * r.b2 + r.b3 * r.b3) * (1 / r.d)) -
          1/2 * (r.v1 * r.v1 + r.v2 * r.v2 + r.v3 * r.v3)) - p.gamma2 * r.x) p.tiny := by
        rw [fmax_eq]; exact lt_of_lt_of_le hp.tiny (le_max_right _ _)
      obtain ⟨m, bt, yy, h1, h2, h3⟩ := mhdPar_spec r.d Bx r.b2 r.b3 _ _ hd (Ypos hp hi hm (hy hm)) hT
      obtain ⟨ws, h4, h5, h6⟩ := esysAdbMhd_some p r.d r.v1 r.v2 r.v3 r.h Bx r.b2 r.b3 r.x r.y hd hg h1 h2.sd.ne'
      have : c = m.cf := by
        simp only [roeC, hm, hi, Bool.false_eq_true, if_false, if_true, fdiv_pos hd, Option.bind_eq_bind, Option.bind_some] at hc
        rw [fsqrt_nonneg] at hc
        · simp only [Option.bind_some] at hc
          rw [mul_comm (p.gamma1 - p.gamma2 * r.y)] at hc
          rw [h3] at hc
          exact (Option.some.inj hc).symm
        · refine add_nonneg (mul_self_nonneg _) ?_
          have := Ypos hp hi hm (hy hm)
          have h0 : 0 ≤ r.b2 * r.b2 + r.b3 * r.b3 := add_nonneg (mul_self_nonneg _) (mul_self_nonneg _)
          have h1 := hT.le
          positivity
      refine ⟨ws, c, ?_, hc, hc0, ?_, ?_⟩
      · simp [esysRoe, hm, hi, h4]
      · rw [this]; exact h5
      · rw [this]; exact h6
    · have hT : 0 < p.cs2 + r.x := by have := hp.cs hi; linarith
      obtain ⟨m, bt, yy, h1, h2, h3⟩ := mhdPar_spec r.d Bx r.b2 r.b3 r.y _ hd (hy hm) hT
      obtain ⟨ws, h4, h5, h6⟩ := esysIsoMhd_some p r.d r.v1 r.v2 r.v3 Bx r.b2 r.b3 r.x r.y h1 h2.sd.ne'
      have : c = m.cf := by
        simp only [roeC, hm, hi, if_true, fdiv_pos hd, Option.bind_eq_bind, Option.bind_some] at hc
        rw [fsqrt_nonneg] at hc
        · simp only [Option.bind_some] at hc
          rw [h3] at hc
          exact (Option.some.inj hc).symm
        · refine add_nonneg (mul_self_nonneg _) ?_
          have := hy hm
          have h0 : 0 ≤ r.b2 * r.b2 + r.b3 * r.b3 := add_nonneg (mul_self_nonneg _) (mul_self_nonneg _)
          positivity
      refine ⟨ws, c, ?_, hc, hc0, ?_, ?_⟩
      · simp [esysRoe, hm, hi, h4]
      · rw [this]; exact h5
      · rw [this]; exact h6

/-- The floor on the averaged sound speed is not reached (hydrodynamics). -/
theorem floor_hyd (hp : p.Ok) (hi : p.iso = false) (hm : p.mhd = false) (hl : State p Bx Wl Ul) (hr : State p Bx Wr Ur)
    (fl : AboveFloor p Wl) (fr : AboveFloor p Wr) {r : Roe} (h : roeAvg p Ul Ur Wl Wr Bx = some r) :
    p.tiny ≤ r.h - 1/2 * (r.v1 * r.v1 + r.v2 * r.v2 + r.v3 * r.v3) := by
  have ha := Real.sqrt_pos.mpr hl.d
  have hb := Real.sqrt_pos.mpr hr.d
  have ea := Real.mul_self_sqrt hl.d.le
  have eb := Real.mul_self_sqrt hr.d.le
  have h3 := (fl hi).2
  have h4 := (fr hi).2
  have hg := hp.gamma hi
  rw [roeAvg_eq _ _ _ hl.d hr.d] at h
  rw [← Option.some.inj h]
  dsimp only
  rw [hl.eq hp, hr.eq hp]
  simp only [hi, Bool.false_eq_true, if_false, magP, hm, energy]
  set a := Real.sqrt Wl.d
  set b := Real.sqrt Wr.d
  rw [← ea] at h3 ⊢
  rw [← eb] at h4 ⊢
  have hg2 : p.gamma - 1 ≠ 0 := by linarith
  have e : ((Wl.P / (p.gamma - 1) + a * a * (Wl.Vx ^ 2 + Wl.Vy ^ 2 + Wl.Vz ^ 2) / 2 + 0 + Wl.P + 0) / a +
        (Wr.P / (p.gamma - 1) + b * b * (Wr.Vx ^ 2 + Wr.Vy ^ 2 + Wr.Vz ^ 2) / 2 + 0 + Wr.P + 0) / b) / (a + b) -
      1/2 * ((a * Wl.Vx + b * Wr.Vx) / (a + b) * ((a * Wl.Vx + b * Wr.Vx) / (a + b)) +
        (a * Wl.Vy + b * Wr.Vy) / (a + b) * ((a * Wl.Vy + b * Wr.Vy) / (a + b)) +
        (a * Wl.Vz + b * Wr.Vz) / (a + b) * ((a * Wl.Vz + b * Wr.Vz) / (a + b))) =
      (a * (p.gamma * Wl.P / ((p.gamma - 1) * (a * a))) + b * (p.gamma * Wr.P / ((p.gamma - 1) * (b * b)))) / (a + b) +
        1/2 * (a * b * ((Wl.Vx - Wr.Vx) ^ 2 + (Wl.Vy - Wr.Vy) ^ 2 + (Wl.Vz - Wr.Vz) ^ 2) / (a + b) ^ 2) := by
    field_simp; ring
  rw [e]
  have h5 : p.tiny ≤ (a * (p.gamma * Wl.P / ((p.gamma - 1) * (a * a))) + b * (p.gamma * Wr.P / ((p.gamma - 1) * (b * b)))) / (a + b) := by
    rw [le_div_iff₀ (by positivity)]; nlinarith
  have h6 : 0 ≤ 1/2 * (a * b * ((Wl.Vx - Wr.Vx) ^ 2 + (Wl.Vy - Wr.Vy) ^ 2 + (Wl.Vz - Wr.Vz) ^ 2) / (a + b) ^ 2) := by positivity
  linarith

/-- The floor on the averaged sound speed is not reached (MHD). -/
theorem floor_mhd (hp : p.Ok) (hi : p.iso = false) (hm : p.mhd = true) (hl : State p Bx Wl Ul) (hr : State p Bx Wr Ur)
    (fl : AboveFloor p Wl) (fr : AboveFloor p Wr) {r : Roe} (h : roeAvg p Ul Ur Wl Wr Bx = some r) :
    p.tiny ≤ p.gamma1 * (r.h - (Bx * Bx * (1 / r.d) + (r.b2 * r.b2 + r.b3 * r.b3) * (1 / r.d)) -
      1/2 * (r.v1 * r.v1 + r.v2 * r.v2 + r.v3 * r.v3)) - p.gamma2 * r.x := by
  have ha := Real.sqrt_pos.mpr hl.d
  have hb := Real.sqrt_pos.mpr hr.d
  have ea := Real.mul_self_sqrt hl.d.le
  have eb := Real.mul_self_sqrt hr.d.le
  have h3 := (fl hi).1
  have h4 := (fr hi).1
  have hg := hp.gamma hi
  rw [roeAvg_eq _ _ _ hl.d hr.d] at h
  rw [← Option.some.inj h]
  dsimp only
  rw [hl.eq hp, hr.eq hp]
  simp only [hi, Bool.false_eq_true, if_false, if_true, magP, hm, energy, sqr]
  set a := Real.sqrt Wl.d
  set b := Real.sqrt Wr.d
  rw [← ea] at h3 ⊢
  rw [← eb] at h4 ⊢
  unfold Phys.gamma1 Phys.gamma2
  have hg2 : p.gamma - 1 ≠ 0 := by linarith
  have h5 : p.tiny ≤ (a * (p.gamma * Wl.P / (a * a)) + b * (p.gamma * Wr.P / (b * b))) / (a + b) := by
    rw [le_div_iff₀ (by positivity)]; nlinarith
  have h6 : 0 ≤ (p.gamma - 1) / 2 * (a * b * ((Wl.Vx - Wr.Vx) ^ 2 + (Wl.Vy - Wr.Vy) ^ 2 + (Wl.Vz - Wr.Vz) ^ 2) / (a + b) ^ 2) :=
    mul_nonneg (by linarith) (by positivity)
  have h7 : 0 ≤ p.gamma * (1/2 * ((Wl.By - Wr.By) ^ 2 + (Wl.Bz - Wr.Bz) ^ 2) / (a + b) ^ 2) :=
    mul_nonneg (by linarith) (by positivity)
  refine le_trans (le_trans h5 (le_add_of_nonneg_right (add_nonneg h6 h7))) (le_of_eq ?_)
  field_simp
  ring

end
end Athena.Hydro
