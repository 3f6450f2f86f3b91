import Verif.Hydro.RoeMatrix

/-! # Properties of Roe's solver (C34, C35) -/

namespace Athena.Hydro
noncomputable section
open Classical
variable {ns : ℕ} {p : Phys} {Bx eta : ℝ} {Wl Wr W : Prim1D ns} {Ul Ur U : Cons1D ns}

theorem Cons1D.v_eq {F G : Cons1D ns} (h : F.v = G.v) (hs : F.s = G.s) : F = G := by
  obtain ⟨h1, h2, h3, h4, h5, h6, h7⟩ := V7.mk.inj h
  ext n
  · exact h1
  · exact h2
  · exact h3
  · exact h4
  · exact h5
  · exact h6
  · exact h7
  · rw [hs]

/-- The flux with components `F` and no scalars. -/
def V7.flux (ns : ℕ) (F : V7) : Cons1D ns := ⟨F.d, F.mx, F.my, F.mz, F.e, F.b, F.c, fun _ => 0⟩

/-- The branches of Roe's solver for physical states. -/
theorem roe_eq (hp : p.Ok) (hl : State p Bx Wl Ul) (hr : State p Bx Wr Ur) (eta : ℝ) :
    ∃ r ws w0 wn c, roeAvg p Ul Ur Wl Wr Bx = some r ∧ roeC p r Bx = some c ∧ 0 < c ∧ esysRoe p r Bx = some ws ∧ ws.head? = some w0 ∧
      ws.getLast? = some wn ∧ w0.ev = r.v1 - c ∧ wn.ev = r.v1 + c ∧
      roe p eta Ul Ur Wl Wr Bx =
        if w0.ev ≥ 0 then some (physFlux p Wl Bx) else if wn.ev ≤ 0 then some (physFlux p Wr Bx)
        else if interBad p Bx (Ur.v.sub Ul.v) Ul.v ws then hlle p Ul Ur Wl Wr Bx
        else some (scalars Wl Wr (((((physFlux p Wl Bx).v.add (physFlux p Wr Bx).v).smul (1/2)).sub
          (wsum (fun w => 1/2 * max |w.ev| eta * dot w.l (Ur.v.sub Ul.v)) ws)).flux ns)) := by
  obtain ⟨r, hr0⟩ : ∃ r, roeAvg p Ul Ur Wl Wr Bx = some r := ⟨_, roeAvg_eq _ _ _ hl.d hr.d⟩
  obtain ⟨hd, hx, hy⟩ := avg_pos p Bx Ul Ur hl.d hr.d hr0
  obtain ⟨ws, c, h1, h2, h3, h4, h5⟩ := esysRoe_ends hp r Bx hd hx hy
  obtain ⟨w0, e0, h4⟩ := Option.map_eq_some_iff.mp h4
  obtain ⟨wn, en, h5⟩ := Option.map_eq_some_iff.mp h5
  refine ⟨r, ws, w0, wn, c, hr0, h2, h3, h1, e0, en, h4, h5, ?_⟩
  unfold roe
  rw [hr0]
  simp only [Option.bind_eq_bind, Option.bind_some]
  rw [h1]
  simp only [Option.bind_some]
  rw [e0, en]
  simp only [Option.bind_some]
  rw [roeSide_eq hp hl, roeSide_eq hp hr]
  split_ifs
  · rfl
  · rfl
  · rfl
  · simp only [Option.pure_def, subWaves_eq, V7.flux, fmax_eq]

/-! ## Consistency and upwinding -/

theorem interBad_zero (u : V7) (h : ¬ badState p Bx u) (ws : List Wave) : ¬ interBad p Bx V7.zero u ws := by
  induction ws with
  | nil => simp [interBad]
  | cons w ws ih =>
    cases ws with
    | nil => simp [interBad]
    | cons w' ws =>
      simp only [interBad, dot_zero, V7.zero_smul, V7.add_zero]
      rintro (⟨-, h'⟩ | h')
      · exact h h'
      · exact ih h'

theorem physFlux_s (p : Phys) (W : Prim1D ns) (Bx : ℝ) (n : Fin ns) : (physFlux p W Bx).s n = (physFlux p W Bx).d * W.r n := rfl

theorem flux_v (F : Cons1D ns) : F.v.flux ns = { F with s := fun _ => 0 } := rfl

/-- C34: for equal states Roe's flux is the physical flux, for every `eta`. -/
theorem roe_consistent (hp : p.Ok) (h : State p Bx W U) (eta : ℝ) : roe p eta U U W W Bx = some (physFlux p W Bx) := by
  obtain ⟨r, ws, w0, wn, c, -, -, -, -, -, -, -, -, e⟩ := roe_eq hp h h eta
  rw [e]
  split_ifs with h1 h2 h3
  · rfl
  · rfl
  · rw [V7.sub_self] at h3
    exact absurd h3 (interBad_zero _ (good_state hp h) ws)
  · rw [V7.sub_self, wsum_zero (by intro w _; rw [dot_zero]; ring), V7.sub_zero]
    rw [show ((physFlux p W Bx).v.add (physFlux p W Bx).v).smul (1/2) = (physFlux p W Bx).v by
      ext <;> simp only [V7.add, V7.smul] <;> ring, flux_v, scalars_same (physFlux_s p W Bx)]

/-- C34: if all waves of the fan move to the right (left), Roe's flux is the physical flux of the left (right) state. -/
theorem roe_upwind (hp : p.Ok) (hl : State p Bx Wl Ul) (hr : State p Bx Wr Ur) (eta : ℝ) :
    ∃ al ar, speeds p Ul Ur Wl Wr Bx = some (al, ar) ∧
      (0 ≤ al → roe p eta Ul Ur Wl Wr Bx = some (physFlux p Wl Bx)) ∧
      (ar ≤ 0 → roe p eta Ul Ur Wl Wr Bx = some (physFlux p Wr Bx)) := by
  obtain ⟨r, ws, w0, wn, c, h1, h2, hc, -, -, -, e0, en, e⟩ := roe_eq hp hl hr eta
  obtain ⟨r', c', cl, cr, h1', h2', -, -, -, -, -, hs⟩ := speeds_spec hp hl hr
  rw [h1] at h1'; obtain rfl := Option.some.inj h1'
  rw [h2] at h2'; obtain rfl := Option.some.inj h2'
  refine ⟨_, _, hs, fun h => ?_, fun h => ?_⟩
  · have := min_le_left (r.v1 - c) (Wl.Vx - cl)
    rw [e, if_pos (by rw [e0]; linarith)]
  · have := le_max_left (r.v1 + c) (Wr.Vx + cr)
    rw [e, if_neg (by rw [e0]; linarith), if_pos (by rw [en]; linarith)]

/-! ## The linearised Riemann problem -/

/-- The averages linearise the fluxes exactly: always without magnetic fields, in MHD only if the densities or the transverse fields
agree or γ = 2. -/
def RoeExact (p : Phys) (Wl Wr : Prim1D ns) : Prop :=
  p.mhd = false ∨ Wl.d = Wr.d ∨ (Wl.By = Wr.By ∧ Wl.Bz = Wr.Bz) ∨ (p.iso = false ∧ p.gamma = 2)

theorem roeMiss_zero (hl : State p Bx Wl Ul) (hr : State p Bx Wr Ur) (h : RoeExact p Wl Wr) {r : Roe}
    (h1 : roeAvg p Ul Ur Wl Wr Bx = some r) : roeMiss p Wl Wr r = 0 := by
  unfold roeMiss
  cases hm : p.mhd
  · simp
  rw [if_pos rfl]
  rcases h with h | h | ⟨h, h'⟩ | ⟨h, h'⟩
  · simp [h] at hm
  · rw [roeAvg_eq _ _ _ hl.d hr.d] at h1
    rw [← Option.some.inj h1]
    simp only [hm, if_true, h]
    rw [Real.mul_self_sqrt hr.d.le]
    have := hr.d.ne'
    rw [show 1/2 * (Wr.d + Wr.d) / Wr.d = 1 by field_simp; ring]
    ring
  · rw [h, h']; ring
  · rw [h]; unfold Phys.gamma2; rw [h']; simp

/-- C34: the linearisation behind Roe's flux.  There are waves with speeds in ascending order and a dual basis of right and left
eigenvectors, whose matrix maps the jump of the conserved variables to the jump of the fluxes; the solver's extreme speeds are their
first and last speed. -/
theorem roe_matrix (hp : p.Ok) (hl : State p Bx Wl Ul) (hr : State p Bx Wr Ur) (fl : AboveFloor p Wl) (fr : AboveFloor p Wr)
    (hx : RoeExact p Wl Wr) :
    ∃ r ws, roeAvg p Ul Ur Wl Wr Bx = some r ∧ esysRoe p r Bx = some ws ∧ Esys p ws ∧
      wsum (fun w => w.ev * dot w.l (Ur.v.sub Ul.v)) ws = (physFlux p Wr Bx).v.sub (physFlux p Wl Bx).v := by
  obtain ⟨r, ws, w0, wn, c, h1, h2, hc, h3, -⟩ := roe_eq hp hl hr 0
  refine ⟨r, ws, h1, h3, roe_esys hp hl hr fl fr h1 h3, ?_⟩
  have := roe_flow hp hl hr fl fr h1 h3
  rw [roeMiss_zero hl hr hx h1] at this
  unfold flow at this
  rw [this]
  ext <;> simp [V7.add]

theorem abs_split (x : ℝ) : 1/2 * x - 1/2 * |x| = if x < 0 then x else 0 := by
  split_ifs with h
  · rw [abs_of_neg h]; ring
  · rw [abs_of_nonneg (not_lt.mp h)]; ring

/-- The central flux with upwinding of every wave. -/
theorem upwind_form {ws : List Wave} {dU Fl Fr : V7} (h : flow ws dU = Fr.sub Fl) :
    ((Fl.add Fr).smul (1/2)).sub (wsum (fun w => 1/2 * max |w.ev| 0 * dot w.l dU) ws) =
      Fl.add (wsum (fun w => if w.ev < 0 then w.ev * dot w.l dU else 0) ws) := by
  have e : wsum (fun w => if w.ev < 0 then w.ev * dot w.l dU else 0) ws =
      ((flow ws dU).smul (1/2)).add ((wsum (fun w => 1/2 * max |w.ev| 0 * dot w.l dU) ws).smul (-1)) := by
    unfold flow
    rw [wsum_smul, wsum_smul, wsum_add]
    congr 1; funext w
    rw [max_eq_left (abs_nonneg _)]
    have := abs_split w.ev
    split_ifs at this ⊢ with hw
    · linear_combination (-dot w.l dU) * this
    · linear_combination (-dot w.l dU) * this
  rw [e, h]
  ext <;> simp only [V7.add, V7.smul, V7.sub] <;> ring

theorem roe_waves_bad (hp : p.Ok) (hl : State p Bx Wl Ul) (hr : State p Bx Wr Ur) (fl : AboveFloor p Wl) (fr : AboveFloor p Wr)
    (hx : RoeExact p Wl Wr) :
    ∃ r ws w0 wn, roeAvg p Ul Ur Wl Wr Bx = some r ∧ esysRoe p r Bx = some ws ∧ Esys p ws ∧ ws.head? = some w0 ∧ ws.getLast? = some wn ∧
      let bad := w0.ev < 0 ∧ 0 < wn.ev ∧ ∃ c, w0.ev ≤ c ∧ c < wn.ev ∧ badState p Bx (fan Ul.v (Ur.v.sub Ul.v) ws c)
      (bad → roe p 0 Ul Ur Wl Wr Bx = hlle p Ul Ur Wl Wr Bx) ∧
      (¬ bad → ∃ F, roe p 0 Ul Ur Wl Wr Bx = some F ∧ F.v = (physFlux p Wl Bx).v.add
        (wsum (fun w => if w.ev < 0 then w.ev * dot w.l (Ur.v.sub Ul.v) else 0) ws)) := by
  obtain ⟨r, ws, w0, wn, c, h1, h2, hc, h3, h4, h5, e0, en, e⟩ := roe_eq hp hl hr 0
  have hes := roe_esys hp hl hr fl fr h1 h3
  have hfl := roe_flow hp hl hr fl fr h1 h3
  rw [roeMiss_zero hl hr hx h1] at hfl
  have hfl : flow ws (Ur.v.sub Ul.v) = (physFlux p Wr Bx).v.sub (physFlux p Wl Bx).v := by
    rw [hfl]; ext <;> simp [V7.add]
  have hlast : ∀ w ∈ ws, w.ev ≤ wn.ev := by
    intro w hw
    obtain ⟨init, hi⟩ : ∃ init, ws = init ++ [wn] := ⟨ws.dropLast, (List.dropLast_append_getLast? _ h5).symm⟩
    have hs := hes.sorted
    rw [hi] at hs hw
    rcases List.mem_append.mp hw with hw | hw
    · exact (List.pairwise_append.mp hs).2.2 w hw wn (by simp)
    · rw [List.mem_singleton.mp hw]
  have hfirst : ∀ w ∈ ws, w0.ev ≤ w.ev := by
    intro w hw
    obtain ⟨t, ht⟩ : ∃ t, ws = w0 :: t := by
      cases ws with
      | nil => simp at h4
      | cons a t => exact ⟨t, by simp at h4; rw [h4]⟩
    have hs := hes.sorted
    rw [ht] at hs hw
    rcases List.mem_cons.mp hw with rfl | hw
    · exact le_rfl
    · exact (List.pairwise_cons.mp hs).1 w hw
  refine ⟨r, ws, w0, wn, h1, h3, hes, h4, h5, ?_, ?_⟩
  · rintro ⟨b1, b2, b3⟩
    rw [e, if_neg (by linarith), if_neg (by linarith), if_pos ((interBad_iff p Bx _ ws hes.sorted _ w0 wn h4 h5).mpr b3)]
  · intro hb
    rw [e]
    by_cases c1 : w0.ev ≥ 0
    · rw [if_pos c1]
      refine ⟨_, rfl, ?_⟩
      rw [wsum_zero, V7.add_zero]
      intro w hw
      have := hfirst w hw
      exact if_neg (by linarith)
    · rw [if_neg c1]
      by_cases c2 : wn.ev ≤ 0
      · rw [if_pos c2]
        refine ⟨_, rfl, ?_⟩
        rw [wsum_congr (g := fun w => w.ev * dot w.l (Ur.v.sub Ul.v))]
        · have := hfl
          unfold flow at this
          rw [this, V7.add_sub]
        · intro w hw
          have := hlast w hw
          split_ifs with h
          · rfl
          · rw [show w.ev = 0 by linarith]; ring
      · rw [if_neg c2, if_neg]
        · refine ⟨_, rfl, ?_⟩
          rw [← upwind_form hfl]
          rfl
        · intro hi
          exact hb ⟨by linarith, by linarith, (interBad_iff p Bx _ ws hes.sorted _ w0 wn h4 h5).mp hi⟩

/-! ## A single discontinuity -/

/-- C34: Roe's flux (`eta = 0`) is that of the linearised Riemann problem on the interface: the flux of the left state plus the waves
that move to the left; or, if the fan straddles the interface and one of its states between the first and the last wave has no positive
density or negative pressure, the HLLE flux. -/
theorem roe_waves (hp : p.Ok) (hl : State p Bx Wl Ul) (hr : State p Bx Wr Ur) (fl : AboveFloor p Wl) (fr : AboveFloor p Wr)
    (hx : RoeExact p Wl Wr) :
    ∃ r ws w0 wn, roeAvg p Ul Ur Wl Wr Bx = some r ∧ esysRoe p r Bx = some ws ∧ Esys p ws ∧ ws.head? = some w0 ∧ ws.getLast? = some wn ∧
      let bad := w0.ev < 0 ∧ 0 < wn.ev ∧ ∃ c, w0.ev ≤ c ∧ c < wn.ev ∧ ¬ Admissible p Bx (fan Ul.v (Ur.v.sub Ul.v) ws c)
      (bad → roe p 0 Ul Ur Wl Wr Bx = hlle p Ul Ur Wl Wr Bx) ∧
      (¬ bad → ∃ F, roe p 0 Ul Ur Wl Wr Bx = some F ∧ F.v = (physFlux p Wl Bx).v.add
        (wsum (fun w => if w.ev < 0 then w.ev * dot w.l (Ur.v.sub Ul.v) else 0) ws)) := by
  have := roe_waves_bad hp hl hr fl fr hx
  simp only [badState_iff hp] at this
  exact this

theorem V7.add_left_cancel {u v w : V7} (h : u.add v = u.add w) : v = w := by
  obtain ⟨h1, h2, h3, h4, h5, h6, h7⟩ := V7.mk.inj h
  ext <;> linarith

theorem V7.eq_of_sub_zero {u v : V7} (h : u.sub v = V7.zero) : u = v := by
  obtain ⟨h1, h2, h3, h4, h5, h6, h7⟩ := V7.mk.inj h
  ext <;> linarith

/-- C34: a single discontinuity that moves with speed `s` (the jump conditions hold between the two states, scalars included) is kept
exactly by Roe's solver (`eta = 0`): the flux is that of the left state if the discontinuity moves to the right and that of the right
state if it moves to the left. -/
theorem roe_jump (hp : p.Ok) (hl : State p Bx Wl Ul) (hr : State p Bx Wr Ur) (fl : AboveFloor p Wl) (fr : AboveFloor p Wr)
    (hx : RoeExact p Wl Wr) (s : ℝ)
    (hj : (physFlux p Wr Bx).v.sub (physFlux p Wl Bx).v = (Ur.v.sub Ul.v).smul s)
    (hjs : ∀ n, (physFlux p Wr Bx).s n - (physFlux p Wl Bx).s n = s * (Ur.s n - Ul.s n)) :
    roe p 0 Ul Ur Wl Wr Bx = some (if 0 ≤ s then physFlux p Wl Bx else physFlux p Wr Bx) := by
  obtain ⟨r, ws, w0, wn, h1, h3, hes, h4, h5, hbad, hgood⟩ := roe_waves hp hl hr fl fr hx
  obtain ⟨r', ws', w0', wn', c, h1', h2', hc, h3', h4', h5', e0, en, e⟩ := roe_eq hp hl hr 0
  rw [h1] at h1'; obtain rfl := Option.some.inj h1'
  rw [h3] at h3'; obtain rfl := Option.some.inj h3'
  rw [h4] at h4'; obtain rfl := Option.some.inj h4'
  rw [h5] at h5'; obtain rfl := Option.some.inj h5'
  have hwf := State.vWf hp hl hr
  have hfl := roe_flow hp hl hr fl fr h1 h3
  rw [roeMiss_zero hl hr hx h1] at hfl
  have hfl : flow ws (Ur.v.sub Ul.v) = (physFlux p Wr Bx).v.sub (physFlux p Wl Bx).v := by
    rw [hfl]; ext <;> simp [V7.add]
  -- only waves with speed s carry a jump
  have ha : ∀ w ∈ ws, w.ev = s ∨ dot w.l (Ur.v.sub Ul.v) = 0 := by
    intro w hw
    have k1 : dot w.l (flow ws (Ur.v.sub Ul.v)) = w.ev * dot w.l (Ur.v.sub Ul.v) := hes.coeff _ w hw
    rw [hfl, hj, dot_smul] at k1
    have : (w.ev - s) * dot w.l (Ur.v.sub Ul.v) = 0 := by linear_combination -k1
    rcases mul_eq_zero.mp this with h | h
    · left; linarith
    · right; exact h
  have hfan : ∀ c, fan Ul.v (Ur.v.sub Ul.v) ws c = if s ≤ c then Ur.v else Ul.v := by
    intro c
    unfold fan
    split_ifs with hsc
    · rw [wsum_congr (g := fun w => dot w.l (Ur.v.sub Ul.v)), hes.complete _ hwf, V7.add_sub]
      intro w hw
      rcases ha w hw with h | h
      · rw [if_pos (by rw [h]; exact hsc)]
      · rw [h, ite_self]
    · rw [wsum_zero, V7.add_zero]
      intro w hw
      rcases ha w hw with h | h
      · rw [if_neg (by rw [h]; exact hsc)]
      · rw [h, ite_self]
  -- the mass flux through the discontinuity
  have hjd : Wr.d * Wr.Vx - Wl.d * Wl.Vx = s * (Wr.d - Wl.d) := by
    have := congrArg V7.d hj
    rw [hl.eq hp, hr.eq hp] at this
    simpa [V7.sub, V7.smul, Cons1D.v, physFlux] using this
  have hsc : Wl.Vx ≠ s ∨ Wr.Vx ≠ s → ∀ n, Wl.r n = Wr.r n := by
    intro hv n
    have h0 := hjs n
    rw [hl.eq hp, hr.eq hp] at h0
    simp only [physFlux] at h0
    have k : (Wl.d * (Wl.Vx - s)) * (Wl.r n - Wr.r n) = 0 := by linear_combination (-1) * h0 + Wr.r n * hjd
    have k2 : Wl.d * (Wl.Vx - s) = Wr.d * (Wr.Vx - s) := by linear_combination -hjd
    rcases mul_eq_zero.mp k with h | h
    · exfalso
      have v1 : Wl.Vx = s := by
        rcases mul_eq_zero.mp h with h | h
        · exact absurd h hl.d.ne'
        · linarith
      have v2 : Wr.Vx = s := by
        rw [h] at k2
        rcases mul_eq_zero.mp k2.symm with h | h
        · exact absurd h hr.d.ne'
        · linarith
      rcases hv with hv | hv
      · exact hv v1
      · exact hv v2
    · linarith
  have hv1 : ∀ v, Wl.Vx = v → Wr.Vx = v → r.v1 = v := by
    intro v e1 e2
    have h1 := h1
    rw [roeAvg_eq _ _ _ hl.d hr.d] at h1
    rw [← Option.some.inj h1]
    have := Real.sqrt_pos.mpr hl.d
    have := Real.sqrt_pos.mpr hr.d
    show _ / _ = _
    rw [e1, e2]; field_simp
  have hall : (∀ w ∈ ws, dot w.l (Ur.v.sub Ul.v) = 0) → (physFlux p Wr Bx).v = (physFlux p Wl Bx).v := by
    intro h
    apply V7.eq_of_sub_zero
    rw [← hfl]
    exact wsum_zero (fun w hw => by rw [h w hw, mul_zero])
  have hphys : (∀ n, Wl.r n = Wr.r n) → (physFlux p Wr Bx).v = (physFlux p Wl Bx).v → physFlux p Wr Bx = physFlux p Wl Bx := by
    intro hr' hv
    refine Cons1D.v_eq hv ?_
    funext n
    rw [physFlux_s, physFlux_s, hr' n]
    rw [show (physFlux p Wr Bx).d = (physFlux p Wl Bx).d from congrArg V7.d hv]
  have hnb : ¬ interBad p Bx (Ur.v.sub Ul.v) Ul.v ws := by
    rw [interBad_iff p Bx _ ws hes.sorted _ w0 wn h4 h5]
    rintro ⟨c, -, -, hb⟩
    rw [hfan] at hb
    split_ifs at hb
    · exact good_state hp hr hb
    · exact good_state hp hl hb
  rw [e]
  by_cases c1 : w0.ev ≥ 0
  · rw [if_pos c1]
    congr 1
    by_cases hs : 0 ≤ s
    · rw [if_pos hs]
    · rw [if_neg hs]
      have h0 : ∀ w ∈ ws, dot w.l (Ur.v.sub Ul.v) = 0 := by
        intro w hw
        rcases ha w hw with h | h
        · exfalso
          obtain ⟨t, ht⟩ : ∃ t, ws = w0 :: t := by
            cases ws with
            | nil => simp at h4
            | cons a t => exact ⟨t, by simp at h4; rw [h4]⟩
          have hso := hes.sorted
          rw [ht] at hso hw
          have : w0.ev ≤ w.ev := by
            rcases List.mem_cons.mp hw with rfl | hw
            · exact le_rfl
            · exact (List.pairwise_cons.mp hso).1 w hw
          linarith
        · exact h
      refine (hphys (hsc ?_) (hall h0)).symm
      by_contra hcon
      push Not at hcon
      have := hv1 s hcon.1 hcon.2
      linarith
  · rw [if_neg c1]
    by_cases c2 : wn.ev ≤ 0
    · rw [if_pos c2]
      congr 1
      by_cases hs : 0 ≤ s
      · rw [if_pos hs]
        rcases hs.lt_or_eq with hs | hs
        · have h0 : ∀ w ∈ ws, dot w.l (Ur.v.sub Ul.v) = 0 := by
            intro w hw
            rcases ha w hw with h | h
            · exfalso
              obtain ⟨init, hi⟩ : ∃ init, ws = init ++ [wn] := ⟨ws.dropLast, (List.dropLast_append_getLast? _ h5).symm⟩
              have hso := hes.sorted
              rw [hi] at hso hw
              have : w.ev ≤ wn.ev := by
                rcases List.mem_append.mp hw with hw | hw
                · exact (List.pairwise_append.mp hso).2.2 w hw wn (by simp)
                · rw [List.mem_singleton.mp hw]
              linarith
            · exact h
          refine hphys (hsc ?_) (hall h0)
          by_contra hcon
          push Not at hcon
          have := hv1 s hcon.1 hcon.2
          linarith
        · have hz : (physFlux p Wr Bx).v = (physFlux p Wl Bx).v := by
            apply V7.eq_of_sub_zero
            rw [hj, ← hs]
            simp
          refine Cons1D.v_eq hz ?_
          funext n
          have := hjs n
          rw [← hs] at this
          linarith
      · rw [if_neg hs]
    · rw [if_neg c2, if_neg hnb, upwind_form hfl]
      congr 1
      by_cases hs : 0 ≤ s
      · rw [if_pos hs, wsum_zero, V7.add_zero]
        · rw [flux_v]
          rcases le_or_gt 0 (physFlux p Wl Bx).d with hd | hd
          · exact scalars_left hd (physFlux_s p Wl Bx)
          · refine scalars_right hd (fun n => ?_)
            rw [physFlux_s, hsc]
            left
            intro hv
            have : 0 ≤ (physFlux p Wl Bx).d := mul_nonneg hl.d.le (by rw [hv]; exact hs)
            linarith
        · intro w hw
          split_ifs with h
          · rcases ha w hw with h' | h'
            · linarith
            · rw [h', mul_zero]
          · rfl
      · rw [if_neg hs]
        rw [wsum_congr (g := fun w => w.ev * dot w.l (Ur.v.sub Ul.v))]
        · have := hfl
          unfold flow at this
          rw [this, V7.add_sub, flux_v]
          rcases le_or_gt 0 (physFlux p Wr Bx).d with hd | hd
          · refine scalars_left hd (fun n => ?_)
            rw [physFlux_s, hsc]
            right
            intro hv
            have : (physFlux p Wr Bx).d < 0 := mul_neg_of_pos_of_neg hr.d (by rw [hv]; linarith)
            linarith
          · exact scalars_right hd (physFlux_s p Wr Bx)
        · intro w hw
          split_ifs with h
          · rfl
          · rcases ha w hw with h' | h'
            · linarith
            · rw [h', mul_zero]

end
end Athena.Hydro
