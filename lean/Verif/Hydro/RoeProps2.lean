import Verif.Hydro.RoeProps

/-! # Roe's solver: mirror symmetry (C35), and what fails (C34) -/

namespace Athena.Hydro
noncomputable section
open Classical
variable {ns : ℕ} {p : Phys} {Bx eta : ℝ} {Wl Wr W : Prim1D ns} {Ul Ur U : Cons1D ns}

/-! ## Functions of the matrix do not depend on the eigenvectors -/

/-- Reflection in x. -/
def V7.mir (u : V7) : V7 := { u with mx := -u.mx }

theorem V7.mir_mir (u : V7) : u.mir.mir = u := by simp [V7.mir]
theorem V7.mir_wf {u : V7} (h : u.Wf p) : u.mir.Wf p := h
theorem V7.mir_add (u v : V7) : (u.add v).mir = u.mir.add v.mir := by ext <;> simp only [V7.mir, V7.add]; ring
theorem V7.mir_smul (u : V7) (k : ℝ) : (u.smul k).mir = u.mir.smul k := by ext <;> simp only [V7.mir, V7.smul]; ring

theorem V7.sub_of_add {x a b : V7} (h : x = a.add b) : a = x.sub b := by rw [h]; ext <;> simp only [V7.add, V7.sub] <;> ring

theorem wsum_wf {ws : List Wave} (h : ∀ w ∈ ws, w.r.Wf p) (f : Wave → ℝ) : (wsum f ws).Wf p := by
  induction ws with
  | nil => exact ⟨fun _ => rfl, fun _ => ⟨rfl, rfl⟩⟩
  | cons w ws ih =>
    have h1 := h w (by simp)
    have h2 := ih (fun x hx => h x (by simp [hx]))
    refine ⟨fun hi => ?_, fun hm => ⟨?_, ?_⟩⟩
    · simp [wsum, V7.add, V7.smul, h1.1 hi, h2.1 hi]
    · simp [wsum, V7.add, V7.smul, (h1.2 hm).1, (h2.2 hm).1]
    · simp [wsum, V7.add, V7.smul, (h1.2 hm).2, (h2.2 hm).2]

theorem dot_mir_wsum (l : V7) (f : Wave → ℝ) (ws : List Wave) :
    dot l (wsum f ws).mir = (ws.map (fun w => f w * dot l w.r.mir)).sum := by
  induction ws with
  | nil => simp [wsum, V7.mir, V7.zero, dot]
  | cons w ws ih =>
    simp only [wsum, V7.mir_add, V7.mir_smul, dot_add, dot_smul, ih, List.map_cons, List.sum_cons]

theorem dual_ne (ws : List Wave) (h : ws.Pairwise (fun w w' => dot w.l w'.r = 0 ∧ dot w'.l w.r = 0)) :
    ∀ x ∈ ws, ∀ w ∈ ws, x ≠ w → dot x.l w.r = 0 := by
  induction ws with
  | nil => simp
  | cons a t ih =>
    rw [List.pairwise_cons] at h
    intro x hx w hw hne
    rcases List.mem_cons.mp hx with e | hx'
    · rcases List.mem_cons.mp hw with e' | hw'
      · exact absurd (e.trans e'.symm) hne
      · rw [e]; exact (h.1 w hw').1
    · rcases List.mem_cons.mp hw with e' | hw'
      · rw [e']; exact (h.1 x hx').2
      · exact ih h.2 x hx' w hw' hne

/-- If the matrix of `ws'` is the mirrored negative of that of `ws`, the same holds for functions of them. -/
theorem mirror_fun {ws ws' : List Wave} (h : Esys p ws) (h' : Esys p ws') (hwf : ∀ w ∈ ws, w.r.Wf p)
    (hA : ∀ u : V7, u.Wf p → flow ws' u.mir = (flow ws u).mir.smul (-1)) (f : ℝ → ℝ) (u : V7) (hu : u.Wf p) :
    wsum (fun w => f w.ev * dot w.l u.mir) ws' = (wsum (fun w => f (-w.ev) * dot w.l u) ws).mir := by
  -- a left eigenvector of the second and a right eigenvector of the first only meet at opposite speeds
  have hm : ∀ w' ∈ ws', ∀ w ∈ ws, f w'.ev * dot w'.l w.r.mir = f (-w.ev) * dot w'.l w.r.mir := by
    intro w' hw' w hw
    have k1 : dot w'.l (flow ws' w.r.mir) = w'.ev * dot w'.l w.r.mir := h'.coeff _ w' hw'
    have k2 : flow ws w.r = w.r.smul w.ev := by
      have e : flow ws w.r = wsum (fun x => w.ev * dot x.l w.r) ws := by
        unfold flow
        apply wsum_congr
        intro x hx
        by_cases hxw : x = w
        · rw [hxw]
        · have : dot x.l w.r = 0 := by
            exact dual_ne ws h.dual x hx w hw hxw
          rw [this]; ring
      rw [e, ← wsum_smul, h.complete _ (hwf w hw)]
    rw [hA _ (hwf w hw), k2, V7.mir_smul, dot_smul, dot_smul] at k1
    have : (w'.ev + w.ev) * dot w'.l w.r.mir = 0 := by linear_combination -k1
    rcases mul_eq_zero.mp this with k | k
    · rw [show w'.ev = -w.ev by linarith]
    · rw [k]; ring
  rw [← h'.complete (wsum (fun w => f (-w.ev) * dot w.l u) ws).mir (V7.mir_wf (wsum_wf hwf _))]
  apply wsum_congr
  intro w' hw'
  conv_lhs => rw [← h.complete u hu]
  rw [dot_mir_wsum, dot_mir_wsum, ← List.sum_map_mul_left]
  congr 1
  apply List.map_congr_left
  intro w hw
  have := hm w' hw' w hw
  linear_combination (dot w.l u) * this

theorem esysRoe_wf {r : Roe} {ws : List Wave} (h : esysRoe p r Bx = some ws) : ∀ w ∈ ws, w.r.Wf p := by
  unfold esysRoe at h
  cases hm : p.mhd <;> cases hi : p.iso <;> simp only [hm, hi, Bool.false_eq_true, if_false, if_true] at h
  · unfold esysAdbHyd at h
    simp only [Option.bind_eq_bind, Option.bind_eq_some_iff, Option.pure_def, Option.some.injEq] at h
    obtain ⟨a, -, b, -, c, -, rfl⟩ := h
    intro w hw
    simp only [List.mem_cons, List.not_mem_nil, or_false] at hw
    rcases hw with rfl | rfl | rfl | rfl | rfl <;> exact ⟨fun h => by simp [hi] at h, fun _ => ⟨rfl, rfl⟩⟩
  · unfold esysIsoHyd at h
    simp only [Option.bind_eq_bind, Option.bind_eq_some_iff, Option.pure_def, Option.some.injEq] at h
    obtain ⟨a, -, b, -, rfl⟩ := h
    intro w hw
    simp only [List.mem_cons, List.not_mem_nil, or_false] at hw
    rcases hw with rfl | rfl | rfl | rfl <;> exact ⟨fun _ => rfl, fun _ => ⟨rfl, rfl⟩⟩
  · exact fun w _ => ⟨fun h => by simp [hi] at h, fun h => by simp [hm] at h⟩
  · unfold esysIsoMhd at h
    simp only [Option.bind_eq_bind, Option.bind_eq_some_iff, Option.pure_def, Option.some.injEq] at h
    obtain ⟨m, -, b, -, rfl⟩ := h
    intro w hw
    simp only [List.mem_cons, List.not_mem_nil, or_false] at hw
    rcases hw with rfl | rfl | rfl | rfl | rfl | rfl <;> exact ⟨fun _ => rfl, fun h => by simp [hm] at h⟩

theorem roeAvg_mirror (hl : State p Bx Wl Ul) (hr : State p Bx Wr Ur) {r : Roe} (h : roeAvg p Ul Ur Wl Wr Bx = some r) :
    roeAvg p Ur.mirror Ul.mirror Wr.mirror Wl.mirror (-Bx) = some { r with v1 := -r.v1 } := by
  rw [roeAvg_eq _ _ _ hl.d hr.d] at h
  rw [roeAvg_eq _ _ _ (by exact hr.d) (by exact hl.d), ← Option.some.inj h]
  simp only [Prim1D.mirror, Cons1D.mirror, magP, sqr, Option.some.injEq, Roe.mk.injEq]
  refine ⟨by ring, by ring, by ring, by ring, ?_, ?_, ?_, ?_, ?_⟩
  · split_ifs <;> first | rfl | ring
  · split_ifs <;> first | rfl | ring
  · split_ifs <;> first | rfl | ring
  · split_ifs <;> first | rfl | (congr 1 <;> ring)
  · split_ifs <;> first | rfl | (congr 1 <;> ring)

theorem roe_flow_mirror (hp : p.Ok) (hl : State p Bx Wl Ul) (hr : State p Bx Wr Ur) (fl : AboveFloor p Wl) (fr : AboveFloor p Wr)
    {r : Roe} (h : roeAvg p Ul Ur Wl Wr Bx = some r) {ws ws' : List Wave} (hw : esysRoe p r Bx = some ws)
    (hw' : esysRoe p { r with v1 := -r.v1 } (-Bx) = some ws') (u : V7) (hu : u.Wf p) :
    flow ws' u.mir = (flow ws u).mir.smul (-1) := by
  obtain ⟨hd, hx, hy⟩ := avg_pos p Bx Ul Ur hl.d hr.d h
  have h' := roeAvg_mirror hl hr h
  unfold esysRoe at hw hw'
  cases hm : p.mhd <;> cases hi : p.iso <;> simp only [hm, hi, Bool.false_eq_true, if_false, if_true] at hw hw'
  · have hg : 0 < p.gamma1 := by have := hp.gamma hi; unfold Phys.gamma1; linarith
    rw [flowAdbHyd p hm hg hp.tiny _ _ _ _ (floor_hyd hp hi hm hl hr fl fr h) hw _ hu,
      flowAdbHyd p hm hg hp.tiny _ _ _ _ (floor_hyd hp hi hm hr.mirror hl.mirror fr fl h') hw' _ (V7.mir_wf hu)]
    ext <;> simp only [V7.mir, V7.smul] <;> ring
  · rw [flowIsoHyd p hi hm _ _ _ (Real.sqrt_pos.mpr (hp.cs hi)) hw _ hu,
      flowIsoHyd p hi hm _ _ _ (Real.sqrt_pos.mpr (hp.cs hi)) hw' _ (V7.mir_wf hu)]
    ext <;> simp only [V7.mir, V7.smul] <;> ring
  · have hg : 0 < p.gamma1 := by have := hp.gamma hi; unfold Phys.gamma1; linarith
    have f2 := floor_mhd hp hi hm hr.mirror hl.mirror fr fl h'
    dsimp only at f2
    rw [flowAdbMhd p _ _ _ _ _ _ _ _ _ _ hi hm hd hg (Ypos hp hi hm (hy hm)) hp.tiny (floor_mhd hp hi hm hl hr fl fr h) hw,
      flowAdbMhd p _ _ _ _ _ _ _ _ _ _ hi hm hd hg (Ypos hp hi hm (hy hm)) hp.tiny f2 hw']
    ext <;> simp only [V7.mir, V7.smul] <;> ring
  · rw [flowIsoMhd p hi _ _ _ _ _ _ _ _ _ hd (hy hm) (by have := hp.cs hi; linarith) hw _ hu,
      flowIsoMhd p hi _ _ _ _ _ _ _ _ _ hd (hy hm) (by have := hp.cs hi; linarith) hw' _ (V7.mir_wf hu)]
    ext <;> simp only [V7.mir, V7.smul] <;> ring

/-! ## The fan of the mirrored problem -/

theorem badState_mir (u : V7) : badState p (-Bx) u.mir ↔ badState p Bx u := by
  unfold badState V7.mir sqr
  simp

/-- Between `x` and `y` there is a bound of the members of a list below `y`. -/
theorem last_before (ws : List Wave) {x y : ℝ} (h : x < y) : ∃ c, x ≤ c ∧ c < y ∧ ∀ w ∈ ws, w.ev < y ↔ w.ev ≤ c := by
  induction ws with
  | nil => exact ⟨x, le_rfl, h, by simp⟩
  | cons w ws ih =>
    obtain ⟨c, h1, h2, h3⟩ := ih
    by_cases hw : w.ev < y
    · refine ⟨max c w.ev, le_trans h1 (le_max_left _ _), max_lt h2 hw, fun a ha => ⟨fun h4 => ?_, fun h4 => lt_of_le_of_lt h4 (max_lt h2 hw)⟩⟩
      rcases List.mem_cons.mp ha with rfl | ha
      · exact le_max_right _ _
      · exact le_trans ((h3 a ha).mp h4) (le_max_left _ _)
    · refine ⟨c, h1, h2, fun a ha => ⟨fun h4 => ?_, fun h4 => lt_of_le_of_lt h4 h2⟩⟩
      rcases List.mem_cons.mp ha with rfl | ha
      · exact absurd h4 hw
      · exact (h3 a ha).mp h4

theorem first_after (ws : List Wave) {x y : ℝ} (h : x < y) : ∃ c, x < c ∧ c ≤ y ∧ ∀ w ∈ ws, w.ev ≤ x ↔ w.ev < c := by
  induction ws with
  | nil => exact ⟨y, h, le_rfl, by simp⟩
  | cons w ws ih =>
    obtain ⟨c, h1, h2, h3⟩ := ih
    by_cases hw : x < w.ev
    · refine ⟨min c w.ev, lt_min h1 hw, le_trans (min_le_left _ _) h2, fun a ha => ⟨fun h4 => lt_of_le_of_lt h4 (lt_min h1 hw), fun h4 => ?_⟩⟩
      rcases List.mem_cons.mp ha with rfl | ha
      · exact absurd (lt_of_lt_of_le h4 (min_le_right _ _)) (lt_irrefl _)
      · exact (h3 a ha).mpr (lt_of_lt_of_le h4 (min_le_left _ _))
    · refine ⟨c, h1, h2, fun a ha => ⟨fun h4 => lt_of_le_of_lt h4 h1, fun h4 => ?_⟩⟩
      rcases List.mem_cons.mp ha with rfl | ha
      · exact not_lt.mp hw
      · exact (h3 a ha).mpr h4

theorem mirror_v (U : Cons1D ns) : U.mirror.v = U.v.mir := rfl

theorem mirror_flux_v (F : Cons1D ns) : F.mirrorFlux.v = F.v.mir.smul (-1) := by
  ext <;> simp [Cons1D.mirrorFlux, Cons1D.v, V7.mir, V7.smul]

/-- The fan of the mirrored problem is the mirrored fan. -/
theorem fan_mirror {ws ws' : List Wave} (h : Esys p ws) (h' : Esys p ws') (hwf : ∀ w ∈ ws, w.r.Wf p)
    (hA : ∀ u : V7, u.Wf p → flow ws' u.mir = (flow ws u).mir.smul (-1)) (ul ur : V7) (hu : (ur.sub ul).Wf p) (c : ℝ) :
    fan ur.mir (ul.mir.sub ur.mir) ws' c = (ul.add (wsum (fun w => if w.ev < -c then dot w.l (ur.sub ul) else 0) ws)).mir := by
  have e1 : ul.mir.sub ur.mir = (ur.sub ul).mir.smul (-1) := by ext <;> simp only [V7.mir, V7.sub, V7.smul] <;> ring
  have e2 : wsum (fun w => if w.ev ≤ c then dot w.l (ul.mir.sub ur.mir) else 0) ws' =
      (wsum (fun w => (if w.ev ≤ c then 1 else 0) * dot w.l (ur.sub ul).mir) ws').smul (-1) := by
    rw [wsum_smul, e1]
    congr 1; funext w
    rw [dot_smul]; split_ifs <;> ring
  have e3 := mirror_fun h h' hwf hA (fun e => if e ≤ c then 1 else 0) _ hu
  unfold fan
  rw [e2, e3]
  have e4 : wsum (fun w => (if -w.ev ≤ c then 1 else 0) * dot w.l (ur.sub ul)) ws =
      (ur.sub ul).sub (wsum (fun w => if w.ev < -c then dot w.l (ur.sub ul) else 0) ws) := by
    have e5 := h.complete _ hu
    have e6 : wsum (fun w => dot w.l (ur.sub ul)) ws = (wsum (fun w => (if -w.ev ≤ c then 1 else 0) * dot w.l (ur.sub ul)) ws).add
        (wsum (fun w => if w.ev < -c then dot w.l (ur.sub ul) else 0) ws) := by
      rw [wsum_add]
      congr 1; funext w
      by_cases hw : w.ev < -c
      · rw [if_pos hw, if_neg (by linarith)]; ring
      · rw [if_neg hw, if_pos (by linarith)]; ring
    rw [e5] at e6
    exact V7.sub_of_add e6
  rw [e4]
  ext <;> simp only [V7.add, V7.sub, V7.mir, V7.smul] <;> ring

/-- C35: Roe's flux is mirror symmetric, for every `eta`. -/
theorem roe_mirror (hp : p.Ok) (hl : State p Bx Wl Ul) (hr : State p Bx Wr Ur) (fl : AboveFloor p Wl) (fr : AboveFloor p Wr) (eta : ℝ) :
    ∃ F, roe p eta Ul Ur Wl Wr Bx = some F ∧
      roe p eta Ur.mirror Ul.mirror Wr.mirror Wl.mirror (-Bx) = some F.mirrorFlux := by
  obtain ⟨r, ws, w0, wn, c, h1, h2, hc, h3, h4, h5, e0, en, e⟩ := roe_eq hp hl hr eta
  obtain ⟨r', ws', w0', wn', c', h1', h2', hc', h3', h4', h5', e0', en', e'⟩ := roe_eq hp hr.mirror hl.mirror eta
  have hes := roe_esys hp hl hr fl fr h1 h3
  have hes' := roe_esys hp hr.mirror hl.mirror fr fl h1' h3'
  rw [roeAvg_mirror hl hr h1] at h1'
  obtain rfl := Option.some.inj h1'
  have hA := roe_flow_mirror hp hl hr fl fr h1 h3 h3'
  have hwf := esysRoe_wf h3
  have hcc : c' = c := by
    have : roeC p { r with v1 := -r.v1 } (-Bx) = roeC p r Bx := by simp [roeC]
    rw [this, h2] at h2'; exact (Option.some.inj h2').symm
  subst hcc
  have hvwf := State.vWf hp hl hr
  have k0 : w0'.ev = -wn.ev := by rw [e0', en]; ring
  have kn : wn'.ev = -w0.ev := by rw [en', e0]; ring
  have hib : interBad p (-Bx) (Ul.mirror.v.sub Ur.mirror.v) Ur.mirror.v ws' ↔ interBad p Bx (Ur.v.sub Ul.v) Ul.v ws := by
    rw [interBad_iff p _ _ ws' hes'.sorted _ w0' wn' h4' h5', interBad_iff p _ _ ws hes.sorted _ w0 wn h4 h5]
    rw [k0, kn]
    simp only [mirror_v]
    constructor
    · rintro ⟨t, t1, t2, t3⟩
      rw [fan_mirror hes hes' hwf hA Ul.v Ur.v hvwf, badState_mir] at t3
      obtain ⟨q, q1, q2, q3⟩ := last_before ws (x := w0.ev) (y := -t) (by linarith)
      refine ⟨q, q1, by linarith, ?_⟩
      unfold fan
      rw [wsum_congr (g := fun w => if w.ev < -t then dot w.l (Ur.v.sub Ul.v) else 0)]
      · exact t3
      · intro w hw
        by_cases hx : w.ev < -t
        · rw [if_pos hx, if_pos ((q3 w hw).mp hx)]
        · rw [if_neg hx, if_neg (fun h => hx ((q3 w hw).mpr h))]
    · rintro ⟨t, t1, t2, t3⟩
      obtain ⟨q, q1, q2, q3⟩ := first_after ws (x := t) (y := wn.ev) t2
      refine ⟨-q, by linarith, by linarith, ?_⟩
      rw [fan_mirror hes hes' hwf hA Ul.v Ur.v hvwf, badState_mir, neg_neg]
      unfold fan at t3
      rw [wsum_congr (g := fun w => if w.ev < q then dot w.l (Ur.v.sub Ul.v) else 0)] at t3
      · exact t3
      · intro w hw
        by_cases hx : w.ev ≤ t
        · rw [if_pos hx, if_pos ((q3 w hw).mp hx)]
        · rw [if_neg hx, if_neg (fun h => hx ((q3 w hw).mpr h))]
  rw [e, e', k0, kn]
  by_cases c1 : w0.ev ≥ 0
  · refine ⟨_, if_pos c1, ?_⟩
    rw [if_neg (by linarith), if_pos (by linarith), physFlux_mirror]
  rw [if_neg c1]
  by_cases c2 : wn.ev ≤ 0
  · refine ⟨_, if_pos c2, ?_⟩
    rw [if_pos (by linarith), physFlux_mirror]
  have c1' : ¬ (-wn.ev ≥ 0) := by linarith
  have c2' : ¬ (-w0.ev ≤ 0) := by linarith
  rw [if_neg c2, if_neg c1', if_neg c2']
  by_cases c3 : interBad p Bx (Ur.v.sub Ul.v) Ul.v ws
  · rw [if_pos c3, if_pos (hib.mpr c3)]
    exact hlle_mirror hp hl hr
  rw [if_neg c3, if_neg (fun h => c3 (hib.mp h))]
  refine ⟨_, rfl, ?_⟩
  congr 1
  rw [← scalars_mirror]
  congr 1
  have k1 : wsum (fun w => 1/2 * max |w.ev| eta * dot w.l (Ul.mirror.v.sub Ur.mirror.v)) ws' =
      ((wsum (fun w => 1/2 * max |w.ev| eta * dot w.l (Ur.v.sub Ul.v)) ws).mir).smul (-1) := by
    have m := mirror_fun hes hes' hwf hA (fun e => 1/2 * max |e| eta) _ hvwf
    simp only [abs_neg] at m
    rw [← m, wsum_smul]
    have e1 : Ul.mirror.v.sub Ur.mirror.v = (Ur.v.sub Ul.v).mir.smul (-1) := by
      ext <;> simp only [mirror_v, V7.mir, V7.sub, V7.smul] <;> ring
    rw [e1]
    congr 1; funext w
    rw [dot_smul]; ring
  rw [k1, physFlux_mirror, physFlux_mirror, mirror_flux_v, mirror_flux_v]
  refine Cons1D.v_eq ?_ ?_
  · ext <;> simp only [V7.flux, Cons1D.v, Cons1D.mirrorFlux, V7.mir, V7.smul, V7.add, V7.sub] <;> ring
  · funext n; simp [V7.flux, Cons1D.mirrorFlux]

/-! ## Scalars -/

theorem hlle_scalars (hp : p.Ok) (hl : State p Bx Wl Ul) (hr : State p Bx Wr Ur) {F : Cons1D ns} (h : hlle p Ul Ur Wl Wr Bx = some F)
    (n : Fin ns) : F.s n = F.d * if F.d ≥ 0 then Wl.r n else Wr.r n := by
  obtain ⟨al, ar, F', -, hF, -, -, -, -, -, -, -, -, e⟩ := hlle_formula hp hl hr
  rw [hF] at h
  obtain rfl := Option.some.inj h
  exact e n

/-- C34: the scalars move with the mass flux from the upwind side, unless all waves of the linearised fan move to one side while the gas on the
other side moves the opposite way.  Missing: that case, see `roe_scalars_false`. -/
theorem roe_scalars_partial (hp : p.Ok) (hl : State p Bx Wl Ul) (hr : State p Bx Wr Ur) (eta : ℝ) {r : Roe} {c : ℝ}
    (h1 : roeAvg p Ul Ur Wl Wr Bx = some r) (h2 : roeC p r Bx = some c)
    (hL : 0 ≤ r.v1 - c → 0 ≤ Wl.Vx) (hR : r.v1 + c ≤ 0 → Wr.Vx ≤ 0) :
    ∃ F, roe p eta Ul Ur Wl Wr Bx = some F ∧ ∀ n, F.s n = F.d * if F.d ≥ 0 then Wl.r n else Wr.r n := by
  obtain ⟨r', ws, w0, wn, c', h1', h2', hc, h3, h4, h5, e0, en, e⟩ := roe_eq hp hl hr eta
  rw [h1] at h1'; obtain rfl := Option.some.inj h1'
  rw [h2] at h2'; obtain rfl := Option.some.inj h2'
  rw [e]
  by_cases c1 : w0.ev ≥ 0
  · refine ⟨_, if_pos c1, fun n => ?_⟩
    have := hL (by linarith)
    rw [if_pos (by exact mul_nonneg hl.d.le this)]
    rfl
  rw [if_neg c1]
  by_cases c2 : wn.ev ≤ 0
  · refine ⟨_, if_pos c2, fun n => ?_⟩
    rcases (hR (by linarith)).lt_or_eq with h | h
    · rw [if_neg (by exact not_le.mpr (mul_neg_of_pos_of_neg hr.d h))]
      rfl
    · simp [physFlux, h]
  rw [if_neg c2]
  by_cases c3 : interBad p Bx (Ur.v.sub Ul.v) Ul.v ws
  · rw [if_pos c3]
    obtain ⟨al, ar, F, -, hF, -⟩ := hlle_formula hp hl hr
    exact ⟨F, hF, hlle_scalars hp hl hr hF⟩
  · rw [if_neg c3]
    exact ⟨_, rfl, fun n => scalars_s _ n⟩

/-- Isothermal hydrodynamics with sound speed 1. -/
def phR : Phys := ⟨true, false, 0, 1, 1/100⟩
theorem phR_ok : phR.Ok := ⟨by norm_num [phR], by simp [phR], by simp [phR], by norm_num [phR]⟩

/-- C34 fails for the scalars of Roe's solver: light gas that moves slowly to the left beside dense gas that moves fast to the right.  All
waves of the linearised fan move right, so the flux is that of the left state: mass moves to the left through the interface (out of the
right cell), but carries the scalar of the left cell. -/
theorem roe_scalars_false : ∃ (p : Phys) (Wl Wr : Prim1D 1) (Ul Ur F : Cons1D 1), p.Ok ∧ State p 0 Wl Ul ∧ State p 0 Wr Ur ∧
    roe p 0 Ul Ur Wl Wr 0 = some F ∧ F.d < 0 ∧ Wr.r 0 = 0 ∧ F.s 0 ≠ F.d * Wr.r 0 := by
  let wl : Prim1D 1 := ⟨1, -1, 0, 0, 0, 0, 0, fun _ => 1⟩
  let wr : Prim1D 1 := ⟨4, 10, 0, 0, 0, 0, 0, fun _ => 0⟩
  obtain ⟨Ul, hl⟩ := state_of phR phR_ok 0 wl (by simp [Prim1D.Wf, phR, wl]) (by norm_num [wl]) (by simp [phR])
  obtain ⟨Ur, hr⟩ := state_of phR phR_ok 0 wr (by simp [Prim1D.Wf, phR, wr]) (by norm_num [wr]) (by simp [phR])
  obtain ⟨r, ws, w0, wn, c, h1, h2, hc, h3, h4, h5, e0, en, e⟩ := roe_eq phR_ok hl hr 0
  refine ⟨phR, wl, wr, Ul, Ur, physFlux phR wl 0, phR_ok, hl, hr, ?_, ?_, rfl, ?_⟩
  · rw [e, if_pos]
    rw [e0]
    rw [roeAvg_eq _ _ _ hl.d hr.d] at h1
    have hv : r.v1 = (Real.sqrt 1 * (-1) + Real.sqrt 4 * 10) / (Real.sqrt 1 + Real.sqrt 4) := by
      rw [← Option.some.inj h1]
    have hcc : c = Real.sqrt 1 := by
      simp [roeC, phR, Phys.cs] at h2
      simp [h2.symm]
    rw [hv, hcc, Real.sqrt_one, show (4:ℝ) = 2 ^ 2 by norm_num, Real.sqrt_sq (by norm_num)]
    norm_num
  · norm_num [physFlux, wl]
  · norm_num [physFlux, wl, wr]

/-! ## Tangential discontinuities -/

/-- Isothermal MHD, sound speed squared 1/6. -/
def phT : Phys := ⟨true, true, 0, 1/6, 1/100⟩
theorem phT_ok : phT.Ok := ⟨by norm_num [phT], by simp [phT], by simp [phT], by norm_num [phT]⟩
/-- Gas at rest with a transverse field, -/
def wTl : Prim1D 0 := ⟨1, 0, 0, 0, 0, 1, 0, fun _ => 0⟩
/-- in pressure balance with denser gas without field. -/
def wTr : Prim1D 0 := ⟨4, 0, 0, 0, 0, 0, 0, fun _ => 0⟩

/-- C34 is false for Roe's solver in MHD: there are two states at rest in pressure balance (a tangential discontinuity: equal fluxes,
mass flux zero) between which the solver moves mass.  The factor `y` of the averages (roe.c:119) should be 1 for the matrix to map the
jump of the state to the jump of the flux, see `roe_flow`. -/
theorem roe_jump_false : ∃ (p : Phys) (Wl Wr : Prim1D 0) (Ul Ur F : Cons1D 0), p.Ok ∧ State p 0 Wl Ul ∧ State p 0 Wr Ur ∧
    AboveFloor p Wl ∧ AboveFloor p Wr ∧ physFlux p Wl 0 = physFlux p Wr 0 ∧ (physFlux p Wl 0).d = 0 ∧
    roe p 0 Ul Ur Wl Wr 0 = some F ∧ F.d ≠ 0 := by
  obtain ⟨Ul, hl⟩ := state_of phT phT_ok 0 wTl (by simp [Prim1D.Wf, phT, wTl]) (by norm_num [wTl]) (by simp [phT])
  obtain ⟨Ur, hr⟩ := state_of phT phT_ok 0 wTr (by simp [Prim1D.Wf, phT, wTr]) (by norm_num [wTr]) (by simp [phT])
  have fl : AboveFloor phT wTl := fun h => by simp [phT] at h
  have fr : AboveFloor phT wTr := fun h => by simp [phT] at h
  obtain ⟨r, ws, w0, wn, c, h1, h2, hc, h3, h4, h5, e0, en, e⟩ := roe_eq phT_ok hl hr 0
  have hes := roe_esys phT_ok hl hr fl fr h1 h3
  have hfl := roe_flow phT_ok hl hr fl fr h1 h3
  have h1' := h1
  rw [roeAvg_eq _ _ _ hl.d hr.d] at h1'
  have s1 : Real.sqrt wTl.d = 1 := by simp [wTl]
  have s2 : Real.sqrt wTr.d = 2 := by
    rw [show wTr.d = 2 ^ 2 by norm_num [wTr], Real.sqrt_sq (by norm_num)]
  simp only [s1, s2] at h1'
  have hv : r.v1 = 0 := by rw [← Option.some.inj h1']; norm_num [wTl, wTr]
  have hd : r.d = 2 := by rw [← Option.some.inj h1']; norm_num
  have hb2 : r.b2 = 2/3 := by rw [← Option.some.inj h1']; norm_num [wTl, wTr, phT]
  have hb3 : r.b3 = 0 := by rw [← Option.some.inj h1']; norm_num [wTl, wTr, phT]
  have hy : r.y = 5/4 := by rw [← Option.some.inj h1']; norm_num [wTl, wTr, phT]
  have hphys : physFlux phT wTl 0 = physFlux phT wTr 0 := by
    refine Cons1D.v_eq ?_ (funext fun n => n.elim0)
    ext <;> norm_num [physFlux, phT, wTl, wTr, press, Cons1D.v]
  refine ⟨phT, wTl, wTr, Ul, Ur, ?_⟩
  rw [e, if_neg (by rw [e0, hv]; linarith), if_neg (by rw [en, hv]; linarith)]
  by_cases hb : interBad phT 0 (Ur.v.sub Ul.v) Ul.v ws
  · rw [if_pos hb]
    obtain ⟨al, ar, F, hs, hF, hlt, hFd, -⟩ := hlle_formula phT_ok hl hr
    refine ⟨F, phT_ok, hl, hr, fl, fr, hphys, by norm_num [physFlux, wTl], hF, ?_⟩
    obtain ⟨r', c', cl, cr, h1'', h2', -, -, -, hcl, hcr, hs'⟩ := speeds_spec phT_ok hl hr
    rw [hs] at hs'
    obtain ⟨ea, er⟩ := Prod.mk.inj (Option.some.inj hs')
    have kl : al < 0 := by
      rw [ea]; refine lt_of_le_of_lt (min_le_right _ _) ?_
      show (0:ℝ) - cl < 0; linarith
    have kr : 0 < ar := by
      rw [er]; refine lt_of_lt_of_le ?_ (le_max_right _ _)
      show (0:ℝ) < 0 + cr; linarith
    rw [hFd, min_eq_left kl.le, max_eq_left kr.le]
    have k1 : (physFlux phT wTl 0).d = 0 := by norm_num [physFlux, wTl]
    have k2 : (physFlux phT wTr 0).d = 0 := by norm_num [physFlux, wTr]
    have k3 : Ul.d = 1 := by rw [hl.eq phT_ok]; rfl
    have k4 : Ur.d = 4 := by rw [hr.eq phT_ok]; rfl
    rw [k1, k2, k3, k4]
    have : ar * al < 0 := mul_neg_of_pos_of_neg kr kl
    have h0 : ar - al ≠ 0 := by linarith
    intro h
    rw [div_eq_zero_iff] at h
    rcases h with h | h
    · nlinarith
    · exact h0 h
  · rw [if_neg hb]
    refine ⟨_, phT_ok, hl, hr, fl, fr, hphys, by norm_num [physFlux, wTl], rfl, ?_⟩
    -- all speeds are 0 or ±c
    have hev : ∀ w ∈ ws, w.ev = 0 ∨ |w.ev| = c := by
      have hs := h3
      unfold esysRoe at hs
      simp only [phT, if_true] at hs
      have hT : 0 < phT.cs2 + r.x := by
        have := (avg_pos phT 0 Ul Ur hl.d hr.d h1).2.1
        have := phT_ok.cs rfl
        linarith
      obtain ⟨m, bt, yy, hm, hrel, -⟩ := mhdPar_spec r.d 0 r.b2 r.b3 r.y (phT.cs2 + r.x) (by rw [hd]; norm_num) (by rw [hy]; norm_num) hT
      unfold esysIsoMhd at hs
      have hm' : mhdPar r.d 0 r.b2 r.b3 r.y (1/6 + r.x) = some m := hm
      rw [hm'] at hs
      simp only [Option.bind_eq_bind, Option.bind_some] at hs
      rw [fdiv_ne hrel.sd.ne'] at hs
      simp only [Option.bind_some, Option.pure_def, Option.some.injEq] at hs
      have hvax : m.vax = 0 := by
        have q := hrel.hb1
        have q1 : m.s ≠ 0 := by intro h; have := hrel.s; rw [h] at this; norm_num at this
        rcases mul_eq_zero.mp q.symm with q | q
        · rcases mul_eq_zero.mp q with q | q
          · exact absurd q q1
          · exact q
        · exact absurd q hrel.sd.ne'
      have hcs : m.cs = 0 := le_antisymm (by rw [← hvax]; exact hrel.csvax) hrel.cs
      have hcf : m.cf = c := by
        have : w0.ev = r.v1 - m.cf := by
          rw [← hs] at h4
          rw [← Option.some.inj h4]
        linarith
      rw [← hs]
      intro w hw
      simp only [List.mem_cons, List.not_mem_nil, or_false] at hw
      rcases hw with rfl | rfl | rfl | rfl | rfl | rfl <;> dsimp only <;> rw [hv]
      · right; rw [hcf, zero_sub, abs_neg, abs_of_pos hc]
      · left; rw [hvax]; ring
      · left; rw [hcs]; ring
      · left; rw [hcs]; ring
      · left; rw [hvax]; ring
      · right; rw [hcf, zero_add, abs_of_pos hc]
    have hsq : wsum (fun w => 1/2 * max |w.ev| 0 * dot w.l (Ur.v.sub Ul.v)) ws = (flow ws (flow ws (Ur.v.sub Ul.v))).smul (1 / (2 * c)) := by
      conv_rhs => rw [flow]
      rw [wsum_smul]
      apply wsum_congr
      intro w hw
      rw [show dot w.l (flow ws (Ur.v.sub Ul.v)) = w.ev * dot w.l (Ur.v.sub Ul.v) from hes.coeff _ w hw, max_eq_left (abs_nonneg _)]
      rcases hev w hw with h | h
      · rw [h]; simp
      · have : w.ev * w.ev = c * c := by rw [← h, abs_mul_abs_self]
        rw [h]
        field_simp
        linear_combination (-dot w.l (Ur.v.sub Ul.v)) * this
    have hmass : ∀ u : V7, u.Wf phT → (flow ws u).d = u.mx := by
      intro u hu
      have hs := h3
      unfold esysRoe at hs
      simp only [phT, if_true] at hs
      have hT : 0 < phT.cs2 + r.x := by
        have := (avg_pos phT 0 Ul Ur hl.d hr.d h1).2.1
        have := phT_ok.cs rfl
        linarith
      rw [flowIsoMhd phT rfl _ _ _ _ _ _ _ _ _ (by rw [hd]; norm_num) (by rw [hy]; norm_num) hT hs u hu]
    rw [hsq]
    show (1/2 * ((physFlux phT wTl 0).d + (physFlux phT wTr 0).d) - 1 / (2 * c) * (flow ws (flow ws (Ur.v.sub Ul.v))).d) ≠ 0
    rw [hmass (flow ws (Ur.v.sub Ul.v)) (wsum_wf (esysRoe_wf h3) _), hfl]
    have k1 : (physFlux phT wTl 0).d = 0 := by norm_num [physFlux, wTl]
    have k2 : (physFlux phT wTr 0).d = 0 := by norm_num [physFlux, wTr]
    rw [k1, k2, hphys]
    have k3 : roeMiss phT wTl wTr r = -1/6 := by
      unfold roeMiss
      rw [hy, hb2, hb3]
      norm_num [phT, wTl, wTr]
    simp only [V7.sub_self, V7.zero_add, k3]
    have : 0 < 1 / (2 * c) := by positivity
    intro h
    nlinarith

/-! ## The hypotheses are met -/

/-- Adiabatic MHD: oblique field, moving gas, equal densities: all hypotheses of `roe_matrix`, `roe_waves`, `roe_mirror`. -/
example : ∃ Ul Ur : Cons1D 0, phF.Ok ∧ State phF (3/4) wFl Ul ∧ State phF (3/4) wFr Ur ∧ AboveFloor phF wFl ∧ AboveFloor phF wFr ∧
    RoeExact phF wFl wFr := by
  obtain ⟨Ul, hl⟩ := state_of phF phF_ok (3/4) wFl (by simp [Prim1D.Wf, phF]) (by norm_num [wFl]) (by norm_num [wFl])
  obtain ⟨Ur, hr⟩ := state_of phF phF_ok (3/4) wFr (by simp [Prim1D.Wf, phF]) (by norm_num [wFr]) (by norm_num [wFr])
  exact ⟨Ul, Ur, phF_ok, hl, hr, fun _ => by norm_num [phF, wFl], fun _ => by norm_num [phF, wFr], Or.inr (Or.inl rfl)⟩

/-- An isothermal shock (sound speed 1, compression 4, at rest) meets the hypotheses of `roe_jump` with `s = 0`; with the velocities
shifted by 1 it moves with speed 1. -/
example : ∃ Ul Ur : Cons1D 1, phR.Ok ∧ State phR 0 (⟨1, 3, 1, 0, 0, 0, 0, fun _ => 1/2⟩ : Prim1D 1) Ul ∧
    State phR 0 (⟨4, 3/2, 1, 0, 0, 0, 0, fun _ => 1/2⟩ : Prim1D 1) Ur ∧
    (physFlux phR (⟨4, 3/2, 1, 0, 0, 0, 0, fun _ => 1/2⟩ : Prim1D 1) 0).v.sub
      (physFlux phR (⟨1, 3, 1, 0, 0, 0, 0, fun _ => 1/2⟩ : Prim1D 1) 0).v = (Ur.v.sub Ul.v).smul 1 := by
  obtain ⟨Ul, hl⟩ := state_of phR phR_ok 0 (⟨1, 3, 1, 0, 0, 0, 0, fun _ => 1/2⟩ : Prim1D 1) (by simp [Prim1D.Wf, phR]) (by norm_num)
    (by simp [phR])
  obtain ⟨Ur, hr⟩ := state_of phR phR_ok 0 (⟨4, 3/2, 1, 0, 0, 0, 0, fun _ => 1/2⟩ : Prim1D 1) (by simp [Prim1D.Wf, phR]) (by norm_num)
    (by simp [phR])
  refine ⟨Ul, Ur, phR_ok, hl, hr, ?_⟩
  rw [hl.eq phR_ok, hr.eq phR_ok]
  ext <;> norm_num [physFlux, phR, press, Cons1D.v, V7.sub, V7.smul]

end
end Athena.Hydro
