import Verif.Hydro.ExactSpec

/-! # The isothermal exact solver: from the middle state to the flux -/

namespace Athena.Hydro
noncomputable section
variable {ns : ℕ} {p : Phys} {Bx : ℝ} {Wl Wr W : Prim1D ns} {Ul Ur U : Cons1D ns}

theorem flog_pos {x : ℝ} (h : 0 < x) : flog x = some (Real.log x) := if_neg (not_le.mpr h)

/-- The middle state `(dm, vm)` follows `(d, v)` through a left-going isothermal wave. -/
def SideOk (c d v dm vm : ℝ) (rare : Bool) : Prop :=
  if rare then dm ≤ d ∧ vm = v - c * Real.log (dm / d)
  else d ≤ dm ∧ vm = v - c * (Real.sqrt dm / Real.sqrt d - Real.sqrt d / Real.sqrt dm)

/-- The state with density `d` and velocity `v`, everything else as in `W`. -/
def Prim1D.at (W : Prim1D ns) (d v : ℝ) : Prim1D ns := { W with d := d, Vx := v }

theorem sideFlux_iso (hp : p.Ok) (hi : p.iso = true) (hm : p.mhd = false) (h : State p Bx W U) :
    exactSideI p U W = physFlux p W 0 := by
  obtain ⟨h1, h2⟩ := h.wf
  have e1 := (h2 hm).1
  have e2 := (h2 hm).2
  rw [h.eq hp]
  simp only [exactSideI, physFlux, press, hi, hm, Bool.false_eq_true, if_true, if_false, e1, e2, Cons1D.mk.injEq]
  refine ⟨?_, ?_, ?_, ?_, ?_, ?_, ?_, ?_⟩ <;> (try funext n) <;> first | trivial | rfl | ring1

theorem midFlux_iso (hi : p.iso = true) (hm : p.mhd = false) (h : W.Wf p) (d v : ℝ) :
    (⟨d * v, d * v * v + d * p.cs2, d * v * W.Vy, d * v * W.Vz, 0, 0, 0, fun n => d * v * W.r n⟩ : Cons1D ns) =
      physFlux p (W.at d v) 0 := by
  obtain ⟨h1, h2⟩ := h
  have e1 := (h2 hm).1
  have e2 := (h2 hm).2
  simp only [Prim1D.at, physFlux, press, hi, hm, Bool.false_eq_true, if_true, if_false, e1, e2, Cons1D.mk.injEq]
  refine ⟨?_, ?_, ?_, ?_, ?_, ?_, ?_, ?_⟩ <;> (try funext n) <;> first | trivial | rfl | ring1

theorem wave1_shock_iso (hp : p.Ok) (hi : p.iso = true) (hm : p.mhd = false) (hw : W.Wf p) (hd : 0 < W.d) {dm vm : ℝ}
    (h : SideOk p.cs W.d W.Vx dm vm false) :
    Wave1 p W (W.at dm vm) (W.Vx - p.cs * Real.sqrt dm / Real.sqrt W.d) (W.Vx - p.cs * Real.sqrt dm / Real.sqrt W.d) := by
  obtain ⟨h1, h2⟩ := h
  have hdm : 0 < dm := hd.trans_le h1
  have ha := Real.sqrt_pos.mpr hd
  have hz := Real.sqrt_pos.mpr hdm
  have ea := Real.mul_self_sqrt hd.le
  have ez := Real.mul_self_sqrt hdm.le
  have hc : 0 < p.cs := Real.sqrt_pos.mpr (hp.cs hi)
  have ec : p.cs * p.cs = p.cs2 := Real.mul_self_sqrt (hp.cs hi).le
  have e1 := (hw.2 hm).1
  have e2 := (hw.2 hm).2
  set a := Real.sqrt W.d
  set z := Real.sqrt dm
  have hv : vm = W.Vx - p.cs * z / a + p.cs * a / z := by rw [h2]; field_simp; ring
  refine .shock _ hdm ⟨rfl, rfl, rfl, rfl, rfl⟩ ?_ ?_ ?_
  · simp only [press, hi, if_true]; exact mul_le_mul_of_nonneg_left h1 (hp.cs hi).le
  · show _ < vm
    rw [hv]; have : 0 < p.cs * a / z := by positivity
    linarith
  · have em : dm * (vm - (W.Vx - p.cs * z / a)) = p.cs * a * z := by rw [hv, ← ez]; field_simp; ring
    have em' : W.d * (W.Vx - (W.Vx - p.cs * z / a)) = p.cs * a * z := by rw [← ea]; field_simp; ring
    have ep : p.cs * a * z * (vm - W.Vx) + p.cs2 * (dm - W.d) = 0 := by
      rw [hv, ← ez, ← ea, ← ec]; field_simp; ring
    simp only [Prim1D.at, physFlux, consOf, press, Cons1D.map2, hi, hm, Bool.false_eq_true, if_true, if_false, e1, e2,
      Cons1D.mk.injEq]
    set s := W.Vx - p.cs * z / a
    refine ⟨?_, ?_, ?_, ?_, ?_, ?_, ?_, ?_⟩
    · linear_combination em - em'
    · linear_combination ep + vm * em - W.Vx * em'
    · linear_combination W.Vy * (em - em')
    · linear_combination W.Vz * (em - em')
    · ring
    · ring
    · ring
    · funext n; linear_combination W.r n * (em - em')

theorem wave1_fan_iso (hp : p.Ok) (hi : p.iso = true) (hd : 0 < W.d) {dm vm : ℝ} (hdm : 0 < dm)
    (h : SideOk p.cs W.d W.Vx dm vm true) : Wave1 p W (W.at dm vm) (W.Vx - p.cs) (vm - p.cs) := by
  obtain ⟨h1, h2⟩ := h
  have hs : ∀ W' : Prim1D ns, sound p W' = p.cs := fun W' => by simp [sound, hi, Phys.cs]
  have := Wave1.fan (p := p) (W := W) (W' := W.at dm vm) hdm ⟨rfl, rfl, rfl, rfl, rfl⟩
    (by simp only [press, hi, if_true]; exact mul_le_mul_of_nonneg_left h1 (hp.cs hi).le) (by simp [SameEntropy, hi])
    (by
      simp only [rinv, hi, if_true, Prim1D.at]
      rw [h2, Real.log_div hdm.ne' hd.ne']
      unfold Phys.cs; ring)
  rw [hs, hs] at this
  exact this

/-- A wave of either kind. -/
theorem wave1_iso (hp : p.Ok) (hi : p.iso = true) (hm : p.mhd = false) (hw : W.Wf p) (hd : 0 < W.d) {dm vm : ℝ} (hdm : 0 < dm)
    {rare : Bool} (h : SideOk p.cs W.d W.Vx dm vm rare) :
    Wave1 p W (W.at dm vm) (if rare then W.Vx - p.cs else W.Vx - p.cs * Real.sqrt dm / Real.sqrt W.d)
      (if rare then vm - p.cs else W.Vx - p.cs * Real.sqrt dm / Real.sqrt W.d) := by
  cases rare
  · exact wave1_shock_iso hp hi hm hw hd h
  · exact wave1_fan_iso hp hi hd hdm h

theorem fan_iso (hp : p.Ok) (hi : p.iso = true) (hd : 0 < W.d) :
    FanAtZero p W (W.at (W.d * Real.exp ((W.Vx - p.cs) / p.cs)) p.cs) := by
  have hc : 0 < p.cs := Real.sqrt_pos.mpr (hp.cs hi)
  refine ⟨by simp only [Prim1D.at]; positivity, ⟨rfl, rfl, rfl, rfl, rfl⟩, by simp [SameEntropy, hi], ?_, ?_⟩
  · simp only [rinv, hi, if_true, Prim1D.at]
    rw [Real.log_mul hd.ne' (Real.exp_ne_zero _), Real.log_exp]
    change p.cs + p.cs * _ = _ + p.cs * _
    field_simp; ring
  · simp [sound, hi, Phys.cs, Prim1D.at]

theorem exactFanI_eq (hi : p.iso = true) (hm : p.mhd = false) (h : W.Wf p) (d v : ℝ) (hd : 0 < d) :
    exactFanI p W d (d * v) = some (physFlux p (W.at d v) 0) := by
  unfold exactFanI
  rw [if_neg hd.ne', fdiv_pos hd]
  simp only [Option.bind_eq_bind, Option.bind_some, Option.pure_def]
  rw [← midFlux_iso hi hm h d v, mul_div_cancel_left₀ _ hd.ne']

/-- If the intermediate state computed is joined to both states by waves, the flux is that of the solution of the Riemann problem. -/
theorem exactI_of_mid (hp : p.Ok) (hi : p.iso = true) (hm : p.mhd = false) (hl : State p Bx Wl Ul) (hr : State p Bx Wr Ur)
    {rl rr : Bool} {dm vm : ℝ} (hmid : exactMid p.cs Wl Wr = some (rl, rr, dm, vm)) (hdm : 0 < dm)
    (h1 : SideOk p.cs Wl.d Wl.Vx dm vm rl) (h2 : SideOk p.cs Wr.d (-Wr.Vx) dm (-vm) rr) :
    ∃ W0, exactI p Ul Ur Wl Wr = some (physFlux p W0 0) ∧
      Solves p Wl Wr W0 (Wl.at dm vm) (Wr.at dm vm)
        (if rl then Wl.Vx - p.cs else Wl.Vx - p.cs * Real.sqrt dm / Real.sqrt Wl.d)
        (if rl then vm - p.cs else Wl.Vx - p.cs * Real.sqrt dm / Real.sqrt Wl.d)
        (if rr then vm + p.cs else Wr.Vx + p.cs * Real.sqrt dm / Real.sqrt Wr.d)
        (if rr then Wr.Vx + p.cs else Wr.Vx + p.cs * Real.sqrt dm / Real.sqrt Wr.d) := by
  have hc : 0 < p.cs := Real.sqrt_pos.mpr (hp.cs hi)
  have w1 := wave1_iso hp hi hm hl.wf hl.d hdm h1
  have w2 := wave1_iso (W := Wr.mirror) hp hi hm hr.mirror.wf hr.d hdm h2
  have w2' : Wave2 p Wr (Wr.at dm vm) (if rr then Wr.Vx + p.cs else Wr.Vx + p.cs * Real.sqrt dm / Real.sqrt Wr.d)
      (if rr then vm + p.cs else Wr.Vx + p.cs * Real.sqrt dm / Real.sqrt Wr.d) := by
    unfold Wave2
    have e : (Wr.at dm vm).mirror = Wr.mirror.at dm (-vm) := rfl
    rw [e]
    convert w2 using 1 <;> cases rr <;> simp [Prim1D.mirror] <;> ring
  have hcon : (Wl.at dm vm).Vx = (Wr.at dm vm).Vx ∧ press p (Wl.at dm vm) = press p (Wr.at dm vm) := by
    simp [Prim1D.at, press, hi]
  have ul := hl.eq hp
  have ur := hr.eq hp
  have hul : 0 < Ul.d := by rw [ul]; exact hl.d
  have hur : 0 < Ur.d := by rw [ur]; exact hr.d
  have ha := Real.sqrt_pos.mpr hl.d
  have hb := Real.sqrt_pos.mpr hr.d
  suffices key : ∃ F W0, exactI p Ul Ur Wl Wr = some F ∧ F = physFlux p W0 0 ∧ AtZero p Wl (Wl.at dm vm) (Wr.at dm vm) Wr
        (if rl then Wl.Vx - p.cs else Wl.Vx - p.cs * Real.sqrt dm / Real.sqrt Wl.d)
        (if rl then vm - p.cs else Wl.Vx - p.cs * Real.sqrt dm / Real.sqrt Wl.d)
        (if rr then vm + p.cs else Wr.Vx + p.cs * Real.sqrt dm / Real.sqrt Wr.d)
        (if rr then Wr.Vx + p.cs else Wr.Vx + p.cs * Real.sqrt dm / Real.sqrt Wr.d) W0 by
    obtain ⟨F, W0, hF, e, h⟩ := key
    exact ⟨W0, by rw [hF, e], w1, w2', hcon, h⟩
  unfold exactI
  simp only [hul, hur, not_true_eq_false, or_self, if_false, hmid, not_lt.mpr hdm.le, fsqrt_nonneg hl.d.le, fsqrt_nonneg hr.d.le,
    fsqrt_nonneg hdm.le, fdiv_pos ha, fdiv_pos hb, fdiv_pos hc, Option.bind_eq_bind, Option.bind_some, Option.pure_def]
  have dl : Ul.d = Wl.d := by rw [ul]
  have fl := sideFlux_iso hp hi hm hl
  have fr := sideFlux_iso hp hi hm hr
  -- the left wave
  by_cases l1 : rl = true ∧ Wl.Vx - p.cs ≥ 0
  · rw [if_pos l1]
    refine ⟨_, Wl, rfl, fl, (.left ?_)⟩
    rw [if_pos l1.1]; exact l1.2
  rw [if_neg l1]
  by_cases l2 : rl = true ∧ vm - p.cs ≥ 0
  · rw [if_pos l2]
    have hx : Wl.Vx - p.cs < 0 := lt_of_not_ge fun h => l1 ⟨l2.1, h⟩
    refine ⟨_, (Wl.at (Wl.d * Real.exp ((Wl.Vx - p.cs) / p.cs)) p.cs), ?_, rfl, (.fanL _ ?_ ?_ (fan_iso hp hi hl.d))⟩
    · rw [dl, show Wl.d * p.cs * Real.exp ((Wl.Vx - p.cs) / p.cs) = Wl.d * Real.exp ((Wl.Vx - p.cs) / p.cs) * p.cs by ring]
      exact exactFanI_eq hi hm hl.wf _ _ (by have := hl.d; positivity)
    · rw [if_pos l2.1]; exact hx
    · rw [if_pos l2.1]; exact l2.2
  rw [if_neg l2]
  by_cases l3 : ¬ rl = true ∧ Wl.Vx - p.cs * Real.sqrt dm / Real.sqrt Wl.d ≥ 0
  · rw [if_pos l3]
    refine ⟨_, Wl, rfl, fl, (.left ?_)⟩
    rw [if_neg l3.1]; exact l3.2
  rw [if_neg l3]
  have htl : (if rl = true then vm - p.cs else Wl.Vx - p.cs * Real.sqrt dm / Real.sqrt Wl.d) < 0 := by
    cases rl
    · simpa using l3
    · simpa using l2
  -- the right wave
  by_cases r1 : rr = true ∧ Wr.Vx + p.cs ≤ 0
  · rw [if_pos r1]
    refine ⟨_, Wr, rfl, fr, (.right ?_)⟩
    rw [if_pos r1.1]; exact r1.2
  rw [if_neg r1]
  by_cases r2 : rr = true ∧ vm + p.cs ≤ 0
  · rw [if_pos r2]
    have hx : 0 < Wr.Vx + p.cs := lt_of_not_ge fun h => r1 ⟨r2.1, h⟩
    have hv : -vm = -Wr.Vx - p.cs * Real.log (dm / Wr.d) := by
      have := h2; simp only [SideOk, r2.1, if_true] at this; exact this.2
    have hd0 : dm * Real.exp (-(vm + p.cs) / p.cs) = Wr.d * Real.exp ((-Wr.Vx - p.cs) / p.cs) := by
      have e : -(vm + p.cs) / p.cs = (-Wr.Vx - p.cs) / p.cs - Real.log (dm / Wr.d) := by
        field_simp; linear_combination hv
      rw [e, Real.exp_sub, Real.exp_log (div_pos hdm hr.d)]
      have := hr.d.ne'; have := hdm.ne'
      field_simp
    refine ⟨_, (Wr.at (Wr.d * Real.exp ((-Wr.Vx - p.cs) / p.cs)) (-p.cs)), ?_, rfl, (.fanR _ ?_ ?_ ?_)⟩
    · rw [show -dm * p.cs * Real.exp (-(vm + p.cs) / p.cs) = dm * Real.exp (-(vm + p.cs) / p.cs) * -p.cs by ring, hd0]
      exact exactFanI_eq hi hm hr.wf _ _ (by have := hr.d; positivity)
    · rw [if_pos r2.1]; exact r2.2
    · rw [if_pos r2.1]; exact hx
    · have := fan_iso (W := Wr.mirror) hp hi hr.d
      simpa [Prim1D.at, Prim1D.mirror] using this
  rw [if_neg r2]
  by_cases r3 : ¬ rr = true ∧ Wr.Vx + p.cs * Real.sqrt dm / Real.sqrt Wr.d ≤ 0
  · rw [if_pos r3]
    refine ⟨_, Wr, rfl, fr, (.right ?_)⟩
    rw [if_neg r3.1]; exact r3.2
  rw [if_neg r3]
  have htr : 0 < (if rr = true then vm + p.cs else Wr.Vx + p.cs * Real.sqrt dm / Real.sqrt Wr.d) := by
    cases rr
    · simpa using r3
    · simpa using r2
  by_cases hv : vm ≥ 0
  · refine ⟨_, (Wl.at dm vm), rfl, ?_, (.midL htl hv)⟩
    rw [if_pos hv]; exact midFlux_iso hi hm hl.wf dm vm
  · refine ⟨_, (Wr.at dm vm), rfl, ?_, (.midR (not_le.mp hv) htr)⟩
    rw [if_neg hv]; exact midFlux_iso hi hm hr.wf dm vm

end
end Athena.Hydro
