import Verif.Hydro.ExactSpec

/-! # The solution of the Riemann problem: its waves are in order, the flux at the interface is unique and mirror symmetric -/

namespace Athena.Hydro
noncomputable section
variable {ns : ℕ} {p : Phys} {W W' W0 W1 Wl Wr Ml Mr : Prim1D ns} {s t sl tl tr sr : ℝ}

/-- A physical state (positive density and pressure). -/
structure Gas (p : Phys) (W : Prim1D ns) : Prop where
  d : 0 < W.d
  P : p.iso = false → 0 < W.P

theorem Gas.mirror (h : Gas p W) : Gas p W.mirror := ⟨h.d, h.P⟩

theorem sound_pos (hp : p.Ok) (h : Gas p W) : 0 < sound p W := by
  unfold sound
  cases hi : p.iso
  · have := hp.gamma hi; have := h.P hi; have := h.d
    simp only [Bool.false_eq_true, if_false]; exact Real.sqrt_pos.mpr (by positivity)
  · simp only [if_true]; exact Real.sqrt_pos.mpr (hp.cs hi)

@[simp] theorem mirror_mirror (W : Prim1D ns) : W.mirror.mirror = W := by simp [Prim1D.mirror]
@[simp] theorem sound_mirror : sound p W.mirror = sound p W := rfl
@[simp] theorem rinv_mirror : rinv p W.mirror = rinv p W := rfl
@[simp] theorem press_mirror' : press p W.mirror = press p W := rfl
@[simp] theorem mirror_Vx : W.mirror.Vx = -W.Vx := rfl

/-- Along an isentrope pressure, density and sound speed grow together. -/
theorem isentrope (hp : p.Ok) (hi : p.iso = false) (h : Gas p W) (h' : Gas p W') (he : SameEntropy p W W') (hP : W'.P ≤ W.P) :
    W'.d ≤ W.d ∧ sound p W' ≤ sound p W := by
  have he := he hi
  have hg := hp.gamma hi
  have hd := h.d; have hd' := h'.d; have hP0 := h.P hi; have hP' := h'.P hi
  have x1 := Real.rpow_pos_of_pos hd p.gamma
  have x2 := Real.rpow_pos_of_pos hd' p.gamma
  have h1 : W'.d ^ p.gamma ≤ W.d ^ p.gamma := by
    by_contra hlt
    have hlt := not_le.mp hlt
    have : W'.P * W.d ^ p.gamma < W.P * W'.d ^ p.gamma :=
      lt_of_le_of_lt (mul_le_mul_of_nonneg_right hP x1.le) (mul_lt_mul_of_pos_left hlt hP0)
    linarith
  have h2 : W'.d ≤ W.d := by
    by_contra hlt
    have := Real.rpow_lt_rpow hd.le (not_le.mp hlt) (by linarith : 0 < p.gamma)
    linarith
  refine ⟨h2, ?_⟩
  unfold sound
  simp only [hi, Bool.false_eq_true, if_false]
  apply Real.sqrt_le_sqrt
  have e : ∀ x : ℝ, 0 < x → x ^ p.gamma = x * x ^ (p.gamma - 1) := fun x hx => by
    rw [Real.rpow_sub_one hx.ne']; field_simp
  rw [e _ hd, e _ hd'] at he
  have h3 : W'.d ^ (p.gamma - 1) ≤ W.d ^ (p.gamma - 1) := Real.rpow_le_rpow hd'.le h2 (by linarith)
  have y1 := Real.rpow_pos_of_pos hd (p.gamma - 1)
  have y2 := Real.rpow_pos_of_pos hd' (p.gamma - 1)
  rw [div_le_div_iff₀ hd' hd]
  have : W'.P * W.d * W.d ^ (p.gamma - 1) ≤ W.P * W'.d * W.d ^ (p.gamma - 1) := by
    calc W'.P * W.d * W.d ^ (p.gamma - 1) = W.P * W'.d * W'.d ^ (p.gamma - 1) := by linear_combination he
      _ ≤ _ := mul_le_mul_of_nonneg_left h3 (by positivity)
  have := le_of_mul_le_mul_right this y1
  nlinarith

/-- The edges of a left-going wave are in order and the gas behind it moves to the right of it. -/
theorem Wave1.order (hp : p.Ok) (h : Gas p W) (h' : Gas p W') (w : Wave1 p W W' s t) : s ≤ t ∧ t < W'.Vx := by
  cases w with
  | shock s hd ht hP hs rh => exact ⟨le_rfl, hs⟩
  | fan hd ht hP he hv =>
    have h1 := sound_pos hp h'
    refine ⟨?_, by linarith⟩
    cases hi : p.iso
    · have hP' : W'.P ≤ W.P := by simpa [press, hi] using hP
      have h2 := (isentrope hp hi h h' he hP').2
      have hg := hp.gamma hi
      have : rinv p W' ≤ rinv p W := by
        simp only [rinv, hi, Bool.false_eq_true, if_false]
        exact div_le_div_of_nonneg_right (by linarith) (by linarith)
      linarith
    · have hd' : W'.d ≤ W.d := by
        have : p.cs2 * W'.d ≤ p.cs2 * W.d := by simpa [press, hi] using hP
        exact le_of_mul_le_mul_left this (hp.cs hi)
      have : rinv p W' ≤ rinv p W := by
        simp only [rinv, hi, if_true]
        exact mul_le_mul_of_nonneg_left (Real.log_le_log hd hd') (Real.sqrt_nonneg _)
      have e : sound p W = sound p W' := by simp [sound, hi]
      linarith

/-- The state at the interface inside a fan is determined by the state ahead of it. -/
theorem FanAtZero.unique (hp : p.Ok) (hm : p.mhd = false) (h : Gas p W) (h0 : FanAtZero p W W0) (h1 : FanAtZero p W W1) :
    physFlux p W0 0 = physFlux p W1 0 := by
  obtain ⟨d0, ⟨a1, a2, a3, a4, a5⟩, e0, r0, v0⟩ := h0
  obtain ⟨d1, ⟨b1, b2, b3, b4, b5⟩, e1, r1, v1⟩ := h1
  have key : W0.d = W1.d ∧ W0.Vx = W1.Vx ∧ (p.iso = false → W0.P = W1.P) := by
    cases hi : p.iso
    · have hg := hp.gamma hi
      have e0 := e0 hi; have e1 := e1 hi
      simp only [rinv, hi, Bool.false_eq_true, if_false] at r0 r1
      rw [← v0] at r0; rw [← v1] at r1
      have hg1 : p.gamma - 1 ≠ 0 := by linarith
      have hv : W0.Vx = W1.Vx := by
        have : (W0.Vx - W1.Vx) * ((p.gamma + 1) / (p.gamma - 1)) = 0 := by
          have e := r0.trans r1.symm
          field_simp at e ⊢
          linear_combination e
        rcases mul_eq_zero.mp this with h | h
        · linarith
        · exfalso; rw [div_eq_zero_iff] at h; rcases h with h | h <;> linarith
      have hd := h.d; have hP := h.P hi
      -- pressures are positive
      have x := Real.rpow_pos_of_pos hd p.gamma
      have pos : ∀ W1 : Prim1D ns, 0 < W1.d → W1.P * W.d ^ p.gamma = W.P * W1.d ^ p.gamma → 0 < W1.P := fun W1 hd1 e => by
        have : 0 < W1.P * W.d ^ p.gamma := by rw [e]; have := Real.rpow_pos_of_pos hd1 p.gamma; positivity
        exact pos_of_mul_pos_left this x.le
      have p0 := pos _ d0 e0; have p1 := pos _ d1 e1
      have sq : p.gamma * W0.P / W0.d = p.gamma * W1.P / W1.d := by
        have : sound p W0 = sound p W1 := by rw [← v0, ← v1, hv]
        simp only [sound, hi, Bool.false_eq_true, if_false] at this
        exact (Real.sqrt_inj (by positivity) (by positivity)).mp this
      have e : ∀ x : ℝ, 0 < x → x ^ p.gamma = x * x ^ (p.gamma - 1) := fun x hx => by
        rw [Real.rpow_sub_one hx.ne']; field_simp
      have q : W0.P * W1.d = W1.P * W0.d := by field_simp at sq; linear_combination sq
      have hpow : W0.d ^ (p.gamma - 1) = W1.d ^ (p.gamma - 1) := by
        rw [e _ d0] at e0; rw [e _ d1] at e1
        have : W.P * (W0.d * W1.d) * (W0.d ^ (p.gamma - 1) - W1.d ^ (p.gamma - 1)) = 0 := by
          linear_combination W.d ^ p.gamma * q - W1.d * e0 + W0.d * e1
        rcases mul_eq_zero.mp this with h | h
        · exfalso; have : 0 < W.P * (W0.d * W1.d) := by positivity
          linarith
        · linarith
      have hdd : W0.d = W1.d := by
        rcases lt_trichotomy W0.d W1.d with hlt | heq | hlt
        · have := Real.rpow_lt_rpow d0.le hlt (by linarith : 0 < p.gamma - 1); linarith
        · exact heq
        · have := Real.rpow_lt_rpow d1.le hlt (by linarith : 0 < p.gamma - 1); linarith
      refine ⟨hdd, hv, fun _ => ?_⟩
      rw [hdd] at q
      exact mul_right_cancel₀ d1.ne' q
    · have c : sound p W0 = sound p W1 := by simp [sound, hi]
      have hv : W0.Vx = W1.Vx := by rw [v0, v1, c]
      have hc : 0 < Real.sqrt p.cs2 := Real.sqrt_pos.mpr (hp.cs hi)
      simp only [rinv, hi, if_true] at r0 r1
      have : Real.log W0.d = Real.log W1.d := by
        apply mul_left_cancel₀ hc.ne'; linarith
      refine ⟨Real.log_injOn_pos d0 d1 this, hv, by simp⟩
  obtain ⟨k1, k2, k3⟩ := key
  unfold physFlux press energy
  rw [k1, k2, a1, a2, a3, a4, a5, b1, b2, b3, b4, b5]
  cases hi : p.iso
  · rw [k3 hi]
  · simp

theorem physFlux_at_rest (hp0 : W.Vx = 0) (hm : p.mhd = false) (hw : W.By = 0 ∧ W.Bz = 0) :
    physFlux p W 0 = ⟨0, press p W, 0, 0, 0, 0, 0, fun _ => 0⟩ := by
  simp [physFlux, hp0, hm, hw.1, hw.2]

/-- The six places of the interface exclude each other; the flux is unique. -/
theorem Solves.flux_mirror (hp : p.Ok) (hm : p.mhd = false) (hl : Gas p Wl) (hr : Gas p Wr) (hMl : Gas p Ml) (hMr : Gas p Mr)
    (wl : Wl.Wf p) (wr : Wr.Wf p) (h : Solves p Wl Wr W0 Ml Mr sl tl tr sr)
    (h' : Solves p Wr.mirror Wl.mirror W1 Mr.mirror Ml.mirror (-sr) (-tr) (-tl) (-sl)) :
    physFlux p W1 0 = (physFlux p W0 0).mirrorFlux := by
  have o1 := h.left.order hp hl hMl
  have o2 := Wave1.order hp hr.mirror hMr.mirror h.right
  have o3 := h.contact.1
  simp only [mirror_Vx] at o2
  have pm : ∀ W : Prim1D ns, physFlux p W.mirror 0 = (physFlux p W 0).mirrorFlux := fun W => by
    have := physFlux_mirror (p := p) (W := W) (Bx := 0); simpa using this
  have tra : ∀ {W W' : Prim1D ns} {s t : ℝ}, Wave1 p W W' s t → SameTransverse W W' := fun w => by
    cases w with
    | shock _ _ ht _ _ _ => exact ht
    | fan _ ht _ _ _ => exact ht
  have bl := tra h.left
  have br := tra h.right
  have zl : Ml.By = 0 ∧ Ml.Bz = 0 := ⟨bl.2.2.1.trans (wl.2 hm).1, bl.2.2.2.1.trans (wl.2 hm).2⟩
  have zr : Mr.By = 0 ∧ Mr.Bz = 0 := ⟨br.2.2.1.trans (wr.2 hm).1, br.2.2.2.1.trans (wr.2 hm).2⟩
  have rest : Ml.Vx = 0 → physFlux p Mr.mirror 0 = (physFlux p Ml 0).mirrorFlux := fun hz => by
    rw [pm, physFlux_at_rest hz hm zl, physFlux_at_rest (o3 ▸ hz) hm zr, h.contact.2]
  have fan2 : ∀ W0 W1, FanAtZero p Wr.mirror W0.mirror → FanAtZero p Wr.mirror W1 →
      physFlux p W1 0 = (physFlux p W0 0).mirrorFlux := fun W0 W1 f0 f1 => by
    rw [← pm]; exact FanAtZero.unique hp hm hr.mirror f1 f0
  have fan1 : ∀ W0 W1, FanAtZero p Wl W0 → FanAtZero p Wl W1.mirror →
      physFlux p W1 0 = (physFlux p W0 0).mirrorFlux := fun W0 W1 f0 f1 => by
    rw [FanAtZero.unique hp hm hl f0 f1, ← pm, mirror_mirror]
  have a0 := h.at0
  have a1 := h'.at0
  clear h h'
  cases a0 <;> cases a1 <;> (try simp only [mirror_Vx] at *) <;>
    first
    | exact pm _
    | (exfalso; linarith)
    | exact fan2 _ _ (by assumption) (by assumption)
    | (refine fan1 _ _ (by assumption) ?_; simpa using (by assumption : FanAtZero p Wl.mirror.mirror _))
    | (refine rest ?_; linarith)

end
end Athena.Hydro
