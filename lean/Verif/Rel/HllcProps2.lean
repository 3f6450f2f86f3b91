import Verif.Rel.HllcProps

/-!
Further properties of the relativistic HLLC solver: every operation is defined, equal states,
supersonic flow, contacts, reflection.
-/
namespace Athena.Rel

/-- **C104, no NaN.**  For any two gas states no radicand in the solver is negative and no
denominator is zero. -/
theorem sr_hllc_defined {g : ℝ} (hg : 1 < g) (hg2 : g ≤ 2) (Wl Wr : Prim) (hl : Wl.Warm)
    (hr : Wr.Warm) :
    (∀ W : Prim, W.Warm → rhC g W ≠ 0 ∧ 0 ≤ g * W.P / rhC g W ∧
      1 - (W.Vx * W.Vx + W.Vy * W.Vy + W.Vz * W.Vz) ≠ 0 ∧
      1 / (1 - (W.Vx * W.Vx + W.Vy * W.Vy + W.Vz * W.Vz)) * (1 - cssqC g W) ≠ 0 ∧
      0 ≤ ssC g W * (1 - W.Vx * W.Vx + ssC g W) ∧ 1 + ssC g W ≠ 0) ∧
    let ll := (fanSpeeds g Wl Wr).lm
    let lr := (fanSpeeds g Wl Wr).lp
    let Ul := primToCons g Wl
    let Ur := primToCons g Wr
    let Fl := fluxSide Ul Wl
    let Fr := fluxSide Ur Wr
    let a := fhll ll lr Fl.E Fr.E Ul.E Ur.E
    let b := -(uhll ll lr Fl.E Fr.E Ul.E Ur.E + fhll ll lr Fl.Mx Fr.Mx Ul.Mx Ur.Mx)
    let c := uhll ll lr Fl.Mx Fr.Mx Ul.Mx Ur.Mx
    let ls := contactSpeed ll lr Fl Fr Ul Ur
    lr - ll ≠ 0 ∧ 0 ≤ b * b - 4 * a * c ∧
    -(1 / 2) * (b + (if b < 0 then -1 else 1) * √(b * b - 4 * a * c)) ≠ 0 ∧
    ll - ls ≠ 0 ∧ lr - ls ≠ 0 := by
  refine ⟨?_, ?_⟩
  · intro W hW
    have e : W.Vx * W.Vx + W.Vy * W.Vy + W.Vz * W.Vz = W.vsq := by unfold Prim.vsq; ring
    have ht : 0 < 1 - W.vsq := by linarith [hW.v]
    have hc := csq_lt hg hW
    have hc' : 0 < 1 - W.csq g := by linarith
    have hs := sig_pos hg hg2 hW
    have hv := vx_lt hW.v
    rw [e, rhC_eq hg hW, cssqC_eq hg hW, ssC_eq hg hW]
    refine ⟨(enth_pos hg hW).ne', (csq_pos hg hW).le, ht.ne', ?_, ?_, by linarith⟩
    · positivity
    · exact mul_nonneg hs.le (by nlinarith [hv.1, hv.2])
  · intro ll lr Ul Ur Fl Fr a b c ls
    have hf := fan_of hg hg2 hl hr
    obtain ⟨⟨k1, k2⟩, h1, h2, -⟩ := contact_spec hg hg2 hl hr hf
    obtain ⟨p1, p2, p3, -⟩ := contactRoot_spec k1 k2
    refine ⟨?_, p2, ?_, ?_, ?_⟩
    · have : ll < lr := h1.trans h2
      linarith
    · rw [if_pos p1]; exact p3
    · have : ll < ls := h1
      linarith
    · have : ls < lr := h2
      linarith

/-- **C104, contacts.**  States that differ only in density and transverse velocity: the flux is
that of the state the contact comes from; in particular no mass crosses a contact at rest. -/
theorem sr_hllc_contact {g : ℝ} (hg : 1 < g) (hg2 : g ≤ 2) (Wl Wr : Prim) (hl : Wl.Warm)
    (hr : Wr.Warm) (hv : Wl.Vx = Wr.Vx) (hp : Wl.P = Wr.P) :
    hllcSR g (primToCons g Wl) (primToCons g Wr) Wl Wr =
      if 0 ≤ Wl.Vx then physFlux g Wl else physFlux g Wr := by
  have hf := fan_of hg hg2 hl hr
  rw [hllc_pick hg hg2 hl hr]
  obtain ⟨-, h1, h2, h3, h4⟩ := contact_spec hg hg2 hl hr hf
  have sl := starL_eq hg hg2 hl hr hf
  have sr := starR_eq hg hg2 hl hr hf
  have b1 := hf.bl.lt
  have b2 := hf.ar.gt
  have b3 := hf.bl.gt
  have b4 := hf.ar.lt
  have b5 := vx_lt hl.v
  unfold starL starR
  rw [sl, sr]
  clear sl sr hf
  rw [outL_eq] at h3 ⊢
  rw [outR_eq] at h4 ⊢
  simp only at h3 h4
  have q1 := q_pos hg hg2 hl
  have q2 := q_pos hg hg2 hr
  generalize (fanSpeeds g Wl Wr).lm = ll at *
  generalize (fanSpeeds g Wl Wr).lp = lr at *
  generalize lamS g ll lr Wl Wr = s at *
  generalize prsS g ll lr Wl Wr = p at *
  have n1 : 0 < 1 - ll * s := by nlinarith
  have n2 : 0 < 1 - lr * s := by nlinarith
  have t1 : (p - Wl.P) * (1 - ll * s) = Wl.q g * (Wl.Vx - ll) * (Wl.Vx - s) := by
    linear_combination -h3
  have t2 : (p - Wl.P) * (1 - lr * s) = Wr.q g * (lr - Wl.Vx) * (s - Wl.Vx) := by
    rw [hv, hp]; linear_combination -h4
  rw [← hv] at b2
  have m1 : 0 < Wl.q g * (Wl.Vx - ll) := mul_pos q1 (by linarith)
  have m2 : 0 < Wr.q g * (lr - Wl.Vx) := mul_pos q2 (by linarith)
  have hs : s = Wl.Vx := by
    rcases lt_trichotomy s Wl.Vx with h | h | h
    · have a1 : 0 < (p - Wl.P) * (1 - ll * s) := by rw [t1]; exact mul_pos m1 (by linarith)
      have a2 : (p - Wl.P) * (1 - lr * s) < 0 := by
        rw [t2]; exact mul_neg_of_pos_of_neg m2 (by linarith)
      have := (mul_pos_iff_of_pos_right n1).1 a1
      nlinarith
    · exact h
    · have a1 : (p - Wl.P) * (1 - ll * s) < 0 := by
        rw [t1]; exact mul_neg_of_pos_of_neg m1 (by linarith)
      have a2 : 0 < (p - Wl.P) * (1 - lr * s) := by rw [t2]; exact mul_pos m2 (by linarith)
      have := (mul_pos_iff_of_pos_right n2).1 a2
      nlinarith
  have hpp : p = Wl.P := by
    rw [hs, sub_self, mul_zero] at t1
    have := (mul_eq_zero.1 t1).resolve_right (by rw [hs] at n1; exact n1.ne')
    linarith
  subst hs hpp
  rw [← fluxSide_phys g hl.v, ← fluxSide_phys g hr.v]
  have eL : gasFlux (Cons.smul (1 / (Wl.Vx - ll)) ⟨√(1 / (1 - Wl.vsq)) * Wl.d * (Wl.Vx - ll),
      Wl.q g * Wl.Vx * (Wl.Vx - ll) + Wl.P - Wl.P, Wl.q g * Wl.Vy * (Wl.Vx - ll),
      Wl.q g * Wl.Vz * (Wl.Vx - ll), Wl.q g * (Wl.Vx - ll) + Wl.P * ll - Wl.P * Wl.Vx⟩)
      Wl.Vx Wl.P = fluxSide (primToCons g Wl) Wl := by
    unfold gasFlux fluxSide Cons.smul
    rw [primToCons_eq]
    have : Wl.Vx - ll ≠ 0 := by linarith
    unfold Prim.q
    generalize Wl.enth g / (1 - Wl.vsq) = q
    ext <;> simp only <;> field_simp <;> ring
  have eR : gasFlux (Cons.smul (1 / (lr - Wl.Vx)) ⟨√(1 / (1 - Wr.vsq)) * Wr.d * (lr - Wr.Vx),
      Wr.q g * Wr.Vx * (lr - Wr.Vx) - Wr.P - -Wl.P, Wr.q g * Wr.Vy * (lr - Wr.Vx),
      Wr.q g * Wr.Vz * (lr - Wr.Vx), Wr.q g * (lr - Wr.Vx) - Wr.P * lr - -Wl.P * Wl.Vx⟩)
      Wl.Vx Wl.P = fluxSide (primToCons g Wr) Wr := by
    unfold gasFlux fluxSide Cons.smul
    rw [primToCons_eq, hv, hp]
    rw [hv] at b2
    have : lr - Wr.Vx ≠ 0 := by linarith
    unfold Prim.q
    generalize Wr.enth g / (1 - Wr.vsq) = q
    ext <;> simp only <;> field_simp <;> ring
  simp only
  rw [eL, eR]
  split_ifs <;> first | rfl | (exfalso; linarith)

/-- **C104, equal states.**  Between equal states the flux is the flux of relativistic
hydrodynamics. -/
theorem sr_hllc_consistent {g : ℝ} (hg : 1 < g) (hg2 : g ≤ 2) (W : Prim) (hW : W.Warm) :
    hllcSR g (primToCons g W) (primToCons g W) W W = physFlux g W := by
  rw [sr_hllc_contact hg hg2 W W hW hW rfl rfl]
  split_ifs <;> rfl

/-- **C104, supersonic flow.**  If every signal of both states goes to the right, the flux is
that of the left state; if every signal goes to the left, that of the right state. -/
theorem sr_hllc_upwind {g : ℝ} (hg : 1 < g) (hg2 : g ≤ 2) (Wl Wr : Prim) (hl : Wl.Warm)
    (hr : Wr.Warm) :
    (0 ≤ (charSpeeds g Wl).lm → 0 ≤ (charSpeeds g Wr).lm →
      hllcSR g (primToCons g Wl) (primToCons g Wr) Wl Wr = physFlux g Wl) ∧
    ((charSpeeds g Wl).lp < 0 → (charSpeeds g Wr).lp < 0 →
      hllcSR g (primToCons g Wl) (primToCons g Wr) Wl Wr = physFlux g Wr) := by
  have hf := fan_of hg hg2 hl hr
  obtain ⟨-, h1, h2, -⟩ := contact_spec hg hg2 hl hr hf
  rw [hllc_pick hg hg2 hl hr]
  constructor
  · intro a b
    have : 0 ≤ (fanSpeeds g Wl Wr).lm := by
      unfold fanSpeeds; dsimp only; split_ifs <;> assumption
    rw [if_pos this]
  · intro a b
    have h3 : (fanSpeeds g Wl Wr).lp < 0 := by
      unfold fanSpeeds; dsimp only; split_ifs <;> assumption
    rw [if_neg (by linarith), if_neg (by linarith), if_neg (by linarith)]

/-! ## Reflection -/

theorem mir_vsq (W : Prim) : W.mir.vsq = W.vsq := by simp [Prim.mir, Prim.vsq]

theorem mir_warm {W : Prim} (h : W.Warm) : W.mir.Warm := ⟨h.d, h.P, by rw [mir_vsq]; exact h.v⟩

theorem mir_speeds (g : ℝ) (W : Prim) : (charSpeeds g W.mir).lm = -(charSpeeds g W).lp ∧
    (charSpeeds g W.mir).lp = -(charSpeeds g W).lm := by
  have e1 : ssC g W.mir = ssC g W := by
    unfold ssC cssqC rhC Prim.mir
    simp
  have e2 : radC g W.mir = radC g W := by
    unfold radC
    rw [e1]
    simp [Prim.mir]
  unfold charSpeeds
  rw [e1, e2]
  simp only [Prim.mir]
  constructor <;> ring

theorem mir_fan (g : ℝ) (Wl Wr : Prim) :
    (fanSpeeds g Wr.mir Wl.mir).lm = -(fanSpeeds g Wl Wr).lp ∧
    (fanSpeeds g Wr.mir Wl.mir).lp = -(fanSpeeds g Wl Wr).lm := by
  have l := mir_speeds g Wl
  have r := mir_speeds g Wr
  unfold fanSpeeds
  dsimp only
  rw [l.1, l.2, r.1, r.2]
  constructor <;> split_ifs <;> linarith

theorem contactRoot_neg (a b c : ℝ) : contactRoot (-a) b (-c) = -contactRoot a b c := by
  unfold contactRoot
  simp only [neg_div]
  rw [show b * b - 4 * -a * -c = b * b - 4 * a * c by ring]

theorem primToCons_mir (g : ℝ) (W : Prim) : primToCons g W.mir =
    ⟨(primToCons g W).d, -(primToCons g W).Mx, (primToCons g W).My, (primToCons g W).Mz,
      (primToCons g W).E⟩ := by
  rw [primToCons_eq, primToCons_eq, mir_vsq]
  simp only [Prim.mir, Prim.enth]
  ext <;> simp only <;> ring

theorem lamS_mir (g ll lr : ℝ) (Wl Wr : Prim) :
    lamS g (-lr) (-ll) Wr.mir Wl.mir = -lamS g ll lr Wl Wr := by
  unfold lamS contactSpeed
  rw [← contactRoot_neg]
  rw [primToCons_mir, primToCons_mir]
  unfold fluxSide fhll uhll
  simp only [Prim.mir]
  congr 1 <;> ring

theorem prsS_mir (g ll lr : ℝ) (Wl Wr : Prim) :
    prsS g (-lr) (-ll) Wr.mir Wl.mir = prsS g ll lr Wl Wr := by
  unfold prsS starPressure
  rw [lamS_mir]
  rw [primToCons_mir, primToCons_mir]
  unfold fluxSide fhll
  simp only [Prim.mir]
  ring

theorem physFlux_mir (g : ℝ) (W : Prim) : physFlux g W.mir = mirFlux (physFlux g W) := by
  unfold physFlux mirFlux Prim.mir
  simp only [neg_sq]
  ext <;> simp only <;> ring

theorem gasFlux_mirL (g ll lr : ℝ) (Wl Wr : Prim) (hd : lr - lamS g ll lr Wl Wr ≠ 0) :
    gasFlux (starL g (-lr) (-ll) Wr.mir Wl.mir) (lamS g (-lr) (-ll) Wr.mir Wl.mir)
      (prsS g (-lr) (-ll) Wr.mir Wl.mir) =
    mirFlux (gasFlux (starR g ll lr Wl Wr) (lamS g ll lr Wl Wr) (prsS g ll lr Wl Wr)) := by
  unfold starL starR
  rw [lamS_mir, prsS_mir, primToCons_mir]
  unfold gasFlux mirFlux starState
  simp only [Prim.mir]
  generalize lamS g ll lr Wl Wr = s at *
  have : -lr - -s ≠ 0 := by intro h; apply hd; linarith
  ext <;> simp only <;> field_simp <;> ring

theorem gasFlux_mirR (g ll lr : ℝ) (Wl Wr : Prim) (hd : ll - lamS g ll lr Wl Wr ≠ 0) :
    gasFlux (starR g (-lr) (-ll) Wr.mir Wl.mir) (lamS g (-lr) (-ll) Wr.mir Wl.mir)
      (prsS g (-lr) (-ll) Wr.mir Wl.mir) =
    mirFlux (gasFlux (starL g ll lr Wl Wr) (lamS g ll lr Wl Wr) (prsS g ll lr Wl Wr)) := by
  unfold starL starR
  rw [lamS_mir, prsS_mir, primToCons_mir]
  unfold gasFlux mirFlux starState
  simp only [Prim.mir]
  generalize lamS g ll lr Wl Wr = s at *
  have : -ll - -s ≠ 0 := by intro h; apply hd; linarith
  ext <;> simp only <;> field_simp <;> ring

/-- **C104, reflection.**  The solver does not distinguish left from right: for reflected states
in exchanged places it returns the reflected flux. -/
theorem sr_hllc_mirror {g : ℝ} (hg : 1 < g) (hg2 : g ≤ 2) (Wl Wr : Prim) (hl : Wl.Warm)
    (hr : Wr.Warm) :
    hllcSR g (primToCons g Wr.mir) (primToCons g Wl.mir) Wr.mir Wl.mir =
      mirFlux (hllcSR g (primToCons g Wl) (primToCons g Wr) Wl Wr) := by
  have hf := fan_of hg hg2 hl hr
  obtain ⟨-, h1, h2, -⟩ := contact_spec hg hg2 hl hr hf
  obtain ⟨_, _, _, _, _, -, -, -, -, j1, j2, j3, -⟩ := sr_hllc_fan hg hg2 Wl Wr hl hr
  rw [hllc_pick hg hg2 hl hr, hllc_pick hg hg2 (mir_warm hr) (mir_warm hl)]
  obtain ⟨m1, m2⟩ := mir_fan g Wl Wr
  simp only [m1, m2]
  rw [gasFlux_mirL g _ _ Wl Wr (by linarith), gasFlux_mirR g _ _ Wl Wr (by linarith),
    physFlux_mir, physFlux_mir, lamS_mir]
  have eL := starFlux_gas g (fanSpeeds g Wl Wr).lm (lamS g (fanSpeeds g Wl Wr).lm
    (fanSpeeds g Wl Wr).lp Wl Wr) (prsS g (fanSpeeds g Wl Wr).lm (fanSpeeds g Wl Wr).lp Wl Wr)
    (by linarith) Wl
  have eR := starFlux_gas g (fanSpeeds g Wl Wr).lp (lamS g (fanSpeeds g Wl Wr).lm
    (fanSpeeds g Wl Wr).lp Wl Wr) (prsS g (fanSpeeds g Wl Wr).lm (fanSpeeds g Wl Wr).lp Wl Wr)
    (by linarith) Wr
  rw [fluxSide_phys g hl.v] at eL
  rw [fluxSide_phys g hr.v] at eR
  change starFlux _ (starL g _ _ Wl Wr) _ _ = gasFlux (starL g _ _ Wl Wr) _ _ at eL
  change starFlux _ (starR g _ _ Wl Wr) _ _ = gasFlux (starR g _ _ Wl Wr) _ _ at eR
  generalize starL g (fanSpeeds g Wl Wr).lm (fanSpeeds g Wl Wr).lp Wl Wr = A at *
  generalize starR g (fanSpeeds g Wl Wr).lm (fanSpeeds g Wl Wr).lp Wl Wr = B at *
  generalize prsS g (fanSpeeds g Wl Wr).lm (fanSpeeds g Wl Wr).lp Wl Wr = p at *
  generalize lamS g (fanSpeeds g Wl Wr).lm (fanSpeeds g Wl Wr).lp Wl Wr = s at *
  generalize (fanSpeeds g Wl Wr).lm = ll at *
  generalize (fanSpeeds g Wl Wr).lp = lr at *
  have z0 : ∀ k U F, k = 0 → starFlux k U (primToCons g Wl) F = F := by
    intro k U F hk; unfold starFlux; ext <;> simp [hk]
  have z1 : ∀ k U F, k = 0 → starFlux k U (primToCons g Wr) F = F := by
    intro k U F hk; unfold starFlux; ext <;> simp [hk]
  have z2 : s = 0 → gasFlux A s p = gasFlux B s p := by
    intro hs; unfold gasFlux; ext <;> simp [hs]
  rcases lt_trichotomy ll 0 with a | a | a <;> rcases lt_trichotomy s 0 with b | b | b <;>
    rcases lt_trichotomy lr 0 with c | c | c <;> (try (exfalso; linarith)) <;>
    simp only [Left.nonneg_neg_iff] <;> split_ifs <;>
    first
    | rfl
    | (exfalso; linarith)
    | rw [z2 b]
    | rw [← eL, z0 _ _ _ a]
    | rw [← eR, z1 _ _ _ c]

/-! The hypotheses are met: a hot jet, moving with 0.6 along and 0.6 across, against gas at
rest. -/

example : Prim.Warm ⟨1, 3 / 5, 3 / 5, 0, 2⟩ ∧ Prim.Warm ⟨4, 0, 0, 0, 1 / 10⟩ := by
  refine ⟨⟨?_, ?_, ?_⟩, ⟨?_, ?_, ?_⟩⟩ <;> norm_num [Prim.vsq]

example (Wl Wr : Prim) (h1 : Wl = ⟨1, 0, 3 / 5, 0, 2⟩) (h2 : Wr = ⟨4, 0, 0, -1 / 2, 2⟩) :
    (hllcSR (4 / 3) (primToCons (4 / 3) Wl) (primToCons (4 / 3) Wr) Wl Wr).d = 0 := by
  rw [sr_hllc_contact (by norm_num) (by norm_num) Wl Wr
    (by subst h1; refine ⟨?_, ?_, ?_⟩ <;> norm_num [Prim.vsq])
    (by subst h2; refine ⟨?_, ?_, ?_⟩ <;> norm_num [Prim.vsq])
    (by subst h1 h2; rfl) (by subst h1 h2; rfl)]
  subst h1
  simp [physFlux]

end Athena.Rel
