import Verif.Hydro.State

/-!
# C25, C26: conversions and the fast speed
-/

namespace Athena.Hydro
noncomputable section
variable {ns : ℕ}

/-! ## Specification -/

/-- Gas pressure of a conserved state: (γ-1)(E - |M|²/(2ρ) - |B|²/2). -/
def gasPressure (p : Phys) (U : Cons1D ns) (Bx : ℝ) : ℝ :=
  (p.gamma - 1) * (U.E - (U.Mx ^ 2 + U.My ^ 2 + U.Mz ^ 2) / (2 * U.d)
    - if p.mhd then (Bx ^ 2 + U.By ^ 2 + U.Bz ^ 2) / 2 else 0)

/-- Gas pressure of a conserved state of a zone. -/
def Cons.pressure (p : Phys) (U : Cons ns) : ℝ :=
  (p.gamma - 1) * (U.E - (U.M1 ^ 2 + U.M2 ^ 2 + U.M3 ^ 2) / (2 * U.d)
    - if p.mhd then (U.B1c ^ 2 + U.B2c ^ 2 + U.B3c ^ 2) / 2 else 0)

/-- Sound speed squared of a primitive state. -/
def soundSq (p : Phys) (W : Prim1D ns) : ℝ := if p.iso then p.cs2 else p.gamma * W.P / W.d

/-- `x` is the square of the phase speed of a magnetosonic wave along the slice:
`x² - (a² + b²) x + a² bx² = 0` with `b² = |B|²/ρ`, `bx² = Bx²/ρ` (for B = 0 a sound wave). -/
def MagnetosonicSq (a2 bx2 b2 x : ℝ) : Prop := x ^ 2 - (a2 + b2) * x + a2 * bx2 = 0

/-! ## Closed forms -/

theorem c2p_eq (p : Phys) (U : Cons1D ns) (Bx : ℝ) (hd : U.d ≠ 0) :
    cons1DToPrim1D p U Bx = some
      { d := U.d, Vx := U.Mx / U.d, Vy := U.My / U.d, Vz := U.Mz / U.d
        P := if p.iso then 0 else max (gasPressure p U Bx) p.tiny
        By := if p.mhd then U.By else 0, Bz := if p.mhd then U.Bz else 0
        r := fun n => U.s n / U.d } := by
  unfold cons1DToPrim1D
  rw [fdiv_ne hd]
  simp only [Option.bind_eq_bind, Option.bind_some, Option.pure_def, Option.some.injEq,
    Prim1D.mk.injEq, and_true, true_and]
  refine ⟨by ring, by ring, by ring, ?_, by funext n; ring⟩
  cases hi : p.iso <;> cases hm : p.mhd <;>
    simp only [gasPressure, Phys.gamma1, hm, fmax_eq, Bool.false_eq_true, if_true, if_false] <;>
    congr 1 <;> field_simp <;> ring

theorem p2c_eq (p : Phys) (W : Prim1D ns) (Bx : ℝ) (hg : p.iso = false → p.gamma ≠ 1) :
    prim1DToCons1D p W Bx = some
      { d := W.d, Mx := W.d * W.Vx, My := W.d * W.Vy, Mz := W.d * W.Vz
        E := if p.iso then 0 else W.P / (p.gamma - 1)
          + 1/2 * W.d * (W.Vx ^ 2 + W.Vy ^ 2 + W.Vz ^ 2)
          + if p.mhd then (Bx ^ 2 + W.By ^ 2 + W.Bz ^ 2) / 2 else 0
        By := if p.mhd then W.By else 0, Bz := if p.mhd then W.Bz else 0
        s := fun n => W.r n * W.d } := by
  unfold prim1DToCons1D
  cases hi : p.iso
  · have : p.gamma1 ≠ 0 := by unfold Phys.gamma1; intro h; exact hg hi (by linarith)
    rw [fdiv_ne this]
    cases hm : p.mhd <;> simp [Phys.gamma1] <;> first | (left; ring) | ring
  · simp

/-! ## C25 -/

/-- C25: primitive → conserved → primitive is the identity for non-zero density and pressure at or
above the floor. -/
theorem prim_cons_prim (p : Phys) (W : Prim1D ns) (Bx : ℝ) (hwf : W.Wf p)
    (hg : p.iso = false → p.gamma ≠ 1) (hd : W.d ≠ 0) (hP : p.iso = false → p.tiny ≤ W.P) :
    ∃ U, prim1DToCons1D p W Bx = some U ∧ cons1DToPrim1D p U Bx = some W := by
  refine ⟨_, p2c_eq p W Bx hg, ?_⟩
  rw [c2p_eq _ _ _ (by exact hd)]
  simp only [Option.some.injEq]
  obtain ⟨h1, h2⟩ := hwf
  ext
  · rfl
  · show W.d * W.Vx / W.d = W.Vx; field_simp
  · show W.d * W.Vy / W.d = W.Vy; field_simp
  · show W.d * W.Vz / W.d = W.Vz; field_simp
  · show (if p.iso = true then (0:ℝ) else _) = W.P
    cases hi : p.iso
    · simp only [Bool.false_eq_true, if_false]
      have hg1 : p.gamma - 1 ≠ 0 := sub_ne_zero.mpr (hg hi)
      have : gasPressure p ({ d := W.d, Mx := W.d * W.Vx, My := W.d * W.Vy, Mz := W.d * W.Vz
                              E := W.P / (p.gamma - 1)
                                + 1/2 * W.d * (W.Vx ^ 2 + W.Vy ^ 2 + W.Vz ^ 2)
                                + if p.mhd then (Bx ^ 2 + W.By ^ 2 + W.Bz ^ 2) / 2 else 0
                              By := if p.mhd then W.By else 0, Bz := if p.mhd then W.Bz else 0
                              s := fun n => W.r n * W.d } : Cons1D ns) Bx = W.P := by
        cases hm : p.mhd <;>
          simp only [gasPressure, hm, Bool.false_eq_true, if_true, if_false] <;> field_simp <;> ring
      rw [this]; exact max_eq_left (hP hi)
    · simp [h1 hi]
  · cases hm : p.mhd
    · simp [(h2 hm).1]
    · simp
  · cases hm : p.mhd
    · simp [(h2 hm).2]
    · simp
  · show W.r _ * W.d / W.d = W.r _; field_simp

/-- C25: conserved → primitive → conserved is the identity unless the pressure is below the floor. -/
theorem cons_prim_cons (p : Phys) (U : Cons1D ns) (Bx : ℝ) (hwf : U.Wf p)
    (hg : p.iso = false → p.gamma ≠ 1) (hd : U.d ≠ 0)
    (hP : p.iso = false → p.tiny ≤ gasPressure p U Bx) :
    ∃ W, cons1DToPrim1D p U Bx = some W ∧ prim1DToCons1D p W Bx = some U := by
  refine ⟨_, c2p_eq p U Bx hd, ?_⟩
  rw [p2c_eq _ _ _ hg]
  simp only [Option.some.injEq]
  obtain ⟨h1, h2⟩ := hwf
  ext
  · rfl
  · show U.d * (U.Mx / U.d) = U.Mx; field_simp
  · show U.d * (U.My / U.d) = U.My; field_simp
  · show U.d * (U.Mz / U.d) = U.Mz; field_simp
  · cases hi : p.iso
    · have hg1 : p.gamma - 1 ≠ 0 := sub_ne_zero.mpr (hg hi)
      simp only [Bool.false_eq_true, if_false]
      rw [max_eq_left (hP hi)]
      cases hm : p.mhd <;>
        simp only [gasPressure, hm, Bool.false_eq_true, if_true, if_false] <;> field_simp <;> ring
    · simp [h1 hi]
  · cases hm : p.mhd
    · simp [(h2 hm).1]
    · simp
  · cases hm : p.mhd
    · simp [(h2 hm).2]
    · simp
  · show U.s _ / U.d * U.d = U.s _; field_simp

/-- C25: for every state of non-zero density, whether or not the floor applies, the pressure returned is
the gas pressure or the floor, whichever is larger; and converting back preserves mass, momentum,
transverse field and scalars, and gives an energy not below the original one. -/
theorem floor_preserves (p : Phys) (U : Cons1D ns) (Bx : ℝ) (hwf : U.Wf p)
    (hg : p.iso = false → 1 < p.gamma) (hd : U.d ≠ 0) :
    ∃ W U', cons1DToPrim1D p U Bx = some W ∧ prim1DToCons1D p W Bx = some U' ∧
      (p.iso = false → p.tiny ≤ W.P ∧ gasPressure p U Bx ≤ W.P ∧
        (W.P = p.tiny ∨ W.P = gasPressure p U Bx)) ∧
      U'.d = U.d ∧ U'.Mx = U.Mx ∧ U'.My = U.My ∧ U'.Mz = U.Mz ∧ U'.By = U.By ∧ U'.Bz = U.Bz ∧
      U'.s = U.s ∧ U.E ≤ U'.E := by
  obtain ⟨h1, h2⟩ := hwf
  have hg' : p.iso = false → p.gamma ≠ 1 := fun h => (hg h).ne'
  refine ⟨_, _, c2p_eq p U Bx hd, p2c_eq _ _ _ hg', ?_, rfl, ?_, ?_, ?_, ?_, ?_, ?_, ?_⟩
  · intro hi
    simp only [hi, Bool.false_eq_true, if_false]
    refine ⟨le_max_right _ _, le_max_left _ _, ?_⟩
    rcases le_total (gasPressure p U Bx) p.tiny with h | h
    · exact Or.inl (max_eq_right h)
    · exact Or.inr (max_eq_left h)
  · show U.d * (U.Mx / U.d) = U.Mx; field_simp
  · show U.d * (U.My / U.d) = U.My; field_simp
  · show U.d * (U.Mz / U.d) = U.Mz; field_simp
  · cases hm : p.mhd
    · simp [(h2 hm).1]
    · simp
  · cases hm : p.mhd
    · simp [(h2 hm).2]
    · simp
  · funext n; show U.s n / U.d * U.d = U.s n; field_simp
  · cases hi : p.iso
    · have hg1 : 0 < p.gamma - 1 := sub_pos.mpr (hg hi)
      simp only [Bool.false_eq_true, if_false]
      have hm1 : gasPressure p U Bx / (p.gamma - 1) ≤
          max (gasPressure p U Bx) p.tiny / (p.gamma - 1) :=
        div_le_div_of_nonneg_right (le_max_left _ _) hg1.le
      have : U.E = gasPressure p U Bx / (p.gamma - 1)
          + 1/2 * U.d * ((U.Mx / U.d) ^ 2 + (U.My / U.d) ^ 2 + (U.Mz / U.d) ^ 2)
          + if p.mhd then (Bx ^ 2 + U.By ^ 2 + U.Bz ^ 2) / 2 else 0 := by
        cases hm : p.mhd <;>
          simp only [gasPressure, hm, Bool.false_eq_true, if_true, if_false] <;> field_simp <;> ring
      cases hm : p.mhd <;> simp only [hm, Bool.false_eq_true, if_true, if_false] at this ⊢ <;>
        linarith
    · simp [h1 hi]

/-- A zone's conserved variables without `B1c`. -/
def Cons.slice (U : Cons ns) : Cons1D ns := ⟨U.d, U.M1, U.M2, U.M3, U.E, U.B2c, U.B3c, U.s⟩

/-- A zone's primitive variables without `B1c`. -/
def Prim.slice (W : Prim ns) : Prim1D ns := ⟨W.d, W.V1, W.V2, W.V3, W.P, W.B2c, W.B3c, W.r⟩

/-- Slice and normal field to zone variables. -/
def Prim1D.zone (W : Prim1D ns) (Bx : ℝ) : Prim ns :=
  ⟨W.d, W.Vx, W.Vy, W.Vz, W.P, Bx, W.By, W.Bz, W.r⟩

/-- Slice and normal field to zone variables. -/
def Cons1D.zone (U : Cons1D ns) (Bx : ℝ) : Cons ns :=
  ⟨U.d, U.Mx, U.My, U.Mz, U.E, Bx, U.By, U.Bz, U.s⟩

/-- The zone-centred conversions are the one-dimensional ones with the members renamed. -/
theorem consToPrim_eq (p : Phys) (U : Cons ns) (hwf : U.Wf p) :
    consToPrim p U = (cons1DToPrim1D p U.slice U.B1c).map fun W => W.zone U.B1c := by
  obtain ⟨h1, h2⟩ := hwf
  unfold consToPrim cons1DToPrim1D Cons.slice Prim1D.zone
  by_cases hd : U.d = 0
  · simp [fdiv, hd]
  · cases hi : p.iso <;> cases hm : p.mhd <;> simp [fdiv_ne hd]
    · exact (h2 hm).1.symm
    · exact (h2 hm).1.symm

theorem primToCons_eq (p : Phys) (W : Prim ns) (hwf : W.Wf p) :
    primToCons p W = (prim1DToCons1D p W.slice W.B1c).map fun U => U.zone W.B1c := by
  obtain ⟨h1, h2⟩ := hwf
  unfold primToCons prim1DToCons1D Prim.slice Cons1D.zone
  by_cases hg : p.gamma1 = 0
  · cases hi : p.iso <;> cases hm : p.mhd <;> simp [fdiv, hg]
    exact (h2 hm).1.symm
  · cases hi : p.iso <;> cases hm : p.mhd <;> simp [fdiv_ne hg]
    · exact (h2 hm).1.symm
    · exact (h2 hm).1.symm

/-- C25 for `Prim_to_Cons` then `Cons_to_Prim`. -/
theorem zone_prim_cons_prim (p : Phys) (W : Prim ns) (hwf : W.Wf p)
    (hg : p.iso = false → p.gamma ≠ 1) (hd : W.d ≠ 0) (hP : p.iso = false → p.tiny ≤ W.P) :
    ∃ U, primToCons p W = some U ∧ consToPrim p U = some W := by
  obtain ⟨U, h1, h2⟩ := prim_cons_prim p W.slice W.B1c ⟨hwf.1, fun h => (hwf.2 h).2⟩ hg hd hP
  have hU : U.Wf p := by
    have := p2c_eq p W.slice W.B1c hg
    rw [h1] at this
    obtain rfl := Option.some.inj this
    constructor
    · intro h; simp [h]
    · intro h; simp [h]
  refine ⟨U.zone W.B1c, by rw [primToCons_eq p W hwf, h1]; rfl, ?_⟩
  rw [consToPrim_eq p _ ⟨hU.1, fun h => ⟨(hwf.2 h).1, hU.2 h⟩⟩]
  show (cons1DToPrim1D p U W.B1c).map _ = _
  rw [h2]; rfl

/-- C25 for `Cons_to_Prim` then `Prim_to_Cons`. -/
theorem zone_cons_prim_cons (p : Phys) (U : Cons ns) (hwf : U.Wf p)
    (hg : p.iso = false → p.gamma ≠ 1) (hd : U.d ≠ 0)
    (hP : p.iso = false → p.tiny ≤ U.pressure p) :
    ∃ W, consToPrim p U = some W ∧ primToCons p W = some U := by
  obtain ⟨W, h1, h2⟩ := cons_prim_cons p U.slice U.B1c ⟨hwf.1, fun h => (hwf.2 h).2⟩ hg hd hP
  have hW : W.Wf p := by
    have := c2p_eq p U.slice U.B1c hd
    rw [h1] at this
    obtain rfl := Option.some.inj this
    constructor
    · intro h; simp [h]
    · intro h; simp [h]
  refine ⟨W.zone U.B1c, by rw [consToPrim_eq p U hwf, h1]; rfl, ?_⟩
  rw [primToCons_eq p _ ⟨hW.1, fun h => ⟨(hwf.2 h).1, hW.2 h⟩⟩]
  show (prim1DToCons1D p W U.B1c).map _ = _
  rw [h2]; rfl

/-! ## C26 -/

theorem sqrt_disc_ge (a2 c2 t2 : ℝ) (ha : 0 ≤ a2) (ht : 0 ≤ t2) :
    |c2 + t2 - a2| ≤ Real.sqrt ((c2 + t2 - a2) * (c2 + t2 - a2) + 4 * a2 * t2) := by
  rw [← Real.sqrt_sq_eq_abs]
  apply Real.sqrt_le_sqrt
  nlinarith [mul_nonneg ha ht]

/-- The value computed by the common tail, and its characterisation: the square of the speed returned is
the largest root of the dispersion relation. -/
theorem fastSpeed_spec (p : Phys) (asq By Bz d Bx : ℝ) (hd : 0 < d) (ha : 0 ≤ asq) :
    ∃ cf, fastSpeed p asq By Bz d Bx = some cf ∧ 0 ≤ cf ∧
      (p.mhd = false → cf ^ 2 = asq) ∧
      (p.mhd = true → MagnetosonicSq asq (Bx ^ 2 / d) ((Bx ^ 2 + By ^ 2 + Bz ^ 2) / d) (cf ^ 2) ∧
        (∀ x, MagnetosonicSq asq (Bx ^ 2 / d) ((Bx ^ 2 + By ^ 2 + Bz ^ 2) / d) x → x ≤ cf ^ 2) ∧
        asq ≤ cf ^ 2 ∧ Bx ^ 2 / d ≤ cf ^ 2 ∧
        cf ^ 2 ≤ asq + (Bx ^ 2 + By ^ 2 + Bz ^ 2) / d) := by
  unfold fastSpeed
  cases hm : p.mhd
  · exact ⟨Real.sqrt asq, by simp [fsqrt_nonneg ha], Real.sqrt_nonneg _,
      fun _ => Real.sq_sqrt ha, by simp⟩
  · set c2 := Bx * Bx / d with hc
    set t2 := (By * By + Bz * Bz) / d with ht
    have hc2 : 0 ≤ c2 := div_nonneg (mul_self_nonneg _) hd.le
    have ht2 : 0 ≤ t2 := div_nonneg (add_nonneg (mul_self_nonneg _) (mul_self_nonneg _)) hd.le
    have hD : 0 ≤ (c2 + t2 - asq) * (c2 + t2 - asq) + 4 * asq * t2 := by
      have := mul_self_nonneg (c2 + t2 - asq); have := mul_nonneg ha ht2; linarith
    set D := Real.sqrt ((c2 + t2 - asq) * (c2 + t2 - asq) + 4 * asq * t2) with hDd
    have hD0 : 0 ≤ D := Real.sqrt_nonneg _
    have hDsq : D * D = (c2 + t2 - asq) * (c2 + t2 - asq) + 4 * asq * t2 := Real.mul_self_sqrt hD
    have hge := sqrt_disc_ge asq c2 t2 ha ht2
    rw [← hDd] at hge
    have hx : 0 ≤ 1/2 * ((asq + t2 + c2) + D) := by positivity
    have eB : (Bx ^ 2 + By ^ 2 + Bz ^ 2) / d = c2 + t2 := by rw [hc, ht]; ring
    have eb : Bx ^ 2 / d = c2 := by rw [hc]; ring
    refine ⟨Real.sqrt (1/2 * ((asq + t2 + c2) + D)), ?_, Real.sqrt_nonneg _, by simp, ?_⟩
    · rw [if_pos rfl, fdiv_pos hd, fdiv_pos hd]
      simp only [Option.bind_eq_bind, Option.bind_some]
      rw [← hc, ← ht, fsqrt_nonneg hD, ← hDd]
      simp only [Option.bind_some]
      rw [fsqrt_nonneg hx]
    · intro _
      rw [Real.sq_sqrt hx, eB, eb]
      have h1 := le_abs_self (c2 + t2 - asq)
      have h2 := neg_abs_le (c2 + t2 - asq)
      refine ⟨?_, ?_, by linarith, by linarith, ?_⟩
      · unfold MagnetosonicSq; nlinarith
      · intro x hx
        unfold MagnetosonicSq at hx
        by_contra hlt
        push Not at hlt
        have : D < 2 * x - (asq + t2 + c2) := by linarith
        nlinarith
      · have : D ≤ asq + (c2 + t2) := by
          rw [hDd]; apply Real.sqrt_le_iff.mpr
          constructor
          · positivity
          · nlinarith [mul_nonneg ha hc2]
        linarith

/-- C26: for every state of positive density and non-negative pressure `cfast_prim` returns a real
number that is at least the sound speed and (with MHD) the Alfvén speed along the slice, and is the
fastest magnetosonic speed: its square is the largest root of the dispersion relation. -/
theorem cfastPrim_spec (p : Phys) (W : Prim1D ns) (Bx : ℝ) (hd : 0 < W.d)
    (hP : p.iso = false → 0 ≤ p.gamma * W.P) (hcs : p.iso = true → 0 ≤ p.cs2) :
    ∃ cf, cfastPrim p W Bx = some cf ∧ 0 ≤ cf ∧ Real.sqrt (soundSq p W) ≤ cf ∧
      (p.mhd = true → |Bx| / Real.sqrt W.d ≤ cf ∧
        MagnetosonicSq (soundSq p W) (Bx ^ 2 / W.d) ((Bx ^ 2 + W.By ^ 2 + W.Bz ^ 2) / W.d) (cf ^ 2) ∧
        (∀ x, MagnetosonicSq (soundSq p W) (Bx ^ 2 / W.d)
            ((Bx ^ 2 + W.By ^ 2 + W.Bz ^ 2) / W.d) (x ^ 2) → |x| ≤ cf)) ∧
      (p.mhd = false ∨ (Bx = 0 ∧ W.By = 0 ∧ W.Bz = 0) → cf = Real.sqrt (soundSq p W)) := by
  have hs : 0 ≤ soundSq p W := by
    unfold soundSq; cases hi : p.iso
    · simpa using div_nonneg (hP hi) hd.le
    · simpa using hcs hi
  obtain ⟨cf, h1, h0, h2, h3⟩ := fastSpeed_spec p (soundSq p W) W.By W.Bz W.d Bx hd hs
  have e : cfastPrim p W Bx = fastSpeed p (soundSq p W) W.By W.Bz W.d Bx := by
    unfold cfastPrim soundSq
    cases hi : p.iso
    · simp [fdiv_pos hd]
    · simp
  refine ⟨cf, by rw [e, h1], h0, ?_, ?_, ?_⟩
  · apply Real.sqrt_le_iff.mpr ⟨h0, ?_⟩
    cases hm : p.mhd
    · exact (h2 hm).ge
    · exact (h3 hm).2.2.1
  · intro hm
    obtain ⟨g1, g2, g3, g4, g5⟩ := h3 hm
    refine ⟨?_, g1, ?_⟩
    · rw [← Real.sqrt_sq_eq_abs, ← Real.sqrt_div (sq_nonneg _)]
      exact Real.sqrt_le_iff.mpr ⟨h0, g4⟩
    · intro x hx
      exact abs_le_of_sq_le_sq (g2 _ hx) h0
  · intro h
    have : cf ^ 2 = soundSq p W := by
      cases hm : p.mhd
      · exact h2 hm
      · obtain ⟨g1, g2, g3, g4, g5⟩ := h3 hm
        rcases h with h | ⟨rfl, hy, hz⟩
        · simp [hm] at h
        · rw [hy, hz] at g5
          apply le_antisymm _ g3
          simpa using g5
    rw [← this, Real.sqrt_sq h0]

/-- C26: the fast speed does not depend on the sign of any field component. -/
theorem cfastPrim_sign (p : Phys) (W : Prim1D ns) (Bx : ℝ) (sx sy sz : ℝ) (hx : sx ^ 2 = 1)
    (hy : sy ^ 2 = 1) (hz : sz ^ 2 = 1) :
    cfastPrim p { W with By := sy * W.By, Bz := sz * W.Bz } (sx * Bx) = cfastPrim p W Bx := by
  have e : ∀ s v : ℝ, s ^ 2 = 1 → s * v * (s * v) = v * v := by
    intro s v h; linear_combination v * v * h
  unfold cfastPrim fastSpeed
  simp only [e _ _ hx, e _ _ hy, e _ _ hz]

/-- C26: `cfast` of the conserved variables is `cfast_prim` of the primitive variables obtained from
them whenever the pressure is not below the floor, so all of the above holds for it. -/
theorem cfast_eq (p : Phys) (U : Cons1D ns) (Bx : ℝ) (hwf : U.Wf p) (hd : U.d ≠ 0)
    (hP : p.iso = false → p.tiny ≤ gasPressure p U Bx) :
    ∃ W, cons1DToPrim1D p U Bx = some W ∧ cfast p U Bx = cfastPrim p W Bx := by
  refine ⟨_, c2p_eq p U Bx hd, ?_⟩
  unfold cfast cfastPrim
  have hB : ∀ q : ℝ, fastSpeed p q U.By U.Bz U.d Bx =
      fastSpeed p q (if p.mhd then U.By else 0) (if p.mhd then U.Bz else 0) U.d Bx := by
    intro q; cases hm : p.mhd
    · simp [fastSpeed, hm]
    · simp
  cases hi : p.iso
  · simp only [Bool.false_eq_true, if_false]
    rw [max_eq_left (hP hi), fdiv_ne hd]
    simp only [Option.bind_eq_bind, Option.bind_some]
    rw [fdiv_ne hd, fdiv_ne hd]
    simp only [Option.bind_some]
    rw [← hB]
    congr 2
    cases hm : p.mhd <;>
      simp only [gasPressure, Phys.gamma1, hm, Bool.false_eq_true, if_true, if_false] <;>
      field_simp <;> ring
  · simp only [if_true, Option.pure_def, Option.bind_eq_bind, Option.bind_some]
    exact hB _

/-- The fast speed of conserved variables with negative pressure is not real in hydrodynamics: `cfast`,
unlike the conversion, has no floor. -/
theorem cfast_no_floor (p : Phys) (U : Cons1D ns) (Bx : ℝ) (hi : p.iso = false) (hm : p.mhd = false)
    (hg : 0 < p.gamma) (hd : 0 < U.d) (hP : gasPressure p U Bx < 0) : cfast p U Bx = none := by
  unfold cfast fastSpeed
  simp only [hi, hm, Bool.false_eq_true, if_false]
  rw [fdiv_pos hd]
  simp only [Option.bind_eq_bind, Option.bind_some]
  rw [fdiv_pos hd]
  simp only [Option.bind_some]
  unfold fsqrt
  rw [if_pos]
  apply div_neg_of_neg_of_pos _ hd
  apply mul_neg_of_pos_of_neg hg
  unfold gasPressure at hP
  simp only [hm, Bool.false_eq_true, if_false] at hP
  have : U.E - 0 - 1 / 2 * (U.Mx * U.Mx + U.My * U.My + U.Mz * U.Mz) / U.d =
    U.E - (U.Mx ^ 2 + U.My ^ 2 + U.Mz ^ 2) / (2 * U.d) - 0 := by field_simp; ring
  unfold Phys.gamma1
  rw [this]; exact hP

/-! ## The hypotheses are met -/

/-- Adiabatic MHD, γ = 5/3. -/
def ph0 : Phys := { iso := false, mhd := true, gamma := 5/3, cs2 := 0, tiny := 1/100 }
/-- A state with one scalar. -/
def w0 : Prim1D 1 := { d := 2, Vx := 1, Vy := -3, Vz := 0, P := 4, By := 5, Bz := -1, r := fun _ => 1/2 }

example : ∃ U, prim1DToCons1D ph0 w0 3 = some U ∧ cons1DToPrim1D ph0 U 3 = some w0 :=
  prim_cons_prim ph0 w0 3 (by simp [Prim1D.Wf, ph0]) (by norm_num [ph0]) (by norm_num [w0])
    (by norm_num [ph0, w0])

/-- A state whose energy is too small for its momentum and field. -/
def u0 : Cons1D 0 := { d := 1, Mx := 1, My := 0, Mz := 0, E := 1, By := 2, Bz := 0, s := fun _ => 0 }
example : u0.Wf ph0 := by simp [Cons1D.Wf, ph0]
example : gasPressure ph0 u0 0 < ph0.tiny := by norm_num [gasPressure, ph0, u0]
example : ∃ U : Cons1D 0, ph0.tiny ≤ gasPressure ph0 U 1 :=
  ⟨{ u0 with E := 10 }, by norm_num [gasPressure, ph0, u0]⟩
example : ∃ cf, cfastPrim ph0 w0 3 = some cf ∧ 0 ≤ cf := by
  obtain ⟨cf, h, h0, -⟩ := cfastPrim_spec ph0 w0 3 (by norm_num [w0]) (by norm_num [ph0, w0]) (by simp [ph0])
  exact ⟨cf, h, h0⟩

end
end Athena.Hydro
