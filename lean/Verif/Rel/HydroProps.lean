import Verif.Rel.Speed

/-!
Special-relativistic hydrodynamics: the two conversions are inverse to each other.
-/
namespace Athena.Rel

/-- Squared speed of a primitive state, in units of the speed of light. -/
def Prim.vsq (W : Prim) : ℝ := W.Vx ^ 2 + W.Vy ^ 2 + W.Vz ^ 2

/-- A physical primitive state: positive density, non-negative pressure, slower than light. -/
structure Prim.Physical (W : Prim) : Prop where
  d : 0 < W.d
  P : 0 ≤ W.P
  v : W.vsq < 1

/-- Squared momentum of a conserved state. -/
def Cons.msq (U : Cons) : ℝ := U.Mx ^ 2 + U.My ^ 2 + U.Mz ^ 2

/-- An admissible conserved state: positive mass, and an energy not below that of cold matter
with this mass and momentum. -/
structure Cons.Admissible (U : Cons) : Prop where
  d : 0 < U.d
  E : 0 < U.E
  le : U.msq + U.d ^ 2 ≤ U.E ^ 2

/-- The relativistic enthalpy density of the ideal gas. -/
noncomputable def Prim.enth (g : ℝ) (W : Prim) : ℝ := W.d + g / (g - 1) * W.P

theorem vsq_nonneg (W : Prim) : 0 ≤ W.vsq := by unfold Prim.vsq; positivity

theorem primToCons_eq (g : ℝ) (W : Prim) : primToCons g W =
    ⟨√(1 / (1 - W.vsq)) * W.d, W.enth g / (1 - W.vsq) * W.Vx, W.enth g / (1 - W.vsq) * W.Vy,
      W.enth g / (1 - W.vsq) * W.Vz, W.enth g / (1 - W.vsq) - W.P⟩ := by
  have h : W.Vx * W.Vx + W.Vy * W.Vy + W.Vz * W.Vz = W.vsq := by unfold Prim.vsq; ring
  unfold primToCons Prim.enth
  simp only [h]
  ext <;> simp only <;> ring

theorem enth_ge {g : ℝ} (hg : 1 < g) {W : Prim} (hW : W.Physical) : W.d ≤ W.enth g := by
  have h1 : 0 < g - 1 := by linarith
  have := mul_nonneg (div_nonneg (by linarith : (0:ℝ) ≤ g) h1.le) hW.P
  unfold Prim.enth
  linarith

theorem msq_primToCons (g : ℝ) (W : Prim) :
    (primToCons g W).msq = (W.enth g / (1 - W.vsq)) ^ 2 * W.vsq := by
  rw [primToCons_eq]
  unfold Cons.msq Prim.vsq
  ring

/-- Every physical state has an admissible conserved state. -/
theorem primToCons_admissible {g : ℝ} (hg : 1 < g) (hg2 : g ≤ 2) {W : Prim} (hW : W.Physical) :
    (primToCons g W).Admissible := by
  have h1 : 0 < 1 - W.vsq := by linarith [hW.v]
  have hv := vsq_nonneg W
  have hd := hW.d
  have hP := hW.P
  have hh := enth_ge hg hW
  have ha : 0 < g - 1 := by linarith
  -- enthalpy exceeds pressure
  have hhP : W.P + W.d ≤ W.enth g := by
    unfold Prim.enth
    have : W.P ≤ g / (g - 1) * W.P := by
      have h2 : 1 ≤ g / (g - 1) := by rw [le_div_iff₀ ha]; linarith
      nlinarith
    linarith
  have hhP' : W.P + W.d ≤ W.enth g - W.P := by
    unfold Prim.enth
    have : 2 * W.P ≤ g / (g - 1) * W.P := by
      have h2 : 2 ≤ g / (g - 1) := by rw [le_div_iff₀ ha]; linarith
      nlinarith
    linarith
  have hm := msq_primToCons g W
  rw [primToCons_eq] at hm ⊢
  constructor
  · have : 0 < √(1 / (1 - W.vsq)) := Real.sqrt_pos.2 (by positivity)
    simp only
    positivity
  · simp only
    have : W.enth g ≤ W.enth g / (1 - W.vsq) := by
      rw [le_div_iff₀ h1]
      nlinarith
    linarith
  · rw [hm]
    simp only
    have hs : (√(1 / (1 - W.vsq)) * W.d) ^ 2 = W.d ^ 2 / (1 - W.vsq) := by
      rw [mul_pow, Real.sq_sqrt (by positivity)]
      ring
    rw [hs]
    generalize W.enth g = h at *
    generalize hn : W.vsq = n at *
    have e : (h / (1 - n) - W.P) ^ 2 - ((h / (1 - n)) ^ 2 * n + W.d ^ 2 / (1 - n)) =
        ((h - W.P) ^ 2 - W.d ^ 2 - n * W.P ^ 2) / (1 - n) := by
      field_simp
      ring
    have : 0 ≤ ((h - W.P) ^ 2 - W.d ^ 2 - n * W.P ^ 2) / (1 - n) := by
      apply div_nonneg _ h1.le
      nlinarith [mul_nonneg hv (mul_nonneg hP hP)]
    linarith

/-- What the program needs to know about the conserved variables of a physical state. -/
theorem speed_primToCons {g : ℝ} (hg : 1 < g) (hg2 : g ≤ 2) {W : Prim} (hW : W.Physical)
    (hv : 0 < W.vsq) :
    speed (coef g √(primToCons g W).msq (√(primToCons g W).msq * √(primToCons g W).msq)
      (primToCons g W).E (primToCons g W).d) = some √W.vsq := by
  have hadm := primToCons_admissible hg hg2 hW
  have h1 : 0 < 1 - W.vsq := by linarith [hW.v]
  have hd := hW.d
  have hP := hW.P
  have hh := enth_ge hg hW
  have ha : 0 < g - 1 := by linarith
  have hm := msq_primToCons g W
  have hh0 : 0 < W.enth g / (1 - W.vsq) := div_pos (by linarith) h1
  have hM : √(primToCons g W).msq = W.enth g / (1 - W.vsq) * √W.vsq := by
    rw [hm, Real.sqrt_mul (by positivity), Real.sqrt_sq hh0.le]
  have hvp : 0 < √W.vsq := Real.sqrt_pos.2 hv
  have hMp : 0 < √(primToCons g W).msq := by rw [hM]; positivity
  have hM2 : √(primToCons g W).msq ^ 2 = (primToCons g W).msq :=
    Real.sq_sqrt (by rw [hm]; positivity)
  obtain ⟨a, rfl⟩ : ∃ a, g = 1 + a := ⟨g - 1, by ring⟩
  have hsv : √W.vsq ^ 2 = W.vsq := Real.sq_sqrt hv.le
  have hw0 : 0 < √(1 - W.vsq) := Real.sqrt_pos.2 h1
  have hw2 : √(1 - W.vsq) ^ 2 = 1 - W.vsq := Real.sq_sqrt h1.le
  have hD : (primToCons (1 + a) W).d = W.d / √(1 - W.vsq) := by
    rw [primToCons_eq]
    simp only
    rw [Real.sqrt_div (by norm_num), Real.sqrt_one]
    ring
  have hE : (primToCons (1 + a) W).E = W.enth (1 + a) / (1 - W.vsq) - W.P := by
    rw [primToCons_eq]
  have ha0 : 0 < a := by linarith
  have hen : a * W.enth (1 + a) = a * W.d + (1 + a) * W.P := by
    unfold Prim.enth
    have : (1 + a - 1) = a := by ring
    rw [this]
    field_simp
  apply speed_eq ha0 (by linarith) hMp hadm.d (by rw [hM2]; exact hadm.le) hvp
    (by rw [Real.sqrt_lt' (by norm_num)]; linarith [hW.v])
    (w := √(1 - W.vsq)) (by rw [hw2, hsv]) hw0
  · rw [hM, hD, hE]
    generalize √W.vsq = v at *
    generalize √(1 - W.vsq) = w at *
    have hn : 1 - W.vsq = w ^ 2 := hw2.symm
    have hv2 : v ^ 2 = 1 - w ^ 2 := by rw [hsv, ← hn]; ring
    rw [hn]
    generalize W.enth (1 + a) = h at *
    have e : (1 + a) * (h / w ^ 2 - W.P) * v - a * (h / w ^ 2 * v) * v ^ 2 - h / w ^ 2 * v =
        v * ((1 + a) * h - (1 + a) * W.P * w ^ 2 - a * h * v ^ 2 - h) / w ^ 2 := by
      field_simp
    rw [e, hv2]
    have e2 : (1 + a) * h - (1 + a) * W.P * w ^ 2 - a * h * (1 - w ^ 2) - h = a * W.d * w ^ 2 := by
      linear_combination w ^ 2 * hen
    rw [e2]
    field_simp
  · rw [hM, hD]
    generalize √W.vsq = v at *
    generalize √(1 - W.vsq) = w at *
    rw [hw2.symm]
    have : W.enth (1 + a) / w ^ 2 * v * w = v * (W.enth (1 + a) / w) := by field_simp
    rw [this]
    have h5 : W.d / w ≤ W.enth (1 + a) / w := by gcongr
    nlinarith

/-- The conversion back, in terms of the squared momentum. -/
theorem consToPrim_eq (g : ℝ) (U : Cons) : consToPrim g U =
    let v := clamp (if √U.msq < tiny then some 0 else
      speed (coef g √U.msq (√U.msq * √U.msq) U.E U.d))
    let k := if √U.msq < tiny then 0 else v / √U.msq
    ⟨√(1 - v * v) * U.d, U.Mx * k, U.My * k, U.Mz * k,
      (g - 1) * ((U.E - U.Mx * (U.Mx * k) - U.My * (U.My * k) - U.Mz * (U.Mz * k))
        - √(1 - v * v) * U.d)⟩ := by
  have h : U.Mx * U.Mx + U.My * U.My + U.Mz * U.Mz = U.msq := by unfold Cons.msq; ring
  have h0 : 0 ≤ U.msq := by unfold Cons.msq; positivity
  unfold consToPrim
  simp only [h, abs_of_nonneg (Real.sqrt_nonneg _), Real.mul_self_sqrt h0]

theorem clamp_of {v : ℝ} (h0 : 0 ≤ v) (h1 : v ≤ 1 - 1 / 10 ^ 15) : clamp (some v) = v := by
  unfold clamp
  have : (if v > 0 then v else 0) = v := by
    split_ifs with h
    · rfl
    · linarith
  simp only [this]
  split_ifs with h
  · rfl
  · linarith

/-- **C99, first half.**  For every adiabatic index `1 < Γ ≤ 2` and every physical primitive
state that is at rest, or has momentum at least `10⁻²⁰` and speed at most `1 - 10⁻¹⁵`, converting
to conserved variables and back returns the same state. -/
theorem sr_hydro_round_trip {g : ℝ} (hg : 1 < g) (hg2 : g ≤ 2) (W : Prim) (hW : W.Physical)
    (hm : W.vsq = 0 ∨ (1 / 10 ^ 20) ^ 2 ≤ (primToCons g W).msq)
    (hv : W.vsq ≤ (1 - 1 / 10 ^ 15) ^ 2) :
    consToPrim g (primToCons g W) = W := by
  have h1 : 0 < 1 - W.vsq := by linarith [hW.v]
  have hd := hW.d
  have ha : 0 < g - 1 := by linarith
  have hh := enth_ge hg hW
  have hh0 : 0 < W.enth g / (1 - W.vsq) := div_pos (by linarith) h1
  have hmsq := msq_primToCons g W
  have hw0 : 0 < √(1 - W.vsq) := Real.sqrt_pos.2 h1
  have hw2 : √(1 - W.vsq) ^ 2 = 1 - W.vsq := Real.sq_sqrt h1.le
  have hdd : √(1 - W.vsq) * (primToCons g W).d = W.d := by
    rw [primToCons_eq]
    simp only
    rw [← mul_assoc, ← Real.sqrt_mul h1.le, mul_one_div, div_self h1.ne', Real.sqrt_one, one_mul]
  rw [consToPrim_eq]
  by_cases hv0 : W.vsq = 0
  · have hm0 : (primToCons g W).msq = 0 := by rw [hmsq, hv0, mul_zero]
    have ht : (0 : ℝ) < tiny := by unfold tiny; positivity
    have hx : W.Vx = 0 ∧ W.Vy = 0 ∧ W.Vz = 0 := by
      unfold Prim.vsq at hv0
      refine ⟨?_, ?_, ?_⟩ <;>
        nlinarith [sq_nonneg W.Vx, sq_nonneg W.Vy, sq_nonneg W.Vz]
    simp only [hm0, Real.sqrt_zero, ht, if_true]
    rw [clamp_of le_rfl (by norm_num)]
    simp only [mul_zero, sub_zero, Real.sqrt_one, one_mul]
    have hd1 : (primToCons g W).d = W.d := by
      rw [hv0] at hdd
      simpa using hdd
    rw [hd1]
    have hE : (primToCons g W).E = W.enth g - W.P := by
      rw [primToCons_eq, hv0]; simp
    rw [hE]
    ext
    · rfl
    · exact hx.1.symm
    · exact hx.2.1.symm
    · exact hx.2.2.symm
    · simp only
      unfold Prim.enth
      field_simp
      ring
  · have hvp : 0 < W.vsq := lt_of_le_of_ne (vsq_nonneg W) (Ne.symm hv0)
    have hm1 := hm.resolve_left hv0
    have ht : ¬ √(primToCons g W).msq < tiny := by
      rw [not_lt]
      apply Real.le_sqrt_of_sq_le
      unfold tiny
      exact hm1
    have hM : √(primToCons g W).msq = W.enth g / (1 - W.vsq) * √W.vsq := by
      rw [hmsq, Real.sqrt_mul (by positivity), Real.sqrt_sq hh0.le]
    have hsv : √W.vsq * √W.vsq = W.vsq := Real.mul_self_sqrt hvp.le
    have hsp : 0 < √W.vsq := Real.sqrt_pos.2 hvp
    have hcl : clamp (some √W.vsq) = √W.vsq := by
      apply clamp_of (Real.sqrt_nonneg _)
      rw [Real.sqrt_le_left (by norm_num)]
      exact hv
    simp only [ht, if_false, speed_primToCons hg hg2 hW hvp, hcl, hsv, hdd]
    have hk : ∀ x, W.enth g / (1 - W.vsq) * x * (√W.vsq / √(primToCons g W).msq) = x := by
      intro x
      rw [hM]
      have h7 := hh0.ne'
      generalize W.enth g / (1 - W.vsq) = z at *
      field_simp
    have hMx : (primToCons g W).Mx = W.enth g / (1 - W.vsq) * W.Vx := by rw [primToCons_eq]
    have hMy : (primToCons g W).My = W.enth g / (1 - W.vsq) * W.Vy := by rw [primToCons_eq]
    have hMz : (primToCons g W).Mz = W.enth g / (1 - W.vsq) * W.Vz := by rw [primToCons_eq]
    have hE : (primToCons g W).E = W.enth g / (1 - W.vsq) - W.P := by rw [primToCons_eq]
    rw [hMx, hMy, hMz, hk, hk, hk, hE]
    ext
    · rfl
    · rfl
    · rfl
    · rfl
    · simp only
      have e : W.enth g / (1 - W.vsq) - W.P - W.enth g / (1 - W.vsq) * W.Vx * W.Vx -
          W.enth g / (1 - W.vsq) * W.Vy * W.Vy - W.enth g / (1 - W.vsq) * W.Vz * W.Vz - W.d =
          W.enth g / (1 - W.vsq) * (1 - W.vsq) - W.P - W.d := by
        unfold Prim.vsq
        ring
      rw [e, div_mul_cancel₀ _ h1.ne']
      unfold Prim.enth
      field_simp
      ring

/-- A relativistic flow meets the hypotheses: `d = 1`, `V = (3/5, 0, 0)`, `P = 1`, `Γ = 4/3`. -/
example : consToPrim (4 / 3) (primToCons (4 / 3) ⟨1, 3 / 5, 0, 0, 1⟩) = ⟨1, 3 / 5, 0, 0, 1⟩ := by
  apply sr_hydro_round_trip (by norm_num) (by norm_num)
  · exact ⟨by norm_num, by norm_num, by norm_num [Prim.vsq]⟩
  · right
    rw [msq_primToCons]
    norm_num [Prim.vsq, Prim.enth]
  · norm_num [Prim.vsq]

/-- Without the lower bound on the momentum the state is not recovered: the velocity of a flow
with momentum below `10⁻²⁰` is replaced by zero. -/
theorem sr_hydro_slow_false : ∃ W : Prim, W.Physical ∧
    W.vsq ≤ (1 - 1 / 10 ^ 15) ^ 2 ∧ consToPrim 2 (primToCons 2 W) ≠ W := by
  refine ⟨⟨1, 1 / 10 ^ 21, 0, 0, 0⟩, ⟨by norm_num, by norm_num, by norm_num [Prim.vsq]⟩,
    by norm_num [Prim.vsq], ?_⟩
  intro h
  have hx := congrArg Prim.Vx h
  rw [consToPrim_eq] at hx
  have ht : √(primToCons 2 ⟨1, 1 / 10 ^ 21, 0, 0, 0⟩).msq < tiny := by
    rw [Real.sqrt_lt' (by unfold tiny; positivity), msq_primToCons]
    norm_num [Prim.vsq, Prim.enth, tiny]
  simp only [ht, if_true, mul_zero] at hx
  norm_num at hx

/-- Every admissible conserved state is that of some physical primitive state. -/
theorem admissible_has_prim {g : ℝ} (hg : 1 < g) (U : Cons) (hU : U.Admissible) :
    ∃ W : Prim, W.Physical ∧ primToCons g W = U := by
  have hd := hU.d
  have hE := hU.E
  have hle := hU.le
  have ha : 0 < g - 1 := by linarith
  have hm0 : 0 ≤ U.msq := by unfold Cons.msq; positivity
  by_cases hz : U.msq = 0
  · have hx : U.Mx = 0 ∧ U.My = 0 ∧ U.Mz = 0 := by
      unfold Cons.msq at hz
      refine ⟨?_, ?_, ?_⟩ <;>
        nlinarith [sq_nonneg U.Mx, sq_nonneg U.My, sq_nonneg U.Mz]
    refine ⟨⟨U.d, 0, 0, 0, (g - 1) * (U.E - U.d)⟩, ⟨hd, ?_, by simp [Prim.vsq]⟩, ?_⟩
    · have : U.d ≤ U.E := by
        rw [hz] at hle
        nlinarith
      simp only
      nlinarith
    · rw [primToCons_eq]
      simp only [Prim.vsq, Prim.enth]
      ext
      · simp
      · simp [hx.1]
      · simp [hx.2.1]
      · simp [hx.2.2]
      · simp only
        norm_num
        field_simp
        ring
  · have hmp : 0 < U.msq := lt_of_le_of_ne hm0 (Ne.symm hz)
    have hMp : 0 < √U.msq := Real.sqrt_pos.2 hmp
    have hM2 : √U.msq ^ 2 = U.msq := Real.sq_sqrt hm0
    have hME : √U.msq < U.E := by nlinarith
    obtain ⟨v, hv0, hv1, hfv⟩ : ∃ v, 0 < v ∧ v < 1 ∧
        g * U.E * v - (g - 1) * √U.msq * v ^ 2 - √U.msq =
          (g - 1) * U.d * v * √(1 - v ^ 2) := by
      have hcont : ContinuousOn (fun x : ℝ => g * U.E * x - (g - 1) * √U.msq * x ^ 2 - √U.msq
          - (g - 1) * U.d * x * √(1 - x ^ 2)) (Set.Icc 0 1) := by fun_prop
      have h0 : (0 : ℝ) ∈ Set.Ioo ((fun x : ℝ => g * U.E * x - (g - 1) * √U.msq * x ^ 2 - √U.msq
          - (g - 1) * U.d * x * √(1 - x ^ 2)) 0) ((fun x : ℝ => g * U.E * x
          - (g - 1) * √U.msq * x ^ 2 - √U.msq - (g - 1) * U.d * x * √(1 - x ^ 2)) 1) := by
        constructor
        · simp; exact hmp
        · norm_num
          nlinarith
      obtain ⟨r, hr, hfr⟩ := intermediate_value_Ioo zero_le_one hcont h0
      exact ⟨r, hr.1, hr.2, by dsimp only at hfr; linarith⟩
    have hv2 : v ^ 2 < 1 := by nlinarith
    have hw0 : 0 < √(1 - v ^ 2) := Real.sqrt_pos.2 (by linarith)
    have hw2 : √(1 - v ^ 2) ^ 2 = 1 - v ^ 2 := Real.sq_sqrt (by linarith)
    have hms : U.msq = √U.msq ^ 2 := hM2.symm
    set M := √U.msq with hMdef
    set w := √(1 - v ^ 2) with hwdef
    -- pressure
    have hPpos : 0 ≤ U.E - M * v - w * U.d := by
      have h3 : (M * v + w * U.d) ^ 2 ≤ U.E ^ 2 := by
        nlinarith [sq_nonneg (M * w - v * U.d)]
      have h4 : 0 ≤ M * v + w * U.d := by positivity
      nlinarith
    have hvs : (U.Mx * (v / M)) ^ 2 + (U.My * (v / M)) ^ 2 + (U.Mz * (v / M)) ^ 2 = v ^ 2 := by
      have : (U.Mx * (v / M)) ^ 2 + (U.My * (v / M)) ^ 2 + (U.Mz * (v / M)) ^ 2 =
          U.msq * (v / M) ^ 2 := by unfold Cons.msq; ring
      rw [this, hms]
      field_simp
    refine ⟨⟨w * U.d, U.Mx * (v / M), U.My * (v / M), U.Mz * (v / M),
      (g - 1) * (U.E - M * v - w * U.d)⟩, ⟨by positivity, ?_, ?_⟩, ?_⟩
    · simp only; positivity
    · simp only [Prim.vsq]; rw [hvs]; exact hv2
    · rw [primToCons_eq]
      have hvs' : (⟨w * U.d, U.Mx * (v / M), U.My * (v / M), U.Mz * (v / M),
        (g - 1) * (U.E - M * v - w * U.d)⟩ : Prim).vsq = v ^ 2 := hvs
      have hen : (⟨w * U.d, U.Mx * (v / M), U.My * (v / M), U.Mz * (v / M),
        (g - 1) * (U.E - M * v - w * U.d)⟩ : Prim).enth g = g * (U.E - M * v)
          - (g - 1) * (w * U.d) := by
        simp only [Prim.enth]
        field_simp
        ring
      rw [hvs', hen]
      have hk : (g * (U.E - M * v) - (g - 1) * (w * U.d)) / (1 - v ^ 2) = M / v := by
        rw [div_eq_div_iff (by linarith) hv0.ne']
        linear_combination hfv
      rw [hk]
      ext
      · simp only
        rw [Real.sqrt_div (by norm_num), Real.sqrt_one, ← hwdef]
        field_simp
      · simp only; field_simp
      · simp only; field_simp
      · simp only; field_simp
      · simp only
        have h5 : M / v * (1 - v ^ 2) = g * (U.E - M * v) - (g - 1) * (w * U.d) := by
          rw [← hk, div_mul_cancel₀ _ (by linarith)]
        have h6 : M / v * (1 - v ^ 2) = M / v - M * v := by
          field_simp
        linarith

/-- **C99, second half.**  Every admissible conserved state at rest, or with momentum at least
`10⁻²⁰` that converts to a speed below `1 - 10⁻¹⁵`, is returned by the conversion to primitive
variables and back; and the primitive state is physical. -/
theorem sr_hydro_round_trip_cons {g : ℝ} (hg : 1 < g) (hg2 : g ≤ 2) (U : Cons)
    (hU : U.Admissible) (hm : U.msq = 0 ∨ (1 / 10 ^ 20) ^ 2 ≤ U.msq)
    (hv : (consToPrim g U).vsq < (1 - 1 / 10 ^ 15) ^ 2) :
    (consToPrim g U).Physical ∧ primToCons g (consToPrim g U) = U := by
  obtain ⟨W, hW, rfl⟩ := admissible_has_prim hg U hU
  have hmsq := msq_primToCons g W
  have h1 : 0 < 1 - W.vsq := by linarith [hW.v]
  have hh0 : 0 < W.enth g / (1 - W.vsq) := div_pos (by linarith [hW.d, enth_ge hg hW]) h1
  have hm' : W.vsq = 0 ∨ (1 / 10 ^ 20) ^ 2 ≤ (primToCons g W).msq := by
    rcases hm with h | h
    · left
      rw [hmsq] at h
      rcases mul_eq_zero.1 h with h | h
      · exact absurd h (by positivity)
      · exact h
    · exact Or.inr h
  have hv' : W.vsq ≤ (1 - 1 / 10 ^ 15) ^ 2 := by
    by_contra hc
    rw [not_le] at hc
    have hvp : 0 < W.vsq := lt_of_le_of_lt (by positivity) hc
    have hm1 := hm'.resolve_left hvp.ne'
    have ht : ¬ √(primToCons g W).msq < tiny := by
      rw [not_lt]
      apply Real.le_sqrt_of_sq_le
      unfold tiny
      exact hm1
    have hMp : 0 < √(primToCons g W).msq := Real.sqrt_pos.2 (by rw [hmsq]; positivity)
    have hsv : 1 - 1 / 10 ^ 15 < √W.vsq := by
      apply Real.lt_sqrt_of_sq_lt hc
    have hcl : clamp (some √W.vsq) = 1 - 1 / 10 ^ 15 := by
      unfold clamp
      have h2 : √W.vsq > 0 := Real.sqrt_pos.2 hvp
      simp only [h2, if_true]
      rw [if_neg (not_lt.2 hsv.le)]
    rw [consToPrim_eq] at hv
    simp only [ht, if_false, speed_primToCons hg hg2 hW hvp, hcl] at hv
    rw [Prim.vsq] at hv
    simp only at hv
    have e : ((primToCons g W).Mx * ((1 - 1 / 10 ^ 15) / √(primToCons g W).msq)) ^ 2 +
        ((primToCons g W).My * ((1 - 1 / 10 ^ 15) / √(primToCons g W).msq)) ^ 2 +
        ((primToCons g W).Mz * ((1 - 1 / 10 ^ 15) / √(primToCons g W).msq)) ^ 2 =
        (primToCons g W).msq * ((1 - 1 / 10 ^ 15) / √(primToCons g W).msq) ^ 2 := by
      simp only [Cons.msq]; ring
    rw [e, div_pow, Real.sq_sqrt (by rw [hmsq]; positivity)] at hv
    have hne : (primToCons g W).msq ≠ 0 := by rw [hmsq]; positivity
    rw [mul_div_cancel₀ _ hne] at hv
    exact lt_irrefl _ hv
  rw [sr_hydro_round_trip hg hg2 W hW hm' hv']
  exact ⟨hW, rfl⟩

/-- The hypotheses are met by the conserved variables of the flow above. -/
example : (consToPrim (4 / 3) (primToCons (4 / 3) ⟨1, 3 / 5, 0, 0, 1⟩)).Physical ∧
    primToCons (4 / 3) (consToPrim (4 / 3) (primToCons (4 / 3) ⟨1, 3 / 5, 0, 0, 1⟩)) =
      primToCons (4 / 3) ⟨1, 3 / 5, 0, 0, 1⟩ := by
  have hW : (⟨1, 3 / 5, 0, 0, 1⟩ : Prim).Physical :=
    ⟨by norm_num, by norm_num, by norm_num [Prim.vsq]⟩
  have hm : (1 / 10 ^ 20) ^ 2 ≤ (primToCons (4 / 3) ⟨1, 3 / 5, 0, 0, 1⟩).msq := by
    rw [msq_primToCons]
    norm_num [Prim.vsq, Prim.enth]
  apply sr_hydro_round_trip_cons (by norm_num) (by norm_num)
  · exact primToCons_admissible (by norm_num) (by norm_num) hW
  · exact Or.inr hm
  · rw [sr_hydro_round_trip (by norm_num) (by norm_num) _ hW (Or.inr hm)
      (by norm_num [Prim.vsq])]
    norm_num [Prim.vsq]

/-- **C99, uniqueness.**  Two physical states with the same conserved variables are equal, so
the conversion to primitive variables has only one right answer. -/
theorem sr_hydro_prim_unique {g : ℝ} (hg : 1 < g) (hg2 : g ≤ 2) (W W' : Prim)
    (hW : W.Physical) (hW' : W'.Physical) (h : primToCons g W = primToCons g W') : W = W' := by
  have hh : ∀ X : Prim, X.Physical → 0 < X.enth g / (1 - X.vsq) := fun X hX =>
    div_pos (by linarith [hX.d, enth_ge hg hX]) (by linarith [hX.v])
  have hvz : ∀ X : Prim, X.Physical → (X.vsq = 0 ↔ (primToCons g X).msq = 0) := by
    intro X hX
    rw [msq_primToCons]
    have := hh X hX
    constructor
    · intro h; rw [h, mul_zero]
    · intro h
      rcases mul_eq_zero.1 h with h | h
      · exact absurd h (by positivity)
      · exact h
  have hvv : W.vsq = W'.vsq := by
    by_cases h0 : W.vsq = 0
    · rw [h0]
      exact ((hvz W' hW').2 (h ▸ (hvz W hW).1 h0)).symm
    · have h0' : W'.vsq ≠ 0 := fun hc => h0 ((hvz W hW).2 (h ▸ (hvz W' hW').1 hc))
      have e1 := speed_primToCons hg hg2 hW (lt_of_le_of_ne (vsq_nonneg _) (Ne.symm h0))
      have e2 := speed_primToCons hg hg2 hW' (lt_of_le_of_ne (vsq_nonneg _) (Ne.symm h0'))
      rw [h, e2] at e1
      have e3 := Option.some.inj e1
      have := congrArg (fun x => x ^ 2) e3
      simp only [Real.sq_sqrt (vsq_nonneg _)] at this
      exact this.symm
  have h1 : 0 < 1 - W.vsq := by linarith [hW.v]
  have ha : 0 < g - 1 := by linarith
  rw [primToCons_eq, primToCons_eq, ← hvv] at h
  simp only [Cons.mk.injEq] at h
  obtain ⟨hd, hx, hy, hz, hE⟩ := h
  have hsp : 0 < √(1 / (1 - W.vsq)) := Real.sqrt_pos.2 (by positivity)
  have hd' : W.d = W'.d := mul_left_cancel₀ hsp.ne' hd
  have hP : W.P = W'.P := by
    have e : ∀ X : Prim, X.enth g / (1 - W.vsq) - X.P =
        X.d / (1 - W.vsq) + (g / (g - 1) / (1 - W.vsq) - 1) * X.P := by
      intro X
      unfold Prim.enth
      ring
    rw [e, e, hd'] at hE
    have hne : g / (g - 1) / (1 - W.vsq) - 1 ≠ 0 := by
      have h3 : 1 < g / (g - 1) := by rw [lt_div_iff₀ ha]; linarith
      have h4 : g / (g - 1) ≤ g / (g - 1) / (1 - W.vsq) := by
        rw [le_div_iff₀ h1]
        nlinarith [vsq_nonneg W]
      linarith
    exact mul_left_cancel₀ hne (by linarith)
  have hen : W.enth g = W'.enth g := by unfold Prim.enth; rw [hd', hP]
  rw [← hen] at hx hy hz
  have hk := (hh W hW).ne'
  ext
  · exact hd'
  · exact mul_left_cancel₀ hk hx
  · exact mul_left_cancel₀ hk hy
  · exact mul_left_cancel₀ hk hz
  · exact hP

/-- **C100.**  Whatever conserved variables it is given -- even unphysical ones, for which the
closed form is a NaN -- the conversion returns a flow slower than light (by at least `10⁻¹⁵`),
whose density has the sign of the conserved one and does not exceed it. -/
theorem sr_hydro_subluminal (g : ℝ) (U : Cons) :
    (consToPrim g U).vsq ≤ (1 - 1 / 10 ^ 15) ^ 2 ∧
      (0 < U.d → 0 < (consToPrim g U).d ∧ (consToPrim g U).d ≤ U.d) := by
  have hcl : ∀ o, 0 ≤ clamp o ∧ clamp o ≤ 1 - 1 / 10 ^ 15 := by
    intro o
    unfold clamp
    have h0 : 0 ≤ (match o with
      | some v => if v > 0 then v else 0
      | none => (0 : ℝ)) := by
      cases o with
      | none => exact le_rfl
      | some v =>
        dsimp only
        split_ifs with h
        · exact h.le
        · exact le_rfl
    dsimp only
    split_ifs with h
    · exact ⟨h0, h.le⟩
    · norm_num
  rw [consToPrim_eq]
  obtain ⟨h0, h1⟩ := hcl (if √U.msq < tiny then some 0 else
      speed (coef g √U.msq (√U.msq * √U.msq) U.E U.d))
  generalize clamp (if √U.msq < tiny then some 0 else
      speed (coef g √U.msq (√U.msq * √U.msq) U.E U.d)) = v at *
  have hm0 : 0 ≤ U.msq := by unfold Cons.msq; positivity
  have hv2 : v * v ≤ (1 - 1 / 10 ^ 15) ^ 2 := by
    have := mul_le_mul h1 h1 h0 (by norm_num)
    rw [pow_two]; exact this
  constructor
  · simp only [Prim.vsq]
    have e : ∀ k : ℝ, (U.Mx * k) ^ 2 + (U.My * k) ^ 2 + (U.Mz * k) ^ 2 = U.msq * k ^ 2 := by
      intro k; unfold Cons.msq; ring
    rw [e]
    split_ifs with ht
    · norm_num
    · have hMp : 0 < √U.msq := lt_of_lt_of_le (by unfold tiny; positivity) (not_lt.1 ht)
      have hm : U.msq ≠ 0 := fun h => by rw [h, Real.sqrt_zero] at hMp; exact lt_irrefl _ hMp
      rw [div_pow, Real.sq_sqrt hm0, mul_div_cancel₀ _ hm, pow_two]
      exact hv2
  · intro hd
    have hlt : 0 < 1 - v * v := by
      have : ((1:ℝ) - 1 / 10 ^ 15) ^ 2 < 1 := by norm_num
      linarith
    have hs0 : 0 < √(1 - v * v) := Real.sqrt_pos.2 hlt
    have hs1 : √(1 - v * v) ≤ 1 := by
      rw [Real.sqrt_le_left (by norm_num)]
      nlinarith
    refine ⟨by simp only; positivity, ?_⟩
    simp only
    nlinarith

/-- The hypothesis of the second half is met, and the bound is attained by some state: a
momentum with no energy is moved to the largest speed or to rest, never beyond. -/
example : (consToPrim (4 / 3) ⟨1, 3, 0, 0, 1⟩).vsq ≤ (1 - 1 / 10 ^ 15) ^ 2 ∧
    0 < (consToPrim (4 / 3) ⟨1, 3, 0, 0, 1⟩).d :=
  ⟨(sr_hydro_subluminal _ _).1, ((sr_hydro_subluminal _ _).2 (by norm_num)).1⟩

end Athena.Rel
