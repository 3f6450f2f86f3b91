import Verif.Run.Cfl
import Mathlib.Tactic.LinearCombination

/-!
# Property C23: the time step respects the CFL condition in every zone (src/new_dt.c)
-/

namespace Athena.Run
noncomputable section

theorem foldl_max_le {α : Type} (f : α → ℝ) : ∀ (l : List α) (a : ℝ), a ≤ l.foldl (fun a z => max a (f z)) a ∧
    ∀ z ∈ l, f z ≤ l.foldl (fun a z => max a (f z)) a
  | [], a => ⟨le_refl _, by simp⟩
  | x :: l, a => by
    obtain ⟨h1, h2⟩ := foldl_max_le f l (max a (f x))
    refine ⟨(le_max_left _ _).trans h1, ?_⟩
    intro z hz
    rcases List.mem_cons.1 hz with rfl | hz
    · exact (le_max_right _ _).trans h1
    · exact h2 z hz

theorem maxV_zone (eos : Eos) (mhd : Bool) (v : Fin 3 → ℝ) (g : GridV) (n : Fin 3) (hn : g.nx n > 1) :
    ∀ z ∈ g.zones, |z.v n| + Real.sqrt (z.cfsq eos mhd n) ≤ maxV (.newton eos mhd) v g n := by
  intro z hz
  unfold maxV
  simp only [hn, if_true]
  exact ((foldl_max_le (fun z : Zone => |z.v n| + Real.sqrt (z.cfsq eos mhd n)) g.zones (v n)).2 z hz).trans (foldl_max_le (fun p : Fin 3 → ℝ => p n) g.parts _).1

theorem maxV_sr (v : Fin 3 → ℝ) (g : GridV) (n : Fin 3) (hn : g.nx n > 1) : 1 ≤ maxV .sr v g n := by
  unfold maxV
  simp only [hn, if_true]
  exact (foldl_max_le (fun p : Fin 3 → ℝ => p n) g.parts _).1

theorem maxV_part (ph : Phys) (v : Fin 3 → ℝ) (g : GridV) (n : Fin 3) (hn : g.nx n > 1) :
    ∀ p ∈ g.parts, p n ≤ maxV ph v g n := by
  intro p hp
  unfold maxV
  simp only [hn, if_true]
  exact (foldl_max_le (fun p : Fin 3 → ℝ => p n) g.parts _).2 p hp

theorem gridDti_ge (v : Fin 3 → ℝ) (g : GridV) (dti : ℝ) : dti ≤ gridDti v g dti ∧
    ∀ n, g.nx n > 1 → v n / g.dx n ≤ gridDti v g dti := by
  unfold gridDti
  simp only [List.foldl]
  have key : ∀ (a : ℝ) (n : Fin 3), a ≤ (if g.nx n > 1 then max a (v n / g.dx n) else a) ∧
      (g.nx n > 1 → v n / g.dx n ≤ (if g.nx n > 1 then max a (v n / g.dx n) else a)) := by
    intro a n
    split_ifs with h
    · exact ⟨le_max_left _ _, fun _ => le_max_right _ _⟩
    · exact ⟨le_refl _, fun h' => absurd h' h⟩
  obtain ⟨a1, a2⟩ := key dti 0
  obtain ⟨b1, b2⟩ := key (if g.nx 0 > 1 then max dti (v 0 / g.dx 0) else dti) 1
  obtain ⟨c1, c2⟩ := key (if g.nx 1 > 1 then max (if g.nx 0 > 1 then max dti (v 0 / g.dx 0) else dti) (v 1 / g.dx 1)
    else (if g.nx 0 > 1 then max dti (v 0 / g.dx 0) else dti)) 2
  refine ⟨a1.trans (b1.trans c1), ?_⟩
  intro n hn
  have : n = 0 ∨ n = 1 ∨ n = 2 := by omega
  rcases this with rfl | rfl | rfl
  · exact (a2 hn).trans (b1.trans c1)
  · exact (b2 hn).trans c1
  · exact c2 hn

/-- Every Grid's own `max_v/dx` is below `max_dti`. -/
theorem rankDti_ge (ph : Phys) : ∀ (gs : List GridV) (v : Fin 3 → ℝ) (dti : ℝ), dti ≤ rankDti ph gs v dti ∧
    ∀ g ∈ gs, ∃ v' : Fin 3 → ℝ, ∀ n, g.nx n > 1 → maxV ph v' g n / g.dx n ≤ rankDti ph gs v dti
  | [], v, dti => ⟨le_refl _, by simp⟩
  | g :: gs, v, dti => by
    obtain ⟨h1, h2⟩ := rankDti_ge ph gs (maxV ph v g) (gridDti (maxV ph v g) g dti)
    obtain ⟨k1, k2⟩ := gridDti_ge (maxV ph v g) g dti
    refine ⟨k1.trans h1, ?_⟩
    intro g' hg
    rcases List.mem_cons.1 hg with rfl | hg
    · exact ⟨v, fun n hn => (k2 n hn).trans h1⟩
    · exact h2 g' hg

/-! ## The specification -/

/-- Thermal pressure of a zone of an adiabatic gas, from the cell-centred variables. -/
def pressure (g : ℝ) (mhd : Bool) (z : Zone) : ℝ :=
  (g - 1) * (z.e - (z.m 0 ^ 2 + z.m 1 ^ 2 + z.m 2 ^ 2) / (2 * z.d) -
    (if mhd then (z.bc 0 ^ 2 + z.bc 1 ^ 2 + z.bc 2 ^ 2) / 2 else 0))

/-- `a` is the sound speed squared. -/
def soundSq (eos : Eos) (mhd : Bool) (z : Zone) : ℝ :=
  match eos with
  | .adiabatic g _ => g * pressure g mhd z / z.d
  | .isothermal cs2 => cs2

/-- `γ ≥ 0` (nothing is asked of an isothermal gas). -/
def Eos.NonNeg : Eos → Prop
  | .adiabatic g _ => 0 ≤ g
  | .isothermal _ => True

/-- `c` is the speed, relative to the gas, of a sound wave (hydrodynamics) or of a magnetosonic wave (MHD)
travelling in direction `n`: a root of the dispersion relation `c⁴ - (a² + B²/ρ) c² + a² B_n²/ρ = 0`. -/
def WaveSpeed (eos : Eos) (mhd : Bool) (z : Zone) (n : Fin 3) (c : ℝ) : Prop :=
  0 ≤ c ∧
  if mhd then
    c^4 - (soundSq eos mhd z + (z.bc 0 ^ 2 + z.bc 1 ^ 2 + z.bc 2 ^ 2) / z.d) * c^2 +
      soundSq eos mhd z * (z.bc n ^ 2 / z.d) = 0
  else c^2 = soundSq eos mhd z

/-- The CFL condition of one zone in direction `n`: no wave crosses more than a fraction `cour` of the zone. -/
def CflZone (cour dt : ℝ) (eos : Eos) (mhd : Bool) (g : GridV) (z : Zone) (n : Fin 3) : Prop :=
  ∀ c, WaveSpeed eos mhd z n c → dt * (|z.m n / z.d| + c) ≤ cour * g.dx n

/-! ## From `max_dti` to the time step -/

theorem step_le {cour dti dt s dx : ℝ} (hc : 0 ≤ cour) (hdt : 0 ≤ dt) (hdx : 0 < dx) (hs : s / dx ≤ dti)
    (h0 : 0 ≤ dti) (h : (dt : WithTop ℝ) ≤ quot cour dti) : dt * s ≤ cour * dx := by
  rw [div_le_iff₀ hdx] at hs
  unfold quot at h
  split_ifs at h with h'
  · rw [h', zero_mul] at hs
    have : dt * s ≤ 0 := mul_nonpos_of_nonneg_of_nonpos hdt hs
    have : 0 ≤ cour * dx := mul_nonneg hc hdx.le
    linarith
  · rw [WithTop.coe_le_coe, le_div_iff₀ (lt_of_le_of_ne h0 (Ne.symm h'))] at h
    calc dt * s ≤ dt * (dti * dx) := mul_le_mul_of_nonneg_left hs hdt
      _ = dt * dti * dx := by ring
      _ ≤ cour * dx := mul_le_mul_of_nonneg_right h hdx.le

/-- The hypotheses that tie the abstract job of `Run/Main.lean` to the Grids: `max_dti` of rank `r` is
computed by `rankDti` from the Grids that rank `r` has in state `x`. -/
def UsesGrids {X : Type} (J : Job ℝ X) (ph : Phys) (grids : X → Nat → List GridV) : Prop :=
  ∀ x r, J.maxDti x r = rankDti ph (grids x r) (fun _ => 0) 0

theorem dt_speed {X : Type} (J : Job ℝ X) (ph : Phys) (grids : X → Nat → List GridV) (hJ : UsesGrids J ph grids)
    (hc : 0 ≤ J.cour) (x : X) (cs : List (Ctl ℝ)) (c : Ctl ℝ) (hcs : c ∈ newDt J x cs) (dt : ℝ) (h0 : 0 ≤ dt)
    (hdt : (dt : WithTop ℝ) ≤ c.dt) (r : Nat) (hr : r ≤ J.extra) (g : GridV) (hg : g ∈ grids x r) (n : Fin 3)
    (hn : g.nx n > 1) (hdx : 0 < g.dx n) :
    ∃ v', dt * maxV ph v' g n ≤ J.cour * g.dx n := by
  rw [newDt_eq] at hcs
  obtain ⟨c0, -, rfl⟩ := List.mem_map.1 hcs
  have h1 := (newDt1_spec J x c0).1 _ (Or.inl ⟨r, hr, rfl⟩)
  rw [hJ x r] at h1
  obtain ⟨k1, k2⟩ := rankDti_ge ph (grids x r) (fun _ => 0) 0
  obtain ⟨v', hv⟩ := k2 g hg
  exact ⟨v', step_le hc h0 hdx (hv n hn) k1 (hdt.trans h1)⟩

/-! ## Hydrodynamics -/

theorem Zone.qsq_eq (z : Zone) (hd : z.d ≠ 0) :
    1/2 * z.d * z.qsq = (z.m 0 ^ 2 + z.m 1 ^ 2 + z.m 2 ^ 2) / (2 * z.d) := by
  unfold Zone.qsq Zone.v
  field_simp

theorem hydro_speed (eos : Eos) (z : Zone) (n : Fin 3) (c : ℝ) (hd : 0 < z.d)
    (hg : eos.NonNeg) (h : WaveSpeed eos false z n c) :
    |z.m n / z.d| + c ≤ |z.v n| + Real.sqrt (z.cfsq eos false n) := by
  have hv : z.v n = z.m n / z.d := by unfold Zone.v; ring
  rw [hv]
  apply add_le_add_right
  apply Real.le_sqrt_of_sq_le
  obtain ⟨-, h⟩ := h
  simp only [Bool.false_eq_true, if_false] at h
  rw [h]
  unfold Zone.cfsq Zone.asq soundSq pressure
  cases eos with
  | isothermal cs2 => simp
  | adiabatic g tiny =>
    simp only [Bool.false_eq_true, if_false]
    rw [z.qsq_eq hd.ne', mul_one_div]
    exact div_le_div_of_nonneg_right (mul_le_mul_of_nonneg_left (le_max_left _ _) hg) hd.le

/-- **C23, hydrodynamics.**  For every mesh, every state and every number of ranks: the time step that
`new_dt` gives to any rank satisfies the CFL condition in every zone of positive density of every Grid of
every rank, in every direction with more than one zone. -/
theorem cfl_hydro {X : Type} (J : Job ℝ X) (eos : Eos) (grids : X → Nat → List GridV)
    (hJ : UsesGrids J (.newton eos false) grids) (hc : 0 ≤ J.cour)
    (hgam : eos.NonNeg)
    (x : X) (cs : List (Ctl ℝ)) (c : Ctl ℝ) (hcs : c ∈ newDt J x cs) (dt : ℝ) (h0 : 0 ≤ dt)
    (hdt : c.dt = (dt : WithTop ℝ)) (r : Nat) (hr : r ≤ J.extra) (g : GridV) (hg : g ∈ grids x r) (n : Fin 3)
    (hn : g.nx n > 1) (hdx : 0 < g.dx n) (z : Zone) (hz : z ∈ g.zones) (hd : 0 < z.d) :
    CflZone J.cour dt eos false g z n := by
  intro s hs
  obtain ⟨v', hv⟩ := dt_speed J _ grids hJ hc x cs c hcs dt h0 hdt.ge r hr g hg n hn hdx
  exact (mul_le_mul_of_nonneg_left ((hydro_speed eos z n s hd hgam hs).trans (maxV_zone eos false v' g n hn z hz))
    h0).trans hv

/-! ## Special relativity -/

/-- **C23, special relativity**: no signal faster than light crosses more than a fraction `cour`. -/
theorem cfl_sr {X : Type} (J : Job ℝ X) (grids : X → Nat → List GridV)
    (hJ : UsesGrids J .sr grids) (hc : 0 ≤ J.cour)
    (x : X) (cs : List (Ctl ℝ)) (c : Ctl ℝ) (hcs : c ∈ newDt J x cs) (dt : ℝ) (h0 : 0 ≤ dt)
    (hdt : c.dt = (dt : WithTop ℝ)) (r : Nat) (hr : r ≤ J.extra) (g : GridV) (hg : g ∈ grids x r) (n : Fin 3)
    (hn : g.nx n > 1) (hdx : 0 < g.dx n) (s : ℝ) (hs : s ≤ 1) : dt * s ≤ J.cour * g.dx n := by
  obtain ⟨v', hv⟩ := dt_speed J _ grids hJ hc x cs c hcs dt h0 hdt.ge r hr g hg n hn hdx
  exact (mul_le_mul_of_nonneg_left (hs.trans (maxV_sr v' g n hn)) h0).trans hv

/-! ## MHD -/

/-- The larger root of the dispersion relation bounds the roots for weaker fields. -/
theorem fast_bound {a2 N T N' T' X : ℝ} (ha : 0 ≤ a2) (hT : 0 ≤ T) (hTT : T ≤ T') (hNN : N ≤ N')
    (hX : X^2 - (a2 + (N + T)) * X + a2 * N = 0) :
    X ≤ 1/2 * ((N' + T') + a2 + Real.sqrt (((N' + T') - a2) * ((N' + T') - a2) + 4 * a2 * T')) := by
  by_contra hlt
  push Not at hlt
  have hT' : 0 ≤ T' := hT.trans hTT
  have hD : 0 ≤ ((N' + T') - a2) * ((N' + T') - a2) + 4 * a2 * T' :=
    add_nonneg (mul_self_nonneg _) (mul_nonneg (mul_nonneg (by norm_num) ha) hT')
  set r := Real.sqrt (((N' + T') - a2) * ((N' + T') - a2) + 4 * a2 * T') with hr
  have hr0 : 0 ≤ r := Real.sqrt_nonneg _
  have hrr : r * r = ((N' + T') - a2) * ((N' + T') - a2) + 4 * a2 * T' := Real.mul_self_sqrt hD
  have hrabs : |(N' + T') - a2| ≤ r := by
    apply Real.le_sqrt_of_sq_le
    rw [sq_abs]
    nlinarith [mul_nonneg ha hT']
  have h1 : a2 < X := by have := neg_abs_le ((N' + T') - a2); linarith
  have h2 : N' + T' < X := by have := le_abs_self ((N' + T') - a2); linarith
  have h3 : r * r < (2*X - (N' + T') - a2) * (2*X - (N' + T') - a2) := by
    apply mul_self_lt_mul_self hr0; linarith
  have h4 : a2 * T' < (X - a2) * (X - (N' + T')) := by nlinarith
  have h5 : (X - a2) * (X - (N' + T')) ≤ (X - a2) * (X - (N + T)) :=
    mul_le_mul_of_nonneg_left (by linarith) (by linarith)
  have h6 : a2 * T ≤ a2 * T' := mul_le_mul_of_nonneg_left hTT ha
  nlinarith

theorem Zone.b_ge (z : Zone) (n : Fin 3) (h : 0 ≤ z.bc n) : z.bc n ^ 2 ≤ z.b n * z.b n := by
  have : z.bc n ≤ z.b n := by unfold Zone.b; have := abs_nonneg (z.bi n - z.bc n); linarith
  nlinarith

theorem mhd_iso_speed (cs2 : ℝ) (z : Zone) (n : Fin 3) (c : ℝ) (hd : 0 < z.d) (hcs : 0 ≤ cs2)
    (hb : ∀ i, 0 ≤ z.bc i) (h : WaveSpeed (.isothermal cs2) true z n c) :
    |z.m n / z.d| + c ≤ |z.v n| + Real.sqrt (z.cfsq (.isothermal cs2) true n) := by
  have hv : z.v n = z.m n / z.d := by unfold Zone.v; ring
  rw [hv]
  apply add_le_add_right
  apply Real.le_sqrt_of_sq_le
  obtain ⟨-, h⟩ := h
  simp only [if_true, soundSq] at h
  have hi : 0 < 1 / z.d := by positivity
  have key : ∀ i, z.bc i ^ 2 * (1 / z.d) ≤ z.b i * z.b i * (1 / z.d) := fun i =>
    mul_le_mul_of_nonneg_right (z.b_ge i (hb i)) hi.le
  have k0 := key 0
  have k1 := key 1
  have k2 := key 2
  have hpos : ∀ i, 0 ≤ z.bc i ^ 2 * (1 / z.d) := fun i => mul_nonneg (sq_nonneg _) hi.le
  unfold Zone.cfsq
  simp only [if_true, Zone.asq, Zone.bsq]
  have h3 : n = 0 ∨ n = 1 ∨ n = 2 := by omega
  rcases h3 with rfl | rfl | rfl
  · have := fast_bound (a2 := cs2) (N := z.bc 0 ^ 2 * (1 / z.d)) (T := (z.bc 1 ^ 2 + z.bc 2 ^ 2) * (1/z.d))
      (N' := z.b 0 * z.b 0 * (1/z.d)) (T' := (z.b 1 * z.b 1 + z.b 2 * z.b 2) * (1/z.d)) (X := c^2) hcs
      (by have := hpos 1; have := hpos 2; linarith) (by linarith) k0 (by
        rw [div_eq_mul_one_div _ z.d, div_eq_mul_one_div (z.bc 0 ^ 2) z.d] at h; linear_combination h)
    refine this.trans (le_of_eq ?_)
    simp only [transv, if_true]
    ring_nf
  · have := fast_bound (a2 := cs2) (N := z.bc 1 ^ 2 * (1 / z.d)) (T := (z.bc 0 ^ 2 + z.bc 2 ^ 2) * (1/z.d))
      (N' := z.b 1 * z.b 1 * (1/z.d)) (T' := (z.b 0 * z.b 0 + z.b 2 * z.b 2) * (1/z.d)) (X := c^2) hcs
      (by have := hpos 0; have := hpos 2; linarith) (by linarith) k1 (by
        rw [div_eq_mul_one_div _ z.d, div_eq_mul_one_div (z.bc 1 ^ 2) z.d] at h; linear_combination h)
    refine this.trans (le_of_eq ?_)
    simp only [transv, one_ne_zero, if_false, if_true]
    ring_nf
  · have := fast_bound (a2 := cs2) (N := z.bc 2 ^ 2 * (1 / z.d)) (T := (z.bc 0 ^ 2 + z.bc 1 ^ 2) * (1/z.d))
      (N' := z.b 2 * z.b 2 * (1/z.d)) (T' := (z.b 0 * z.b 0 + z.b 1 * z.b 1) * (1/z.d)) (X := c^2) hcs
      (by have := hpos 0; have := hpos 1; linarith) (by linarith) k2 (by
        rw [div_eq_mul_one_div _ z.d, div_eq_mul_one_div (z.bc 2 ^ 2) z.d] at h; linear_combination h)
    refine this.trans (le_of_eq ?_)
    simp only [transv, show (2 : Fin 3) ≠ 0 by decide, show (2 : Fin 3) ≠ 1 by decide, if_false]
    ring_nf

/-- **C23, isothermal MHD.**  The full statement has no condition on the field; it is false for fields with
negative components (`cfl_mhd_negative_false`), because `b1` is `B1c + |…|` and not `|B1c| + |…|`. -/
theorem cfl_mhd_iso_partial {X : Type} (J : Job ℝ X) (cs2 : ℝ) (hcs2 : 0 ≤ cs2) (grids : X → Nat → List GridV)
    (hJ : UsesGrids J (.newton (.isothermal cs2) true) grids) (hc : 0 ≤ J.cour)
    (x : X) (cs : List (Ctl ℝ)) (c : Ctl ℝ) (hcs : c ∈ newDt J x cs) (dt : ℝ) (h0 : 0 ≤ dt)
    (hdt : c.dt = (dt : WithTop ℝ)) (r : Nat) (hr : r ≤ J.extra) (g : GridV) (hg : g ∈ grids x r) (n : Fin 3)
    (hn : g.nx n > 1) (hdx : 0 < g.dx n) (z : Zone) (hz : z ∈ g.zones) (hd : 0 < z.d) (hb : ∀ i, 0 ≤ z.bc i) :
    CflZone J.cour dt (.isothermal cs2) true g z n := by
  intro s hs
  obtain ⟨v', hv⟩ := dt_speed J _ grids hJ hc x cs c hcs dt h0 hdt.ge r hr g hg n hn hdx
  exact (mul_le_mul_of_nonneg_left ((mhd_iso_speed cs2 z n s hd hcs2 hb hs).trans
    (maxV_zone _ true v' g n hn z hz)) h0).trans hv

/-! ## Examples and disagreements -/

/-- One rank with the given Grid, CourNo = 1. -/
def exCfl (ph : Phys) (g : GridV) : Job ℝ Unit :=
  ⟨1000, -1, 1, 0, fun _ x => x, fun _ _ => rankDti ph [g] (fun _ => 0) 0, none, fun _ _ => false, fun _ _ => false,
    fun _ _ => false⟩

/-- A Grid of `4×1×1` zones of size 1, one of them listed. -/
def exGrid (z : Zone) (parts : List (Fin 3 → ℝ)) : GridV := ⟨fun n => if n = 0 then 4 else 1, fun _ => 1, [z], parts⟩

theorem exCfl_uses (ph : Phys) (g : GridV) : UsesGrids (exCfl ph g) ph (fun _ _ => [g]) := fun _ _ => rfl

theorem exCfl_dti (eos : Eos) (mhd : Bool) (z : Zone) :
    (exCfl (.newton eos mhd) (exGrid z [])).maxDti () 0 =
      max 0 (max 0 (|z.v 0| + Real.sqrt (z.cfsq eos mhd 0))) := by
  simp [exCfl, rankDti, gridDti, maxV, exGrid]

/-- The step given by the first call of `new_dt` in the examples, when it is below `tlim`. -/
theorem exCfl_dt (ph : Phys) (g : GridV) (q : ℝ)
    (hq : (exCfl ph g).maxDti () 0 = q) (h1 : 0 < q) (h2 : 1 / q ≤ 1000) :
    newDt (exCfl ph g) () [⟨0, 0, ⊤, 0, 0⟩] = [⟨0, 0, ((1 / q : ℝ) : WithTop ℝ), 0, 0⟩] := by
  unfold newDt
  have hr : (exCfl ph g).ranks = [0] := rfl
  have hd : (exCfl ph g).maxDtiDiff = none := rfl
  have ht : (exCfl ph g).tlim = 1000 := rfl
  have hco : (exCfl ph g).cour = 1 := rfl
  simp only [hr, hd, List.map, allMin, List.foldl, hq, hco, limitDt, ht, quot, h1.ne', if_false, min_top_left]
  simp only [ne_eq, not_true_eq_false, if_false, sub_zero]
  rw [if_neg]
  rintro ⟨-, h⟩
  have := WithTop.coe_lt_coe.1 h
  linarith

/-- Non-vacuity of `cfl_hydro`: adiabatic gas at `v = 3`, `c = 1` (`γ = 2`, `p = 1/2`); the step is 1/4. -/
example : ∃ z : Zone, 0 < z.d ∧ WaveSpeed (.adiabatic 2 0) false z 0 1 ∧
    newDt (exCfl (.newton (.adiabatic 2 0) false) (exGrid z [])) () [⟨0, 0, ⊤, 0, 0⟩] =
      [⟨0, 0, ((1/4 : ℝ) : WithTop ℝ), 0, 0⟩] := by
  set z : Zone := ⟨1, fun n => if n = 0 then 3 else 0, 5, fun _ => 0, fun _ => 0⟩ with hz
  have hd : z.d = 1 := rfl
  have he : z.e = 5 := rfl
  have hm0 : z.m 0 = 3 := rfl
  have hm1 : z.m 1 = 0 := rfl
  have hm2 : z.m 2 = 0 := rfl
  refine ⟨z, by norm_num [hd], ?_, ?_⟩
  · unfold WaveSpeed soundSq pressure
    norm_num [hd, he, hm0, hm1, hm2]
  · apply exCfl_dt _ _ _ ?_ (by norm_num) (by norm_num)
    rw [exCfl_dti]
    have h : z.asq (.adiabatic 2 0) false = 1 := by
      unfold Zone.asq Zone.qsq Zone.v; norm_num [hd, he, hm0, hm1, hm2]
    simp only [Zone.cfsq, Bool.false_eq_true, if_false, h, Real.sqrt_one]
    unfold Zone.v
    norm_num [hd, hm0]

/-- **Disagreement.**  Isothermal MHD (`c_s = 3`, `ρ = 1`, `B2c = -4`, left face field 0): the code computes
`b2 = 0` and takes the step 1/3, in which the fast wave (speed 5 in direction 1) crosses 5/3 of a zone. -/
theorem cfl_mhd_negative_false : ∃ (z : Zone) (dt c : ℝ), 0 < z.d ∧
    newDt (exCfl (.newton (.isothermal 9) true) (exGrid z [])) () [⟨0, 0, ⊤, 0, 0⟩] =
      [⟨0, 0, (dt : WithTop ℝ), 0, 0⟩] ∧ WaveSpeed (.isothermal 9) true z 0 c ∧
    (exCfl (.newton (.isothermal 9) true) (exGrid z [])).cour * (exGrid z []).dx 0 < dt * (|z.m 0 / z.d| + c) := by
  set z : Zone := ⟨1, fun _ => 0, 0, fun n => if n = 1 then -4 else 0, fun _ => 0⟩ with hz
  have hd : z.d = 1 := rfl
  have hb0 : z.b 0 = 0 := by norm_num [Zone.b, hz]
  have hb1 : z.b 1 = 0 := by norm_num [Zone.b, hz]
  have hb2 : z.b 2 = 0 := by
    norm_num [Zone.b, hz, show (2 : Fin 3) ≠ 1 by decide, show (2 : Fin 3) ≠ 0 by decide]
  have hm0 : z.m 0 = 0 := rfl
  have hc0 : z.bc 0 = 0 := rfl
  have hc1 : z.bc 1 = -4 := rfl
  have hc2 : z.bc 2 = 0 := rfl
  refine ⟨z, 1/3, 5, by norm_num [hd], ?_, ?_, ?_⟩
  · apply exCfl_dt _ _ _ ?_ (by norm_num) (by norm_num)
    rw [exCfl_dti]
    have h9 : Real.sqrt (9*9) = 9 := Real.sqrt_mul_self (by norm_num)
    have h3 : Real.sqrt 9 = 3 := by rw [show (9:ℝ) = 3*3 by norm_num]; exact Real.sqrt_mul_self (by norm_num)
    have h : z.cfsq (.isothermal 9) true 0 = 9 := by
      simp only [Zone.cfsq, if_true, Zone.bsq, hb0, hb1, hb2, Zone.asq, transv, hd]
      rw [show (((0:ℝ) * 0 + 0 * 0 + 0 * 0) * (1 / 1) - 9) * ((0 * 0 + 0 * 0 + 0 * 0) * (1 / 1) - 9) +
        4 * 9 * (0 * 0 + 0 * 0) * (1 / 1) = 9 * 9 by norm_num, h9]
      norm_num
    rw [h, h3]
    norm_num [Zone.v, hm0]
  · unfold WaveSpeed soundSq; norm_num [hc0, hc1, hc2, hd]
  · norm_num [exCfl, exGrid, hm0]

/-- **Disagreement.**  Adiabatic MHD with non-negative fields: the pressure is computed with the enlarged
field, hence too small (`γ = 5/3`, `ρ = 1`, `E = 90`, `B1c = 0`, left face field 1): the sound wave has speed
10, the code takes it to be `√(895/9) < 10`. -/
theorem cfl_mhd_adiabatic_false : ∃ (z : Zone) (dt c : ℝ), 0 < z.d ∧ (∀ i, 0 ≤ z.bc i) ∧
    newDt (exCfl (.newton (.adiabatic (5/3) (1/10^20)) true) (exGrid z [])) () [⟨0, 0, ⊤, 0, 0⟩] =
      [⟨0, 0, (dt : WithTop ℝ), 0, 0⟩] ∧ WaveSpeed (.adiabatic (5/3) (1/10^20)) true z 0 c ∧
    (exCfl (.newton (.adiabatic (5/3) (1/10^20)) true) (exGrid z [])).cour * (exGrid z []).dx 0 <
      dt * (|z.m 0 / z.d| + c) := by
  set z : Zone := ⟨1, fun _ => 0, 90, fun _ => 0, fun n => if n = 0 then 1 else 0⟩ with hz
  have hb0 : z.b 0 = 1 := by norm_num [Zone.b, hz]
  have hb1 : z.b 1 = 0 := by norm_num [Zone.b, hz]
  have hb2 : z.b 2 = 0 := by
    norm_num [Zone.b, hz, show (2 : Fin 3) ≠ 1 by decide, show (2 : Fin 3) ≠ 0 by decide]
  have hv : ∀ n, z.v n = 0 := by intro n; simp [Zone.v, hz]
  have hbsq : z.bsq = 1 := by simp [Zone.bsq, hb0, hb1, hb2]
  have hd : z.d = 1 := rfl
  have he : z.e = 90 := rfl
  have hm : ∀ n, z.m n = 0 := fun _ => rfl
  have hbc : ∀ n, z.bc n = 0 := fun _ => rfl
  have ha : z.asq (.adiabatic (5/3) (1/10^20)) true = 895/9 := by
    simp only [Zone.asq, Zone.qsq, hv, hbsq, hd, he, if_true]
    rw [max_eq_left (by norm_num)]
    norm_num
  have h0 : z.cfsq (.adiabatic (5/3) (1/10^20)) true 0 = 895/9 := by
    simp only [Zone.cfsq, if_true, ha, hbsq, hd, transv, hb1, hb2]
    rw [show ((1:ℝ) * (1/1) - 895/9) * (1 * (1/1) - 895/9) + 4 * (895/9) * (0*0+0*0) * (1/1) = (886/9)*(886/9) by norm_num,
      Real.sqrt_mul_self (by norm_num)]
    norm_num
  have hs0 : 0 < Real.sqrt (895/9) := Real.sqrt_pos.2 (by norm_num)
  have hs1 : Real.sqrt (895/9) < 10 := by
    rw [Real.sqrt_lt' (by norm_num)]; norm_num
  have hs2 : 1 ≤ Real.sqrt (895/9) := Real.le_sqrt_of_sq_le (by norm_num)
  refine ⟨z, 1 / Real.sqrt (895/9), 10, by norm_num [hd], fun i => (hbc i).ge, ?_, ?_, ?_⟩
  · apply exCfl_dt _ _ _ ?_ hs0 ?_
    · rw [exCfl_dti, h0, hv, abs_zero, zero_add, max_eq_right hs0.le, max_eq_right hs0.le]
    · rw [div_le_iff₀ hs0]; linarith
  · unfold WaveSpeed soundSq pressure; norm_num [hbc, hd, he, hm]
  · rw [hm]
    show (1:ℝ) * 1 < 1 / Real.sqrt (895/9) * (|0 / z.d| + 10)
    rw [zero_div, abs_zero, zero_add, one_mul, one_div, inv_mul_eq_div, lt_div_iff₀ hs0, one_mul]
    exact hs1

/-- Particles with non-negative velocity components do not cross more than a fraction `cour` of a zone … -/
theorem cfl_particles_partial {X : Type} (J : Job ℝ X) (ph : Phys) (grids : X → Nat → List GridV)
    (hJ : UsesGrids J ph grids) (hc : 0 ≤ J.cour)
    (x : X) (cs : List (Ctl ℝ)) (c : Ctl ℝ) (hcs : c ∈ newDt J x cs) (dt : ℝ) (h0 : 0 ≤ dt)
    (hdt : c.dt = (dt : WithTop ℝ)) (r : Nat) (hr : r ≤ J.extra) (g : GridV) (hg : g ∈ grids x r) (n : Fin 3)
    (hn : g.nx n > 1) (hdx : 0 < g.dx n) (p : Fin 3 → ℝ) (hp : p ∈ g.parts) (hv : 0 ≤ p n) :
    dt * |p n| ≤ J.cour * g.dx n := by
  obtain ⟨v', h⟩ := dt_speed J _ grids hJ hc x cs c hcs dt h0 hdt.ge r hr g hg n hn hdx
  rw [abs_of_nonneg hv]
  exact (mul_le_mul_of_nonneg_left (maxV_part ph v' g n hn p hp) h0).trans h

/-- **Disagreement.**  … but particles moving to the left are ignored: a particle at velocity -100 in a gas
with `c_s = 3` crosses 33 zones in one step. -/
theorem cfl_particles_false : ∃ (z : Zone) (p : Fin 3 → ℝ) (dt : ℝ), 0 < z.d ∧
    newDt (exCfl (.newton (.isothermal 9) false) (exGrid z [p])) () [⟨0, 0, ⊤, 0, 0⟩] =
      [⟨0, 0, (dt : WithTop ℝ), 0, 0⟩] ∧
    33 * ((exCfl (.newton (.isothermal 9) false) (exGrid z [p])).cour * (exGrid z [p]).dx 0) < dt * |p 0| := by
  refine ⟨⟨1, fun _ => 0, 0, fun _ => 0, fun _ => 0⟩, fun _ => -100, 1/3, by norm_num, ?_, ?_⟩
  · apply exCfl_dt _ _ _ ?_ (by norm_num) (by norm_num)
    have h3 : Real.sqrt 9 = 3 := by rw [show (9:ℝ) = 3*3 by norm_num]; exact Real.sqrt_mul_self (by norm_num)
    simp [exCfl, rankDti, gridDti, maxV, exGrid, Zone.v, Zone.cfsq, Zone.asq, h3]
    norm_num
  · norm_num [exCfl, exGrid]

/-! ## The diffusion limit -/

/-- The explicit scheme is stable if `κ dt Σ 1/dx²` over the directions in use is at most 1/2. -/
def diffNumber (nx : Fin 3 → Nat) (dx : Fin 3 → ℝ) : ℝ :=
  1 / dx 0 ^ 2 + (if nx 1 > 1 then 1 / dx 1 ^ 2 else 0) + (if nx 2 > 1 then 1 / dx 2 ^ 2 else 0)

theorem dxMin_spec (nx : Fin 3 → Nat) (dx : Fin 3 → ℝ) (h : ∀ n, 0 < dx n) : 0 < dxMin nx dx ∧ dxMin nx dx ≤ dx 0 ∧
    (nx 1 > 1 → dxMin nx dx ≤ dx 1) ∧ (nx 2 > 1 → dxMin nx dx ≤ dx 2) := by
  unfold dxMin
  dsimp only
  have := h 0; have := h 1; have := h 2
  split_ifs <;> simp_all

/-- **C24/C23, diffusion.**  The diffusion time step satisfies the stability condition of the explicit scheme
with the safety factor CourNo: `κ dt Σ 1/dx² ≤ CourNo/2` if 3D problems are 3D (`nx 2 > 1 → nx 1 > 1`). -/
theorem diffusion_stable (nx : Fin 3 → Nat) (dx : Fin 3 → ℝ) (hdx : ∀ n, 0 < dx n)
    (cour k dt dti : ℝ) (hk : 0 ≤ k) (hc : 0 ≤ cour) (hdt : 0 ≤ dt)
    (hdti : k / qaOf nx (dxMin nx dx) ≤ dti) (h : (dt : WithTop ℝ) ≤ quot cour dti) :
    k * dt * diffNumber nx dx ≤ cour / 2 := by
  obtain ⟨hm, h0, h1, h2⟩ := dxMin_spec nx dx hdx
  set m := dxMin nx dx
  have hq : 0 < qaOf nx m := by
    unfold qaOf; split_ifs <;> positivity
  have hstep : dt * k ≤ cour * qaOf nx m :=
    step_le hc hdt hq hdti ((div_nonneg hk hq.le).trans hdti) h
  have inv : ∀ a, m ≤ a → 1 / a^2 ≤ 1 / (m*m) := by
    intro a ha
    apply one_div_le_one_div_of_le (by positivity)
    nlinarith
  have hdn : qaOf nx m * diffNumber nx dx ≤ 1/2 := by
    unfold qaOf diffNumber
    have i0 := inv _ h0
    have e : (m*m) * (1/(m*m)) = 1 := by field_simp
    have hmm : 0 < m*m := by positivity
    split_ifs with a b b
    · have i1 := inv _ (h1 b); have i2 := inv _ (h2 a)
      have : 1 / dx 0 ^ 2 + 1 / dx 1 ^ 2 + 1 / dx 2 ^ 2 ≤ 3 * (1/(m*m)) := by linarith
      calc m*m/6 * (1 / dx 0 ^ 2 + 1 / dx 1 ^ 2 + 1 / dx 2 ^ 2) ≤ m*m/6 * (3 * (1/(m*m))) :=
            mul_le_mul_of_nonneg_left this (by positivity)
        _ = 1/2 := by field_simp; norm_num
    · have i2 := inv _ (h2 a)
      calc m*m/6 * (1 / dx 0 ^ 2 + 0 + 1 / dx 2 ^ 2) ≤ m*m/6 * (3 * (1/(m*m))) :=
            mul_le_mul_of_nonneg_left (by have : 0 ≤ 1/(m*m) := by positivity
                                          linarith) (by positivity)
        _ = 1/2 := by field_simp; norm_num
    · have i1 := inv _ (h1 b)
      calc m*m/8 * (1 / dx 0 ^ 2 + 1 / dx 1 ^ 2 + 0) ≤ m*m/8 * (2 * (1/(m*m))) :=
            mul_le_mul_of_nonneg_left (by linarith) (by positivity)
        _ = 1/4 := by field_simp; norm_num
        _ ≤ 1/2 := by norm_num
    · calc m*m/4 * (1 / dx 0 ^ 2 + 0 + 0) ≤ m*m/4 * (1/(m*m)) :=
            mul_le_mul_of_nonneg_left (by linarith) (by positivity)
        _ = 1/4 := by field_simp
        _ ≤ 1/2 := by norm_num
  have hdn0 : 0 ≤ diffNumber nx dx := by
    unfold diffNumber; have := hdx 0; have := hdx 1; have := hdx 2
    split_ifs <;> positivity
  calc k * dt * diffNumber nx dx = dt * k * diffNumber nx dx := by ring
    _ ≤ cour * qaOf nx m * diffNumber nx dx := mul_le_mul_of_nonneg_right hstep hdn0
    _ = cour * (qaOf nx m * diffNumber nx dx) := by ring
    _ ≤ cour * (1/2) := mul_le_mul_of_nonneg_left hdn hc
    _ = cour / 2 := by ring

theorem etaDti_ge (qh : ℝ) : ∀ (gs : List GridEta) (a : ℝ), a ≤ etaDti qh gs a ∧
    ∀ g ∈ gs, (∀ e ∈ g.eta, e / qaOf g.nx (dxMin g.nx g.dx) ≤ etaDti qh gs a) ∧
      (0 < qh → ∀ e ∈ g.hall, |e| / qaOf g.nx (dxMin g.nx g.dx) ≤ etaDti qh gs a)
  | [], a => ⟨le_refl _, by simp⟩
  | g :: gs, a => by
    set qa := qaOf g.nx (dxMin g.nx g.dx) with hqa
    set a1 := g.eta.foldl (fun a e => max a (e / qa)) a with ha1
    set a2 := (if qh > 0 then g.hall.foldl (fun a e => max a (|e| / qa)) a1 else a1) with ha2
    have e : etaDti qh (g :: gs) a = etaDti qh gs a2 := rfl
    rw [e]
    obtain ⟨k1, k2⟩ := etaDti_ge qh gs a2
    obtain ⟨e1, e2⟩ := foldl_max_le (fun e : ℝ => e / qa) g.eta a
    obtain ⟨f1, f2⟩ := foldl_max_le (fun e : ℝ => |e| / qa) g.hall a1
    have h12 : a1 ≤ a2 := by rw [ha2]; split_ifs; exacts [f1, le_refl _]
    refine ⟨e1.trans (h12.trans k1), ?_⟩
    intro g' hg
    rcases List.mem_cons.1 hg with rfl | hg
    · refine ⟨fun x hx => (e2 x hx).trans (h12.trans k1), fun hq x hx => ?_⟩
      refine (f2 x hx).trans (le_trans (le_of_eq ?_) k1)
      rw [ha2, if_pos hq]
    · exact k2 g' hg

/-- `new_dt_diff` covers conduction, viscosity, and the resistivities of every zone of every Grid (with the
spacings of that Grid; conduction and viscosity use the finest spacing of the mesh). -/
theorem new_dt_diff_covers (tiny : ℝ) (nx : Fin 3 → Nat) (dx : Fin 3 → ℝ) (nlev : Nat) (kappa nu : Option ℝ)
    (res : Option (ℝ × List GridEta)) :
    let dti := newDtDiff tiny nx dx nlev kappa nu res
    let qa := qaOf nx (dxMin nx (fun n => dx n / 2 ^ (nlev - 1)))
    tiny ≤ dti ∧ (∀ k, kappa = some k → k / qa ≤ dti) ∧ (∀ k, nu = some k → k / qa ≤ dti) ∧
    ∀ qh gs, res = some (qh, gs) → ∀ g ∈ gs,
      (∀ e ∈ g.eta, e / qaOf g.nx (dxMin g.nx g.dx) ≤ dti) ∧
      (0 < qh → ∀ e ∈ g.hall, |e| / qaOf g.nx (dxMin g.nx g.dx) ≤ dti) := by
  dsimp only
  unfold newDtDiff
  dsimp only
  set qa := qaOf nx (dxMin nx (fun n => dx n / 2 ^ (nlev - 1)))
  set a1 := (match kappa with | some k => max tiny (k / qa) | none => tiny) with h1
  set a2 := (match nu with | some k => max a1 (k / qa) | none => a1) with h2
  have t1 : tiny ≤ a1 := by rw [h1]; cases kappa <;> simp
  have t2 : a1 ≤ a2 := by rw [h2]; cases nu <;> simp
  have t3 : a2 ≤ (match res with | some (qh, gs) => etaDti qh gs a2 | none => a2) := by
    cases res with
    | none => exact le_refl _
    | some p => exact (etaDti_ge p.1 p.2 a2).1
  refine ⟨t1.trans (t2.trans t3), ?_, ?_, ?_⟩
  · intro k hk
    refine le_trans ?_ (t2.trans t3)
    rw [h1, hk]; exact le_max_right _ _
  · intro k hk
    refine le_trans ?_ t3
    rw [h2, hk]; exact le_max_right _ _
  · rintro qh gs rfl g hg
    exact (etaDti_ge qh gs a2).2 g hg

end
end Athena.Run
