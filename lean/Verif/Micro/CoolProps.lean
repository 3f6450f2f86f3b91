import Verif.Micro.Cool
import Mathlib.Analysis.SpecialFunctions.Pow.Deriv
import Mathlib.Analysis.SpecialFunctions.Sqrt
import Mathlib.Analysis.SpecialFunctions.ExpDeriv
import Mathlib.Analysis.SpecialFunctions.Log.Deriv
import Mathlib.Analysis.Complex.ExponentialBounds
import Mathlib.Data.List.Forall2
import Mathlib.Tactic.NormNum
import Mathlib.Tactic.Linarith
import Mathlib.Tactic.Positivity
import Mathlib.Tactic.FieldSimp
import Mathlib.Tactic.Ring

/-!
# C97: optically thin cooling
-/

namespace Athena.Cool
open Filter Topology

/-! ## Specification -/

/-- The temperature in Kelvin: the internal energy times `gamma-1` over the density, in units `u.T`. -/
noncomputable def temperature (u : Units) (U : Zone) : ℝ :=
  u.T * (u.g1 / U.d * (U.E - (U.M1 ^ 2 + U.M2 ^ 2 + U.M3 ^ 2) / (2 * U.d) - (U.B1c ^ 2 + U.B2c ^ 2 + U.B3c ^ 2) / 2))

/-- The temperature with the floor of 10 K. -/
noncomputable def floored (u : Units) (U : Zone) : ℝ := max (temperature u U) 10

/-- What the implicit equation for the temperature `T` after the time `s` leaves over: `T - told + C (n Lambda(T) - heat) s`. -/
noncomputable def resid (u : Units) (told n heat s T : ℝ) : ℝ := T - told + u.C * (n * lam T - heat) * s

/-- `T` is the end of a converged Newton iteration for the implicit equation: one Newton step for the residual from a point within one per cent. -/
def Newt (u : Units) (told n heat s T : ℝ) : Prop :=
  ∃ T0 D, 0 < T0 ∧ D = 1 + u.C * dlam T0 * n * s ∧ D ≠ 0 ∧ T = T0 - resid u told n heat s T0 / D ∧ |T0 - T| < |T| / 100

/-- The zone `U'` is `U` cooled for a time between `lo` and `hi`: only the energy has changed, and its temperature is the implicit one, at least 10 K, within ten per cent
of the temperature before. -/
def Cooled (u : Units) (heat lo hi : ℝ) (U U' : Zone) : Prop :=
  U' = { U with E := U'.E } ∧ ∃ T s, lo ≤ s ∧ s ≤ hi ∧ temperature u U' = max T 10 ∧
    (U.off = true → T = floored u U) ∧ (U.off = false → Newt u (floored u U) U.d heat s T ∧ |T - floored u U| ≤ floored u U / 10)

/-- The temperatures, as logarithms, at which the formula changes. -/
noncomputable def breaks : List ℝ := [42/10, 435/100, 49/10, 54/10, 59/10, 625/100, 65/10, 75/10]

/-! ## The cooling function and its derivative -/

/-- **C97**: the cooling function is positive. -/
theorem lam_pos {T : ℝ} (hT : 0 < T) : 0 < lam T := by
  unfold lam
  split_ifs
  · have := Real.exp_pos (-118400 / (T + 1000))
    have := Real.exp_pos (-92 / T)
    have := Real.sqrt_nonneg T
    positivity
  · exact Real.rpow_pos_of_pos (by norm_num) _

theorem coef_const {l : ℝ} (h : ∀ b ∈ breaks, l ≠ b) : ∀ᶠ l' in 𝓝 l, coef l' = coef l ∧ (l' < 42/10 ↔ l < 42/10) := by
  have key : ∀ b ∈ breaks, ∀ᶠ l' in 𝓝 l, (l' < b ↔ l < b) := by
    intro b hb
    rcases lt_or_gt_of_ne (h b hb) with hlt | hgt
    · filter_upwards [eventually_lt_nhds hlt] with l' hl'
      exact ⟨fun _ => hlt, fun _ => hl'⟩
    · filter_upwards [eventually_gt_nhds hgt] with l' hl'
      exact ⟨fun h => absurd h (not_lt.2 hl'.le), fun h => absurd h (not_lt.2 hgt.le)⟩
  filter_upwards [key (42/10) (by simp [breaks]), key (435/100) (by simp [breaks]), key (49/10) (by simp [breaks]), key (54/10) (by simp [breaks]),
    key (59/10) (by simp [breaks]), key (625/100) (by simp [breaks]), key (65/10) (by simp [breaks]), key (75/10) (by simp [breaks])]
    with l' h0 h1 h2 h3 h4 h5 h6 h7
  refine ⟨?_, h0⟩
  unfold coef
  simp only [h1, h2, h3, h4, h5, h6, h7]

theorem hasDerivAt_log10 {T : ℝ} (hT : 0 < T) : HasDerivAt log10 (1 / (T * Real.log 10)) T := by
  have h := (Real.hasDerivAt_log hT.ne').div_const (Real.log 10)
  refine h.congr_deriv ?_
  field_simp

/-- **C97**: the derivative used by the Newton iteration is the derivative of the cooling function, except at the eight temperatures at which the formula changes. -/
theorem dlam_deriv {T : ℝ} (hT : 0 < T) (hb : ∀ b ∈ breaks, log10 T ≠ b) : HasDerivAt lam (dlam T) T := by
  have hlog : ContinuousAt log10 T := (hasDerivAt_log10 hT).continuousAt
  have hloc := hlog.eventually (coef_const hb)
  have hL : Real.log 10 ≠ 0 := (Real.log_pos (by norm_num)).ne'
  by_cases hlow : log10 T < 42 / 10
  · have hev : lam =ᶠ[𝓝 T] fun T => (10 ^ 7 * Real.exp (-118400 / (T + 1000)) + 14 / 1000 * √T * Real.exp (-92 / T)) * (2 / 10 ^ 26) := by
      filter_upwards [hloc] with x hx
      unfold lam
      rw [if_pos (hx.2.2 hlow)]
    refine HasDerivAt.congr_of_eventuallyEq ?_ hev
    have hT1 : T + 1000 ≠ 0 := by positivity
    have a1 : HasDerivAt (fun T : ℝ => -118400 / (T + 1000)) (118400 / (T + 1000) ^ 2) T := by
      have := (hasDerivAt_const T (-118400 : ℝ)).div ((hasDerivAt_id T).add_const (1000 : ℝ)) hT1
      refine this.congr_deriv ?_
      simp only [id]
      ring
    have a2 : HasDerivAt (fun T : ℝ => -92 / T) (92 / T ^ 2) T := by
      have := (hasDerivAt_const T (-92 : ℝ)).div (hasDerivAt_id T) hT.ne'
      refine this.congr_deriv ?_
      simp only [id]
      ring
    have a3 := (hasDerivAt_id T).sqrt hT.ne'
    have h := ((a1.exp.const_mul ((10 : ℝ) ^ 7)).add ((a3.const_mul (14 / 1000 : ℝ)).mul a2.exp)).mul_const (2 / 10 ^ 26 : ℝ)
    refine h.congr_deriv ?_
    unfold dlam
    rw [if_pos hlow]
    have e2 : (T + 1000) ^ (2 : ℝ) = (T + 1000) ^ 2 := by
      rw [show (2 : ℝ) = ((2 : ℕ) : ℝ) by norm_num, Real.rpow_natCast]
    have e3 : T ^ (15 / 10 : ℝ) = T * √T := by
      rw [show (15 / 10 : ℝ) = 1 + 1 / 2 by norm_num, Real.rpow_add hT, Real.rpow_one, Real.sqrt_eq_rpow]
    rw [e2, e3]
    simp only [id]
    have hs : √T ≠ 0 := (Real.sqrt_pos.2 hT).ne'
    have hq : √T ^ 2 = T := Real.sq_sqrt hT.le
    have e4 : √T * (92 / T ^ 2) = 92 / (T * √T) := by
      rw [mul_div_assoc', div_eq_div_iff (by positivity) (by positivity)]
      linear_combination 92 * T * hq
    have e5 : (14 / 1000 * (1 / (2 * √T)) * Real.exp (-92 / T) + 14 / 1000 * √T * (Real.exp (-92 / T) * (92 / T ^ 2)) : ℝ) =
        14 / 1000 * (1 / 2 / √T + 92 / (T * √T)) * Real.exp (-92 / T) := by
      rw [← e4]
      field_simp
    linear_combination (2 / 10 ^ 26 : ℝ) * e5
  · have hev : lam =ᶠ[𝓝 T] fun x => (10 : ℝ) ^ ((coef (log10 T)).2 + (coef (log10 T)).1 * log10 x) := by
      filter_upwards [hloc] with x hx
      unfold lam
      rw [if_neg (fun h => hlow (hx.2.1 h)), hx.1]
    refine HasDerivAt.congr_of_eventuallyEq ?_ hev
    have h := (((hasDerivAt_log10 hT).const_mul (coef (log10 T)).1).const_add (coef (log10 T)).2).const_rpow (a := 10) (by norm_num)
    refine h.congr_deriv ?_
    unfold dlam
    rw [if_neg hlow]
    field_simp

/-! ## One zone -/

theorem newton_spec {u : Units} {told n heat s : ℝ} : ∀ (k : ℕ) (T0 T : ℝ), newton u told n heat s k T0 = (true, some T) → Newt u told n heat s T := by
  intro k
  induction k with
  | zero => intro T0 T h; simp [newton] at h
  | succ k ih =>
    intro T0 T h
    unfold newton at h
    cases e : dtemp u told n heat s T0 with
    | none => rw [e] at h; simp at h
    | some x =>
      rw [e] at h
      simp only at h
      split_ifs at h with hc
      · injection h with _ h
        injection h with h
        unfold dtemp at e
        split_ifs at e with h0
        dsimp only at e
        split_ifs at e with hd
        injection e with e
        refine ⟨T0, _, h0, rfl, hd, ?_, ?_⟩
        · rw [← h, ← e]
          unfold resid
          congr 2
          ring
        · rw [h] at hc
          have hx : T0 - T = x := by rw [← h]; ring
          rw [hx]
          have hp : 0 < |T| := abs_pos.2 hc.1
          have := hc.2
          rw [abs_div, div_lt_iff₀ hp] at this
          linarith
      · exact ih _ _ h

theorem tempNext_spec {u : Units} {told n heat : ℝ} (ht : 0 < told) : ∀ (k : ℕ) (dt : ℝ) (t : Option ℝ) (dt' : ℝ), tempNext u told n heat k dt = .ok (t, dt') →
    ∃ j, j ≤ k ∧ dt' = dt / 2 ^ j ∧ ∀ T, t = some T → |T - told| ≤ told / 10 ∧ (j < k → Newt u told n heat dt' T) := by
  intro k
  induction k with
  | zero =>
    intro dt t dt' h
    unfold tempNext at h
    cases e : (newton u told n heat dt 20 told).2 with
    | none =>
      rw [e] at h
      simp only [Res.ok.injEq, Prod.mk.injEq] at h
      refine ⟨0, le_rfl, by rw [← h.2]; simp, fun T hT => ?_⟩
      rw [← h.1] at hT
      cases hT
    | some T =>
      rw [e] at h
      simp only at h
      split_ifs at h with hc
      simp only [Res.ok.injEq, Prod.mk.injEq] at h
      refine ⟨0, le_rfl, by rw [← h.2]; simp, fun T' hT => ?_⟩
      rw [← h.1] at hT
      injection hT with hT
      subst hT
      refine ⟨?_, fun h => absurd h (lt_irrefl _)⟩
      push Not at hc
      rw [div_le_iff₀ ht] at hc
      rw [abs_sub_comm]
      linarith
  | succ k ih =>
    intro dt t dt' h
    have half : tempNext u told n heat k (dt * (1 / 2)) = .ok (t, dt') → ∃ j, j ≤ k + 1 ∧ dt' = dt / 2 ^ j ∧ ∀ T, t = some T →
        |T - told| ≤ told / 10 ∧ (j < k + 1 → Newt u told n heat dt' T) := by
      intro h
      obtain ⟨j, h1, h2, h3⟩ := ih _ _ _ h
      refine ⟨j + 1, by omega, by rw [h2, pow_succ]; field_simp, fun T hT => ⟨(h3 T hT).1, fun hj => (h3 T hT).2 (by omega)⟩⟩
    unfold tempNext at h
    split at h
    · rename_i T e
      split_ifs at h with hc
      · exact half h
      · simp only [Res.ok.injEq, Prod.mk.injEq] at h
        refine ⟨0, by omega, by rw [← h.2]; simp, fun T' hT => ?_⟩
        rw [← h.1] at hT
        injection hT with hT
        subst hT
        refine ⟨?_, fun _ => by rw [← h.2]; exact newton_spec 20 told T e⟩
        push Not at hc
        rw [div_le_iff₀ ht] at hc
        rw [abs_sub_comm]
        linarith
    · exact half h

theorem tOld_eq (u : Units) (U : Zone) : tOld u U = floored u U := by
  unfold tOld floored temperature
  simp only
  congr 1
  ring

theorem floored_pos (u : Units) (U : Zone) : 10 ≤ floored u U := le_max_right _ _

theorem setE_temp {u : Units} (hT : 0 < u.T) (hg : 0 < u.g1) (U : Zone) (hd : 0 < U.d) (T : ℝ) : temperature u (setE u U T) = max T 10 := by
  unfold temperature setE
  simp only
  generalize max T 10 = x
  field_simp
  ring

theorem setE_same (u : Units) (U : Zone) (T : ℝ) : setE u U T = { U with E := (setE u U T).E } := rfl

theorem zone2_spec {u : Units} (hT : 0 < u.T) (hg : 0 < u.g1) {heat : ℝ} {U : Zone} (hd : 0 < U.d) : ∀ (r : ℕ) (dt : ℝ), 0 < dt → ∀ U' r' dt',
    zone2 u heat U r dt = .ok (U', r', dt') → 0 < dt' ∧ dt' ≤ dt ∧ Cooled u heat dt' dt U U' := by
  intro r
  induction r with
  | zero =>
    intro dt hdt U' r' dt' h
    unfold zone2 at h
    split_ifs at h with hoff
    · simp only [Res.ok.injEq, Prod.mk.injEq] at h
      obtain ⟨rfl, -, rfl⟩ := h
      refine ⟨hdt, le_rfl, setE_same _ _ _, tOld u U, dt, le_rfl, le_rfl, setE_temp hT hg U hd _, fun _ => tOld_eq u U, fun h => ?_⟩
      rw [hoff] at h; cases h
    · cases e : tempNext u (tOld u U) U.d heat 17 dt with
      | fatal => rw [e] at h; cases h
      | ub => rw [e] at h; cases h
      | ok p =>
        obtain ⟨t, s⟩ := p
        rw [e, Res.bind_ok] at h
        simp only at h
        split_ifs at h with hne
        push Not at hne
        subst hne
        cases t with
        | none => cases h
        | some T =>
          simp only [Res.ok.injEq, Prod.mk.injEq] at h
          obtain ⟨rfl, -, rfl⟩ := h
          rw [tOld_eq] at e
          obtain ⟨j, h1, h2, h3⟩ := tempNext_spec (by linarith [floored_pos u U]) _ _ _ _ e
          have hj : j = 0 := by
            by_contra hj
            have : (1 : ℝ) < 2 ^ j := one_lt_pow₀ (by norm_num) hj
            have : dt / 2 ^ j < dt := div_lt_self hdt this
            linarith
          refine ⟨hdt, le_rfl, setE_same _ _ _, T, dt, le_rfl, le_rfl, setE_temp hT hg U hd _, fun h => ?_, fun _ => ⟨(h3 T rfl).2 (by omega), (h3 T rfl).1⟩⟩
          exact absurd h hoff
  | succ r ih =>
    intro dt hdt U' r' dt' h
    unfold zone2 at h
    split_ifs at h with hoff
    · simp only [Res.ok.injEq, Prod.mk.injEq] at h
      obtain ⟨rfl, -, rfl⟩ := h
      refine ⟨hdt, le_rfl, setE_same _ _ _, tOld u U, dt, le_rfl, le_rfl, setE_temp hT hg U hd _, fun _ => tOld_eq u U, fun h => ?_⟩
      rw [hoff] at h; cases h
    · cases e : tempNext u (tOld u U) U.d heat 17 dt with
      | fatal => rw [e] at h; cases h
      | ub => rw [e] at h; cases h
      | ok p =>
        obtain ⟨t, s⟩ := p
        rw [e, Res.bind_ok] at h
        simp only at h
        rw [tOld_eq] at e
        obtain ⟨j, h1, h2, h3⟩ := tempNext_spec (by linarith [floored_pos u U]) _ _ _ _ e
        have hp : (1 : ℝ) ≤ 2 ^ j := one_le_pow₀ (by norm_num)
        have hs : 0 < s := by rw [h2]; positivity
        have hs' : s ≤ dt := by rw [h2]; exact div_le_self hdt.le hp
        split_ifs at h with hne
        · obtain ⟨q1, q2, q3, T, w, w1, w2, w3⟩ := ih s hs _ _ _ h
          exact ⟨q1, q2.trans hs', q3, T, w, w1, w2.trans hs', w3⟩
        · push Not at hne
          subst hne
          cases t with
          | none => cases h
          | some T =>
            simp only [Res.ok.injEq, Prod.mk.injEq] at h
            obtain ⟨rfl, -, rfl⟩ := h
            have hj : j = 0 := by
              by_contra hj
              have : (1 : ℝ) < 2 ^ j := one_lt_pow₀ (by norm_num) hj
              have : dt / 2 ^ j < dt := div_lt_self hdt this
              linarith
            refine ⟨hdt, le_rfl, setE_same _ _ _, T, dt, le_rfl, le_rfl, setE_temp hT hg U hd _, fun h => ?_, fun _ => ⟨(h3 T rfl).2 (by omega), (h3 T rfl).1⟩⟩
            exact absurd h hoff

/-! ## A Grid -/

/-- The time in which the zone would cool. -/
noncomputable def tcool (u : Units) (U : Zone) : ℝ := floored u U / (U.d * lam (floored u U) * u.C)

theorem tcool_eq (u : Units) (U : Zone) : tOld u U / U.d / (lam (tOld u U) * u.C) = tcool u U := by
  rw [tOld_eq]; unfold tcool; rw [div_div]; congr 1; ring

theorem pass1_spec {u : Units} (hC : 0 < u.C) {heat dt : ℝ} (hdt : 0 < dt) : ∀ (Z : List Zone) (m r : ℝ), (∀ U ∈ Z, 0 < U.d) → 0 < m →
    pass1 u heat dt m Z = .ok r → 0 < r ∧ r ≤ m ∧ ∀ U ∈ Z, r ≤ dt ∧ r ≤ 8 / 10 * tcool u U := by
  intro Z
  induction Z with
  | nil => intro m r _ hm h; simp only [pass1, Res.ok.injEq] at h; subst h; exact ⟨hm, le_rfl, by simp⟩
  | cons U Z ih =>
    intro m r hd hm h
    unfold pass1 at h
    simp only [tcool_eq] at h
    have hU := hd U List.mem_cons_self
    have hfl := floored_pos u U
    have htc : 0 < tcool u U := by
      unfold tcool
      have := lam_pos (T := floored u U) (by linarith)
      have : 0 < floored u U := by linarith
      positivity
    cases e : tempNext u (tOld u U) U.d heat 17 (min (8 / 10 * tcool u U) dt) with
    | fatal => rw [e] at h; cases h
    | ub => rw [e] at h; cases h
    | ok p =>
      obtain ⟨t, s⟩ := p
      rw [e, Res.bind_ok] at h
      simp only at h
      cases t with
      | none => cases h
      | some T =>
        simp only at h
        rw [tOld_eq] at e
        obtain ⟨j, -, h2, -⟩ := tempNext_spec (by linarith) _ _ _ _ e
        have hp : (1 : ℝ) ≤ 2 ^ j := one_le_pow₀ (by norm_num)
        have hmin : 0 < min (8 / 10 * tcool u U) dt := lt_min (by positivity) hdt
        have hs : 0 < s := by rw [h2]; positivity
        have hs' : s ≤ min (8 / 10 * tcool u U) dt := by rw [h2]; exact div_le_self hmin.le hp
        obtain ⟨q1, q2, q3⟩ := ih _ _ (fun V hV => hd V (List.mem_cons_of_mem _ hV)) (lt_min hm hs) h
        refine ⟨q1, q2.trans (min_le_left _ _), ?_⟩
        intro V hV
        rcases List.mem_cons.1 hV with rfl | hV
        · have := q2.trans (min_le_right _ _)
          exact ⟨this.trans (hs'.trans (min_le_right _ _)), this.trans (hs'.trans (min_le_left _ _))⟩
        · exact q3 V hV

theorem Cooled.mono {u : Units} {heat lo hi lo' hi' : ℝ} {U U' : Zone} (h : Cooled u heat lo hi U U') (h1 : lo' ≤ lo) (h2 : hi ≤ hi') : Cooled u heat lo' hi' U U' := by
  obtain ⟨a, T, s, b, c, d⟩ := h
  exact ⟨a, T, s, h1.trans b, c.trans h2, d⟩

theorem pass2_spec {u : Units} (hT : 0 < u.T) (hg : 0 < u.g1) {heat : ℝ} : ∀ (Z : List Zone) (r : ℕ) (dt : ℝ), (∀ U ∈ Z, 0 < U.d) → 0 < dt → ∀ Z' dt',
    pass2 u heat r dt Z = .ok (Z', dt') → 0 < dt' ∧ dt' ≤ dt ∧ List.Forall₂ (Cooled u heat dt' dt) Z Z' := by
  intro Z
  induction Z with
  | nil =>
    intro r dt _ hdt Z' dt' h
    simp only [pass2, Res.ok.injEq, Prod.mk.injEq] at h
    obtain ⟨rfl, rfl⟩ := h
    exact ⟨hdt, le_rfl, .nil⟩
  | cons U Z ih =>
    intro r dt hd hdt Z' dt' h
    unfold pass2 at h
    cases e : zone2 u heat U r dt with
    | fatal => rw [e] at h; cases h
    | ub => rw [e] at h; cases h
    | ok p =>
      obtain ⟨U', r', s⟩ := p
      rw [e, Res.bind_ok] at h
      simp only at h
      obtain ⟨a1, a2, a3⟩ := zone2_spec hT hg (hd U List.mem_cons_self) r dt hdt _ _ _ e
      cases e' : pass2 u heat r' s Z with
      | fatal => rw [e'] at h; cases h
      | ub => rw [e'] at h; cases h
      | ok q =>
        obtain ⟨Z'', s'⟩ := q
        rw [e', Res.bind_ok] at h
        simp only [Res.pure_eq_ok, Res.ok.injEq, Prod.mk.injEq] at h
        obtain ⟨rfl, rfl⟩ := h
        obtain ⟨b1, b2, b3⟩ := ih r' s (fun V hV => hd V (List.mem_cons_of_mem _ hV)) a1 _ _ e'
        exact ⟨b1, b2.trans a2, .cons (a3.mono b2 le_rfl) (b3.imp fun _ _ h => h.mono le_rfl a2)⟩

/-- **C97.** Whenever the cooling step of a Grid ends without stopping the run, for all states with positive density and every reduction over other processes that does not
increase the time step: nothing but the energy has changed; every zone has the temperature that a converged Newton iteration gives for the implicit equation, at least 10 K and
within ten per cent of the temperature before (zones switched off keep theirs); the time step has not grown, and it is at most 0.8 of the cooling time of every zone.
Missing: the zones of a Grid may have been cooled for different times, from the new time step up to the first one; they are the same if the step was not reduced after the first
pass. -/
theorem cooling_step_partial {u : Units} (hT : 0 < u.T) (hC : 0 < u.C) (hg : 0 < u.g1) {heat dt : ℝ} (hdt : 0 < dt) {red : ℝ → ℝ}
    (hred : ∀ m, 0 < m → 0 < red m ∧ red m ≤ m) {Z Z' : List Zone} {dt' : ℝ} (hZ : Z ≠ []) (hd : ∀ U ∈ Z, 0 < U.d) (h : solver u red heat dt Z = .ok (Z', dt')) :
    0 < dt' ∧ dt' ≤ dt ∧ (∀ U ∈ Z, dt' ≤ 8 / 10 * tcool u U) ∧
      ∃ m, dt' ≤ m ∧ m ≤ dt ∧ (∀ U ∈ Z, m ≤ 8 / 10 * tcool u U) ∧ List.Forall₂ (Cooled u heat dt' m) Z Z' := by
  unfold solver at h
  cases e : pass1 u heat dt (10 ^ 20) Z with
  | fatal => rw [e] at h; cases h
  | ub => rw [e] at h; cases h
  | ok m =>
    rw [e, Res.bind_ok] at h
    obtain ⟨a1, a2, a3⟩ := pass1_spec hC hdt Z _ _ hd (by norm_num) e
    obtain ⟨r1, r2⟩ := hred m a1
    obtain ⟨b1, b2, b3⟩ := pass2_spec hT hg Z 3 (red m) hd r1 _ _ h
    obtain ⟨U, hU⟩ := List.exists_mem_of_ne_nil Z hZ
    refine ⟨b1, (b2.trans r2).trans (a3 U hU).1, fun V hV => (b2.trans r2).trans (a3 V hV).2, red m, b2, r2.trans (a3 U hU).1, fun V hV => r2.trans (a3 V hV).2, b3⟩

/-! ## Equilibrium -/

/-- The zone is at a temperature of at least 10 K at which heating and cooling balance, and cooling does not decrease with temperature. -/
def Balanced (u : Units) (heat : ℝ) (U : Zone) : Prop :=
  0 < U.d ∧ U.off = false ∧ 10 ≤ temperature u U ∧ U.d * lam (temperature u U) = heat ∧ 0 ≤ dlam (temperature u U)

theorem balanced_next {u : Units} (hC : 0 < u.C) {heat : ℝ} {U : Zone} (h : Balanced u heat U) (k : ℕ) {s : ℝ} (hs : 0 < s) :
    tempNext u (tOld u U) U.d heat (k + 1) s = .ok (some (tOld u U), s) := by
  obtain ⟨h1, -, h2, h3, h4⟩ := h
  have e : tOld u U = temperature u U := by rw [tOld_eq]; exact max_eq_left h2
  rw [e]
  generalize temperature u U = T at *
  have hT : 0 < T := by linarith
  have hn : newton u T U.d heat s 20 T = (true, some T) := by
    have hd : dtemp u T U.d heat s T = some 0 := by
      unfold dtemp
      rw [if_pos hT]
      dsimp only
      have : 0 < 1 + u.C * dlam T * U.d * s := by positivity
      rw [if_neg this.ne', h3]
      simp
    unfold newton
    rw [hd]
    simp only [sub_zero, zero_div, abs_zero]
    rw [if_pos ⟨hT.ne', by norm_num⟩]
  unfold tempNext
  rw [hn]
  simp only [sub_self, abs_zero, zero_div]
  rw [if_neg (by norm_num)]

theorem setE_id {u : Units} (hT : 0 < u.T) (hg : 0 < u.g1) {heat : ℝ} {U : Zone} (h : Balanced u heat U) : setE u U (tOld u U) = U := by
  have e : tOld u U = temperature u U := by rw [tOld_eq]; exact max_eq_left h.2.2.1
  have hd := h.1
  unfold setE
  rw [e, max_eq_left h.2.2.1]
  unfold temperature
  have : u.T * (u.g1 / U.d * (U.E - (U.M1 ^ 2 + U.M2 ^ 2 + U.M3 ^ 2) / (2 * U.d) - (U.B1c ^ 2 + U.B2c ^ 2 + U.B3c ^ 2) / 2)) / u.T * U.d / u.g1 +
      1 / 2 / U.d * (U.M1 ^ 2 + U.M2 ^ 2 + U.M3 ^ 2) + 1 / 2 * (U.B1c ^ 2 + U.B2c ^ 2 + U.B3c ^ 2) = U.E := by
    field_simp
    ring
  rw [this]

theorem balanced_pass1 {u : Units} (hC : 0 < u.C) {heat dt : ℝ} (hdt : 0 < dt) : ∀ (Z : List Zone) (m : ℝ), (∀ U ∈ Z, Balanced u heat U) →
    pass1 u heat dt m Z = .ok (Z.foldl (fun m U => min m (min (8 / 10 * tcool u U) dt)) m) := by
  intro Z
  induction Z with
  | nil => intros; rfl
  | cons U Z ih =>
    intro m h
    have hU := h U List.mem_cons_self
    have htc : 0 < tcool u U := by
      unfold tcool
      have h1 := floored_pos u U
      have := lam_pos (T := floored u U) (by linarith)
      have : 0 < floored u U := by linarith
      have := hU.1
      positivity
    unfold pass1
    simp only [tcool_eq]
    rw [balanced_next hC hU 16 (lt_min (by positivity) hdt), Res.bind_ok]
    exact ih _ fun V hV => h V (List.mem_cons_of_mem _ hV)

theorem balanced_pass2 {u : Units} (hT : 0 < u.T) (hC : 0 < u.C) (hg : 0 < u.g1) {heat : ℝ} {dt : ℝ} (hdt : 0 < dt) (r : ℕ) : ∀ (Z : List Zone),
    (∀ U ∈ Z, Balanced u heat U) → pass2 u heat r dt Z = .ok (Z, dt) := by
  intro Z
  induction Z with
  | nil => intro _; rfl
  | cons U Z ih =>
    intro h
    have hU := h U List.mem_cons_self
    unfold pass2 zone2
    rw [if_neg (by rw [hU.2.1]; simp), balanced_next hC hU 16 hdt]
    simp only [Res.bind_ok, ne_eq, not_true_eq_false, if_false]
    rw [ih fun V hV => h V (List.mem_cons_of_mem _ hV), setE_id hT hg hU]
    rfl

/-- **C97**: gas in thermal equilibrium, each zone at a temperature of its own, is not changed; the time step becomes the least of 0.8 of the cooling times and the step before. -/
theorem cooling_equilibrium {u : Units} (hT : 0 < u.T) (hC : 0 < u.C) (hg : 0 < u.g1) {heat dt : ℝ} (hdt : 0 < dt) {Z : List Zone} (hZ : ∀ U ∈ Z, Balanced u heat U) :
    solver u id heat dt Z = .ok (Z, Z.foldl (fun m U => min m (min (8 / 10 * tcool u U) dt)) (10 ^ 20)) := by
  have e := balanced_pass1 hC hdt Z (10 ^ 20) hZ
  have hpos : 0 < Z.foldl (fun m U => min m (min (8 / 10 * tcool u U) dt)) (10 ^ 20) :=
    (pass1_spec hC hdt Z _ _ (fun U hU => (hZ U hU).1) (by norm_num) e).1
  unfold solver
  rw [e, Res.bind_ok]
  exact balanced_pass2 hT hC hg hpos 3 Z hZ

/-! ## Several Domains -/

theorem log10_pow (n : ℕ) : log10 (10 ^ n) = n := by
  unfold log10
  rw [Real.log_pow]
  have : Real.log 10 ≠ 0 := (Real.log_pos (by norm_num)).ne'
  field_simp

/-- A zone at rest without field. -/
noncomputable def still (d T : ℝ) : Zone := ⟨d, 0, 0, 0, T * d, 0, 0, 0, false⟩

theorem still_temp {d T : ℝ} (hd : 0 < d) (C : ℝ) : temperature ⟨1, C, 1⟩ (still d T) = T := by
  unfold temperature still
  simp only
  field_simp
  ring

/-- **C97 is false with several Domains**: the time step is reduced by the Grid of a later Domain, but an earlier Grid has been cooled for, and keeps as its time step (with which
it is then integrated), the larger one.  Here both are in thermal equilibrium at 10^6 K and 10^5 K. -/
theorem cooling_dt_false : ¬ ∀ (u : Units) (dt : ℝ) (D : List (ℝ × List Zone)) (r : List (List Zone × ℝ)) (m : ℝ), 0 < u.T → 0 < u.C → 0 < u.g1 → 0 < dt →
    integrate u dt D = .ok (r, m) → ∀ g ∈ r, g.2 = m := by
  intro h
  have l5 : lam (10 ^ 5) = (10 : ℝ) ^ (-21 : ℝ) := by
    unfold lam
    rw [log10_pow]
    norm_num [coef]
  have l6 : lam (10 ^ 6) = (10 : ℝ) ^ (-2196 / 100 : ℝ) := by
    unfold lam
    rw [log10_pow]
    norm_num [coef]
  have d5 : dlam (10 ^ 5) = 0 := by
    unfold dlam
    rw [log10_pow]
    norm_num [coef]
  have d6 : dlam (10 ^ 6) = 0 := by
    unfold dlam
    rw [log10_pow]
    norm_num [coef]
  have p5 : 0 < lam (10 ^ 5) := lam_pos (by norm_num)
  have p6 : 0 < lam (10 ^ 6) := lam_pos (by norm_num)
  have n1 : 0 < 1 / lam (10 ^ 6) := by positivity
  have n2 : 0 < 1 / lam (10 ^ 5) := by positivity
  have b1 : Balanced ⟨1, 1, 1⟩ 1 (still (1 / lam (10 ^ 6)) (10 ^ 6)) := by
    refine ⟨n1, rfl, ?_, ?_, ?_⟩
    · rw [still_temp n1]; norm_num
    · rw [still_temp n1]; unfold still; field_simp
    · rw [still_temp n1, d6]
  have b2 : Balanced ⟨1, 1, 1⟩ 1 (still (1 / lam (10 ^ 5)) (10 ^ 5)) := by
    refine ⟨n2, rfl, ?_, ?_, ?_⟩
    · rw [still_temp n2]; norm_num
    · rw [still_temp n2]; unfold still; field_simp
    · rw [still_temp n2, d5]
  have c1 : tcool ⟨1, 1, 1⟩ (still (1 / lam (10 ^ 6)) (10 ^ 6)) = 10 ^ 6 := by
    unfold tcool floored
    rw [still_temp n1, max_eq_left (by norm_num)]
    unfold still
    field_simp
  have c2 : tcool ⟨1, 1, 1⟩ (still (1 / lam (10 ^ 5)) (10 ^ 5)) = 10 ^ 5 := by
    unfold tcool floored
    rw [still_temp n2, max_eq_left (by norm_num)]
    unfold still
    field_simp
  have s1 := cooling_equilibrium (u := ⟨1, 1, 1⟩) (by norm_num) (by norm_num) (by norm_num) (heat := 1) (dt := 800000) (by norm_num)
    (Z := [still (1 / lam (10 ^ 6)) (10 ^ 6)]) (by simpa using b1)
  have s2 := cooling_equilibrium (u := ⟨1, 1, 1⟩) (by norm_num) (by norm_num) (by norm_num) (heat := 1) (dt := 800000) (by norm_num)
    (Z := [still (1 / lam (10 ^ 5)) (10 ^ 5)]) (by simpa using b2)
  have e1 : [still (1 / lam (10 ^ 6)) (10 ^ 6)].foldl (fun m U => min m (min (8 / 10 * tcool ⟨1, 1, 1⟩ U) 800000)) (10 ^ 20) = 800000 := by
    rw [List.foldl_cons, List.foldl_nil, c1]; norm_num
  have e2 : [still (1 / lam (10 ^ 5)) (10 ^ 5)].foldl (fun m U => min m (min (8 / 10 * tcool ⟨1, 1, 1⟩ U) 800000)) (10 ^ 20) = 80000 := by
    rw [List.foldl_cons, List.foldl_nil, c2]; norm_num
  rw [e1] at s1
  rw [e2] at s2
  have hi : integrate ⟨1, 1, 1⟩ 800000 [(1, [still (1 / lam (10 ^ 6)) (10 ^ 6)]), (1, [still (1 / lam (10 ^ 5)) (10 ^ 5)])] =
      .ok ([([still (1 / lam (10 ^ 6)) (10 ^ 6)], 800000), ([still (1 / lam (10 ^ 5)) (10 ^ 5)], 80000)], 80000) := by
    unfold integrate
    rw [s1, Res.bind_ok]
    simp only [min_self]
    unfold integrate
    rw [s2, Res.bind_ok]
    simp only [integrate, Res.bind_ok, Res.pure_eq_ok]
    norm_num
  have := h _ _ _ _ _ (by norm_num) (by norm_num) (by norm_num) (by norm_num) hi _ List.mem_cons_self
  norm_num at this

/-! ## The Koyama-Inutsuka function -/

/-- **C97**: an explicit step with the Koyama-Inutsuka function keeps the pressure positive, for every density, time step and pressure that corresponds to at least 10 K.
Missing: colder gas, for which it is false. -/
theorem koyInut_positive_partial {g1 dens press dt : ℝ} (hg : 0 < g1) (hd : 0 < dens) (hdt : 0 < dt) (hp : 10 * (dens / mbar * kb) ≤ press) :
    0 < press - dt * g1 * koyInut g1 dens press dt := by
  have hm : 0 < mbar := by unfold mbar; norm_num
  have hk : 0 < kb := by unfold kb; norm_num
  obtain ⟨n, hn⟩ : ∃ n, n = dens / mbar := ⟨_, rfl⟩
  have hn0 : 0 < n := by rw [hn]; positivity
  rw [← hn] at hp
  have hT : max (press / (n * kb)) 10 = press / (n * kb) := by
    rw [max_eq_left]
    rw [le_div_iff₀ (by positivity)]
    exact hp
  unfold koyInut
  simp only [← hn, hT]
  obtain ⟨T, hTd⟩ : ∃ T, T = press / (n * kb) := ⟨_, rfl⟩
  rw [← hTd]
  generalize hpp : heatRate * (n * (10 ^ 7 * Real.exp (-118400 / (T + 1000)) + 14 / 1000 * √T * Real.exp (-92 / T)) - 1) = pp
  generalize hte : (if T - pp * dt * g1 / kb ≤ 185 then (10 : ℝ) ^ lognT (log10 n) / n else 10) = Teq
  have hpos : 0 < Teq := by
    rw [← hte]
    split_ifs
    · exact div_pos (Real.rpow_pos_of_pos (by norm_num) _) hn0
    · norm_num
  have hP : press = T * (n * kb) := by rw [hTd]; field_simp
  have h1 : min pp (kb * (T - Teq) / (dt * g1)) ≤ kb * (T - Teq) / (dt * g1) := min_le_right _ _
  have h2 : dt * g1 * (n * min pp (kb * (T - Teq) / (dt * g1))) ≤ n * (kb * (T - Teq)) := by
    have := mul_le_mul_of_nonneg_left h1 (by positivity : 0 ≤ dt * g1 * n)
    have e : dt * g1 * n * (kb * (T - Teq) / (dt * g1)) = n * (kb * (T - Teq)) := by field_simp
    rw [e] at this
    linarith
  rw [hP]
  have : 0 < n * kb * Teq := by positivity
  nlinarith

/-- **C97 is false** for gas colder than 10 K: its temperature is taken as 10 K, and the energy removed can be more than it has (n = 10^6, 1 K, one explicit step). -/
theorem koyInut_positive_false : ¬ ∀ (g1 dens press dt : ℝ), 0 < g1 → 0 < dens → 0 < press → 0 < dt → 0 < press - dt * g1 * koyInut g1 dens press dt := by
  intro h
  have hm : 0 < mbar := by unfold mbar; norm_num
  have hk : 0 < kb := by unfold kb; norm_num
  obtain ⟨pp, hpp⟩ : ∃ pp, pp = heatRate * (10 ^ 6 * (10 ^ 7 * Real.exp (-118400 / (10 + 1000)) + 14 / 1000 * √10 * Real.exp (-92 / 10)) - 1) := ⟨_, rfl⟩
  have hp0 : 0 < pp := by
    have e1 : (1 : ℝ) / 25000 ≤ Real.exp (-92 / 10) := by
      have h1 : Real.exp (92 / 10) ≤ Real.exp 10 := Real.exp_le_exp.2 (by norm_num)
      have h2 : Real.exp 10 = Real.exp 1 ^ 10 := by rw [← Real.exp_nat_mul]; norm_num
      have h3 : Real.exp 1 ^ 10 ≤ (272 / 100 : ℝ) ^ 10 := pow_le_pow_left₀ (Real.exp_pos 1).le (by linarith [Real.exp_one_lt_d9]) 10
      have h4 : Real.exp (92 / 10) ≤ 25000 := by
        rw [h2] at h1
        exact (h1.trans h3).trans (by norm_num)
      rw [show (-92 / 10 : ℝ) = -(92 / 10) by norm_num, Real.exp_neg, one_div]
      exact inv_anti₀ (Real.exp_pos _) h4
    have e2 : (3 : ℝ) ≤ √10 := Real.le_sqrt_of_sq_le (by norm_num)
    have e3 := Real.exp_pos (-118400 / (10 + 1000))
    have e4 : (14 : ℝ) / 1000 * 3 * (1 / 25000) ≤ 14 / 1000 * √10 * Real.exp (-92 / 10) := by gcongr
    have e5 : (0 : ℝ) < heatRate := by unfold heatRate; norm_num
    rw [hpp]
    apply mul_pos e5
    have : (0 : ℝ) < 10 ^ 7 * Real.exp (-118400 / (10 + 1000)) := by positivity
    linarith
  have hn : (10 : ℝ) ^ 6 * mbar / mbar = 10 ^ 6 := by field_simp
  -- a time step after which the gas would be colder than its equilibrium
  have := h 1 (10 ^ 6 * mbar) (10 ^ 6 * kb) (10 * kb / pp) (by norm_num) (by positivity) (by positivity) (by positivity)
  revert this
  unfold koyInut
  simp only [hn]
  have hT : max (10 ^ 6 * kb / (10 ^ 6 * kb)) 10 = (10 : ℝ) := by
    rw [div_self (by positivity)]; norm_num
  rw [hT, ← hpp]
  have hdT : pp * (10 * kb / pp) * 1 / kb = 10 := by field_simp
  rw [hdT, if_pos (by norm_num), log10_pow]
  have hteq : (10 : ℝ) ^ lognT ((6 : ℕ) : ℝ) / 10 ^ 6 ≤ 5 := by
    rw [div_le_iff₀ (by norm_num)]
    have : lognT ((6 : ℕ) : ℝ) ≤ 6 + 1 / 2 := by unfold lognT; norm_num
    have h1 : (10 : ℝ) ^ lognT ((6 : ℕ) : ℝ) ≤ (10 : ℝ) ^ (6 + 1 / 2 : ℝ) := Real.rpow_le_rpow_of_exponent_le (by norm_num) this
    have h2 : (10 : ℝ) ^ (6 + 1 / 2 : ℝ) = 10 ^ 6 * √10 := by
      rw [Real.rpow_add (by norm_num), Real.sqrt_eq_rpow]
      norm_num
    have h3 : √10 ≤ 5 := by rw [Real.sqrt_le_left (by norm_num)]; norm_num
    rw [h2] at h1
    linarith
  generalize (10 : ℝ) ^ lognT ((6 : ℕ) : ℝ) / 10 ^ 6 = Teq at *
  have e1 : kb * (10 - Teq) / (10 * kb / pp * 1) = pp * ((10 - Teq) / 10) := by field_simp
  have hmin : pp * (1 / 2) ≤ min pp (kb * (10 - Teq) / (10 * kb / pp * 1)) := by
    rw [e1]
    apply le_min
    · linarith
    · exact mul_le_mul_of_nonneg_left (by linarith) hp0.le
  have h5 : 10 * kb / pp * 1 * (10 ^ 6 * (pp * (1 / 2))) ≤ 10 * kb / pp * 1 * (10 ^ 6 * min pp (kb * (10 - Teq) / (10 * kb / pp * 1))) := by gcongr
  have e2 : 10 * kb / pp * 1 * (10 ^ 6 * (pp * (1 / 2))) = 5 * 10 ^ 6 * kb := by field_simp; norm_num
  rw [e2] at h5
  intro h6
  nlinarith

/-- Concrete cases: two zones in equilibrium; gas at 100 K. -/
example : ∃ (heat : ℝ) (Z : List Zone), Z.length = 1 ∧ ∀ U ∈ Z, Balanced ⟨1, 1, 1⟩ heat U := by
  have p6 : 0 < lam (10 ^ 6) := lam_pos (by norm_num)
  have n1 : 0 < 1 / lam (10 ^ 6) := by positivity
  refine ⟨1, [still (1 / lam (10 ^ 6)) (10 ^ 6)], rfl, ?_⟩
  intro U hU
  rw [List.mem_singleton.1 hU]
  refine ⟨n1, rfl, ?_, ?_, ?_⟩
  · rw [still_temp n1]; norm_num
  · rw [still_temp n1]; unfold still; field_simp
  · rw [still_temp n1]
    unfold dlam
    rw [log10_pow]
    norm_num [coef]

example : ∀ b ∈ breaks, log10 (10 ^ 5) ≠ b := by
  rw [log10_pow]
  norm_num [breaks]

example : 10 * (1 / mbar * kb) ≤ 100 * (1 / mbar * kb) := by
  have hm : 0 < mbar := by unfold mbar; norm_num
  have hk : 0 < kb := by unfold kb; norm_num
  have : 0 < 1 / mbar * kb := by positivity
  linarith

end Athena.Cool
