import Verif.Hydro.ExactIso
import Verif.Hydro.ExactUniq

/-! # C66: the isothermal exact solver solves the Riemann problem -/

namespace Athena.Hydro
noncomputable section
variable {ns : ℕ} {p : Phys} {Bx : ℝ} {Wl Wr W : Prim1D ns} {Ul Ur U : Cons1D ns}

/-! ## Root finder -/

/-- While the bracket contains the iterate, it goes on doing so; the value returned lies in the bracket. -/
theorem rtLoop_bracket (g : ℝ → Option (ℝ × ℝ)) (x1 x2 xacc : ℝ)
    (hg : ∀ x, x1 ≤ x → x ≤ x2 → ∃ f df, g x = some (f, df) ∧ 0 < df) (n : ℕ) :
    ∀ s : Rt, x1 ≤ s.xl → s.xl ≤ s.rts → s.rts ≤ s.xh → s.xh ≤ x2 → 0 < s.df →
      ∃ r, rtLoop g xacc n s = some r ∧ x1 ≤ r ∧ r ≤ x2 := by
  induction n with
  | zero => intro s h1 h2 h3 h4 _; exact ⟨s.rts, rfl, h1.trans h2, h3.trans h4⟩
  | succ n ih =>
    intro s h1 h2 h3 h4 h5
    -- the next iterate and the rest of the pass
    have key : ∀ rts dx, s.xl ≤ rts → rts ≤ s.xh → ∀ b : Prop, ∀ _ : Decidable b,
        ∃ r, (do
          match ← (if b then some (.inl rts)
            else if |dx| < xacc then some (.inl rts)
            else do
              let (f, df) ← g rts
              some (.inr (if f < 0 then ⟨rts, s.xh, rts, s.dx, dx, f, df⟩ else ⟨s.xl, rts, rts, s.dx, dx, f, df⟩)) : Option (ℝ ⊕ Rt)) with
          | .inl r => some r
          | .inr s => rtLoop g xacc n s) = some r ∧ x1 ≤ r ∧ r ≤ x2 := by
      intro rts dx hl hh b _
      have q1 : x1 ≤ rts := h1.trans hl
      have q2 : rts ≤ x2 := hh.trans h4
      by_cases hb : b
      · rw [if_pos hb]; exact ⟨rts, rfl, q1, q2⟩
      rw [if_neg hb]
      by_cases hx : |dx| < xacc
      · rw [if_pos hx]; exact ⟨rts, rfl, q1, q2⟩
      rw [if_neg hx]
      obtain ⟨f, df, e, hdf⟩ := hg rts q1 q2
      rw [e]
      by_cases hf : f < 0
      · simp only [Option.bind_eq_bind, Option.bind_some, hf, if_true]
        exact ih _ q1 le_rfl hh h4 hdf
      · simp only [Option.bind_eq_bind, Option.bind_some, hf, if_false]
        exact ih _ h1 hl le_rfl q2 hdf
    unfold rtLoop rtStep
    by_cases hb : ((s.rts - s.xh) * s.df - s.f) * ((s.rts - s.xl) * s.df - s.f) > 0 ∨ |2 * s.f| > |s.dxold * s.df|
    · rw [if_pos hb]
      exact key _ _ (by linarith) (by linarith) _ _
    · rw [if_neg hb, fdiv_pos h5]
      push Not at hb
      have hAB := hb.1
      have hle : (s.rts - s.xh) * s.df - s.f ≤ (s.rts - s.xl) * s.df - s.f := by nlinarith
      have hA : (s.rts - s.xh) * s.df - s.f ≤ 0 := by
        by_contra hc
        have := mul_pos (not_le.mp hc) ((not_le.mp hc).trans_le hle)
        linarith
      have hB : 0 ≤ (s.rts - s.xl) * s.df - s.f := by
        by_contra hc
        have := mul_pos_of_neg_of_neg (hle.trans_lt (not_le.mp hc)) (not_le.mp hc)
        linarith
      refine key _ _ ?_ ?_ _ _
      · have : s.f / s.df ≤ s.rts - s.xl := by rw [div_le_iff₀ h5]; linarith
        linarith
      · have : s.rts - s.xh ≤ s.f / s.df := by rw [le_div_iff₀ h5]; linarith
        linarith

/-- The root finder, started with a change of sign, returns a value in the interval. -/
theorem rtsafe_bracket (g : ℝ → Option (ℝ × ℝ)) (x1 x2 xacc : ℝ) (hx : x1 ≤ x2)
    (hg : ∀ x, x1 ≤ x → x ≤ x2 → ∃ f df, g x = some (f, df) ∧ 0 < df) {f1 d1 f2 d2 : ℝ} (h1 : g x1 = some (f1, d1))
    (h2 : g x2 = some (f2, d2)) (hf1 : f1 < 0) (hf2 : 0 < f2) : ∃ r, rtsafe g x1 x2 xacc = some r ∧ x1 ≤ r ∧ r ≤ x2 := by
  unfold rtsafe
  obtain ⟨f, df, e, hdf⟩ := hg (1/2 * (x1 + x2)) (by linarith) (by linarith)
  have c1 : ¬ ((f1 > 0 ∧ f2 > 0) ∨ (f1 < 0 ∧ f2 < 0)) := by
    rintro (⟨h, -⟩ | ⟨-, h⟩) <;> linarith
  simp only [h1, h2, e, Option.bind_eq_bind, Option.bind_some]
  rw [if_neg c1]
  simp only [hf1.ne, hf2.ne', hf1, if_true, if_false]
  have a1 : x1 ≤ 1/2 * (x1 + x2) := by linarith
  have a2 : 1/2 * (x1 + x2) ≤ x2 := by linarith
  exact rtLoop_bracket g x1 x2 xacc hg 100 ⟨x1, x2, 1/2 * (x1 + x2), |x2 - x1|, |x2 - x1|, f, df⟩ le_rfl a1 a2 le_rfl hdf

/-! ## The middle state -/

/-- Jump between the velocities behind a rarefaction that starts from density `dmax` and behind a shock that runs into density `dmin`,
if both lead to density `d`. -/
def mixRes (c vl vr dmin dmax d : ℝ) : ℝ := vr - vl + c * (Real.log (d / dmax) + (d - dmin) / Real.sqrt (d * dmin))

theorem srder_eq {c vl vr dmin dmax dm : ℝ} (hc : 0 < c) (h1 : 0 < dmin) (h2 : 0 < dmax) (h : 0 < dm) :
    ∃ df, srder c vl vr dmin dmax dm = some (mixRes c vl vr dmin dmax dm, df) ∧ 0 < df := by
  have hs : 0 < Real.sqrt (dm * dmin) := Real.sqrt_pos.mpr (by positivity)
  unfold srder mixRes
  rw [fdiv_pos h2]
  simp only [Option.bind_eq_bind, Option.bind_some, Option.pure_def]
  rw [flog_pos (div_pos h h2), fsqrt_nonneg (by positivity)]
  simp only [Option.bind_some]
  rw [fdiv_pos hs, fdiv_pos h, fdiv_pos hs]
  exact ⟨_, rfl, by positivity⟩

/-- `dr` of `exactMid`: density between two rarefactions. -/
def rareD (c : ℝ) (Wl Wr : Prim1D ns) : ℝ :=
  Real.sqrt Wl.d * Real.sqrt Wr.d * Real.exp ((Wl.Vx - Wr.Vx) / (2 * c))

/-- `zm` of `exactMid`: root of the density between two shocks. -/
def shockZ (c : ℝ) (Wl Wr : Prim1D ns) : ℝ := tsZ (Real.sqrt Wl.d) (Real.sqrt Wr.d) Wl.Vx Wr.Vx c

theorem exactMid_eq {c : ℝ} (hc : 0 < c) (hl : 0 < Wl.d) (hr : 0 < Wr.d) :
    exactMid c Wl Wr =
      if shockZ c Wl Wr * shockZ c Wl Wr < max Wl.d Wr.d then
        if rareD c Wl Wr > min Wl.d Wr.d then do
          let dx ← rtsafe (srder c Wl.Vx Wr.Vx (min Wl.d Wr.d) (max Wl.d Wr.d)) (min Wl.d Wr.d) (max Wl.d Wr.d) rtAcc
          if dx > min Wl.d Wr.d ∧ dx ≤ max Wl.d Wr.d then
            if Wl.d > Wr.d then some (true, false, dx, Wl.Vx - c * Real.log (dx / Wl.d))
            else some (false, true, dx, Wr.Vx + c * Real.log (dx / Wr.d))
          else some (true, true, rareD c Wl Wr, Wl.Vx - c * Real.log (rareD c Wl Wr / Wl.d))
        else some (true, true, rareD c Wl Wr, Wl.Vx - c * Real.log (rareD c Wl Wr / Wl.d))
      else some (false, false, shockZ c Wl Wr * shockZ c Wl Wr,
        Wl.Vx - c * (shockZ c Wl Wr * shockZ c Wl Wr - Wl.d) / (shockZ c Wl Wr * Real.sqrt Wl.d)) := by
  have ha := Real.sqrt_pos.mpr hl
  have hb := Real.sqrt_pos.mpr hr
  have hz : 0 < shockZ c Wl Wr := (twoShock_contact _ _ Wl.Vx Wr.Vx c ha hb hc).1
  have hd : 0 < rareD c Wl Wr := by unfold rareD; positivity
  have hq : 0 ≤ Real.sqrt Wl.d * Real.sqrt Wr.d * (Wl.Vx - Wr.Vx) / (2 * c * (Real.sqrt Wl.d + Real.sqrt Wr.d)) *
      (Real.sqrt Wl.d * Real.sqrt Wr.d * (Wl.Vx - Wr.Vx) / (2 * c * (Real.sqrt Wl.d + Real.sqrt Wr.d))) +
        Real.sqrt Wl.d * Real.sqrt Wr.d := add_nonneg (mul_self_nonneg _) (by positivity)
  unfold exactMid
  have h0 : 0 < 2 * c * (Real.sqrt Wl.d + Real.sqrt Wr.d) := by positivity
  simp only [fsqrt_nonneg hl.le, fsqrt_nonneg hr.le, Option.bind_eq_bind, Option.bind_some, fdiv_pos h0]
  rw [fsqrt_nonneg hq]
  simp only [Option.bind_some]
  change (fdiv (c * (shockZ c Wl Wr * shockZ c Wl Wr - Wl.d)) (shockZ c Wl Wr * Real.sqrt Wl.d)).bind _ = _
  rw [fdiv_pos (mul_pos hz ha)]
  have h2c : 0 < 2 * c := by positivity
  simp only [Option.bind_some, fdiv_pos h2c, fdiv_pos hl, fdiv_pos hr, fmin_eq, fmax_eq]
  change (if shockZ c Wl Wr * shockZ c Wl Wr < max Wl.d Wr.d then (flog (rareD c Wl Wr / Wl.d)).bind _ else _) = _
  rw [flog_pos (div_pos hd hl)]
  simp only [Option.bind_some]
  change (if shockZ c Wl Wr * shockZ c Wl Wr < max Wl.d Wr.d then (if rareD c Wl Wr > min Wl.d Wr.d then _ else _) else _) = _
  congr 1
  congr 1
  congr 1
  funext dx
  have hmin : 0 < min Wl.d Wr.d := lt_min hl hr
  by_cases hx : dx > min Wl.d Wr.d ∧ dx ≤ max Wl.d Wr.d
  · have : 0 < dx := hmin.trans hx.1
    simp only [if_pos hx, flog_pos (div_pos this hl), flog_pos (div_pos this hr), Option.bind_some]
  · simp only [if_neg hx]; rfl

/-- Two shocks lead to at least the larger density iff the states approach each other fast enough. -/
theorem shockZ_ge {c : ℝ} (hc : 0 < c) (hl : 0 < Wl.d) (hr : 0 < Wr.d) :
    max Wl.d Wr.d ≤ shockZ c Wl Wr * shockZ c Wl Wr ↔
      c * (max Wl.d Wr.d - min Wl.d Wr.d) / Real.sqrt (max Wl.d Wr.d * min Wl.d Wr.d) ≤ Wl.Vx - Wr.Vx := by
  have ha := Real.sqrt_pos.mpr hl
  have hb := Real.sqrt_pos.mpr hr
  have ea := Real.mul_self_sqrt hl.le
  have eb := Real.mul_self_sqrt hr.le
  obtain ⟨hz, e1, e2⟩ := twoShock_contact _ _ Wl.Vx Wr.Vx c ha hb hc
  change 0 < shockZ c Wl Wr at hz
  have e : Wl.Vx - c * (shockZ c Wl Wr / Real.sqrt Wl.d - Real.sqrt Wl.d / shockZ c Wl Wr) =
      Wr.Vx + c * (shockZ c Wl Wr / Real.sqrt Wr.d - Real.sqrt Wr.d / shockZ c Wl Wr) := e1.symm.trans e2
  have hmm : max Wl.d Wr.d * min Wl.d Wr.d = Wl.d * Wr.d := max_mul_min _ _
  have hsq : Real.sqrt (max Wl.d Wr.d * min Wl.d Wr.d) = Real.sqrt Wl.d * Real.sqrt Wr.d := by
    rw [hmm, Real.sqrt_mul hl.le]
  have hs1 : Wl.d ≤ Wr.d → Real.sqrt Wl.d ≤ Real.sqrt Wr.d := Real.sqrt_le_sqrt
  have hs2 : Wr.d ≤ Wl.d → Real.sqrt Wr.d ≤ Real.sqrt Wl.d := Real.sqrt_le_sqrt
  rw [hsq]
  generalize shockZ c Wl Wr = z at *
  generalize Real.sqrt Wl.d = a at *
  generalize Real.sqrt Wr.d = b at *
  have hab : 0 < a * b := by positivity
  -- the difference of the velocities in terms of z
  have hV : (Wl.Vx - Wr.Vx) * (a * b * z) = c * (a + b) * (z * z - a * b) := by
    field_simp at e; linear_combination e
  have habz : 0 < a * b * z := by positivity
  rw [div_le_iff₀ hab]
  -- in terms of the larger and the smaller root
  have main : ∀ x y : ℝ, 0 < x → 0 < y → y ≤ x → (Wl.Vx - Wr.Vx) * (x * y * z) = c * (x + y) * (z * z - x * y) →
      (x * x ≤ z * z ↔ c * (x * x - y * y) ≤ (Wl.Vx - Wr.Vx) * (x * y)) := by
    intro x y hx hy hyx h
    have hxy : 0 < c * (x + y) := by positivity
    have : c * (x * x - y * y) ≤ (Wl.Vx - Wr.Vx) * (x * y) ↔ c * (x + y) * ((x - y) * z) ≤ c * (x + y) * (z * z - x * y) := by
      rw [← h]
      constructor
      · intro h1; nlinarith [mul_le_mul_of_nonneg_right h1 hz.le]
      · intro h1
        have : (c * (x * x - y * y)) * z ≤ ((Wl.Vx - Wr.Vx) * (x * y)) * z := by nlinarith
        exact le_of_mul_le_mul_right this hz
    rw [this, mul_le_mul_iff_right₀ hxy]
    have f : z * z - x * y - (x - y) * z = (z - x) * (z + y) := by ring
    constructor
    · intro h1
      have h2 : x ≤ z := by
        by_contra hc
        have := mul_lt_mul'' (not_le.mp hc) (not_le.mp hc) hz.le hz.le
        linarith
      have := mul_nonneg (by linarith : 0 ≤ z - x) (by linarith : 0 ≤ z + y)
      linarith
    · intro h1
      have h2 : 0 ≤ (z - x) * (z + y) := by linarith
      have h3 : 0 ≤ z - x := nonneg_of_mul_nonneg_left h2 (by linarith)
      exact mul_self_le_mul_self hx.le (by linarith)
  rcases le_total Wl.d Wr.d with h | h
  · have := main b a hb ha (hs1 h) (by linear_combination hV)
    rw [ea, eb] at this
    rw [max_eq_right h, min_eq_left h, this, mul_comm a b]
  · have := main a b ha hb (hs2 h) hV
    rw [ea, eb] at this
    rw [max_eq_left h, min_eq_right h, this]

/-- Two rarefactions lead to at most the smaller density iff the states recede fast enough. -/
theorem rareD_le {c : ℝ} (hc : 0 < c) (hl : 0 < Wl.d) (hr : 0 < Wr.d) :
    rareD c Wl Wr ≤ min Wl.d Wr.d ↔ c * Real.log (max Wl.d Wr.d / min Wl.d Wr.d) ≤ Wr.Vx - Wl.Vx := by
  have ha := Real.sqrt_pos.mpr hl
  have hb := Real.sqrt_pos.mpr hr
  have hmin : 0 < min Wl.d Wr.d := lt_min hl hr
  have hmax : 0 < max Wl.d Wr.d := lt_max_of_lt_left hl
  have hd : 0 < rareD c Wl Wr := by unfold rareD; positivity
  have hlog : Real.log (rareD c Wl Wr) =
      1/2 * (Real.log (max Wl.d Wr.d) + Real.log (min Wl.d Wr.d)) + (Wl.Vx - Wr.Vx) / (2 * c) := by
    unfold rareD
    rw [Real.log_mul (by positivity) (Real.exp_ne_zero _), Real.log_exp, ← Real.sqrt_mul hl.le, Real.log_sqrt (by positivity),
      ← max_mul_min, Real.log_mul hmax.ne' hmin.ne']
    ring
  rw [← Real.log_le_log_iff hd hmin, hlog, Real.log_div hmax.ne' hmin.ne']
  have : (Wl.Vx - Wr.Vx) / (2 * c) ≤ -(1/2) * (Real.log (max Wl.d Wr.d) - Real.log (min Wl.d Wr.d)) ↔
      c * (Real.log (max Wl.d Wr.d) - Real.log (min Wl.d Wr.d)) ≤ Wr.Vx - Wl.Vx := by
    rw [div_le_iff₀ (by positivity)]
    constructor <;> intro h <;> linarith
  rw [← this]
  constructor <;> intro h <;> linarith

/-- C66: in the remaining case the equation solved has a change of sign; the root finder returns a density between the two. -/
theorem exactI_bracket {c : ℝ} (hc : 0 < c) (hl : 0 < Wl.d) (hr : 0 < Wr.d)
    (h1 : Wl.Vx - Wr.Vx < c * (max Wl.d Wr.d - min Wl.d Wr.d) / Real.sqrt (max Wl.d Wr.d * min Wl.d Wr.d))
    (h2 : Wr.Vx - Wl.Vx < c * Real.log (max Wl.d Wr.d / min Wl.d Wr.d)) :
    mixRes c Wl.Vx Wr.Vx (min Wl.d Wr.d) (max Wl.d Wr.d) (min Wl.d Wr.d) < 0 ∧
    0 < mixRes c Wl.Vx Wr.Vx (min Wl.d Wr.d) (max Wl.d Wr.d) (max Wl.d Wr.d) ∧
    ∃ d, rtsafe (srder c Wl.Vx Wr.Vx (min Wl.d Wr.d) (max Wl.d Wr.d)) (min Wl.d Wr.d) (max Wl.d Wr.d) rtAcc = some d ∧
      min Wl.d Wr.d ≤ d ∧ d ≤ max Wl.d Wr.d := by
  have hmin : 0 < min Wl.d Wr.d := lt_min hl hr
  have hmax : 0 < max Wl.d Wr.d := lt_max_of_lt_left hl
  have hle : min Wl.d Wr.d ≤ max Wl.d Wr.d := min_le_max
  generalize min Wl.d Wr.d = m at *
  generalize max Wl.d Wr.d = M at *
  have s1 : mixRes c Wl.Vx Wr.Vx m M m < 0 := by
    unfold mixRes
    rw [Real.log_div hmax.ne' hmin.ne'] at h2
    rw [Real.log_div hmin.ne' hmax.ne', sub_self, zero_div]
    nlinarith
  have s2 : 0 < mixRes c Wl.Vx Wr.Vx m M M := by
    unfold mixRes
    rw [div_self hmax.ne', Real.log_one, zero_add, ← mul_div_assoc]
    linarith
  refine ⟨s1, s2, ?_⟩
  obtain ⟨d1, e1, -⟩ := srder_eq (vl := Wl.Vx) (vr := Wr.Vx) hc hmin hmax hmin
  obtain ⟨d2, e2, -⟩ := srder_eq (vl := Wl.Vx) (vr := Wr.Vx) hc hmin hmax hmax
  exact rtsafe_bracket _ m M rtAcc hle (fun x h _ => by
    obtain ⟨df, e, hdf⟩ := srder_eq (vl := Wl.Vx) (vr := Wr.Vx) hc hmin hmax (hmin.trans_le h)
    exact ⟨_, df, e, hdf⟩) e1 e2 s1 s2

/-- The cases in which the solver's intermediate state is exact: the states approach fast enough for two shocks, recede fast enough for
two rarefactions, or the root finder has returned a root. -/
def MidExact (c : ℝ) (Wl Wr : Prim1D ns) : Prop :=
  c * (max Wl.d Wr.d - min Wl.d Wr.d) / Real.sqrt (max Wl.d Wr.d * min Wl.d Wr.d) ≤ Wl.Vx - Wr.Vx ∨
  c * Real.log (max Wl.d Wr.d / min Wl.d Wr.d) ≤ Wr.Vx - Wl.Vx ∨
  ∃ d, rtsafe (srder c Wl.Vx Wr.Vx (min Wl.d Wr.d) (max Wl.d Wr.d)) (min Wl.d Wr.d) (max Wl.d Wr.d) rtAcc = some d ∧
    mixRes c Wl.Vx Wr.Vx (min Wl.d Wr.d) (max Wl.d Wr.d) d = 0

theorem sqrt_ratio {d m : ℝ} (hd : 0 < d) (hm : 0 < m) :
    (d - m) / Real.sqrt (d * m) = Real.sqrt d / Real.sqrt m - Real.sqrt m / Real.sqrt d := by
  have h1 := Real.sqrt_pos.mpr hd
  have h2 := Real.sqrt_pos.mpr hm
  rw [Real.sqrt_mul hd.le, div_sub_div _ _ h2.ne' h1.ne', Real.mul_self_sqrt hd.le, Real.mul_self_sqrt hm.le, mul_comm (Real.sqrt d)]

/-- The intermediate state is joined to both states by waves; for the mirrored problem the solver computes the mirrored state. -/
theorem exactMid_ok {c : ℝ} (hc : 0 < c) (hl : 0 < Wl.d) (hr : 0 < Wr.d) (h : MidExact c Wl Wr) :
    ∃ rl rr dm vm, exactMid c Wl Wr = some (rl, rr, dm, vm) ∧ 0 < dm ∧ SideOk c Wl.d Wl.Vx dm vm rl ∧
      SideOk c Wr.d (-Wr.Vx) dm (-vm) rr ∧ exactMid c Wr.mirror Wl.mirror = some (rr, rl, dm, -vm) := by
  have ha := Real.sqrt_pos.mpr hl
  have hb := Real.sqrt_pos.mpr hr
  have ea := Real.mul_self_sqrt hl.le
  have eb := Real.mul_self_sqrt hr.le
  have hmin : 0 < min Wl.d Wr.d := lt_min hl hr
  have hmax : 0 < max Wl.d Wr.d := lt_max_of_lt_left hl
  obtain ⟨hz, e1, e2⟩ := twoShock_contact _ _ Wl.Vx Wr.Vx c ha hb hc
  have zm : shockZ c Wr.mirror Wl.mirror = shockZ c Wl Wr := by
    simp only [shockZ, tsZ, Prim1D.mirror]
    rw [show Real.sqrt Wr.d * Real.sqrt Wl.d * (-Wr.Vx - -Wl.Vx) = Real.sqrt Wl.d * Real.sqrt Wr.d * (Wl.Vx - Wr.Vx) by ring,
      show Real.sqrt Wr.d + Real.sqrt Wl.d = Real.sqrt Wl.d + Real.sqrt Wr.d by ring,
      show Real.sqrt Wr.d * Real.sqrt Wl.d = Real.sqrt Wl.d * Real.sqrt Wr.d by ring]
  have dmm : rareD c Wr.mirror Wl.mirror = rareD c Wl Wr := by
    simp only [rareD, Prim1D.mirror]
    rw [show -Wr.Vx - -Wl.Vx = Wl.Vx - Wr.Vx by ring, mul_comm (Real.sqrt Wr.d)]
  have hd : 0 < rareD c Wl Wr := by unfold rareD; positivity
  have sm : ∀ m M : ℝ, srder c Wr.mirror.Vx Wl.mirror.Vx m M = srder c Wl.Vx Wr.Vx m M := by
    intro m M; funext x; simp only [srder, Prim1D.mirror]
    rw [show -Wl.Vx - -Wr.Vx = Wr.Vx - Wl.Vx by ring]
  have mm1 : min Wr.mirror.d Wl.mirror.d = min Wl.d Wr.d := min_comm _ _
  have mm2 : max Wr.mirror.d Wl.mirror.d = max Wl.d Wr.d := max_comm _ _
  have E := exactMid_eq hc hl hr
  have E' := exactMid_eq (Wl := Wr.mirror) (Wr := Wl.mirror) hc hr hl
  rw [zm, dmm, mm1, mm2, sm] at E'
  change 0 < shockZ c Wl Wr at hz
  have ee : Wl.Vx - c * (shockZ c Wl Wr / Real.sqrt Wl.d - Real.sqrt Wl.d / shockZ c Wl Wr) =
      Wr.Vx + c * (shockZ c Wl Wr / Real.sqrt Wr.d - Real.sqrt Wr.d / shockZ c Wl Wr) := e1.symm.trans e2
  by_cases hcomp : max Wl.d Wr.d ≤ shockZ c Wl Wr * shockZ c Wl Wr
  · -- two shocks
    rw [if_neg (not_lt.mpr hcomp)] at E E'
    have sz : Real.sqrt (shockZ c Wl Wr * shockZ c Wl Wr) = shockZ c Wl Wr := Real.sqrt_mul_self hz.le
    have v1 : Wl.Vx - c * (shockZ c Wl Wr * shockZ c Wl Wr - Wl.d) / (shockZ c Wl Wr * Real.sqrt Wl.d) =
        Wl.Vx - c * (shockZ c Wl Wr / Real.sqrt Wl.d - Real.sqrt Wl.d / shockZ c Wl Wr) := by
      rw [← ea, Real.sqrt_mul_self ha.le]; field_simp
    have v2 : Wr.mirror.Vx - c * (shockZ c Wl Wr * shockZ c Wl Wr - Wr.mirror.d) / (shockZ c Wl Wr * Real.sqrt Wr.mirror.d) =
        -(Wl.Vx - c * (shockZ c Wl Wr / Real.sqrt Wl.d - Real.sqrt Wl.d / shockZ c Wl Wr)) := by
      rw [ee]; simp only [Prim1D.mirror]; rw [← eb, Real.sqrt_mul_self hb.le]; field_simp; ring
    rw [v1] at E; rw [v2] at E'
    refine ⟨_, _, _, _, E, by positivity, ⟨(le_max_left _ _).trans hcomp, ?_⟩, ⟨(le_max_right _ _).trans hcomp, ?_⟩, E'⟩
    · rw [sz]
    · rw [sz, ee]; ring
  rw [if_pos (not_le.mp hcomp)] at E E'
  have hshock : ¬ c * (max Wl.d Wr.d - min Wl.d Wr.d) / Real.sqrt (max Wl.d Wr.d * min Wl.d Wr.d) ≤ Wl.Vx - Wr.Vx :=
    fun h => hcomp ((shockZ_ge hc hl hr).mpr h)
  by_cases hrare : rareD c Wl Wr ≤ min Wl.d Wr.d
  · -- two rarefactions
    rw [if_neg (not_lt.mpr hrare)] at E E'
    have lg : Real.log (rareD c Wl Wr) = 1/2 * (Real.log Wl.d + Real.log Wr.d) + (Wl.Vx - Wr.Vx) / (2 * c) := by
      unfold rareD
      rw [Real.log_mul (by positivity) (Real.exp_ne_zero _), Real.log_exp, ← Real.sqrt_mul hl.le, Real.log_sqrt (by positivity),
        Real.log_mul hl.ne' hr.ne']
      ring
    have v2 : Wr.mirror.Vx - c * Real.log (rareD c Wl Wr / Wr.mirror.d) = -(Wl.Vx - c * Real.log (rareD c Wl Wr / Wl.d)) := by
      simp only [Prim1D.mirror]
      rw [Real.log_div hd.ne' hl.ne', Real.log_div hd.ne' hr.ne', lg]; field_simp; ring
    rw [v2] at E'
    refine ⟨_, _, _, _, E, hd, ⟨hrare.trans (min_le_left _ _), rfl⟩, ⟨hrare.trans (min_le_right _ _), ?_⟩, E'⟩
    rw [← v2]; rfl
  rw [if_pos (not_le.mp hrare)] at E E'
  have hrr : ¬ c * Real.log (max Wl.d Wr.d / min Wl.d Wr.d) ≤ Wr.Vx - Wl.Vx := fun h => hrare ((rareD_le hc hl hr).mpr h)
  obtain ⟨d, hrt, hres⟩ : ∃ d, rtsafe (srder c Wl.Vx Wr.Vx (min Wl.d Wr.d) (max Wl.d Wr.d)) (min Wl.d Wr.d) (max Wl.d Wr.d) rtAcc =
      some d ∧ mixRes c Wl.Vx Wr.Vx (min Wl.d Wr.d) (max Wl.d Wr.d) d = 0 := by
    rcases h with h | h | h
    · exact absurd h hshock
    · exact absurd h hrr
    · exact h
  obtain ⟨b1, b2, d', hrt', b3, b4⟩ := exactI_bracket hc hl hr (not_le.mp hshock) (not_le.mp hrr)
  have : d' = d := Option.some.inj (hrt'.symm.trans hrt)
  subst this
  have hlt : min Wl.d Wr.d < d' := lt_of_le_of_ne b3 (fun e => by rw [← e] at hres; linarith)
  have hne : Wl.d ≠ Wr.d := by
    intro e
    rw [e, min_self, max_self] at b1 b2; linarith
  have hd' : 0 < d' := hmin.trans hlt
  have hpair : d' > min Wl.d Wr.d ∧ d' ≤ max Wl.d Wr.d := ⟨hlt, b4⟩
  rw [hrt] at E E'
  simp only [Option.bind_eq_bind, Option.bind_some, if_pos hpair] at E E'
  unfold mixRes at hres
  rw [sqrt_ratio hd' hmin] at hres
  rcases lt_or_gt_of_ne hne with hlr | hlr
  · rw [if_neg (not_lt.mpr hlr.le)] at E
    rw [if_pos (by exact hlr)] at E'
    rw [min_eq_left hlr.le, max_eq_right hlr.le] at *
    refine ⟨_, _, _, _, E, hd', ⟨hlt.le, ?_⟩, ⟨b4, ?_⟩, ?_⟩
    · linear_combination hres
    · ring
    · rw [E']; simp only [Prim1D.mirror]; congr 4; ring
  · rw [if_pos hlr] at E
    rw [if_neg (by exact not_lt.mpr hlr.le)] at E'
    rw [min_eq_right hlr.le, max_eq_left hlr.le] at *
    refine ⟨_, _, _, _, E, hd', ⟨b4, rfl⟩, ⟨hlt.le, ?_⟩, ?_⟩
    · linear_combination hres
    · rw [E']; simp only [Prim1D.mirror]; congr 4; ring

/-! ## Properties -/

theorem State.gas (h : State p Bx W U) : Gas p W := ⟨h.d, h.P⟩

/-- C66: the isothermal exact flux is the physical flux of the state at the interface of the exact solution of the Riemann problem,
whenever the intermediate state is exact (see `MidExact`: always for two shocks or two rarefactions). -/
theorem exactI_solution (hp : p.Ok) (hi : p.iso = true) (hm : p.mhd = false) (hl : State p Bx Wl Ul) (hr : State p Bx Wr Ur)
    (h : MidExact p.cs Wl Wr) :
    ∃ W0 Ml Mr sl tl tr sr, Solves p Wl Wr W0 Ml Mr sl tl tr sr ∧ exactI p Ul Ur Wl Wr = some (physFlux p W0 0) := by
  have hc : 0 < p.cs := Real.sqrt_pos.mpr (hp.cs hi)
  obtain ⟨rl, rr, dm, vm, e, hdm, h1, h2, -⟩ := exactMid_ok hc hl.d hr.d h
  obtain ⟨W0, hF, hS⟩ := exactI_of_mid hp hi hm hl hr e hdm h1 h2
  exact ⟨W0, _, _, _, _, _, _, hS, hF⟩

/-- C35: the isothermal exact flux is mirror symmetric whenever the intermediate state is exact. -/
theorem exactI_mirror_partial (hp : p.Ok) (hi : p.iso = true) (hm : p.mhd = false) (hl : State p Bx Wl Ul) (hr : State p Bx Wr Ur)
    (h : MidExact p.cs Wl Wr) :
    ∃ F, exactI p Ul Ur Wl Wr = some F ∧ exactI p Ur.mirror Ul.mirror Wr.mirror Wl.mirror = some F.mirrorFlux := by
  have hc : 0 < p.cs := Real.sqrt_pos.mpr (hp.cs hi)
  obtain ⟨rl, rr, dm, vm, e, hdm, h1, h2, e'⟩ := exactMid_ok hc hl.d hr.d h
  obtain ⟨W0, hF, hS⟩ := exactI_of_mid hp hi hm hl hr e hdm h1 h2
  obtain ⟨W1, hF', hS'⟩ := exactI_of_mid hp hi hm hr.mirror hl.mirror e' hdm h2
    (by show SideOk p.cs Wl.d (- -Wl.Vx) dm (- -vm) rl; rw [neg_neg, neg_neg]; exact h1)
  refine ⟨_, hF, ?_⟩
  rw [hF']
  congr 1
  have g : ∀ {W : Prim1D ns}, Gas p (W.at dm vm) := fun {W} => ⟨hdm, by simp [hi]⟩
  refine Solves.flux_mirror hp hm hl.gas hr.gas g g hl.wf hr.wf hS ?_
  convert hS' using 1 <;> cases rl <;> cases rr <;> simp [Prim1D.mirror, Prim1D.at] <;> ring

/-- C66: for all physical states the isothermal solver returns a flux. -/
theorem exactI_defined (hp : p.Ok) (hi : p.iso = true) (hl : State p Bx Wl Ul) (hr : State p Bx Wr Ur) :
    ∃ F, exactI p Ul Ur Wl Wr = some F := by
  have hc : 0 < p.cs := Real.sqrt_pos.mpr (hp.cs hi)
  have ha := Real.sqrt_pos.mpr hl.d
  have hb := Real.sqrt_pos.mpr hr.d
  have hmid : ∃ rl rr dm vm, exactMid p.cs Wl Wr = some (rl, rr, dm, vm) ∧ 0 < dm := by
    have hz : 0 < shockZ p.cs Wl Wr := (twoShock_contact _ _ Wl.Vx Wr.Vx p.cs ha hb hc).1
    have hd : 0 < rareD p.cs Wl Wr := by unfold rareD; positivity
    rw [exactMid_eq hc hl.d hr.d]
    by_cases h1 : shockZ p.cs Wl Wr * shockZ p.cs Wl Wr < max Wl.d Wr.d
    · rw [if_pos h1]
      by_cases h2 : rareD p.cs Wl Wr > min Wl.d Wr.d
      · rw [if_pos h2]
        obtain ⟨-, -, d, e, -, -⟩ := exactI_bracket hc hl.d hr.d
          (not_le.mp fun h => absurd ((shockZ_ge hc hl.d hr.d).mpr h) (not_le.mpr h1))
          (not_le.mp fun h => absurd ((rareD_le hc hl.d hr.d).mpr h) (not_le.mpr h2))
        rw [e]
        simp only [Option.bind_eq_bind, Option.bind_some]
        by_cases h3 : d > min Wl.d Wr.d ∧ d ≤ max Wl.d Wr.d
        · have : 0 < d := (lt_min hl.d hr.d).trans h3.1
          rw [if_pos h3]
          split_ifs
          · exact ⟨_, _, _, _, rfl, this⟩
          · exact ⟨_, _, _, _, rfl, this⟩
        · rw [if_neg h3]; exact ⟨_, _, _, _, rfl, hd⟩
      · rw [if_neg h2]; exact ⟨_, _, _, _, rfl, hd⟩
    · rw [if_neg h1]; exact ⟨_, _, _, _, rfl, by positivity⟩
  obtain ⟨rl, rr, dm, vm, e, hdm⟩ := hmid
  have hul : 0 < Ul.d := by rw [hl.eq hp]; exact hl.d
  have hur : 0 < Ur.d := by rw [hr.eq hp]; exact hr.d
  have fan : ∀ (W : Prim1D ns) (d v : ℝ), 0 < d → ∃ F, exactFanI p W d v = some F := fun W d v hd => by
    unfold exactFanI; rw [if_neg hd.ne', fdiv_pos hd]; exact ⟨_, rfl⟩
  unfold exactI
  simp only [hul, hur, not_true_eq_false, or_self, if_false, e, not_lt.mpr hdm.le, fsqrt_nonneg hl.d.le, fsqrt_nonneg hr.d.le,
    fsqrt_nonneg hdm.le, fdiv_pos ha, fdiv_pos hb, fdiv_pos hc, Option.bind_eq_bind, Option.bind_some, Option.pure_def]
  split_ifs
  all_goals first
    | exact ⟨_, rfl⟩
    | exact fan _ _ _ (by positivity)

/-- C34: for equal states the isothermal exact flux is the physical flux. -/
theorem exactI_consistent (hp : p.Ok) (hi : p.iso = true) (hm : p.mhd = false) (h : State p Bx W U) :
    exactI p U U W W = some (physFlux p W 0) := by
  have hc : 0 < p.cs := Real.sqrt_pos.mpr (hp.cs hi)
  have ha := Real.sqrt_pos.mpr h.d
  have ea := Real.mul_self_sqrt h.d.le
  have hz : shockZ p.cs W W = Real.sqrt W.d := by
    unfold shockZ tsZ
    simp [Real.sqrt_mul_self ha.le]
  have E := exactMid_eq hc h.d h.d
  rw [hz, ea, max_self, min_self, if_neg (lt_irrefl _), sub_self, mul_zero, zero_div, sub_zero] at E
  have s1 : SideOk p.cs W.d W.Vx W.d W.Vx false := ⟨le_rfl, by rw [sub_self, mul_zero, sub_zero]⟩
  have s2 : SideOk p.cs W.d (-W.Vx) W.d (-W.Vx) false := ⟨le_rfl, by rw [sub_self, mul_zero, sub_zero]⟩
  obtain ⟨W0, hF, hS⟩ := exactI_of_mid hp hi hm h h E h.d s1 s2
  rw [hF]
  have : W.at W.d W.Vx = W := rfl
  rw [this] at hS
  cases hS.at0 with
  | left _ => rfl
  | fanL _ h1 h2 _ => simp at h1 h2; linarith
  | midL _ _ => rfl
  | midR _ _ => rfl
  | fanR _ h1 h2 _ => simp at h1 h2; linarith
  | right _ => rfl

end
end Athena.Hydro
