import Verif.Rel.Mhd
import Mathlib.Analysis.SpecialFunctions.Sqrt
import Mathlib.Analysis.Calculus.Deriv.Inv
import Mathlib.Analysis.Calculus.MeanValue
import Mathlib.Analysis.Calculus.Deriv.MeanValue

/-!
The function whose root the Newton-Raphson iteration seeks: closed form, derivative,
monotonicity on the physical range.
-/
namespace Athena.Rel

/-- Signs of the scalars handed to the iteration: squares are non-negative, and the mass is
positive. -/
structure Inp.Ok (i : Inp) : Prop where
  B : 0 ≤ i.Bsq
  M : 0 ≤ i.Msq
  S : 0 ≤ i.Ssq
  d : 0 < i.d

/-- Squared speed at a trial `Q`. -/
noncomputable def Inp.V (i : Inp) (Q : ℝ) : ℝ := calcVsq i.Bsq i.Msq i.Ssq Q

theorem V_eq (i : Inp) {Q : ℝ} (hQ : Q ≠ 0) : i.V Q =
    (i.Msq + i.Ssq * (2 * Q + i.Bsq) / Q ^ 2) / (Q + i.Bsq) ^ 2 := by
  unfold Inp.V calcVsq
  dsimp only
  congr 1
  · field_simp
    ring
  · ring

theorem V_nonneg {i : Inp} (h : i.Ok) {Q : ℝ} (hQ : 0 < Q) : 0 ≤ i.V Q := by
  rw [V_eq i hQ.ne']
  have := h.B; have := h.M; have := h.S
  positivity

/-- Pressure at a trial `Q` of the physical range. -/
theorem pgas_eq (g : ℝ) (i : Inp) {Q : ℝ} (hV : i.V Q < 1) :
    (scal g i Q).pgas = (g - 1) / g * (Q * (1 - i.V Q) - i.d * √(1 - i.V Q)) := by
  have h1 : 0 < 1 - i.V Q := by linarith
  have hs : √|1 / (1 - i.V Q)| = 1 / √(1 - i.V Q) := by
    rw [abs_of_pos (by positivity), Real.sqrt_div (by norm_num), Real.sqrt_one]
  have hsp : 0 < √(1 - i.V Q) := Real.sqrt_pos.2 h1
  have hs2 : √(1 - i.V Q) ^ 2 = 1 - i.V Q := Real.sq_sqrt h1.le
  unfold scal calcChi
  dsimp only
  rw [show calcVsq i.Bsq i.Msq i.Ssq Q = i.V Q from rfl, hs]
  generalize √(1 - i.V Q) = w at *
  rw [← hs2]
  field_simp

theorem rho_eq (g : ℝ) (i : Inp) {Q : ℝ} (hV : i.V Q < 1) :
    (scal g i Q).rho = i.d * √(1 - i.V Q) := by
  have h1 : 0 < 1 - i.V Q := by linarith
  have hs : √|1 / (1 - i.V Q)| = 1 / √(1 - i.V Q) := by
    rw [abs_of_pos (by positivity), Real.sqrt_div (by norm_num), Real.sqrt_one]
  unfold scal
  dsimp only
  rw [show calcVsq i.Bsq i.Msq i.Ssq Q = i.V Q from rfl, hs]
  field_simp

/-- Closed form of the energy equation on the physical range. -/
theorem funQ_eq (g : ℝ) (i : Inp) {Q : ℝ} (hQ : Q ≠ 0) (hV : i.V Q < 1) : funQ g i Q =
    Q - (g - 1) / g * (Q * (1 - i.V Q) - i.d * √(1 - i.V Q)) + (1 + i.V Q) * i.Bsq / 2
      - i.Ssq / (2 * Q ^ 2) - i.E := by
  unfold funQ calcFunc
  rw [pgas_eq g i hV, show (scal g i Q).Vsq = i.V Q from rfl]
  field_simp

/-- The program's derivative of the squared speed. -/
theorem V_hasDerivAt (i : Inp) {Q : ℝ} (hQ : Q ≠ 0) (hB : Q + i.Bsq ≠ 0) :
    HasDerivAt i.V (calcDvsq Q i.Bsq i.Msq i.Ssq) Q := by
  have e : i.V = fun Q => calcVsq i.Bsq i.Msq i.Ssq Q := rfl
  rw [e]
  unfold calcVsq
  dsimp only
  have hid := hasDerivAt_id' Q
  have hX : HasDerivAt (fun Q : ℝ => Q + i.Bsq) 1 Q := hid.add_const _
  have hQQ : HasDerivAt (fun Q : ℝ => Q * Q) (1 * Q + Q * 1) Q := hid.mul hid
  have hS : HasDerivAt (fun Q : ℝ => i.Ssq / (Q * Q))
      ((0 * (Q * Q) - i.Ssq * (1 * Q + Q * 1)) / (Q * Q) ^ 2) Q :=
    (hasDerivAt_const Q i.Ssq).div hQQ (mul_ne_zero hQ hQ)
  have hN := ((hS.mul (hX.add hid)).const_add i.Msq)
  have hD := hN.div (hX.mul hX) (mul_ne_zero hB hB)
  refine HasDerivAt.congr_deriv hD ?_
  symm
  unfold calcDvsq
  dsimp only
  simp only [Pi.add_apply, Pi.mul_apply]
  field_simp
  ring

/-- A simpler form of that derivative. -/
theorem dvsq_eq (i : Inp) {Q : ℝ} (hQ : Q ≠ 0) (hB : Q + i.Bsq ≠ 0) :
    calcDvsq Q i.Bsq i.Msq i.Ssq = -(2 * (i.V Q + i.Ssq / Q ^ 3) / (Q + i.Bsq)) := by
  rw [V_eq i hQ]
  unfold calcDvsq
  dsimp only
  field_simp
  ring

/-- **C103, first half.**  At every trial `Q` of the physical range the program's derivative is
the derivative of its energy equation. -/
theorem sr_mhd_newton_derivative {g : ℝ} (hg : g ≠ 0) (i : Inp) {Q : ℝ} (hQ : Q ≠ 0)
    (hB : Q + i.Bsq ≠ 0) (hV : i.V Q < 1) : HasDerivAt (funQ g i) (dfunQ g i Q) Q := by
  have hVd := V_hasDerivAt i hQ hB
  have h1 : 0 < 1 - i.V Q := by linarith
  have hid := hasDerivAt_id' Q
  have hev : funQ g i =ᶠ[nhds Q] fun Q => Q - (g - 1) / g * (Q * (1 - i.V Q)
      - i.d * √(1 - i.V Q)) + (1 + i.V Q) * i.Bsq / 2 - i.Ssq / (2 * Q ^ 2) - i.E := by
    have c1 := hVd.continuousAt.eventually (Iio_mem_nhds hV)
    have c2 := hid.continuousAt.eventually (isOpen_ne.mem_nhds hQ)
    filter_upwards [c1, c2] with x hx hx0
    exact funQ_eq g i hx0 hx
  refine HasDerivAt.congr_of_eventuallyEq ?_ hev
  have hw : HasDerivAt (fun Q => √(1 - i.V Q))
      (-(calcDvsq Q i.Bsq i.Msq i.Ssq) / (2 * √(1 - i.V Q))) Q := by
    have h3 := (hVd.const_sub 1)
    exact h3.sqrt h1.ne'
  have hchi := (hid.mul (hVd.const_sub 1)).sub (hw.const_mul i.d)
  have hsq : HasDerivAt (fun Q : ℝ => i.Ssq / (2 * Q ^ 2))
      ((0 * (2 * Q ^ 2) - i.Ssq * (2 * (↑2 * Q ^ (2 - 1) * 1))) / (2 * Q ^ 2) ^ 2) Q :=
    (hasDerivAt_const Q i.Ssq).div ((hid.pow 2).const_mul 2) (by positivity)
  have hall := (((hid.sub (hchi.const_mul ((g - 1) / g))).add
    ((((hVd.const_add 1).mul_const i.Bsq)).div_const 2)).sub hsq).sub_const i.E
  refine HasDerivAt.congr_deriv hall ?_
  symm
  unfold dfunQ calcDfunc calcDp
  dsimp only
  have hs : √|(scal g i Q).Gsq| = 1 / √(1 - i.V Q) := by
    show √|1 / (1 - i.V Q)| = _
    rw [abs_of_pos (by positivity), Real.sqrt_div (by norm_num), Real.sqrt_one]
  have hchi' : (scal g i Q).Chi = Q * (1 - i.V Q) - i.d * √(1 - i.V Q) := by
    show (Q - i.d * √|(scal g i Q).Gsq|) * (1 - i.V Q) = _
    rw [hs]
    have hsp : 0 < √(1 - i.V Q) := Real.sqrt_pos.2 h1
    have hs2 : √(1 - i.V Q) ^ 2 = 1 - i.V Q := Real.sq_sqrt h1.le
    generalize √(1 - i.V Q) = w at *
    rw [← hs2]
    field_simp
  rw [hs, hchi', show (scal g i Q).Vsq = i.V Q from rfl]
  have hsp : 0 < √(1 - i.V Q) := Real.sqrt_pos.2 h1
  have hs2 : √(1 - i.V Q) ^ 2 = 1 - i.V Q := Real.sq_sqrt h1.le
  generalize √(1 - i.V Q) = w at *
  generalize calcDvsq Q i.Bsq i.Msq i.Ssq = dv at *
  rw [← hs2]
  norm_num
  field_simp
  ring

/-- Lower bound of the derivative on the physical range, `1 < Γ ≤ 2`. -/
theorem dfunQ_ge {g : ℝ} (hg : 1 < g) (hg2 : g ≤ 2) {i : Inp} (h : i.Ok) {Q : ℝ} (hQ : 0 < Q)
    (hV : i.V Q < 1) : (1 - i.V Q) / g ≤ dfunQ g i Q := by
  have hB := h.B
  have hX : 0 < Q + i.Bsq := by linarith
  have h1 : 0 < 1 - i.V Q := by linarith
  have hV0 := V_nonneg h hQ
  have hd := h.d
  have hs : √|(scal g i Q).Gsq| = 1 / √(1 - i.V Q) := by
    show √|1 / (1 - i.V Q)| = _
    rw [abs_of_pos (by positivity), Real.sqrt_div (by norm_num), Real.sqrt_one]
  have hsp : 0 < √(1 - i.V Q) := Real.sqrt_pos.2 h1
  have hs2 : √(1 - i.V Q) ^ 2 = 1 - i.V Q := Real.sq_sqrt h1.le
  have hchi' : (scal g i Q).Chi = Q * (1 - i.V Q) - i.d * √(1 - i.V Q) := by
    show (Q - i.d * √|(scal g i Q).Gsq|) * (1 - i.V Q) = _
    rw [hs]
    generalize √(1 - i.V Q) = w at *
    rw [← hs2]
    field_simp
  unfold dfunQ calcDfunc calcDp
  dsimp only
  rw [hs, hchi', show (scal g i Q).Vsq = i.V Q from rfl, dvsq_eq i hQ.ne' hX.ne']
  have hs0 : 0 ≤ i.Ssq / Q ^ 3 := div_nonneg h.S (by positivity)
  have hss : i.Ssq / (Q * Q * Q) = i.Ssq / Q ^ 3 := by congr 1; ring
  rw [hss]
  generalize i.Ssq / Q ^ 3 = s at *
  generalize hv : i.V Q = V at *
  generalize √(1 - V) = w at *
  obtain ⟨k, hk⟩ : ∃ k, k = (g - 1) / g := ⟨_, rfl⟩
  have hk0 : 0 < k := by rw [hk]; exact div_pos (by linarith) (by linarith)
  have hk2 : 2 * k ≤ 1 := by
    rw [hk, ← mul_div_assoc, div_le_one (by linarith)]; linarith
  have hginv : 1 / g = 1 - k := by rw [hk]; field_simp; ring
  rw [← hk]
  have e1 : 1 / 2 * (1 / w) * (i.d + 2 * (Q * (1 - V) - i.d * w) * (1 / w)) =
      Q - i.d / (2 * w) := by
    rw [← hs2]
    field_simp
    ring
  rw [e1]
  obtain ⟨y, hy⟩ : ∃ y, y = (V + s) / (Q + i.Bsq) := ⟨_, rfl⟩
  have hy0 : 0 ≤ y := by rw [hy]; positivity
  have hyX : y * (Q + i.Bsq) = V + s := by rw [hy]; field_simp
  have hdw : 0 ≤ i.d / (2 * w) := by positivity
  have e2 : -(2 * (V + s) / (Q + i.Bsq)) = -(2 * y) := by rw [hy]; ring
  rw [e2]
  have e3 : (1 - V) / g = (1 - k) * (1 - V) := by rw [← hginv]; ring
  rw [e3]
  have p1 : 0 ≤ k * (i.d / (2 * w)) * (2 * y) := by positivity
  have p2 : 0 ≤ (1 - 2 * k) * (Q * y) := by
    have : 0 ≤ 1 - 2 * k := by linarith
    positivity
  nlinarith

theorem V_antitone {i : Inp} (h : i.Ok) {p q : ℝ} (hp : 0 < p) (hpq : p ≤ q) : i.V q ≤ i.V p := by
  have hB := h.B
  have hM := h.M
  have hS := h.S
  have hq : 0 < q := lt_of_lt_of_le hp hpq
  rw [V_eq i hp.ne', V_eq i hq.ne']
  have e : ∀ x : ℝ, 0 < x → i.Ssq * (2 * x + i.Bsq) / x ^ 2 =
      i.Ssq * (2 / x + i.Bsq / x ^ 2) := by
    intro x hx
    field_simp
  rw [e p hp, e q hq]
  gcongr

/-- Strict monotonicity with the explicit slope. -/
theorem funQ_slope {g : ℝ} (hg : 1 < g) (hg2 : g ≤ 2) {i : Inp} (h : i.Ok) {p q : ℝ}
    (hp : 0 < p) (hpq : p ≤ q) (hV : i.V p < 1) :
    (1 - i.V p) / g * (q - p) ≤ funQ g i q - funQ g i p := by
  have hB := h.B
  have hr : ∀ x ∈ Set.Icc p q, HasDerivAt (funQ g i) (dfunQ g i x) x := by
    intro x hx
    have hx0 : 0 < x := lt_of_lt_of_le hp hx.1
    exact sr_mhd_newton_derivative (by linarith) i hx0.ne' (by linarith)
      (lt_of_le_of_lt (V_antitone h hp hx.1) hV)
  apply (convex_Icc p q).mul_sub_le_image_sub_of_le_deriv
    (fun x hx => (hr x hx).continuousAt.continuousWithinAt)
    (fun x hx => (hr x (interior_subset hx)).differentiableAt.differentiableWithinAt)
    _ p (Set.left_mem_Icc.2 hpq) q (Set.right_mem_Icc.2 hpq) hpq
  intro x hx
  have hx' := interior_subset hx
  have hx0 : 0 < x := lt_of_lt_of_le hp hx'.1
  have hVx := V_antitone h hp hx'.1
  rw [(hr x hx').deriv]
  refine le_trans ?_ (dfunQ_ge hg hg2 h hx0 (lt_of_le_of_lt hVx hV))
  gcongr

/-- On the physical range the energy equation has at most one root. -/
theorem funQ_root_unique {g : ℝ} (hg : 1 < g) (hg2 : g ≤ 2) {i : Inp} (h : i.Ok) {p q : ℝ}
    (hp : 0 < p) (hq : 0 < q) (hVp : i.V p < 1) (hVq : i.V q < 1) (fp : funQ g i p = 0)
    (fq : funQ g i q = 0) : p = q := by
  have key : ∀ a b : ℝ, 0 < a → a ≤ b → i.V a < 1 → funQ g i a = 0 → funQ g i b = 0 → a = b := by
    intro a b ha hab hV fa fb
    have := funQ_slope hg hg2 h ha hab hV
    rw [fa, fb, sub_zero] at this
    have h2 : 0 < (1 - i.V a) / g := div_pos (by linarith) (by linarith)
    nlinarith
  rcases le_total p q with hle | hle
  · exact key p q hp hle hVp fp fq
  · exact (key q p hq hle hVq fq fp).symm

end Athena.Rel
