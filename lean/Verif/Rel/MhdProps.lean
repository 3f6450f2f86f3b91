import Verif.Rel.MhdFun
import Mathlib.Analysis.SpecialFunctions.Pow.Deriv

/-!
Special-relativistic magnetohydrodynamics: what the conversion to primitive variables solves,
what it returns, and how it fails.
-/
namespace Athena.Rel

/-- Squared speed of a primitive state, in units of the speed of light. -/
def PrimB.vsq (W : PrimB) : ℝ := W.Vx ^ 2 + W.Vy ^ 2 + W.Vz ^ 2

/-- A physical primitive state: positive density, non-negative pressure, slower than light. -/
structure PrimB.Physical (W : PrimB) : Prop where
  d : 0 < W.d
  P : 0 ≤ W.P
  v : W.vsq < 1

/-- Enthalpy density times the squared Lorentz factor: the unknown of the iteration. -/
noncomputable def PrimB.wg (g : ℝ) (W : PrimB) : ℝ := (W.d + g / (g - 1) * W.P) / (1 - W.vsq)

theorem wg_pos {g : ℝ} (hg : 1 < g) {W : PrimB} (hW : W.Physical) : 0 < W.wg g := by
  have h1 : 0 < g - 1 := by linarith
  have h2 := mul_nonneg (div_nonneg (by linarith : (0:ℝ) ≤ g) h1.le) hW.P
  exact div_pos (by linarith [hW.d]) (by linarith [hW.v])

/-- The conserved variables in terms of the unknown. -/
theorem primToConsB_eq (g : ℝ) (W : PrimB) (Bx : ℝ) : primToConsB g W Bx =
    let b := Bx ^ 2 + W.By ^ 2 + W.Bz ^ 2
    let c := Bx * W.Vx + W.By * W.Vy + W.Bz * W.Vz
    ⟨√(1 / (1 - W.vsq)) * W.d, (W.wg g + b) * W.Vx - c * Bx, (W.wg g + b) * W.Vy - c * W.By,
      (W.wg g + b) * W.Vz - c * W.Bz, W.wg g - W.P + (1 + W.vsq) * b / 2 - c ^ 2 / 2,
      W.By, W.Bz⟩ := by
  have h : W.Vx * W.Vx + W.Vy * W.Vy + W.Vz * W.Vz = W.vsq := by unfold PrimB.vsq; ring
  unfold primToConsB PrimB.wg
  simp only [h]
  ext <;> simp only <;> ring

/-- The scalars of the iteration for the conserved variables of a primitive state. -/
theorem inp_primToConsB (g : ℝ) (W : PrimB) (Bx : ℝ) : inp (primToConsB g W Bx) Bx =
    let b := Bx ^ 2 + W.By ^ 2 + W.Bz ^ 2
    let c := Bx * W.Vx + W.By * W.Vy + W.Bz * W.Vz
    ⟨b, (W.wg g + b) ^ 2 * W.vsq - 2 * (W.wg g + b) * c ^ 2 + c ^ 2 * b, (W.wg g * c) ^ 2,
      W.wg g - W.P + (1 + W.vsq) * b / 2 - c ^ 2 / 2, √(1 / (1 - W.vsq)) * W.d⟩ := by
  rw [primToConsB_eq]
  unfold inp
  simp only [Inp.mk.injEq]
  generalize W.wg g = q
  refine ⟨by ring, ?_, by ring, trivial, trivial⟩
  unfold PrimB.vsq
  ring

theorem inp_ok (U : ConsB) (Bx : ℝ) (hd : 0 < U.d) : (inp U Bx).Ok := by
  constructor <;> unfold inp <;> simp only
  · nlinarith [mul_self_nonneg Bx, mul_self_nonneg U.By, mul_self_nonneg U.Bz]
  · nlinarith [mul_self_nonneg U.Mx, mul_self_nonneg U.My, mul_self_nonneg U.Mz]
  · exact mul_self_nonneg _
  · exact hd

theorem consB_d_pos {g : ℝ} {W : PrimB} (hW : W.Physical) (Bx : ℝ) :
    0 < (primToConsB g W Bx).d := by
  rw [primToConsB_eq]
  have h1 : 0 < 1 - W.vsq := by linarith [hW.v]
  have : 0 < √(1 / (1 - W.vsq)) := Real.sqrt_pos.2 (by positivity)
  have := hW.d
  simp only
  positivity

section exact
variable {g : ℝ} (hg : 1 < g) {W : PrimB} (hW : W.Physical) (Bx : ℝ)
include hg hW

theorem V_wg : (inp (primToConsB g W Bx) Bx).V (W.wg g) = W.vsq := by
  have hq := wg_pos hg hW
  rw [V_eq _ hq.ne', inp_primToConsB]
  simp only
  generalize W.wg g = q at *
  have hX : 0 < q + (Bx ^ 2 + W.By ^ 2 + W.Bz ^ 2) := by positivity
  rw [div_eq_iff (by positivity)]
  field_simp
  ring

theorem pgas_wg : (scal g (inp (primToConsB g W Bx) Bx) (W.wg g)).pgas = W.P := by
  have h1 : 0 < 1 - W.vsq := by linarith [hW.v]
  rw [pgas_eq _ _ (by rw [V_wg hg hW]; exact hW.v), V_wg hg hW]
  have hd : (inp (primToConsB g W Bx) Bx).d = √(1 / (1 - W.vsq)) * W.d := by
    rw [inp_primToConsB]
  have h3 : √(1 / (1 - W.vsq)) * √(1 - W.vsq) = 1 := by
    rw [← Real.sqrt_mul (by positivity), one_div, inv_mul_cancel₀ h1.ne', Real.sqrt_one]
  have h4 : W.wg g * (1 - W.vsq) = W.d + g / (g - 1) * W.P := by
    unfold PrimB.wg
    rw [div_mul_cancel₀ _ h1.ne']
  have h5 : √(1 / (1 - W.vsq)) * W.d * √(1 - W.vsq) = W.d := by
    linear_combination W.d * h3
  rw [hd, h5, h4]
  have : 0 < g - 1 := by linarith
  field_simp
  ring

theorem rho_wg : (scal g (inp (primToConsB g W Bx) Bx) (W.wg g)).rho = W.d := by
  have h1 : 0 < 1 - W.vsq := by linarith [hW.v]
  rw [rho_eq _ _ (by rw [V_wg hg hW]; exact hW.v), V_wg hg hW]
  have hd : (inp (primToConsB g W Bx) Bx).d = √(1 / (1 - W.vsq)) * W.d := by
    rw [inp_primToConsB]
  have h3 : √(1 / (1 - W.vsq)) * √(1 - W.vsq) = 1 := by
    rw [← Real.sqrt_mul (by positivity), one_div, inv_mul_cancel₀ h1.ne', Real.sqrt_one]
  rw [hd]
  linear_combination W.d * h3

theorem funQ_wg : funQ g (inp (primToConsB g W Bx) Bx) (W.wg g) = 0 := by
  have hq := wg_pos hg hW
  unfold funQ calcFunc
  rw [pgas_wg hg hW, show (scal g (inp (primToConsB g W Bx) Bx) (W.wg g)).Vsq =
    (inp (primToConsB g W Bx) Bx).V (W.wg g) from rfl, V_wg hg hW, inp_primToConsB]
  simp only
  generalize W.wg g = q at *
  field_simp
  ring

end exact

theorem cmax_left {a b : ℝ} (h : b ≤ a) : cmax a b = a := by
  unfold cmax
  split_ifs with h2
  · rfl
  · linarith

theorem cmax_ge (a b : ℝ) : b ≤ cmax a b := by
  unfold cmax
  split_ifs with h2
  · exact h2.le
  · exact le_rfl

/-- **C101, the equation.**  For every `1 < Γ ≤ 2`, every physical primitive state and every
field, the equation the program solves for the conserved variables of that state has exactly
one root among the `Q > 0` with `V² < 1`, namely `w γ²`. -/
theorem sr_mhd_root_unique {g : ℝ} (hg : 1 < g) (hg2 : g ≤ 2) (W : PrimB) (hW : W.Physical)
    (Bx Q : ℝ) : let i := inp (primToConsB g W Bx) Bx
    (0 < Q ∧ i.V Q < 1 ∧ funQ g i Q = 0) ↔ Q = W.wg g := by
  intro i
  constructor
  · rintro ⟨h1, h2, h3⟩
    exact funQ_root_unique hg hg2 (inp_ok _ _ (consB_d_pos hW Bx)) h1 (wg_pos hg hW) h2
      (by rw [V_wg hg hW]; exact hW.v) h3 (funQ_wg hg hW Bx)
  · rintro rfl
    exact ⟨wg_pos hg hW, by rw [V_wg hg hW]; exact hW.v, funQ_wg hg hW Bx⟩

/-- **C101, round trip at the root.**  For every physical primitive state with density at least
`10⁻⁴` and pressure at least `10⁻⁵`, and every field: an iteration that ends on a root of its
equation with `Q > 0` and `V² < 1` returns the state the conserved variables were made from.
(Partial: that the iteration ends on the root, rather than within its tolerance of it or on
an unphysical root, is not proved; see `sr_mhd_residual` for the distance.) -/
theorem sr_mhd_round_trip_partial {g : ℝ} (hg : 1 < g) (hg2 : g ≤ 2) (W : PrimB)
    (hW : W.Physical) (hd : 1 / 10 ^ 4 ≤ W.d) (hP : 1 / 10 ^ 5 ≤ W.P) (Bx Q : ℝ)
    (hQ : 0 < Q) (hV : (inp (primToConsB g W Bx) Bx).V Q < 1)
    (hf : funQ g (inp (primToConsB g W Bx) Bx) Q = 0) :
    finish g (primToConsB g W Bx) Bx Q = some W := by
  have hQe := (sr_mhd_root_unique hg hg2 W hW Bx Q).1 ⟨hQ, hV, hf⟩
  subst hQe
  have hB : 0 ≤ (inp (primToConsB g W Bx) Bx).Bsq := (inp_ok _ _ (consB_d_pos hW Bx)).B
  unfold finish
  dsimp only
  have hVs : (scal g (inp (primToConsB g W Bx) Bx) (W.wg g)).Vsq = W.vsq := V_wg hg hW Bx
  have hv0 : 0 ≤ W.vsq := by unfold PrimB.vsq; positivity
  rw [if_neg (by rintro (h | h) <;> linarith), hVs, if_neg (by linarith),
    if_neg (by linarith [hW.v]), rho_wg hg hW, pgas_wg hg hW, cmax_left hd, cmax_left hP]
  have hb : (inp (primToConsB g W Bx) Bx).Bsq = Bx ^ 2 + W.By ^ 2 + W.Bz ^ 2 := by
    rw [inp_primToConsB]
  rw [hb]
  rw [hb] at hB
  rw [primToConsB_eq]
  simp only
  generalize W.wg g = q at *
  congr 1
  have hX : 0 < q + (Bx ^ 2 + W.By ^ 2 + W.Bz ^ 2) := by linarith
  ext
  · rfl
  · simp only; field_simp; ring
  · simp only; field_simp; ring
  · simp only; field_simp; ring
  · rfl
  · rfl
  · rfl

/-- **C101, a small residual is a small error.**  At any trial `Q > 0` of the physical range the
distance to the right `Q` is at most the residual of the equation divided by
`(1 - max V²)/Γ`. -/
theorem sr_mhd_residual {g : ℝ} (hg : 1 < g) (hg2 : g ≤ 2) (W : PrimB) (hW : W.Physical)
    (Bx Q : ℝ) (hQ : 0 < Q) (hV : (inp (primToConsB g W Bx) Bx).V Q < 1) :
    (1 - max ((inp (primToConsB g W Bx) Bx).V Q) W.vsq) / g * |Q - W.wg g| ≤
      |funQ g (inp (primToConsB g W Bx) Bx) Q| := by
  have hok := inp_ok _ Bx (consB_d_pos (g := g) hW Bx)
  have hq0 := wg_pos hg hW
  have hV0 := V_wg hg hW Bx
  have hf0 := funQ_wg hg hW Bx
  have hv := hW.v
  rcases le_total Q (W.wg g) with hle | hle
  · have := funQ_slope hg hg2 hok hQ hle hV
    rw [hf0, zero_sub] at this
    have hmax : W.vsq ≤ (inp (primToConsB g W Bx) Bx).V Q := by
      rw [← hV0]; exact V_antitone hok hQ hle
    rw [max_eq_left hmax, abs_of_nonpos (by linarith), neg_sub]
    exact le_trans this (neg_le_abs _)
  · have := funQ_slope hg hg2 hok hq0 hle (by rw [hV0]; exact hv)
    rw [hf0, sub_zero, hV0] at this
    have hmax : (inp (primToConsB g W Bx) Bx).V Q ≤ W.vsq := by
      rw [← hV0]; exact V_antitone hok hq0 hle
    rw [max_eq_right hmax, abs_of_nonneg (by linarith)]
    exact le_trans this (le_abs_self _)

/-- The velocity returned has the squared length the program computed. -/
theorem velocity_sq (U : ConsB) (Bx Q : ℝ) (hQ : Q ≠ 0) (hX : Q + (inp U Bx).Bsq ≠ 0) :
    ((U.Mx + (U.Mx * Bx + U.My * U.By + U.Mz * U.Bz) * Bx * (1 / Q)) * (1 / (Q + (inp U Bx).Bsq))) *
      ((U.Mx + (U.Mx * Bx + U.My * U.By + U.Mz * U.Bz) * Bx * (1 / Q)) *
        (1 / (Q + (inp U Bx).Bsq))) +
    ((U.My + (U.Mx * Bx + U.My * U.By + U.Mz * U.Bz) * U.By * (1 / Q)) *
        (1 / (Q + (inp U Bx).Bsq))) *
      ((U.My + (U.Mx * Bx + U.My * U.By + U.Mz * U.Bz) * U.By * (1 / Q)) *
        (1 / (Q + (inp U Bx).Bsq))) +
    ((U.Mz + (U.Mx * Bx + U.My * U.By + U.Mz * U.Bz) * U.Bz * (1 / Q)) *
        (1 / (Q + (inp U Bx).Bsq))) *
      ((U.Mz + (U.Mx * Bx + U.My * U.By + U.Mz * U.Bz) * U.Bz * (1 / Q)) *
        (1 / (Q + (inp U Bx).Bsq))) = (inp U Bx).V Q := by
  rw [V_eq _ hQ]
  have hb : (inp U Bx).Bsq = Bx * Bx + U.By * U.By + U.Bz * U.Bz := rfl
  have hm : (inp U Bx).Msq = U.Mx * U.Mx + U.My * U.My + U.Mz * U.Mz := rfl
  have hs : (inp U Bx).Ssq = (U.Mx * Bx + U.My * U.By + U.Mz * U.Bz) *
      (U.Mx * Bx + U.My * U.By + U.Mz * U.Bz) := rfl
  rw [hm, hs]
  obtain ⟨X, hXd⟩ : ∃ X, X = Q + (inp U Bx).Bsq := ⟨_, rfl⟩
  have hb' : (inp U Bx).Bsq = X - Q := by rw [hXd]; ring
  have hb2 : Bx * Bx + U.By * U.By + U.Bz * U.Bz = X - Q := by rw [← hb, hb']
  rw [← hXd] at hX ⊢
  rw [hb']
  field_simp
  linear_combination (U.Mx * Bx + U.My * U.By + U.Mz * U.Bz) ^ 2 * hb2

/-- **C101, the other direction.**  Whatever conserved variables with positive mass the program
is given: if it ends on a root of its equation with `Q > 0` and `V² < 1`, and density and
pressure there are not below the floors, then the conserved variables of the state it returns
are the ones it was given. -/
theorem sr_mhd_cons_round_trip_partial {g : ℝ} (hg : 1 < g) (U : ConsB) (Bx Q : ℝ) (hU : 0 < U.d)
    (hQ : 0 < Q) (hV : (inp U Bx).V Q < 1) (hf : funQ g (inp U Bx) Q = 0)
    (hd : 1 / 10 ^ 4 ≤ (scal g (inp U Bx) Q).rho) (hP : 1 / 10 ^ 5 ≤ (scal g (inp U Bx) Q).pgas) :
    ∃ W, finish g U Bx Q = some W ∧ W.Physical ∧ primToConsB g W Bx = U := by
  have hok := inp_ok U Bx hU
  have hB := hok.B
  have hV0 := V_nonneg hok hQ
  have hX : 0 < Q + (inp U Bx).Bsq := by linarith
  have h1 : 0 < 1 - (inp U Bx).V Q := by linarith
  have hvel := velocity_sq U Bx Q hQ.ne' hX.ne'
  have hw0 : 0 < √(1 - (inp U Bx).V Q) := Real.sqrt_pos.2 h1
  have hw2 : √(1 - (inp U Bx).V Q) ^ 2 = 1 - (inp U Bx).V Q := Real.sq_sqrt h1.le
  have hrho := rho_eq g (inp U Bx) hV
  have hpg := pgas_eq g (inp U Bx) hV
  have hfe := funQ_eq g (inp U Bx) hQ.ne' hV
  rw [hf, ← hpg] at hfe
  refine ⟨⟨(scal g (inp U Bx) Q).rho,
      (U.Mx + (U.Mx * Bx + U.My * U.By + U.Mz * U.Bz) * Bx * (1 / Q)) * (1 / (Q + (inp U Bx).Bsq)),
      (U.My + (U.Mx * Bx + U.My * U.By + U.Mz * U.Bz) * U.By * (1 / Q)) *
        (1 / (Q + (inp U Bx).Bsq)),
      (U.Mz + (U.Mx * Bx + U.My * U.By + U.Mz * U.Bz) * U.Bz * (1 / Q)) *
        (1 / (Q + (inp U Bx).Bsq)),
      (scal g (inp U Bx) Q).pgas, U.By, U.Bz⟩, ?_, ?_, ?_⟩
  · unfold finish
    dsimp only
    rw [if_neg (by rintro (h | h) <;> linarith),
      show (scal g (inp U Bx) Q).Vsq = (inp U Bx).V Q from rfl, if_neg (by linarith),
      if_neg (by linarith), cmax_left hd, cmax_left hP]
  · refine ⟨lt_of_lt_of_le (by norm_num) hd, le_trans (by norm_num) hP, ?_⟩
    unfold PrimB.vsq
    simp only [pow_two]
    rw [hvel]
    exact hV
  · have hvs : (⟨(scal g (inp U Bx) Q).rho,
      (U.Mx + (U.Mx * Bx + U.My * U.By + U.Mz * U.Bz) * Bx * (1 / Q)) * (1 / (Q + (inp U Bx).Bsq)),
      (U.My + (U.Mx * Bx + U.My * U.By + U.Mz * U.Bz) * U.By * (1 / Q)) *
        (1 / (Q + (inp U Bx).Bsq)),
      (U.Mz + (U.Mx * Bx + U.My * U.By + U.Mz * U.Bz) * U.Bz * (1 / Q)) *
        (1 / (Q + (inp U Bx).Bsq)),
      (scal g (inp U Bx) Q).pgas, U.By, U.Bz⟩ : PrimB).vsq = (inp U Bx).V Q := by
      unfold PrimB.vsq
      simp only [pow_two]
      exact hvel
    rw [primToConsB_eq]
    have hwg : PrimB.wg g ⟨(scal g (inp U Bx) Q).rho,
      (U.Mx + (U.Mx * Bx + U.My * U.By + U.Mz * U.Bz) * Bx * (1 / Q)) * (1 / (Q + (inp U Bx).Bsq)),
      (U.My + (U.Mx * Bx + U.My * U.By + U.Mz * U.Bz) * U.By * (1 / Q)) *
        (1 / (Q + (inp U Bx).Bsq)),
      (U.Mz + (U.Mx * Bx + U.My * U.By + U.Mz * U.Bz) * U.Bz * (1 / Q)) *
        (1 / (Q + (inp U Bx).Bsq)),
      (scal g (inp U Bx) Q).pgas, U.By, U.Bz⟩ = Q := by
      unfold PrimB.wg
      rw [hvs]
      simp only
      rw [hrho, hpg, div_eq_iff h1.ne']
      have : 0 < g - 1 := by linarith
      field_simp
      ring
    rw [hvs, hwg]
    simp only
    have hb : (inp U Bx).Bsq = Bx ^ 2 + U.By ^ 2 + U.Bz ^ 2 := by
      show Bx * Bx + U.By * U.By + U.Bz * U.Bz = _
      ring
    have hs : (inp U Bx).Ssq = (U.Mx * Bx + U.My * U.By + U.Mz * U.Bz) ^ 2 := by
      show _ * _ = _
      ring
    have hE : (inp U Bx).E = U.E := rfl
    have hdd : (inp U Bx).d = U.d := rfl
    have hvb : ∀ b, b = Bx ^ 2 + U.By ^ 2 + U.Bz ^ 2 → 0 < Q + b →
        Bx * ((U.Mx + (U.Mx * Bx + U.My * U.By + U.Mz * U.Bz) * Bx * (1 / Q)) * (1 / (Q + b))) +
        U.By * ((U.My + (U.Mx * Bx + U.My * U.By + U.Mz * U.Bz) * U.By * (1 / Q)) * (1 / (Q + b))) +
        U.Bz * ((U.Mz + (U.Mx * Bx + U.My * U.By + U.Mz * U.Bz) * U.Bz * (1 / Q)) * (1 / (Q + b)))
        = (U.Mx * Bx + U.My * U.By + U.Mz * U.Bz) / Q := by
      intro b hb hp
      field_simp
      rw [hb]
      ring
    rw [hb] at hX hfe ⊢
    rw [hvb _ rfl hX]
    ext
    · simp only
      rw [hrho, hdd, Real.sqrt_div (by norm_num), Real.sqrt_one]
      field_simp
    · simp only; field_simp; ring
    · simp only; field_simp; ring
    · simp only; field_simp; ring
    · simp only
      rw [hE, hs] at hfe
      have : ((U.Mx * Bx + U.My * U.By + U.Mz * U.Bz) / Q) ^ 2 / 2 =
          (U.Mx * Bx + U.My * U.By + U.Mz * U.Bz) ^ 2 / (2 * Q ^ 2) := by field_simp
      rw [this]
      linarith
    · rfl
    · rfl

/-- **C102.**  Whatever conserved variables and field it is given, the conversion keeps the
transverse field, and the state it returns (if free of NaNs) is either marked as failed by a
negative density, or has density at least `10⁻⁴`, pressure at least `10⁻⁵` and a speed not above
that of light. -/
theorem sr_mhd_outcome (g : ℝ) (U : ConsB) (Bx : ℝ) (W : PrimB)
    (h : consToPrimB g U Bx = some W) :
    W.By = U.By ∧ W.Bz = U.Bz ∧
      (W.d < 0 ∨ (1 / 10 ^ 4 ≤ W.d ∧ 1 / 10 ^ 5 ≤ W.P ∧ W.vsq ≤ 1)) := by
  unfold consToPrimB at h
  split at h
  · next Q _ =>
    unfold finish at h
    dsimp only at h
    split_ifs at h with h1 h2 h3
    · rw [Option.some.injEq] at h
      subst h
      exact ⟨rfl, rfl, Or.inl (by norm_num)⟩
    · rw [Option.some.injEq] at h
      subst h
      refine ⟨rfl, rfl, Or.inr ⟨cmax_ge _ _, cmax_ge _ _, ?_⟩⟩
      rw [not_or] at h1
      have hv := velocity_sq U Bx Q h1.1 h1.2
      rw [show (scal g (inp U Bx) Q).Vsq = (inp U Bx).V Q from rfl] at h3
      unfold PrimB.vsq
      simp only
      have e : ∀ x y z : ℝ, 1 < x * x + y * y + z * z →
          (x * (9999 / 10000 / (x * x + y * y + z * z))) ^ 2 +
          (y * (9999 / 10000 / (x * x + y * y + z * z))) ^ 2 +
          (z * (9999 / 10000 / (x * x + y * y + z * z))) ^ 2 ≤ 1 := by
        intro x y z hx
        have e2 : (x * (9999 / 10000 / (x * x + y * y + z * z))) ^ 2 +
          (y * (9999 / 10000 / (x * x + y * y + z * z))) ^ 2 +
          (z * (9999 / 10000 / (x * x + y * y + z * z))) ^ 2 =
          (9999 / 10000) ^ 2 / (x * x + y * y + z * z) := by
          have h0 : x * x + y * y + z * z ≠ 0 := by linarith
          have e3 : (x * (9999 / 10000 / (x * x + y * y + z * z))) ^ 2 +
            (y * (9999 / 10000 / (x * x + y * y + z * z))) ^ 2 +
            (z * (9999 / 10000 / (x * x + y * y + z * z))) ^ 2 =
            (x * x + y * y + z * z) * (9999 / 10000 / (x * x + y * y + z * z)) ^ 2 := by ring
          rw [e3]
          generalize x * x + y * y + z * z = n at *
          field_simp
        rw [e2, div_le_one (by linarith)]
        nlinarith
      apply e
      rw [hv]
      exact h3
    · rw [Option.some.injEq] at h
      subst h
      refine ⟨rfl, rfl, Or.inr ⟨cmax_ge _ _, cmax_ge _ _, ?_⟩⟩
      rw [not_or] at h1
      have hv := velocity_sq U Bx Q h1.1 h1.2
      rw [show (scal g (inp U Bx) Q).Vsq = (inp U Bx).V Q from rfl] at h3
      unfold PrimB.vsq
      simp only [pow_two]
      rw [hv]
      exact not_lt.1 h3
  · rw [Option.some.injEq] at h
    subst h
    exact ⟨rfl, rfl, Or.inl (by norm_num)⟩

/-- **C103, second half.**  The derivative used by the entropy variant of the iteration is not
the derivative of its function: at `B = 0`, `M² = 12`, mass 1 and `Q = 4`, for every `Γ > 1`. -/
theorem sr_mhd_entropy_derivative_false {g : ℝ} (hg : 1 < g) (ent : ℝ) :
    let i : Inp := ⟨0, 12, 0, 0, 1⟩
    ¬ HasDerivAt (fun Q => calcEntFunc g (scal g i Q).rho (scal g i Q).pgas i.d ent)
      (calcEntDfunc g 4 i.Bsq i.Msq i.Ssq i.d (scal g i 4).Vsq (scal g i 4).Gsq
        (scal g i 4).Chi (scal g i 4).pgas (scal g i 4).rho) 4 := by
  intro i hbad
  have hV : i.V 4 = 3 / 4 := by
    rw [V_eq i (by norm_num)]; norm_num [i]
  have hV1 : i.V 4 < 1 := by rw [hV]; norm_num
  have hw : √(1 - i.V 4) = 1 / 2 := by
    rw [hV, show (1 : ℝ) - 3 / 4 = (1 / 2) ^ 2 by norm_num, Real.sqrt_sq (by norm_num)]
  have hdv : calcDvsq 4 i.Bsq i.Msq i.Ssq = -(3 / 8) := by
    unfold calcDvsq; norm_num [i]
  have hVd := V_hasDerivAt i (Q := 4) (by norm_num) (by norm_num [i])
  rw [hdv] at hVd
  -- the true derivative
  have hwd : HasDerivAt (fun Q => √(1 - i.V Q)) (3 / 8) 4 := by
    have h3 := (hVd.const_sub 1).sqrt (by rw [hV]; norm_num)
    rw [hw] at h3
    exact h3.congr_deriv (by norm_num)
  have hpd : HasDerivAt (fun Q => (g - 1) / g * (Q * (1 - i.V Q) - i.d * √(1 - i.V Q)))
      ((g - 1) / g * (11 / 8)) 4 := by
    have h3 := (((hasDerivAt_id' (4 : ℝ)).mul (hVd.const_sub 1)).sub
      (hwd.const_mul i.d)).const_mul ((g - 1) / g)
    refine h3.congr_deriv ?_
    rw [hV]
    norm_num [i]
  have hrd : HasDerivAt (fun Q => i.d * √(1 - i.V Q)) (3 / 8) 4 := by
    refine (hwd.const_mul i.d).congr_deriv ?_
    norm_num [i]
  have hrp := hrd.rpow_const (p := -g) (Or.inl (by rw [hw]; norm_num [i]))
  have htrue := (((hpd.mul hrp).const_mul i.d).sub_const ent)
  have hev : (fun Q => calcEntFunc g (scal g i Q).rho (scal g i Q).pgas i.d ent) =ᶠ[nhds 4]
      (fun Q => i.d * ((g - 1) / g * (Q * (1 - i.V Q) - i.d * √(1 - i.V Q))
        * (i.d * √(1 - i.V Q)) ^ (-g)) - ent) := by
    have c1 := hVd.continuousAt.eventually (Iio_mem_nhds hV1)
    filter_upwards [c1] with x hx
    unfold calcEntFunc
    rw [pgas_eq g i hx, rho_eq g i hx]
  have huniq := hbad.unique (HasDerivAt.congr_of_eventuallyEq htrue hev)
  have hp4 : (scal g i 4).pgas = (g - 1) / g * (1 / 2) := by
    rw [pgas_eq g i hV1, hw, hV]; norm_num [i]
  have hr4 : (scal g i 4).rho = 1 / 2 := by
    rw [rho_eq g i hV1, hw]; norm_num [i]
  have hG : √|(scal g i 4).Gsq| = 2 := by
    show √|1 / (1 - i.V 4)| = 2
    rw [hV, abs_of_pos (by norm_num), show (1 : ℝ) / (1 - 3 / 4) = 2 ^ 2 by norm_num,
      Real.sqrt_sq (by norm_num)]
  have hchi : (scal g i 4).Chi = 1 / 2 := by
    show (4 - i.d * √|(scal g i 4).Gsq|) * (1 - i.V 4) = 1 / 2
    rw [hG, hV]; norm_num [i]
  unfold calcEntDfunc calcDp at huniq
  dsimp only at huniq
  rw [hdv, hG, hchi, hp4, hr4, hw, show (scal g i 4).Vsq = i.V 4 from rfl, hV] at huniq
  have hid : i.d = 1 := rfl
  rw [hid] at huniq
  norm_num at huniq
  have hk : 0 < (g - 1) / g := div_pos (by linarith) (by linarith)
  have hlt : ((1 : ℝ) / 2) ^ (g + 1) < (1 / 2) ^ (-g - 1) :=
    Real.rpow_lt_rpow_of_exponent_gt (by norm_num) (by norm_num) (by linarith)
  generalize ((1 : ℝ) / 2) ^ (g + 1) = a at *
  generalize ((1 : ℝ) / 2) ^ (-g - 1) = b at *
  generalize ((1 : ℝ) / 2) ^ (-g) = c at *
  generalize (g - 1) / g = k at *
  have h9 : g * k * (b - a) = 0 := by nlinarith
  have h10 : 0 < g * k * (b - a) := by
    have : 0 < b - a := by linarith
    have : 0 < g := by linarith
    positivity
  linarith

/-- **C101, the starting guess.**  For the conserved variables of every physical state the guess
the iteration starts from is itself in the physical range: `Q > 0`, `V² < 1`, and the pressure
there is positive. -/
theorem sr_mhd_start {g : ℝ} (hg : 1 < g) (hg2 : g ≤ 2) (W : PrimB) (hW : W.Physical) (Bx : ℝ) :
    let i := inp (primToConsB g W Bx) Bx
    0 < startQ i ∧ i.V (startQ i) < 1 ∧ 0 < (scal g i (startQ i)).pgas := by
  intro i
  have hok : i.Ok := inp_ok _ Bx (consB_d_pos (g := g) hW Bx)
  have hq0 := wg_pos hg hW
  have hV0 : i.V (W.wg g) < 1 := by
    show (inp (primToConsB g W Bx) Bx).V _ < 1
    rw [V_wg hg hW]; exact hW.v
  have hf0 : funQ g i (W.wg g) = 0 := funQ_wg hg hW Bx
  have hp0 : 0 ≤ (scal g i (W.wg g)).pgas := by
    show 0 ≤ (scal g (inp (primToConsB g W Bx) Bx) (W.wg g)).pgas
    rw [pgas_wg hg hW]; exact hW.P
  generalize i = j at *
  clear i
  generalize W.wg g = q at *
  have hd := hok.d
  have hB := hok.B
  have hk : 0 < (g - 1) / g := div_pos (by linarith) (by linarith)
  -- pressure sign from Q² (1 - V²)
  have hφ0 : j.d ^ 2 ≤ q ^ 2 * (1 - j.V q) := by
    rw [pgas_eq g j hV0] at hp0
    have h1 : 0 < 1 - j.V q := by linarith
    have hw0 : 0 < √(1 - j.V q) := Real.sqrt_pos.2 h1
    have hw2 : √(1 - j.V q) ^ 2 = 1 - j.V q := Real.sq_sqrt h1.le
    generalize √(1 - j.V q) = w at *
    rw [← hw2] at hp0 ⊢
    have h3 : 0 ≤ q * w ^ 2 - j.d * w := by
      by_contra hc
      have := mul_neg_of_pos_of_neg hk (not_le.1 hc)
      linarith
    have h4 : j.d ≤ q * w := by
      have h5 : j.d * w ≤ (q * w) * w := by nlinarith
      exact le_of_mul_le_mul_right h5 hw0
    nlinarith
  -- the cold point
  obtain ⟨c, hc0, hcq, hcφ⟩ : ∃ c, 0 < c ∧ c ≤ q ∧ c ^ 2 * (1 - j.V c) = j.d ^ 2 := by
    have hm0 : 0 < min j.d q := lt_min hd hq0
    have hcont : ContinuousOn (fun x => x ^ 2 * (1 - j.V x)) (Set.Icc (min j.d q) q) := by
      intro x hx
      have hx0 : 0 < x := lt_of_lt_of_le hm0 hx.1
      have := (V_hasDerivAt j hx0.ne' (by linarith)).continuousAt
      exact (ContinuousAt.mul (by fun_prop) (continuousAt_const.sub this)).continuousWithinAt
    have hm : min j.d q ^ 2 * (1 - j.V (min j.d q)) ≤ j.d ^ 2 := by
      have h1 := V_nonneg hok hm0
      have h2 : min j.d q ^ 2 ≤ j.d ^ 2 := by
        have := min_le_left j.d q
        nlinarith
      nlinarith [sq_nonneg (min j.d q)]
    obtain ⟨c, hc, hfc⟩ := intermediate_value_Icc (min_le_right j.d q) hcont ⟨hm, hφ0⟩
    exact ⟨c, lt_of_lt_of_le hm0 hc.1, hc.2, hfc⟩
  have hVc : j.V c < 1 := by
    by_contra h
    have : c ^ 2 * (1 - j.V c) ≤ 0 :=
      mul_nonpos_of_nonneg_of_nonpos (by positivity) (by linarith [not_lt.1 h])
    have : 0 < j.d ^ 2 := by positivity
    linarith
  have hfc : funQ g j c ≤ 0 := by
    have := funQ_slope hg hg2 hok hc0 hcq hVc
    rw [hf0] at this
    have h2 : 0 ≤ (1 - j.V c) / g * (q - c) :=
      mul_nonneg (div_nonneg (by linarith) (by linarith)) (by linarith)
    linarith
  have hcold : j.d = c * √(1 - j.V c) := by
    have h1 : 0 < 1 - j.V c := by linarith
    have hw0 : 0 < √(1 - j.V c) := Real.sqrt_pos.2 h1
    have hw2 : √(1 - j.V c) ^ 2 = 1 - j.V c := Real.sq_sqrt h1.le
    rw [← hw2, ← mul_pow] at hcφ
    exact ((sq_eq_sq₀ (by positivity) hd.le).1 hcφ).symm
  have hfce : funQ g j c = c + (1 + j.V c) * j.Bsq / 2 - j.Ssq / (2 * c ^ 2) - j.E := by
    rw [funQ_eq g j hc0.ne' hVc]
    have h1 : 0 < 1 - j.V c := by linarith
    have hw2 : √(1 - j.V c) ^ 2 = 1 - j.V c := Real.sq_sqrt h1.le
    have : c * (1 - j.V c) - j.d * √(1 - j.V c) = 0 := by
      rw [hcold]
      linear_combination -c * hw2
    rw [this]; ring
  have hVdef : j.V c * (c + j.Bsq) ^ 2 = j.Msq + j.Ssq * (2 * c + j.Bsq) / c ^ 2 := by
    rw [V_eq j hc0.ne', div_mul_cancel₀ _ (by positivity)]
  -- the quadratic is negative there
  have hh : 3 * c ^ 2 - 4 * (j.E - j.Bsq) * c + (j.Msq - 2 * j.E * j.Bsq + j.Bsq * j.Bsq) < 0 := by
    have e : 3 * c ^ 2 - 4 * (j.E - j.Bsq) * c + (j.Msq - 2 * j.E * j.Bsq + j.Bsq * j.Bsq) =
        2 * (2 * c + j.Bsq) * funQ g j c - (1 - j.V c) * c ^ 2 := by
      rw [hfce]
      have h3 : j.Ssq * (2 * c + j.Bsq) / c ^ 2 = (2 * c + j.Bsq) * 2 * (j.Ssq / (2 * c ^ 2)) := by
        field_simp
      rw [h3] at hVdef
      linear_combination -hVdef
    rw [e]
    have h4 : 2 * (2 * c + j.Bsq) * funQ g j c ≤ 0 :=
      mul_nonpos_of_nonneg_of_nonpos (by positivity) hfc
    have h5 : 0 < (1 - j.V c) * c ^ 2 := mul_pos (by linarith) (by positivity)
    linarith
  -- so the guess is beyond it
  have hs : c < startQ j := by
    unfold startQ
    dsimp only
    have hdisc : (6 * c - 4 * (j.E - j.Bsq)) ^ 2 < -4 * (j.E - j.Bsq) * (-4 * (j.E - j.Bsq)) -
        12 * (j.Msq - 2 * j.E * j.Bsq + j.Bsq * j.Bsq) := by nlinarith
    have hnn : 0 ≤ -4 * (j.E - j.Bsq) * (-4 * (j.E - j.Bsq)) -
        12 * (j.Msq - 2 * j.E * j.Bsq + j.Bsq * j.Bsq) :=
      le_trans (sq_nonneg _) hdisc.le
    rw [abs_of_nonneg hnn]
    have := Real.lt_sqrt_of_sq_lt hdisc
    have hgt : c < (-(-4 * (j.E - j.Bsq)) + √(-4 * (j.E - j.Bsq) * (-4 * (j.E - j.Bsq)) -
        12 * (j.Msq - 2 * j.E * j.Bsq + j.Bsq * j.Bsq))) / 6 := by linarith
    rw [if_neg (by linarith)]
    exact hgt
  have hs0 : 0 < startQ j := hc0.trans hs
  have hVs : j.V (startQ j) ≤ j.V c := V_antitone hok hc0 hs.le
  have hVs1 : j.V (startQ j) < 1 := lt_of_le_of_lt hVs hVc
  refine ⟨hs0, hVs1, ?_⟩
  rw [pgas_eq g j hVs1]
  apply mul_pos hk
  have h1 : 0 < 1 - j.V (startQ j) := by linarith
  have hw0 : 0 < √(1 - j.V (startQ j)) := Real.sqrt_pos.2 h1
  have hw2 : √(1 - j.V (startQ j)) ^ 2 = 1 - j.V (startQ j) := Real.sq_sqrt h1.le
  have hlt : j.d < startQ j * √(1 - j.V (startQ j)) := by
    have h3 : √(1 - j.V c) ≤ √(1 - j.V (startQ j)) := Real.sqrt_le_sqrt (by linarith)
    have h4 : 0 ≤ √(1 - j.V c) := Real.sqrt_nonneg _
    rw [hcold]
    calc c * √(1 - j.V c) ≤ c * √(1 - j.V (startQ j)) := by gcongr
      _ < startQ j * √(1 - j.V (startQ j)) := by gcongr
  generalize √(1 - j.V (startQ j)) = w at *
  rw [← hw2]
  nlinarith

/-! ### States at rest: the whole iteration -/

section rest
variable {g : ℝ} {i : Inp}

theorem rest_V (hM : i.Msq = 0) (hS : i.Ssq = 0) (Q : ℝ) : i.V Q = 0 := by
  unfold Inp.V calcVsq
  simp [hM, hS]

theorem rest_funQ (hg : 1 < g) (hM : i.Msq = 0) (hS : i.Ssq = 0) {Q : ℝ} (hQ : Q ≠ 0) :
    funQ g i Q = Q / g + (g - 1) / g * i.d + i.Bsq / 2 - i.E := by
  rw [funQ_eq g i hQ (by rw [rest_V hM hS]; norm_num), rest_V hM hS, hS]
  have : 0 < g := by linarith
  simp
  field_simp
  ring

theorem rest_dfunQ (hg : 1 < g) (hM : i.Msq = 0) (hS : i.Ssq = 0) {Q : ℝ} (hQ : 0 < Q)
    (hB : 0 ≤ i.Bsq) : dfunQ g i Q = 1 / g := by
  have hd := sr_mhd_newton_derivative (g := g) (by linarith) i hQ.ne' (by linarith)
    (by rw [rest_V hM hS]; norm_num)
  have hev : funQ g i =ᶠ[nhds Q] fun Q => Q / g + (g - 1) / g * i.d + i.Bsq / 2 - i.E := by
    filter_upwards [isOpen_ne.mem_nhds hQ.ne'] with x hx
    exact rest_funQ hg hM hS hx
  have h2 : HasDerivAt (fun Q => Q / g + (g - 1) / g * i.d + i.Bsq / 2 - i.E) (1 / g) Q :=
    ((((hasDerivAt_id' Q).div_const g).add_const _).add_const _).sub_const _
  exact hd.unique (HasDerivAt.congr_of_eventuallyEq h2 hev)

theorem rest_sing (hM : i.Msq = 0) (hS : i.Ssq = 0) {Q : ℝ} (hQ : 0 < Q) (hB : 0 ≤ i.Bsq) :
    ¬ Sing g i Q := by
  rintro (h | h | h)
  · linarith
  · linarith
  · rw [show (scal g i Q).Vsq = i.V Q from rfl, rest_V hM hS] at h
    norm_num at h

/-- At rest the equation is linear: the loop ends on its root after three passes. -/
theorem rest_newton (hg : 1 < g) (hM : i.Msq = 0) (hS : i.Ssq = 0) (hB : 0 ≤ i.Bsq) {q Q : ℝ}
    (hq : 0 < q) (hroot : funQ g i q = 0) (hQ : 0 < Q) (n : ℕ) :
    newton g i (n + 3) Q 1 true = some q := by
  have hstep : ∀ x : ℝ, 0 < x → x - funQ g i x / dfunQ g i x = q := by
    intro x hx
    rw [rest_dfunQ hg hM hS hx hB, rest_funQ hg hM hS hx.ne']
    rw [rest_funQ hg hM hS hq.ne'] at hroot
    have hg0 : 0 < g := by linarith
    field_simp at hroot ⊢
    linarith
  have hd : ∀ x : ℝ, 0 < x → dfunQ g i x ≠ 0 := by
    intro x hx
    rw [rest_dfunQ hg hM hS hx hB]
    have : 0 < g := by linarith
    positivity
  have h3 : ∀ m dQ, |dQ| ≤ 1 / 10 ^ 10 → newton g i (m + 1) q dQ false = some q := by
    intro m dQ hdQ
    unfold newton
    dsimp only
    rw [if_neg (rest_sing hM hS hq hB)]
    simp only [Bool.false_eq_true, false_and, if_false]
    rw [if_neg (by rintro (h | h); exacts [rest_sing hM hS hq hB h, hd q hq h]), if_pos hdQ,
      hstep q hq]
  have h2 : ∀ m dQ, newton g i (m + 2) q dQ false = some q := by
    intro m dQ
    by_cases hs : |dQ| ≤ 1 / 10 ^ 10
    · exact h3 (m + 1) dQ hs
    · unfold newton
      dsimp only
      rw [if_neg (rest_sing hM hS hq hB)]
      simp only [Bool.false_eq_true, false_and, if_false]
      rw [if_neg (by rintro (h | h); exacts [rest_sing hM hS hq hB h, hd q hq h]), if_neg hs,
        hstep q hq]
      apply h3
      rw [hroot, zero_div, abs_zero]
      norm_num
  unfold newton
  dsimp only
  rw [if_neg (rest_sing hM hS hQ hB)]
  have hx : 0 < (if (true = true ∧ |funQ g i Q| < 1 / 10) then Q * 10 else Q) := by
    split_ifs
    · positivity
    · exact hQ
  generalize (if (true = true ∧ |funQ g i Q| < 1 / 10) then Q * 10 else Q) = x at *
  rw [if_neg (by rintro (h | h); exacts [rest_sing hM hS hx hB h, hd x hx h]),
    if_neg (by norm_num), hstep x hx]
  exact h2 n _

end rest

/-- **C101, states at rest.**  For a gas at rest, with any field, density at least `10⁻⁴` and
pressure at least `10⁻⁵`, the whole conversion -- starting guess, iteration and all -- returns
the state. -/
theorem sr_mhd_rest_round_trip {g : ℝ} (hg : 1 < g) (hg2 : g ≤ 2) (W : PrimB)
    (hv : W.Vx = 0 ∧ W.Vy = 0 ∧ W.Vz = 0) (hd : 1 / 10 ^ 4 ≤ W.d) (hP : 1 / 10 ^ 5 ≤ W.P)
    (Bx : ℝ) : consToPrimB g (primToConsB g W Bx) Bx = some W := by
  have hvs : W.vsq = 0 := by unfold PrimB.vsq; rw [hv.1, hv.2.1, hv.2.2]; norm_num
  have hW : W.Physical := ⟨lt_of_lt_of_le (by norm_num) hd, le_trans (by norm_num) hP, by
    rw [hvs]; norm_num⟩
  have hok := inp_ok _ Bx (consB_d_pos (g := g) hW Bx)
  have hM : (inp (primToConsB g W Bx) Bx).Msq = 0 := by
    rw [inp_primToConsB]; simp [hvs, hv.1, hv.2.1, hv.2.2]
  have hS : (inp (primToConsB g W Bx) Bx).Ssq = 0 := by
    rw [inp_primToConsB]; simp [hv.1, hv.2.1, hv.2.2]
  unfold consToPrimB
  rw [show (100000 : ℕ) = 99997 + 3 from rfl, rest_newton hg hM hS hok.B (wg_pos hg hW)
    (funQ_wg hg hW Bx) (sr_mhd_start hg hg2 W hW Bx).1]
  exact sr_mhd_round_trip_partial hg hg2 W hW hd hP Bx _ (wg_pos hg hW)
    (by rw [V_wg hg hW]; exact hW.v) (funQ_wg hg hW Bx)

/-- **C102, the check without floors.**  `check_Prim1D` keeps the transverse field; a state it returns either carries all three marks by
which its callers reject it -- negative density, negative pressure, speed above that of light -- or is that of a converged iteration, with
the density, pressure and velocity at its last `Q`. -/
theorem sr_mhd_check_outcome (g : ℝ) (U : ConsB) (Bx : ℝ) (W : PrimB) (h : checkPrimB g U Bx = some W) :
    W.By = U.By ∧ W.Bz = U.Bz ∧
      ((W.d < 0 ∧ W.P < 0 ∧ 1 < W.vsq) ∨
       ∃ Q, newton g (inp U Bx) 1000 (startQ (inp U Bx)) 1 true = some Q ∧ W.d = (scal g (inp U Bx) Q).rho ∧
         W.P = (scal g (inp U Bx) Q).pgas ∧ W.vsq = (inp U Bx).V Q) := by
  unfold checkPrimB at h
  dsimp only at h
  split at h
  · next Q hQ =>
    split_ifs at h with h1
    rw [Option.some.injEq] at h
    subst h
    rw [not_or] at h1
    refine ⟨rfl, rfl, Or.inr ⟨Q, hQ, rfl, rfl, ?_⟩⟩
    have hv := velocity_sq U Bx Q h1.1 h1.2
    unfold PrimB.vsq
    simp only [pow_two]
    exact hv
  · rw [Option.some.injEq] at h
    subst h
    exact ⟨rfl, rfl, Or.inl ⟨by norm_num, by norm_num, by norm_num [PrimB.vsq]⟩⟩

/-- **C101/C102, states at rest.**  For a gas at rest with any field `check_Prim1D` returns the state, however thin or cold it is. -/
theorem sr_mhd_check_rest {g : ℝ} (hg : 1 < g) (hg2 : g ≤ 2) (W : PrimB) (hv : W.Vx = 0 ∧ W.Vy = 0 ∧ W.Vz = 0) (hd : 0 < W.d)
    (hP : 0 ≤ W.P) (Bx : ℝ) : checkPrimB g (primToConsB g W Bx) Bx = some W := by
  have hvs : W.vsq = 0 := by unfold PrimB.vsq; rw [hv.1, hv.2.1, hv.2.2]; norm_num
  have hW : W.Physical := ⟨hd, hP, by rw [hvs]; norm_num⟩
  have hok := inp_ok _ Bx (consB_d_pos (g := g) hW Bx)
  have hM : (inp (primToConsB g W Bx) Bx).Msq = 0 := by
    rw [inp_primToConsB]; simp [hvs, hv.1, hv.2.1, hv.2.2]
  have hS : (inp (primToConsB g W Bx) Bx).Ssq = 0 := by
    rw [inp_primToConsB]; simp [hv.1, hv.2.1, hv.2.2]
  have hq := wg_pos hg hW
  have hB := hok.B
  unfold checkPrimB
  dsimp only
  rw [show (1000 : ℕ) = 997 + 3 from rfl, rest_newton hg hM hS hok.B hq (funQ_wg hg hW Bx) (sr_mhd_start hg hg2 W hW Bx).1]
  dsimp only
  rw [if_neg (by rintro (h | h) <;> linarith), rho_wg hg hW, pgas_wg hg hW]
  have hU : primToConsB g W Bx = primToConsB g ⟨W.d, 0, 0, 0, W.P, W.By, W.Bz⟩ Bx := by
    congr 1
    ext
    · rfl
    · exact hv.1
    · exact hv.2.1
    · exact hv.2.2
    · rfl
    · rfl
    · rfl
  have e : ((primToConsB g W Bx).Mx = 0 ∧ (primToConsB g W Bx).My = 0 ∧ (primToConsB g W Bx).Mz = 0) ∧
      (primToConsB g W Bx).By = W.By ∧ (primToConsB g W Bx).Bz = W.Bz := by
    rw [hU, primToConsB_eq]
    simp
  obtain ⟨⟨e1, e2, e3⟩, e4, e5⟩ := e
  rw [e1, e2, e3, e4, e5]
  congr 1
  ext
  · rfl
  · simp [hv.1]
  · simp [hv.2.1]
  · simp [hv.2.2]
  · rfl
  · rfl
  · rfl

/-- A thin, cold gas, below the floors of the conversion. -/
example : checkPrimB (4 / 3) (primToConsB (4 / 3) ⟨1 / 10 ^ 6, 0, 0, 0, 0, 1, 3⟩ 2) 2 = some ⟨1 / 10 ^ 6, 0, 0, 0, 0, 1, 3⟩ :=
  sr_mhd_check_rest (by norm_num) (by norm_num) _ ⟨rfl, rfl, rfl⟩ (by norm_num) (by norm_num) 2

/-- Below the floors the state is not returned: a thin gas at rest comes back denser. -/
theorem sr_mhd_floor_false : ∃ W : PrimB, W.Physical ∧
    ∃ W', finish 2 (primToConsB 2 W 0) 0 (W.wg 2) = some W' ∧ W' ≠ W := by
  have hW : (⟨1 / 10 ^ 6, 0, 0, 0, 1, 0, 0⟩ : PrimB).Physical :=
    ⟨by norm_num, by norm_num, by norm_num [PrimB.vsq]⟩
  refine ⟨_, hW, ?_⟩
  have hq := wg_pos (g := 2) (by norm_num) hW
  have hB := (inp_ok _ 0 (consB_d_pos (g := 2) hW 0)).B
  unfold finish
  dsimp only
  rw [if_neg (by rintro (h | h) <;> linarith),
    show (scal 2 (inp (primToConsB 2 ⟨1 / 10 ^ 6, 0, 0, 0, 1, 0, 0⟩ 0) 0)
      (PrimB.wg 2 ⟨1 / 10 ^ 6, 0, 0, 0, 1, 0, 0⟩)).Vsq = _ from V_wg (by norm_num) hW 0,
    if_neg (by norm_num [PrimB.vsq]), if_neg (by norm_num [PrimB.vsq]),
    rho_wg (by norm_num) hW]
  refine ⟨_, rfl, ?_⟩
  intro h
  have := congrArg PrimB.d h
  norm_num [cmax] at this

/-- A magnetised relativistic flow meets the hypotheses of the theorems above: `d = P = 1`,
`V = (3/5, 0, 1/5)`, `B = (2, 1, 3)`, `Γ = 4/3`. -/
example : (⟨1, 3 / 5, 0, 1 / 5, 1, 1, 3⟩ : PrimB).Physical :=
  ⟨by norm_num, by norm_num, by norm_num [PrimB.vsq]⟩

example : let W : PrimB := ⟨1, 3 / 5, 0, 1 / 5, 1, 1, 3⟩
    finish (4 / 3) (primToConsB (4 / 3) W 2) 2 (W.wg (4 / 3)) = some W := by
  intro W
  have hW : W.Physical := ⟨by norm_num [W], by norm_num [W], by norm_num [PrimB.vsq, W]⟩
  obtain ⟨h1, h2, h3⟩ := (sr_mhd_root_unique (g := 4 / 3) (by norm_num) (by norm_num) W hW 2
    (W.wg (4 / 3))).2 rfl
  exact sr_mhd_round_trip_partial (by norm_num) (by norm_num) W hW (by norm_num [W])
    (by norm_num [W]) 2 _ h1 h2 h3

example : let W : PrimB := ⟨1, 3 / 5, 0, 1 / 5, 1, 1, 3⟩
    let U := primToConsB (4 / 3) W 2
    ∃ W', finish (4 / 3) U 2 (W.wg (4 / 3)) = some W' ∧ W'.Physical ∧
      primToConsB (4 / 3) W' 2 = U := by
  intro W U
  have hW : W.Physical := ⟨by norm_num [W], by norm_num [W], by norm_num [PrimB.vsq, W]⟩
  obtain ⟨h1, h2, h3⟩ := (sr_mhd_root_unique (g := 4 / 3) (by norm_num) (by norm_num) W hW 2
    (W.wg (4 / 3))).2 rfl
  refine sr_mhd_cons_round_trip_partial (by norm_num) U 2 _ (consB_d_pos hW 2) h1 h2 h3 ?_ ?_
  · rw [rho_wg (by norm_num) hW]; norm_num [W]
  · rw [pgas_wg (by norm_num) hW]; norm_num [W]

/-- A converged result of the whole conversion, as `sr_mhd_outcome` asks for. -/
example : consToPrimB (4 / 3) (primToConsB (4 / 3) ⟨1, 0, 0, 0, 1, 1, 3⟩ 2) 2 =
    some ⟨1, 0, 0, 0, 1, 1, 3⟩ :=
  sr_mhd_rest_round_trip (by norm_num) (by norm_num) _ ⟨rfl, rfl, rfl⟩ (by norm_num)
    (by norm_num) 2

/-- The physical range of the derivative theorem is met, with field and momentum. -/
example : HasDerivAt (funQ (4 / 3) ⟨1, 12, 1, 0, 1⟩) (dfunQ (4 / 3) ⟨1, 12, 1, 0, 1⟩ 4) 4 :=
  sr_mhd_newton_derivative (by norm_num) _ (by norm_num) (by norm_num) (by
    rw [V_eq _ (by norm_num)]; norm_num)

end Athena.Rel
