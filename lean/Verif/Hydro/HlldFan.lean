import Verif.Hydro.HlldStar

/-!
# The fan of the adiabatic HLLD solver
-/

namespace Athena.Hydro
noncomputable section
variable {ns : ℕ} {p : Phys} {Wl Wr W : Prim1D ns} {Ul Ur U : Cons1D ns} {Bx : ℝ}

/-- What the inner intermediate states satisfy. -/
structure Double (Bx sM pt : ℝ) (UL UR ULL URR : Cons1D ns) (s1 s3 : ℝ) : Prop where
  same : Bx ^ 2 / 2 < smallNumber * pt → ULL = UL ∧ URR = UR
  dL : ULL.d = UL.d
  dR : URR.d = UR.d
  rh1 : RH s1 UL (mhdFlux pt Bx UL) ULL (mhdFlux pt Bx ULL)
  rh3 : RH s3 UR (mhdFlux pt Bx UR) URR (mhdFlux pt Bx URR)
  rh2 : Bx = 0 ∨ ¬ Bx ^ 2 / 2 < smallNumber * pt → RH sM ULL (mhdFlux pt Bx ULL) URR (mhdFlux pt Bx URR)

/-- `Bxsig`. -/
def bsig (Bx : ℝ) : ℝ := if Bx > 0 then 1 else -1

theorem bsig_sq (Bx : ℝ) : bsig Bx * bsig Bx = 1 := by unfold bsig; split_ifs <;> norm_num

theorem bsig_abs (Bx : ℝ) : |Bx| * bsig Bx = Bx := by
  unfold bsig; split_ifs with h
  · rw [abs_of_pos h, mul_one]
  · push Not at h; rw [abs_of_nonpos h]; ring

/-- `hlldDouble` in closed form. -/
theorem hlldDouble_eq (UL UR : Cons1D ns) (vbl vbr : ℝ) {sM pt : ℝ} (hm : p.mhd = true) (hL : 0 < UL.d) (hR : 0 < UR.d)
    (hb : ¬ 1/2 * (Bx * Bx) < smallNumber * pt) :
    let sl := Real.sqrt UL.d
    let sr := Real.sqrt UR.d
    let vy := (sl * (UL.My / UL.d) + sr * (UR.My / UR.d) + bsig Bx * (UR.By - UL.By)) / (sl + sr)
    let vz := (sl * (UL.Mz / UL.d) + sr * (UR.Mz / UR.d) + bsig Bx * (UR.Bz - UL.Bz)) / (sl + sr)
    let By := (sl * UR.By + sr * UL.By + bsig Bx * sl * sr * (UR.My / UR.d - UL.My / UL.d)) / (sl + sr)
    let Bz := (sl * UR.Bz + sr * UL.Bz + bsig Bx * sl * sr * (UR.Mz / UR.d - UL.Mz / UL.d)) / (sl + sr)
    let vb := sM * Bx + (vy * By + vz * Bz)
    hlldDouble p UL UR vbl vbr sl sr Bx sM pt = some
      (⟨UL.d, UL.Mx, UL.d * vy, UL.d * vz, UL.E - sl * bsig Bx * (vbl - vb), By, Bz, fun _ => 0⟩,
       ⟨UR.d, UR.Mx, UR.d * vy, UR.d * vz, UR.E + sr * bsig Bx * (vbr - vb), By, Bz, fun _ => 0⟩) := by
  intro sl sr vy vz By Bz vb
  have hsl : 0 < sl := Real.sqrt_pos.mpr hL
  have hsr : 0 < sr := Real.sqrt_pos.mpr hR
  unfold hlldDouble cons1DToPrim1D
  rw [if_neg hb]
  simp only [fdiv_ne hL.ne', fdiv_ne hR.ne', fdiv_ne (add_pos hsl hsr).ne', Option.bind_eq_bind, Option.bind_some, Option.pure_def]
  have ey : 1 / (sl + sr) * (sl * (UL.My * (1 / UL.d)) + sr * (UR.My * (1 / UR.d)) + (if Bx > 0 then 1 else -1) * (UR.By - UL.By)) = vy := by
    show _ = (sl * (UL.My / UL.d) + sr * (UR.My / UR.d) + bsig Bx * (UR.By - UL.By)) / (sl + sr)
    unfold bsig; ring
  have ez : 1 / (sl + sr) * (sl * (UL.Mz * (1 / UL.d)) + sr * (UR.Mz * (1 / UR.d)) + (if Bx > 0 then 1 else -1) * (UR.Bz - UL.Bz)) = vz := by
    show _ = (sl * (UL.Mz / UL.d) + sr * (UR.Mz / UR.d) + bsig Bx * (UR.Bz - UL.Bz)) / (sl + sr)
    unfold bsig; ring
  have eb : 1 / (sl + sr) * (sl * UR.By + sr * UL.By + (if Bx > 0 then 1 else -1) * sl * sr * (UR.My * (1 / UR.d) - UL.My * (1 / UL.d))) = By := by
    show _ = (sl * UR.By + sr * UL.By + bsig Bx * sl * sr * (UR.My / UR.d - UL.My / UL.d)) / (sl + sr)
    unfold bsig; ring
  have ec : 1 / (sl + sr) * (sl * UR.Bz + sr * UL.Bz + (if Bx > 0 then 1 else -1) * sl * sr * (UR.Mz * (1 / UR.d) - UL.Mz * (1 / UL.d))) = Bz := by
    show _ = (sl * UR.Bz + sr * UL.Bz + bsig Bx * sl * sr * (UR.Mz / UR.d - UL.Mz / UL.d)) / (sl + sr)
    unfold bsig; ring
  rw [ey, ez, eb, ec]
  have eq : (UL.d * vy * By + UL.d * vz * Bz) / UL.d = vy * By + vz * Bz := by field_simp
  rw [eq]
  rfl

/-- The jump condition at an Alfven wave. -/
theorem alfven {U V : Cons1D ns} {sM pt Bx A g σ : ℝ} (hσ : 0 < σ) (hd : U.d = σ * σ) (hg : g * g = 1) (hB : A * g = Bx)
    (hx : U.Mx = U.d * sM) (dV : V.d = U.d) (mV : V.Mx = U.Mx)
    (hy : σ * (V.My / V.d - U.My / U.d) = g * (V.By - U.By)) (hz : σ * (V.Mz / V.d - U.Mz / U.d) = g * (V.Bz - U.Bz))
    (hE : V.E - U.E = σ * g * ((V.My * V.By + V.Mz * V.Bz) / V.d - (U.My * U.By + U.Mz * U.Bz) / U.d)) :
    RH (sM - A / σ) U (mhdFlux pt Bx U) V (mhdFlux pt Bx V) := by
  have h0 : U.d ≠ 0 := by rw [hd]; positivity
  have yU : U.My = U.d * (U.My / U.d) := by field_simp
  have zU : U.Mz = U.d * (U.Mz / U.d) := by field_simp
  have yV : V.My = U.d * (V.My / V.d) := by rw [dV]; field_simp
  have zV : V.Mz = U.d * (V.Mz / V.d) := by rw [dV]; field_simp
  have xU : U.Mx / U.d = sM := by rw [hx]; field_simp
  have xV : V.Mx / V.d = sM := by rw [mV, dV, xU]
  have eU : (U.Mx * Bx + U.My * U.By + U.Mz * U.Bz) / U.d = sM * Bx + (U.My * U.By + U.Mz * U.Bz) / U.d := by rw [← xU]; ring
  have eV : (V.Mx * Bx + V.My * V.By + V.Mz * V.Bz) / V.d = sM * Bx + (V.My * V.By + V.Mz * V.Bz) / V.d := by rw [← xV]; ring
  have hA : A / σ * σ = A := div_mul_cancel₀ _ hσ.ne'
  have pU : U.Mx * U.My / U.d = sM * U.My := by rw [← xU]; ring
  have pV : V.Mx * V.My / V.d = sM * V.My := by rw [← xV]; ring
  have qU : U.Mx * U.Mz / U.d = sM * U.Mz := by rw [← xU]; ring
  have qV : V.Mx * V.Mz / V.d = sM * V.Mz := by rw [← xV]; ring
  constructor <;> unfold mhdFlux <;> dsimp only
  · rw [mV, dV]; ring
  · rw [mV, dV]; ring
  · rw [pU, pV]
    have k : V.My - U.My = σ * (g * (V.By - U.By)) := by rw [← hy, ← mul_assoc, ← hd, mul_sub, ← yV, ← yU]
    have k2 : sM * V.My - Bx * V.By - (sM * U.My - Bx * U.By) - (sM - A / σ) * (V.My - U.My) =
        A / σ * (V.My - U.My) - Bx * (V.By - U.By) := by ring
    have : A / σ * (V.My - U.My) = Bx * (V.By - U.By) := by rw [k, ← hB]; field_simp
    linarith
  · rw [qU, qV]
    have k : V.Mz - U.Mz = σ * (g * (V.Bz - U.Bz)) := by rw [← hz, ← mul_assoc, ← hd, mul_sub, ← zV, ← zU]
    have k2 : sM * V.Mz - Bx * V.Bz - (sM * U.Mz - Bx * U.Bz) - (sM - A / σ) * (V.Mz - U.Mz) =
        A / σ * (V.Mz - U.Mz) - Bx * (V.Bz - U.Bz) := by ring
    have : A / σ * (V.Mz - U.Mz) = Bx * (V.Bz - U.Bz) := by rw [k, ← hB]; field_simp
    linarith
  · rw [eU, eV, xU, xV]
    have : A / σ * (V.E - U.E) = Bx * ((V.My * V.By + V.Mz * V.Bz) / V.d - (U.My * U.By + U.Mz * U.Bz) / U.d) := by
      rw [hE, ← hB]; field_simp
    linear_combination this
  · rw [xU, xV]
    have : A / σ * (V.By - U.By) = Bx * (V.My / V.d - U.My / U.d) := by
      have k : V.By - U.By = g * (σ * (V.My / V.d - U.My / U.d)) := by rw [hy]; linear_combination (-(V.By - U.By)) * hg
      rw [k, ← hB]; field_simp
    linear_combination this
  · rw [xU, xV]
    have : A / σ * (V.Bz - U.Bz) = Bx * (V.Mz / V.d - U.Mz / U.d) := by
      have k : V.Bz - U.Bz = g * (σ * (V.Mz / V.d - U.Mz / U.d)) := by rw [hz]; linear_combination (-(V.Bz - U.Bz)) * hg
      rw [k, ← hB]; field_simp
    linear_combination this

/-- The jump condition at the contact. -/
theorem contactRH {U V : Cons1D ns} {sM pt Bx : ℝ} (hU : 0 < U.d) (hV : 0 < V.d) (xU : U.Mx = U.d * sM) (xV : V.Mx = V.d * sM)
    (hy : U.My / U.d = V.My / V.d) (hz : U.Mz / U.d = V.Mz / V.d) (by' : Bx = 0 ∨ U.By = V.By ∧ U.Bz = V.Bz) :
    RH sM U (mhdFlux pt Bx U) V (mhdFlux pt Bx V) := by
  have yU : U.My = U.d * (U.My / U.d) := by field_simp
  have zU : U.Mz = U.d * (U.Mz / U.d) := by field_simp
  have yV : V.My = V.d * (V.My / V.d) := by field_simp
  have zV : V.Mz = V.d * (V.Mz / V.d) := by field_simp
  rw [hy] at yU; rw [hz] at zU
  unfold mhdFlux
  constructor <;> dsimp only
  · rw [xU, xV]; ring
  · rw [xU, xV]; field_simp; ring
  · rw [xU, xV]; rcases by' with h | ⟨h, h'⟩
    · rw [h]; field_simp; ring
    · rw [h]; field_simp; ring
  · rw [xU, xV]; rcases by' with h | ⟨h, h'⟩
    · rw [h]; field_simp; ring
    · rw [h']; field_simp; ring
  · rcases by' with h | ⟨h, h'⟩
    · rw [xU, xV, h]; field_simp; ring
    · rw [h, h', xU, xV, yU, zU]
      field_simp
      ring
  · rw [hy]; rcases by' with h | ⟨h, h'⟩
    · rw [xU, xV, h]; field_simp; ring
    · rw [h, xU, xV]; field_simp; ring
  · rw [hz]; rcases by' with h | ⟨h, h'⟩
    · rw [xU, xV, h]; field_simp; ring
    · rw [h', xU, xV]; field_simp; ring

/-- The two relations that determine the inner transverse velocity and field. -/
theorem inner_rel {σ τ g vl vr bl br : ℝ} (hσ : 0 < σ) (hτ : 0 < τ) (hg : g * g = 1) :
    σ * ((σ * vl + τ * vr + g * (br - bl)) / (σ + τ) - vl) = g * ((σ * br + τ * bl + g * σ * τ * (vr - vl)) / (σ + τ) - bl) ∧
    τ * ((σ * vl + τ * vr + g * (br - bl)) / (σ + τ) - vr) = -g * ((σ * br + τ * bl + g * σ * τ * (vr - vl)) / (σ + τ) - br) := by
  have h : σ + τ ≠ 0 := (add_pos hσ hτ).ne'
  constructor
  · field_simp; linear_combination (-(σ * τ * (vr - vl))) * hg
  · field_simp; linear_combination (σ * τ * (vr - vl)) * hg

theorem hlldDouble_double (hm : p.mhd = true) {UL UR : Cons1D ns} {sM pt vbl vbr s0 s4 : ℝ}
    (hL : Star p Wl Ul Bx s0 sM pt UL vbl) (hR : Star p Wr Ur Bx s4 sM pt UR vbr) :
    ∃ ULL URR, hlldDouble p UL UR vbl vbr (Real.sqrt UL.d) (Real.sqrt UR.d) Bx sM pt = some (ULL, URR) ∧
      Double Bx sM pt UL UR ULL URR (sM - |Bx| / Real.sqrt UL.d) (sM + |Bx| / Real.sqrt UR.d) := by
  have e0 : 1/2 * (Bx * Bx) = Bx ^ 2 / 2 := by ring
  by_cases hb : 1/2 * (Bx * Bx) < smallNumber * pt
  · refine ⟨UL, UR, by unfold hlldDouble; rw [if_pos hb], fun _ => ⟨rfl, rfl⟩, rfl, rfl, RH.refl _ _ _, RH.refl _ _ _, ?_⟩
    rw [← e0]
    rintro (rfl | h)
    · have h1 := hL.pos
      have h2 := hR.pos
      constructor
      · show UR.Mx - UL.Mx = _
        rw [hL.mx, hR.mx]; ring
      · show UR.Mx ^ 2 / UR.d + pt - 0 ^ 2 - (UL.Mx ^ 2 / UL.d + pt - 0 ^ 2) = sM * (UR.Mx - UL.Mx)
        rw [hL.mx, hR.mx]; field_simp; ring
      · show UR.Mx * UR.My / UR.d - 0 * UR.By - (UL.Mx * UL.My / UL.d - 0 * UL.By) = sM * (UR.My - UL.My)
        rw [hL.mx, hR.mx]; field_simp; ring
      · show UR.Mx * UR.Mz / UR.d - 0 * UR.Bz - (UL.Mx * UL.Mz / UL.d - 0 * UL.Bz) = sM * (UR.Mz - UL.Mz)
        rw [hL.mx, hR.mx]; field_simp; ring
      · show (UR.E + pt) * (UR.Mx / UR.d) - 0 * _ - ((UL.E + pt) * (UL.Mx / UL.d) - 0 * _) = sM * (UR.E - UL.E)
        rw [hL.mx, hR.mx, zero_mul, zero_mul]; field_simp; ring
      · show UR.By * (UR.Mx / UR.d) - 0 * _ - (UL.By * (UL.Mx / UL.d) - 0 * _) = sM * (UR.By - UL.By)
        rw [hL.mx, hR.mx, zero_mul, zero_mul]; field_simp; ring
      · show UR.Bz * (UR.Mx / UR.d) - 0 * _ - (UL.Bz * (UL.Mx / UL.d) - 0 * _) = sM * (UR.Bz - UL.Bz)
        rw [hL.mx, hR.mx, zero_mul, zero_mul]; field_simp; ring
    · exact absurd hb h
  · have h1 := hL.pos
    have h2 := hR.pos
    refine ⟨_, _, hlldDouble_eq UL UR vbl vbr hm h1 h2 hb, fun h => absurd (e0 ▸ h) hb, rfl, rfl, ?_, ?_, fun _ => ?_⟩
    all_goals
      have hl0 : 0 < Real.sqrt UL.d := Real.sqrt_pos.mpr h1
      have hr0 : 0 < Real.sqrt UR.d := Real.sqrt_pos.mpr h2
      have el : UL.d = Real.sqrt UL.d * Real.sqrt UL.d := (Real.mul_self_sqrt h1.le).symm
      have er : UR.d = Real.sqrt UR.d * Real.sqrt UR.d := (Real.mul_self_sqrt h2.le).symm
      have hs := bsig_sq Bx
      have ry := inner_rel (vl := UL.My / UL.d) (vr := UR.My / UR.d) (bl := UL.By) (br := UR.By) hl0 hr0 hs
      have rz := inner_rel (vl := UL.Mz / UL.d) (vr := UR.Mz / UR.d) (bl := UL.Bz) (br := UR.Bz) hl0 hr0 hs
      have ha := bsig_abs Bx
    · refine alfven hl0 el hs ha hL.mx rfl rfl ?_ ?_ ?_
      · dsimp only; rw [mul_div_cancel_left₀ _ h1.ne']; exact ry.1
      · dsimp only; rw [mul_div_cancel_left₀ _ h1.ne']; exact rz.1
      · dsimp only; rw [hL.vb]; field_simp; ring
    · rw [show sM + |Bx| / Real.sqrt UR.d = sM - (-|Bx|) / Real.sqrt UR.d by ring]
      refine alfven (g := -bsig Bx) hr0 er (by rw [neg_mul_neg]; exact hs) (by rw [neg_mul_neg]; exact ha) hR.mx rfl rfl ?_ ?_ ?_
      · dsimp only; rw [mul_div_cancel_left₀ _ h2.ne']; exact ry.2
      · dsimp only; rw [mul_div_cancel_left₀ _ h2.ne']; exact rz.2
      · dsimp only; rw [hR.vb]; field_simp; ring
    · refine contactRH h1 h2 hL.mx hR.mx ?_ ?_ (Or.inr ⟨rfl, rfl⟩)
      · dsimp only; rw [mul_div_cancel_left₀ _ h1.ne', mul_div_cancel_left₀ _ h2.ne']
      · dsimp only; rw [mul_div_cancel_left₀ _ h1.ne', mul_div_cancel_left₀ _ h2.ne']

end
end Athena.Hydro
