import Verif.Recon.MirrorLr
import Verif.Recon.MhdEsys

/-!
# C67: the eigensystems `esys_prim` and mirrored states
-/

namespace Athena.Recon
noncomputable section
open Athena.Hydro
variable {ns : ℕ}

/-- Signs under a reversal of x, y, z: `d`, `Vx`, `Vy`, `Vz`. -/
def sX0 : Fin 4 → ℝ := ![1, -1, 1, 1]
def sY0 : Fin 4 → ℝ := ![1, 1, -1, 1]
def sZ0 : Fin 4 → ℝ := ![1, 1, 1, -1]
/-- `d`, `Vx`, `Vy`, `Vz`, `P`. -/
def sX1 : Fin 5 → ℝ := ![1, -1, 1, 1, 1]
def sY1 : Fin 5 → ℝ := ![1, 1, -1, 1, 1]
def sZ1 : Fin 5 → ℝ := ![1, 1, 1, -1, 1]
/-- `d`, `Vx`, `Vy`, `Vz`, `By`, `Bz`. -/
def sX2 : Fin 6 → ℝ := ![1, -1, 1, 1, 1, 1]
def sY2 : Fin 6 → ℝ := ![1, 1, -1, 1, -1, 1]
def sZ2 : Fin 6 → ℝ := ![1, 1, 1, -1, 1, -1]
/-- `d`, `Vx`, `Vy`, `Vz`, `P`, `By`, `Bz`. -/
def sX3 : Fin 7 → ℝ := ![1, -1, 1, 1, 1, 1, 1]
def sY3 : Fin 7 → ℝ := ![1, 1, -1, 1, 1, -1, 1]
def sZ3 : Fin 7 → ℝ := ![1, 1, 1, -1, 1, 1, -1]

theorem signs0 : Signs (k := 0) sX0 ∧ Signs (k := 0) sY0 ∧ Signs (k := 0) sZ0 := by
  refine ⟨fun n => ?_, fun n => ?_, fun n => ?_⟩ <;> rcases four n with rfl | rfl | rfl | rfl <;> simp [sX0, sY0, sZ0]
theorem signs1 : Signs (k := 1) sX1 ∧ Signs (k := 1) sY1 ∧ Signs (k := 1) sZ1 := by
  refine ⟨fun n => ?_, fun n => ?_, fun n => ?_⟩ <;> rcases five n with rfl | rfl | rfl | rfl | rfl <;> simp [sX1, sY1, sZ1]
theorem signs2 : Signs (k := 2) sX2 ∧ Signs (k := 2) sY2 ∧ Signs (k := 2) sZ2 := by
  refine ⟨fun n => ?_, fun n => ?_, fun n => ?_⟩ <;> rcases six n with rfl | rfl | rfl | rfl | rfl | rfl <;> simp [sX2, sY2, sZ2]
theorem signs3 : Signs (k := 3) sX3 ∧ Signs (k := 3) sY3 ∧ Signs (k := 3) sZ3 := by
  refine ⟨fun n => ?_, fun n => ?_, fun n => ?_⟩ <;> rcases seven n with rfl | rfl | rfl | rfl | rfl | rfl | rfl <;> simp [sX3, sY3, sZ3]

/-! ## Hydrodynamics -/

theorem isoHyd_X (c : ℝ) : RevSym (ns := ns) (k := 0) sX0 (fun W _ => esysIsoHyd ns c W) where
  img W b := by
    refine ⟨Equiv.swap 0 3, ![1, 1, 1, 1], fun n => ?_, fun n => ?_, fun n m => ?_, fun n m => ?_⟩
    · rcases four n with rfl | rfl | rfl | rfl <;> simp
    · rcases four n with rfl | rfl | rfl | rfl <;> simp [esysIsoHyd, flipV, sg, sX0, Equiv.swap_apply_def] <;> ring
    · rcases four n with rfl | rfl | rfl | rfl <;> rcases four m with rfl | rfl | rfl | rfl <;>
        simp [esysIsoHyd, flipV, sg, sX0, Equiv.swap_apply_def] <;> ring
    · rcases four n with rfl | rfl | rfl | rfl <;> rcases four m with rfl | rfl | rfl | rfl <;>
        simp [esysIsoHyd, flipV, sg, sX0, Equiv.swap_apply_def] <;> ring
  lo W b := by
    change (-1) * W (Sum.inl 1) - c = -(W (Sum.inl 1) + c)
    ring
  hi W b := by
    change (-1) * W (Sum.inl 1) + c = -(W (Sum.inl 1) - c)
    ring

theorem isoHyd_Y (c : ℝ) : FlipSym (ns := ns) (k := 0) sY0 (fun W _ => esysIsoHyd ns c W) where
  img W b := by
    refine ⟨Equiv.refl _, ![1, -1, 1, 1], fun n => ?_, fun n => ?_, fun n m => ?_, fun n m => ?_⟩
    · rcases four n with rfl | rfl | rfl | rfl <;> simp
    · rcases four n with rfl | rfl | rfl | rfl <;> simp [esysIsoHyd, flipV, sg, sY0] <;> ring
    · rcases four n with rfl | rfl | rfl | rfl <;> rcases four m with rfl | rfl | rfl | rfl <;>
        simp [esysIsoHyd, flipV, sg, sY0] <;> ring
    · rcases four n with rfl | rfl | rfl | rfl <;> rcases four m with rfl | rfl | rfl | rfl <;>
        simp [esysIsoHyd, flipV, sg, sY0] <;> ring
  lo W b := by
    change 1 * W (Sum.inl 1) - c = W (Sum.inl 1) - c
    simp only [one_mul]
  hi W b := by
    change 1 * W (Sum.inl 1) + c = W (Sum.inl 1) + c
    simp only [one_mul]

theorem isoHyd_Z (c : ℝ) : FlipSym (ns := ns) (k := 0) sZ0 (fun W _ => esysIsoHyd ns c W) where
  img W b := by
    refine ⟨Equiv.refl _, ![1, 1, -1, 1], fun n => ?_, fun n => ?_, fun n m => ?_, fun n m => ?_⟩
    · rcases four n with rfl | rfl | rfl | rfl <;> simp
    · rcases four n with rfl | rfl | rfl | rfl <;> simp [esysIsoHyd, flipV, sg, sZ0] <;> ring
    · rcases four n with rfl | rfl | rfl | rfl <;> rcases four m with rfl | rfl | rfl | rfl <;>
        simp [esysIsoHyd, flipV, sg, sZ0] <;> ring
    · rcases four n with rfl | rfl | rfl | rfl <;> rcases four m with rfl | rfl | rfl | rfl <;>
        simp [esysIsoHyd, flipV, sg, sZ0] <;> ring
  lo W b := by
    change 1 * W (Sum.inl 1) - c = W (Sum.inl 1) - c
    simp only [one_mul]
  hi W b := by
    change 1 * W (Sum.inl 1) + c = W (Sum.inl 1) + c
    simp only [one_mul]

theorem adbHyd_X (c : ℝ) : RevSym (ns := ns) (k := 1) sX1 (fun W _ => esysAdbHyd ns c W) where
  img W b := by
    refine ⟨Equiv.swap 0 4, ![1, 1, 1, 1, 1], fun n => ?_, fun n => ?_, fun n m => ?_, fun n m => ?_⟩
    · rcases five n with rfl | rfl | rfl | rfl | rfl <;> simp
    · rcases five n with rfl | rfl | rfl | rfl | rfl <;> simp [esysAdbHyd, flipV, sg, sX1, Equiv.swap_apply_def] <;> ring
    · rcases five n with rfl | rfl | rfl | rfl | rfl <;> rcases five m with rfl | rfl | rfl | rfl | rfl <;>
        simp [esysAdbHyd, flipV, sg, sX1, Equiv.swap_apply_def] <;> ring
    · rcases five n with rfl | rfl | rfl | rfl | rfl <;> rcases five m with rfl | rfl | rfl | rfl | rfl <;>
        simp [esysAdbHyd, flipV, sg, sX1, Equiv.swap_apply_def] <;> ring
  lo W b := by
    change (-1) * W (Sum.inl 1) - Real.sqrt (c * (1 * W (Sum.inl 4)) / (1 * W (Sum.inl 0))) = -(W (Sum.inl 1) + Real.sqrt (c * W (Sum.inl 4) / W (Sum.inl 0)))
    simp only [one_mul]; ring
  hi W b := by
    change (-1) * W (Sum.inl 1) + Real.sqrt (c * (1 * W (Sum.inl 4)) / (1 * W (Sum.inl 0))) = -(W (Sum.inl 1) - Real.sqrt (c * W (Sum.inl 4) / W (Sum.inl 0)))
    simp only [one_mul]; ring

theorem adbHyd_Y (c : ℝ) : FlipSym (ns := ns) (k := 1) sY1 (fun W _ => esysAdbHyd ns c W) where
  img W b := by
    refine ⟨Equiv.refl _, ![1, 1, -1, 1, 1], fun n => ?_, fun n => ?_, fun n m => ?_, fun n m => ?_⟩
    · rcases five n with rfl | rfl | rfl | rfl | rfl <;> simp
    · rcases five n with rfl | rfl | rfl | rfl | rfl <;> simp [esysAdbHyd, flipV, sg, sY1] <;> ring
    · rcases five n with rfl | rfl | rfl | rfl | rfl <;> rcases five m with rfl | rfl | rfl | rfl | rfl <;>
        simp [esysAdbHyd, flipV, sg, sY1] <;> ring
    · rcases five n with rfl | rfl | rfl | rfl | rfl <;> rcases five m with rfl | rfl | rfl | rfl | rfl <;>
        simp [esysAdbHyd, flipV, sg, sY1] <;> ring
  lo W b := by
    change 1 * W (Sum.inl 1) - Real.sqrt (c * (1 * W (Sum.inl 4)) / (1 * W (Sum.inl 0))) = W (Sum.inl 1) - Real.sqrt (c * W (Sum.inl 4) / W (Sum.inl 0))
    simp only [one_mul]
  hi W b := by
    change 1 * W (Sum.inl 1) + Real.sqrt (c * (1 * W (Sum.inl 4)) / (1 * W (Sum.inl 0))) = W (Sum.inl 1) + Real.sqrt (c * W (Sum.inl 4) / W (Sum.inl 0))
    simp only [one_mul]

theorem adbHyd_Z (c : ℝ) : FlipSym (ns := ns) (k := 1) sZ1 (fun W _ => esysAdbHyd ns c W) where
  img W b := by
    refine ⟨Equiv.refl _, ![1, 1, 1, -1, 1], fun n => ?_, fun n => ?_, fun n m => ?_, fun n m => ?_⟩
    · rcases five n with rfl | rfl | rfl | rfl | rfl <;> simp
    · rcases five n with rfl | rfl | rfl | rfl | rfl <;> simp [esysAdbHyd, flipV, sg, sZ1] <;> ring
    · rcases five n with rfl | rfl | rfl | rfl | rfl <;> rcases five m with rfl | rfl | rfl | rfl | rfl <;>
        simp [esysAdbHyd, flipV, sg, sZ1] <;> ring
    · rcases five n with rfl | rfl | rfl | rfl | rfl <;> rcases five m with rfl | rfl | rfl | rfl | rfl <;>
        simp [esysAdbHyd, flipV, sg, sZ1] <;> ring
  lo W b := by
    change 1 * W (Sum.inl 1) - Real.sqrt (c * (1 * W (Sum.inl 4)) / (1 * W (Sum.inl 0))) = W (Sum.inl 1) - Real.sqrt (c * W (Sum.inl 4) / W (Sum.inl 0))
    simp only [one_mul]
  hi W b := by
    change 1 * W (Sum.inl 1) + Real.sqrt (c * (1 * W (Sum.inl 4)) / (1 * W (Sum.inl 0))) = W (Sum.inl 1) + Real.sqrt (c * W (Sum.inl 4) / W (Sum.inl 0))
    simp only [one_mul]

/-! ## MHD -/

theorem parP_X (iso : Bool) (d b1 b2 b3 T : ℝ) : parP iso d (-b1) b2 b3 T = (parP iso d b1 b2 b3 T).map fun m => { m with s := sgn (-b1) } := by
  unfold parP
  simp only [Option.bind_eq_bind, Option.map_bind, neg_mul_neg, Option.pure_def, Option.map_some, Function.comp_def]

theorem betP_neg2 {b2 b3 bt : ℝ} : betP (-b2) b3 bt = (betP b2 b3 bt).map fun t => if bt = 0 then t else (-t.1, t.2) := by
  unfold betP
  split_ifs with h
  · rfl
  · simp [fdiv, h, neg_div]

theorem betP_neg3 {b2 b3 bt : ℝ} : betP b2 (-b3) bt = (betP b2 b3 bt).map fun t => if bt = 0 then t else (t.1, -t.2) := by
  unfold betP
  split_ifs with h
  · rfl
  · simp [fdiv, h, neg_div]

theorem sqrt_bt {b2 b3 : ℝ} : Real.sqrt (b2 * b2 + b3 * b3) = 0 ↔ b2 = 0 ∧ b3 = 0 := by
  rw [Real.sqrt_eq_zero (by nlinarith [mul_self_nonneg b2, mul_self_nonneg b3])]
  constructor
  · intro h
    constructor <;> nlinarith [mul_self_nonneg b2, mul_self_nonneg b3, mul_self_eq_zero.1 (by nlinarith [mul_self_nonneg b2, mul_self_nonneg b3] : b2 * b2 = 0),
      mul_self_eq_zero.1 (by nlinarith [mul_self_nonneg b2, mul_self_nonneg b3] : b3 * b3 = 0)]
  · rintro ⟨rfl, rfl⟩; ring

theorem parP_Y (iso : Bool) (d b1 b2 b3 T : ℝ) : parP iso d b1 (-b2) b3 T =
    (parP iso d b1 b2 b3 T).map fun m => { m with t2 := if b2 = 0 ∧ b3 = 0 then m.t2 else -m.t2 } := by
  unfold parP
  have hB : ¬ b2 * b2 + b3 * b3 < 0 := by nlinarith [mul_self_nonneg b2, mul_self_nonneg b3]
  simp only [Option.bind_eq_bind, Option.map_bind, neg_mul_neg, Option.pure_def, Option.map_some, Function.comp_def, betP_neg2, fsqrt, if_neg hB,
    Option.bind_some, sqrt_bt, Option.bind_map]
  by_cases h : b2 = 0 ∧ b3 = 0
  · simp only [if_pos h]
  · simp only [if_neg h]

theorem parP_Z (iso : Bool) (d b1 b2 b3 T : ℝ) : parP iso d b1 b2 (-b3) T =
    (parP iso d b1 b2 b3 T).map fun m => { m with t3 := if b2 = 0 ∧ b3 = 0 then m.t3 else -m.t3 } := by
  unfold parP
  have hB : ¬ b2 * b2 + b3 * b3 < 0 := by nlinarith [mul_self_nonneg b2, mul_self_nonneg b3]
  simp only [Option.bind_eq_bind, Option.map_bind, neg_mul_neg, Option.pure_def, Option.map_some, Function.comp_def, betP_neg3, fsqrt, if_neg hB,
    Option.bind_some, sqrt_bt, Option.bind_map]
  by_cases h : b2 = 0 ∧ b3 = 0
  · simp only [if_pos h]
  · simp only [if_neg h]

/-- Without a transverse field one of the two factors is zero. -/
theorem parP_nobt (iso : Bool) {d b1 T : ℝ} (hd : 0 < d) (hT : 0 < T) {m : MPar} (h : parP iso d b1 0 0 T = some m) :
    m.t2 = 1 ∧ m.t3 = 0 ∧ (m.af = 0 ∨ m.as = 0) := by
  have hV : 0 ≤ b1 * b1 * (1 / d) := mul_nonneg (mul_self_nonneg _) (by positivity)
  unfold parP at h
  simp only [Option.bind_eq_bind, fdiv_pos hd, Option.bind_some, mul_zero, zero_mul, add_zero, Real.sqrt_zero, betP, fsqrt, lt_irrefl, if_false,
    if_true] at h
  generalize b1 * b1 * (1 / d) = V at *
  obtain ⟨D, hD, h⟩ := Option.bind_eq_some_iff.1 h
  obtain ⟨cf, hcf, h⟩ := Option.bind_eq_some_iff.1 h
  obtain ⟨S, hS, h⟩ := Option.bind_eq_some_iff.1 h
  obtain ⟨cs, hcs, h⟩ := Option.bind_eq_some_iff.1 h
  obtain ⟨⟨af, as⟩, ha, h⟩ := Option.bind_eq_some_iff.1 h
  obtain ⟨sd, hsd, h⟩ := Option.bind_eq_some_iff.1 h
  obtain ⟨vax, hvax, h⟩ := Option.bind_eq_some_iff.1 h
  obtain ⟨nm, hnm, h⟩ := Option.bind_eq_some_iff.1 h
  cases h
  refine ⟨rfl, rfl, ?_⟩
  dsimp only
  rw [if_neg (by nlinarith [mul_self_nonneg (V - T)])] at hD
  have hD2 : D = |V - T| := by cases hD; exact Real.sqrt_mul_self_eq_abs _
  have hF : 0 < 1 / 2 * (V + T + D) := by have := abs_nonneg (V - T); rw [hD2]; linarith
  rw [fdiv_pos hF] at hS
  have hS' : S = T * V / (1 / 2 * (V + T + D)) := by cases hS; rfl
  have hFS : (1 / 2 * (V + T + D)) * S = T * V := by rw [hS', mul_div_cancel₀ _ hF.ne']
  have hsq : D * D = (V - T) * (V - T) := by rw [hD2]; exact abs_mul_abs_self _
  have hsum : (1 / 2 * (V + T + D)) + S = V + T := by
    have : (1 / 2 * (V + T + D)) * ((1 / 2 * (V + T + D)) + S) = (1 / 2 * (V + T + D)) * (V + T) := by
      rw [mul_add, hFS]; nlinarith
    exact mul_left_cancel₀ hF.ne' this
  generalize 1 / 2 * (V + T + D) = F at *
  unfold alphaP at ha
  split_ifs at ha with h1 h2 h3 h4
  all_goals first
    | (cases ha; simp; done)
    | (exfalso; push Not at *; nlinarith [mul_pos (by linarith : 0 < T - S) (by linarith : 0 < F - T)])

theorem esysP7_of {d v1 ra b1 b2 b3 : ℝ} (hd : 0 < d) (hr : 0 < ra) {m : MPar} (hm : parP false d b1 b2 b3 (ra * (1 / d)) = some m) :
    esysP7 d v1 ra b1 b2 b3 = some (eig7 m d v1 (Real.sqrt (ra * (1 / d))) (1 / m.sd)) := by
  have hT : 0 < ra * (1 / d) := by positivity
  have ha := Real.sqrt_pos.mpr hT
  have hs := Real.sq_sqrt hT.le
  obtain ⟨m', bt, hm', hr, hdi⟩ := parP_spec false d b1 b2 b3 (Real.sqrt (ra * (1 / d))) (ra * (1 / d)) hd ha hs.symm
  obtain rfl : m' = m := Option.some_injective _ (hm'.symm.trans hm)
  unfold esysP7
  refine Option.bind_eq_some_iff.mpr ⟨_, Option.bind_eq_some_iff.mpr ⟨_, fdiv_pos hd, hm⟩, ?_⟩
  dsimp only
  rw [hdi]
  refine Option.bind_eq_some_iff.mpr ⟨_, fsqrt_nonneg hT.le, ?_⟩
  refine Option.bind_eq_some_iff.mpr ⟨_, fdiv_pos hr.sd, ?_⟩
  refine Option.bind_eq_some_iff.mpr ⟨_, fdiv_pos hr.sd, ?_⟩
  refine Option.bind_eq_some_iff.mpr ⟨_, fdiv_pos hT, ?_⟩
  have e : -1 / (ra * (1 / d)) = -2 * m'.nm := by
    have := hr.nm
    rw [hs] at this
    rw [div_eq_iff hT.ne']; linarith
  rw [div_eq_mul_one_div (-(1/2) * m'.t3 * m'.s), div_eq_mul_one_div (1/2 * m'.t2 * m'.s), e]
  unfold eig7
  rw [hdi, hs]
  rfl

theorem esysP6_of {c d v1 b1 b2 b3 : ℝ} (hd : 0 < d) (hc : c ≠ 0) {m : MPar} (hm : parP true d b1 b2 b3 (c * c) = some m) :
    esysP6 c d v1 b1 b2 b3 = some (eig6 m d v1 c (1 / m.sd)) := by
  obtain ⟨m', bt, hm', hr, -⟩ := parP_spec true d b1 b2 b3 |c| (c * c) hd (abs_pos.mpr hc) (by rw [sq_abs]; ring)
  obtain rfl : m' = m := Option.some_injective _ (hm'.symm.trans hm)
  unfold esysP6
  refine Option.bind_eq_some_iff.mpr ⟨_, hm, ?_⟩
  dsimp only
  refine Option.bind_eq_some_iff.mpr ⟨_, fdiv_pos hr.sd, ?_⟩
  refine Option.bind_eq_some_iff.mpr ⟨_, fdiv_pos hr.sd, ?_⟩
  rw [div_eq_mul_one_div (-(1/2) * m'.t3 * m'.s), div_eq_mul_one_div (1/2 * m'.t2 * m'.s)]
  rfl

theorem fdiv_some {x y z : ℝ} (h : fdiv x y = some z) : y ≠ 0 ∧ z = x / y := by
  unfold fdiv at h
  split_ifs at h with hy
  exact ⟨hy, (Option.some_injective _ h).symm⟩

theorem fsqrt_some {x z : ℝ} (h : fsqrt x = some z) : 0 ≤ x := by
  unfold fsqrt at h
  split_ifs at h with hy
  exact not_lt.1 hy

theorem parP_pos {iso : Bool} {d b1 b2 b3 T : ℝ} {m : MPar} (h : parP iso d b1 b2 b3 T = some m) : 0 < d ∧ T ≠ 0 ∧ m.di = 1 / d := by
  unfold parP at h
  simp only [Option.bind_eq_bind] at h
  obtain ⟨di, hdi, h⟩ := Option.bind_eq_some_iff.1 h
  obtain ⟨D, hD, h⟩ := Option.bind_eq_some_iff.1 h
  obtain ⟨cf, hcf, h⟩ := Option.bind_eq_some_iff.1 h
  obtain ⟨S, hS, h⟩ := Option.bind_eq_some_iff.1 h
  obtain ⟨cs, hcs, h⟩ := Option.bind_eq_some_iff.1 h
  obtain ⟨bt, hbt, h⟩ := Option.bind_eq_some_iff.1 h
  obtain ⟨tt, htt, h⟩ := Option.bind_eq_some_iff.1 h
  obtain ⟨aa, haa, h⟩ := Option.bind_eq_some_iff.1 h
  obtain ⟨sd, hsd, h⟩ := Option.bind_eq_some_iff.1 h
  obtain ⟨vax, hvax, h⟩ := Option.bind_eq_some_iff.1 h
  obtain ⟨nm, hnm, h⟩ := Option.bind_eq_some_iff.1 h
  cases h
  exact ⟨lt_of_le_of_ne (fsqrt_some hsd) (fdiv_some hdi).1.symm, (fdiv_some hnm).1, (fdiv_some hdi).2⟩

theorem esysP7_none {d v1 ra b1 b2 b3 : ℝ} (h : ¬ (0 < d ∧ 0 < ra)) : esysP7 d v1 ra b1 b2 b3 = none := by
  rcases he : esysP7 d v1 ra b1 b2 b3 with _ | E
  · rfl
  · exfalso; apply h
    unfold esysP7 at he
    simp only [Option.bind_eq_bind] at he
    obtain ⟨m, hm, he⟩ := Option.bind_eq_some_iff.1 he
    obtain ⟨di, hdi, hm⟩ := Option.bind_eq_some_iff.1 hm
    obtain ⟨a, ha, he⟩ := Option.bind_eq_some_iff.1 he
    obtain ⟨hd, hT, hdm⟩ := parP_pos hm
    rw [(fdiv_some hdi).2] at hT
    have h2 := fsqrt_some ha
    rw [hdm] at h2
    refine ⟨hd, ?_⟩
    have : 0 < 1 / d := by positivity
    exact (pos_iff_pos_of_mul_pos (lt_of_le_of_ne h2 hT.symm)).2 this

theorem esysP6_none {c d v1 b1 b2 b3 : ℝ} (h : ¬ (0 < d ∧ c ≠ 0)) : esysP6 c d v1 b1 b2 b3 = none := by
  rcases he : esysP6 c d v1 b1 b2 b3 with _ | E
  · rfl
  · exfalso; apply h
    unfold esysP6 at he
    simp only [Option.bind_eq_bind] at he
    obtain ⟨m, hm, he⟩ := Option.bind_eq_some_iff.1 he
    obtain ⟨hd, hT, hdm⟩ := parP_pos hm
    exact ⟨hd, fun h0 => hT (by rw [h0, mul_zero])⟩

theorem img_zero {k : ℕ} (s : ℝ) (σ : Fin (k + 4) → ℝ) : Img s σ (⟨fun _ => 0, fun _ _ => 0, fun _ _ => 0⟩ : Eig k) ⟨fun _ => 0, fun _ _ => 0, fun _ _ => 0⟩ :=
  ⟨Equiv.refl _, fun _ => 1, fun _ => Or.inl rfl, fun _ => by simp, fun _ _ => by simp, fun _ _ => by simp⟩

theorem sgn_neg_ne {b : ℝ} (h : b ≠ 0) : sgn (-b) = -sgn b := by
  unfold sgn
  rcases lt_or_gt_of_ne h with h | h
  · rw [if_neg (by linarith), if_pos h]; norm_num
  · rw [if_pos (by linarith), if_neg (by linarith)]

theorem parP_b1 {iso : Bool} {d b2 b3 a T : ℝ} (hd : 0 < d) (ha : 0 < a) (hTa : T = a ^ 2) {m : MPar} (h : parP iso d 0 b2 b3 T = some m) :
    m.vax = 0 ∧ m.cs = 0 := by
  obtain ⟨m', bt, hm', hr, -⟩ := parP_spec iso d 0 b2 b3 a T hd ha hTa
  obtain rfl : m' = m := Option.some_injective _ (hm'.symm.trans h)
  have hs : m'.s ≠ 0 := fun h0 => by have := hr.s; rw [h0] at this; norm_num at this
  have hv : m'.vax = 0 := by
    have := hr.hb1
    rcases mul_eq_zero.1 this.symm with h | h
    · exact (mul_eq_zero.1 h).resolve_left hs
    · exact absurd h hr.sd.ne'
  exact ⟨hv, le_antisymm (hv ▸ hr.csvax) hr.cs⟩

set_option maxHeartbeats 1600000 in
theorem eig6_X (m : MPar) (d v1 a i : ℝ) : Img (-1) sX2 (eig6 m d v1 a i) (eig6 { m with s := -m.s } d (-v1) a i) := by
  obtain ⟨cf, cs, vax, t2, t3, af, as, sd, s, nm, di⟩ := m
  refine ⟨Equiv.swap 0 5 * Equiv.swap 1 4 * Equiv.swap 2 3, ![1, -1, 1, 1, -1, 1], fun n => ?_, fun n => ?_, fun n m => ?_, fun n m => ?_⟩
  · rcases six n with rfl | rfl | rfl | rfl | rfl | rfl <;> simp
  · rcases six n with rfl | rfl | rfl | rfl | rfl | rfl <;> simp [eig6, Equiv.swap_apply_def, v6_1, v6_2, v6_3, v6_4, v6_5] <;> first | done | ring
  · rcases six n with rfl | rfl | rfl | rfl | rfl | rfl <;> rcases six m with rfl | rfl | rfl | rfl | rfl | rfl <;>
      simp [eig6, sX2, Equiv.swap_apply_def, v6_1, v6_2, v6_3, v6_4, v6_5] <;> first | done | ring
  · rcases six n with rfl | rfl | rfl | rfl | rfl | rfl <;> rcases six m with rfl | rfl | rfl | rfl | rfl | rfl <;>
      simp [eig6, sX2, Equiv.swap_apply_def, v6_1, v6_2, v6_3, v6_4, v6_5] <;> first | done | ring

set_option maxHeartbeats 1600000 in
theorem eig6_X0 (m : MPar) (d v1 a i : ℝ) (h : m.vax = 0 ∧ m.cs = 0) : Img (-1) sX2 (eig6 m d v1 a i) (eig6 m d (-v1) a i) := by
  obtain ⟨cf, cs, vax, t2, t3, af, as, sd, s, nm, di⟩ := m
  obtain ⟨rfl, rfl⟩ : vax = 0 ∧ cs = 0 := h
  refine ⟨Equiv.swap 0 5, ![1, 1, 1, 1, 1, 1], fun n => ?_, fun n => ?_, fun n m => ?_, fun n m => ?_⟩
  · rcases six n with rfl | rfl | rfl | rfl | rfl | rfl <;> simp
  · rcases six n with rfl | rfl | rfl | rfl | rfl | rfl <;> simp [eig6, Equiv.swap_apply_def, v6_1, v6_2, v6_3, v6_4, v6_5] <;> first | done | ring
  · rcases six n with rfl | rfl | rfl | rfl | rfl | rfl <;> rcases six m with rfl | rfl | rfl | rfl | rfl | rfl <;>
      simp [eig6, sX2, Equiv.swap_apply_def, v6_1, v6_2, v6_3, v6_4, v6_5] <;> first | done | ring
  · rcases six n with rfl | rfl | rfl | rfl | rfl | rfl <;> rcases six m with rfl | rfl | rfl | rfl | rfl | rfl <;>
      simp [eig6, sX2, Equiv.swap_apply_def, v6_1, v6_2, v6_3, v6_4, v6_5] <;> first | done | ring

set_option maxHeartbeats 1600000 in
theorem eig6_Y (m : MPar) (d v1 a i : ℝ) : Img (1) sY2 (eig6 m d v1 a i) (eig6 { m with t2 := -m.t2 } d v1 a i) := by
  obtain ⟨cf, cs, vax, t2, t3, af, as, sd, s, nm, di⟩ := m
  refine ⟨Equiv.refl _, ![1, -1, 1, 1, -1, 1], fun n => ?_, fun n => ?_, fun n m => ?_, fun n m => ?_⟩
  · rcases six n with rfl | rfl | rfl | rfl | rfl | rfl <;> simp
  · rcases six n with rfl | rfl | rfl | rfl | rfl | rfl <;> simp [eig6, v6_1, v6_2, v6_3, v6_4, v6_5] <;> first | done | ring
  · rcases six n with rfl | rfl | rfl | rfl | rfl | rfl <;> rcases six m with rfl | rfl | rfl | rfl | rfl | rfl <;>
      simp [eig6, sY2, v6_1, v6_2, v6_3, v6_4, v6_5] <;> first | done | ring
  · rcases six n with rfl | rfl | rfl | rfl | rfl | rfl <;> rcases six m with rfl | rfl | rfl | rfl | rfl | rfl <;>
      simp [eig6, sY2, v6_1, v6_2, v6_3, v6_4, v6_5] <;> first | done | ring

set_option maxHeartbeats 1600000 in
theorem eig6_Yf (m : MPar) (d v1 a i : ℝ) (h : m.t2 = 1 ∧ m.t3 = 0 ∧ m.af = 0) : Img (1) sY2 (eig6 m d v1 a i) (eig6 m d v1 a i) := by
  obtain ⟨cf, cs, vax, t2, t3, af, as, sd, s, nm, di⟩ := m
  obtain ⟨rfl, rfl, rfl⟩ : t2 = 1 ∧ t3 = 0 ∧ af = 0 := h
  refine ⟨Equiv.refl _, ![-1, 1, 1, 1, 1, -1], fun n => ?_, fun n => ?_, fun n m => ?_, fun n m => ?_⟩
  · rcases six n with rfl | rfl | rfl | rfl | rfl | rfl <;> simp
  · rcases six n with rfl | rfl | rfl | rfl | rfl | rfl <;> simp [eig6, v6_1, v6_2, v6_3, v6_4, v6_5] <;> first | done | ring
  · rcases six n with rfl | rfl | rfl | rfl | rfl | rfl <;> rcases six m with rfl | rfl | rfl | rfl | rfl | rfl <;>
      simp [eig6, sY2, v6_1, v6_2, v6_3, v6_4, v6_5] <;> first | done | ring
  · rcases six n with rfl | rfl | rfl | rfl | rfl | rfl <;> rcases six m with rfl | rfl | rfl | rfl | rfl | rfl <;>
      simp [eig6, sY2, v6_1, v6_2, v6_3, v6_4, v6_5] <;> first | done | ring

set_option maxHeartbeats 1600000 in
theorem eig6_Ys (m : MPar) (d v1 a i : ℝ) (h : m.t2 = 1 ∧ m.t3 = 0 ∧ m.as = 0) : Img (1) sY2 (eig6 m d v1 a i) (eig6 m d v1 a i) := by
  obtain ⟨cf, cs, vax, t2, t3, af, as, sd, s, nm, di⟩ := m
  obtain ⟨rfl, rfl, rfl⟩ : t2 = 1 ∧ t3 = 0 ∧ as = 0 := h
  refine ⟨Equiv.refl _, ![1, 1, -1, -1, 1, 1], fun n => ?_, fun n => ?_, fun n m => ?_, fun n m => ?_⟩
  · rcases six n with rfl | rfl | rfl | rfl | rfl | rfl <;> simp
  · rcases six n with rfl | rfl | rfl | rfl | rfl | rfl <;> simp [eig6, v6_1, v6_2, v6_3, v6_4, v6_5] <;> first | done | ring
  · rcases six n with rfl | rfl | rfl | rfl | rfl | rfl <;> rcases six m with rfl | rfl | rfl | rfl | rfl | rfl <;>
      simp [eig6, sY2, v6_1, v6_2, v6_3, v6_4, v6_5] <;> first | done | ring
  · rcases six n with rfl | rfl | rfl | rfl | rfl | rfl <;> rcases six m with rfl | rfl | rfl | rfl | rfl | rfl <;>
      simp [eig6, sY2, v6_1, v6_2, v6_3, v6_4, v6_5] <;> first | done | ring

set_option maxHeartbeats 1600000 in
theorem eig6_Z (m : MPar) (d v1 a i : ℝ) : Img (1) sZ2 (eig6 m d v1 a i) (eig6 { m with t3 := -m.t3 } d v1 a i) := by
  obtain ⟨cf, cs, vax, t2, t3, af, as, sd, s, nm, di⟩ := m
  refine ⟨Equiv.refl _, ![1, -1, 1, 1, -1, 1], fun n => ?_, fun n => ?_, fun n m => ?_, fun n m => ?_⟩
  · rcases six n with rfl | rfl | rfl | rfl | rfl | rfl <;> simp
  · rcases six n with rfl | rfl | rfl | rfl | rfl | rfl <;> simp [eig6, v6_1, v6_2, v6_3, v6_4, v6_5] <;> first | done | ring
  · rcases six n with rfl | rfl | rfl | rfl | rfl | rfl <;> rcases six m with rfl | rfl | rfl | rfl | rfl | rfl <;>
      simp [eig6, sZ2, v6_1, v6_2, v6_3, v6_4, v6_5] <;> first | done | ring
  · rcases six n with rfl | rfl | rfl | rfl | rfl | rfl <;> rcases six m with rfl | rfl | rfl | rfl | rfl | rfl <;>
      simp [eig6, sZ2, v6_1, v6_2, v6_3, v6_4, v6_5] <;> first | done | ring

set_option maxHeartbeats 1600000 in
theorem eig6_Z0 (m : MPar) (d v1 a i : ℝ) (h : m.t2 = 1 ∧ m.t3 = 0) : Img (1) sZ2 (eig6 m d v1 a i) (eig6 m d v1 a i) := by
  obtain ⟨cf, cs, vax, t2, t3, af, as, sd, s, nm, di⟩ := m
  obtain ⟨rfl, rfl⟩ : t2 = 1 ∧ t3 = 0 := h
  refine ⟨Equiv.refl _, ![1, -1, 1, 1, -1, 1], fun n => ?_, fun n => ?_, fun n m => ?_, fun n m => ?_⟩
  · rcases six n with rfl | rfl | rfl | rfl | rfl | rfl <;> simp
  · rcases six n with rfl | rfl | rfl | rfl | rfl | rfl <;> simp [eig6, v6_1, v6_2, v6_3, v6_4, v6_5] <;> first | done | ring
  · rcases six n with rfl | rfl | rfl | rfl | rfl | rfl <;> rcases six m with rfl | rfl | rfl | rfl | rfl | rfl <;>
      simp [eig6, sZ2, v6_1, v6_2, v6_3, v6_4, v6_5] <;> first | done | ring
  · rcases six n with rfl | rfl | rfl | rfl | rfl | rfl <;> rcases six m with rfl | rfl | rfl | rfl | rfl | rfl <;>
      simp [eig6, sZ2, v6_1, v6_2, v6_3, v6_4, v6_5] <;> first | done | ring

set_option maxHeartbeats 1600000 in
theorem eig7_X (m : MPar) (d v1 a i : ℝ) : Img (-1) sX3 (eig7 m d v1 a i) (eig7 { m with s := -m.s } d (-v1) a i) := by
  obtain ⟨cf, cs, vax, t2, t3, af, as, sd, s, nm, di⟩ := m
  refine ⟨Equiv.swap 0 6 * Equiv.swap 1 5 * Equiv.swap 2 4, ![1, -1, 1, 1, 1, -1, 1], fun n => ?_, fun n => ?_, fun n m => ?_, fun n m => ?_⟩
  · rcases seven n with rfl | rfl | rfl | rfl | rfl | rfl | rfl <;> simp
  · rcases seven n with rfl | rfl | rfl | rfl | rfl | rfl | rfl <;> simp [eig7, Equiv.swap_apply_def, v7_1, v7_2, v7_3, v7_4, v7_5, v7_6] <;> first | done | ring
  · rcases seven n with rfl | rfl | rfl | rfl | rfl | rfl | rfl <;> rcases seven m with rfl | rfl | rfl | rfl | rfl | rfl | rfl <;>
      simp [eig7, sX3, Equiv.swap_apply_def, v7_1, v7_2, v7_3, v7_4, v7_5, v7_6] <;> first | done | ring
  · rcases seven n with rfl | rfl | rfl | rfl | rfl | rfl | rfl <;> rcases seven m with rfl | rfl | rfl | rfl | rfl | rfl | rfl <;>
      simp [eig7, sX3, Equiv.swap_apply_def, v7_1, v7_2, v7_3, v7_4, v7_5, v7_6] <;> first | done | ring

set_option maxHeartbeats 1600000 in
theorem eig7_X0 (m : MPar) (d v1 a i : ℝ) (h : m.vax = 0 ∧ m.cs = 0) : Img (-1) sX3 (eig7 m d v1 a i) (eig7 m d (-v1) a i) := by
  obtain ⟨cf, cs, vax, t2, t3, af, as, sd, s, nm, di⟩ := m
  obtain ⟨rfl, rfl⟩ : vax = 0 ∧ cs = 0 := h
  refine ⟨Equiv.swap 0 6, ![1, 1, 1, 1, 1, 1, 1], fun n => ?_, fun n => ?_, fun n m => ?_, fun n m => ?_⟩
  · rcases seven n with rfl | rfl | rfl | rfl | rfl | rfl | rfl <;> simp
  · rcases seven n with rfl | rfl | rfl | rfl | rfl | rfl | rfl <;> simp [eig7, Equiv.swap_apply_def, v7_1, v7_2, v7_3, v7_4, v7_5, v7_6] <;> first | done | ring
  · rcases seven n with rfl | rfl | rfl | rfl | rfl | rfl | rfl <;> rcases seven m with rfl | rfl | rfl | rfl | rfl | rfl | rfl <;>
      simp [eig7, sX3, Equiv.swap_apply_def, v7_1, v7_2, v7_3, v7_4, v7_5, v7_6] <;> first | done | ring
  · rcases seven n with rfl | rfl | rfl | rfl | rfl | rfl | rfl <;> rcases seven m with rfl | rfl | rfl | rfl | rfl | rfl | rfl <;>
      simp [eig7, sX3, Equiv.swap_apply_def, v7_1, v7_2, v7_3, v7_4, v7_5, v7_6] <;> first | done | ring

set_option maxHeartbeats 1600000 in
theorem eig7_Y (m : MPar) (d v1 a i : ℝ) : Img (1) sY3 (eig7 m d v1 a i) (eig7 { m with t2 := -m.t2 } d v1 a i) := by
  obtain ⟨cf, cs, vax, t2, t3, af, as, sd, s, nm, di⟩ := m
  refine ⟨Equiv.refl _, ![1, -1, 1, 1, 1, -1, 1], fun n => ?_, fun n => ?_, fun n m => ?_, fun n m => ?_⟩
  · rcases seven n with rfl | rfl | rfl | rfl | rfl | rfl | rfl <;> simp
  · rcases seven n with rfl | rfl | rfl | rfl | rfl | rfl | rfl <;> simp [eig7, v7_1, v7_2, v7_3, v7_4, v7_5, v7_6] <;> first | done | ring
  · rcases seven n with rfl | rfl | rfl | rfl | rfl | rfl | rfl <;> rcases seven m with rfl | rfl | rfl | rfl | rfl | rfl | rfl <;>
      simp [eig7, sY3, v7_1, v7_2, v7_3, v7_4, v7_5, v7_6] <;> first | done | ring
  · rcases seven n with rfl | rfl | rfl | rfl | rfl | rfl | rfl <;> rcases seven m with rfl | rfl | rfl | rfl | rfl | rfl | rfl <;>
      simp [eig7, sY3, v7_1, v7_2, v7_3, v7_4, v7_5, v7_6] <;> first | done | ring

set_option maxHeartbeats 1600000 in
theorem eig7_Yf (m : MPar) (d v1 a i : ℝ) (h : m.t2 = 1 ∧ m.t3 = 0 ∧ m.af = 0) : Img (1) sY3 (eig7 m d v1 a i) (eig7 m d v1 a i) := by
  obtain ⟨cf, cs, vax, t2, t3, af, as, sd, s, nm, di⟩ := m
  obtain ⟨rfl, rfl, rfl⟩ : t2 = 1 ∧ t3 = 0 ∧ af = 0 := h
  refine ⟨Equiv.refl _, ![-1, 1, 1, 1, 1, 1, -1], fun n => ?_, fun n => ?_, fun n m => ?_, fun n m => ?_⟩
  · rcases seven n with rfl | rfl | rfl | rfl | rfl | rfl | rfl <;> simp
  · rcases seven n with rfl | rfl | rfl | rfl | rfl | rfl | rfl <;> simp [eig7, v7_1, v7_2, v7_3, v7_4, v7_5, v7_6] <;> first | done | ring
  · rcases seven n with rfl | rfl | rfl | rfl | rfl | rfl | rfl <;> rcases seven m with rfl | rfl | rfl | rfl | rfl | rfl | rfl <;>
      simp [eig7, sY3, v7_1, v7_2, v7_3, v7_4, v7_5, v7_6] <;> first | done | ring
  · rcases seven n with rfl | rfl | rfl | rfl | rfl | rfl | rfl <;> rcases seven m with rfl | rfl | rfl | rfl | rfl | rfl | rfl <;>
      simp [eig7, sY3, v7_1, v7_2, v7_3, v7_4, v7_5, v7_6] <;> first | done | ring

set_option maxHeartbeats 1600000 in
theorem eig7_Ys (m : MPar) (d v1 a i : ℝ) (h : m.t2 = 1 ∧ m.t3 = 0 ∧ m.as = 0) : Img (1) sY3 (eig7 m d v1 a i) (eig7 m d v1 a i) := by
  obtain ⟨cf, cs, vax, t2, t3, af, as, sd, s, nm, di⟩ := m
  obtain ⟨rfl, rfl, rfl⟩ : t2 = 1 ∧ t3 = 0 ∧ as = 0 := h
  refine ⟨Equiv.refl _, ![1, 1, -1, 1, -1, 1, 1], fun n => ?_, fun n => ?_, fun n m => ?_, fun n m => ?_⟩
  · rcases seven n with rfl | rfl | rfl | rfl | rfl | rfl | rfl <;> simp
  · rcases seven n with rfl | rfl | rfl | rfl | rfl | rfl | rfl <;> simp [eig7, v7_1, v7_2, v7_3, v7_4, v7_5, v7_6] <;> first | done | ring
  · rcases seven n with rfl | rfl | rfl | rfl | rfl | rfl | rfl <;> rcases seven m with rfl | rfl | rfl | rfl | rfl | rfl | rfl <;>
      simp [eig7, sY3, v7_1, v7_2, v7_3, v7_4, v7_5, v7_6] <;> first | done | ring
  · rcases seven n with rfl | rfl | rfl | rfl | rfl | rfl | rfl <;> rcases seven m with rfl | rfl | rfl | rfl | rfl | rfl | rfl <;>
      simp [eig7, sY3, v7_1, v7_2, v7_3, v7_4, v7_5, v7_6] <;> first | done | ring

set_option maxHeartbeats 1600000 in
theorem eig7_Z (m : MPar) (d v1 a i : ℝ) : Img (1) sZ3 (eig7 m d v1 a i) (eig7 { m with t3 := -m.t3 } d v1 a i) := by
  obtain ⟨cf, cs, vax, t2, t3, af, as, sd, s, nm, di⟩ := m
  refine ⟨Equiv.refl _, ![1, -1, 1, 1, 1, -1, 1], fun n => ?_, fun n => ?_, fun n m => ?_, fun n m => ?_⟩
  · rcases seven n with rfl | rfl | rfl | rfl | rfl | rfl | rfl <;> simp
  · rcases seven n with rfl | rfl | rfl | rfl | rfl | rfl | rfl <;> simp [eig7, v7_1, v7_2, v7_3, v7_4, v7_5, v7_6] <;> first | done | ring
  · rcases seven n with rfl | rfl | rfl | rfl | rfl | rfl | rfl <;> rcases seven m with rfl | rfl | rfl | rfl | rfl | rfl | rfl <;>
      simp [eig7, sZ3, v7_1, v7_2, v7_3, v7_4, v7_5, v7_6] <;> first | done | ring
  · rcases seven n with rfl | rfl | rfl | rfl | rfl | rfl | rfl <;> rcases seven m with rfl | rfl | rfl | rfl | rfl | rfl | rfl <;>
      simp [eig7, sZ3, v7_1, v7_2, v7_3, v7_4, v7_5, v7_6] <;> first | done | ring

set_option maxHeartbeats 1600000 in
theorem eig7_Z0 (m : MPar) (d v1 a i : ℝ) (h : m.t2 = 1 ∧ m.t3 = 0) : Img (1) sZ3 (eig7 m d v1 a i) (eig7 m d v1 a i) := by
  obtain ⟨cf, cs, vax, t2, t3, af, as, sd, s, nm, di⟩ := m
  obtain ⟨rfl, rfl⟩ : t2 = 1 ∧ t3 = 0 := h
  refine ⟨Equiv.refl _, ![1, -1, 1, 1, 1, -1, 1], fun n => ?_, fun n => ?_, fun n m => ?_, fun n m => ?_⟩
  · rcases seven n with rfl | rfl | rfl | rfl | rfl | rfl | rfl <;> simp
  · rcases seven n with rfl | rfl | rfl | rfl | rfl | rfl | rfl <;> simp [eig7, v7_1, v7_2, v7_3, v7_4, v7_5, v7_6] <;> first | done | ring
  · rcases seven n with rfl | rfl | rfl | rfl | rfl | rfl | rfl <;> rcases seven m with rfl | rfl | rfl | rfl | rfl | rfl | rfl <;>
      simp [eig7, sZ3, v7_1, v7_2, v7_3, v7_4, v7_5, v7_6] <;> first | done | ring
  · rcases seven n with rfl | rfl | rfl | rfl | rfl | rfl | rfl <;> rcases seven m with rfl | rfl | rfl | rfl | rfl | rfl | rfl <;>
      simp [eig7, sZ3, v7_1, v7_2, v7_3, v7_4, v7_5, v7_6] <;> first | done | ring

theorem adbMhd_X_aux (gamma : ℝ) (W : Vec 3 ns) (b : ℝ) : ∃ E E', esysAdbMhd ns gamma W b = E ∧ esysAdbMhd ns gamma (flipV sX3 W) (-b) = E' ∧
    Img (-1) sX3 E E' ∧ E'.ev 0 = -E.ev 6 ∧ E'.ev 6 = -E.ev 0 := by
  have e : esysAdbMhd ns gamma (flipV sX3 W) (-b) = (esysP7 (W (Sum.inl 0)) (-(W (Sum.inl 1))) (gamma * W (Sum.inl 4)) (-b) (W (Sum.inl 5)) (W (Sum.inl 6))).getD ⟨fun _ => 0, fun _ _ => 0, fun _ _ => 0⟩ := by
    simp [esysAdbMhd, flipV, sg, sX3]
  refine ⟨_, _, rfl, e, ?_⟩
  unfold esysAdbMhd
  by_cases hp : 0 < W (Sum.inl 0) ∧ 0 < gamma * W (Sum.inl 4)
  · obtain ⟨hd, hr⟩ := hp
    have hT : 0 < (gamma * W (Sum.inl 4) * (1 / W (Sum.inl 0))) := mul_pos hr (by positivity)
    obtain ⟨m, bt, hm, -, -⟩ := parP_spec false (W (Sum.inl 0)) b (W (Sum.inl 5)) (W (Sum.inl 6)) (Real.sqrt (gamma * W (Sum.inl 4) * (1 / W (Sum.inl 0)))) (gamma * W (Sum.inl 4) * (1 / W (Sum.inl 0))) hd (Real.sqrt_pos.mpr hT) ((Real.sq_sqrt hT.le).symm)
    have hm' := parP_X false (W (Sum.inl 0)) b (W (Sum.inl 5)) (W (Sum.inl 6)) (gamma * W (Sum.inl 4) * (1 / W (Sum.inl 0)))
    rw [hm, Option.map_some] at hm'
    rw [esysP7_of hd hr hm, esysP7_of hd hr hm']
    simp only [Option.getD_some]
    refine ⟨?_, by constructor <;> simp [eig7, v7_5, v7_6] <;> ring⟩
    by_cases hb : b = 0
    · subst hb
      have h0 := parP_b1 hd (Real.sqrt_pos.mpr hT) ((Real.sq_sqrt hT.le).symm) hm
      have hs : m.s = 1 := by
        have := (parP_X false (W (Sum.inl 0)) 0 (W (Sum.inl 5)) (W (Sum.inl 6)) (gamma * W (Sum.inl 4) * (1 / W (Sum.inl 0))))
        rw [neg_zero, hm, Option.map_some] at this
        have := congrArg MPar.s (Option.some_injective _ this)
        rw [this]; simp [sgn]
      have := eig7_X0 m (W (Sum.inl 0)) (W (Sum.inl 1)) (Real.sqrt (gamma * W (Sum.inl 4) * (1 / W (Sum.inl 0)))) (1 / m.sd) h0
      have e2 : ({ m with s := sgn (-0) } : MPar) = m := by
        have h1 : sgn (-0) = m.s := by rw [hs]; simp [sgn]
        rw [h1]
      rw [e2]; exact this
    · have hs : m.s = sgn b := by
        have := parP_X false (W (Sum.inl 0)) (-b) (W (Sum.inl 5)) (W (Sum.inl 6)) (gamma * W (Sum.inl 4) * (1 / W (Sum.inl 0)))
        rw [neg_neg, hm, hm', Option.map_some] at this
        exact congrArg MPar.s (Option.some_injective _ this)
      have := eig7_X m (W (Sum.inl 0)) (W (Sum.inl 1)) (Real.sqrt (gamma * W (Sum.inl 4) * (1 / W (Sum.inl 0)))) (1 / m.sd)
      rw [sgn_neg_ne hb, ← hs]; exact this
  · rw [esysP7_none hp, esysP7_none hp]
    exact ⟨img_zero _ _, by simp⟩

theorem adbMhd_X (gamma : ℝ) : RevSym (ns := ns) (k := 3) sX3 (esysAdbMhd ns gamma) where
  img W b := by obtain ⟨_, _, rfl, rfl, h, -⟩ := adbMhd_X_aux gamma W b; exact h
  lo W b := by obtain ⟨_, _, rfl, rfl, -, h, -⟩ := adbMhd_X_aux gamma W b; exact h
  hi W b := by obtain ⟨_, _, rfl, rfl, -, -, h⟩ := adbMhd_X_aux gamma W b; exact h

theorem adbMhd_Y_aux (gamma : ℝ) (W : Vec 3 ns) (b : ℝ) : ∃ E E', esysAdbMhd ns gamma W b = E ∧ esysAdbMhd ns gamma (flipV sY3 W) b = E' ∧
    Img (1) sY3 E E' ∧ E'.ev 0 = E.ev 0 ∧ E'.ev 6 = E.ev 6 := by
  have e : esysAdbMhd ns gamma (flipV sY3 W) b = (esysP7 (W (Sum.inl 0)) (W (Sum.inl 1)) (gamma * W (Sum.inl 4)) b (-(W (Sum.inl 5))) (W (Sum.inl 6))).getD ⟨fun _ => 0, fun _ _ => 0, fun _ _ => 0⟩ := by
    simp [esysAdbMhd, flipV, sg, sY3]
  refine ⟨_, _, rfl, e, ?_⟩
  unfold esysAdbMhd
  by_cases hp : 0 < W (Sum.inl 0) ∧ 0 < gamma * W (Sum.inl 4)
  · obtain ⟨hd, hr⟩ := hp
    have hT : 0 < (gamma * W (Sum.inl 4) * (1 / W (Sum.inl 0))) := mul_pos hr (by positivity)
    obtain ⟨m, bt, hm, -, -⟩ := parP_spec false (W (Sum.inl 0)) b (W (Sum.inl 5)) (W (Sum.inl 6)) (Real.sqrt (gamma * W (Sum.inl 4) * (1 / W (Sum.inl 0)))) (gamma * W (Sum.inl 4) * (1 / W (Sum.inl 0))) hd (Real.sqrt_pos.mpr hT) ((Real.sq_sqrt hT.le).symm)
    have hm' := parP_Y false (W (Sum.inl 0)) b (W (Sum.inl 5)) (W (Sum.inl 6)) (gamma * W (Sum.inl 4) * (1 / W (Sum.inl 0)))
    rw [hm, Option.map_some] at hm'
    rw [esysP7_of hd hr hm, esysP7_of hd hr hm']
    simp only [Option.getD_some]
    refine ⟨?_, ⟨rfl, rfl⟩⟩
    by_cases hb : W (Sum.inl 5) = 0 ∧ W (Sum.inl 6) = 0
    · simp only [if_pos hb]
      rw [hb.1, hb.2] at hm
      obtain ⟨h2, h3, h4⟩ := parP_nobt false hd hT hm
      rcases h4 with h4 | h4
      · exact eig7_Yf m _ _ _ _ ⟨h2, h3, h4⟩
      · exact eig7_Ys m _ _ _ _ ⟨h2, h3, h4⟩
    · simp only [if_neg hb]
      exact eig7_Y m _ _ _ _
  · rw [esysP7_none hp, esysP7_none hp]
    exact ⟨img_zero _ _, by simp⟩

theorem adbMhd_Y (gamma : ℝ) : FlipSym (ns := ns) (k := 3) sY3 (esysAdbMhd ns gamma) where
  img W b := by obtain ⟨_, _, rfl, rfl, h, -⟩ := adbMhd_Y_aux gamma W b; exact h
  lo W b := by obtain ⟨_, _, rfl, rfl, -, h, -⟩ := adbMhd_Y_aux gamma W b; exact h
  hi W b := by obtain ⟨_, _, rfl, rfl, -, -, h⟩ := adbMhd_Y_aux gamma W b; exact h

theorem adbMhd_Z_aux (gamma : ℝ) (W : Vec 3 ns) (b : ℝ) : ∃ E E', esysAdbMhd ns gamma W b = E ∧ esysAdbMhd ns gamma (flipV sZ3 W) b = E' ∧
    Img (1) sZ3 E E' ∧ E'.ev 0 = E.ev 0 ∧ E'.ev 6 = E.ev 6 := by
  have e : esysAdbMhd ns gamma (flipV sZ3 W) b = (esysP7 (W (Sum.inl 0)) (W (Sum.inl 1)) (gamma * W (Sum.inl 4)) b (W (Sum.inl 5)) (-(W (Sum.inl 6)))).getD ⟨fun _ => 0, fun _ _ => 0, fun _ _ => 0⟩ := by
    simp [esysAdbMhd, flipV, sg, sZ3]
  refine ⟨_, _, rfl, e, ?_⟩
  unfold esysAdbMhd
  by_cases hp : 0 < W (Sum.inl 0) ∧ 0 < gamma * W (Sum.inl 4)
  · obtain ⟨hd, hr⟩ := hp
    have hT : 0 < (gamma * W (Sum.inl 4) * (1 / W (Sum.inl 0))) := mul_pos hr (by positivity)
    obtain ⟨m, bt, hm, -, -⟩ := parP_spec false (W (Sum.inl 0)) b (W (Sum.inl 5)) (W (Sum.inl 6)) (Real.sqrt (gamma * W (Sum.inl 4) * (1 / W (Sum.inl 0)))) (gamma * W (Sum.inl 4) * (1 / W (Sum.inl 0))) hd (Real.sqrt_pos.mpr hT) ((Real.sq_sqrt hT.le).symm)
    have hm' := parP_Z false (W (Sum.inl 0)) b (W (Sum.inl 5)) (W (Sum.inl 6)) (gamma * W (Sum.inl 4) * (1 / W (Sum.inl 0)))
    rw [hm, Option.map_some] at hm'
    rw [esysP7_of hd hr hm, esysP7_of hd hr hm']
    simp only [Option.getD_some]
    refine ⟨?_, ⟨rfl, rfl⟩⟩
    by_cases hb : W (Sum.inl 5) = 0 ∧ W (Sum.inl 6) = 0
    · simp only [if_pos hb]
      rw [hb.1, hb.2] at hm
      obtain ⟨h2, h3, h4⟩ := parP_nobt false hd hT hm
      exact eig7_Z0 m _ _ _ _ ⟨h2, h3⟩
    · simp only [if_neg hb]
      exact eig7_Z m _ _ _ _
  · rw [esysP7_none hp, esysP7_none hp]
    exact ⟨img_zero _ _, by simp⟩

theorem adbMhd_Z (gamma : ℝ) : FlipSym (ns := ns) (k := 3) sZ3 (esysAdbMhd ns gamma) where
  img W b := by obtain ⟨_, _, rfl, rfl, h, -⟩ := adbMhd_Z_aux gamma W b; exact h
  lo W b := by obtain ⟨_, _, rfl, rfl, -, h, -⟩ := adbMhd_Z_aux gamma W b; exact h
  hi W b := by obtain ⟨_, _, rfl, rfl, -, -, h⟩ := adbMhd_Z_aux gamma W b; exact h

theorem isoMhd_X_aux (c : ℝ) (W : Vec 2 ns) (b : ℝ) : ∃ E E', esysIsoMhd ns c W b = E ∧ esysIsoMhd ns c (flipV sX2 W) (-b) = E' ∧
    Img (-1) sX2 E E' ∧ E'.ev 0 = -E.ev 5 ∧ E'.ev 5 = -E.ev 0 := by
  have e : esysIsoMhd ns c (flipV sX2 W) (-b) = (esysP6 c (W (Sum.inl 0)) (-(W (Sum.inl 1))) (-b) (W (Sum.inl 4)) (W (Sum.inl 5))).getD ⟨fun _ => 0, fun _ _ => 0, fun _ _ => 0⟩ := by
    simp [esysIsoMhd, flipV, sg, sX2]
  refine ⟨_, _, rfl, e, ?_⟩
  unfold esysIsoMhd
  by_cases hp : 0 < W (Sum.inl 0) ∧ c ≠ 0
  · obtain ⟨hd, hr⟩ := hp
    have hT : 0 < (c * c) := mul_self_pos.2 hr
    obtain ⟨m, bt, hm, -, -⟩ := parP_spec true (W (Sum.inl 0)) b (W (Sum.inl 4)) (W (Sum.inl 5)) |c| (c * c) hd (abs_pos.mpr hr) (by rw [sq_abs]; ring)
    have hm' := parP_X true (W (Sum.inl 0)) b (W (Sum.inl 4)) (W (Sum.inl 5)) (c * c)
    rw [hm, Option.map_some] at hm'
    rw [esysP6_of hd hr hm, esysP6_of hd hr hm']
    simp only [Option.getD_some]
    refine ⟨?_, by constructor <;> simp [eig6, v6_5] <;> ring⟩
    by_cases hb : b = 0
    · subst hb
      have h0 := parP_b1 hd (abs_pos.mpr hr) (by rw [sq_abs]; ring) hm
      have hs : m.s = 1 := by
        have := (parP_X true (W (Sum.inl 0)) 0 (W (Sum.inl 4)) (W (Sum.inl 5)) (c * c))
        rw [neg_zero, hm, Option.map_some] at this
        have := congrArg MPar.s (Option.some_injective _ this)
        rw [this]; simp [sgn]
      have := eig6_X0 m (W (Sum.inl 0)) (W (Sum.inl 1)) c (1 / m.sd) h0
      have e2 : ({ m with s := sgn (-0) } : MPar) = m := by
        have h1 : sgn (-0) = m.s := by rw [hs]; simp [sgn]
        rw [h1]
      rw [e2]; exact this
    · have hs : m.s = sgn b := by
        have := parP_X true (W (Sum.inl 0)) (-b) (W (Sum.inl 4)) (W (Sum.inl 5)) (c * c)
        rw [neg_neg, hm, hm', Option.map_some] at this
        exact congrArg MPar.s (Option.some_injective _ this)
      have := eig6_X m (W (Sum.inl 0)) (W (Sum.inl 1)) c (1 / m.sd)
      rw [sgn_neg_ne hb, ← hs]; exact this
  · rw [esysP6_none hp, esysP6_none hp]
    exact ⟨img_zero _ _, by simp⟩

theorem isoMhd_X (c : ℝ) : RevSym (ns := ns) (k := 2) sX2 (esysIsoMhd ns c) where
  img W b := by obtain ⟨_, _, rfl, rfl, h, -⟩ := isoMhd_X_aux c W b; exact h
  lo W b := by obtain ⟨_, _, rfl, rfl, -, h, -⟩ := isoMhd_X_aux c W b; exact h
  hi W b := by obtain ⟨_, _, rfl, rfl, -, -, h⟩ := isoMhd_X_aux c W b; exact h

theorem isoMhd_Y_aux (c : ℝ) (W : Vec 2 ns) (b : ℝ) : ∃ E E', esysIsoMhd ns c W b = E ∧ esysIsoMhd ns c (flipV sY2 W) b = E' ∧
    Img (1) sY2 E E' ∧ E'.ev 0 = E.ev 0 ∧ E'.ev 5 = E.ev 5 := by
  have e : esysIsoMhd ns c (flipV sY2 W) b = (esysP6 c (W (Sum.inl 0)) (W (Sum.inl 1)) b (-(W (Sum.inl 4))) (W (Sum.inl 5))).getD ⟨fun _ => 0, fun _ _ => 0, fun _ _ => 0⟩ := by
    simp [esysIsoMhd, flipV, sg, sY2]
  refine ⟨_, _, rfl, e, ?_⟩
  unfold esysIsoMhd
  by_cases hp : 0 < W (Sum.inl 0) ∧ c ≠ 0
  · obtain ⟨hd, hr⟩ := hp
    have hT : 0 < (c * c) := mul_self_pos.2 hr
    obtain ⟨m, bt, hm, -, -⟩ := parP_spec true (W (Sum.inl 0)) b (W (Sum.inl 4)) (W (Sum.inl 5)) |c| (c * c) hd (abs_pos.mpr hr) (by rw [sq_abs]; ring)
    have hm' := parP_Y true (W (Sum.inl 0)) b (W (Sum.inl 4)) (W (Sum.inl 5)) (c * c)
    rw [hm, Option.map_some] at hm'
    rw [esysP6_of hd hr hm, esysP6_of hd hr hm']
    simp only [Option.getD_some]
    refine ⟨?_, ⟨rfl, rfl⟩⟩
    by_cases hb : W (Sum.inl 4) = 0 ∧ W (Sum.inl 5) = 0
    · simp only [if_pos hb]
      rw [hb.1, hb.2] at hm
      obtain ⟨h2, h3, h4⟩ := parP_nobt true hd hT hm
      rcases h4 with h4 | h4
      · exact eig6_Yf m _ _ _ _ ⟨h2, h3, h4⟩
      · exact eig6_Ys m _ _ _ _ ⟨h2, h3, h4⟩
    · simp only [if_neg hb]
      exact eig6_Y m _ _ _ _
  · rw [esysP6_none hp, esysP6_none hp]
    exact ⟨img_zero _ _, by simp⟩

theorem isoMhd_Y (c : ℝ) : FlipSym (ns := ns) (k := 2) sY2 (esysIsoMhd ns c) where
  img W b := by obtain ⟨_, _, rfl, rfl, h, -⟩ := isoMhd_Y_aux c W b; exact h
  lo W b := by obtain ⟨_, _, rfl, rfl, -, h, -⟩ := isoMhd_Y_aux c W b; exact h
  hi W b := by obtain ⟨_, _, rfl, rfl, -, -, h⟩ := isoMhd_Y_aux c W b; exact h

theorem isoMhd_Z_aux (c : ℝ) (W : Vec 2 ns) (b : ℝ) : ∃ E E', esysIsoMhd ns c W b = E ∧ esysIsoMhd ns c (flipV sZ2 W) b = E' ∧
    Img (1) sZ2 E E' ∧ E'.ev 0 = E.ev 0 ∧ E'.ev 5 = E.ev 5 := by
  have e : esysIsoMhd ns c (flipV sZ2 W) b = (esysP6 c (W (Sum.inl 0)) (W (Sum.inl 1)) b (W (Sum.inl 4)) (-(W (Sum.inl 5)))).getD ⟨fun _ => 0, fun _ _ => 0, fun _ _ => 0⟩ := by
    simp [esysIsoMhd, flipV, sg, sZ2]
  refine ⟨_, _, rfl, e, ?_⟩
  unfold esysIsoMhd
  by_cases hp : 0 < W (Sum.inl 0) ∧ c ≠ 0
  · obtain ⟨hd, hr⟩ := hp
    have hT : 0 < (c * c) := mul_self_pos.2 hr
    obtain ⟨m, bt, hm, -, -⟩ := parP_spec true (W (Sum.inl 0)) b (W (Sum.inl 4)) (W (Sum.inl 5)) |c| (c * c) hd (abs_pos.mpr hr) (by rw [sq_abs]; ring)
    have hm' := parP_Z true (W (Sum.inl 0)) b (W (Sum.inl 4)) (W (Sum.inl 5)) (c * c)
    rw [hm, Option.map_some] at hm'
    rw [esysP6_of hd hr hm, esysP6_of hd hr hm']
    simp only [Option.getD_some]
    refine ⟨?_, ⟨rfl, rfl⟩⟩
    by_cases hb : W (Sum.inl 4) = 0 ∧ W (Sum.inl 5) = 0
    · simp only [if_pos hb]
      rw [hb.1, hb.2] at hm
      obtain ⟨h2, h3, h4⟩ := parP_nobt true hd hT hm
      exact eig6_Z0 m _ _ _ _ ⟨h2, h3⟩
    · simp only [if_neg hb]
      exact eig6_Z m _ _ _ _
  · rw [esysP6_none hp, esysP6_none hp]
    exact ⟨img_zero _ _, by simp⟩

theorem isoMhd_Z (c : ℝ) : FlipSym (ns := ns) (k := 2) sZ2 (esysIsoMhd ns c) where
  img W b := by obtain ⟨_, _, rfl, rfl, h, -⟩ := isoMhd_Z_aux c W b; exact h
  lo W b := by obtain ⟨_, _, rfl, rfl, -, h, -⟩ := isoMhd_Z_aux c W b; exact h
  hi W b := by obtain ⟨_, _, rfl, rfl, -, -, h⟩ := isoMhd_Z_aux c W b; exact h

end
end Athena.Recon
