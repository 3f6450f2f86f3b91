import Verif.Recon.ScaleLr

/-!
# C130, C131: the eigensystems `esys_prim` in other units and with the field reversed

Densities are multiplied by `r²`, speeds by `v`, hence pressures by `r² v²` and fields by `r v`.
-/

namespace Athena.Recon
noncomputable section
open Athena.Hydro
variable {ns : ℕ}

/-- Factors of `d`, `Vx`, `Vy`, `Vz`. -/
def un0 (r v : ℝ) : Fin 4 → ℝ := ![r * r, v, v, v]
/-- `d`, `Vx`, `Vy`, `Vz`, `P`. -/
def un1 (r v : ℝ) : Fin 5 → ℝ := ![r * r, v, v, v, r * r * (v * v)]
/-- `d`, `Vx`, `Vy`, `Vz`, `By`, `Bz`. -/
def un2 (r v : ℝ) : Fin 6 → ℝ := ![r * r, v, v, v, r * v, r * v]
/-- `d`, `Vx`, `Vy`, `Vz`, `P`, `By`, `Bz`. -/
def un3 (r v : ℝ) : Fin 7 → ℝ := ![r * r, v, v, v, r * r * (v * v), r * v, r * v]
/-- The field reversed: `d`, `Vx`, `Vy`, `Vz`, `By`, `Bz`. -/
def rv2 : Fin 6 → ℝ := ![1, 1, 1, 1, -1, -1]
/-- The field reversed: `d`, `Vx`, `Vy`, `Vz`, `P`, `By`, `Bz`. -/
def rv3 : Fin 7 → ℝ := ![1, 1, 1, 1, 1, -1, -1]

theorem noZero_un {r v : ℝ} (hr : 0 < r) (hv : 0 < v) :
    NoZero (k := 0) (un0 r v) ∧ NoZero (k := 1) (un1 r v) ∧ NoZero (k := 2) (un2 r v) ∧ NoZero (k := 3) (un3 r v) := by
  have := hr.ne'; have := hv.ne'
  refine ⟨fun n => ?_, fun n => ?_, fun n => ?_, fun n => ?_⟩
  · rcases four n with rfl | rfl | rfl | rfl <;> simp [un0, *]
  · rcases five n with rfl | rfl | rfl | rfl | rfl <;> simp [un1, *]
  · rcases six n with rfl | rfl | rfl | rfl | rfl | rfl <;> simp [un2, *]
  · rcases seven n with rfl | rfl | rfl | rfl | rfl | rfl | rfl <;> simp [un3, *]
theorem noZero_rv : NoZero (k := 2) rv2 ∧ NoZero (k := 3) rv3 := by
  refine ⟨fun n => ?_, fun n => ?_⟩
  · rcases six n with rfl | rfl | rfl | rfl | rfl | rfl <;> simp [rv2]
  · rcases seven n with rfl | rfl | rfl | rfl | rfl | rfl | rfl <;> simp [rv3]

theorem imgU_zero {k : ℕ} (s : ℝ) (f : Fin (k + 4) → ℝ) : ImgU s f (⟨fun _ => 0, fun _ _ => 0, fun _ _ => 0⟩ : Eig k) ⟨fun _ => 0, fun _ _ => 0, fun _ _ => 0⟩ :=
  ⟨Equiv.refl _, fun _ => 1, fun _ => one_ne_zero, fun _ => by simp, fun _ _ => by simp, fun _ _ => by simp⟩

theorem sqrt_sc {v : ℝ} (hv : 0 < v) (x : ℝ) : Real.sqrt (v * v * x) = v * Real.sqrt x := by
  rw [Real.sqrt_mul (mul_self_nonneg v), Real.sqrt_mul_self hv.le]

/-! ## Hydrodynamics -/

theorem isoHyd_U {r v β : ℝ} (hr : 0 < r) (hv : 0 < v) (c : ℝ) :
    UnitSym (ns := ns) (k := 0) v β (un0 r v) (fun W _ => esysIsoHyd ns c W) (fun W _ => esysIsoHyd ns (v * c) W) where
  img W b := by
    have := hr.ne'; have := hv.ne'
    refine ⟨Equiv.refl _, ![r * r, v, v, r * r], fun n => ?_, fun n => ?_, fun n m => ?_, fun n m => ?_⟩
    · rcases four n with rfl | rfl | rfl | rfl <;> simp [*]
    · rcases four n with rfl | rfl | rfl | rfl <;> simp [esysIsoHyd, flipV, sg, un0] <;> first | done | ring
    · rcases four n with rfl | rfl | rfl | rfl <;> rcases four m with rfl | rfl | rfl | rfl <;>
        simp [esysIsoHyd, flipV, sg, un0] <;> first | done | ring1 | (field_simp; done) | (field_simp; ring1)
    · rcases four n with rfl | rfl | rfl | rfl <;> rcases four m with rfl | rfl | rfl | rfl <;>
        simp [esysIsoHyd, flipV, sg, un0] <;> first | done | ring1 | (field_simp; done) | (field_simp; ring1)
  lo W b := by simp [Eig.lo, esysIsoHyd, flipV, sg, un0]; ring
  hi W b := by simp [Eig.hi, Fin.last, esysIsoHyd, flipV, sg, un0]; ring

theorem adbHyd_U {r v β : ℝ} (hr : 0 < r) (hv : 0 < v) (g : ℝ) :
    UnitSym (ns := ns) (k := 1) v β (un1 r v) (fun W _ => esysAdbHyd ns g W) (fun W _ => esysAdbHyd ns g W) := by
  have h1 := hr.ne'; have h2 := hv.ne'
  have key : ∀ W : Vec 1 ns, g * (r * r * (v * v) * W (Sum.inl 4)) / (r * r * W (Sum.inl 0)) = v * v * (g * W (Sum.inl 4) / W (Sum.inl 0)) := by
    intro W
    rw [show g * (r * r * (v * v) * W (Sum.inl 4)) = r * r * (v * v * (g * W (Sum.inl 4))) by ring, mul_div_mul_left _ _ (by positivity), mul_div_assoc]
  refine ⟨fun W b => ?_, fun W b => ?_, fun W b => ?_⟩
  · refine ⟨Equiv.refl _, ![r * r, r * r, v, v, r * r], fun n => ?_, fun n => ?_, fun n m => ?_, fun n m => ?_⟩
    · rcases five n with rfl | rfl | rfl | rfl | rfl <;> simp [*]
    · rcases five n with rfl | rfl | rfl | rfl | rfl <;> simp [esysAdbHyd, flipV, sg, un1, key, sqrt_sc hv, v5_1, v5_2, v5_3, v5_4] <;> first | done | ring
    · rcases five n with rfl | rfl | rfl | rfl | rfl <;> rcases five m with rfl | rfl | rfl | rfl | rfl <;>
        simp [esysAdbHyd, flipV, sg, un1, key, sqrt_sc hv, v5_1, v5_2, v5_3, v5_4] <;>
          (try generalize Real.sqrt _ = a) <;> (try generalize g * W (Sum.inl 4) / W (Sum.inl 0) = a2) <;> first | done | ring1 | (field_simp; done) | (field_simp; ring1)
    · rcases five n with rfl | rfl | rfl | rfl | rfl <;> rcases five m with rfl | rfl | rfl | rfl | rfl <;>
        simp [esysAdbHyd, flipV, sg, un1, key, sqrt_sc hv, v5_1, v5_2, v5_3, v5_4] <;>
          (try generalize Real.sqrt _ = a) <;> (try generalize g * W (Sum.inl 4) / W (Sum.inl 0) = a2) <;> first | done | ring1 | (field_simp; done) | (field_simp; ring1)
  · simp [Eig.lo, esysAdbHyd, flipV, sg, un1, key, sqrt_sc hv]; ring
  · simp [Eig.hi, Fin.last, esysAdbHyd, flipV, sg, un1, key, sqrt_sc hv, v5_4]; ring

/-! ## MHD: the local variables -/

theorem bind_sc {α β γ δ : Type} {o : Option α} {o' : Option β} {k : α → Option γ} {k' : β → Option δ} {g : α → β} {h : γ → δ}
    (ho : o' = o.map g) (hk : ∀ a, o = some a → k' (g a) = (k a).map h) : o'.bind k' = (o.bind k).map h := by
  subst ho
  cases o with
  | none => rfl
  | some a => exact hk a rfl

theorem fdiv_sc {x y : ℝ} (hy : y ≠ 0) (a b : ℝ) : fdiv (x * a) (y * b) = (fdiv a b).map fun t => x / y * t := by
  unfold fdiv
  by_cases h : b = 0
  · rw [if_pos h, if_pos (by rw [h, mul_zero])]; rfl
  · rw [if_neg h, if_neg (mul_ne_zero hy h), Option.map_some, mul_div_mul_comm]
theorem fsqrt_sc {v : ℝ} (hv : 0 < v) (a : ℝ) : fsqrt (v * v * a) = (fsqrt a).map fun t => v * t := by
  unfold fsqrt
  simp only [neg_sp (mul_pos hv hv)]
  split_ifs
  · rfl
  · rw [sqrt_sc hv]; rfl

/-- The local variables in other units. -/
def MPar.un (r v : ℝ) (m : MPar) : MPar :=
  ⟨v * m.cf, v * m.cs, v * m.vax, m.t2, m.t3, m.af, m.as, r * m.sd, m.s, 1 / (v * v) * m.nm, 1 / (r * r) * m.di⟩

theorem betP_sc {c : ℝ} (hc : c ≠ 0) (b2 b3 bt : ℝ) : betP (c * b2) (c * b3) (c * bt) = betP b2 b3 bt := by
  unfold betP
  simp only [mul_eq_zero, hc, false_or, fdiv_sc hc, div_self hc, one_mul, Option.map_id', Option.bind_eq_bind]
theorem alphaP_sc {c : ℝ} (hc : 0 < c) (D F S T : ℝ) : alphaP (c * D) (c * F) (c * S) (c * T) = alphaP D F S T := by
  unfold alphaP
  simp only [← mul_sub, np_sp hc, zero_sp hc, fdiv_sc hc.ne', div_self hc.ne', one_mul, Option.map_id', Option.bind_eq_bind]

theorem parP_un {r v : ℝ} (hr : 0 < r) (hv : 0 < v) (iso : Bool) (d b1 b2 b3 T : ℝ) :
    parP iso (r * r * d) (r * v * b1) (r * v * b2) (r * v * b3) (v * v * T) = (parP iso d b1 b2 b3 T).map (MPar.un r v) := by
  have hr' := hr.ne'; have hv' := hv.ne'
  have hvv := mul_pos hv hv
  have hrr := mul_pos hr hr
  have hrv := mul_pos hr hv
  unfold parP
  simp only [Option.bind_eq_bind]
  refine bind_sc (g := fun t => 1 / (r * r) * t) (by rw [show (1 : ℝ) = 1 * 1 by ring, fdiv_sc hrr.ne']; simp) fun di _ => ?_
  have e1 : r * v * b1 * (r * v * b1) * (1 / (r * r) * di) = v * v * (b1 * b1 * di) := by field_simp
  have e2 : (r * v * b2 * (r * v * b2) + r * v * b3 * (r * v * b3)) = r * v * (r * v) * (b2 * b2 + b3 * b3) := by ring
  have e3 : r * v * (r * v) * (b2 * b2 + b3 * b3) * (1 / (r * r) * di) = v * v * ((b2 * b2 + b3 * b3) * di) := by field_simp
  rw [e2, e1, e3]
  generalize b1 * b1 * di = A
  generalize hC : (b2 * b2 + b3 * b3) * di = C
  generalize b2 * b2 + b3 * b3 = B
  refine bind_sc (g := fun t => v * v * t) (by
    rw [show (v * v * A + v * v * C - v * v * T) * (v * v * A + v * v * C - v * v * T) + 4 * (v * v * T) * (v * v * C) =
      v * v * (v * v) * ((A + C - T) * (A + C - T) + 4 * T * C) by ring, fsqrt_sc hvv]) fun D _ => ?_
  have e4 : 1/2 * (v * v * A + v * v * C + v * v * T + v * v * D) = v * v * (1/2 * (A + C + T + D)) := by ring
  rw [e4]
  generalize 1/2 * (A + C + T + D) = F
  refine bind_sc (g := fun t => v * t) (fsqrt_sc hv _) fun cf _ => ?_
  refine bind_sc (g := fun t => v * v * t) (by
    rw [show v * v * T * (v * v * A) = v * v * (v * v) * (T * A) by ring, fdiv_sc hvv.ne', mul_div_cancel_right₀ _ hvv.ne']) fun S _ => ?_
  refine bind_sc (g := fun t => v * t) (fsqrt_sc hv _) fun cs _ => ?_
  refine bind_sc (g := fun t => r * v * t) (fsqrt_sc hrv _) fun bt _ => ?_
  refine bind_sc (g := fun t => t) (by rw [betP_sc hrv.ne', Option.map_id']) fun t _ => ?_
  refine bind_sc (g := fun t => t) (by
    rw [show (if iso = true then v * v * F - v * v * S else v * v * D) = v * v * (if iso = true then F - S else D) by split_ifs <;> ring,
      alphaP_sc hvv, Option.map_id']) fun al _ => ?_
  refine bind_sc (g := fun t => r * t) (fsqrt_sc hr _) fun sd _ => ?_
  refine bind_sc (g := fun t => v * t) (fsqrt_sc hv _) fun vax _ => ?_
  refine bind_sc (g := fun t => 1 / (v * v) * t) (by rw [show (1/2 : ℝ) = 1 * (1/2) by ring, fdiv_sc hvv.ne']; simp) fun nm _ => ?_
  simp only [Option.pure_def, Option.map_some, MPar.un, sgn_sp hrv]

/-! ## MHD: the waves in other units -/

set_option maxHeartbeats 3200000 in
theorem eig6_U {r v : ℝ} (hr : 0 < r) (hv : 0 < v) (m : MPar) (d v1 a i : ℝ) :
    ImgU v (un2 r v) (eig6 m d v1 a i) (eig6 (m.un r v) (r * r * d) (v * v1) (v * a) (1 / r * i)) := by
  obtain ⟨cf, cs, vax, t2, t3, af, as, sd, s, nm, di⟩ := m
  have hr' := hr.ne'; have hv' := hv.ne'
  refine ⟨Equiv.refl _, ![1, v, 1, 1, v, 1], fun n => ?_, fun n => ?_, fun n m => ?_, fun n m => ?_⟩
  · rcases six n with rfl | rfl | rfl | rfl | rfl | rfl <;> simp [*]
  · rcases six n with rfl | rfl | rfl | rfl | rfl | rfl <;> simp [eig6, MPar.un, v6_1, v6_2, v6_3, v6_4, v6_5] <;> first | done | ring1
  · rcases six n with rfl | rfl | rfl | rfl | rfl | rfl <;> rcases six m with rfl | rfl | rfl | rfl | rfl | rfl <;>
      simp [eig6, un2, MPar.un, v6_1, v6_2, v6_3, v6_4, v6_5] <;> first | done | ring1 | (field_simp; done) | (field_simp; ring1)
  · rcases six n with rfl | rfl | rfl | rfl | rfl | rfl <;> rcases six m with rfl | rfl | rfl | rfl | rfl | rfl <;>
      simp [eig6, un2, MPar.un, v6_1, v6_2, v6_3, v6_4, v6_5] <;> first | done | ring1 | (field_simp; done) | (field_simp; ring1)

set_option maxHeartbeats 3200000 in
theorem eig7_U {r v : ℝ} (hr : 0 < r) (hv : 0 < v) (m : MPar) (d v1 a i : ℝ) :
    ImgU v (un3 r v) (eig7 m d v1 a i) (eig7 (m.un r v) (r * r * d) (v * v1) (v * a) (1 / r * i)) := by
  obtain ⟨cf, cs, vax, t2, t3, af, as, sd, s, nm, di⟩ := m
  have hr' := hr.ne'; have hv' := hv.ne'
  refine ⟨Equiv.refl _, ![1, v, 1, r * r, 1, v, 1], fun n => ?_, fun n => ?_, fun n m => ?_, fun n m => ?_⟩
  · rcases seven n with rfl | rfl | rfl | rfl | rfl | rfl | rfl <;> simp [*]
  · rcases seven n with rfl | rfl | rfl | rfl | rfl | rfl | rfl <;> simp [eig7, MPar.un, v7_1, v7_2, v7_3, v7_4, v7_5, v7_6] <;> first | done | ring1
  · rcases seven n with rfl | rfl | rfl | rfl | rfl | rfl | rfl <;> rcases seven m with rfl | rfl | rfl | rfl | rfl | rfl | rfl <;>
      simp [eig7, un3, MPar.un, v7_1, v7_2, v7_3, v7_4, v7_5, v7_6] <;> first | done | ring1 | (field_simp; done) | (field_simp; ring1)
  · rcases seven n with rfl | rfl | rfl | rfl | rfl | rfl | rfl <;> rcases seven m with rfl | rfl | rfl | rfl | rfl | rfl | rfl <;>
      simp [eig7, un3, MPar.un, v7_1, v7_2, v7_3, v7_4, v7_5, v7_6] <;> first | done | ring1 | (field_simp; done) | (field_simp; ring1)

/-! ## MHD: the waves with the field reversed -/

set_option maxHeartbeats 3200000 in
theorem eig6_R (m : MPar) (d v1 a i : ℝ) : ImgU 1 rv2 (eig6 m d v1 a i) (eig6 { m with s := -m.s, t2 := -m.t2, t3 := -m.t3 } d v1 a i) := by
  obtain ⟨cf, cs, vax, t2, t3, af, as, sd, s, nm, di⟩ := m
  refine ⟨Equiv.refl _, ![1, -1, 1, 1, -1, 1], fun n => ?_, fun n => ?_, fun n m => ?_, fun n m => ?_⟩
  · rcases six n with rfl | rfl | rfl | rfl | rfl | rfl <;> simp [*]
  · rcases six n with rfl | rfl | rfl | rfl | rfl | rfl <;> simp [eig6, v6_1, v6_2, v6_3, v6_4, v6_5] <;> first | done | ring1
  · rcases six n with rfl | rfl | rfl | rfl | rfl | rfl <;> rcases six m with rfl | rfl | rfl | rfl | rfl | rfl <;>
      simp [eig6, rv2, v6_1, v6_2, v6_3, v6_4, v6_5] <;> first | done | ring1
  · rcases six n with rfl | rfl | rfl | rfl | rfl | rfl <;> rcases six m with rfl | rfl | rfl | rfl | rfl | rfl <;>
      simp [eig6, rv2, v6_1, v6_2, v6_3, v6_4, v6_5] <;> first | done | ring1

set_option maxHeartbeats 3200000 in
theorem eig6_R0 (m : MPar) (d v1 a i : ℝ) (h : m.vax = 0 ∧ m.cs = 0) : ImgU 1 rv2 (eig6 m d v1 a i) (eig6 { m with t2 := -m.t2, t3 := -m.t3 } d v1 a i) := by
  obtain ⟨cf, cs, vax, t2, t3, af, as, sd, s, nm, di⟩ := m
  obtain ⟨rfl, rfl⟩ : vax = 0 ∧ cs = 0 := h
  refine ⟨Equiv.swap 1 4 * Equiv.swap 2 3, ![1, 1, 1, 1, 1, 1], fun n => ?_, fun n => ?_, fun n m => ?_, fun n m => ?_⟩
  · rcases six n with rfl | rfl | rfl | rfl | rfl | rfl <;> simp [*]
  · rcases six n with rfl | rfl | rfl | rfl | rfl | rfl <;> simp [eig6, Equiv.swap_apply_def, v6_1, v6_2, v6_3, v6_4, v6_5] <;> first | done | ring1
  · rcases six n with rfl | rfl | rfl | rfl | rfl | rfl <;> rcases six m with rfl | rfl | rfl | rfl | rfl | rfl <;>
      simp [eig6, rv2, Equiv.swap_apply_def, v6_1, v6_2, v6_3, v6_4, v6_5] <;> first | done | ring1
  · rcases six n with rfl | rfl | rfl | rfl | rfl | rfl <;> rcases six m with rfl | rfl | rfl | rfl | rfl | rfl <;>
      simp [eig6, rv2, Equiv.swap_apply_def, v6_1, v6_2, v6_3, v6_4, v6_5] <;> first | done | ring1

set_option maxHeartbeats 3200000 in
theorem eig6_Rf (m : MPar) (d v1 a i : ℝ) (h : m.t2 = 1 ∧ m.t3 = 0 ∧ m.af = 0) : ImgU 1 rv2 (eig6 m d v1 a i) (eig6 { m with s := -m.s } d v1 a i) := by
  obtain ⟨cf, cs, vax, t2, t3, af, as, sd, s, nm, di⟩ := m
  obtain ⟨rfl, rfl, rfl⟩ : t2 = 1 ∧ t3 = 0 ∧ af = 0 := h
  refine ⟨Equiv.refl _, ![-1, 1, 1, 1, 1, -1], fun n => ?_, fun n => ?_, fun n m => ?_, fun n m => ?_⟩
  · rcases six n with rfl | rfl | rfl | rfl | rfl | rfl <;> simp [*]
  · rcases six n with rfl | rfl | rfl | rfl | rfl | rfl <;> simp [eig6, v6_1, v6_2, v6_3, v6_4, v6_5] <;> first | done | ring1
  · rcases six n with rfl | rfl | rfl | rfl | rfl | rfl <;> rcases six m with rfl | rfl | rfl | rfl | rfl | rfl <;>
      simp [eig6, rv2, v6_1, v6_2, v6_3, v6_4, v6_5] <;> first | done | ring1
  · rcases six n with rfl | rfl | rfl | rfl | rfl | rfl <;> rcases six m with rfl | rfl | rfl | rfl | rfl | rfl <;>
      simp [eig6, rv2, v6_1, v6_2, v6_3, v6_4, v6_5] <;> first | done | ring1

set_option maxHeartbeats 3200000 in
theorem eig6_Rs (m : MPar) (d v1 a i : ℝ) (h : m.t2 = 1 ∧ m.t3 = 0 ∧ m.as = 0) : ImgU 1 rv2 (eig6 m d v1 a i) (eig6 { m with s := -m.s } d v1 a i) := by
  obtain ⟨cf, cs, vax, t2, t3, af, as, sd, s, nm, di⟩ := m
  obtain ⟨rfl, rfl, rfl⟩ : t2 = 1 ∧ t3 = 0 ∧ as = 0 := h
  refine ⟨Equiv.refl _, ![1, 1, -1, -1, 1, 1], fun n => ?_, fun n => ?_, fun n m => ?_, fun n m => ?_⟩
  · rcases six n with rfl | rfl | rfl | rfl | rfl | rfl <;> simp [*]
  · rcases six n with rfl | rfl | rfl | rfl | rfl | rfl <;> simp [eig6, v6_1, v6_2, v6_3, v6_4, v6_5] <;> first | done | ring1
  · rcases six n with rfl | rfl | rfl | rfl | rfl | rfl <;> rcases six m with rfl | rfl | rfl | rfl | rfl | rfl <;>
      simp [eig6, rv2, v6_1, v6_2, v6_3, v6_4, v6_5] <;> first | done | ring1
  · rcases six n with rfl | rfl | rfl | rfl | rfl | rfl <;> rcases six m with rfl | rfl | rfl | rfl | rfl | rfl <;>
      simp [eig6, rv2, v6_1, v6_2, v6_3, v6_4, v6_5] <;> first | done | ring1

set_option maxHeartbeats 3200000 in
theorem eig6_R0f (m : MPar) (d v1 a i : ℝ) (h : m.t2 = 1 ∧ m.t3 = 0 ∧ m.af = 0) (h0 : m.vax = 0 ∧ m.cs = 0) : ImgU 1 rv2 (eig6 m d v1 a i) (eig6 m d v1 a i) := by
  obtain ⟨cf, cs, vax, t2, t3, af, as, sd, s, nm, di⟩ := m
  obtain ⟨rfl, rfl, rfl⟩ : t2 = 1 ∧ t3 = 0 ∧ af = 0 := h
  obtain ⟨rfl, rfl⟩ : vax = 0 ∧ cs = 0 := h0
  refine ⟨Equiv.swap 1 4, ![-1, -1, 1, 1, -1, -1], fun n => ?_, fun n => ?_, fun n m => ?_, fun n m => ?_⟩
  · rcases six n with rfl | rfl | rfl | rfl | rfl | rfl <;> simp [*]
  · rcases six n with rfl | rfl | rfl | rfl | rfl | rfl <;> simp [eig6, Equiv.swap_apply_def, v6_1, v6_2, v6_3, v6_4, v6_5] <;> first | done | ring1
  · rcases six n with rfl | rfl | rfl | rfl | rfl | rfl <;> rcases six m with rfl | rfl | rfl | rfl | rfl | rfl <;>
      simp [eig6, rv2, Equiv.swap_apply_def, v6_1, v6_2, v6_3, v6_4, v6_5] <;> first | done | ring1
  · rcases six n with rfl | rfl | rfl | rfl | rfl | rfl <;> rcases six m with rfl | rfl | rfl | rfl | rfl | rfl <;>
      simp [eig6, rv2, Equiv.swap_apply_def, v6_1, v6_2, v6_3, v6_4, v6_5] <;> first | done | ring1

set_option maxHeartbeats 3200000 in
theorem eig6_R0s (m : MPar) (d v1 a i : ℝ) (h : m.t2 = 1 ∧ m.t3 = 0 ∧ m.as = 0) (h0 : m.vax = 0 ∧ m.cs = 0) : ImgU 1 rv2 (eig6 m d v1 a i) (eig6 m d v1 a i) := by
  obtain ⟨cf, cs, vax, t2, t3, af, as, sd, s, nm, di⟩ := m
  obtain ⟨rfl, rfl, rfl⟩ : t2 = 1 ∧ t3 = 0 ∧ as = 0 := h
  obtain ⟨rfl, rfl⟩ : vax = 0 ∧ cs = 0 := h0
  refine ⟨Equiv.swap 1 4 * Equiv.swap 2 3, ![1, -1, -1, -1, -1, 1], fun n => ?_, fun n => ?_, fun n m => ?_, fun n m => ?_⟩
  · rcases six n with rfl | rfl | rfl | rfl | rfl | rfl <;> simp [*]
  · rcases six n with rfl | rfl | rfl | rfl | rfl | rfl <;> simp [eig6, Equiv.swap_apply_def, v6_1, v6_2, v6_3, v6_4, v6_5] <;> first | done | ring1
  · rcases six n with rfl | rfl | rfl | rfl | rfl | rfl <;> rcases six m with rfl | rfl | rfl | rfl | rfl | rfl <;>
      simp [eig6, rv2, Equiv.swap_apply_def, v6_1, v6_2, v6_3, v6_4, v6_5] <;> first | done | ring1
  · rcases six n with rfl | rfl | rfl | rfl | rfl | rfl <;> rcases six m with rfl | rfl | rfl | rfl | rfl | rfl <;>
      simp [eig6, rv2, Equiv.swap_apply_def, v6_1, v6_2, v6_3, v6_4, v6_5] <;> first | done | ring1

set_option maxHeartbeats 3200000 in
theorem eig7_R (m : MPar) (d v1 a i : ℝ) : ImgU 1 rv3 (eig7 m d v1 a i) (eig7 { m with s := -m.s, t2 := -m.t2, t3 := -m.t3 } d v1 a i) := by
  obtain ⟨cf, cs, vax, t2, t3, af, as, sd, s, nm, di⟩ := m
  refine ⟨Equiv.refl _, ![1, -1, 1, 1, 1, -1, 1], fun n => ?_, fun n => ?_, fun n m => ?_, fun n m => ?_⟩
  · rcases seven n with rfl | rfl | rfl | rfl | rfl | rfl | rfl <;> simp [*]
  · rcases seven n with rfl | rfl | rfl | rfl | rfl | rfl | rfl <;> simp [eig7, v7_1, v7_2, v7_3, v7_4, v7_5, v7_6] <;> first | done | ring1
  · rcases seven n with rfl | rfl | rfl | rfl | rfl | rfl | rfl <;> rcases seven m with rfl | rfl | rfl | rfl | rfl | rfl | rfl <;>
      simp [eig7, rv3, v7_1, v7_2, v7_3, v7_4, v7_5, v7_6] <;> first | done | ring1
  · rcases seven n with rfl | rfl | rfl | rfl | rfl | rfl | rfl <;> rcases seven m with rfl | rfl | rfl | rfl | rfl | rfl | rfl <;>
      simp [eig7, rv3, v7_1, v7_2, v7_3, v7_4, v7_5, v7_6] <;> first | done | ring1

set_option maxHeartbeats 3200000 in
theorem eig7_R0 (m : MPar) (d v1 a i : ℝ) (h : m.vax = 0 ∧ m.cs = 0) : ImgU 1 rv3 (eig7 m d v1 a i) (eig7 { m with t2 := -m.t2, t3 := -m.t3 } d v1 a i) := by
  obtain ⟨cf, cs, vax, t2, t3, af, as, sd, s, nm, di⟩ := m
  obtain ⟨rfl, rfl⟩ : vax = 0 ∧ cs = 0 := h
  refine ⟨Equiv.swap 1 5 * Equiv.swap 2 4, ![1, 1, 1, 1, 1, 1, 1], fun n => ?_, fun n => ?_, fun n m => ?_, fun n m => ?_⟩
  · rcases seven n with rfl | rfl | rfl | rfl | rfl | rfl | rfl <;> simp [*]
  · rcases seven n with rfl | rfl | rfl | rfl | rfl | rfl | rfl <;> simp [eig7, Equiv.swap_apply_def, v7_1, v7_2, v7_3, v7_4, v7_5, v7_6] <;> first | done | ring1
  · rcases seven n with rfl | rfl | rfl | rfl | rfl | rfl | rfl <;> rcases seven m with rfl | rfl | rfl | rfl | rfl | rfl | rfl <;>
      simp [eig7, rv3, Equiv.swap_apply_def, v7_1, v7_2, v7_3, v7_4, v7_5, v7_6] <;> first | done | ring1
  · rcases seven n with rfl | rfl | rfl | rfl | rfl | rfl | rfl <;> rcases seven m with rfl | rfl | rfl | rfl | rfl | rfl | rfl <;>
      simp [eig7, rv3, Equiv.swap_apply_def, v7_1, v7_2, v7_3, v7_4, v7_5, v7_6] <;> first | done | ring1

set_option maxHeartbeats 3200000 in
theorem eig7_Rf (m : MPar) (d v1 a i : ℝ) (h : m.t2 = 1 ∧ m.t3 = 0 ∧ m.af = 0) : ImgU 1 rv3 (eig7 m d v1 a i) (eig7 { m with s := -m.s } d v1 a i) := by
  obtain ⟨cf, cs, vax, t2, t3, af, as, sd, s, nm, di⟩ := m
  obtain ⟨rfl, rfl, rfl⟩ : t2 = 1 ∧ t3 = 0 ∧ af = 0 := h
  refine ⟨Equiv.refl _, ![-1, 1, 1, 1, 1, 1, -1], fun n => ?_, fun n => ?_, fun n m => ?_, fun n m => ?_⟩
  · rcases seven n with rfl | rfl | rfl | rfl | rfl | rfl | rfl <;> simp [*]
  · rcases seven n with rfl | rfl | rfl | rfl | rfl | rfl | rfl <;> simp [eig7, v7_1, v7_2, v7_3, v7_4, v7_5, v7_6] <;> first | done | ring1
  · rcases seven n with rfl | rfl | rfl | rfl | rfl | rfl | rfl <;> rcases seven m with rfl | rfl | rfl | rfl | rfl | rfl | rfl <;>
      simp [eig7, rv3, v7_1, v7_2, v7_3, v7_4, v7_5, v7_6] <;> first | done | ring1
  · rcases seven n with rfl | rfl | rfl | rfl | rfl | rfl | rfl <;> rcases seven m with rfl | rfl | rfl | rfl | rfl | rfl | rfl <;>
      simp [eig7, rv3, v7_1, v7_2, v7_3, v7_4, v7_5, v7_6] <;> first | done | ring1

set_option maxHeartbeats 3200000 in
theorem eig7_Rs (m : MPar) (d v1 a i : ℝ) (h : m.t2 = 1 ∧ m.t3 = 0 ∧ m.as = 0) : ImgU 1 rv3 (eig7 m d v1 a i) (eig7 { m with s := -m.s } d v1 a i) := by
  obtain ⟨cf, cs, vax, t2, t3, af, as, sd, s, nm, di⟩ := m
  obtain ⟨rfl, rfl, rfl⟩ : t2 = 1 ∧ t3 = 0 ∧ as = 0 := h
  refine ⟨Equiv.refl _, ![1, 1, -1, 1, -1, 1, 1], fun n => ?_, fun n => ?_, fun n m => ?_, fun n m => ?_⟩
  · rcases seven n with rfl | rfl | rfl | rfl | rfl | rfl | rfl <;> simp [*]
  · rcases seven n with rfl | rfl | rfl | rfl | rfl | rfl | rfl <;> simp [eig7, v7_1, v7_2, v7_3, v7_4, v7_5, v7_6] <;> first | done | ring1
  · rcases seven n with rfl | rfl | rfl | rfl | rfl | rfl | rfl <;> rcases seven m with rfl | rfl | rfl | rfl | rfl | rfl | rfl <;>
      simp [eig7, rv3, v7_1, v7_2, v7_3, v7_4, v7_5, v7_6] <;> first | done | ring1
  · rcases seven n with rfl | rfl | rfl | rfl | rfl | rfl | rfl <;> rcases seven m with rfl | rfl | rfl | rfl | rfl | rfl | rfl <;>
      simp [eig7, rv3, v7_1, v7_2, v7_3, v7_4, v7_5, v7_6] <;> first | done | ring1

set_option maxHeartbeats 3200000 in
theorem eig7_R0f (m : MPar) (d v1 a i : ℝ) (h : m.t2 = 1 ∧ m.t3 = 0 ∧ m.af = 0) (h0 : m.vax = 0 ∧ m.cs = 0) : ImgU 1 rv3 (eig7 m d v1 a i) (eig7 m d v1 a i) := by
  obtain ⟨cf, cs, vax, t2, t3, af, as, sd, s, nm, di⟩ := m
  obtain ⟨rfl, rfl, rfl⟩ : t2 = 1 ∧ t3 = 0 ∧ af = 0 := h
  obtain ⟨rfl, rfl⟩ : vax = 0 ∧ cs = 0 := h0
  refine ⟨Equiv.swap 1 5, ![-1, -1, 1, 1, 1, -1, -1], fun n => ?_, fun n => ?_, fun n m => ?_, fun n m => ?_⟩
  · rcases seven n with rfl | rfl | rfl | rfl | rfl | rfl | rfl <;> simp [*]
  · rcases seven n with rfl | rfl | rfl | rfl | rfl | rfl | rfl <;> simp [eig7, Equiv.swap_apply_def, v7_1, v7_2, v7_3, v7_4, v7_5, v7_6] <;> first | done | ring1
  · rcases seven n with rfl | rfl | rfl | rfl | rfl | rfl | rfl <;> rcases seven m with rfl | rfl | rfl | rfl | rfl | rfl | rfl <;>
      simp [eig7, rv3, Equiv.swap_apply_def, v7_1, v7_2, v7_3, v7_4, v7_5, v7_6] <;> first | done | ring1
  · rcases seven n with rfl | rfl | rfl | rfl | rfl | rfl | rfl <;> rcases seven m with rfl | rfl | rfl | rfl | rfl | rfl | rfl <;>
      simp [eig7, rv3, Equiv.swap_apply_def, v7_1, v7_2, v7_3, v7_4, v7_5, v7_6] <;> first | done | ring1

set_option maxHeartbeats 3200000 in
theorem eig7_R0s (m : MPar) (d v1 a i : ℝ) (h : m.t2 = 1 ∧ m.t3 = 0 ∧ m.as = 0) (h0 : m.vax = 0 ∧ m.cs = 0) : ImgU 1 rv3 (eig7 m d v1 a i) (eig7 m d v1 a i) := by
  obtain ⟨cf, cs, vax, t2, t3, af, as, sd, s, nm, di⟩ := m
  obtain ⟨rfl, rfl, rfl⟩ : t2 = 1 ∧ t3 = 0 ∧ as = 0 := h
  obtain ⟨rfl, rfl⟩ : vax = 0 ∧ cs = 0 := h0
  refine ⟨Equiv.swap 1 5 * Equiv.swap 2 4, ![1, -1, -1, 1, -1, -1, 1], fun n => ?_, fun n => ?_, fun n m => ?_, fun n m => ?_⟩
  · rcases seven n with rfl | rfl | rfl | rfl | rfl | rfl | rfl <;> simp [*]
  · rcases seven n with rfl | rfl | rfl | rfl | rfl | rfl | rfl <;> simp [eig7, Equiv.swap_apply_def, v7_1, v7_2, v7_3, v7_4, v7_5, v7_6] <;> first | done | ring1
  · rcases seven n with rfl | rfl | rfl | rfl | rfl | rfl | rfl <;> rcases seven m with rfl | rfl | rfl | rfl | rfl | rfl | rfl <;>
      simp [eig7, rv3, Equiv.swap_apply_def, v7_1, v7_2, v7_3, v7_4, v7_5, v7_6] <;> first | done | ring1
  · rcases seven n with rfl | rfl | rfl | rfl | rfl | rfl | rfl <;> rcases seven m with rfl | rfl | rfl | rfl | rfl | rfl | rfl <;>
      simp [eig7, rv3, Equiv.swap_apply_def, v7_1, v7_2, v7_3, v7_4, v7_5, v7_6] <;> first | done | ring1

theorem parP_R (iso : Bool) (d b1 b2 b3 T : ℝ) : parP iso d (-b1) (-b2) (-b3) T =
    (parP iso d b1 b2 b3 T).map fun m => { m with s := sgn (-b1), t2 := if b2 = 0 ∧ b3 = 0 then m.t2 else -m.t2, t3 := if b2 = 0 ∧ b3 = 0 then m.t3 else -m.t3 } := by
  rw [parP_Z, parP_Y, parP_X, Option.map_map, Option.map_map]
  congr 1
  funext m
  simp [Function.comp]

/-! ## The whole eigensystems -/

theorem adbMhd_U_aux {r v : ℝ} (hr0 : 0 < r) (hv : 0 < v) (gamma : ℝ) (W : Vec 3 ns) (b : ℝ) : ∃ E E', esysAdbMhd ns gamma W b = E ∧ esysAdbMhd ns gamma (flipV (un3 r v) W) (r * v * b) = E' ∧
    ImgU v (un3 r v) E E' ∧ E'.ev 0 = v * E.ev 0 ∧ E'.ev 6 = v * E.ev 6 := by
  have hr1 := hr0.ne'; have hv1 := hv.ne'
  have e : esysAdbMhd ns gamma (flipV (un3 r v) W) (r * v * b) = (esysP7 (r * r * W (Sum.inl 0)) (v * W (Sum.inl 1)) (r * r * (v * v) * (gamma * W (Sum.inl 4))) (r * v * b) (r * v * W (Sum.inl 5)) (r * v * W (Sum.inl 6))).getD ⟨fun _ => 0, fun _ _ => 0, fun _ _ => 0⟩ := by
    simp [esysAdbMhd, flipV, sg, un3]; congr 2; ring
  refine ⟨_, _, rfl, e, ?_⟩
  unfold esysAdbMhd
  by_cases hp : 0 < W (Sum.inl 0) ∧ 0 < (gamma * W (Sum.inl 4))
  · obtain ⟨hd, hr⟩ := hp
    have hT : 0 < ((gamma * W (Sum.inl 4)) * (1 / W (Sum.inl 0))) := mul_pos hr (by positivity)
    obtain ⟨m, bt, hm, hM, -⟩ := parP_spec false (W (Sum.inl 0)) b (W (Sum.inl 5)) (W (Sum.inl 6)) (Real.sqrt ((gamma * W (Sum.inl 4)) * (1 / W (Sum.inl 0)))) ((gamma * W (Sum.inl 4)) * (1 / W (Sum.inl 0))) hd (Real.sqrt_pos.mpr hT) ((Real.sq_sqrt hT.le).symm)
    have hm' := parP_un hr0 hv false (W (Sum.inl 0)) b (W (Sum.inl 5)) (W (Sum.inl 6)) ((gamma * W (Sum.inl 4)) * (1 / W (Sum.inl 0)))
    rw [hm, Option.map_some] at hm'
    have eT : r * r * (v * v) * (gamma * W (Sum.inl 4)) * (1 / (r * r * W (Sum.inl 0))) = v * v * ((gamma * W (Sum.inl 4)) * (1 / W (Sum.inl 0))) := by have := hd.ne'; field_simp
    rw [← eT] at hm'
    rw [esysP7_of hd hr hm, esysP7_of (by positivity) (mul_pos (by positivity) hr) hm', eT, sqrt_sc hv]
    have ei : 1 / (m.un r v).sd = 1 / r * (1 / m.sd) := by
      change 1 / (r * m.sd) = _
      rw [one_div_mul_one_div]
    rw [ei]
    simp only [Option.getD_some]
    refine ⟨eig7_U hr0 hv _ _ _ _ _, ?_, ?_⟩ <;> simp [eig7, MPar.un, v7_6] <;> ring
  · rw [esysP7_none hp, esysP7_none (fun h => hp ⟨(mul_pos_iff_of_pos_left (by positivity)).1 h.1, (mul_pos_iff_of_pos_left (by positivity)).1 h.2⟩)]
    exact ⟨imgU_zero _ _, by simp⟩

theorem adbMhd_U {r v : ℝ} (hr : 0 < r) (hv : 0 < v) (gamma : ℝ) : UnitSym (ns := ns) (k := 3) v (r * v) (un3 r v) (esysAdbMhd ns gamma) (esysAdbMhd ns gamma) where
  img W b := by obtain ⟨_, _, rfl, rfl, h, -⟩ := adbMhd_U_aux hr hv gamma W b; exact h
  lo W b := by obtain ⟨_, _, rfl, rfl, -, h, -⟩ := adbMhd_U_aux hr hv gamma W b; exact h
  hi W b := by obtain ⟨_, _, rfl, rfl, -, -, h⟩ := adbMhd_U_aux hr hv gamma W b; exact h

theorem adbMhd_R_aux (gamma : ℝ) (W : Vec 3 ns) (b : ℝ) : ∃ E E', esysAdbMhd ns gamma W b = E ∧ esysAdbMhd ns gamma (flipV rv3 W) (-1 * b) = E' ∧
    ImgU 1 rv3 E E' ∧ E'.ev 0 = 1 * E.ev 0 ∧ E'.ev 6 = 1 * E.ev 6 := by
  have e : esysAdbMhd ns gamma (flipV rv3 W) (-1 * b) = (esysP7 (W (Sum.inl 0)) (W (Sum.inl 1)) (gamma * W (Sum.inl 4)) (-b) (-W (Sum.inl 5)) (-W (Sum.inl 6))).getD ⟨fun _ => 0, fun _ _ => 0, fun _ _ => 0⟩ := by
    simp [esysAdbMhd, flipV, sg, rv3]
  refine ⟨_, _, rfl, e, ?_⟩
  unfold esysAdbMhd
  by_cases hp : 0 < W (Sum.inl 0) ∧ 0 < (gamma * W (Sum.inl 4))
  · obtain ⟨hd, hr⟩ := hp
    have hT : 0 < ((gamma * W (Sum.inl 4)) * (1 / W (Sum.inl 0))) := mul_pos hr (by positivity)
    obtain ⟨m, bt, hm, hM, -⟩ := parP_spec false (W (Sum.inl 0)) b (W (Sum.inl 5)) (W (Sum.inl 6)) (Real.sqrt ((gamma * W (Sum.inl 4)) * (1 / W (Sum.inl 0)))) ((gamma * W (Sum.inl 4)) * (1 / W (Sum.inl 0))) hd (Real.sqrt_pos.mpr hT) ((Real.sq_sqrt hT.le).symm)
    have hm' := parP_R false (W (Sum.inl 0)) b (W (Sum.inl 5)) (W (Sum.inl 6)) ((gamma * W (Sum.inl 4)) * (1 / W (Sum.inl 0)))
    rw [hm, Option.map_some] at hm'
    have hs : m.s = sgn b := by
      have := parP_R false (W (Sum.inl 0)) (-b) (-W (Sum.inl 5)) (-W (Sum.inl 6)) ((gamma * W (Sum.inl 4)) * (1 / W (Sum.inl 0)))
      rw [neg_neg, neg_neg, neg_neg, hm, hm', Option.map_some] at this
      exact congrArg MPar.s (Option.some_injective _ this)
    rw [esysP7_of hd hr hm, esysP7_of hd hr hm']
    simp only [Option.getD_some]
    refine ⟨?_, by constructor <;> simp [eig7, v7_6]⟩
    by_cases hb : W (Sum.inl 5) = 0 ∧ W (Sum.inl 6) = 0
    · simp only [if_pos hb]
      have hm2 := hm
      rw [hb.1, hb.2] at hm2
      obtain ⟨h2, h3, h4⟩ := parP_nobt false hd hT hm2
      by_cases h1 : b = 0
      · subst h1
        have h0 := parP_b1 hd (Real.sqrt_pos.mpr hT) ((Real.sq_sqrt hT.le).symm) hm
        rw [neg_zero, ← hs]
        rcases h4 with h4 | h4
        · exact eig7_R0f m _ _ _ _ ⟨h2, h3, h4⟩ h0
        · exact eig7_R0s m _ _ _ _ ⟨h2, h3, h4⟩ h0
      · rw [sgn_neg_ne h1, ← hs]
        rcases h4 with h4 | h4
        · exact eig7_Rf m _ _ _ _ ⟨h2, h3, h4⟩
        · exact eig7_Rs m _ _ _ _ ⟨h2, h3, h4⟩
    · simp only [if_neg hb]
      by_cases h1 : b = 0
      · subst h1
        have h0 := parP_b1 hd (Real.sqrt_pos.mpr hT) ((Real.sq_sqrt hT.le).symm) hm
        rw [neg_zero, ← hs]
        exact eig7_R0 m _ _ _ _ h0
      · rw [sgn_neg_ne h1, ← hs]
        exact eig7_R m _ _ _ _
  · rw [esysP7_none hp, esysP7_none hp]
    exact ⟨imgU_zero _ _, by simp⟩

theorem adbMhd_R (gamma : ℝ) : UnitSym (ns := ns) (k := 3) 1 (-1) rv3 (esysAdbMhd ns gamma) (esysAdbMhd ns gamma) where
  img W b := by obtain ⟨_, _, rfl, rfl, h, -⟩ := adbMhd_R_aux gamma W b; exact h
  lo W b := by obtain ⟨_, _, rfl, rfl, -, h, -⟩ := adbMhd_R_aux gamma W b; exact h
  hi W b := by obtain ⟨_, _, rfl, rfl, -, -, h⟩ := adbMhd_R_aux gamma W b; exact h

theorem isoMhd_U_aux {r v : ℝ} (hr0 : 0 < r) (hv : 0 < v) (c : ℝ) (W : Vec 2 ns) (b : ℝ) : ∃ E E', esysIsoMhd ns c W b = E ∧ esysIsoMhd ns (v * c) (flipV (un2 r v) W) (r * v * b) = E' ∧
    ImgU v (un2 r v) E E' ∧ E'.ev 0 = v * E.ev 0 ∧ E'.ev 5 = v * E.ev 5 := by
  have hr1 := hr0.ne'; have hv1 := hv.ne'
  have e : esysIsoMhd ns (v * c) (flipV (un2 r v) W) (r * v * b) = (esysP6 (v * c) (r * r * W (Sum.inl 0)) (v * W (Sum.inl 1)) (r * v * b) (r * v * W (Sum.inl 4)) (r * v * W (Sum.inl 5))).getD ⟨fun _ => 0, fun _ _ => 0, fun _ _ => 0⟩ := by
    simp [esysIsoMhd, flipV, sg, un2]
  refine ⟨_, _, rfl, e, ?_⟩
  unfold esysIsoMhd
  by_cases hp : 0 < W (Sum.inl 0) ∧ c ≠ 0
  · obtain ⟨hd, hr⟩ := hp
    have hT : 0 < c * c := mul_self_pos.mpr hr
    obtain ⟨m, bt, hm, hM, -⟩ := parP_spec true (W (Sum.inl 0)) b (W (Sum.inl 4)) (W (Sum.inl 5)) |c| (c * c) hd (abs_pos.mpr hr) (by rw [sq_abs]; ring)
    have hm' := parP_un hr0 hv true (W (Sum.inl 0)) b (W (Sum.inl 4)) (W (Sum.inl 5)) (c * c)
    rw [hm, Option.map_some] at hm'
    rw [show v * v * (c * c) = v * c * (v * c) by ring] at hm'
    rw [esysP6_of hd hr hm, esysP6_of (by positivity) (mul_ne_zero hv1 hr) hm']
    have ei : 1 / (m.un r v).sd = 1 / r * (1 / m.sd) := by
      change 1 / (r * m.sd) = _
      rw [one_div_mul_one_div]
    rw [ei]
    simp only [Option.getD_some]
    refine ⟨eig6_U hr0 hv _ _ _ _ _, ?_, ?_⟩ <;> simp [eig6, MPar.un, v6_5] <;> ring
  · rw [esysP6_none hp, esysP6_none (fun h => hp ⟨(mul_pos_iff_of_pos_left (by positivity)).1 h.1, fun h0 => h.2 (by rw [h0, mul_zero])⟩)]
    exact ⟨imgU_zero _ _, by simp⟩

theorem isoMhd_U {r v : ℝ} (hr : 0 < r) (hv : 0 < v) (c : ℝ) : UnitSym (ns := ns) (k := 2) v (r * v) (un2 r v) (esysIsoMhd ns c) (esysIsoMhd ns (v * c)) where
  img W b := by obtain ⟨_, _, rfl, rfl, h, -⟩ := isoMhd_U_aux hr hv c W b; exact h
  lo W b := by obtain ⟨_, _, rfl, rfl, -, h, -⟩ := isoMhd_U_aux hr hv c W b; exact h
  hi W b := by obtain ⟨_, _, rfl, rfl, -, -, h⟩ := isoMhd_U_aux hr hv c W b; exact h

theorem isoMhd_R_aux (c : ℝ) (W : Vec 2 ns) (b : ℝ) : ∃ E E', esysIsoMhd ns c W b = E ∧ esysIsoMhd ns c (flipV rv2 W) (-1 * b) = E' ∧
    ImgU 1 rv2 E E' ∧ E'.ev 0 = 1 * E.ev 0 ∧ E'.ev 5 = 1 * E.ev 5 := by
  have e : esysIsoMhd ns c (flipV rv2 W) (-1 * b) = (esysP6 c (W (Sum.inl 0)) (W (Sum.inl 1)) (-b) (-W (Sum.inl 4)) (-W (Sum.inl 5))).getD ⟨fun _ => 0, fun _ _ => 0, fun _ _ => 0⟩ := by
    simp [esysIsoMhd, flipV, sg, rv2]
  refine ⟨_, _, rfl, e, ?_⟩
  unfold esysIsoMhd
  by_cases hp : 0 < W (Sum.inl 0) ∧ c ≠ 0
  · obtain ⟨hd, hr⟩ := hp
    have hT : 0 < c * c := mul_self_pos.mpr hr
    obtain ⟨m, bt, hm, hM, -⟩ := parP_spec true (W (Sum.inl 0)) b (W (Sum.inl 4)) (W (Sum.inl 5)) |c| (c * c) hd (abs_pos.mpr hr) (by rw [sq_abs]; ring)
    have hm' := parP_R true (W (Sum.inl 0)) b (W (Sum.inl 4)) (W (Sum.inl 5)) (c * c)
    rw [hm, Option.map_some] at hm'
    have hs : m.s = sgn b := by
      have := parP_R true (W (Sum.inl 0)) (-b) (-W (Sum.inl 4)) (-W (Sum.inl 5)) (c * c)
      rw [neg_neg, neg_neg, neg_neg, hm, hm', Option.map_some] at this
      exact congrArg MPar.s (Option.some_injective _ this)
    rw [esysP6_of hd hr hm, esysP6_of hd hr hm']
    simp only [Option.getD_some]
    refine ⟨?_, by constructor <;> simp [eig6, v6_5]⟩
    by_cases hb : W (Sum.inl 4) = 0 ∧ W (Sum.inl 5) = 0
    · simp only [if_pos hb]
      have hm2 := hm
      rw [hb.1, hb.2] at hm2
      obtain ⟨h2, h3, h4⟩ := parP_nobt true hd hT hm2
      by_cases h1 : b = 0
      · subst h1
        have h0 := parP_b1 hd (abs_pos.mpr hr) (by rw [sq_abs]; ring) hm
        rw [neg_zero, ← hs]
        rcases h4 with h4 | h4
        · exact eig6_R0f m _ _ _ _ ⟨h2, h3, h4⟩ h0
        · exact eig6_R0s m _ _ _ _ ⟨h2, h3, h4⟩ h0
      · rw [sgn_neg_ne h1, ← hs]
        rcases h4 with h4 | h4
        · exact eig6_Rf m _ _ _ _ ⟨h2, h3, h4⟩
        · exact eig6_Rs m _ _ _ _ ⟨h2, h3, h4⟩
    · simp only [if_neg hb]
      by_cases h1 : b = 0
      · subst h1
        have h0 := parP_b1 hd (abs_pos.mpr hr) (by rw [sq_abs]; ring) hm
        rw [neg_zero, ← hs]
        exact eig6_R0 m _ _ _ _ h0
      · rw [sgn_neg_ne h1, ← hs]
        exact eig6_R m _ _ _ _
  · rw [esysP6_none hp, esysP6_none hp]
    exact ⟨imgU_zero _ _, by simp⟩

theorem isoMhd_R (c : ℝ) : UnitSym (ns := ns) (k := 2) 1 (-1) rv2 (esysIsoMhd ns c) (esysIsoMhd ns c) where
  img W b := by obtain ⟨_, _, rfl, rfl, h, -⟩ := isoMhd_R_aux c W b; exact h
  lo W b := by obtain ⟨_, _, rfl, rfl, -, h, -⟩ := isoMhd_R_aux c W b; exact h
  hi W b := by obtain ⟨_, _, rfl, rfl, -, -, h⟩ := isoMhd_R_aux c W b; exact h

end
end Athena.Recon
