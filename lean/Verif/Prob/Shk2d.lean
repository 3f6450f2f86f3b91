import Verif.Base
import Mathlib.Analysis.SpecialFunctions.Trigonometric.Arctan
import Mathlib.Analysis.SpecialFunctions.Integrals.Basic
import Mathlib.Tactic.Linarith
import Mathlib.Tactic.FieldSimp
import Mathlib.Tactic.Ring
import Mathlib.Tactic.SplitIfs
import Mathlib.Tactic.Push

/-!
# src/prob/shkset2d.c: a shock tube at an angle to the grid

Real numbers for floating point; the number of zones is taken as given (`(int)(Lx/rootdx1)` is exact); passive scalars and the analytic solution for the
error test are left out.
-/

namespace Athena.Shk2d

/-- A state in the coordinates of the tube: `Cons1DS`, with the field along the tube. -/
structure Cons1 where
  d : ℝ
  Mx : ℝ
  My : ℝ
  Mz : ℝ
  E : ℝ
  Bx : ℝ
  By : ℝ
  Bz : ℝ

/-- `ConsS`. -/
structure Cons where
  d : ℝ
  M1 : ℝ
  M2 : ℝ
  M3 : ℝ
  E : ℝ
  B1c : ℝ
  B2c : ℝ
  B3c : ℝ

/-- `ql`, `qr`: shkset2d.c:199-224. -/
def rot (cosa sina : ℝ) (U : Cons1) : Cons where
  d := U.d
  M1 := U.Mx * cosa - U.My * sina
  M2 := U.Mx * sina + U.My * cosa
  M3 := U.Mz
  E := U.E
  B1c := U.Bx * cosa - U.By * sina
  B2c := U.Bx * sina + U.By * cosa
  B3c := U.Bz

/-- `cos_a3` and `sin_a3`, shkset2d.c:153-163. -/
noncomputable def angle (Lx Ly : ℝ) : ℝ × ℝ :=
  if Lx = Ly then (Real.sqrt (1 / 2), Real.sqrt (1 / 2))
  else (Real.cos (Real.arctan (Lx / Ly)), Real.sin (Real.arctan (Lx / Ly)))

/-- What is set in a zone: `U`, and the field on its left faces. -/
structure Zone where
  U : Cons
  B1i : ℝ
  B2i : ℝ
  B3i : ℝ

/-- A zone of one state only, shkset2d.c:236-252. -/
def pure (q : Cons) : Zone := ⟨q, q.B1c, q.B2c, q.B3c⟩

/-- A zone, by `ix1` and `ix2`: shkset2d.c:235-347; `G` is `gcd*r1*r2`. -/
noncomputable def zone (r1 r2 G : ℤ) (ql qr : Cons) (ix1 ix2 : ℤ) : Zone :=
  let drr := r2 * ix1 + r1 * ix2 - G
  let dll := r2 * (ix1 - 1) + r1 * (ix2 - 1) - G
  if drr ≤ 0 then pure ql
  else if dll ≥ 0 then pure qr
  else
    let dlr := r2 * (ix1 - 1) + r1 * ix2 - G
    let x : ℝ × ℝ × ℝ × ℝ := -- afl_lx, afr_lx, afl_ry, afr_ry
      if dlr < 0 then (1, 0, (-dlr : ℤ) / (r2 : ℝ), 1 - (-dlr : ℤ) / (r2 : ℝ))
      else if dlr > 0 then ((-dll : ℤ) / (r1 : ℝ), 1 - (-dll : ℤ) / (r1 : ℝ), 0, 1)
      else (1, 0, 0, 1)
    let drl := r2 * ix1 + r1 * (ix2 - 1) - G
    let y : ℝ × ℝ × ℝ × ℝ := -- afl_rx, afr_rx, afl_ly, afr_ly
      if drl < 0 then ((-drl : ℤ) / (r1 : ℝ), 1 - (-drl : ℤ) / (r1 : ℝ), 1, 0)
      else if drl > 0 then (0, 1, (-dll : ℤ) / (r2 : ℝ), 1 - (-dll : ℤ) / (r2 : ℝ))
      else (0, 1, 1, 0)
    let afl_lx := x.1
    let afr_lx := x.2.1
    let afl_ry := x.2.2.1
    let afr_ry := x.2.2.2
    let afl_rx := y.1
    let afr_rx := y.2.1
    let afl_ly := y.2.2.1
    let afr_ly := y.2.2.2
    let v : ℝ × ℝ := -- vfl, vfr
      if dlr > 0 ∧ drl < 0 then (1 / 2 * (afl_lx + afl_rx), 1 - 1 / 2 * (afl_lx + afl_rx))
      else if dlr < 0 ∧ drl > 0 then (1 / 2 * (afl_ly + afl_ry), 1 - 1 / 2 * (afl_ly + afl_ry))
      else if dlr = 0 ∧ drl = 0 then (1 / 2, 1 / 2)
      else if dlr > 0 ∧ drl > 0 then (1 / 2 * afl_lx * afl_ly, 1 - 1 / 2 * afl_lx * afl_ly)
      else (1 - 1 / 2 * afr_rx * afr_ry, 1 / 2 * afr_rx * afr_ry)
    let vfl := v.1
    let vfr := v.2
    let B1i := afl_lx * ql.B1c + afr_lx * qr.B1c
    let B1r := afl_rx * ql.B1c + afr_rx * qr.B1c
    let B2i := afl_ly * ql.B2c + afr_ly * qr.B2c
    let B2r := afl_ry * ql.B2c + afr_ry * qr.B2c
    let B3 := vfl * ql.B3c + vfr * qr.B3c
    ⟨⟨vfl * ql.d + vfr * qr.d, vfl * ql.M1 + vfr * qr.M1, vfl * ql.M2 + vfr * qr.M2, vfl * ql.M3 + vfr * qr.M3, vfl * ql.E + vfr * qr.E,
      1 / 2 * (B1i + B1r), 1 / 2 * (B2i + B2r), B3⟩, B1i, B2i, B3⟩

/-- The input: zones of the root Domain, size of its zones, left and right state. -/
structure Setup where
  nx1 : ℕ
  nx2 : ℕ
  dx1 : ℝ
  dx2 : ℝ
  Ul : Cons1
  Ur : Cons1

/-- `gcd`, `r1`, `r2`: shkset2d.c:123-149 (`ath_gcd` is C37). -/
def Setup.g (S : Setup) : ℕ := Nat.gcd S.nx1 S.nx2
/-- See `Setup.g`. -/
def Setup.r1 (S : Setup) : ℕ := S.nx1 / S.g
/-- See `Setup.g`. -/
def Setup.r2 (S : Setup) : ℕ := S.nx2 / S.g
/-- `cos_a3`, `sin_a3`. -/
noncomputable def Setup.ang (S : Setup) : ℝ × ℝ := angle (S.nx1 * S.dx1) (S.nx2 * S.dx2)
/-- `ql`. -/
noncomputable def Setup.ql (S : Setup) : Cons := rot S.ang.1 S.ang.2 S.Ul
/-- `qr`. -/
noncomputable def Setup.qr (S : Setup) : Cons := rot S.ang.1 S.ang.2 S.Ur

/-- `problem`, shkset2d.c:65-349, on a Grid with displacement `disp`: the zones by their array index `(j, i)`.  `ath_error(0,…)` (:193) passes a null
format. -/
noncomputable def problem (S : Setup) (disp1 disp2 : ℤ) : Res (ℤ → ℤ → Zone) :=
  open Classical in
  if S.nx2 = 1 then .fatal
  else if S.g < 10 then .fatal
  else if S.Ur.Bx ≠ S.Ul.Bx then .ub
  else .ok fun j i => zone S.r1 S.r2 (S.g * S.r1 * S.r2) S.ql S.qr (i + disp1) (j + disp2)

/-! ## Specification -/

/-- The part of `[0,1]` below `t`. -/
noncomputable def clamp (t : ℝ) : ℝ := max 0 (min 1 t)

/-- The part of the zone `[a-1,a] × [b-1,b]` with `r2 x + r1 y ≤ G`: for each `x` the length of the part of the line `[b-1,b]` below the interface. -/
noncomputable def leftPart (r1 r2 G a b : ℝ) : ℝ := ∫ x in (a - 1)..a, clamp ((G - r2 * x) / r1 - (b - 1))

/-- A weighted mean of the two states. -/
noncomputable def mean (w l r : ℝ) : ℝ := w * l + (1 - w) * r

/-! ## Lemmas -/

theorem clamp_one {t : ℝ} (h : 1 ≤ t) : clamp t = 1 := by
  unfold clamp; rw [min_eq_left h, max_eq_right (by norm_num)]
theorem clamp_zero {t : ℝ} (h : t ≤ 0) : clamp t = 0 := by
  unfold clamp; rw [min_eq_right (by linarith), max_eq_left h]
theorem clamp_mid {t : ℝ} (h : 0 ≤ t) (h' : t ≤ 1) : clamp t = t := by
  unfold clamp; rw [min_eq_right h', max_eq_right h]

theorem clamp_cont : Continuous clamp := by
  unfold clamp; fun_prop

/-- The integral of the part below a falling line; `p` and `q` are the points at which the line leaves the upper and the lower edge. -/
theorem int_clamp {T r1 r2 p q : ℝ} (hr1 : 0 < r1) (hr2 : 0 < r2) (h0 : 0 ≤ p) (hpq : p ≤ q) (h1 : q ≤ 1) (hp : p = 0 ∨ r2 * p ≤ T - r1)
    (hm : T - r1 ≤ r2 * p) (hm' : r2 * q ≤ T) (hq : q = 1 ∨ T ≤ r2 * q) :
    (∫ x in (0:ℝ)..1, clamp ((T - r2 * x) / r1)) = p + (T * (q - p) - r2 * (q ^ 2 - p ^ 2) / 2) / r1 := by
  have hc : Continuous fun x => clamp ((T - r2 * x) / r1) := clamp_cont.comp (by fun_prop)
  have hi : ∀ a b, IntervalIntegrable (fun x => clamp ((T - r2 * x) / r1)) MeasureTheory.volume a b := fun a b => hc.intervalIntegrable a b
  rw [← intervalIntegral.integral_add_adjacent_intervals (hi 0 q) (hi q 1), ← intervalIntegral.integral_add_adjacent_intervals (hi 0 p) (hi p q)]
  have e1 : (∫ x in (0:ℝ)..p, clamp ((T - r2 * x) / r1)) = p := by
    rcases hp with hp | hp
    · subst hp; simp
    · have : (∫ x in (0:ℝ)..p, clamp ((T - r2 * x) / r1)) = ∫ _ in (0:ℝ)..p, (1:ℝ) := by
        apply intervalIntegral.integral_congr
        intro x hx
        rw [Set.uIcc_of_le h0] at hx
        apply clamp_one
        rw [le_div_iff₀ hr1]
        have := mul_le_mul_of_nonneg_left hx.2 hr2.le
        linarith
      rw [this]; simp
  have e2 : (∫ x in p..q, clamp ((T - r2 * x) / r1)) = ∫ x in p..q, (T - r2 * x) / r1 := by
    apply intervalIntegral.integral_congr
    intro x hx
    rw [Set.uIcc_of_le hpq] at hx
    have a1 := mul_le_mul_of_nonneg_left hx.1 hr2.le
    have a2 := mul_le_mul_of_nonneg_left hx.2 hr2.le
    exact clamp_mid (div_nonneg (by linarith) hr1.le) ((div_le_one hr1).2 (by linarith))
  have e3 : (∫ x in q..1, clamp ((T - r2 * x) / r1)) = 0 := by
    rcases hq with hq | hq
    · subst hq; simp
    · have : (∫ x in q..1, clamp ((T - r2 * x) / r1)) = ∫ _ in q..1, (0:ℝ) := by
        apply intervalIntegral.integral_congr
        intro x hx
        rw [Set.uIcc_of_le h1] at hx
        have a1 := mul_le_mul_of_nonneg_left hx.1 hr2.le
        exact clamp_zero (div_nonpos_of_nonpos_of_nonneg (by linarith) hr1.le)
      rw [this]; simp
  rw [e1, e2, e3, intervalIntegral.integral_div, intervalIntegral.integral_sub (by simp) (Continuous.intervalIntegrable (by fun_prop) _ _),
    intervalIntegral.integral_const_mul, integral_id]
  simp
  ring

theorem area_full {T r1 r2 : ℝ} (hr1 : 0 < r1) (hr2 : 0 < r2) (h : r1 + r2 ≤ T) : (∫ x in (0:ℝ)..1, clamp ((T - r2 * x) / r1)) = 1 := by
  have : (∫ x in (0:ℝ)..1, clamp ((T - r2 * x) / r1)) = ∫ _ in (0:ℝ)..1, (1:ℝ) := by
    apply intervalIntegral.integral_congr
    intro x hx
    rw [Set.uIcc_of_le (by norm_num)] at hx
    have := mul_le_mul_of_nonneg_left hx.2 hr2.le
    exact clamp_one ((le_div_iff₀ hr1).2 (by linarith))
  rw [this]; simp

theorem area_none {T r1 r2 : ℝ} (hr1 : 0 < r1) (hr2 : 0 < r2) (h : T ≤ 0) : (∫ x in (0:ℝ)..1, clamp ((T - r2 * x) / r1)) = 0 := by
  have : (∫ x in (0:ℝ)..1, clamp ((T - r2 * x) / r1)) = ∫ _ in (0:ℝ)..1, (0:ℝ) := by
    apply intervalIntegral.integral_congr
    intro x hx
    rw [Set.uIcc_of_le (by norm_num)] at hx
    have := mul_le_mul_of_nonneg_left hx.1 hr2.le
    exact clamp_zero (div_nonpos_of_nonpos_of_nonneg (by linarith) hr1.le)
  rw [this]; simp

/-- In terms of `dll` and the shift to the zone. -/
theorem leftPart_eq {r1 : ℝ} (h : 0 < r1) (r2 G a b : ℝ) :
    leftPart r1 r2 G a b = ∫ x in (0:ℝ)..1, clamp ((G - r2 * (a - 1) - r1 * (b - 1) - r2 * x) / r1) := by
  unfold leftPart
  have := intervalIntegral.integral_comp_add_right (a := 0) (b := 1) (fun x => clamp ((G - r2 * x) / r1 - (b - 1))) (a - 1)
  rw [zero_add, show 1 + (a - 1) = a by ring] at this
  rw [← this]
  apply intervalIntegral.integral_congr
  intro x _
  dsimp only
  congr 1
  field_simp
  ring

theorem area_tri {T r1 r2 : ℝ} (H1 : 0 < r1) (H2 : 0 < r2) (h0 : 0 ≤ T) (ha : T ≤ r1) (hb : T ≤ r2) :
    (∫ x in (0:ℝ)..1, clamp ((T - r2 * x) / r1)) = 1 / 2 * (T / r1) * (T / r2) := by
  rw [int_clamp (p := 0) (q := T / r2) H1 H2 le_rfl (div_nonneg h0 H2.le) ((div_le_one H2).2 hb) (.inl rfl) (by linarith)
    (by field_simp; exact le_rfl) (.inr (by field_simp; exact le_rfl))]
  field_simp
  ring

/-- A zone as means of the two states with weights. -/
noncomputable def ofW (v lx rx ly ry : ℝ) (ql qr : Cons) : Zone :=
  ⟨⟨mean v ql.d qr.d, mean v ql.M1 qr.M1, mean v ql.M2 qr.M2, mean v ql.M3 qr.M3, mean v ql.E qr.E,
    1 / 2 * (mean lx ql.B1c qr.B1c + mean rx ql.B1c qr.B1c), 1 / 2 * (mean ly ql.B2c qr.B2c + mean ry ql.B2c qr.B2c), mean v ql.B3c qr.B3c⟩,
    mean lx ql.B1c qr.B1c, mean ly ql.B2c qr.B2c, mean v ql.B3c qr.B3c⟩

theorem zone_weights {r1 r2 : ℤ} (h1 : 0 < r1) (h2 : 0 < r2) (G : ℤ) (ql qr : Cons) (a b : ℤ) :
    zone r1 r2 G ql qr a b =
      ofW (if r1 ≠ r2 ∧ G - r2 * (a - 1) - r1 * (b - 1) = min r1 r2 then 1 / 2
          else ∫ x in (0:ℝ)..1, clamp (((G:ℝ) - r2 * (a - 1) - r1 * (b - 1) - r2 * x) / r1))
        (clamp (((G:ℝ) - r2 * (a - 1) - r1 * (b - 1)) / r1)) (clamp (((G:ℝ) - r2 * a - r1 * (b - 1)) / r1))
        (clamp (((G:ℝ) - r2 * (a - 1) - r1 * (b - 1)) / r2)) (clamp (((G:ℝ) - r2 * (a - 1) - r1 * b) / r2)) ql qr := by
  have H1 : (0:ℝ) < r1 := by exact_mod_cast h1
  have H2 : (0:ℝ) < r2 := by exact_mod_cast h2
  obtain ⟨t, ht⟩ : ∃ t : ℤ, t = G - r2 * (a - 1) - r1 * (b - 1) := ⟨_, rfl⟩
  have e1 : r2 * a + r1 * b - G = r1 + r2 - t := by rw [ht]; ring
  have e2 : r2 * (a - 1) + r1 * (b - 1) - G = -t := by rw [ht]; ring
  have e3 : r2 * (a - 1) + r1 * b - G = r1 - t := by rw [ht]; ring
  have e4 : r2 * a + r1 * (b - 1) - G = r2 - t := by rw [ht]; ring
  obtain ⟨T, hT⟩ : ∃ T : ℝ, T = (t : ℝ) := ⟨_, rfl⟩
  have f0 : (G:ℝ) - r2 * (a - 1) - r1 * (b - 1) = T := by rw [hT, ht]; push_cast; ring
  have f1 : (G:ℝ) - r2 * a - r1 * (b - 1) = T - r2 := by rw [← f0]; ring
  have f2 : (G:ℝ) - r2 * (a - 1) - r1 * b = T - r1 := by rw [← f0]; ring
  rw [f0, f1, f2, ← ht]
  unfold zone
  dsimp only
  rw [e1, e2, e3, e4]
  clear e1 e2 e3 e4 f0 f1 f2 ht
  by_cases c1 : r1 + r2 - t ≤ 0
  · have C1 : (r1:ℝ) + r2 ≤ T := by rw [hT]; exact_mod_cast (by omega : r1 + r2 ≤ t)
    rw [if_pos c1, if_neg (by omega), area_full H1 H2 C1, clamp_one ((le_div_iff₀ H1).2 (by linarith)), clamp_one ((le_div_iff₀ H1).2 (by linarith)),
      clamp_one ((le_div_iff₀ H2).2 (by linarith)), clamp_one ((le_div_iff₀ H2).2 (by linarith))]
    unfold pure ofW mean
    congr <;> ring
  have C1 : T < (r1:ℝ) + r2 := by rw [hT]; exact_mod_cast (by omega : t < r1 + r2)
  rw [if_neg c1]
  by_cases c2 : -t ≥ 0
  · have C2 : T ≤ 0 := by rw [hT]; exact_mod_cast (by omega : t ≤ 0)
    rw [if_pos c2, if_neg (by omega), area_none H1 H2 C2, clamp_zero (div_nonpos_of_nonpos_of_nonneg (by linarith) H1.le),
      clamp_zero (div_nonpos_of_nonpos_of_nonneg (by linarith) H1.le), clamp_zero (div_nonpos_of_nonpos_of_nonneg (by linarith) H2.le),
      clamp_zero (div_nonpos_of_nonpos_of_nonneg (by linarith) H2.le)]
    unfold pure ofW mean
    congr <;> ring
  have C2 : 0 < T := by rw [hT]; exact_mod_cast (by omega : 0 < t)
  rw [if_neg c2]
  have i1 : ∀ {u v : ℤ}, u < v → (u:ℝ) < v := fun h => by exact_mod_cast h
  -- the four face fractions
  have g1 : T ≤ r1 → clamp (T / r1) = T / r1 := fun h => clamp_mid (div_nonneg C2.le H1.le) ((div_le_one H1).2 h)
  have g1' : (r1:ℝ) ≤ T → clamp (T / r1) = 1 := fun h => clamp_one ((le_div_iff₀ H1).2 (by linarith))
  have g2 : (r2:ℝ) ≤ T → clamp ((T - r2) / r1) = (T - r2) / r1 := fun h =>
    clamp_mid (div_nonneg (by linarith) H1.le) ((div_le_one H1).2 (by linarith))
  have g2' : T ≤ r2 → clamp ((T - r2) / r1) = 0 := fun h => clamp_zero (div_nonpos_of_nonpos_of_nonneg (by linarith) H1.le)
  have g3 : T ≤ r2 → clamp (T / r2) = T / r2 := fun h => clamp_mid (div_nonneg C2.le H2.le) ((div_le_one H2).2 h)
  have g3' : (r2:ℝ) ≤ T → clamp (T / r2) = 1 := fun h => clamp_one ((le_div_iff₀ H2).2 (by linarith))
  have g4 : (r1:ℝ) ≤ T → clamp ((T - r1) / r2) = (T - r1) / r2 := fun h =>
    clamp_mid (div_nonneg (by linarith) H2.le) ((div_le_one H2).2 (by linarith))
  have g4' : T ≤ r1 → clamp ((T - r1) / r2) = 0 := fun h => clamp_zero (div_nonpos_of_nonpos_of_nonneg (by linarith) H2.le)
  have n1 := H1.ne'
  have n2 := H2.ne'
  have I1 := area_tri H1 H2 C2.le
  have I2 : T ≤ r1 → (r2:ℝ) ≤ T → (∫ x in (0:ℝ)..1, clamp ((T - r2 * x) / r1)) = 1 / 2 * (T / r1 + (T - r2) / r1) := fun ha hb => by
    rw [int_clamp (p := 0) (q := 1) H1 H2 le_rfl (by norm_num) le_rfl (.inl rfl) (by linarith) (by linarith) (.inl rfl)]
    field_simp
    ring
  have I3 : (r1:ℝ) ≤ T → T ≤ r2 → (∫ x in (0:ℝ)..1, clamp ((T - r2 * x) / r1)) = 1 / 2 * (T / r2 + (T - r1) / r2) := fun ha hb => by
    rw [int_clamp (p := (T - r1) / r2) (q := T / r2) H1 H2 (div_nonneg (by linarith) H2.le) ((div_le_div_iff_of_pos_right H2).2 (by linarith))
      ((div_le_one H2).2 hb) (.inr (by field_simp; exact le_rfl)) (by field_simp; exact le_rfl) (by field_simp; exact le_rfl)
      (.inr (by field_simp; exact le_rfl))]
    field_simp
    ring
  have I4 : (r1:ℝ) ≤ T → (r2:ℝ) ≤ T →
      (∫ x in (0:ℝ)..1, clamp ((T - r2 * x) / r1)) = 1 - 1 / 2 * (1 - (T - r2) / r1) * (1 - (T - r1) / r2) := fun ha hb => by
    rw [int_clamp (p := (T - r1) / r2) (q := 1) H1 H2 (div_nonneg (by linarith) H2.le) ((div_le_one H2).2 (by linarith)) le_rfl
      (.inr (by field_simp; exact le_rfl)) (by field_simp; exact le_rfl) (by linarith) (.inl rfl)]
    field_simp
    ring
  have p1 : ((-(r1 - t) : ℤ) : ℝ) = T - r1 := by rw [hT]; push_cast; ring
  have p2 : ((-(r2 - t) : ℤ) : ℝ) = T - r2 := by rw [hT]; push_cast; ring
  have p3 : ((- -t : ℤ) : ℝ) = T := by rw [hT]; push_cast; ring
  rw [p1, p2, p3]
  rcases lt_trichotomy t r1 with a1 | a1 | a1 <;> rcases lt_trichotomy t r2 with b1 | b1 | b1
  all_goals first | have A := i1 a1 | have A : (t:ℝ) = r1 := by exact_mod_cast a1
  all_goals first | have B := i1 b1 | have B : (t:ℝ) = r2 := by exact_mod_cast b1
  all_goals rw [← hT] at A B
  all_goals first | have q1 : (r1 - t < 0) = True := eq_true (by omega) | have q1 : (r1 - t < 0) = False := eq_false (by omega)
  all_goals first | have q2 : (r1 - t > 0) = True := eq_true (by omega) | have q2 : (r1 - t > 0) = False := eq_false (by omega)
  all_goals first | have q3 : (r1 - t = 0) = True := eq_true (by omega) | have q3 : (r1 - t = 0) = False := eq_false (by omega)
  all_goals first | have q4 : (r2 - t < 0) = True := eq_true (by omega) | have q4 : (r2 - t < 0) = False := eq_false (by omega)
  all_goals first | have q5 : (r2 - t > 0) = True := eq_true (by omega) | have q5 : (r2 - t > 0) = False := eq_false (by omega)
  all_goals first | have q6 : (r2 - t = 0) = True := eq_true (by omega) | have q6 : (r2 - t = 0) = False := eq_false (by omega)
  all_goals
    first
      | have q7 : (r1 ≠ r2 ∧ t = min r1 r2) = True := eq_true (by omega)
      | have q7 : (r1 ≠ r2 ∧ t = min r1 r2) = False := eq_false (by omega)
  all_goals simp only [q1, q2, q3, q4, q5, q6, q7, if_true, if_false, and_true, true_and, and_false, false_and, and_self]
  · rw [g1 A.le, g2' B.le, g3 B.le, g4' A.le, I1 A.le B.le]
    unfold ofW mean
    congr <;> ring
  · rw [g1 A.le, g2' B.le, g3' B.ge, g4' A.le]
    unfold ofW mean
    congr <;> ring
  · rw [g1 A.le, g2 B.le, g3' B.le, g4' A.le, I2 A.le B.le]
    unfold ofW mean
    congr <;> ring
  · rw [g1' A.ge, g2' B.le, g3 B.le, g4' A.le]
    unfold ofW mean
    congr <;> ring
  · rw [g1' A.ge, g2' B.le, g3' B.ge, g4' A.le, I4 A.ge B.ge, ← A, ← B]
    unfold ofW mean
    congr <;> ring
  · rw [g1' A.ge, g2 B.le, g3' B.le, g4' A.le, I4 A.ge B.le, ← A]
    unfold ofW mean
    congr <;> ring
  · rw [g1' A.le, g2' B.le, g3 B.le, g4 A.le, I3 A.le B.le]
    unfold ofW mean
    congr <;> ring
  · rw [g1' A.le, g2' B.le, g3' B.ge, g4 A.le, I4 A.le B.ge, ← B]
    unfold ofW mean
    congr <;> ring
  · rw [g1' A.le, g2 B.le, g3' B.le, g4 A.le, I4 A.le B.le]
    unfold ofW mean
    congr <;> ring

theorem angle_slope {Lx Ly : ℝ} (h : Ly ≠ 0) : (angle Lx Ly).2 * Ly = (angle Lx Ly).1 * Lx := by
  unfold angle
  split_ifs with e
  · rw [e]
  · dsimp only
    rw [Real.sin_arctan, Real.cos_arctan]
    field_simp

theorem angle_unit (Lx Ly : ℝ) : (angle Lx Ly).1 ^ 2 + (angle Lx Ly).2 ^ 2 = 1 := by
  unfold angle
  split
  · rw [Real.sq_sqrt (by norm_num)]; norm_num
  · exact Real.cos_sq_add_sin_sq _

/-- **C140 (states).**  The states on the two sides are those of the input file, turned: the components along the normal `(cos, sin)` of the interface and along
it are those of the input, and the rest is unchanged. -/
theorem states_turned (S : Setup) :
    S.ang.1 ^ 2 + S.ang.2 ^ 2 = 1 ∧ ∀ p ∈ [(S.ql, S.Ul), (S.qr, S.Ur)],
      p.1.d = p.2.d ∧ p.1.M1 * S.ang.1 + p.1.M2 * S.ang.2 = p.2.Mx ∧ p.1.M2 * S.ang.1 - p.1.M1 * S.ang.2 = p.2.My ∧ p.1.M3 = p.2.Mz ∧ p.1.E = p.2.E ∧
        p.1.B1c * S.ang.1 + p.1.B2c * S.ang.2 = p.2.Bx ∧ p.1.B2c * S.ang.1 - p.1.B1c * S.ang.2 = p.2.By ∧ p.1.B3c = p.2.Bz := by
  have hu : S.ang.1 ^ 2 + S.ang.2 ^ 2 = 1 := angle_unit _ _
  refine ⟨hu, fun p hp => ?_⟩
  simp only [List.mem_cons, List.not_mem_nil, or_false] at hp
  rcases hp with rfl | rfl
  · simp only [Setup.ql, rot]
    refine ⟨trivial, ?_, ?_, trivial, trivial, ?_, ?_, trivial⟩
    · linear_combination S.Ul.Mx * hu
    · linear_combination S.Ul.My * hu
    · linear_combination S.Ul.Bx * hu
    · linear_combination S.Ul.By * hu
  · simp only [Setup.qr, rot]
    refine ⟨trivial, ?_, ?_, trivial, trivial, ?_, ?_, trivial⟩
    · linear_combination S.Ur.Mx * hu
    · linear_combination S.Ur.My * hu
    · linear_combination S.Ur.Bx * hu
    · linear_combination S.Ur.By * hu

theorem Setup.cut (S : Setup) : S.nx1 = S.g * S.r1 ∧ S.nx2 = S.g * S.r2 :=
  ⟨(Nat.mul_div_cancel' (Nat.gcd_dvd_left _ _)).symm, (Nat.mul_div_cancel' (Nat.gcd_dvd_right _ _)).symm⟩

theorem Setup.pos {S : Setup} (h1 : 0 < S.nx1) (h2 : 0 < S.nx2) : 0 < S.g ∧ 0 < S.r1 ∧ 0 < S.r2 := by
  have := S.cut
  refine ⟨Nat.gcd_pos_of_pos_left _ h1, ?_, ?_⟩
  · rcases Nat.eq_zero_or_pos S.r1 with h | h
    · rw [h] at this; omega
    · exact h
  · rcases Nat.eq_zero_or_pos S.r2 with h | h
    · rw [h] at this; omega
    · exact h

theorem clamp_mul {r : ℝ} (h : 0 < r) (t : ℝ) : r * clamp (t / r) = max 0 t - max 0 (t - r) := by
  rcases le_total t 0 with h1 | h1
  · rw [clamp_zero (div_nonpos_of_nonpos_of_nonneg h1 h.le), max_eq_left h1, max_eq_left (by linarith)]; ring
  rcases le_total t r with h2 | h2
  · rw [clamp_mid (div_nonneg h1 h.le) ((div_le_one h).2 h2), max_eq_right h1, max_eq_left (by linarith)]
    field_simp
    ring
  · rw [clamp_one ((le_div_iff₀ h).2 (by linarith)), max_eq_right h1, max_eq_right (by linarith)]; ring

/-- A change of the left part from one face to the next is the same in both directions. -/
theorem clamp_cross {r1 r2 : ℝ} (h1 : 0 < r1) (h2 : 0 < r2) (T : ℝ) :
    r1 * (clamp ((T - r2) / r1) - clamp (T / r1)) = r2 * (clamp ((T - r1) / r2) - clamp (T / r2)) := by
  rw [mul_sub, mul_sub, clamp_mul h1, clamp_mul h1, clamp_mul h2, clamp_mul h2, sub_right_comm T r2 r1]
  ring

theorem problem_ok {S : Setup} {d1 d2 : ℤ} {Z : ℤ → ℤ → Zone} (h : problem S d1 d2 = .ok Z) :
    10 ≤ S.g ∧ S.Ur.Bx = S.Ul.Bx ∧ Z = fun j i => zone S.r1 S.r2 (S.g * S.r1 * S.r2) S.ql S.qr (i + d1) (j + d2) := by
  unfold problem at h
  split_ifs at h with h1 h2 h3
  cases h
  exact ⟨by omega, not_not.1 h3, rfl⟩

theorem ok_pos {S : Setup} {d1 d2 : ℤ} {Z : ℤ → ℤ → Zone} (h : problem S d1 d2 = .ok Z) (hn : 0 < S.nx1 ∧ 0 < S.nx2) :
    (0:ℤ) < S.r1 ∧ (0:ℤ) < S.r2 := by
  have := S.pos hn.1 hn.2
  exact ⟨by exact_mod_cast this.2.1, by exact_mod_cast this.2.2⟩

/-! ## Properties -/

/-- The line of the interface in zones, `r2 x + r1 y = G`. -/
noncomputable def Setup.G (S : Setup) : ℤ := S.g * S.r1 * S.r2

/-- The interface leaves a zone by its upper left or lower right corner, on the side of the smaller part: the zone `[a-1,a] × [b-1,b]`. -/
def CornerZone (S : Setup) (a b : ℤ) : Prop := S.r1 ≠ S.r2 ∧ (S.r2 : ℤ) * (a - 1) + S.r1 * (b - 1) + min (S.r1 : ℤ) S.r2 = S.g * S.r1 * S.r2

/-- Outside of such zones every volume-averaged quantity is the mean of the two states, weighted with the exact parts of the zone on the two sides of the
interface.  Missing: the zones of `corner_false`. -/
theorem average_partial {S : Setup} {d1 d2 : ℤ} {Z : ℤ → ℤ → Zone} (h : problem S d1 d2 = .ok Z) (hn : 0 < S.nx1 ∧ 0 < S.nx2) (i j : ℤ)
    (hc : ¬CornerZone S (i + d1) (j + d2)) :
    let w := leftPart S.r1 S.r2 S.G (i + d1) (j + d2)
    (Z j i).U.d = mean w S.Ul.d S.Ur.d ∧ (Z j i).U.M1 = mean w S.ql.M1 S.qr.M1 ∧ (Z j i).U.M2 = mean w S.ql.M2 S.qr.M2 ∧
      (Z j i).U.M3 = mean w S.Ul.Mz S.Ur.Mz ∧ (Z j i).U.E = mean w S.Ul.E S.Ur.E ∧ (Z j i).U.B3c = mean w S.Ul.Bz S.Ur.Bz ∧
      (Z j i).B3i = mean w S.Ul.Bz S.Ur.Bz := by
  obtain ⟨r1, r2⟩ := ok_pos h hn
  obtain ⟨_, _, rfl⟩ := problem_ok h
  have R1 : (0:ℝ) < S.r1 := by exact_mod_cast r1
  dsimp only
  rw [zone_weights r1 r2, if_neg]
  · rw [leftPart_eq R1]
    unfold Setup.G ofW
    push_cast
    exact ⟨rfl, rfl, rfl, rfl, rfl, rfl, rfl⟩
  · rintro ⟨e1, e2⟩
    exact hc ⟨by exact_mod_cast e1, by rw [← e2]; ring⟩

/-- The field on the faces is the mean over the face, in every zone, and the field at the centre of a zone is the mean of its two faces. -/
theorem faces_exact {S : Setup} {d1 d2 : ℤ} {Z : ℤ → ℤ → Zone} (h : problem S d1 d2 = .ok Z) (hn : 0 < S.nx1 ∧ 0 < S.nx2) (i j : ℤ) :
    (Z j i).B1i = mean (clamp ((S.G - S.r2 * ((i + d1 : ℤ) - 1)) / S.r1 - ((j + d2 : ℤ) - 1))) S.ql.B1c S.qr.B1c ∧
      (Z j i).B2i = mean (clamp ((S.G - S.r1 * ((j + d2 : ℤ) - 1)) / S.r2 - ((i + d1 : ℤ) - 1))) S.ql.B2c S.qr.B2c ∧
      (Z j i).U.B1c = ((Z j i).B1i + (Z j (i + 1)).B1i) / 2 ∧ (Z j i).U.B2c = ((Z j i).B2i + (Z (j + 1) i).B2i) / 2 := by
  obtain ⟨r1, r2⟩ := ok_pos h hn
  obtain ⟨_, _, rfl⟩ := problem_ok h
  have R1 : (0:ℝ) < S.r1 := by exact_mod_cast r1
  have R2 : (0:ℝ) < S.r2 := by exact_mod_cast r2
  dsimp only
  rw [zone_weights r1 r2, zone_weights r1 r2, zone_weights r1 r2]
  unfold Setup.G ofW
  dsimp only
  push_cast
  refine ⟨?_, ?_, ?_, ?_⟩
  · congr 2; field_simp
  · congr 2; field_simp; ring
  · rw [show (i:ℝ) + 1 + d1 - 1 = i + d1 by ring]; ring
  · rw [show (j:ℝ) + 1 + d2 - 1 = j + d2 by ring]; ring

/-- The field is free of divergence in every zone, at every level of refinement `L`. -/
theorem divergence_free {S : Setup} {d1 d2 : ℤ} {Z : ℤ → ℤ → Zone} (h : problem S d1 d2 = .ok Z) (hn : 0 < S.nx1 ∧ 0 < S.nx2)
    (hx : 0 < S.dx1 ∧ 0 < S.dx2) (L : ℕ) (i j : ℤ) :
    ((Z j (i + 1)).B1i - (Z j i).B1i) / (S.dx1 / 2 ^ L) + ((Z (j + 1) i).B2i - (Z j i).B2i) / (S.dx2 / 2 ^ L) = 0 := by
  obtain ⟨r1, r2⟩ := ok_pos h hn
  have hb := (problem_ok h).2.1
  obtain ⟨_, _, rfl⟩ := problem_ok h
  have R1 : (0:ℝ) < S.r1 := by exact_mod_cast r1
  have R2 : (0:ℝ) < S.r2 := by exact_mod_cast r2
  have hs : S.ang.2 * (S.r2 * S.dx2) = S.ang.1 * (S.r1 * S.dx1) := by
    have g0 : (S.g : ℝ) ≠ 0 := by have := (S.pos hn.1 hn.2).1; positivity
    have := angle_slope (Lx := S.nx1 * S.dx1) (Ly := S.nx2 * S.dx2) (mul_ne_zero (by have := hn.2; positivity) hx.2.ne')
    unfold Setup.ang
    rw [S.cut.1, S.cut.2] at this
    rw [S.cut.1, S.cut.2]
    push_cast at this ⊢
    apply mul_left_cancel₀ g0
    linear_combination this
  dsimp only
  rw [zone_weights r1 r2, zone_weights r1 r2, zone_weights r1 r2]
  unfold ofW
  dsimp only
  obtain ⟨T, hT⟩ : ∃ T : ℝ, T = (S.g * S.r1 * S.r2 : ℝ) - S.r2 * (i + d1 - 1) - S.r1 * (j + d2 - 1) := ⟨_, rfl⟩
  have k := clamp_cross R1 R2 T
  push_cast
  rw [show (S.g * S.r1 * S.r2 : ℝ) - S.r2 * (i + 1 + d1 - 1) - S.r1 * (j + d2 - 1) = T - S.r2 by rw [hT]; ring,
    show (S.g * S.r1 * S.r2 : ℝ) - S.r2 * (i + d1 - 1) - S.r1 * (j + 1 + d2 - 1) = T - S.r1 by rw [hT]; ring, ← hT]
  have e1 : S.ql.B1c - S.qr.B1c = -((S.Ul.By - S.Ur.By) * S.ang.2) := by unfold Setup.ql Setup.qr rot; dsimp only; rw [hb]; ring
  have e2 : S.ql.B2c - S.qr.B2c = (S.Ul.By - S.Ur.By) * S.ang.1 := by unfold Setup.ql Setup.qr rot; dsimp only; rw [hb]; ring
  have m : ∀ w w' l r : ℝ, mean w l r - mean w' l r = (w - w') * (l - r) := fun w w' l r => by unfold mean; ring
  rw [m, m, e1, e2]
  generalize clamp ((T - S.r2) / S.r1) - clamp (T / S.r1) = x at k ⊢
  generalize clamp ((T - S.r1) / S.r2) - clamp (T / S.r2) = y at k ⊢
  have n1 := hx.1.ne'
  have n2 := hx.2.ne'
  have hz : y * S.ang.1 * S.dx1 = x * S.ang.2 * S.dx2 := by
    apply mul_left_cancel₀ (mul_ne_zero R1.ne' R2.ne')
    linear_combination (-(S.ang.1 * S.dx1 * S.r1)) * k - x * S.r1 * hs
  have := pow_ne_zero L (two_ne_zero (α := ℝ))
  rw [div_add_div _ _ (div_ne_zero n1 this) (div_ne_zero n2 this), div_eq_zero_iff]
  left
  rw [mul_div_assoc', div_mul_eq_mul_div, ← add_div, div_eq_zero_iff]
  left
  linear_combination (S.Ul.By - S.Ur.By) * hz

/-- The solution repeats along the interface, and does not depend on where the Grid lies. -/
theorem repeats {S : Setup} {d1 d2 : ℤ} {Z : ℤ → ℤ → Zone} (h : problem S d1 d2 = .ok Z) (i j : ℤ) : Z (j - S.r2) (i + S.r1) = Z j i := by
  obtain ⟨_, _, rfl⟩ := problem_ok h
  dsimp only
  unfold zone
  dsimp only
  have a1 : ∀ c d : ℤ, (S.r2 : ℤ) * (i + S.r1 + d1 - c) + S.r1 * (j - S.r2 + d2 - d) = S.r2 * (i + d1 - c) + S.r1 * (j + d2 - d) := fun c d => by ring
  have a2 := a1 0 0
  have a3 := a1 1 0
  have a4 := a1 0 1
  simp only [sub_zero] at a2 a3 a4
  rw [a2, a1 1 1, a3, a4]

/-- Grids of one Domain agree where they overlap. -/
theorem grids_agree {S : Setup} {d1 d2 e1 e2 : ℤ} {Z Y : ℤ → ℤ → Zone} (h : problem S d1 d2 = .ok Z) (h' : problem S e1 e2 = .ok Y) (i j k l : ℤ)
    (hi : i + d1 = k + e1) (hj : j + d2 = l + e2) : Z j i = Y l k := by
  obtain ⟨_, _, rfl⟩ := problem_ok h
  obtain ⟨_, _, rfl⟩ := problem_ok h'
  dsimp only
  rw [hi, hj]

/-- Wherever the two sides of the unit cell differ, a zone at each corner of the interface gets half of each state, and the exact part is smaller. -/
theorem corner_false {S : Setup} {d1 d2 : ℤ} {Z : ℤ → ℤ → Zone} (h : problem S d1 d2 = .ok Z) (hn : 0 < S.nx1 ∧ 0 < S.nx2) (hr : S.r1 ≠ S.r2)
    (m : ℕ) : ∃ i j : ℤ, 
      i + d1 = S.r1 * m + (if S.r1 < S.r2 then 1 else 0) ∧ j + d2 = S.r2 * (S.g - m) + (if S.r1 < S.r2 then 0 else 1) ∧
      (Z j i).U.d = (S.Ul.d + S.Ur.d) / 2 ∧
      leftPart S.r1 S.r2 S.G (i + d1) (j + d2) = (min S.r1 S.r2 : ℕ) / (2 * (max S.r1 S.r2 : ℕ)) := by
  obtain ⟨r1, r2⟩ := ok_pos h hn
  obtain ⟨_, _, rfl⟩ := problem_ok h
  have R1 : (0:ℝ) < S.r1 := by exact_mod_cast r1
  have R2 : (0:ℝ) < S.r2 := by exact_mod_cast r2
  refine ⟨S.r1 * m + (if S.r1 < S.r2 then 1 else 0) - d1, S.r2 * (S.g - m) + (if S.r1 < S.r2 then 0 else 1) - d2, by ring, by ring, ?_, ?_⟩
  · dsimp only
    rw [zone_weights r1 r2, if_pos]
    · unfold ofW mean
      dsimp only
      change 1 / 2 * S.Ul.d + (1 - 1 / 2) * S.Ur.d = _
      ring
    · refine ⟨by exact_mod_cast hr, ?_⟩
      split_ifs with c
      · rw [min_eq_left (by exact_mod_cast c.le)]; ring
      · rw [min_eq_right (by exact_mod_cast (not_lt.1 c))]; ring
  · rw [leftPart_eq R1]
    split_ifs with c
    · have c' : (S.r1 : ℝ) ≤ S.r2 := by exact_mod_cast c.le
      have e : (S.G : ℝ) - S.r2 * (((S.r1 * m + 1 - d1 : ℤ) : ℝ) + d1 - 1) - S.r1 * (((S.r2 * (S.g - m) + 0 - d2 : ℤ) : ℝ) + d2 - 1) = S.r1 := by
        unfold Setup.G; push_cast; ring
      rw [e, area_tri R1 R2 R1.le le_rfl c', min_eq_left c.le, max_eq_right c.le]
      field_simp
    · have c := not_lt.1 c
      have c' : (S.r2 : ℝ) ≤ S.r1 := by exact_mod_cast c
      have e : (S.G : ℝ) - S.r2 * (((S.r1 * m + 0 - d1 : ℤ) : ℝ) + d1 - 1) - S.r1 * (((S.r2 * (S.g - m) + 1 - d2 : ℤ) : ℝ) + d2 - 1) = S.r2 := by
        unfold Setup.G; push_cast; ring
      rw [e, area_tri R1 R2 R2.le c' le_rfl, min_eq_right c, max_eq_left c]
      field_simp

/-- The tube is not where the Domain has its diagonal: on a root Domain with two or more ghost zones some zone `(a, b)`, of which no point lies beyond the
diagonal `x/nx1 + y/nx2 = 1`, holds the right state. -/
theorem position_false {S : Setup} {Z : ℤ → ℤ → Zone} (h : problem S 0 0 = .ok Z) (hn : 0 < S.nx1 ∧ 0 < S.nx2) {ng : ℕ} (hg : 2 ≤ ng) :
    ∃ a b : ℕ, a < S.nx1 ∧ b < S.nx2 ∧ (a + 1) * S.nx2 + (b + 1) * S.nx1 ≤ S.nx1 * S.nx2 ∧ (Z (b + ng) (a + ng)).U = S.qr := by
  obtain ⟨r1, r2⟩ := ok_pos h hn
  obtain ⟨g10, _, rfl⟩ := problem_ok h
  obtain ⟨c1, c2⟩ := S.cut
  have k1 : 1 ≤ S.r1 := by exact_mod_cast r1
  have k2 : 1 ≤ S.r2 := by exact_mod_cast r2
  obtain ⟨g, hgg⟩ : ∃ g, S.g = g + 2 := ⟨S.g - 2, by omega⟩
  have q : 1 ≤ S.r2 * (g + 1) := Nat.mul_pos k2 (by omega)
  refine ⟨S.r1 - 1, S.r2 * (g + 1) - 1, ?_, ?_, ?_, ?_⟩
  · rw [c1, hgg]; have : S.r1 * 1 ≤ (g + 2) * S.r1 := by rw [mul_comm]; exact Nat.mul_le_mul_right _ (by omega)
    omega
  · rw [c2, hgg]; have : S.r2 * (g + 1) ≤ (g + 2) * S.r2 := by rw [mul_comm]; exact Nat.mul_le_mul_right _ (by omega)
    omega
  · rw [Nat.sub_add_cancel k1, Nat.sub_add_cancel q, c1, c2, hgg]
    apply le_of_eq; ring
  · dsimp only
    unfold zone
    dsimp only
    push_cast [Nat.cast_sub k1, Nat.cast_sub q, hgg]
    obtain ⟨n, rfl⟩ : ∃ n, ng = n + 2 := ⟨ng - 2, by omega⟩
    have hp : (0:ℤ) ≤ (S.r1 + S.r2) * n := by positivity
    rw [if_neg, if_pos]
    · rfl
    · push_cast
      have : (S.r2:ℤ) * (S.r1 - 1 + (n + 2) + 0 - 1) + S.r1 * (S.r2 * (g + 1) - 1 + (n + 2) + 0 - 1) - (g + 2) * S.r1 * S.r2 = (S.r1 + S.r2) * n := by ring
      rw [this]; exact hp
    · push_cast
      have : (S.r2:ℤ) * (S.r1 - 1 + (n + 2) + 0) + S.r1 * (S.r2 * (g + 1) - 1 + (n + 2) + 0) - (g + 2) * S.r1 * S.r2
          = (S.r1 + S.r2) * n + S.r1 + S.r2 := by ring
      rw [this]; omega

/-- On a refined Domain the zones are counted in units of the root Domain: at level 1 a zone whose points all lie before the diagonal holds the right state. -/
theorem refined_false {S : Setup} {Z : ℤ → ℤ → Zone} (h : problem S 0 0 = .ok Z) (hn : 0 < S.nx1 ∧ 0 < S.nx2) (ng : ℕ) :
    ∃ a b : ℕ, a < 2 * S.nx1 ∧ b < 2 * S.nx2 ∧ (a + 1) * (2 * S.nx2) + (b + 1) * (2 * S.nx1) ≤ (2 * S.nx1) * (2 * S.nx2) ∧
      (Z (b + ng) (a + ng)).U = S.qr := by
  obtain ⟨r1, r2⟩ := ok_pos h hn
  obtain ⟨g10, _, rfl⟩ := problem_ok h
  obtain ⟨c1, c2⟩ := S.cut
  refine ⟨S.nx1 - 1, S.nx2 - 1, by omega, by omega, ?_, ?_⟩
  · rw [Nat.sub_add_cancel hn.1, Nat.sub_add_cancel hn.2]
    apply le_of_eq; ring
  · dsimp only
    unfold zone
    dsimp only
    have hb1 : (S.nx1 : ℤ) = S.g * S.r1 := by exact_mod_cast c1
    have hb2 : (S.nx2 : ℤ) = S.g * S.r2 := by exact_mod_cast c2
    push_cast [Nat.cast_sub hn.1, Nat.cast_sub hn.2]
    rw [hb1, hb2]
    have g' : (10:ℤ) ≤ S.g := by exact_mod_cast g10
    have big : (2:ℤ) * (S.r1 + S.r2) ≤ S.g * S.r1 * S.r2 := by
      have h1 : (S.r1:ℤ) + S.r2 ≤ 2 * (S.r1 * S.r2) := by nlinarith
      have h2 : (0:ℤ) ≤ S.r1 * S.r2 := by positivity
      nlinarith
    have hp : (0:ℤ) ≤ (S.r1 + S.r2) * ng := by positivity
    have hd : (S.r2:ℤ) * (S.g * S.r1 - 1 + ng + 0 - 1) + S.r1 * (S.g * S.r2 - 1 + ng + 0 - 1) - S.g * S.r1 * S.r2
        = S.g * S.r1 * S.r2 + (S.r1 + S.r2) * ng - 2 * (S.r1 + S.r2) := by ring
    have hd' : (S.r2:ℤ) * (S.g * S.r1 - 1 + ng + 0) + S.r1 * (S.g * S.r2 - 1 + ng + 0) - S.g * S.r1 * S.r2
        = S.g * S.r1 * S.r2 + (S.r1 + S.r2) * ng - (S.r1 + S.r2) := by ring
    rw [if_neg, if_pos]
    · rfl
    · rw [hd]; omega
    · rw [hd']; omega

/-! ## The boundary conditions -/

variable {α : Type}

/-- The loop of the four functions: for `m = 1..n` the line `col m`, from `lo` to `hi`, is copied from the line `src m`, `sh` further on.  The source line is
another line (`r1, r2 > 0`), so the order within a line does not matter. -/
def fillLines (col src : ℕ → ℤ) (lo hi sh : ℤ) : ℕ → (ℤ → ℤ → α) → ℤ → ℤ → α
  | 0, A => A
  | m + 1, A => let B := fillLines col src lo hi sh m A
    fun j i => if i = col (m + 1) ∧ lo ≤ j ∧ j ≤ hi then B (j + sh) (src (m + 1)) else B j i

/-- A Grid: zones `is..ie`, `js..je` and `ng` ghost zones. -/
structure Box where
  is : ℤ
  ie : ℤ
  js : ℤ
  je : ℤ
  ng : ℕ

/-- `shkset2d_iib`, shkset2d.c:788-822 (for `U`, `B1i`, `B2i`, `B3i` alike; one `k`). -/
def iib (r1 r2 : ℤ) (B : Box) (A : ℤ → ℤ → α) : ℤ → ℤ → α :=
  fillLines (fun m => B.is - m) (fun m => B.is - m + r1) (B.js - B.ng + r2) (B.je + B.ng) (-r2) B.ng A
/-- `shkset2d_oib`, shkset2d.c:830-866 (for `U`, `B2i`, `B3i`). -/
def oib (r1 r2 : ℤ) (B : Box) (A : ℤ → ℤ → α) : ℤ → ℤ → α :=
  fillLines (fun m => B.ie + m) (fun m => B.ie + m - r1) (B.js - B.ng) (B.je + B.ng - r2) r2 B.ng A
/-- `shkset2d_ijb`, shkset2d.c:874-903. -/
def ijb (r1 r2 : ℤ) (B : Box) (A : ℤ → ℤ → α) : ℤ → ℤ → α := fun j i =>
  fillLines (fun m => B.js - m) (fun m => B.js - m + r2) (B.is - B.ng + r1) (B.ie + B.ng) (-r1) B.ng (fun i j => A j i) i j
/-- `shkset2d_ojb`, shkset2d.c:911-942 (for `U`, `B1i`, `B3i`). -/
def ojb (r1 r2 : ℤ) (B : Box) (A : ℤ → ℤ → α) : ℤ → ℤ → α := fun j i =>
  fillLines (fun m => B.je + m) (fun m => B.je + m - r2) (B.is - B.ng) (B.ie + B.ng - r1) r1 B.ng (fun i j => A j i) i j

/-- `bvals_mhd` on one Grid: the boundaries in x1, then those in x2. -/
def bvals (r1 r2 : ℤ) (B : Box) (A : ℤ → ℤ → α) : ℤ → ℤ → α := ojb r1 r2 B (ijb r1 r2 B (oib r1 r2 B (iib r1 r2 B A)))

theorem fill_other (col src : ℕ → ℤ) (lo hi sh : ℤ) (n : ℕ) (A : ℤ → ℤ → α) (j i : ℤ) (h : ∀ m, 1 ≤ m → m ≤ n → i ≠ col m) :
    fillLines col src lo hi sh n A j i = A j i := by
  induction n with
  | zero => rfl
  | succ n ih =>
    unfold fillLines
    dsimp only
    rw [if_neg (fun c => h (n + 1) (by omega) le_rfl c.1)]
    exact ih fun m h1 h2 => h m h1 (by omega)

theorem fill_down {r s : ℤ} (hr : 0 < r) (hs : 0 < s) {f A : ℤ → ℤ → α} (hf : ∀ j i, f (j - s) (i + r) = f j i) {c lo hi l0 h0 : ℤ} (hl : lo ≤ l0 + s)
    (hA : ∀ j i, l0 ≤ j → j ≤ h0 → c ≤ i → i < c + r → A j i = f j i) (n : ℕ) (m : ℕ) (hm : 1 ≤ m) (hmn : m ≤ n) (k : ℕ) (hk : (m : ℤ) ≤ k * r) (j : ℤ)
    (h1 : l0 + k * s ≤ j) (h2 : j ≤ h0 + s) (h3 : j ≤ hi) :
    fillLines (fun m => c - m) (fun m => c - m + r) lo hi (-s) n A j (c - m) = f j (c - m) := by
  induction n generalizing m k j with
  | zero => omega
  | succ n ih =>
    unfold fillLines
    dsimp only
    obtain ⟨k, rfl⟩ : ∃ k', k = k' + 1 := by
      rcases k with _ | k
      · simp at hk; omega
      · exact ⟨k, rfl⟩
    have hks : (0:ℤ) ≤ k * s := by positivity
    push_cast at hk h1
    rw [add_mul, one_mul] at hk h1
    rcases Nat.lt_or_ge n m with c1 | c1
    · obtain rfl : m = n + 1 := by omega
      push_cast
      rw [if_pos ⟨rfl, by linarith, h3⟩, ← hf, ← sub_eq_add_neg]
      rcases le_or_gt ((n:ℤ) + 1) r with c2 | c2
      · rw [fill_other _ _ _ _ _ _ _ _ _ (fun m _ _ => by omega)]
        exact hA _ _ (by linarith) (by linarith) (by linarith) (by linarith)
      · obtain ⟨q, hq⟩ : ∃ q : ℕ, (q:ℤ) = n + 1 - r := ⟨(n + 1 - r).toNat, by omega⟩
        have := ih q (by omega) (by omega) k (by push_cast at hk; omega) (j - s) (by linarith) (by linarith) (by linarith)
        rw [show c - ((n:ℤ) + 1) + r = c - q by omega]
        exact this
    · rw [if_neg (by push_cast; omega)]
      exact ih m hm c1 (k + 1) (by push_cast; rw [add_mul, one_mul]; exact hk) j (by push_cast; rw [add_mul, one_mul]; exact h1) h2 h3

theorem fill_up {r s : ℤ} (hr : 0 < r) (hs : 0 < s) {f A : ℤ → ℤ → α} (hf : ∀ j i, f (j + s) (i - r) = f j i) {c lo hi l0 h0 : ℤ} (hl : h0 - s ≤ hi)
    (hA : ∀ j i, l0 ≤ j → j ≤ h0 → i ≤ c → c - r < i → A j i = f j i) (n : ℕ) (m : ℕ) (hm : 1 ≤ m) (hmn : m ≤ n) (k : ℕ) (hk : (m : ℤ) ≤ k * r) (j : ℤ)
    (h1 : j ≤ h0 - k * s) (h2 : l0 - s ≤ j) (h3 : lo ≤ j) :
    fillLines (fun m => c + m) (fun m => c + m - r) lo hi s n A j (c + m) = f j (c + m) := by
  induction n generalizing m k j with
  | zero => omega
  | succ n ih =>
    unfold fillLines
    dsimp only
    obtain ⟨k, rfl⟩ : ∃ k', k = k' + 1 := by
      rcases k with _ | k
      · simp at hk; omega
      · exact ⟨k, rfl⟩
    have hks : (0:ℤ) ≤ k * s := by positivity
    push_cast at hk h1
    rw [add_mul, one_mul] at hk h1
    rcases Nat.lt_or_ge n m with c1 | c1
    · obtain rfl : m = n + 1 := by omega
      push_cast
      rw [if_pos ⟨rfl, h3, by linarith⟩, ← hf]
      rcases le_or_gt ((n:ℤ) + 1) r with c2 | c2
      · rw [fill_other _ _ _ _ _ _ _ _ _ (fun m _ _ => by omega)]
        exact hA _ _ (by linarith) (by linarith) (by linarith) (by linarith)
      · obtain ⟨q, hq⟩ : ∃ q : ℕ, (q:ℤ) = n + 1 - r := ⟨(n + 1 - r).toNat, by omega⟩
        have := ih q (by omega) (by omega) k (by push_cast at hk; omega) (j + s) (by linarith) (by linarith) (by linarith)
        rw [show c + ((n:ℤ) + 1) - r = c + q by omega]
        exact this
    · rw [if_neg (by push_cast; omega)]
      exact ih m hm c1 (k + 1) (by push_cast; rw [add_mul, one_mul]; exact hk) j (by push_cast; rw [add_mul, one_mul]; exact h1) h2 h3

theorem iib_other (r1 r2 : ℤ) (B : Box) (A : ℤ → ℤ → α) (j i : ℤ) (h : B.is ≤ i) : iib r1 r2 B A j i = A j i :=
  fill_other _ _ _ _ _ _ _ _ _ (fun m _ _ => by omega)
theorem oib_other (r1 r2 : ℤ) (B : Box) (A : ℤ → ℤ → α) (j i : ℤ) (h : i ≤ B.ie) : oib r1 r2 B A j i = A j i :=
  fill_other _ _ _ _ _ _ _ _ _ (fun m _ _ => by omega)
theorem ijb_other (r1 r2 : ℤ) (B : Box) (A : ℤ → ℤ → α) (j i : ℤ) (h : B.js ≤ j) : ijb r1 r2 B A j i = A j i :=
  fill_other _ _ _ _ _ _ _ _ _ (fun m _ _ => by omega)
theorem ojb_other (r1 r2 : ℤ) (B : Box) (A : ℤ → ℤ → α) (j i : ℤ) (h : j ≤ B.je) : ojb r1 r2 B A j i = A j i :=
  fill_other _ _ _ _ _ _ _ _ _ (fun m _ _ => by omega)

/-- Let the zones of the Grid hold a solution that repeats along the interface.  Then, beside the Grid, the ghost zones of the first `k r1` columns hold it
in all rows but the `k r2` next to the lower left corner, and so on for the other three sides: the ends of the interface, at the upper left and the lower
right corner, are right.  Missing: the rows named (`stale_false`), and the ghost zones beyond the corners. -/
theorem ghosts_partial {r1 r2 : ℤ} (h1 : 0 < r1) (h2 : 0 < r2) {B : Box} (w1 : r1 ≤ B.ie - B.is + 1) (w2 : r2 ≤ B.je - B.js + 1)
    {f A : ℤ → ℤ → α} (hf : ∀ j i, f (j - r2) (i + r1) = f j i)
    (hA : ∀ j i, B.js ≤ j → j ≤ B.je → B.is ≤ i → i ≤ B.ie → A j i = f j i) (m k : ℕ) (hm : 1 ≤ m) (hmn : m ≤ B.ng) :
    (∀ j i, B.js ≤ j → j ≤ B.je → B.is ≤ i → i ≤ B.ie → bvals r1 r2 B A j i = f j i) ∧
    ((m:ℤ) ≤ k * r1 → ∀ j, B.js + k * r2 ≤ j → j ≤ B.je → bvals r1 r2 B A j (B.is - m) = f j (B.is - m)) ∧
    ((m:ℤ) ≤ k * r1 → ∀ j, B.js ≤ j → j ≤ B.je - k * r2 → bvals r1 r2 B A j (B.ie + m) = f j (B.ie + m)) ∧
    ((m:ℤ) ≤ k * r2 → ∀ i, B.is + k * r1 ≤ i → i ≤ B.ie → bvals r1 r2 B A (B.js - m) i = f (B.js - m) i) ∧
    ((m:ℤ) ≤ k * r2 → ∀ i, B.is ≤ i → i ≤ B.ie - k * r1 → bvals r1 r2 B A (B.je + m) i = f (B.je + m) i) := by
  have hf' : ∀ j i, f (j + r2) (i - r1) = f j i := fun j i => by
    have := hf (j + r2) (i - r1)
    rw [add_sub_cancel_right, sub_add_cancel] at this
    exact this.symm
  have kr1 : (0:ℤ) ≤ k * r1 := by positivity
  have kr2 : (0:ℤ) ≤ k * r2 := by positivity
  have ng0 : (1:ℤ) ≤ B.ng := by exact_mod_cast hm.trans hmn
  have act : ∀ j i, B.js ≤ j → j ≤ B.je → B.is ≤ i → i ≤ B.ie → oib r1 r2 B (iib r1 r2 B A) j i = f j i := fun j i a b c d => by
    rw [oib_other _ _ _ _ _ _ d, iib_other _ _ _ _ _ _ c]; exact hA j i a b c d
  unfold bvals
  refine ⟨fun j i a b c d => ?_, fun q j a b => ?_, fun q j a b => ?_, fun q i a b => ?_, fun q i a b => ?_⟩
  · rw [ojb_other _ _ _ _ _ _ b, ijb_other _ _ _ _ _ _ a]; exact act j i a b c d
  · rw [ojb_other _ _ _ _ _ _ b, ijb_other _ _ _ _ _ _ (by linarith), oib_other _ _ _ _ _ _ (by linarith)]
    exact fill_down h1 h2 hf (by linarith) (fun j i a b c d => hA j i a b c (by linarith)) _ m hm hmn k q j a (by linarith) (by linarith)
  · rw [ojb_other _ _ _ _ _ _ (by linarith), ijb_other _ _ _ _ _ _ a]
    exact fill_up (l0 := B.js) (h0 := B.je) h1 h2 hf' (by linarith)
      (fun j i a b c d => by rw [iib_other _ _ _ _ _ _ (by linarith)]; exact hA j i a b (by linarith) c) _ m hm hmn k q j b (by linarith) (by linarith)
  · rw [ojb_other _ _ _ _ _ _ (by linarith)]
    exact fill_down (f := fun i j => f j i) h2 h1 (fun i j => hf' j i) (by linarith)
      (fun i j a b c d => act j i c (by linarith) a b) _ m hm hmn k q i a (by linarith) (by linarith)
  · exact fill_up (f := fun i j => f j i) (l0 := B.is) (h0 := B.ie) h2 h1 (fun i j => hf j i) (by linarith)
      (fun i j a b c d => by rw [ijb_other _ _ _ _ _ _ (by linarith)]; exact act j i (by linarith) c a b) _ m hm hmn k q i b (by linarith) (by linarith)

/-- The ghost zone beside the first zone of the Grid gets what was in a ghost zone below the Grid before this call; that zone is set only afterwards. -/
theorem stale_false {r1 r2 : ℤ} (h1 : 0 < r1) (h2 : 0 < r2) {B : Box} (w1 : r1 ≤ B.ie - B.is + 1) (w2 : r2 ≤ B.je - B.js + 1) (hg : r2 ≤ B.ng)
    (A : ℤ → ℤ → α) : bvals r1 r2 B A B.js (B.is - 1) = A (B.js - r2) (B.is - 1 + r1) ∧ B.js - r2 < B.js := by
  refine ⟨?_, by omega⟩
  unfold bvals
  rw [ojb_other _ _ _ _ _ _ (by linarith), ijb_other _ _ _ _ _ _ le_rfl, oib_other _ _ _ _ _ _ (by linarith)]
  have go : ∀ n : ℕ, fillLines (fun m => B.is - m) (fun m => B.is - m + r1) (B.js - B.ng + r2) (B.je + B.ng) (-r2) (n + 1) A B.js (B.is - 1)
      = A (B.js - r2) (B.is - 1 + r1) := by
    intro n
    induction n with
    | zero =>
      unfold fillLines
      dsimp only
      rw [if_pos ⟨by push_cast; ring, by linarith, by omega⟩]
      rw [fill_other _ _ _ _ _ _ _ _ _ (fun m _ _ => by omega)]
      rfl
    | succ n ih =>
      rw [fillLines]
      dsimp only
      rw [if_neg (by push_cast; omega)]
      exact ih
  obtain ⟨n, hn⟩ : ∃ n, B.ng = n + 1 := ⟨B.ng - 1, by omega⟩
  unfold iib
  have := go n
  rw [← hn] at this
  exact this

/-! ## A run -/

/-- 20 by 10 zones: the unit cell has 2 by 1 zones. -/
noncomputable def S0 : Setup := ⟨20, 10, 1 / 20, 1 / 20, ⟨1, 0, 0, 0, 5 / 2, 1, 1, 0⟩, ⟨1 / 8, 0, 0, 0, 1 / 4, 1, -1, 0⟩⟩

theorem S0_g : S0.g = 10 := by unfold Setup.g S0; decide
theorem S0_r : S0.r1 = 2 ∧ S0.r2 = 1 := by
  unfold Setup.r1 Setup.r2; rw [S0_g]; unfold S0; decide

theorem S0_ok : problem S0 0 0 = .ok fun j i => zone S0.r1 S0.r2 (S0.g * S0.r1 * S0.r2) S0.ql S0.qr (i + 0) (j + 0) := by
  unfold problem
  rw [if_neg (by unfold S0; decide), if_neg (by rw [S0_g]; decide), if_neg (by unfold S0; simp)]

/-- The premises of all theorems on `problem` hold, on both sides of the interface and in a zone that it crosses. -/
example : 0 < S0.nx1 ∧ 0 < S0.nx2 ∧ 0 < S0.dx1 ∧ 0 < S0.dx2 ∧ S0.r1 ≠ S0.r2 ∧ ¬CornerZone S0 (5 + 0) (8 + 0) ∧ S0.Ul.By ≠ S0.Ur.By := by
  refine ⟨by unfold S0; decide, by unfold S0; decide, by unfold S0; norm_num, by unfold S0; norm_num, by rw [S0_r.1, S0_r.2]; decide, ?_,
    by unfold S0; norm_num⟩
  unfold CornerZone
  rw [S0_r.1, S0_r.2, S0_g]
  decide

/-- One zone has the wrong part of the left state, 1/2 in place of 1/4. -/
example : ∃ i j : ℤ, (Res.ok (fun j i => zone S0.r1 S0.r2 (S0.g * S0.r1 * S0.r2) S0.ql S0.qr (i + 0) (j + 0)) = problem S0 0 0) ∧ i = 8 ∧ j = 7 ∧
    leftPart S0.r1 S0.r2 S0.G (i + (0:ℤ)) (j + (0:ℤ)) = 1 / 4 := by
  obtain ⟨i, j, e1, e2, _, e4⟩ := corner_false S0_ok (by unfold S0; decide) (by rw [S0_r.1, S0_r.2]; decide) 4
  refine ⟨i, j, S0_ok.symm, ?_, ?_, ?_⟩
  · rw [S0_r.1, S0_r.2] at e1; simpa using e1
  · rw [S0_r.1, S0_r.2, S0_g] at e2; simpa using e2
  · rw [e4, S0_r.1, S0_r.2]; norm_num

/-- The premises of the theorems on the boundary conditions, with the state of this run. -/
example : (2:ℤ) ≤ (Box.mk 4 23 4 13 4).ie - (Box.mk 4 23 4 13 4).is + 1 ∧ (1:ℤ) ≤ (Box.mk 4 23 4 13 4).je - (Box.mk 4 23 4 13 4).js + 1 ∧
    ∀ j i : ℤ, zone S0.r1 S0.r2 (S0.g * S0.r1 * S0.r2) S0.ql S0.qr (i + S0.r1 + 0) (j - S0.r2 + 0)
      = zone S0.r1 S0.r2 (S0.g * S0.r1 * S0.r2) S0.ql S0.qr (i + 0) (j + 0) :=
  ⟨by norm_num, by norm_num, fun j i => repeats S0_ok i j⟩

end Athena.Shk2d
