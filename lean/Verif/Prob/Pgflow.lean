import Verif.Base
import Mathlib.Analysis.SpecialFunctions.Pow.Real
import Mathlib.Analysis.SpecialFunctions.Trigonometric.Basic
import Mathlib.Analysis.SpecialFunctions.Pow.Continuity
import Mathlib.Topology.Order.IntermediateValue
import Mathlib.Tactic.FieldSimp
import Mathlib.Tactic.Linarith
import Mathlib.Tactic.NormNum
import Mathlib.Tactic.Positivity

/-!
# Steady flow in a periodic potential: prob/pgflow.c

The root finder `rtbis`, the Bernoulli function and the initial state of a zone.  Simplifications: real numbers instead of floating-point numbers; the flow along x1
or x2 (`angle` 0 or 90).
-/

namespace Athena.Pgflow

/-- `*prt = fp < -fn ? xp : xn`, pgflow.c:305, 312. -/
noncomputable def best (xn fn xp fp : ℝ) : ℝ := open Classical in if fp < -fn then xp else xn

open Classical in
/-- The loop of `rtbis`, pgflow.c:296-314, with `n` bisections left: what is returned and `*prt`. -/
noncomputable def loop (f : ℝ → ℝ) (xacc : ℝ) : ℕ → ℝ → ℝ → ℝ → ℝ → ℝ → ℤ × ℝ
  | 0, xn, fn, xp, fp, _ => (1, best xn fn xp fp)
  | n + 1, xn, fn, xp, fp, dx =>
    let dx := dx * 0.5
    let xm := xn + dx
    let fm := f xm
    if fm < 0 then
      if |dx| < xacc ∨ fm = 0 then (0, best xm fm xp fp) else loop f xacc n xm fm xp fp dx
    else
      if |dx| < xacc ∨ fm = 0 then (0, best xn fn xm fm) else loop f xacc n xn fn xm fm dx

open Classical in
/-- `rtbis`, pgflow.c:266-315; `none` if `*prt` is not set. -/
noncomputable def rtbis (f : ℝ → ℝ) (x1 x2 xacc : ℝ) (imax : ℕ) : ℤ × Option ℝ :=
  let fn := f x1
  let fp := f x2
  let run (xn fn xp fp : ℝ) : ℤ × Option ℝ := let r := loop f xacc imax xn fn xp fp (xp - xn); (r.1, some r.2)
  if fn < 0 ∧ fp > 0 then run x1 fn x2 fp
  else if fn > 0 ∧ fp < 0 then run x2 fp x1 fn
  else if fn = 0 then (0, some x1)
  else if fp = 0 then (0, some x2)
  else (1, none)

/-- The input, pgflow.c:130-135, and `Gamma`. -/
structure Input where
  γ : ℝ
  grav : ℝ
  root : ℤ
  den : ℝ
  pres : ℝ
  v : ℝ

/-- `Phi`, `S`, `H`, pgflow.c:138-141. -/
noncomputable def Input.Phi (I : Input) : ℝ := I.den * I.v
@[inherit_doc Input.Phi]
noncomputable def Input.S (I : Input) : ℝ := I.pres / I.den ^ I.γ
@[inherit_doc Input.Phi]
noncomputable def Input.H (I : Input) : ℝ := 0.5 * I.v * I.v + I.γ * I.pres / ((I.γ - 1) * I.den)
/-- `rho_e`, pgflow.c:143. -/
noncomputable def Input.rhoE (I : Input) : ℝ := (I.Phi * I.Phi / (I.γ * I.S)) ^ (1 / (I.γ + 1))

/-- `grav_pot` at distance `x` along the flow, pgflow.c:151, 322-325. -/
noncomputable def Input.psi (I : Input) (kpar x : ℝ) : ℝ := -I.grav * Real.sin (kpar * x) / kpar

/-- `Bfunc`, pgflow.c:332-335. -/
noncomputable def Input.B (I : Input) (psi rho : ℝ) : ℝ := I.H - psi - 0.5 * I.Phi * I.Phi / (rho * rho) - (I.γ * I.S / (I.γ - 1)) * rho ^ (I.γ - 1)

/-- `lambda` and `k_par`, pgflow.c:95-104, 127: the wavelength is the length of the Grid. -/
noncomputable def kPar (nx : ℕ) (dx : ℝ) : ℝ := 2 * Real.pi / (nx * dx)

/-- A zone: density, momentum along the flow, energy. -/
structure Zone where
  d : ℝ
  M : ℝ
  E : ℝ

open Classical in
/-- The loop of `problem` in a zone at distance `x`, pgflow.c:145-185. -/
noncomputable def zone (I : Input) (kpar x : ℝ) : Res Zone :=
  let psi := I.psi kpar x
  if I.H ≤ psi then .fatal
  else if I.B psi I.rhoE < 0 then .fatal
  else
    let rhoS := ((I.γ - 1) * (I.H - psi) / (I.γ * I.S)) ^ (1 / (I.γ - 1))
    let rhoP := |I.Phi| / Real.sqrt (2 * (I.H - psi))
    let r := if I.root ≠ 0 then rtbis (I.B psi) I.rhoE rhoS (1.0e-12 * I.rhoE) 100 else rtbis (I.B psi) rhoP I.rhoE (1.0e-12 * I.rhoE) 100
    match r with
    | (0, some rho) => .ok ⟨rho, I.Phi, I.S * rho ^ I.γ / (I.γ - 1) + 0.5 * I.Phi * I.Phi / rho⟩
    | _ => .fatal

/-! ## The root finder -/

theorem best_mem (xn fn xp fp : ℝ) : best xn fn xp fp = xn ∨ best xn fn xp fp = xp := by
  unfold best; split
  · exact Or.inr rfl
  · exact Or.inl rfl

theorem between {f : ℝ → ℝ} {a b : ℝ} (hc : ContinuousOn f (Set.uIcc a b)) (ha : f a < 0) (hb : 0 ≤ f b) : ∃ c ∈ Set.uIcc a b, f c = 0 := by
  have := intermediate_value_uIcc hc
  exact this (Set.mem_uIcc.mpr (Or.inl ⟨ha.le, hb⟩))

theorem close {a b c r x : ℝ} (hr : r = a ∨ r = b) (hc : c ∈ Set.uIcc a b) (h : |b - a| < x) : |r - c| < x := by
  rw [Set.mem_uIcc] at hc
  rw [abs_lt] at h ⊢
  rcases hr with rfl | rfl <;> rcases hc with hc | hc <;> constructor <;> linarith [hc.1, hc.2, h.1, h.2]

theorem loop_spec {f : ℝ → ℝ} {xacc : ℝ} (hx : 0 < xacc) (n : ℕ) : ∀ {xn fn xp fp dx r : ℝ}, fn = f xn → fp = f xp → fn < 0 → 0 ≤ fp → xp - xn = dx →
    ContinuousOn f (Set.uIcc xn xp) → loop f xacc n xn fn xp fp dx = (0, r) → r ∈ Set.uIcc xn xp ∧ ∃ c ∈ Set.uIcc xn xp, f c = 0 ∧ |r - c| < xacc := by
  induction n with
  | zero => intro xn fn xp fp dx r _ _ _ _ _ _ h; simp [loop] at h
  | succ n ih =>
    intro xn fn xp fp dx r e1 e2 h1 h2 e3 hc h
    have hm : xn + dx * 0.5 = (xn + xp) / 2 := by rw [← e3]; ring
    have hmem : xn + dx * 0.5 ∈ Set.uIcc xn xp := by
      rw [hm, Set.mem_uIcc]
      rcases le_total xn xp with q | q
      · left; constructor <;> linarith
      · right; constructor <;> linarith
    have sub1 : Set.uIcc (xn + dx * 0.5) xp ⊆ Set.uIcc xn xp := Set.uIcc_subset_uIcc hmem Set.right_mem_uIcc
    have sub2 : Set.uIcc xn (xn + dx * 0.5) ⊆ Set.uIcc xn xp := Set.uIcc_subset_uIcc Set.left_mem_uIcc hmem
    have d1 : xp - (xn + dx * 0.5) = dx * 0.5 := by rw [← e3]; ring
    have d2 : xn + dx * 0.5 - xn = dx * 0.5 := by ring
    simp only [loop] at h
    by_cases hf : f (xn + dx * 0.5) < 0
    · rw [if_pos hf] at h
      by_cases hs : |dx * 0.5| < xacc ∨ f (xn + dx * 0.5) = 0
      · rw [if_pos hs] at h
        have hr : best (xn + dx * 0.5) (f (xn + dx * 0.5)) xp fp = r := (Prod.ext_iff.mp h).2
        obtain ⟨c, hcm, hc0⟩ := between (hc.mono sub1) hf (e2 ▸ h2)
        have hb := best_mem (xn + dx * 0.5) (f (xn + dx * 0.5)) xp fp
        rw [hr] at hb
        refine ⟨?_, c, sub1 hcm, hc0, close hb hcm ?_⟩
        · rcases hb with rfl | rfl
          · exact hmem
          · exact Set.right_mem_uIcc
        · rw [d1]; exact hs.resolve_right hf.ne
      · rw [if_neg hs] at h
        obtain ⟨m, c, hcm, hc0, hcl⟩ := ih rfl e2 hf h2 d1 (hc.mono sub1) h
        exact ⟨sub1 m, c, sub1 hcm, hc0, hcl⟩
    · rw [if_neg hf] at h
      by_cases hs : |dx * 0.5| < xacc ∨ f (xn + dx * 0.5) = 0
      · rw [if_pos hs] at h
        have hr : best xn fn (xn + dx * 0.5) (f (xn + dx * 0.5)) = r := (Prod.ext_iff.mp h).2
        have hb := best_mem xn fn (xn + dx * 0.5) (f (xn + dx * 0.5))
        rw [hr] at hb
        have hrm : r ∈ Set.uIcc xn xp := by
          rcases hb with rfl | rfl
          · exact Set.left_mem_uIcc
          · exact hmem
        rcases hs with hs | hs
        · obtain ⟨c, hcm, hc0⟩ := between (hc.mono sub2) (e1 ▸ h1) (not_lt.mp hf)
          exact ⟨hrm, c, sub2 hcm, hc0, close hb hcm (by rw [d2]; exact hs)⟩
        · have : r = xn + dx * 0.5 := by rw [← hr]; unfold best; rw [if_pos (by rw [hs]; linarith)]
          exact ⟨hrm, _, hmem, hs, by rw [this, sub_self, abs_zero]; exact hx⟩
      · rw [if_neg hs] at h
        obtain ⟨m, c, hcm, hc0, hcl⟩ := ih e1 rfl h1 (not_lt.mp hf) d2 (hc.mono sub2) h
        exact ⟨sub2 m, c, sub2 hcm, hc0, hcl⟩

/-- **C149 (bisection).**  If `rtbis` reports success on a continuous function, its result lies between the two ends and within `xacc` of a zero that lies there too. -/
theorem rtbis_root {f : ℝ → ℝ} {x1 x2 xacc r : ℝ} {imax : ℕ} (hx : 0 < xacc) (hc : ContinuousOn f (Set.uIcc x1 x2)) (h : rtbis f x1 x2 xacc imax = (0, some r)) :
    r ∈ Set.uIcc x1 x2 ∧ ∃ c ∈ Set.uIcc x1 x2, f c = 0 ∧ |r - c| < xacc := by
  simp only [rtbis] at h
  by_cases h1 : f x1 < 0 ∧ f x2 > 0
  · rw [if_pos h1] at h
    obtain ⟨a, b⟩ := Prod.ext_iff.mp h
    simp only [Option.some.injEq] at a b
    exact loop_spec hx imax rfl rfl h1.1 h1.2.le rfl hc (Prod.ext a b)
  rw [if_neg h1] at h
  by_cases h2 : f x1 > 0 ∧ f x2 < 0
  · rw [if_pos h2] at h
    obtain ⟨a, b⟩ := Prod.ext_iff.mp h
    simp only [Option.some.injEq] at a b
    have := loop_spec hx imax (xn := x2) (xp := x1) rfl rfl h2.2 h2.1.le rfl (by rwa [Set.uIcc_comm]) (Prod.ext a b)
    rwa [Set.uIcc_comm] at this
  rw [if_neg h2] at h
  by_cases h3 : f x1 = 0
  · rw [if_pos h3] at h
    obtain ⟨a, b⟩ := Prod.ext_iff.mp h
    simp only [Option.some.injEq] at b
    subst b
    exact ⟨Set.left_mem_uIcc, _, Set.left_mem_uIcc, h3, by simpa using hx⟩
  rw [if_neg h3] at h
  by_cases h4 : f x2 = 0
  · rw [if_pos h4] at h
    obtain ⟨a, b⟩ := Prod.ext_iff.mp h
    simp only [Option.some.injEq] at b
    subst b
    exact ⟨Set.right_mem_uIcc, _, Set.right_mem_uIcc, h4, by simpa using hx⟩
  rw [if_neg h4] at h
  simp at h

theorem loop_done {f : ℝ → ℝ} {xacc : ℝ} (n : ℕ) : ∀ {xn fn xp fp dx : ℝ}, 0 < n → |dx| < xacc * 2 ^ n → (loop f xacc n xn fn xp fp dx).1 = 0 := by
  induction n with
  | zero => intro xn fn xp fp dx h; omega
  | succ n ih =>
    intro xn fn xp fp dx _ h
    have hd : |dx * 0.5| = |dx| / 2 := by rw [abs_mul]; norm_num; ring
    simp only [loop]
    have key : ¬ (|dx * 0.5| < xacc) → 0 < n ∧ |dx * 0.5| < xacc * 2 ^ n := by
      intro hn
      rw [hd] at hn ⊢
      rw [pow_succ] at h
      refine ⟨?_, by linarith⟩
      rcases Nat.eq_zero_or_pos n with rfl | hp
      · exfalso; apply hn; simp at h; linarith
      · exact hp
    by_cases hf : f (xn + dx * 0.5) < 0
    · rw [if_pos hf]
      split
      · rfl
      · rename_i hs
        obtain ⟨a, b⟩ := key fun q => hs (Or.inl q)
        exact ih a b
    · rw [if_neg hf]
      split
      · rfl
      · rename_i hs
        obtain ⟨a, b⟩ := key fun q => hs (Or.inl q)
        exact ih a b

/-- **C149 (bisection).**  It reports success whenever the ends bracket a zero and `imax` halvings are enough; without a bracket it reports an error. -/
theorem rtbis_succeeds (f : ℝ → ℝ) (x1 x2 xacc : ℝ) (imax : ℕ) (hi : 0 < imax) (hw : |x2 - x1| < xacc * 2 ^ imax) :
    (f x1 * f x2 ≤ 0 → ∃ r, rtbis f x1 x2 xacc imax = (0, some r)) ∧ (0 < f x1 * f x2 → rtbis f x1 x2 xacc imax = (1, none)) := by
  simp only [rtbis]
  refine ⟨fun h => ?_, fun h => ?_⟩
  · by_cases h1 : f x1 < 0 ∧ f x2 > 0
    · rw [if_pos h1, loop_done imax hi hw]; exact ⟨_, rfl⟩
    rw [if_neg h1]
    by_cases h2 : f x1 > 0 ∧ f x2 < 0
    · rw [if_pos h2, loop_done imax hi (by rwa [abs_sub_comm])]; exact ⟨_, rfl⟩
    rw [if_neg h2]
    by_cases h3 : f x1 = 0
    · rw [if_pos h3]; exact ⟨_, rfl⟩
    rw [if_neg h3]
    by_cases h4 : f x2 = 0
    · rw [if_pos h4]; exact ⟨_, rfl⟩
    exfalso
    rcases lt_or_gt_of_ne h3 with a | a <;> rcases lt_or_gt_of_ne h4 with b | b
    · nlinarith [mul_pos_of_neg_of_neg a b]
    · exact h1 ⟨a, b⟩
    · exact h2 ⟨a, b⟩
    · nlinarith [mul_pos a b]
  · have n1 : ¬(f x1 < 0 ∧ f x2 > 0) := fun q => by nlinarith [mul_pos (neg_pos.mpr q.1) q.2]
    have n2 : ¬(f x1 > 0 ∧ f x2 < 0) := fun q => by nlinarith [mul_pos q.1 (neg_pos.mpr q.2)]
    have n3 : f x1 ≠ 0 := by rintro e; rw [e] at h; simp at h
    have n4 : f x2 ≠ 0 := by rintro e; rw [e] at h; simp at h
    rw [if_neg n1, if_neg n2, if_neg n3, if_neg n4]

/-- The function x² - 2 between 1 and 2. -/
example : ∃ r, rtbis (fun x => x ^ 2 - 2) 1 2 0.001 100 = (0, some r) :=
  (rtbis_succeeds _ 1 2 0.001 100 (by norm_num) (by norm_num)).1 (by norm_num)

/-! ## The steady state -/

theorem B_continuous (I : Input) (psi : ℝ) {s : Set ℝ} (hs : ∀ x ∈ s, 0 < x) : ContinuousOn (I.B psi) s := by
  unfold Input.B
  refine ContinuousOn.sub (ContinuousOn.sub continuousOn_const (ContinuousOn.div continuousOn_const (continuousOn_id.mul continuousOn_id) ?_)) (continuousOn_const.mul (continuousOn_id.rpow_const ?_))
  · intro x hx; have := hs x hx; exact (mul_pos this this).ne'
  · intro x hx; left; exact (hs x hx).ne'

/-- Gas that moves: γ > 1, positive density and pressure, a velocity. -/
structure Input.Moving (I : Input) : Prop where
  γ : 1 < I.γ
  den : 0 < I.den
  pres : 0 < I.pres
  v : I.v ≠ 0

theorem S_pos {I : Input} (h : I.Moving) : 0 < I.S := div_pos h.pres (Real.rpow_pos_of_pos h.den _)

theorem Phi_ne {I : Input} (h : I.Moving) : I.Phi ≠ 0 := mul_ne_zero h.den.ne' h.v

theorem rhoE_pos {I : Input} (h : I.Moving) : 0 < I.rhoE := by
  have hS := S_pos h
  have hP := Phi_ne h
  have hg : 0 < I.γ := by linarith [h.γ]
  have : 0 < I.Phi * I.Phi := mul_self_pos.mpr hP
  unfold Input.rhoE
  positivity

/-- The speed of the flow and the speed of sound at density `rho`, squared. -/
noncomputable def speedSq (I : Input) (rho : ℝ) : ℝ := (I.Phi / rho) ^ 2
@[inherit_doc speedSq]
noncomputable def soundSq (I : Input) (rho : ℝ) : ℝ := I.γ * (I.S * rho ^ I.γ) / rho

/-- `rho_e` separates the two branches: denser gas is subsonic, lighter gas supersonic. -/
theorem sonic {I : Input} (h : I.Moving) {rho : ℝ} (hr : 0 < rho) : (speedSq I rho ≤ soundSq I rho ↔ I.rhoE ≤ rho) ∧ (soundSq I rho ≤ speedSq I rho ↔ rho ≤ I.rhoE) := by
  have hS := S_pos h
  have hP := Phi_ne h
  have hg : 0 < I.γ := by linarith [h.γ]
  have hg1 : 0 < I.γ + 1 := by linarith
  have he : 0 < I.Phi * I.Phi / (I.γ * I.S) := by have : 0 < I.Phi * I.Phi := mul_self_pos.mpr hP
                                                  positivity
  have hE : I.rhoE ^ (I.γ + 1) = I.Phi * I.Phi / (I.γ * I.S) := by
    unfold Input.rhoE
    rw [← Real.rpow_mul he.le, one_div, inv_mul_cancel₀ hg1.ne', Real.rpow_one]
  have hp : rho ^ (I.γ + 1) = rho ^ I.γ * rho := by rw [Real.rpow_add hr, Real.rpow_one]
  have e1 : speedSq I rho = I.rhoE ^ (I.γ + 1) * (I.γ * I.S / rho ^ 2) := by
    rw [hE]; unfold speedSq; field_simp
  have e2 : soundSq I rho = rho ^ (I.γ + 1) * (I.γ * I.S / rho ^ 2) := by
    rw [hp]; unfold soundSq; field_simp
  have hk : 0 < I.γ * I.S / rho ^ 2 := by positivity
  rw [e1, e2]
  exact ⟨by rw [mul_le_mul_iff_left₀ hk, Real.rpow_le_rpow_iff (rhoE_pos h).le hr.le hg1], by rw [mul_le_mul_iff_left₀ hk, Real.rpow_le_rpow_iff hr.le (rhoE_pos h).le hg1]⟩

/-- The heavy end: no kinetic energy is left for the flow. -/
theorem B_rhoS {I : Input} (h : I.Moving) {psi : ℝ} (hp : psi < I.H) : 0 < ((I.γ - 1) * (I.H - psi) / (I.γ * I.S)) ^ (1 / (I.γ - 1)) ∧
    I.B psi (((I.γ - 1) * (I.H - psi) / (I.γ * I.S)) ^ (1 / (I.γ - 1))) < 0 := by
  have hS := S_pos h
  have hP := Phi_ne h
  have hg : 0 < I.γ := by linarith [h.γ]
  have hg1 : 0 < I.γ - 1 := by linarith [h.γ]
  have hh : 0 < I.H - psi := by linarith
  have hq : 0 < (I.γ - 1) * (I.H - psi) / (I.γ * I.S) := by positivity
  have hs : 0 < ((I.γ - 1) * (I.H - psi) / (I.γ * I.S)) ^ (1 / (I.γ - 1)) := Real.rpow_pos_of_pos hq _
  refine ⟨hs, ?_⟩
  have e : (((I.γ - 1) * (I.H - psi) / (I.γ * I.S)) ^ (1 / (I.γ - 1))) ^ (I.γ - 1) = (I.γ - 1) * (I.H - psi) / (I.γ * I.S) := by
    rw [← Real.rpow_mul hq.le, one_div, inv_mul_cancel₀ hg1.ne', Real.rpow_one]
  unfold Input.B
  rw [e]
  generalize ((I.γ - 1) * (I.H - psi) / (I.γ * I.S)) ^ (1 / (I.γ - 1)) = r at hs
  have e2 : I.γ * I.S / (I.γ - 1) * ((I.γ - 1) * (I.H - psi) / (I.γ * I.S)) = I.H - psi := by field_simp
  rw [e2]
  have hPP : 0 < I.Phi * I.Phi := mul_self_pos.mpr hP
  have : 0 < 0.5 * I.Phi * I.Phi / (r * r) := by rw [mul_assoc]; positivity
  linarith

/-- The light end: no thermal energy is left. -/
theorem B_rhoP {I : Input} (h : I.Moving) {psi : ℝ} (hp : psi < I.H) : 0 < |I.Phi| / Real.sqrt (2 * (I.H - psi)) ∧ I.B psi (|I.Phi| / Real.sqrt (2 * (I.H - psi))) < 0 := by
  have hS := S_pos h
  have hP := Phi_ne h
  have hg : 0 < I.γ := by linarith [h.γ]
  have hg1 : 0 < I.γ - 1 := by linarith [h.γ]
  have hh : 0 < I.H - psi := by linarith
  have hs : 0 < Real.sqrt (2 * (I.H - psi)) := Real.sqrt_pos.mpr (by linarith)
  have hr : 0 < |I.Phi| / Real.sqrt (2 * (I.H - psi)) := div_pos (abs_pos.mpr hP) hs
  refine ⟨hr, ?_⟩
  have e : |I.Phi| / Real.sqrt (2 * (I.H - psi)) * (|I.Phi| / Real.sqrt (2 * (I.H - psi))) = I.Phi * I.Phi / (2 * (I.H - psi)) := by
    rw [div_mul_div_comm, abs_mul_abs_self, Real.mul_self_sqrt (by linarith)]
  unfold Input.B
  rw [e]
  have e2 : 0.5 * I.Phi * I.Phi / (I.Phi * I.Phi / (2 * (I.H - psi))) = I.H - psi := by field_simp; norm_num
  rw [e2]
  have : 0 < I.γ * I.S / (I.γ - 1) * (|I.Phi| / Real.sqrt (2 * (I.H - psi))) ^ (I.γ - 1) := by positivity
  linarith

/-- What a steady flow along the potential conserves at density `rho`: the Bernoulli constant, kinetic energy plus enthalpy plus potential. -/
noncomputable def bernoulli (I : Input) (psi rho : ℝ) : ℝ := (I.Phi / rho) ^ 2 / 2 + I.γ / (I.γ - 1) * (I.S * rho ^ I.γ) / rho + psi

theorem B_bernoulli (I : Input) (psi : ℝ) {rho : ℝ} (hr : 0 < rho) : I.B psi rho = I.H - bernoulli I psi rho := by
  unfold Input.B bernoulli
  rw [Real.rpow_sub_one hr.ne']
  field_simp
  ring

theorem rhoE_le_rhoS {I : Input} (h : I.Moving) {psi : ℝ} (hp : psi < I.H) (h2 : 0 ≤ I.B psi I.rhoE) : I.rhoE ≤ ((I.γ - 1) * (I.H - psi) / (I.γ * I.S)) ^ (1 / (I.γ - 1)) := by
  have hS := S_pos h
  have hE := rhoE_pos h
  have hg1 : I.γ - 1 ≠ 0 := by linarith [h.γ]
  have hs := B_rhoS h hp
  have hg1' : 0 < I.γ - 1 := by linarith [h.γ]
  have hg : 0 < I.γ := by linarith [h.γ]
  by_contra hc
  push Not at hc
  have hb : I.B (psi) I.rhoE < 0 := by
    have e : (((I.γ - 1) * (I.H - psi) / (I.γ * I.S)) ^ (1 / (I.γ - 1))) ^ (I.γ - 1) = (I.γ - 1) * (I.H - psi) / (I.γ * I.S) := by
      have hh : 0 < I.H - psi := by linarith
      rw [← Real.rpow_mul (by positivity), one_div, inv_mul_cancel₀ hg1, Real.rpow_one]
    have m := Real.rpow_lt_rpow hs.1.le hc hg1'
    rw [e] at m
    have e2 : I.γ * I.S / (I.γ - 1) * ((I.γ - 1) * (I.H - psi) / (I.γ * I.S)) = I.H - psi := by field_simp
    have m2 := mul_lt_mul_of_pos_left m (show 0 < I.γ * I.S / (I.γ - 1) by positivity)
    rw [e2] at m2
    have : 0 ≤ 0.5 * I.Phi * I.Phi / (I.rhoE * I.rhoE) := by
      rw [mul_assoc]
      exact div_nonneg (mul_nonneg (by norm_num) (mul_self_nonneg _)) (mul_self_nonneg _)
    unfold Input.B
    linarith
  exact absurd hb (not_lt.mpr h2)

theorem rhoP_le_rhoE {I : Input} (h : I.Moving) {psi : ℝ} (hp : psi < I.H) (h2 : 0 ≤ I.B psi I.rhoE) : |I.Phi| / Real.sqrt (2 * (I.H - psi)) ≤ I.rhoE := by
  have hS := S_pos h
  have hE := rhoE_pos h
  have hg1 : I.γ - 1 ≠ 0 := by linarith [h.γ]
  have hs := B_rhoP h hp
  by_contra hc
  push Not at hc
  refine absurd ?_ (not_lt.mpr h2)
  have hg1' : 0 < I.γ - 1 := by linarith [h.γ]
  have hg : 0 < I.γ := by linarith [h.γ]
  have hh : 0 < I.H - psi := by linarith
  have e : |I.Phi| / Real.sqrt (2 * (I.H - psi)) * (|I.Phi| / Real.sqrt (2 * (I.H - psi))) = I.Phi * I.Phi / (2 * (I.H - psi)) := by
    rw [div_mul_div_comm, abs_mul_abs_self, Real.mul_self_sqrt (by linarith)]
  have m : I.rhoE * I.rhoE < I.Phi * I.Phi / (2 * (I.H - psi)) := by rw [← e]; nlinarith
  rw [lt_div_iff₀ (by linarith)] at m
  have k : I.H - psi < 0.5 * I.Phi * I.Phi / (I.rhoE * I.rhoE) := by
    rw [lt_div_iff₀ (by positivity)]; norm_num; linarith
  have : 0 < I.γ * I.S / (I.γ - 1) * I.rhoE ^ (I.γ - 1) := by positivity
  unfold Input.B
  linarith

/-- **C149.**  A zone that `problem` fills holds positive density, the mass flux of the input, the pressure of the input's entropy, and a density within
    10⁻¹² `rho_e` of one at which the Bernoulli constant is exactly the input's; it lies on the chosen branch. -/
theorem zone_steady {I : Input} (h : I.Moving) {kpar x : ℝ} {z : Zone} (hz : zone I kpar x = .ok z) :
    0 < z.d ∧ z.M = I.den * I.v ∧ (I.γ - 1) * (z.E - z.M ^ 2 / (2 * z.d)) = I.pres * (z.d / I.den) ^ I.γ ∧
      (∃ rho, 0 < rho ∧ |z.d - rho| < 1e-12 * I.rhoE ∧ bernoulli I (I.psi kpar x) rho = I.v ^ 2 / 2 + I.γ / (I.γ - 1) * I.pres / I.den) ∧
      (I.root ≠ 0 → speedSq I z.d ≤ soundSq I z.d) ∧ (I.root = 0 → soundSq I z.d ≤ speedSq I z.d) := by
  have hS := S_pos h
  have hE := rhoE_pos h
  have hg1 : I.γ - 1 ≠ 0 := by linarith [h.γ]
  have hH : I.H = I.v ^ 2 / 2 + I.γ / (I.γ - 1) * I.pres / I.den := by
    have := h.den.ne'
    unfold Input.H; field_simp; ring
  have fin : ∀ rho, 0 < rho → I.Phi = I.den * I.v ∧ (I.γ - 1) * (I.S * rho ^ I.γ / (I.γ - 1) + 0.5 * I.Phi * I.Phi / rho - I.Phi ^ 2 / (2 * rho)) = I.pres * (rho / I.den) ^ I.γ := by
    intro rho hr
    refine ⟨rfl, ?_⟩
    rw [Real.div_rpow hr.le h.den.le]
    have e : 0.5 * I.Phi * I.Phi / rho = I.Phi ^ 2 / (2 * rho) := by field_simp; norm_num; ring
    rw [e, add_sub_cancel_right, mul_div_cancel₀ _ hg1]
    unfold Input.S
    ring
  unfold zone at hz
  simp only at hz
  by_cases h1 : I.H ≤ I.psi kpar x
  · rw [if_pos h1] at hz; cases hz
  rw [if_neg h1] at hz
  by_cases h2 : I.B (I.psi kpar x) I.rhoE < 0
  · rw [if_pos h2] at hz; cases hz
  rw [if_neg h2] at hz
  have hp := not_le.mp h1
  have hx : 0 < 1.0e-12 * I.rhoE := by positivity
  by_cases hroot : I.root ≠ 0
  · rw [if_pos hroot] at hz
    have hs := B_rhoS h hp
    split at hz
    · rename_i rho heq
      cases hz
      have hsub := rhoE_le_rhoS h hp (not_lt.mp h2)
      have hpos : ∀ y ∈ Set.uIcc I.rhoE (((I.γ - 1) * (I.H - I.psi kpar x) / (I.γ * I.S)) ^ (1 / (I.γ - 1))), 0 < y ∧ I.rhoE ≤ y := by
        intro y hy
        rw [Set.uIcc_of_le hsub, Set.mem_Icc] at hy
        exact ⟨lt_of_lt_of_le hE hy.1, hy.1⟩
      obtain ⟨m, c, hc, c0, cl⟩ := rtbis_root hx (B_continuous I _ fun y hy => (hpos y hy).1) heq
      have hr := hpos _ m
      refine ⟨hr.1, (fin _ hr.1).1, (fin _ hr.1).2, ⟨c, (hpos c hc).1, by norm_num at cl ⊢; exact cl, ?_⟩, fun _ => (sonic h hr.1).1.mpr hr.2, fun q => absurd q hroot⟩
      rw [B_bernoulli I _ (hpos c hc).1] at c0
      linarith
    · cases hz
  · rw [if_neg hroot] at hz
    have hs := B_rhoP h hp
    split at hz
    · rename_i rho heq
      cases hz
      have hsub := rhoP_le_rhoE h hp (not_lt.mp h2)
      have hpos : ∀ y ∈ Set.uIcc (|I.Phi| / Real.sqrt (2 * (I.H - I.psi kpar x))) I.rhoE, 0 < y ∧ y ≤ I.rhoE := by
        intro y hy
        rw [Set.uIcc_of_le hsub, Set.mem_Icc] at hy
        exact ⟨lt_of_lt_of_le hs.1 hy.1, hy.2⟩
      obtain ⟨m, c, hc, c0, cl⟩ := rtbis_root hx (B_continuous I _ fun y hy => (hpos y hy).1) heq
      have hr := hpos _ m
      refine ⟨hr.1, (fin _ hr.1).1, (fin _ hr.1).2, ⟨c, (hpos c hc).1, by norm_num at cl ⊢; exact cl, ?_⟩, fun q => absurd q hroot, fun _ => (sonic h hr.1).2.mpr hr.2⟩
      rw [B_bernoulli I _ (hpos c hc).1] at c0
      linarith
    · cases hz

/-- **C149.**  Where the Bernoulli function allows a flow at the sonic density, the supersonic solution is found: 100 halvings are always enough. -/
theorem zone_supersonic {I : Input} (h : I.Moving) {kpar x : ℝ} (h1 : I.psi kpar x < I.H) (h2 : 0 ≤ I.B (I.psi kpar x) I.rhoE) (hroot : I.root = 0) : ∃ z, zone I kpar x = .ok z := by
  have hE := rhoE_pos h
  have hs := B_rhoP h h1
  have hle := rhoP_le_rhoE h h1 h2
  unfold zone
  simp only
  rw [if_neg (not_le.mpr h1), if_neg (not_lt.mpr h2), if_neg (show ¬ I.root ≠ 0 from fun q => q hroot)]
  obtain ⟨r, hr⟩ := (rtbis_succeeds (I.B (I.psi kpar x)) (|I.Phi| / Real.sqrt (2 * (I.H - I.psi kpar x))) I.rhoE (1.0e-12 * I.rhoE) 100 (by norm_num) (by
    rw [abs_of_nonneg (by linarith)]
    have : 1.0e-12 * I.rhoE * 2 ^ 100 = (1.0e-12 * 2 ^ 100) * I.rhoE := by ring
    rw [this]
    have k : (1 : ℝ) ≤ 1.0e-12 * 2 ^ 100 := by norm_num
    nlinarith [hs.1])).1 (mul_nonpos_of_nonpos_of_nonneg hs.2.le h2)
  rw [hr]
  exact ⟨_, rfl⟩

/-- **C149.**  The subsonic solution is found unless the stagnation density is 10¹⁸ times the sonic density. -/
theorem zone_subsonic {I : Input} (h : I.Moving) {kpar x : ℝ} (h1 : I.psi kpar x < I.H) (h2 : 0 ≤ I.B (I.psi kpar x) I.rhoE) (hroot : I.root ≠ 0)
    (hle : ((I.γ - 1) * (I.H - I.psi kpar x) / (I.γ * I.S)) ^ (1 / (I.γ - 1)) ≤ 10 ^ 18 * I.rhoE) : ∃ z, zone I kpar x = .ok z := by
  have hE := rhoE_pos h
  have hs := B_rhoS h h1
  have hge := rhoE_le_rhoS h h1 h2
  unfold zone
  simp only
  rw [if_neg (not_le.mpr h1), if_neg (not_lt.mpr h2), if_pos hroot]
  obtain ⟨r, hr⟩ := (rtbis_succeeds (I.B (I.psi kpar x)) I.rhoE (((I.γ - 1) * (I.H - I.psi kpar x) / (I.γ * I.S)) ^ (1 / (I.γ - 1))) (1.0e-12 * I.rhoE) 100 (by norm_num) (by
    rw [abs_of_nonneg (by linarith)]
    have : 1.0e-12 * I.rhoE * 2 ^ 100 = (1.0e-12 * 2 ^ 100) * I.rhoE := by ring
    rw [this]
    have k : (10 ^ 18 : ℝ) ≤ 1.0e-12 * 2 ^ 100 := by norm_num
    nlinarith)).1 (mul_nonpos_of_nonneg_of_nonpos h2 hs.2.le)
  rw [hr]
  exact ⟨_, rfl⟩

/-- A supersonic flow without gravity. -/
noncomputable def sample : Input := ⟨2, 0, 0, 1, 1, 2⟩

theorem sample_moving : sample.Moving := ⟨by norm_num [sample], by norm_num [sample], by norm_num [sample], by norm_num [sample]⟩

theorem sample_ok : ∃ z, zone sample 1 0 = .ok z := by
  have hp : sample.psi 1 0 = 0 := by simp [Input.psi]
  have hH : sample.H = 4 := by norm_num [Input.H, sample]
  have ht : sample.rhoE ^ 3 = 2 := by
    have : sample.rhoE = (2 : ℝ) ^ ((1 : ℝ) / 3) := by norm_num [Input.rhoE, Input.Phi, Input.S, sample]
    rw [this, ← Real.rpow_natCast, ← Real.rpow_mul (by norm_num)]
    norm_num
  have hpos := rhoE_pos sample_moving
  refine zone_supersonic sample_moving (by rw [hp, hH]; norm_num) ?_ rfl
  rw [hp]
  have e : sample.B 0 sample.rhoE = 4 - 2 / (sample.rhoE * sample.rhoE) - 2 * sample.rhoE := by
    unfold Input.B
    rw [hH]
    norm_num [Input.Phi, Input.S, sample]
  have e2 : 2 / (sample.rhoE * sample.rhoE) = sample.rhoE := by rw [div_eq_iff (by positivity), ← ht]; ring
  rw [e, e2]
  have : sample.rhoE ≤ 4 / 3 := by
    by_contra hc
    push Not at hc
    have := pow_lt_pow_left₀ hc (by norm_num) (n := 3) (by norm_num)
    rw [ht] at this
    norm_num at this
  linarith

example : ∃ z, zone sample 1 0 = .ok z ∧ z.M = 2 ∧ soundSq sample z.d ≤ speedSq sample z.d := by
  obtain ⟨z, hz⟩ := sample_ok
  have := zone_steady sample_moving hz
  exact ⟨z, hz, by rw [this.2.1]; norm_num [sample], this.2.2.2.2.2 rfl⟩

/-! ## Decomposition -/

/-- **C149 (refuted).**  The potential that gas and gravity see depends on the decomposition: for every field strength, at a quarter of the box, one Grid has the potential
    `-g / k`, and the first of two Grids has zero. -/
theorem potential_false (I : Input) (hg : I.grav ≠ 0) (n : ℕ) (hn : 0 < n) (dx : ℝ) (hd : 0 < dx) :
    I.psi (kPar (2 * n) dx) (n * dx / 2) ≠ I.psi (kPar n dx) (n * dx / 2) := by
  have hn' : (0 : ℝ) < n := by exact_mod_cast hn
  have e1 : kPar (2 * n) dx * (n * dx / 2) = Real.pi / 2 := by unfold kPar; push_cast; field_simp
  have e2 : kPar n dx * (n * dx / 2) = Real.pi := by unfold kPar; field_simp
  have hk : kPar (2 * n) dx ≠ 0 := by unfold kPar; push_cast; have := Real.pi_pos; positivity
  unfold Input.psi
  rw [e1, e2, Real.sin_pi_div_two, Real.sin_pi]
  simp [hg, hk]

end Athena.Pgflow
