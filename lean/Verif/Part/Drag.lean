import Mathlib.Analysis.SpecialFunctions.Exp
import Mathlib.Analysis.SpecificLimits.Basic
import Mathlib.Analysis.Complex.Exponential
import Mathlib.Data.Fin.VecNotation
import Mathlib.Data.Fintype.Basic
import Mathlib.Tactic.Ring
import Mathlib.Tactic.Linarith
import Mathlib.Tactic.LinearCombination
import Mathlib.Tactic.FieldSimp
import Mathlib.Tactic.Positivity
import Mathlib.Tactic.NormNum
import Mathlib.Tactic.FinCases

/-!
# src/particles/integrators_particle.c: the velocity updates of a particle; C79, C80

Exact reals.  What a particle feels of the gas at a position (the gas velocity and, as a function of the
relative speed, the inverse of the stopping time) is a parameter `gas` of the model: it stands for the
interpolation of `getvalues`, `gasvshift` and `get_ts` as called by `Get_Drag`; interpolation is modelled in
`Verif/Part/Weight.lean`.  `user` stands for `Userforce_particle`, which the code requires to be independent
of the velocity (integrators_particle.c:763-767).
-/

namespace Athena.Part
noncomputable section

/-- A vector with the components x1, x2, x3 (`Real3Vect`, src/athena.h). -/
abbrev V3 := Fin 3 → ℝ

/-- Shearing box: none, `ShBoxCoord == xy` or `ShBoxCoord == xz`; the flag says whether FARGO is on. -/
inductive Box where
  | none
  | xy (fargo : Bool)
  | xz (fargo : Bool)

/-- What the integrators use besides the particle: `pG->dt`, which dimensions exist (`pG->Nx[d] > 1`),
`Omega_0`, `qshear`, the gas as seen at a position (velocity and inverse stopping time as a function of the
relative velocity), the user's force at a position. -/
structure Env where
  dt : ℝ
  dims : Fin 3 → Bool
  box : Box
  Om : ℝ
  q : ℝ
  gas : V3 → V3 × (V3 → ℝ)
  user : V3 → V3

/-- Position and velocity of a particle (`GrainS`, src/athena.h:212-221). -/
structure PV where
  x : V3
  v : V3

/-- `Get_Drag`, integrators_particle.c:690-742, for a particle in the grid: the drag acceleration and the
inverse stopping time. -/
def drag (E : Env) (x v : V3) : V3 × ℝ :=
  let u := (E.gas x).1
  let vd : V3 := fun d => v d - u d
  let ts1 := (E.gas x).2 vd
  (fun d => -ts1 * vd d, ts1)

/-- `Get_Force`, integrators_particle.c:756-797. -/
def force (E : Env) (x v : V3) : V3 :=
  let f := E.user x
  match E.box with
  | .none => f
  | .xy true => ![f 0 + 2 * v 1 * E.Om, f 1 + (E.q - 2) * v 0 * E.Om, f 2]
  | .xy false => ![f 0 + 2 * (E.q * E.Om ^ 2 * x 0 + v 1 * E.Om), f 1 + -2 * v 0 * E.Om, f 2]
  | .xz true => ![f 0 + 2 * v 2 * E.Om, f 1, f 2 + (E.q - 2) * v 0 * E.Om]
  | .xz false => ![f 0 + 2 * (E.q * E.Om ^ 2 * x 0 + v 2 * E.Om), f 1, f 2 + -2 * v 0 * E.Om]

/-- Predicted position: `x + c v dt` in the existing dimensions, with the advection term
`a qshear v1 dt^2` of the xy shearing box without FARGO; integrators_particle.c:193-206 (`c = 1`, `a = 1/2`),
311-324 and 406-422 (`c = 1/2`, `a = 1/8`). -/
def predict (E : Env) (c a : ℝ) (p : PV) : V3 := fun d =>
  let y := if E.dims d then p.x d + c * p.v d * E.dt else p.x d
  match E.box with
  | .xy false => if d = 1 then y - a * E.q * p.v 0 * E.dt ^ 2 else y
  | _ => y

/-- `int_par_fulimp`, integrators_particle.c:181-289: the fully implicit velocity update. -/
def fulimp (E : Env) (p : PV) : V3 :=
  let xn := predict E 1 (1/2) p
  let d1 := drag E p.x p.v
  let fr1 := force E p.x p.v
  let fc : V3 := fun d => d1.1 d + fr1 d
  let ts11 := d1.2
  let d2 := drag E xn p.v
  let fr2 := force E xn p.v
  let fp : V3 := fun d => d2.1 d + fr2 d
  let ts12 := d2.2
  let b0 := 1 + E.dt * ts11
  let ft : V3 := fun d => 1/2 * (fc d + b0 * fp d)
  let D := 1 + 1/2 * E.dt * (ts11 + ts12 + E.dt * ts11 * ts12)
  let oh := E.Om * E.dt
  let B := oh * (-2 - (ts11 + ts12) * E.dt)
  match E.box with
  | .none => fun d => E.dt * ft d * (1 / D)
  | .xy fargo =>
    let f1 := ft 0 + -oh * fp 1
    let f2 := ft 1 + (if fargo then 1/2 * (2 - E.q) * oh * fp 0 else oh * fp 0)
    let A := if fargo then D - (2 - E.q) * oh ^ 2 else D - 2 * oh ^ 2
    let C := if fargo then 1/2 * (E.q - 2) * B else -B
    let Det1 := 1 / (A ^ 2 - B * C)
    ![E.dt * Det1 * (f1 * A - f2 * B), E.dt * Det1 * (-f1 * C + f2 * A), E.dt * ft 2 / D]
  | .xz fargo =>
    let f1 := ft 0 + -oh * fp 2
    let f3 := ft 2 + (if fargo then 1/2 * (2 - E.q) * oh * fp 0 else oh * fp 0)
    let A := if fargo then D - (2 - E.q) * oh ^ 2 else D - 2 * oh ^ 2
    let C := if fargo then 1/2 * (E.q - 2) * B else -B
    let Det1 := 1 / (A ^ 2 - B * C)
    ![E.dt * Det1 * (f1 * A - f3 * B), E.dt * ft 1 / D, E.dt * Det1 * (-f1 * C + f3 * A)]

/-- `int_par_semimp`, integrators_particle.c:302-385: the semi-implicit velocity update. -/
def semimp (E : Env) (p : PV) : V3 :=
  let xn := predict E (1/2) (1/8) p
  let d1 := drag E xn p.v
  let fr := force E xn p.v
  let ft : V3 := fun d => d1.1 d + fr d
  let ts1 := d1.2
  let b := E.dt * ts1 + 2
  let oh := E.Om * E.dt
  match E.box with
  | .none => fun d => E.dt * 2 * (1 / b) * ft d
  | .xy fargo =>
    let b1 := if fargo then 1 / (b ^ 2 + 2 * (2 - E.q) * oh ^ 2) else 1 / (b ^ 2 + 4 * oh ^ 2)
    let b2 := b * b1
    ![E.dt * 2 * b2 * ft 0 + E.dt * 4 * oh * b1 * ft 1,
      (if fargo then E.dt * 2 * b2 * ft 1 - 2 * (2 - E.q) * E.dt * oh * b1 * ft 0
        else E.dt * 2 * b2 * ft 1 - 4 * E.dt * oh * b1 * ft 0),
      E.dt * 2 * ft 2 / b]
  | .xz fargo =>
    let b1 := if fargo then 1 / (b ^ 2 + 2 * (2 - E.q) * oh ^ 2) else 1 / (b ^ 2 + 4 * oh ^ 2)
    let b2 := b * b1
    ![E.dt * 2 * b2 * ft 0 + E.dt * 4 * oh * b1 * ft 2,
      E.dt * 2 * ft 1 / b,
      (if fargo then E.dt * 2 * b2 * ft 2 - 2 * (2 - E.q) * E.dt * oh * b1 * ft 0
        else E.dt * 2 * b2 * ft 2 - 4 * E.dt * oh * b1 * ft 0)]

/-- `int_par_exp`, integrators_particle.c:398-456: the explicit velocity update. -/
def expl (E : Env) (p : PV) : V3 :=
  let xn := predict E (1/2) (1/8) p
  let d1 := drag E p.x p.v
  let fr1 := force E p.x p.v
  let vn : V3 := fun d => p.v d + 1/2 * (d1.1 d + fr1 d) * E.dt
  let d2 := drag E xn vn
  let fr2 := force E xn vn
  fun d => (d2.1 d + fr2 d) * E.dt

/-- The three values of `grproperty[].integrator`. -/
inductive Method where
  | exp
  | semi
  | full
  deriving DecidableEq

/-- The `switch` of `Integrate_Particles`, integrators_particle.c:98-114. -/
def velUpdate (m : Method) (E : Env) (p : PV) : V3 :=
  match m with
  | .exp => expl E p
  | .semi => semimp E p
  | .full => fulimp E p

/-- The update of one particle by `Integrate_Particles`, integrators_particle.c:118-137 and 153-159. -/
def advance (m : Method) (E : Env) (p : PV) : PV :=
  let dv := velUpdate m E p
  let v' : V3 := fun d => p.v d + dv d
  { v := v', x := fun d => if E.dims d then p.x d + 1/2 * E.dt * (p.v d + v' d) else p.x d }

/-- What `feedback_corrector` hands to the gas for a particle of mass `m`, integrators_particle.c:583-621:
the momentum `m (dv - dt F)`, where `F` are the forces other than the drag, and the dissipated energy;
`ts` is the stopping time returned by the velocity update. -/
def feedback (m ts : ℝ) (E : Env) (p p' : PV) : V3 × ℝ :=
  let x : V3 := fun d => 1/2 * (p.x d + p'.x d)
  let v : V3 := fun d => 1/2 * (p.v d + p'.v d)
  let f := force E x v
  let fb : V3 := fun d => (p'.v d - p.v d) - E.dt * f d
  (fun d => m * fb d, m * (fb 0 ^ 2 + fb 1 ^ 2 + fb 2 ^ 2) * (ts / E.dt))

/-! ## Steady gas and constant stopping time -/

/-- Gas moving everywhere with velocity `u`, constant stopping time `ts`, no other force. -/
def dragOnly (dt : ℝ) (dims : Fin 3 → Bool) (u : V3) (ts : ℝ) : Env where
  dt := dt
  dims := dims
  box := .none
  Om := 0
  q := 0
  gas := fun _ => (u, fun _ => 1 / ts)
  user := fun _ _ => 0

/-- Factor by which the velocity relative to the gas is multiplied in a step with `h = dt / ts`. -/
def factor (m : Method) (h : ℝ) : ℝ :=
  match m with
  | .exp => 1 - h + h ^ 2 / 2
  | .semi => (2 - h) / (2 + h)
  | .full => 1 / (1 + h + h ^ 2 / 2)

/-- C79: in uniform gas with a constant stopping time the velocity relative to the gas is multiplied by the
factor of the integrator in every component. -/
theorem drag_factor (m : Method) (dt ts : ℝ) (dims : Fin 3 → Bool) (u : V3) (p : PV) (hdt : 0 < dt)
    (hts : 0 < ts) (d : Fin 3) :
    (advance m (dragOnly dt dims u ts) p).v d - u d = factor m (dt / ts) * (p.v d - u d) := by
  have h1 : ts ≠ 0 := hts.ne'
  cases m
  · simp only [advance, velUpdate, expl, drag, force, dragOnly, factor]
    field_simp
    ring
  · have h2 : dt * (1 / ts) + 2 ≠ 0 := by positivity
    have h3 : 2 + dt / ts ≠ 0 := by positivity
    have h4 : dt + 2 * ts ≠ 0 := by positivity
    simp only [advance, velUpdate, semimp, drag, force, dragOnly, factor]
    have e1 : dt * (1 / ts) + 2 = (dt + 2 * ts) / ts := by field_simp
    have e2 : 2 + dt / ts = (dt + 2 * ts) / ts := by field_simp; ring
    rw [e1, e2]
    field_simp
    ring
  · simp only [advance, velUpdate, fulimp, drag, force, dragOnly, factor]
    have h4 : 2 * ts ^ 2 + 2 * dt * ts + dt ^ 2 ≠ 0 := by positivity
    have e1 : 1 + 1 / 2 * dt * (1 / ts + 1 / ts + dt * (1 / ts) * (1 / ts))
        = (2 * ts ^ 2 + 2 * dt * ts + dt ^ 2) / (2 * ts ^ 2) := by field_simp; ring
    have e2 : 1 + dt / ts + (dt / ts) ^ 2 / 2 = (2 * ts ^ 2 + 2 * dt * ts + dt ^ 2) / (2 * ts ^ 2) := by
      field_simp
    rw [e1, e2]
    field_simp
    ring

theorem factor_full_mem {h : ℝ} (hh : 0 < h) : 0 < factor .full h ∧ factor .full h < 1 := by
  unfold factor
  constructor
  · positivity
  · rw [div_lt_one (by positivity)]
    nlinarith [sq_nonneg h]

theorem factor_semi_abs {h : ℝ} (hh : 0 < h) : |factor .semi h| < 1 := by
  unfold factor
  rw [abs_lt]
  constructor
  · rw [lt_div_iff₀ (by positivity)]; linarith
  · rw [div_lt_one (by positivity)]; linarith

/-- The state after `n` steps with the same gas. -/
def steps (m : Method) (E : Env) : ℕ → PV → PV
  | 0, p => p
  | n + 1, p => steps m E n (advance m E p)

theorem steps_factor (m : Method) (dt ts : ℝ) (dims : Fin 3 → Bool) (u : V3) (hdt : 0 < dt)
    (hts : 0 < ts) (d : Fin 3) (n : ℕ) (p : PV) :
    (steps m (dragOnly dt dims u ts) n p).v d - u d = factor m (dt / ts) ^ n * (p.v d - u d) := by
  induction n generalizing p with
  | zero => simp [steps]
  | succ n ih =>
    rw [steps, ih, drag_factor m dt ts dims u p hdt hts d, pow_succ]
    ring

/-- C79: the fully implicit integrator is unconditionally stable and monotone: whatever the time step and
the stopping time, the velocity relative to the gas keeps its sign, shrinks in every step and tends to
zero. -/
theorem fulimp_monotone (dt ts : ℝ) (dims : Fin 3 → Bool) (u : V3) (p : PV) (hdt : 0 < dt) (hts : 0 < ts)
    (d : Fin 3) (hne : p.v d ≠ u d) :
    (∀ n, 0 < ((steps .full (dragOnly dt dims u ts) n p).v d - u d) * (p.v d - u d)) ∧
    (∀ n, |(steps .full (dragOnly dt dims u ts) (n + 1) p).v d - u d|
        < |(steps .full (dragOnly dt dims u ts) n p).v d - u d|) ∧
    Filter.Tendsto (fun n => (steps .full (dragOnly dt dims u ts) n p).v d) Filter.atTop (nhds (u d)) := by
  obtain ⟨h0, h1⟩ := factor_full_mem (div_pos hdt hts)
  have hd : p.v d - u d ≠ 0 := sub_ne_zero.mpr hne
  refine ⟨fun n => ?_, fun n => ?_, ?_⟩
  · rw [steps_factor .full dt ts dims u hdt hts d n p, mul_assoc]
    exact mul_pos (pow_pos h0 n) (mul_self_pos.mpr hd)
  · rw [steps_factor .full dt ts dims u hdt hts d, steps_factor .full dt ts dims u hdt hts d, abs_mul, abs_mul,
      abs_of_pos (pow_pos h0 _), abs_of_pos (pow_pos h0 _), pow_succ]
    have := pow_pos h0 n
    have h2 := abs_pos.mpr hd
    have h3 : factor Method.full (dt / ts) ^ n * factor Method.full (dt / ts)
        < factor Method.full (dt / ts) ^ n * 1 := mul_lt_mul_of_pos_left h1 this
    nlinarith
  · have e : (fun n => (steps .full (dragOnly dt dims u ts) n p).v d)
        = fun n => u d + factor .full (dt / ts) ^ n * (p.v d - u d) := by
      funext n
      have := steps_factor .full dt ts dims u hdt hts d n p
      linarith
    rw [e]
    have ht := tendsto_pow_atTop_nhds_zero_of_lt_one h0.le h1
    simpa using (ht.mul_const (p.v d - u d)).const_add (u d)

/-- C79: the semi-implicit integrator is unconditionally stable: whatever the time step and the stopping
time, the velocity relative to the gas shrinks in every step and tends to zero. -/
theorem semimp_stable (dt ts : ℝ) (dims : Fin 3 → Bool) (u : V3) (p : PV) (hdt : 0 < dt) (hts : 0 < ts)
    (d : Fin 3) :
    (p.v d ≠ u d → |(advance .semi (dragOnly dt dims u ts) p).v d - u d| < |p.v d - u d|) ∧
    Filter.Tendsto (fun n => (steps .semi (dragOnly dt dims u ts) n p).v d) Filter.atTop (nhds (u d)) := by
  have h1 := factor_semi_abs (div_pos hdt hts)
  refine ⟨fun hne => ?_, ?_⟩
  · rw [drag_factor .semi dt ts dims u p hdt hts d, abs_mul]
    have h2 := abs_pos.mpr (sub_ne_zero.mpr hne)
    nlinarith
  · have e : (fun n => (steps .semi (dragOnly dt dims u ts) n p).v d)
        = fun n => u d + factor .semi (dt / ts) ^ n * (p.v d - u d) := by
      funext n
      have := steps_factor .semi dt ts dims u hdt hts d n p
      linarith
    rw [e]
    have ht := tendsto_pow_atTop_nhds_zero_of_abs_lt_one h1
    simpa using (ht.mul_const (p.v d - u d)).const_add (u d)

/-- C79: the explicit integrator is stable exactly when the time step is at most twice the stopping time:
then the velocity relative to the gas does not grow; otherwise it grows in every step. -/
theorem expl_stable_iff (dt ts : ℝ) (dims : Fin 3 → Bool) (u : V3) (p : PV) (hdt : 0 < dt) (hts : 0 < ts)
    (d : Fin 3) (hne : p.v d ≠ u d) :
    |(advance .exp (dragOnly dt dims u ts) p).v d - u d| ≤ |p.v d - u d| ↔ dt ≤ 2 * ts := by
  have h2 := abs_pos.mpr (sub_ne_zero.mpr hne)
  have hh : 0 < dt / ts := div_pos hdt hts
  have hf : 0 < factor .exp (dt / ts) := by
    unfold factor
    nlinarith [sq_nonneg (dt / ts - 1)]
  rw [drag_factor .exp dt ts dims u p hdt hts d, abs_mul, abs_of_pos hf,
    mul_le_iff_le_one_left h2]
  have e : dt ≤ 2 * ts ↔ dt / ts ≤ 2 := by rw [div_le_iff₀ hts]
  rw [e]
  unfold factor
  constructor
  · intro h; by_contra hc; push Not at hc; nlinarith
  · intro h; nlinarith

/-- C79 refuted as stated for the explicit integrator: with a stopping time of a third of the time step the
relative velocity is multiplied by 5/2 in a step instead of being damped. -/
theorem drag_damps_false :
    ∃ (dt ts : ℝ) (u : V3) (p : PV), 0 < dt ∧ 0 < ts ∧ p.v 0 ≠ u 0 ∧
      (advance .exp (dragOnly dt (fun _ => true) u ts) p).v 0 - u 0 = 5 / 2 * (p.v 0 - u 0) := by
  refine ⟨3, 1, fun _ => 0, ⟨fun _ => 0, fun _ => 1⟩, by norm_num, by norm_num, by norm_num, ?_⟩
  rw [drag_factor .exp 3 1 _ _ _ (by norm_num) (by norm_num)]
  norm_num [factor]

/-- C79: all three integrators are second-order accurate: over a step of at most one stopping time the
velocity relative to the gas differs from the exact decay by at most `(dt/ts)^3` of its value. -/
theorem drag_second_order (m : Method) (dt ts : ℝ) (dims : Fin 3 → Bool) (u : V3) (p : PV) (hdt : 0 < dt)
    (hts : 0 < ts) (hle : dt ≤ ts) (d : Fin 3) :
    |(advance m (dragOnly dt dims u ts) p).v d - (u d + Real.exp (-(dt / ts)) * (p.v d - u d))|
      ≤ (dt / ts) ^ 3 * |p.v d - u d| := by
  have key : |factor m (dt / ts) - Real.exp (-(dt / ts))| ≤ (dt / ts) ^ 3 := by
    have h0 : 0 < dt / ts := div_pos hdt hts
    have h1 : dt / ts ≤ 1 := by rw [div_le_one hts]; exact hle
    generalize dt / ts = h at h0 h1
    have hb := Real.exp_bound (x := -h) (by rw [abs_neg, abs_of_pos h0]; exact h1) (n := 3) (by norm_num)
    simp only [Finset.sum_range_succ, Finset.sum_range_zero, abs_neg, abs_of_pos h0] at hb
    norm_num [Nat.factorial] at hb
    rw [abs_le] at hb
    obtain ⟨b1, b2⟩ := hb
    have h3 : 0 < h ^ 3 := by positivity
    rw [abs_le]
    cases m
    · simp only [factor]
      constructor <;> nlinarith
    · have e : factor .semi h = 1 - h + h ^ 2 / 2 - h ^ 3 / (2 * (2 + h)) := by
        unfold factor
        have : 2 + h ≠ 0 := by positivity
        field_simp
        ring
      have u1 : 0 ≤ h ^ 3 / (2 * (2 + h)) := by positivity
      have u2 : h ^ 3 / (2 * (2 + h)) ≤ h ^ 3 / 4 := by
        apply div_le_div_of_nonneg_left h3.le (by norm_num); linarith
      rw [e]
      constructor <;> nlinarith
    · have e : factor .full h = 1 - h + h ^ 2 / 2 - (h ^ 4 / 4) / (1 + h + h ^ 2 / 2) := by
        unfold factor
        have : 1 + h + h ^ 2 / 2 ≠ 0 := by positivity
        field_simp
        ring
      have u1 : 0 ≤ (h ^ 4 / 4) / (1 + h + h ^ 2 / 2) := by positivity
      have u2 : (h ^ 4 / 4) / (1 + h + h ^ 2 / 2) ≤ h ^ 3 / 4 := by
        rw [div_le_iff₀ (by positivity)]
        nlinarith [mul_nonneg h3.le (sub_nonneg.mpr h1), mul_nonneg h3.le h0.le,
          mul_nonneg h3.le (sq_nonneg h)]
      rw [e]
      constructor <;> nlinarith
  have e := drag_factor m dt ts dims u p hdt hts d
  have e' : (advance m (dragOnly dt dims u ts) p).v d - (u d + Real.exp (-(dt / ts)) * (p.v d - u d))
      = (factor m (dt / ts) - Real.exp (-(dt / ts))) * (p.v d - u d) := by linear_combination e
  rw [e', abs_mul]
  exact mul_le_mul_of_nonneg_right key (abs_nonneg _)

/-- The hypotheses of the theorems above are met: time step 1/2, stopping time 1, a particle of speed 1 in
gas at rest; after one fully implicit step its speed is 8/13. -/
example : (advance .full (dragOnly (1/2) (fun _ => true) (fun _ => 0) 1) ⟨fun _ => 0, fun _ => 1⟩).v 0
    = 8 / 13 := by
  have := drag_factor .full (1/2) 1 (fun _ => true) (fun _ => 0) ⟨fun _ => 0, fun _ => 1⟩ (by norm_num)
    (by norm_num) 0
  norm_num [factor] at this
  exact this

/-- C79: without forces a particle moving with the gas keeps its velocity exactly, whatever the stopping
time law, the integrator and the time step (gas uniform). -/
theorem comoving_fixed (m : Method) (E : Env) (u : V3) (p : PV) (hbox : E.box = .none)
    (hg : ∀ x, (E.gas x).1 = u) (hf : ∀ x d, E.user x d = 0) (hv : p.v = u) :
    (advance m E p).v = u ∧
    ∀ d, (advance m E p).x d = if E.dims d then p.x d + E.dt * u d else p.x d := by
  have hd0 : ∀ x d, (drag E x u).1 d = 0 := by intro x d; simp [drag, hg]
  have hF : ∀ x v d, force E x v d = 0 := by intro x v d; simp [force, hbox, hf]
  have h : ∀ d, velUpdate m E p d = 0 := by
    intro d
    cases m
    · have hvn : (fun d => p.v d + 1/2 * ((drag E p.x p.v).1 d + force E p.x p.v d) * E.dt) = u := by
        funext d; rw [hv, hd0, hF]; ring
      show ((drag E (predict E (1/2) (1/8) p)
          (fun d => p.v d + 1/2 * ((drag E p.x p.v).1 d + force E p.x p.v d) * E.dt)).1 d
        + force E (predict E (1/2) (1/8) p)
          (fun d => p.v d + 1/2 * ((drag E p.x p.v).1 d + force E p.x p.v d) * E.dt) d) * E.dt = 0
      rw [hvn, hd0, hF]
      ring
    · simp only [velUpdate, semimp, hbox, hv, hd0, hF]
      ring
    · simp only [velUpdate, fulimp, hbox, hv, hd0, hF]
      ring
  constructor
  · funext d; simp [advance, h, hv]
  · intro d
    simp only [advance, h, hv]
    split
    · ring
    · rfl

/-! ## Shearing box -/

/-- The shear motion `-qshear Omega_0 x1` along the azimuth: component 1 with `xy`, component 2 with `xz`;
with FARGO velocities are measured relative to it. -/
def azimuth : Box → Fin 3
  | .xy _ => 1
  | _ => 2

def isFargo : Box → Bool
  | .xy f => f
  | .xz f => f
  | .none => false

/-- A shearing box in which the drag vanishes (infinite stopping time) and there is no user force. -/
def FreeBox (E : Env) : Prop :=
  E.box ≠ .none ∧ (∀ x vd, (E.gas x).2 vd = 0) ∧ ∀ x d, E.user x d = 0

/-- C80: without drag the semi-implicit integrator conserves the canonical momentum of a particle in the
shearing box exactly: `v_y + 2 Omega x` without FARGO, `v_y + (2 - q) Omega x` with FARGO. -/
theorem semimp_canonical (E : Env) (p : PV) (hE : FreeBox E) (hd : E.dims 0 = true)
    (hq : E.q < 2) :
    (advance .semi E p).v (azimuth E.box)
        + (if isFargo E.box then 2 - E.q else 2) * E.Om * (advance .semi E p).x 0
      = p.v (azimuth E.box) + (if isFargo E.box then 2 - E.q else 2) * E.Om * p.x 0 := by
  obtain ⟨hb, hg, hu⟩ := hE
  have n1 : (2:ℝ) ^ 2 + 2 * (2 - E.q) * (E.Om * E.dt) ^ 2 ≠ 0 := by
    have : 0 ≤ 2 * (2 - E.q) * (E.Om * E.dt) ^ 2 := by
      have : 0 < 2 - E.q := by linarith
      positivity
    nlinarith
  have n2 : (2:ℝ) ^ 2 + 4 * (E.Om * E.dt) ^ 2 ≠ 0 := by positivity
  have hdr : ∀ x v d, (drag E x v).1 d = 0 := by intro x v d; simp [drag, hg]
  have hts : ∀ x v, (drag E x v).2 = 0 := by intro x v; simp [drag, hg]
  rcases hbx : E.box with _ | f | f
  · exact absurd hbx hb
  · cases f
    · simp only [advance, velUpdate, semimp, hbx, azimuth, isFargo, hts, hdr, force, hu, hd, if_true, mul_zero,
        zero_add, Bool.false_eq_true, if_false, Matrix.cons_val_zero, Matrix.cons_val_one,
        predict]
      field_simp
      ring
    · simp only [advance, velUpdate, semimp, hbx, azimuth, isFargo, hts, hdr, force, hu, hd, if_true, mul_zero,
        zero_add, Matrix.cons_val_zero, Matrix.cons_val_one]
      have h := one_div_mul_cancel n1
      generalize 1 / ((2:ℝ) ^ 2 + 2 * (2 - E.q) * (E.Om * E.dt) ^ 2) = b1 at h ⊢
      linear_combination (-(2 - E.q) * E.Om * E.dt * p.v 0) * h
  · cases f
    · simp only [advance, velUpdate, semimp, hbx, azimuth, isFargo, hts, hdr, force, hu, hd, if_true, mul_zero,
        zero_add, Bool.false_eq_true, if_false, Matrix.cons_val_zero, Matrix.cons_val_one, Matrix.cons_val,
        predict]
      field_simp
      ring
    · simp only [advance, velUpdate, semimp, hbx, azimuth, isFargo, hts, hdr, force, hu, hd, if_true, mul_zero,
        zero_add, Matrix.cons_val_zero, Matrix.cons_val]
      have h := one_div_mul_cancel n1
      generalize 1 / ((2:ℝ) ^ 2 + 2 * (2 - E.q) * (E.Om * E.dt) ^ 2) = b1 at h ⊢
      linear_combination (-(2 - E.q) * E.Om * E.dt * p.v 0) * h

/-- C80: without drag and with FARGO the semi-implicit integrator conserves the epicyclic energy
`(2 - q) v_x^2 + 2 v_y^2` exactly. -/
theorem semimp_epicyclic (E : Env) (p : PV) (hE : FreeBox E) (hf : isFargo E.box = true) (hq : E.q < 2) :
    (2 - E.q) * (advance .semi E p).v 0 ^ 2 + 2 * (advance .semi E p).v (azimuth E.box) ^ 2
      = (2 - E.q) * p.v 0 ^ 2 + 2 * p.v (azimuth E.box) ^ 2 := by
  obtain ⟨hb, hg, hu⟩ := hE
  have n1 : (2:ℝ) ^ 2 + 2 * (2 - E.q) * (E.Om * E.dt) ^ 2 ≠ 0 := by
    have : 0 ≤ 2 * (2 - E.q) * (E.Om * E.dt) ^ 2 := by
      have : 0 < 2 - E.q := by linarith
      positivity
    nlinarith
  have hdr : ∀ x v d, (drag E x v).1 d = 0 := by intro x v d; simp [drag, hg]
  have hts : ∀ x v, (drag E x v).2 = 0 := by intro x v; simp [drag, hg]
  rcases hbx : E.box with _ | f | f
  · exact absurd hbx hb
  · rw [hbx] at hf
    simp only [isFargo] at hf
    subst hf
    simp only [advance, velUpdate, semimp, hbx, azimuth, hts, hdr, force, hu, if_true, mul_zero,
        zero_add, Matrix.cons_val_zero, Matrix.cons_val_one]
    have h := one_div_mul_cancel n1
    generalize 1 / ((2:ℝ) ^ 2 + 2 * (2 - E.q) * (E.Om * E.dt) ^ 2) = b1 at h ⊢
    linear_combination (-2 * b1 * ((2 - E.q) * p.v 0 * (E.dt * 4 * (2 * p.v 1 * E.Om)
        + E.dt * 4 * (E.Om * E.dt) * ((E.q - 2) * p.v 0 * E.Om))
      + 2 * p.v 1 * (E.dt * 4 * ((E.q - 2) * p.v 0 * E.Om)
        - 2 * (2 - E.q) * E.dt * (E.Om * E.dt) * (2 * p.v 1 * E.Om)))) * h
  · rw [hbx] at hf
    simp only [isFargo] at hf
    subst hf
    simp only [advance, velUpdate, semimp, hbx, azimuth, hts, hdr, force, hu, if_true, mul_zero,
        zero_add, Matrix.cons_val_zero, Matrix.cons_val]
    have h := one_div_mul_cancel n1
    generalize 1 / ((2:ℝ) ^ 2 + 2 * (2 - E.q) * (E.Om * E.dt) ^ 2) = b1 at h ⊢
    linear_combination (-2 * b1 * ((2 - E.q) * p.v 0 * (E.dt * 4 * (2 * p.v 2 * E.Om)
        + E.dt * 4 * (E.Om * E.dt) * ((E.q - 2) * p.v 0 * E.Om))
      + 2 * p.v 2 * (E.dt * 4 * ((E.q - 2) * p.v 0 * E.Om)
        - 2 * (2 - E.q) * E.dt * (E.Om * E.dt) * (2 * p.v 2 * E.Om)))) * h

/-- A particle on the circular orbit of its radius: no radial and vertical motion, and along the azimuth the
shear velocity (zero with FARGO). -/
def OnShear (E : Env) (p : PV) : Prop :=
  p.v (azimuth E.box) = (if isFargo E.box then 0 else -E.q * E.Om * p.x 0) ∧
    ∀ d, d ≠ azimuth E.box → p.v d = 0

/-- C80: without drag a particle on a circular orbit stays on it exactly, with any of the three integrators
(in `xy` boxes without FARGO the predicted position keeps x1). -/
theorem circular_fixed (m : Method) (E : Env) (p : PV) (hE : FreeBox E) (hp : OnShear E p) :
    (advance m E p).v = p.v ∧ (advance m E p).x 0 = p.x 0 := by
  obtain ⟨hb, hg, hu⟩ := hE
  obtain ⟨ha, h0⟩ := hp
  have hdr : ∀ x v d, (drag E x v).1 d = 0 := by intro x v d; simp [drag, hg]
  have hv0 : p.v 0 = 0 := h0 0 (by cases hbx : E.box <;> simp [azimuth])
  have hpr : ∀ c a, predict E c a p 0 = p.x 0 := by
    intro c a
    simp only [predict, hv0]
    cases hbx : E.box with
    | none => simp
    | xy f => cases f <;> simp
    | xz f => simp
  have hF : ∀ x : V3, x 0 = p.x 0 → ∀ d, force E x p.v d = 0 := by
    intro x hx d
    rcases hbx : E.box with _ | f | f
    · exact absurd hbx hb
    · rw [hbx] at ha
      cases f
      · simp only [azimuth, isFargo, Bool.false_eq_true, if_false] at ha
        fin_cases d
        · simp only [force, hbx, hu, hx, Fin.zero_eta, Matrix.cons_val_zero, ha]; ring
        · simp [force, hbx, hu, hv0]
        · simp [force, hbx, hu]
      · simp only [azimuth, isFargo, if_true] at ha
        fin_cases d
        · simp [force, hbx, hu, ha]
        · simp [force, hbx, hu, hv0]
        · simp [force, hbx, hu]
    · rw [hbx] at ha
      cases f
      · simp only [azimuth, isFargo, Bool.false_eq_true, if_false] at ha
        fin_cases d
        · simp only [force, hbx, hu, hx, Fin.zero_eta, Matrix.cons_val_zero, ha]; ring
        · simp [force, hbx, hu]
        · simp [force, hbx, hu, hv0]
      · simp only [azimuth, isFargo, if_true] at ha
        fin_cases d
        · simp [force, hbx, hu, ha]
        · simp [force, hbx, hu]
        · simp [force, hbx, hu, hv0]
  have h : ∀ d, velUpdate m E p d = 0 := by
    intro d
    cases m
    · have hvn : (fun d => p.v d + 1/2 * ((drag E p.x p.v).1 d + force E p.x p.v d) * E.dt) = p.v := by
        funext d; rw [hdr, hF _ rfl]; ring
      show ((drag E (predict E (1/2) (1/8) p)
          (fun d => p.v d + 1/2 * ((drag E p.x p.v).1 d + force E p.x p.v d) * E.dt)).1 d
        + force E (predict E (1/2) (1/8) p)
          (fun d => p.v d + 1/2 * ((drag E p.x p.v).1 d + force E p.x p.v d) * E.dt) d) * E.dt = 0
      rw [hvn, hdr, hF _ (hpr _ _)]
      ring
    · rcases hbx : E.box with _ | f | f
      · exact absurd hbx hb
      all_goals
        simp only [velUpdate, semimp, hbx, hdr, hF _ (hpr _ _), add_zero, mul_zero, zero_div, sub_zero, ite_self]
        fin_cases d <;> simp
    · rcases hbx : E.box with _ | f | f
      · exact absurd hbx hb
      all_goals
        simp only [velUpdate, fulimp, hbx, hdr, hF _ (hpr _ _), hF _ rfl, add_zero, mul_zero, zero_div, sub_zero,
          zero_mul, ite_self]
        fin_cases d <;> simp
  constructor
  · funext d; simp [advance, h]
  · simp only [advance, h, hv0]
    split
    · ring
    · rfl

/-- The hypotheses of the shearing-box theorems are met: Omega 1, q = 3/2, a particle on the circular orbit
of radius 2 and one on an epicycle. -/
example : ∃ (E : Env) (p p' : PV), FreeBox E ∧ E.q < 2 ∧ E.dims 0 = true ∧ isFargo E.box = true ∧
    OnShear E p ∧ ¬ OnShear E p' := by
  refine ⟨⟨1/10, fun _ => true, .xy true, 1, 3/2, fun _ => (fun _ => 0, fun _ => 0), fun _ _ => 0⟩,
    ⟨fun _ => 2, fun _ => 0⟩, ⟨fun _ => 2, fun _ => 1⟩, ⟨by simp, by simp, by simp⟩, by norm_num, rfl, rfl,
    ⟨by simp [isFargo], by simp⟩, ?_⟩
  intro h
  have := h.1
  norm_num [isFargo] at this

/-! ## What the gas is handed -/

/-- The drag impulse felt over a step whose mean velocity is `v`, at position `x`. -/
def dragImpulse (E : Env) (x v : V3) (ts1 : ℝ) : V3 := fun d => -E.dt * ts1 * (v d - (E.gas x).1 d)

/-- C81: with the semi-implicit integrator, away from the xy/xz boxes without FARGO (where the tidal force
depends on the position) and without user force, the momentum handed to the gas for a particle of mass `m` is
exactly `m` times the drag impulse on the particle evaluated at its mean velocity; so it vanishes when the
stopping time is infinite. -/
theorem feedback_is_drag (m ts : ℝ) (E : Env) (p : PV) (hb : E.box = .none ∨ isFargo E.box = true)
    (hu : ∀ x d, E.user x d = 0) (hq : E.q < 2) (hdt : 0 < E.dt)
    (hts : 0 ≤ (drag E (predict E (1/2) (1/8) p) p.v).2) (d : Fin 3) :
    let xn := predict E (1/2) (1/8) p
    let p' := advance .semi E p
    (feedback m ts E p p').1 d
      = m * dragImpulse E xn (fun d => 1/2 * (p.v d + p'.v d)) (drag E xn p.v).2 d := by
  intro xn p'
  set T := (drag E xn p.v).2 with hT
  have hfd : ∀ d, (drag E xn p.v).1 d = -T * (p.v d - (E.gas xn).1 d) := fun d => rfl
  have n1 : (E.dt * T + 2) ≠ 0 := by
    have : 0 ≤ E.dt * T := mul_nonneg hdt.le hts
    linarith
  have n2 : (E.dt * T + 2) ^ 2 + 2 * (2 - E.q) * (E.Om * E.dt) ^ 2 ≠ 0 := by
    have : 0 < 2 - E.q := by linarith
    positivity
  rcases hbx : E.box with _ | f | f
  · have hv : ∀ d, p'.v d = p.v d + E.dt * 2 * (1 / (E.dt * T + 2)) * (-T * (p.v d - (E.gas xn).1 d)) := by
      intro d
      show p.v d + velUpdate .semi E p d = _
      simp only [velUpdate, semimp, hbx, force, hu, add_zero]
      rw [show drag E (predict E (1/2) (1/8) p) p.v = drag E xn p.v from rfl, ← hT, hfd]
    simp only [feedback, dragImpulse, force, hbx, hu, hv]
    field_simp
    ring
  · rcases hb with hb | hb
    · rw [hbx] at hb; cases hb
    rw [hbx] at hb
    simp only [isFargo] at hb
    subst hb
    have hv : ∀ d, p'.v d = p.v d + velUpdate .semi E p d := fun d => rfl
    simp only [velUpdate, semimp, hbx, force, hu, if_true,
      show drag E (predict E (1/2) (1/8) p) p.v = drag E xn p.v from rfl, ← hT, hfd, zero_add] at hv
    have hv0 := hv 0
    have hv1 := hv 1
    have hv2 := hv 2
    simp only [Matrix.cons_val_zero, Matrix.cons_val_one, Matrix.cons_val] at hv0 hv1 hv2
    have hb1 := one_div_mul_cancel n2
    generalize 1 / ((E.dt * T + 2) ^ 2 + 2 * (2 - E.q) * (E.Om * E.dt) ^ 2) = b1 at hb1 hv0 hv1 hv2
    fin_cases d
    · simp only [feedback, dragImpulse, force, hbx, hu, Fin.zero_eta, Matrix.cons_val_zero, hv0, hv1, zero_add]
      linear_combination (m * E.dt * (-T * (p.v 0 - (E.gas xn).1 0) + 2 * p.v 1 * E.Om)) * hb1
    · simp only [feedback, dragImpulse, force, hbx, hu, Fin.mk_one, Matrix.cons_val_one, Matrix.cons_val_zero,
        hv0, hv1, zero_add]
      linear_combination (m * E.dt * (-T * (p.v 1 - (E.gas xn).1 1) + (E.q - 2) * p.v 0 * E.Om)) * hb1
    · simp only [feedback, dragImpulse, force, hbx, hu, Fin.reduceFinMk, Matrix.cons_val, hv2]
      field_simp
      ring
  · rcases hb with hb | hb
    · rw [hbx] at hb; cases hb
    rw [hbx] at hb
    simp only [isFargo] at hb
    subst hb
    have hv : ∀ d, p'.v d = p.v d + velUpdate .semi E p d := fun d => rfl
    simp only [velUpdate, semimp, hbx, force, hu, if_true,
      show drag E (predict E (1/2) (1/8) p) p.v = drag E xn p.v from rfl, ← hT, hfd, zero_add] at hv
    have hv0 := hv 0
    have hv1 := hv 1
    have hv2 := hv 2
    simp only [Matrix.cons_val_zero, Matrix.cons_val_one, Matrix.cons_val] at hv0 hv1 hv2
    have hb1 := one_div_mul_cancel n2
    generalize 1 / ((E.dt * T + 2) ^ 2 + 2 * (2 - E.q) * (E.Om * E.dt) ^ 2) = b1 at hb1 hv0 hv1 hv2
    fin_cases d
    · simp only [feedback, dragImpulse, force, hbx, hu, Fin.zero_eta, Matrix.cons_val_zero, hv0, hv2,
        zero_add]
      linear_combination (m * E.dt * (-T * (p.v 0 - (E.gas xn).1 0) + 2 * p.v 2 * E.Om)) * hb1
    · simp only [feedback, dragImpulse, force, hbx, hu, Fin.mk_one, Matrix.cons_val_one,
        Matrix.cons_val_zero, hv1]
      field_simp
      ring
    · simp only [feedback, dragImpulse, force, hbx, hu, Fin.reduceFinMk, Matrix.cons_val, hv0, hv2, zero_add]
      linear_combination (m * E.dt * (-T * (p.v 2 - (E.gas xn).1 2) + (E.q - 2) * p.v 0 * E.Om)) * hb1


/-! ## Energy and momentum of gas and particle -/

/-- What the integrators do with the feedback of a particle deposited in a zone: `M -= fb`, `E += Eloss`;
integrate_1d_ctu.c:538-543, integrate_2d_ctu.c:1885-1890, integrate_3d_ctu.c:3189-3193. -/
def gasKick (M : V3) (e : ℝ) (fb : V3 × ℝ) : V3 × ℝ := (fun d => M d - fb.1 d, e + fb.2)

/-- C81: momentum: with no force but the drag, gas and particle together keep their momentum exactly, for all
three integrators, any gas and any stopping time. -/
theorem feedback_momentum (me : Method) (m ts : ℝ) (E : Env) (p : PV) (M : V3) (e : ℝ) (hbox : E.box = .none)
    (hf : ∀ x d, E.user x d = 0) (d : Fin 3) :
    (gasKick M e (feedback m ts E p (advance me E p))).1 d + m * (advance me E p).v d = M d + m * p.v d := by
  have hF : ∀ x v d, force E x v d = 0 := by intro x v d; simp [force, hbox, hf]
  simp only [gasKick, feedback, hF]
  ring

/-- C81: energy: with the semi-implicit integrator in gas moving with velocity `u` the energy of gas and
particle together changes by `m (v' - v) . u`. -/
theorem feedback_energy (m dt ts : ℝ) (dims : Fin 3 → Bool) (u : V3) (p : PV) (M : V3) (e : ℝ) (hdt : 0 < dt)
    (hts : 0 < ts) :
    let p' := advance .semi (dragOnly dt dims u ts) p
    (gasKick M e (feedback m ts (dragOnly dt dims u ts) p p')).2
        + 1/2 * m * (p'.v 0 ^ 2 + p'.v 1 ^ 2 + p'.v 2 ^ 2)
      = e + 1/2 * m * (p.v 0 ^ 2 + p.v 1 ^ 2 + p.v 2 ^ 2)
        + m * ((p'.v 0 - p.v 0) * u 0 + (p'.v 1 - p.v 1) * u 1 + (p'.v 2 - p.v 2) * u 2) := by
  intro p'
  have hk : ∀ d, ts / dt * (p'.v d - p.v d) = u d - 1/2 * (p.v d + p'.v d) := by
    intro d
    have h := drag_factor .semi dt ts dims u p hdt hts d
    have h3 : 2 + dt / ts ≠ 0 := by positivity
    have h4 : factor .semi (dt / ts) * (2 + dt / ts) = 2 - dt / ts := by
      unfold factor; exact div_mul_cancel₀ _ h3
    have h5 : (p'.v d - u d) * (2 + dt / ts) = (2 - dt / ts) * (p.v d - u d) := by
      rw [show p'.v d - u d = _ from h, ← h4]; ring
    have h6 : ts / dt * (dt / ts) = 1 := by field_simp
    linear_combination (ts / dt) / 2 * h5 + (u d - 1/2 * (p.v d + p'.v d)) * h6
  have hF : ∀ x v d, force (dragOnly dt dims u ts) x v d = 0 := by intro x v d; simp [force, dragOnly]
  simp only [gasKick, feedback, hF]
  have a := hk 0
  have b := hk 1
  have c := hk 2
  have hD : (dragOnly dt dims u ts).dt = dt := rfl
  rw [hD]
  linear_combination m * (p'.v 0 - p.v 0) * a + m * (p'.v 1 - p.v 1) * b + m * (p'.v 2 - p.v 2) * c

/-- C81, as far as it holds: in gas at rest the energy lost by the particle is given to the gas exactly. -/
theorem feedback_energy_partial (m dt ts : ℝ) (dims : Fin 3 → Bool) (p : PV) (M : V3) (e : ℝ) (hdt : 0 < dt)
    (hts : 0 < ts) :
    let p' := advance .semi (dragOnly dt dims (fun _ => 0) ts) p
    (gasKick M e (feedback m ts (dragOnly dt dims (fun _ => 0) ts) p p')).2
        + 1/2 * m * (p'.v 0 ^ 2 + p'.v 1 ^ 2 + p'.v 2 ^ 2)
      = e + 1/2 * m * (p.v 0 ^ 2 + p.v 1 ^ 2 + p.v 2 ^ 2) := by
  have := feedback_energy m dt ts dims (fun _ => 0) p M e hdt hts
  simpa using this

/-- C81 refuted for moving gas: the work of the drag on the gas is missing from its energy.  A particle of mass
1 at rest in gas of velocity 1, with equal time step and stopping time: the energy of gas and particle
grows by 2/3. -/
theorem feedback_energy_false :
    ∃ (m dt ts : ℝ) (u : V3) (p : PV) (M : V3) (e : ℝ), 0 < m ∧ 0 < dt ∧ 0 < ts ∧
      let p' := advance .semi (dragOnly dt (fun _ => true) u ts) p
      (gasKick M e (feedback m ts (dragOnly dt (fun _ => true) u ts) p p')).2
          + 1/2 * m * (p'.v 0 ^ 2 + p'.v 1 ^ 2 + p'.v 2 ^ 2)
        = e + 1/2 * m * (p.v 0 ^ 2 + p.v 1 ^ 2 + p.v 2 ^ 2) + 2/3 := by
  refine ⟨1, 1, 1, ![1, 0, 0], ⟨fun _ => 0, fun _ => 0⟩, fun _ => 0, 1, by norm_num, by norm_num, by norm_num, ?_⟩
  intro p'
  have h := feedback_energy 1 1 1 (fun _ => true) ![1, 0, 0] ⟨fun _ => 0, fun _ => 0⟩ (fun _ => 0) 1
    (by norm_num) (by norm_num)
  have h0 := drag_factor .semi 1 1 (fun _ => true) ![1, 0, 0] ⟨fun _ => 0, fun _ => 0⟩ (by norm_num)
    (by norm_num) 0
  have e0 : p'.v 0 = 2/3 := by
    have : p'.v 0 - 1 = factor .semi (1/1) * (0 - 1) := h0
    norm_num [factor] at this
    linarith
  rw [h]
  have e1 : (![1, 0, 0] : V3) 0 = 1 := rfl
  have e2 : (![1, 0, 0] : V3) 1 = 0 := rfl
  have e3 : (![1, 0, 0] : V3) 2 = 0 := rfl
  rw [e1, e2, e3]
  show _ + 1 * ((p'.v 0 - 0) * 1 + _ + _) = _
  rw [e0]
  ring

end
end Athena.Part
