import Verif.Part.Drag

/-!
# src/particles/integrators_particle.c: the results do not depend on the units; C88

A simulation may be run in any units of length and time: the same physical state then has other numbers, and
the results must be the same state in the same units.  This holds for the particle integrators except in the
`xy` shearing box without FARGO, where the predicted position has a term that is not a length.
-/

namespace Athena.Part
noncomputable section

/-- The same state with a unit of length smaller by the factor `l` and a unit of time smaller by the factor
`s`: lengths are multiplied by `l`, velocities by `l / s`. -/
def PV.units (l s : ℝ) (p : PV) : PV := ⟨fun d => l * p.x d, fun d => l / s * p.v d⟩

/-- The same surroundings in those units. -/
def Env.units (l s : ℝ) (E : Env) : Env where
  dt := s * E.dt
  dims := E.dims
  box := E.box
  Om := E.Om / s
  q := E.q
  gas := fun x => (fun d => l / s * (E.gas fun d => x d / l).1 d,
    fun w => (E.gas fun d => x d / l).2 (fun d => w d * (s / l)) / s)
  user := fun x d => l / s ^ 2 * E.user (fun d => x d / l) d

theorem div_units {l : ℝ} (hl : l ≠ 0) (x : V3) : (fun d => l * x d / l) = x := by
  funext d; field_simp

theorem drag_units {l s : ℝ} (hl : l ≠ 0) (hs : s ≠ 0) (E : Env) (x v : V3) :
    drag (E.units l s) (fun d => l * x d) (fun d => l / s * v d) =
      (fun d => l / s ^ 2 * (drag E x v).1 d, (drag E x v).2 / s) := by
  have e : (fun d => (l / s * v d - l / s * (E.gas x).1 d) * (s / l)) = fun d => v d - (E.gas x).1 d := by
    funext d; field_simp
  simp only [drag, Env.units, div_units hl, e]
  refine Prod.ext ?_ rfl
  funext d
  dsimp only
  field_simp

theorem force_units {l s : ℝ} (hl : l ≠ 0) (hs : s ≠ 0) (E : Env) (x v : V3) :
    force (E.units l s) (fun d => l * x d) (fun d => l / s * v d) = fun d => l / s ^ 2 * force E x v d := by
  funext d
  rcases hb : E.box with _ | f | f
  · simp only [force, Env.units, hb, div_units hl]
  all_goals
    cases f <;> fin_cases d <;>
      simp only [force, Env.units, hb, div_units hl, Fin.zero_eta, Fin.mk_one, Fin.reduceFinMk,
        Matrix.cons_val_zero, Matrix.cons_val_one, Matrix.cons_val] <;> field_simp

theorem predict_units {l s : ℝ} (hs : s ≠ 0) {E : Env} (hb : E.box ≠ .xy false) (c a : ℝ) (p : PV) :
    predict (E.units l s) c a (p.units l s) = fun d => l * predict E c a p d := by
  funext d
  rcases hbx : E.box with _ | f | f
  · simp only [predict, Env.units, PV.units, hbx]; split_ifs <;> field_simp
  · cases f
    · exact absurd hbx hb
    · simp only [predict, Env.units, PV.units, hbx]; split_ifs <;> field_simp
  · simp only [predict, Env.units, PV.units, hbx]; split_ifs <;> field_simp

theorem velUpdate_units {l s : ℝ} (hl : l ≠ 0) (hs : s ≠ 0) {E : Env} (hb : E.box ≠ .xy false) (m : Method)
    (p : PV) : velUpdate m (E.units l s) (p.units l s) = fun d => l / s * velUpdate m E p d := by
  have e1 : (p.units l s).x = fun d => l * p.x d := rfl
  have e2 : (p.units l s).v = fun d => l / s * p.v d := rfl
  have hoh : E.Om / s * (s * E.dt) = E.Om * E.dt := by field_simp
  have hu : (E.units l s).box = E.box := rfl
  have hdt : (E.units l s).dt = s * E.dt := rfl
  have hom : (E.units l s).Om = E.Om / s := rfl
  have hq : (E.units l s).q = E.q := rfl
  have ht : ∀ t, s * E.dt * (t / s) = E.dt * t := by intro t; field_simp
  funext d
  cases m
  · simp only [velUpdate, expl, predict_units hs hb, e1, e2, drag_units hl hs, force_units hl hs]
    obtain ⟨w, hw⟩ : ∃ w : V3, w = fun d => p.v d + 1 / 2 * ((drag E p.x p.v).1 d + force E p.x p.v d) * E.dt :=
      ⟨_, rfl⟩
    have ev : (fun d => l / s * p.v d + 1 / 2 * (l / s ^ 2 * (drag E p.x p.v).1 d +
        l / s ^ 2 * force E p.x p.v d) * (E.units l s).dt) = fun d => l / s * w d := by
      funext d
      rw [hw, hdt]; field_simp
    rw [ev, ← hw, drag_units hl hs, force_units hl hs, hdt]
    dsimp only
    generalize force E (predict E (1 / 2) (1 / 8) p) w d = F
    generalize (drag E (predict E (1 / 2) (1 / 8) p) w).1 d = G
    field_simp
  · simp only [velUpdate, semimp, predict_units hs hb, e2, drag_units hl hs, force_units hl hs,
      hu, hdt, hom, hq, hoh, ht]
    rcases hbx : E.box with _ | f | f
    · dsimp only
      generalize 1 / (E.dt * (drag E (predict E (1 / 2) (1 / 8) p) p.v).2 + 2) = b
      field_simp
    all_goals
      dsimp only
      generalize E.dt * (drag E (predict E (1 / 2) (1 / 8) p) p.v).2 + 2 = b
      cases f <;> simp only [Bool.false_eq_true, if_false, if_true]
    · generalize 1 / (b ^ 2 + 4 * (E.Om * E.dt) ^ 2) = b1
      fin_cases d <;> simp <;> field_simp
    · generalize 1 / (b ^ 2 + 2 * (2 - E.q) * (E.Om * E.dt) ^ 2) = b1
      fin_cases d <;> simp <;> field_simp
    · generalize 1 / (b ^ 2 + 4 * (E.Om * E.dt) ^ 2) = b1
      fin_cases d <;> simp <;> field_simp
    · generalize 1 / (b ^ 2 + 2 * (2 - E.q) * (E.Om * E.dt) ^ 2) = b1
      fin_cases d <;> simp <;> field_simp
  · simp only [velUpdate, fulimp, predict_units hs hb, e1, e2, drag_units hl hs, force_units hl hs,
      hu, hdt, hom, hq, hoh, ht]
    generalize (drag E p.x p.v).1 = a1
    generalize (drag E p.x p.v).2 = t1
    generalize (drag E (predict E 1 (1 / 2) p) p.v).1 = a2
    generalize (drag E (predict E 1 (1 / 2) p) p.v).2 = t2
    generalize force E p.x p.v = g1
    generalize force E (predict E 1 (1 / 2) p) p.v = g2
    have hD : 1 + 1 / 2 * (s * E.dt) * (t1 / s + t2 / s + E.dt * t1 * (t2 / s)) =
        1 + 1 / 2 * E.dt * (t1 + t2 + E.dt * t1 * t2) := by field_simp
    have hB : E.Om * E.dt * (-2 - (t1 / s + t2 / s) * (s * E.dt)) =
        E.Om * E.dt * (-2 - (t1 + t2) * E.dt) := by field_simp
    rw [hD, hB]
    generalize 1 + 1 / 2 * E.dt * (t1 + t2 + E.dt * t1 * t2) = D
    generalize E.Om * E.dt * (-2 - (t1 + t2) * E.dt) = B
    rcases hbx : E.box with _ | f | f
    · dsimp only
      generalize 1 / D = b
      field_simp
    all_goals
      dsimp only
      generalize (if f = true then D - (2 - E.q) * (E.Om * E.dt) ^ 2 else D - 2 * (E.Om * E.dt) ^ 2) = A
      generalize (if f = true then 1 / 2 * (E.q - 2) * B else -B) = C
      generalize 1 / (A ^ 2 - B * C) = b1
      cases f <;> simp only [Bool.false_eq_true, if_false, if_true] <;>
      fin_cases d <;> simp <;> field_simp

/-- C88: **the units do not matter**: in other units of length and time the same particle in the same
surroundings ends the step in the same place with the same velocity.  For all three integrators, with drag,
forces and rotation, in every box except the `xy` shearing box without FARGO. -/
theorem advance_units_partial {l s : ℝ} (hl : 0 < l) (hs : 0 < s) {E : Env} (hb : E.box ≠ .xy false)
    (m : Method) (p : PV) : advance m (E.units l s) (p.units l s) = (advance m E p).units l s := by
  have hl := hl.ne'
  have hs := hs.ne'
  unfold advance
  dsimp only
  rw [velUpdate_units hl hs hb]
  unfold PV.units
  congr 1
  · funext d
    have e1 : (E.units l s).dims = E.dims := rfl
    have e2 : (E.units l s).dt = s * E.dt := rfl
    by_cases hd : E.dims d = true
    · simp only [e1, e2, hd, if_true]; field_simp
    · simp only [e1, if_neg hd]
  · funext d
    dsimp only
    ring

example : ∃ E : Env, E.box ≠ .xy false ∧ E.Om ≠ 0 ∧ ∃ p, (advance .full E p).v ≠ p.v := by
  refine ⟨⟨1, fun _ => true, .xz false, 1, 3/2, fun _ => (fun _ => 0, fun _ => 0), fun _ _ => 0⟩, by simp,
    by norm_num, ⟨fun _ => 0, ![1, 0, 0]⟩, ?_⟩
  intro h
  have := congrFun h 0
  simp [advance, velUpdate, fulimp, drag, force, predict] at this
  norm_num at this

/-- Gas whose velocity along x3 is that of a shear layer `x2`, with unit stopping time, no rotation to speak
of. -/
def layer : Env where
  dt := 1
  dims := fun _ => true
  box := .xy false
  Om := 0
  q := 1
  gas := fun x => (![0, 0, x 1], fun _ => 1)
  user := fun _ _ => 0

/-- C88 is false in the `xy` box without FARGO: the predicted position has the term `qshear v1 dt^2 / 8`, in
which a rate is missing (and which the box without FARGO does not need: there `v2` is the whole velocity).
The same particle in a unit of time four times smaller gets another kick from the gas. -/
theorem units_false : ¬∀ (E : Env) (m : Method) (p : PV) (l s : ℝ), 0 < l → 0 < s →
    advance m (E.units l s) (p.units l s) = (advance m E p).units l s := by
  intro h
  have := congrFun (congrArg PV.v (h layer .semi ⟨fun _ => 0, ![1, 0, 0]⟩ 1 4 one_pos (by norm_num))) 2
  simp [advance, velUpdate, semimp, drag, force, predict, layer, Env.units, PV.units] at this
  norm_num at this

/-- What the term does: a particle at rest along x2 in gas at rest along x2 is taken to be elsewhere along x2,
and is dragged by the gas there. -/
theorem predicted_elsewhere : (advance .semi layer ⟨fun _ => 0, ![1, 0, 0]⟩).v 2 = -(1 / 12) ∧
    (advance .semi layer ⟨fun _ => 0, ![0, 0, 0]⟩).v 2 = 0 := by
  constructor <;>
    simp [advance, velUpdate, semimp, drag, force, predict, layer] <;> norm_num

end
end Athena.Part
