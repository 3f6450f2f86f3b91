import Verif.Base
import Mathlib.Analysis.SpecialFunctions.Trigonometric.Basic
import Mathlib.Algebra.BigOperators.Group.List.Basic
import Mathlib.Tactic.FieldSimp
import Mathlib.Tactic.Linarith
import Mathlib.Tactic.LinearCombination
import Mathlib.Tactic.NormNum

/-!
# Shock tubes along a coordinate axis: prob/shkset1d.c

The initial state, the reference solutions (Sod's and Ryu & Jones 2a) and the error that is printed at the end.  Simplifications: adiabatic gas, real numbers instead
of floating-point numbers, `PI` is π, one passive scalar; in hydrodynamics the fields of the two states are to be given as zero.  The loops are given by what they leave in each zone.
-/

namespace Athena.Shk1d

/-- Three components. -/
@[ext] structure V3 where
  x : ℝ
  y : ℝ
  z : ℝ

/-- `ConsS`, with the fields on the zone's three lower faces. -/
@[ext] structure Zone where
  d : ℝ
  M : V3
  E : ℝ
  B : V3
  F : V3
  s : ℝ

/-- `Prim1DS` with the longitudinal field: shkset1d.c:71-105. -/
structure Prim where
  d : ℝ
  p : ℝ
  v : V3
  b : V3
  r : ℝ

/-- `Cons1DS` with the longitudinal field. -/
structure Cons where
  d : ℝ
  M : V3
  E : ℝ
  B : V3
  s : ℝ

/-- `Prim1D_to_Cons1D`, convert_var.c:432-461. -/
noncomputable def toCons (γ : ℝ) (w : Prim) : Cons :=
  ⟨w.d, ⟨w.d * w.v.x, w.d * w.v.y, w.d * w.v.z⟩,
    w.p / (γ - 1) + 0.5 * w.d * (w.v.x * w.v.x + w.v.y * w.v.y + w.v.z * w.v.z) + 0.5 * (w.b.x * w.b.x + w.b.y * w.b.y + w.b.z * w.b.z),
    w.b, w.r * w.d⟩

/-- The input. -/
structure Input where
  γ : ℝ
  mhd : Bool
  l : Prim
  r : Prim
  dir : ℤ
  tlim : ℝ

/-- What the three cases of the `switch` store, shkset1d.c:159-178, 199-218, 239-258. -/
noncomputable def place (dir : ℤ) (u : Cons) (bxl : ℝ) : Zone :=
  if dir = 1 then ⟨u.d, ⟨u.M.x, u.M.y, u.M.z⟩, u.E, ⟨bxl, u.B.y, u.B.z⟩, ⟨bxl, u.B.y, u.B.z⟩, u.s⟩
  else if dir = 2 then ⟨u.d, ⟨-u.M.y, u.M.x, u.M.z⟩, u.E, ⟨-u.B.y, bxl, u.B.z⟩, ⟨-u.B.y, bxl, u.B.z⟩, u.s⟩
  else ⟨u.d, ⟨-u.M.z, u.M.y, u.M.x⟩, u.E, ⟨-u.B.z, u.B.y, bxl⟩, ⟨-u.B.z, u.B.y, bxl⟩, u.s⟩

/-- The coordinate the discontinuity is on, shkset1d.c:152, 192, 232. -/
def axis (dir : ℤ) (x : V3) : ℝ := if dir = 1 then x.x else if dir = 2 then x.y else x.z

open Classical in
/-- `problem` in the zone with centre `x`, shkset1d.c:71-264.  `ath_error(0,...)` with different fields is a call of `vfprintf` with a null format
(utils.c:118-134). -/
noncomputable def zone (I : Input) (x : V3) : Res Zone :=
  if I.mhd = true ∧ I.r.b.x ≠ I.l.b.x then .ub
  else if I.dir ≠ 1 ∧ I.dir ≠ 2 ∧ I.dir ≠ 3 then .fatal
  else .ok (place I.dir (if axis I.dir x ≤ 0 then toCons I.γ I.l else toCons I.γ I.r) I.l.b.x)

/-- `ang_2`, shkset1d.c:143, 184, 224. -/
noncomputable def ang2 (dir : ℤ) : ℝ := if dir = 3 then Real.pi / 2 else 0
/-- `ang_3`, shkset1d.c:144, 185, 225. -/
noncomputable def ang3 (dir : ℤ) : ℝ := if dir = 2 then Real.pi / 2 else 0

open Classical in
/-- Sod's solution at distance `r` from the discontinuity, shkset1d.c:276-282, 301-331. -/
noncomputable def sod (tlim r : ℝ) : Cons :=
  let xs := 1.7522 * tlim
  let xc := 0.92745 * tlim
  let xf := -0.07027 * tlim
  let xh := -1.1832 * tlim
  let mk (d0 Mx E0 r0 : ℝ) : Cons := ⟨d0, ⟨Mx, 0, 0⟩, E0, ⟨0, 0, 0⟩, r0 * d0⟩
  if r > xs then mk 0.125 0 0.25 0
  else if r > xc then mk 0.26557 (0.92745 * 0.26557) 0.87204 0
  else if r > xf then mk 0.42632 (0.92745 * 0.42632) 0.94118 1
  else if r > xh then
    let v0 := 0.92745 * (r - xh) / (xf - xh)
    let d0 := 0.42632 * (1 + 0.20046 * (0.92745 - v0)) ^ 5
    mk d0 (v0 * d0) (0.30313 * (1 + 0.20046 * (0.92745 - v0)) ^ 7 / 0.4 + 0.5 * d0 * v0 * v0) 1
  else mk 1 0 2.5 1

/-- One block of the table, shkset1d.c:336-344 and the like. -/
noncomputable def row (γ d0 vx vy vz by' bz p r0 : ℝ) : Cons :=
  let q := Real.sqrt (4 * Real.pi)
  let M : V3 := ⟨vx * d0, vy * d0, vz * d0⟩
  let B : V3 := ⟨2 / q, by' / q, bz / q⟩
  ⟨d0, M, p / (γ - 1) + 0.5 * ((M.x * M.x + M.y * M.y + M.z * M.z) / d0 + (B.x * B.x + B.y * B.y + B.z * B.z)), B, r0 * d0⟩

open Classical in
/-- The solution of Ryu & Jones 2a, shkset1d.c:284-293, 332-408. -/
noncomputable def rj2a (γ tlim r : ℝ) : Cons :=
  if r > 2.2638 * tlim then row γ 1 0 0 0 4 2 1 0
  else if r > (0.53432 + 1 / Real.sqrt (Real.pi * 1.309)) * tlim then row γ 1.3090 0.53432 (-0.094572) (-0.047286) 5.3452 2.6726 1.5844 0
  else if r > (0.53432 + 0.48144 / 1.309) * tlim then row γ 1.3090 0.53432 (-0.18411) 0.17554 5.7083 1.7689 1.5844 0
  else if r > 0.57538 * tlim then row γ 1.4735 0.57538 0.047601 0.24734 5.0074 1.5517 1.9317 0
  else if r > (0.60588 - 0.51594 / 1.4903) * tlim then row γ 1.6343 0.57538 0.047601 0.24734 5.0074 1.5517 1.9317 1
  else if r > (0.60588 - 1 / Real.sqrt (Real.pi * 1.4903)) * tlim then row γ 1.4903 0.60588 0.22157 0.30125 5.5713 1.7264 1.6558 1
  else if r > (1.2 - 2.3305 / 1.08) * tlim then row γ 1.4903 0.60588 0.11235 0.55686 5.0987 2.8326 1.6558 1
  else row γ 1.08 1.2 0.01 0.5 3.6 2 0.95 1

/-- The components along the Grid, shkset1d.c:412-420; `RootSoln` has no faces. -/
noncomputable def turnRef (a2 a3 : ℝ) (v : V3) : V3 :=
  ⟨v.x * Real.cos a2 * Real.cos a3 - v.y * Real.sin a3 - v.z * Real.sin a2 * Real.cos a3,
    v.x * Real.cos a2 * Real.sin a3 + v.y * Real.cos a3 - v.z * Real.sin a2 * Real.sin a3,
    v.x * Real.sin a2 + v.z * Real.cos a2⟩

/-- What is stored in `RootSoln` for the zone with centre `x`, shkset1d.c:295-427. -/
noncomputable def ref (I : Input) (x : V3) : Cons :=
  let a2 := ang2 I.dir
  let a3 := ang3 I.dir
  let r := Real.cos a2 * (x.x * Real.cos a3 + x.y * Real.sin a3) + x.z * Real.sin a2
  let u := if I.mhd = true then rj2a I.γ I.tlim r else sod I.tlim r
  ⟨u.d, turnRef a2 a3 u.M, u.E, turnRef a2 a3 u.B, u.s⟩

/-- A Domain with one Grid: the level, the active zones from `lo` to `hi` in each direction, `nghost`, the centres of the zones. -/
structure Dom where
  level : ℕ
  lo : ℤ × ℤ × ℤ
  hi : ℤ × ℤ × ℤ
  ng : ℤ
  pos : ℤ × ℤ × ℤ → V3

/-- The zones of the loops. -/
def Dom.Act (D : Dom) (c : ℤ × ℤ × ℤ) : Prop :=
  D.lo.1 ≤ c.1 ∧ c.1 ≤ D.hi.1 ∧ D.lo.2.1 ≤ c.2.1 ∧ c.2.1 ≤ D.hi.2.1 ∧ D.lo.2.2 ≤ c.2.2 ∧ c.2.2 ≤ D.hi.2.2

/-- `RootSoln`: its dimensions and what it holds. -/
structure Arr where
  n : ℤ × ℤ × ℤ
  u : ℤ × ℤ × ℤ → Cons

/-- Within the array. -/
def Arr.In (A : Arr) (c : ℤ × ℤ × ℤ) : Prop := 0 ≤ c.1 ∧ c.1 < A.n.1 ∧ 0 ≤ c.2.1 ∧ c.2.1 < A.n.2.1 ∧ 0 ≤ c.2.2 ∧ c.2.2 < A.n.2.2

open Classical in
/-- What `problem` does to `RootSoln` on one Domain, shkset1d.c:60-67, 266-432: a new array on level 0 only, the solution on every level. -/
noncomputable def fill (I : Input) (err : Bool) (A : Option Arr) (D : Dom) : Res (Option Arr) :=
  let A := if D.level = 0 then
      some ⟨(D.hi.1 - D.lo.1 + 1 + 2 * D.ng, D.hi.2.1 - D.lo.2.1 + 1 + 2 * D.ng, D.hi.2.2 - D.lo.2.2 + 1 + 2 * D.ng), fun _ => ⟨0, ⟨0, 0, 0⟩, 0, ⟨0, 0, 0⟩, 0⟩⟩
    else A
  if err = true then
    match A with
    | none => .ub
    | some a => if ∀ c, D.Act c → a.In c then .ok (some ⟨a.n, fun c => if D.Act c then ref I (D.pos c) else a.u c⟩) else .ub
  else .ok A

/-- The loop over levels and Domains, main.c:371-376. -/
noncomputable def fillAll (I : Input) (err : Bool) : Option Arr → List Dom → Res (Option Arr)
  | A, [] => .ok A
  | A, D :: Ds => match fill I err A D with
    | .ok A' => fillAll I err A' Ds
    | .fatal => .fatal
    | .ub => .ub

/-- One variable's summed error, shkset1d.c:515-632: over the zones of the Grids, then over the Grids. -/
noncomputable def total (gs : List (List (Cons × Cons))) (f : Cons → ℝ) : ℝ := (gs.map fun g => (g.map fun p => |f p.1 - f p.2|).sum).sum

/-- `rms_error`, shkset1d.c:634-646. -/
noncomputable def rms (gs : List (List (Cons × Cons))) (count : ℕ) : ℝ :=
  Real.sqrt (total gs (·.d) ^ 2 + total gs (·.M.x) ^ 2 + total gs (·.M.y) ^ 2 + total gs (·.M.z) ^ 2
    + (total gs (·.B.x) ^ 2 + total gs (·.B.y) ^ 2 + total gs (·.B.z) ^ 2) + total gs (·.E) ^ 2 + total gs (·.s) ^ 2) / count

/-- `Userwork_after_loop` on the root Grid, shkset1d.c:490-556: the pairs it compares.  After a restart `problem` has not been called and `RootSoln` is null. -/
noncomputable def compare (err : Bool) (A : Option Arr) (U : ℤ × ℤ × ℤ → Cons) (zones : List (ℤ × ℤ × ℤ)) : Res (List (Cons × Cons)) :=
  if err = true then
    match A with
    | none => if zones = [] then .ok [] else .ub
    | some a => .ok (zones.map fun c => (U c, a.u c))
  else .ok []

/-! ## Specification -/

/-- Scalar product. -/
def V3.dot (a b : V3) : ℝ := a.x * b.x + a.y * b.y + a.z * b.z
/-- Vector product. -/
def V3.cross (a b : V3) : V3 := ⟨a.y * b.z - a.z * b.y, a.z * b.x - a.x * b.z, a.x * b.y - a.y * b.x⟩

/-- A rotation: it keeps lengths, angles and orientation. -/
def Rotation (R : V3 → V3) : Prop := (∀ a b, (R a).dot (R b) = a.dot b) ∧ ∀ a b, R (a.cross b) = (R a).cross (R b)

/-- The unit vector along an axis. -/
def unit (dir : ℤ) : V3 := ⟨if dir = 1 then 1 else 0, if dir = 2 then 1 else 0, if dir = 3 then 1 else 0⟩

/-- A zone, turned. -/
def Zone.turn (R : V3 → V3) (z : Zone) : Zone := ⟨z.d, R z.M, z.E, R z.B, R z.F, z.s⟩
/-- A state, turned. -/
def Cons.turn (R : V3 → V3) (z : Cons) : Cons := ⟨z.d, R z.M, z.E, R z.B, z.s⟩

/-- Pressure of a gas with index `γ`. -/
noncomputable def pres (γ : ℝ) (u : Cons) : ℝ := (γ - 1) * (u.E - u.M.dot u.M / (2 * u.d) - u.B.dot u.B / 2)

/-- Sod's shock tube, tst/1D-hydro/athinput.sod. -/
noncomputable def sodInput (dir : ℤ) (tlim : ℝ) : Input :=
  ⟨1.4, false, ⟨1, 1, ⟨0, 0, 0⟩, ⟨0, 0, 0⟩, 1⟩, ⟨0.125, 0.1, ⟨0, 0, 0⟩, ⟨0, 0, 0⟩, 0⟩, dir, tlim⟩

/-- The shock tube of Ryu & Jones, figure 2a, tst/1D-mhd/athinput.rj2a. -/
noncomputable def rjInput (γ : ℝ) (dir : ℤ) (tlim : ℝ) : Input :=
  let q := Real.sqrt (4 * Real.pi)
  ⟨γ, true, ⟨1.08, 0.95, ⟨1.2, 0.01, 0.5⟩, ⟨2 / q, 3.6 / q, 2 / q⟩, 1⟩, ⟨1, 1, ⟨0, 0, 0⟩, ⟨2 / q, 4 / q, 2 / q⟩, 0⟩, dir, tlim⟩

/-- A zone without its faces. -/
def Zone.cons (z : Zone) : Cons := ⟨z.d, z.M, z.E, z.B, z.s⟩

/-- The jump conditions of gas dynamics along x1 for speed `v`, each to within `ε`. -/
def JumpTo (ε γ v : ℝ) (z w : Cons) : Prop :=
  |(z.M.x - w.M.x) - v * (z.d - w.d)| ≤ ε ∧ |(z.M.x ^ 2 / z.d + pres γ z) - (w.M.x ^ 2 / w.d + pres γ w) - v * (z.M.x - w.M.x)| ≤ ε ∧
    |(z.E + pres γ z) * z.M.x / z.d - (w.E + pres γ w) * w.M.x / w.d - v * (z.E - w.E)| ≤ ε

/-- One of the three axes. -/
def Axis (d : ℤ) : Prop := d = 1 ∨ d = 2 ∨ d = 3

/-! ## Theorems -/

/-- The rotation that takes the x1 axis to axis `dir`. -/
def rot (dir : ℤ) (v : V3) : V3 := if dir = 1 then v else if dir = 2 then ⟨-v.y, v.x, v.z⟩ else ⟨-v.z, v.y, v.x⟩

theorem rot_rotation {dir : ℤ} (h : Axis dir) : Rotation (rot dir) ∧ rot dir (unit 1) = unit dir := by
  rcases h with rfl | rfl | rfl
  · exact ⟨⟨fun a b => rfl, fun a b => rfl⟩, rfl⟩
  · refine ⟨⟨fun a b => ?_, fun a b => ?_⟩, by simp [rot, unit]⟩
    · simp only [rot, V3.dot]; norm_num; ring
    · ext <;> simp [rot, V3.cross] <;> ring
  · refine ⟨⟨fun a b => ?_, fun a b => ?_⟩, by simp [rot, unit]⟩
    · simp only [rot, V3.dot]; norm_num; ring
    · ext <;> simp [rot, V3.cross] <;> ring

theorem turnRef_rot {dir : ℤ} (h : Axis dir) (v : V3) : turnRef (ang2 dir) (ang3 dir) v = rot dir v := by
  rcases h with rfl | rfl | rfl <;> simp [turnRef, ang2, ang3, rot]

theorem axis_rot {dir : ℤ} (h : Axis dir) (x : V3) : axis dir (rot dir x) = x.x := by
  rcases h with rfl | rfl | rfl <;> simp [axis, rot]

theorem dist_axis {dir : ℤ} (h : Axis dir) (x : V3) :
    Real.cos (ang2 dir) * (x.x * Real.cos (ang3 dir) + x.y * Real.sin (ang3 dir)) + x.z * Real.sin (ang2 dir) = axis dir x := by
  rcases h with rfl | rfl | rfl <;> simp [axis, ang2, ang3]

/-- **C147 (initial state).**  A shock tube along axis `dir` is the one along x1, turned: there is a rotation that takes x1 to that axis, and with it position,
momentum and field of the initial state and of the reference solution. -/
theorem turned (I : Input) (h : Axis I.dir) (hB : I.mhd = true → I.r.b.x = I.l.b.x) :
    ∃ R, Rotation R ∧ R (unit 1) = unit I.dir ∧
      (∀ x, ∃ z, zone { I with dir := 1 } x = .ok z ∧ zone I (R x) = .ok (z.turn R)) ∧
      ∀ x, ref I (R x) = (ref { I with dir := 1 } x).turn R := by
  refine ⟨rot I.dir, (rot_rotation h).1, (rot_rotation h).2, fun x => ?_, fun x => ?_⟩
  · have hm : ¬(I.mhd = true ∧ I.r.b.x ≠ I.l.b.x) := fun c => c.2 (hB c.1)
    have hd : ¬(I.dir ≠ 1 ∧ I.dir ≠ 2 ∧ I.dir ≠ 3) := by unfold Axis at h; omega
    refine ⟨_, by unfold zone; rw [if_neg hm, if_neg (by simp)], ?_⟩
    unfold zone
    rw [if_neg hm, if_neg hd, axis_rot h]
    have : axis 1 x = x.x := by simp [axis]
    simp only [this]
    congr 1
    rcases h with h | h | h <;> simp [h, place, Zone.turn, rot]
  · have h1 : Axis 1 := Or.inl rfl
    unfold ref
    simp only [dist_axis h, dist_axis h1, axis_rot h, turnRef_rot h, turnRef_rot h1, Cons.turn]
    simp [axis, rot]

/-- The state to the left of the discontinuity, and to the right. -/
theorem sides (I : Input) (h : I.dir = 1) (hB : I.mhd = true → I.r.b.x = I.l.b.x) (x : V3) :
    ∃ z, zone I x = .ok z ∧ z.F = z.B ∧
      let w := if x.x ≤ 0 then I.l else I.r
      z.d = w.d ∧ z.M = ⟨w.d * w.v.x, w.d * w.v.y, w.d * w.v.z⟩ ∧ z.s = w.r * w.d ∧ (I.mhd = true → z.B = w.b) ∧
        (I.γ ≠ 1 → w.b = ⟨0, 0, 0⟩ ∨ I.mhd = true → w.d ≠ 0 → pres I.γ ⟨z.d, z.M, z.E, if I.mhd = true then z.B else ⟨0, 0, 0⟩, z.s⟩ = w.p) := by
  have hm : ¬(I.mhd = true ∧ I.r.b.x ≠ I.l.b.x) := fun c => c.2 (hB c.1)
  refine ⟨_, by unfold zone; rw [if_neg hm, if_neg (by simp [h])], ?_, ?_⟩
  · simp [h, place]
  · have ha : axis I.dir x = x.x := by simp [axis, h]
    simp only [ha]
    by_cases hx : x.x ≤ 0
    · simp only [if_pos hx, h, place, if_true]
      refine ⟨rfl, rfl, rfl, fun _ => rfl, fun hg hb hd => ?_⟩
      have hg' : I.γ - 1 ≠ 0 := sub_ne_zero.mpr hg
      rcases hb with hb | hb
      · by_cases hh : I.mhd = true <;> simp [hh, hb, toCons, pres, V3.dot] <;> field_simp <;> ring
      · simp only [hb, if_true, toCons, pres, V3.dot]; field_simp; ring
    · simp only [if_neg hx, h, place, if_true]
      refine ⟨rfl, rfl, rfl, fun hh => by rw [← hB hh]; rfl, fun hg hb hd => ?_⟩
      have hg' : I.γ - 1 ≠ 0 := sub_ne_zero.mpr hg
      by_cases hh : I.mhd = true
      · simp only [hh, if_true, toCons, pres, V3.dot, ← hB hh]; field_simp; ring
      · have hb : I.r.b = ⟨0, 0, 0⟩ := hb.resolve_right hh
        simp [hh, hb, toCons, pres, V3.dot]; field_simp; ring

/-- **C147 (field).**  The field has no divergence: the component across a face is the same in two zones that differ in the coordinate along it only. -/
theorem divergence_free (I : Input) (h : Axis I.dir) (x y : V3) (z w : Zone) (hz : zone I x = .ok z) (hw : zone I y = .ok w) :
    (x.y = y.y → x.z = y.z → z.F.x = w.F.x) ∧ (x.x = y.x → x.z = y.z → z.F.y = w.F.y) ∧ (x.x = y.x → x.y = y.y → z.F.z = w.F.z) := by
  unfold zone at hz hw
  split at hz
  · cases hz
  rename_i hm
  rw [if_neg hm] at hw
  split at hz
  · cases hz
  rename_i hd
  rw [if_neg hd] at hw
  cases hz; cases hw
  rcases h with h | h | h <;> refine ⟨fun a b => ?_, fun a b => ?_, fun a b => ?_⟩ <;> simp [h, place, axis, a, b]

/-- **C147, refuted: the message about different normal fields.**  The program is meant to stop with a message; it calls `vfprintf` with a null pointer. -/
theorem message_false : ∃ I : Input, Axis I.dir ∧ I.r.b.x ≠ I.l.b.x ∧ ∀ x, zone I x = .ub := by
  refine ⟨⟨2, true, ⟨1, 1, ⟨0, 0, 0⟩, ⟨1, 0, 0⟩, 0⟩, ⟨1, 1, ⟨0, 0, 0⟩, ⟨0, 0, 0⟩, 0⟩, 1, 1⟩, Or.inl rfl, by norm_num, fun x => ?_⟩
  simp [zone]

/-- **C147 (reference solutions).**  At time 0 the reference solution is the initial state of its input file, whatever the axis. -/
theorem sod_start (dir : ℤ) (h : Axis dir) (x : V3) : ∃ z, zone (sodInput dir 0) x = .ok z ∧ ref (sodInput dir 0) x = z.cons := by
  refine ⟨_, by unfold zone; rw [if_neg (by simp [sodInput]), if_neg (by unfold Axis at h; simp only [sodInput]; omega)], ?_⟩
  unfold ref
  simp only [sodInput, dist_axis h, turnRef_rot h, sod, mul_zero, gt_iff_lt]
  by_cases hx : axis dir x ≤ 0
  · rcases h with rfl | rfl | rfl <;> simp [not_lt.mpr hx, hx, rot, place, toCons, Zone.cons] <;> norm_num
  · rcases h with rfl | rfl | rfl <;> simp [not_le.mp hx, hx, rot, place, toCons, Zone.cons] <;> norm_num

@[inherit_doc sod_start]
theorem rj_start (γ : ℝ) (dir : ℤ) (h : Axis dir) (x : V3) : ∃ z, zone (rjInput γ dir 0) x = .ok z ∧ ref (rjInput γ dir 0) x = z.cons := by
  refine ⟨_, by unfold zone; rw [if_neg (by simp [rjInput]), if_neg (by unfold Axis at h; simp only [rjInput]; omega)], ?_⟩
  unfold ref
  simp only [rjInput, dist_axis h, turnRef_rot h, rj2a, mul_zero, gt_iff_lt]
  by_cases hx : axis dir x ≤ 0
  · rcases h with rfl | rfl | rfl <;> simp [not_lt.mpr hx, hx, rot, place, toCons, Zone.cons, row] <;> norm_num <;> ring
  · rcases h with rfl | rfl | rfl <;> simp [not_le.mp hx, hx, rot, place, toCons, Zone.cons, row] <;> norm_num <;> ring

theorem sod_right {t r : ℝ} (h : 1.7522 * t < r) : sod t r = ⟨0.125, ⟨0, 0, 0⟩, 0.25, ⟨0, 0, 0⟩, 0 * 0.125⟩ := by simp [sod, h]

theorem sod_post {t r : ℝ} (h : r ≤ 1.7522 * t) (h' : 0.92745 * t < r) :
    sod t r = ⟨0.26557, ⟨0.92745 * 0.26557, 0, 0⟩, 0.87204, ⟨0, 0, 0⟩, 0 * 0.26557⟩ := by simp [sod, not_lt.mpr h, h']

theorem sod_star {t r : ℝ} (ht : 0 ≤ t) (h : r ≤ 0.92745 * t) (h' : -0.07027 * t < r) :
    sod t r = ⟨0.42632, ⟨0.92745 * 0.42632, 0, 0⟩, 0.94118, ⟨0, 0, 0⟩, 1 * 0.42632⟩ := by
  have h1 : ¬ 1.7522 * t < r := by linarith
  have h2 : ¬ 0.92745 * t < r := by linarith
  unfold sod
  simp only [gt_iff_lt, h1, h2, h', if_true, if_false]

/-- **C147 (Sod's solution).**  To within 2·10⁻⁴ the printed digits fulfil the jump conditions at the shock and at the contact. -/
theorem sod_jumps {t r r' r'' : ℝ} (ht : 0 < t) (h : 1.7522 * t < r) (h1 : r' ≤ 1.7522 * t) (h2 : 0.92745 * t < r')
    (h3 : r'' ≤ 0.92745 * t) (h4 : -0.07027 * t < r'') :
    JumpTo 0.0002 1.4 1.7522 (sod t r') (sod t r) ∧ JumpTo 0.0002 1.4 0.92745 (sod t r'') (sod t r') := by
  rw [sod_right h, sod_post h1 h2, sod_star ht.le h3 h4]
  constructor <;> simp only [JumpTo, pres, V3.dot] <;> refine ⟨?_, ?_, ?_⟩ <;> rw [abs_le] <;> constructor <;> norm_num

/-- The hypotheses are met at t = 1. -/
example : (0 : ℝ) < 1 ∧ (1.7522 : ℝ) * 1 < 2 ∧ (1.5 : ℝ) ≤ 1.7522 * 1 ∧ 0.92745 * 1 < (1.5 : ℝ) ∧ (0 : ℝ) ≤ 0.92745 * 1 ∧ -0.07027 * 1 < (0 : ℝ) := by norm_num

theorem sod_fan {t r : ℝ} (ht : 0 < t) (h : r ≤ -0.07027 * t) (h' : -1.1832 * t < r) : ∃ v, 0 ≤ v ∧ v ≤ 0.92745 ∧
    v = 0.92745 * (r / t + 1.1832) / 1.11293 ∧ (sod t r).d = 0.42632 * (1 + 0.20046 * (0.92745 - v)) ^ 5 ∧ (sod t r).M = ⟨v * (sod t r).d, 0, 0⟩ ∧
      pres 1.4 (sod t r) = 0.30313 * (1 + 0.20046 * (0.92745 - v)) ^ 7 := by
  have h1 : ¬ 1.7522 * t < r := by linarith
  have h2 : ¬ 0.92745 * t < r := by linarith
  have h3 : ¬ -0.07027 * t < r := by linarith
  have e : 0.92745 * (r - -1.1832 * t) / (-0.07027 * t - -1.1832 * t) = 0.92745 * (r / t + 1.1832) / 1.11293 := by
    have : -0.07027 * t - -1.1832 * t = 1.11293 * t := by ring
    rw [this]; field_simp; ring
  have lo : -1.1832 < r / t := by rw [lt_div_iff₀ ht]; exact h'
  have hi : r / t ≤ -0.07027 := by rw [div_le_iff₀ ht]; exact h
  have v0 : 0 ≤ 0.92745 * (r / t + 1.1832) / 1.11293 := by rw [le_div_iff₀ (by norm_num)]; linarith
  have v1 : 0.92745 * (r / t + 1.1832) / 1.11293 ≤ 0.92745 := by rw [div_le_iff₀ (by norm_num)]; linarith
  refine ⟨0.92745 * (r / t + 1.1832) / 1.11293, v0, v1, rfl, ?_⟩
  unfold sod
  simp only [gt_iff_lt, h1, h2, h3, h', if_true, if_false, e]
  generalize 0.92745 * (r / t + 1.1832) / 1.11293 = v at *
  refine ⟨trivial, trivial, ?_⟩
  have hp : 0 < 1 + 0.20046 * (0.92745 - v) := by linarith
  simp only [pres, V3.dot]
  generalize 1 + 0.20046 * (0.92745 - v) = a at *
  have := pow_pos hp 5
  field_simp
  ring

/-- **C147 (Sod's solution).**  Everywhere in the rarefaction the gas has one entropy: the ratio of `p⁵` to `d⁷` is the same. -/
theorem fan_isentropic {t r r' : ℝ} (ht : 0 < t) (h : r ≤ -0.07027 * t) (h' : -1.1832 * t < r) (g : r' ≤ -0.07027 * t) (g' : -1.1832 * t < r') :
    pres 1.4 (sod t r) ^ 5 * (sod t r').d ^ 7 = pres 1.4 (sod t r') ^ 5 * (sod t r).d ^ 7 := by
  obtain ⟨v, _, _, _, hd, _, hp⟩ := sod_fan ht h h'
  obtain ⟨w, _, _, _, hd', _, hp'⟩ := sod_fan ht g g'
  rw [hd, hp, hd', hp']; ring

example : (0 : ℝ) < 1 ∧ (-0.5 : ℝ) ≤ -0.07027 * 1 ∧ -1.1832 * 1 < (-0.5 : ℝ) := by norm_num

/-- **C147 (Sod's solution).**  The rarefaction is a simple wave: at distance `r` from its origin and time `t` the flow is slower than `r / t` by the speed of sound, to
within 2·10⁻⁴. -/
theorem fan_characteristic {t r : ℝ} (ht : 0 < t) (h : r ≤ -0.07027 * t) (h' : -1.1832 * t < r) :
    |(sod t r).M.x / (sod t r).d - Real.sqrt (1.4 * pres 1.4 (sod t r) / (sod t r).d) - r / t| ≤ 0.0002 := by
  obtain ⟨v, v0, v1, hv, hd, hM, hp⟩ := sod_fan ht h h'
  have ha : 0 < 1 + 0.20046 * (0.92745 - v) := by linarith
  have hdp : 0 < (sod t r).d := by rw [hd]; positivity
  have e1 : (sod t r).M.x / (sod t r).d = v := by rw [hM]; field_simp
  have e2 : 1.4 * pres 1.4 (sod t r) / (sod t r).d = (1.4 * 0.30313 / 0.42632) * (1 + 0.20046 * (0.92745 - v)) ^ 2 := by
    rw [hp, hd]; field_simp
  rw [e1, e2, Real.sqrt_mul (by norm_num), Real.sqrt_sq ha.le]
  have l : 0.99772 ≤ Real.sqrt (1.4 * 0.30313 / 0.42632) := by rw [Real.le_sqrt' (by norm_num)]; norm_num
  have u : Real.sqrt (1.4 * 0.30313 / 0.42632) ≤ 0.99773 := by rw [Real.sqrt_le_left (by norm_num)]; norm_num
  have e3 : r / t = 111293 / 92745 * v - 1.1832 := by rw [hv]; ring
  rw [e3]
  generalize Real.sqrt (1.4 * 0.30313 / 0.42632) = c at *
  have m1 := mul_le_mul_of_nonneg_right l ha.le
  have m2 := mul_le_mul_of_nonneg_right u ha.le
  clear hv hd hM hp e1 e2 e3 hdp h
  rw [abs_le]
  constructor
  · linarith only [m1, m2, v0, v1, l, u]
  · linarith only [m1, m2, v0, v1, l, u]

/-- At its two ends the rarefaction joins the neighbouring states to within 10⁻⁴. -/
theorem fan_edges {t r r' : ℝ} (ht : 0 < t) (h : r = -0.07027 * t) (h1 : -1.1832 * t < r') (h2 : r' ≤ -1.1832 * t + 0.00001 * t) :
    |(sod t r).d - 0.42632| ≤ 0.0001 ∧ |(sod t r).M.x / (sod t r).d - 0.92745| ≤ 0.0001 ∧ |pres 1.4 (sod t r) - 0.30313| ≤ 0.0001 ∧
      |(sod t r').d - 1| ≤ 0.0001 ∧ |(sod t r').M.x / (sod t r').d| ≤ 0.0001 ∧ |pres 1.4 (sod t r') - 1| ≤ 0.0001 := by
  obtain ⟨v, v0, v1, hv, hd, hM, hp⟩ := sod_fan ht h.le (by rw [h]; linarith)
  obtain ⟨w, w0, w1, hw, gd, gM, gp⟩ := sod_fan ht (by linarith) h1
  have ev : v = 0.92745 := by rw [hv, h]; field_simp; norm_num
  have hdp : 0 < (sod t r).d := by rw [hd, ev]; norm_num
  have hw' : w ≤ 0.00001 := by
    rw [hw, div_le_iff₀ (by norm_num)]
    have : r' / t ≤ -1.18319 := by rw [div_le_iff₀ ht]; linarith
    linarith
  have gdp : 0 < (sod t r').d := by rw [gd]; have : 0 < 1 + 0.20046 * (0.92745 - w) := by linarith
                                    positivity
  have e1 : (sod t r).M.x / (sod t r).d = v := by rw [hM]; field_simp
  have e2 : (sod t r').M.x / (sod t r').d = w := by rw [gM]; field_simp
  have lo : (1.185914 : ℝ) ≤ 1 + 0.20046 * (0.92745 - w) := by linarith
  have hi : 1 + 0.20046 * (0.92745 - w) ≤ (1.185917 : ℝ) := by linarith
  have p5 := pow_le_pow_left₀ (by norm_num) lo 5
  have q5 := pow_le_pow_left₀ (by linarith) hi 5
  have p7 := pow_le_pow_left₀ (by norm_num) lo 7
  have q7 := pow_le_pow_left₀ (by linarith) hi 7
  norm_num at p5 q5 p7 q7
  rw [e1, e2, hd, hp, gd, gp, ev]
  refine ⟨by norm_num, by norm_num, by norm_num, ?_, ?_, ?_⟩ <;> rw [abs_le] <;> constructor <;> norm_num <;> linarith

example : (-0.07027 : ℝ) = -0.07027 * 1 ∧ -1.1832 * 1 < (-1.183195 : ℝ) ∧ (-1.183195 : ℝ) ≤ -1.1832 * 1 + 0.00001 * 1 := by norm_num

/-- **C147 (Sod's solution).**  Density is positive everywhere, at every time. -/
theorem sod_pos {t : ℝ} (ht : 0 < t) (r : ℝ) : 0 < (sod t r).d := by
  by_cases h1 : 1.7522 * t < r
  · rw [sod_right h1]; norm_num
  by_cases h2 : 0.92745 * t < r
  · rw [sod_post (not_lt.mp h1) h2]; norm_num
  by_cases h3 : -0.07027 * t < r
  · rw [sod_star ht.le (not_lt.mp h2) h3]; norm_num
  by_cases h4 : -1.1832 * t < r
  · obtain ⟨v, v0, v1, _, hd, _⟩ := sod_fan ht (not_lt.mp h3) h4
    rw [hd]
    have : 0 < 1 + 0.20046 * (0.92745 - v) := by linarith
    positivity
  · unfold sod
    simp only [gt_iff_lt, h1, h2, h3, h4, if_false]; norm_num

/-- **C147 (Ryu & Jones).**  The contact in the table is exact: density jumps, and nothing else does. -/
theorem rj_contact {γ t r r' : ℝ} (ht : 0 < t) (h : 0.57538 * t < r) (h' : r ≤ (0.53432 + 0.48144 / 1.309) * t)
    (g : r' ≤ 0.57538 * t) (g' : (0.60588 - 0.51594 / 1.4903) * t < r') :
    let z := rj2a γ t r
    let w := rj2a γ t r'
    z.d ≠ w.d ∧ z.B = w.B ∧ z.M.x / z.d = 0.57538 ∧ w.M.x / w.d = 0.57538 ∧ z.M.y / z.d = w.M.y / w.d ∧ z.M.z / z.d = w.M.z / w.d ∧
      pres γ z = pres γ w := by
  have hs : ¬ (2.2638 * t < r) := by
    have : ((0.53432 + 0.48144 / 1.309) : ℝ) < 2.2638 := by norm_num
    nlinarith
  have hq : Real.sqrt (Real.pi * 1.309) ≤ 2.7 := by
    rw [Real.sqrt_le_left (by norm_num)]
    have := Real.pi_le_four
    linarith
  have hq0 : 0 < Real.sqrt (Real.pi * 1.309) := Real.sqrt_pos.mpr (by have := Real.pi_pos; positivity)
  have hq1 : (0.48144 / 1.309 : ℝ) ≤ 1 / Real.sqrt (Real.pi * 1.309) := by
    rw [le_div_iff₀ hq0]; nlinarith
  have hf : r ≤ (0.53432 + 1 / Real.sqrt (Real.pi * 1.309)) * t := by nlinarith
  have a2 : ¬ ((0.53432 + 1 / Real.sqrt (Real.pi * 1.309)) * t < r) := not_lt.mpr hf
  have a3 : ¬ ((0.53432 + 0.48144 / 1.309) * t < r) := not_lt.mpr h'
  have b1 : ¬ (2.2638 * t < r') := by nlinarith
  have b2 : ¬ ((0.53432 + 1 / Real.sqrt (Real.pi * 1.309)) * t < r') := by linarith
  have b3 : ¬ ((0.53432 + 0.48144 / 1.309) * t < r') := by
    have : (0.57538 : ℝ) < 0.53432 + 0.48144 / 1.309 := by norm_num
    nlinarith
  have b4 : ¬ (0.57538 * t < r') := not_lt.mpr g
  have ez : rj2a γ t r = row γ 1.4735 0.57538 0.047601 0.24734 5.0074 1.5517 1.9317 0 := by
    unfold rj2a; simp only [gt_iff_lt, hs, a2, a3, h, if_true, if_false]
  have ew : rj2a γ t r' = row γ 1.6343 0.57538 0.047601 0.24734 5.0074 1.5517 1.9317 1 := by
    unfold rj2a; simp only [gt_iff_lt, b1, b2, b3, b4, g', if_true, if_false]
  simp only [ez, ew, row, pres, V3.dot]
  refine ⟨by norm_num, trivial, by norm_num, by norm_num, by norm_num, by norm_num, ?_⟩
  congr 1
  norm_num
  ring

example : (0 : ℝ) < 1 ∧ 0.57538 * 1 < (0.6 : ℝ) ∧ (0.6 : ℝ) ≤ (0.53432 + 0.48144 / 1.309) * 1 ∧ (0.5 : ℝ) ≤ 0.57538 * 1 ∧
    (0.60588 - 0.51594 / 1.4903) * 1 < (0.5 : ℝ) := by norm_num

/-! ## The array of the reference solution -/

open Classical in
theorem fill_root (I : Input) (A : Option Arr) (D : Dom) (hl : D.level = 0) (n : ℤ × ℤ × ℤ)
    (hn : n = (D.hi.1 - D.lo.1 + 1 + 2 * D.ng, D.hi.2.1 - D.lo.2.1 + 1 + 2 * D.ng, D.hi.2.2 - D.lo.2.2 + 1 + 2 * D.ng))
    (hin : ∀ c, D.Act c → Arr.In ⟨n, fun _ => ⟨0, ⟨0, 0, 0⟩, 0, ⟨0, 0, 0⟩, 0⟩⟩ c) :
    fill I true A D = .ok (some ⟨n, fun c => if D.Act c then ref I (D.pos c) else ⟨0, ⟨0, 0, 0⟩, 0, ⟨0, 0, 0⟩, 0⟩⟩) := by
  subst hn
  simp only [fill, hl, if_true]
  rw [if_pos hin]

open Classical in
theorem fill_fine (I : Input) (a : Arr) (D : Dom) (hl : D.level ≠ 0) (hin : ∀ c, D.Act c → a.In c) :
    fill I true (some a) D = .ok (some ⟨a.n, fun c => if D.Act c then ref I (D.pos c) else a.u c⟩) := by
  simp only [fill, hl, if_true, if_false]
  rw [if_pos hin]

/-- **C147, partly: the array.**  With the root Domain alone the array holds the reference solution in every active zone.  What is missing is the case of refined
Domains: `refined_false`. -/
theorem root_partial (I : Input) (D : Dom) (hl : D.level = 0) (hg : 0 ≤ D.lo.1 ∧ D.lo.1 ≤ D.ng ∧ 0 ≤ D.lo.2.1 ∧ D.lo.2.1 ≤ D.ng ∧ 0 ≤ D.lo.2.2 ∧ D.lo.2.2 ≤ D.ng)
    (hn : 0 < D.ng) : ∃ a, fillAll I true none [D] = .ok (some a) ∧ ∀ c, D.Act c → a.u c = ref I (D.pos c) := by
  have hin : ∀ c, D.Act c → (0 ≤ c.1 ∧ c.1 < D.hi.1 - D.lo.1 + 1 + 2 * D.ng ∧ 0 ≤ c.2.1 ∧ c.2.1 < D.hi.2.1 - D.lo.2.1 + 1 + 2 * D.ng ∧
      0 ≤ c.2.2 ∧ c.2.2 < D.hi.2.2 - D.lo.2.2 + 1 + 2 * D.ng) := by
    intro c hc
    unfold Dom.Act at hc
    omega
  refine ⟨_, by rw [fillAll, fill_root I none D hl _ rfl hin]; rfl, fun c hc => by simp [hc]⟩

/-- The root Domain of eight zones from -1 to 1, and a refined one of four zones from 0 to 1/2. -/
noncomputable def rootDom : Dom := ⟨0, (4, 0, 0), (11, 0, 0), 4, fun c => ⟨-1 + (c.1 - 4 + 1 / 2) / 4, 0, 0⟩⟩
@[inherit_doc rootDom]
noncomputable def fineDom : Dom := ⟨1, (4, 0, 0), (7, 0, 0), 4, fun c => ⟨(c.1 - 4 + 1 / 2) / 8, 0, 0⟩⟩

/-- The root Domain meets the hypotheses of `root_partial`. -/
example : rootDom.level = 0 ∧ rootDom.lo.1 ≤ rootDom.ng ∧ rootDom.Act (4, 0, 0) := by simp [rootDom, Dom.Act]

/-- **C147, refuted: refined Domains.**  `problem` fills the array on each Domain; with a refined one, zones of the root Domain get the solution of other positions.
Here the zone at x1 = -7/8, which is at the left of all waves, has the solution at x1 = 1/16. -/
theorem refined_false : ∃ a c, fillAll (sodInput 1 0) true none [rootDom, fineDom] = .ok (some a) ∧ rootDom.Act c ∧
    a.u c ≠ ref (sodInput 1 0) (rootDom.pos c) ∧ a.u c = ref (sodInput 1 0) ⟨1 / 16, 0, 0⟩ := by
  have h1 : ∀ c, rootDom.Act c → (0 ≤ c.1 ∧ c.1 < 16 ∧ 0 ≤ c.2.1 ∧ c.2.1 < 9 ∧ 0 ≤ c.2.2 ∧ c.2.2 < 9) := by
    intro c hc; simp only [Dom.Act, rootDom] at hc; omega
  have h2 : ∀ c, fineDom.Act c → (0 ≤ c.1 ∧ c.1 < 16 ∧ 0 ≤ c.2.1 ∧ c.2.1 < 9 ∧ 0 ≤ c.2.2 ∧ c.2.2 < 9) := by
    intro c hc; simp only [Dom.Act, fineDom] at hc; omega
  have hc2 : fineDom.Act (4, 0, 0) := by simp [fineDom, Dom.Act]
  have e1 := fill_root (sodInput 1 0) none rootDom rfl (16, 9, 9) (by norm_num [rootDom]) h1
  have e2 := fun u => fill_fine (sodInput 1 0) ⟨(16, 9, 9), u⟩ fineDom (by simp [fineDom]) h2
  refine ⟨_, (4, 0, 0), by rw [fillAll, e1]; simp only; rw [fillAll, e2]; rfl, by simp [rootDom, Dom.Act], ?_, ?_⟩
  · simp only [if_pos hc2]
    intro h
    have := congrArg Cons.d h
    simp only [ref, sodInput, dist_axis (Or.inl rfl : Axis 1)] at this
    simp [axis, fineDom, rootDom, sod] at this
    norm_num at this
  · have : fineDom.pos (4, 0, 0) = ⟨1 / 16, 0, 0⟩ := by ext <;> norm_num [fineDom]
    simp only [if_pos hc2, this]

/-- **C147, partly: what is compared.**  In a new run on the root Domain alone each zone is compared with the reference solution at its centre. -/
theorem compare_partial (I : Input) (D : Dom) (hl : D.level = 0)
    (hg : 0 ≤ D.lo.1 ∧ D.lo.1 ≤ D.ng ∧ 0 ≤ D.lo.2.1 ∧ D.lo.2.1 ≤ D.ng ∧ 0 ≤ D.lo.2.2 ∧ D.lo.2.2 ≤ D.ng) (hn : 0 < D.ng)
    (U : ℤ × ℤ × ℤ → Cons) (zones : List (ℤ × ℤ × ℤ)) (hz : ∀ c ∈ zones, D.Act c) :
    ∃ A, fillAll I true none [D] = .ok A ∧ compare true A U zones = .ok (zones.map fun c => (U c, ref I (D.pos c))) := by
  obtain ⟨a, h1, h2⟩ := root_partial I D hl hg hn
  refine ⟨_, h1, ?_⟩
  simp only [compare, if_true]
  congr 1
  exact List.map_congr_left fun c hc => by rw [h2 c (hz c hc)]

/-- **C147, refuted: the error after a restart.**  A restarted run does not call `problem`: the array is null, and every comparison reads through it. -/
theorem restart_false (U : ℤ × ℤ × ℤ → Cons) (c : ℤ × ℤ × ℤ) (l : List (ℤ × ℤ × ℤ)) : compare true none U (c :: l) = .ub := by
  simp [compare]

/-! ## The error -/

theorem total_nonneg (gs : List (List (Cons × Cons))) (f : Cons → ℝ) : 0 ≤ total gs f := by
  apply List.sum_nonneg
  intro x hx
  obtain ⟨g, _, rfl⟩ := List.mem_map.mp hx
  apply List.sum_nonneg
  intro y hy
  obtain ⟨p, _, rfl⟩ := List.mem_map.mp hy
  exact abs_nonneg _

theorem total_flatten (gs : List (List (Cons × Cons))) (f : Cons → ℝ) : total gs f = total [gs.flatten] f := by
  induction gs with
  | nil => simp [total]
  | cons g gs ih => simp only [total, List.map_cons, List.sum_cons, List.flatten_cons, List.map_append, List.sum_append, List.map_nil, List.sum_nil, add_zero] at ih ⊢; rw [ih]

/-- **C147 (error).**  The printed error does not depend on how the zones are distributed over Grids, nor on their order. -/
theorem error_decomposition (gs hs : List (List (Cons × Cons))) (n : ℕ) (h : gs.flatten.Perm hs.flatten) : rms gs n = rms hs n := by
  have e : ∀ f, total gs f = total hs f := by
    intro f
    rw [total_flatten gs, total_flatten hs]
    simp only [total, List.map_cons, List.map_nil, List.sum_cons, List.sum_nil, add_zero]
    exact (h.map _).sum_eq
  simp only [rms, e]

theorem total_zero {gs : List (List (Cons × Cons))} {f : Cons → ℝ} (h : total gs f = 0) : ∀ p ∈ gs.flatten, f p.1 = f p.2 := by
  rw [total_flatten] at h
  simp only [total, List.map_cons, List.map_nil, List.sum_cons, List.sum_nil, add_zero] at h
  generalize gs.flatten = l at *
  induction l with
  | nil => simp
  | cons q l ih =>
    simp only [List.map_cons, List.sum_cons] at h
    have h0 := abs_nonneg (f q.1 - f q.2)
    have h1 : 0 ≤ (l.map fun p => |f p.1 - f p.2|).sum := by
      have := total_nonneg [l] f
      simpa [total] using this
    intro p hp
    rcases List.mem_cons.mp hp with rfl | hp
    · exact sub_eq_zero.mp (abs_eq_zero.mp (by linarith))
    · exact ih (by linarith) p hp

/-- **C147 (error).**  The printed error is zero exactly when every variable of every zone is the reference solution. -/
theorem error_zero (gs : List (List (Cons × Cons))) (n : ℕ) (hn : 0 < n) : rms gs n = 0 ↔ ∀ p ∈ gs.flatten, p.1 = p.2 := by
  constructor
  · intro h
    have hn' : (n : ℝ) ≠ 0 := by exact_mod_cast hn.ne'
    unfold rms at h
    rw [div_eq_zero_iff] at h
    have h := h.resolve_right hn'
    rw [Real.sqrt_eq_zero (by positivity)] at h
    have z : ∀ f, total gs f ^ 2 = 0 → total gs f = 0 := fun f hf => by simpa using hf
    have p1 := sq_nonneg (total gs (·.d)); have p2 := sq_nonneg (total gs (·.M.x)); have p3 := sq_nonneg (total gs (·.M.y))
    have p4 := sq_nonneg (total gs (·.M.z)); have p5 := sq_nonneg (total gs (·.B.x)); have p6 := sq_nonneg (total gs (·.B.y))
    have p7 := sq_nonneg (total gs (·.B.z)); have p8 := sq_nonneg (total gs (·.E)); have p9 := sq_nonneg (total gs (·.s))
    intro p hp
    have q1 := total_zero (z _ (by linarith : total gs (·.d) ^ 2 = 0)) p hp
    have q2 := total_zero (z _ (by linarith : total gs (·.M.x) ^ 2 = 0)) p hp
    have q3 := total_zero (z _ (by linarith : total gs (·.M.y) ^ 2 = 0)) p hp
    have q4 := total_zero (z _ (by linarith : total gs (·.M.z) ^ 2 = 0)) p hp
    have q5 := total_zero (z _ (by linarith : total gs (·.B.x) ^ 2 = 0)) p hp
    have q6 := total_zero (z _ (by linarith : total gs (·.B.y) ^ 2 = 0)) p hp
    have q7 := total_zero (z _ (by linarith : total gs (·.B.z) ^ 2 = 0)) p hp
    have q8 := total_zero (z _ (by linarith : total gs (·.E) ^ 2 = 0)) p hp
    have q9 := total_zero (z _ (by linarith : total gs (·.s) ^ 2 = 0)) p hp
    obtain ⟨⟨d, ⟨a, b, c⟩, e, ⟨x, y, w⟩, s⟩, ⟨d', ⟨a', b', c'⟩, e', ⟨x', y', w'⟩, s'⟩⟩ := p
    simp only at q1 q2 q3 q4 q5 q6 q7 q8 q9
    simp only [q1, q2, q3, q4, q5, q6, q7, q8, q9]
  · intro h
    have e : ∀ f, total gs f = 0 := by
      intro f
      rw [total_flatten]
      simp only [total, List.map_cons, List.map_nil, List.sum_cons, List.sum_nil, add_zero]
      apply List.sum_eq_zero
      intro x hx
      obtain ⟨p, hp, rfl⟩ := List.mem_map.mp hx
      rw [h p hp]; simp
    simp [rms, e]

/-- A Grid of one zone that is off by one in density: the error is 1. -/
example : rms [[(⟨2, ⟨0, 0, 0⟩, 0, ⟨0, 0, 0⟩, 0⟩, ⟨1, ⟨0, 0, 0⟩, 0, ⟨0, 0, 0⟩, 0⟩)]] 1 = 1 := by
  norm_num [rms, total]

end Athena.Shk1d
