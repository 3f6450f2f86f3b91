import Verif.Shear.Source

/-!
# C125: the shearing-box source terms

Specification: `rel` (momentum relative to the shear), `relFlux` (its flux through a face), `net1`, `netRel`, `swap` (fluxes replaced on some faces).
-/

namespace Athena.ShearSrc
open Athena.Vl3
open Athena.Cyl (Geo cc1 cc2 cc3 fc2 fc3)
open Athena.Static (fc1)

variable {ns : ℕ}

/-! ## Specification -/

/-- The azimuthal momentum relative to the background shear `-qΩx` at `x`.  With FARGO the variables are relative already. -/
def rel (B : Box) (x : ℝ) (u : Cons ℝ ns) : ℝ := if B.fargo then B.mom u else B.mom u + B.q * B.Om * x * u.d

/-- The flux of that momentum, from the fluxes `m` of azimuthal momentum and `d` of mass. -/
def relFlux (B : Box) (x m d : ℝ) : ℝ := if B.fargo then m else m + B.q * B.Om * x * d

/-- What leaves a zone in a step: momentum along x1, and relative azimuthal momentum, the latter with the shear at the place of each face. -/
noncomputable def net1 (B : Box) (c : Cell) (f : Faces ns) : ℝ :=
  c.dt / c.dx1 * (f.r1.Mx - f.l1.Mx) + c.dt / c.dx2 * (f.r2.Mz - f.l2.Mz) + (if 3 ≤ B.nd then c.dt / c.dx3 * (f.r3.My - f.l3.My) else 0)
noncomputable def netRel (B : Box) (c : Cell) (f : Faces ns) : ℝ :=
  c.dt / c.dx1 * (relFlux B (c.x1 + c.dx1 / 2) (B.fx1 f.r1) f.r1.d - relFlux B (c.x1 - c.dx1 / 2) (B.fx1 f.l1) f.l1.d)
    + c.dt / c.dx2 * (relFlux B c.x1 (B.fx2 f.r2) f.r2.d - relFlux B c.x1 (B.fx2 f.l2) f.l2.d)
    + (if 3 ≤ B.nd then c.dt / c.dx3 * (relFlux B c.x1 f.r3.Mz f.r3.d - relFlux B c.x1 f.l3.Mz f.l3.d) else 0)

/-- The azimuthal feedback. -/
def Box.fb (B : Box) (b : Fb) : ℝ := if B.az then b.fb3 else b.fb2

/-! ## One zone -/

theorem xz_flat {B : Box} (h : B.az = true) : ¬ 3 ≤ B.nd := by
  unfold Box.az at h; simp only [Bool.and_eq_true, decide_eq_true_eq] at h; omega

theorem zone_M1 (B : Box) (c : Cell) (Φ : PotFun) (b : Fb) (f : Faces ns) (u : Cons ℝ ns) :
    (zone B c Φ b f u).M1 = u.M1 + (4 * dMe B c b f u + 2 * (B.q - 2) * omdt B c * M1e B c b f u) * fact B c - b.fb1 - net1 B c f := by
  unfold zone flow back heave turn Box.addMom net1
  dsimp only
  by_cases h3 : 3 ≤ B.nd <;> by_cases hf : B.fargo = true <;> by_cases ha : B.az = true <;>
    simp only [h3, hf, ha, if_true, if_false, Bool.false_eq_true, upd1, upd2, upd3] <;> ring

theorem zone_rel (B : Box) (c : Cell) (Φ : PotFun) (b : Fb) (f : Faces ns) (u : Cons ℝ ns) (hx : c.dx1 ≠ 0) :
    rel B c.x1 (zone B c Φ b f u) = rel B c.x1 u + 2 * (B.q - 2) * (M1e B c b f u + omdt B c * dMe B c b f u) * fact B c - B.fb b - netRel B c f := by
  have key : c.dt / c.dx1 * c.dx1 = c.dt := div_mul_cancel₀ _ hx
  unfold zone flow back heave turn Box.addMom netRel rel relFlux Box.fb
  dsimp only
  generalize M1e B c b f u = m
  generalize dMe B c b f u = δ
  by_cases hf : B.fargo = true
  · by_cases ha : B.az = true
    · have h3 := xz_flat ha
      simp only [h3, hf, ha, if_true, if_false, upd1, upd2, upd3, Box.mom, Box.fx1, Box.fx2]; ring
    · by_cases h3 : 3 ≤ B.nd <;>
        simp only [h3, hf, ha, if_true, if_false, Bool.false_eq_true, upd1, upd2, upd3, Box.mom, Box.fx1, Box.fx2] <;> ring
  · by_cases ha : B.az = true
    · have h3 := xz_flat ha
      simp only [h3, hf, ha, if_true, if_false, Bool.false_eq_true, upd1, upd2, upd3, Box.mom, Box.fx1, Box.fx2, omdt]
      linear_combination (-(1 / 2) * B.q * B.Om * (f.l1.d + f.r1.d)) * (-key)
    · by_cases h3 : 3 ≤ B.nd <;>
        simp only [h3, hf, ha, if_true, if_false, Bool.false_eq_true, upd1, upd2, upd3, Box.mom, Box.fx1, Box.fx2, omdt] <;>
        linear_combination (-(1 / 2) * B.q * B.Om * (f.l1.d + f.r1.d)) * (-key)

theorem M1e_eq (B : Box) (c : Cell) (b : Fb) (f : Faces ns) (u : Cons ℝ ns) : M1e B c b f u = u.M1 - 1 / 2 * (net1 B c f + b.fb1) := by
  unfold M1e net1; split_ifs <;> ring

theorem dMe_eq (B : Box) (c : Cell) (b : Fb) (f : Faces ns) (u : Cons ℝ ns) :
    dMe B c b f u = rel B c.x1 u - 1 / 2 * (netRel B c f + B.fb b) := by
  unfold dMe netRel rel Box.fb relFlux frx1 flx1 frx2 flx2 frx3 flx3 qom Box.fx3
  dsimp only
  split_ifs <;> ring

/-- **C125, the equations of motion.**  Whatever the fluxes, the state, the potential and the time step, the momenta after the step solve exactly
the Crank-Nicholson equations of the shearing box, in which the Coriolis force and the tide act on the mean of the old and the new momenta:
`d(M1)/dt = 2Ω δM`, `d(δM)/dt = (q - 2)Ω M1` besides the flow through the faces and the feedback.  With and without FARGO, in 3D and in both 2D planes.
The denominator is not 0 if `q ≤ 2`. -/
theorem crank_nicholson (B : Box) (c : Cell) (Φ : PotFun) (b : Fb) (f : Faces ns) (u : Cons ℝ ns) (hx : c.dx1 ≠ 0)
    (hq : 2 + (2 - B.q) * (B.Om * c.dt) ^ 2 ≠ 0) :
    let u' := zone B c Φ b f u
    u'.M1 - u.M1 = -(net1 B c f) - b.fb1 + c.dt * (2 * B.Om) * ((rel B c.x1 u + rel B c.x1 u') / 2) ∧
    rel B c.x1 u' - rel B c.x1 u = -(netRel B c f) - B.fb b + c.dt * ((B.q - 2) * B.Om) * ((u.M1 + u'.M1) / 2) := by
  intro u'
  have e1 : u'.M1 = _ := zone_M1 B c Φ b f u
  have e2 : rel B c.x1 u' = _ := zone_rel B c Φ b f u hx
  rw [M1e_eq, dMe_eq] at e1 e2
  have hF : fact B c * (2 + (2 - B.q) * (B.Om * c.dt) ^ 2) = B.Om * c.dt := by
    unfold fact omdt
    rw [show (2 + (2 - B.q) * (B.Om * c.dt) * (B.Om * c.dt)) = 2 + (2 - B.q) * (B.Om * c.dt) ^ 2 by ring]
    exact div_mul_cancel₀ _ hq
  rw [e1, e2]
  unfold omdt
  generalize fact B c = F at *
  constructor
  · linear_combination (2 * (rel B c.x1 u - 1 / 2 * (netRel B c f + B.fb b))) * hF
  · linear_combination ((B.q - 2) * (u.M1 - 1 / 2 * (net1 B c f + b.fb1))) * hF

theorem denom_pos {q w : ℝ} (h : q ≤ 2) : 2 + (2 - q) * w ^ 2 ≠ 0 := by
  have : 0 ≤ (2 - q) * w ^ 2 := mul_nonneg (by linarith) (sq_nonneg w)
  linarith

/-- The Crank-Nicholson equations turn `(M1, δM)` around an ellipse. -/
theorem ellipse {q w a a' d d' : ℝ} (h1 : a' - a = w * 2 * ((d + d') / 2)) (h2 : d' - d = w * (q - 2) * ((a + a') / 2)) :
    (2 - q) * a' ^ 2 + 2 * d' ^ 2 = (2 - q) * a ^ 2 + 2 * d ^ 2 := by
  linear_combination (2 - q) * (a + a') * h1 + 2 * (d + d') * h2

/-- **C125, epicycles.**  In a zone whose fluxes balance, the epicyclic energy `(2-q)M1² + 2δM²` is kept exactly, whatever the time step. -/
theorem epicycle (B : Box) (c : Cell) (Φ : PotFun) (f : Faces ns) (u : Cons ℝ ns) (hx : c.dx1 ≠ 0) (hq : B.q ≤ 2)
    (h1 : net1 B c f = 0) (h2 : netRel B c f = 0) :
    let u' := zone B c Φ ⟨0, 0, 0⟩ f u
    (2 - B.q) * u'.M1 ^ 2 + 2 * rel B c.x1 u' ^ 2 = (2 - B.q) * u.M1 ^ 2 + 2 * rel B c.x1 u ^ 2 := by
  intro u'
  obtain ⟨e1, e2⟩ := crank_nicholson B c Φ ⟨0, 0, 0⟩ f u hx (denom_pos hq)
  have hb : B.fb ⟨0, 0, 0⟩ = 0 := by unfold Box.fb; split_ifs <;> rfl
  rw [h1] at e1
  rw [h2, hb] at e2
  refine ellipse (w := c.dt * B.Om) ?_ ?_
  · linear_combination e1
  · linear_combination e2

/-- **C125, the shear flow.**  A zone with no momentum besides the shear, whose fluxes balance, keeps none: the background shear is an exact
equilibrium. -/
theorem shear_steady (B : Box) (c : Cell) (Φ : PotFun) (f : Faces ns) (u : Cons ℝ ns) (hx : c.dx1 ≠ 0) (hq : B.q < 2)
    (h1 : net1 B c f = 0) (h2 : netRel B c f = 0) (h3 : u.M1 = 0) (h4 : rel B c.x1 u = 0) :
    (zone B c Φ ⟨0, 0, 0⟩ f u).M1 = 0 ∧ rel B c.x1 (zone B c Φ ⟨0, 0, 0⟩ f u) = 0 := by
  have h := epicycle B c Φ f u hx hq.le h1 h2
  dsimp only at h
  rw [h3, h4] at h
  have p1 : 0 ≤ (2 - B.q) * (zone B c Φ ⟨0, 0, 0⟩ f u).M1 ^ 2 := mul_nonneg (by linarith) (sq_nonneg _)
  have p2 := sq_nonneg (rel B c.x1 (zone B c Φ ⟨0, 0, 0⟩ f u))
  have z1 : (2 - B.q) * (zone B c Φ ⟨0, 0, 0⟩ f u).M1 ^ 2 = 0 := by nlinarith
  have z2 : rel B c.x1 (zone B c Φ ⟨0, 0, 0⟩ f u) ^ 2 = 0 := by nlinarith
  refine ⟨?_, pow_eq_zero_iff (two_ne_zero) |>.1 z2⟩
  rcases mul_eq_zero.1 z1 with z | z
  · linarith
  · exact pow_eq_zero_iff (two_ne_zero) |>.1 z

/-! ## Correction with first-order fluxes -/

/-- Flux `a` without the difference `d`. -/
def less (a d : Cons1 ℝ ns) : Cons1 ℝ ns := ⟨a.d - d.d, a.Mx - d.Mx, a.My - d.My, a.Mz - d.Mz, a.E - d.E, a.By - d.By, a.Bz - d.Bz, fun n => a.s n - d.s n⟩

/-- The bad zone itself, and its six neighbours, as `FixCell` calls `ApplyCorr` (integrate_3d_vl.c:2656-2684): the fluxes of the zone are replaced on
the faces of the bad zone, where the old flux is the new one plus the difference. -/
inductive Fix : Sides → Faces ns → Faces ns → Faces ns → Prop
  | own (D f) : Fix ⟨1, 1, 1, 1, 1, 1⟩ D f ⟨less f.l1 D.l1, less f.r1 D.r1, less f.l2 D.l2, less f.r2 D.r2, less f.l3 D.l3, less f.r3 D.r3⟩
  | left1 (D f) : Fix ⟨-1, 0, 0, 0, 0, 0⟩ D f { f with r1 := less f.r1 D.l1 }
  | right1 (D f) : Fix ⟨0, -1, 0, 0, 0, 0⟩ D f { f with l1 := less f.l1 D.r1 }
  | left2 (D f) : Fix ⟨0, 0, -1, 0, 0, 0⟩ D f { f with r2 := less f.r2 D.l2 }
  | right2 (D f) : Fix ⟨0, 0, 0, -1, 0, 0⟩ D f { f with l2 := less f.l2 D.r2 }
  | left3 (D f) : Fix ⟨0, 0, 0, 0, -1, 0⟩ D f { f with r3 := less f.r3 D.l3 }
  | right3 (D f) : Fix ⟨0, 0, 0, 0, 0, -1⟩ D f { f with l3 := less f.l3 D.r3 }

/-- Unfold both sides for given options, and compare member by member. -/
local macro "members" : tactic => `(tactic| (
  simp only [corr, zone, flow, back, heave, turn, M1e, dMe, frx1, flx1, frx2, flx2, frx3, flx3, Box.addMom, Box.mom, Box.fx1, Box.fx2, Box.fx3, upd1, upd2,
    upd3, less, *, if_true, if_false, Bool.false_eq_true, Int.cast_one, Int.cast_zero, Int.cast_neg, abs_one, abs_neg, abs_zero, Cons.mk.injEq,
    one_mul, zero_mul, neg_mul, sub_neg_eq_add, ← sub_eq_add_neg, add_zero, sub_zero]
  refine ⟨?_, ?_, ?_, ?_, ?_, trivial, trivial, trivial, ?_⟩ <;> first | ring1 | (funext n; ring1)))

theorem fix_own (B : Box) (c : Cell) (Φ : PotFun) (b : Fb) (D f : Faces ns) (u : Cons ℝ ns) :
    corr B c Φ D ⟨1, 1, 1, 1, 1, 1⟩ (zone B c Φ b f u) = zone B c Φ b ⟨less f.l1 D.l1, less f.r1 D.r1, less f.l2 D.l2, less f.r2 D.r2, less f.l3 D.l3, less f.r3 D.r3⟩ u := by
  by_cases ha : B.az = true
  · have h3 := xz_flat ha
    by_cases hf : B.fargo = true <;> members
  · by_cases h3 : 3 ≤ B.nd <;> by_cases hf : B.fargo = true <;> members

theorem fix_left1 (B : Box) (c : Cell) (Φ : PotFun) (b : Fb) (D f : Faces ns) (u : Cons ℝ ns) :
    corr B c Φ D ⟨-1, 0, 0, 0, 0, 0⟩ (zone B c Φ b f u) = zone B c Φ b { f with r1 := less f.r1 D.l1 } u := by
  by_cases ha : B.az = true
  · have h3 := xz_flat ha
    by_cases hf : B.fargo = true <;> members
  · by_cases h3 : 3 ≤ B.nd <;> by_cases hf : B.fargo = true <;> members

theorem fix_right1 (B : Box) (c : Cell) (Φ : PotFun) (b : Fb) (D f : Faces ns) (u : Cons ℝ ns) :
    corr B c Φ D ⟨0, -1, 0, 0, 0, 0⟩ (zone B c Φ b f u) = zone B c Φ b { f with l1 := less f.l1 D.r1 } u := by
  by_cases ha : B.az = true
  · have h3 := xz_flat ha
    by_cases hf : B.fargo = true <;> members
  · by_cases h3 : 3 ≤ B.nd <;> by_cases hf : B.fargo = true <;> members

theorem fix_left2 (B : Box) (c : Cell) (Φ : PotFun) (b : Fb) (D f : Faces ns) (u : Cons ℝ ns) :
    corr B c Φ D ⟨0, 0, -1, 0, 0, 0⟩ (zone B c Φ b f u) = zone B c Φ b { f with r2 := less f.r2 D.l2 } u := by
  by_cases ha : B.az = true
  · have h3 := xz_flat ha
    by_cases hf : B.fargo = true <;> members
  · by_cases h3 : 3 ≤ B.nd <;> by_cases hf : B.fargo = true <;> members

theorem fix_right2 (B : Box) (c : Cell) (Φ : PotFun) (b : Fb) (D f : Faces ns) (u : Cons ℝ ns) :
    corr B c Φ D ⟨0, 0, 0, -1, 0, 0⟩ (zone B c Φ b f u) = zone B c Φ b { f with l2 := less f.l2 D.r2 } u := by
  by_cases ha : B.az = true
  · have h3 := xz_flat ha
    by_cases hf : B.fargo = true <;> members
  · by_cases h3 : 3 ≤ B.nd <;> by_cases hf : B.fargo = true <;> members

theorem fix_left3 (B : Box) (c : Cell) (Φ : PotFun) (b : Fb) (D f : Faces ns) (u : Cons ℝ ns) :
    corr B c Φ D ⟨0, 0, 0, 0, -1, 0⟩ (zone B c Φ b f u) = zone B c Φ b { f with r3 := less f.r3 D.l3 } u := by
  by_cases ha : B.az = true
  · have h3 := xz_flat ha
    by_cases hf : B.fargo = true <;> members
  · by_cases h3 : 3 ≤ B.nd <;> by_cases hf : B.fargo = true <;> members

theorem fix_right3 (B : Box) (c : Cell) (Φ : PotFun) (b : Fb) (D f : Faces ns) (u : Cons ℝ ns) :
    corr B c Φ D ⟨0, 0, 0, 0, 0, -1⟩ (zone B c Φ b f u) = zone B c Φ b { f with l3 := less f.l3 D.r3 } u := by
  by_cases ha : B.az = true
  · have h3 := xz_flat ha
    by_cases hf : B.fargo = true <;> members
  · by_cases h3 : 3 ≤ B.nd <;> by_cases hf : B.fargo = true <;> members

/-- **C125, first-order correction.**  Correcting a bad zone, or a neighbour of one, after the step gives exactly the step with the replaced fluxes,
Coriolis force, tide and energy included. -/
theorem correction_exact (B : Box) (c : Cell) (Φ : PotFun) (b : Fb) (s : Sides) (D f f' : Faces ns) (h : Fix s D f f') (u : Cons ℝ ns) :
    corr B c Φ D s (zone B c Φ b f u) = zone B c Φ b f' u := by
  cases h
  · exact fix_own B c Φ b D f u
  · exact fix_left1 B c Φ b D f u
  · exact fix_right1 B c Φ b D f u
  · exact fix_left2 B c Φ b D f u
  · exact fix_right2 B c Φ b D f u
  · exact fix_left3 B c Φ b D f u
  · exact fix_right3 B c Φ b D f u

end Athena.ShearSrc
