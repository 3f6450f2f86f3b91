import Verif.Cyl.Rest

/-!
# Concrete cases for C91
-/

namespace Athena.Cyl
open Athena.Vl3

/-- The flux of ideal MHD in the state `u` with longitudinal field `b`. -/
noncomputable def exPhys (P : Phys) (u : Cons1 ℝ 0) (b : ℝ) : Cons1 ℝ 0 :=
  let v := u.Mx / u.d
  let w := u.My / u.d
  let x := u.Mz / u.d
  let pt := ptot P (⟨u.d, u.Mx, u.My, u.Mz, u.E, b, u.By, u.Bz, u.s⟩ : Cons ℝ 0)
  ⟨u.Mx, u.Mx * v + pt - b ^ 2, u.My * v - b * u.By, u.Mz * v - b * u.Bz,
    (u.E + pt) * v - b * (b * v + u.By * w + u.Bz * x), u.By * v - b * w, u.Bz * v - b * x, fun _ => 0⟩

/-- Donor cell reconstruction and the mean of the two fluxes. -/
noncomputable def exCM (P : Phys) : CMethod (Cons1 ℝ 0) 0 where
  c2p1 := fun u _ => u
  p2c1 := fun w _ => w
  c2p := fun u => ⟨u.M1 / u.d, u.M2 / u.d, u.M3 / u.d, u.B1c, u.B2c, u.B3c⟩
  flux := fun ul ur _ _ b =>
    let l := exPhys P ul b
    let r := exPhys P ur b
    ⟨1/2 * (l.d + r.d), 1/2 * (l.Mx + r.Mx), 1/2 * (l.My + r.My), 1/2 * (l.Mz + r.Mz), 1/2 * (l.E + r.E),
      1/2 * (l.By + r.By), 1/2 * (l.Bz + r.Bz), fun _ => 0⟩
  lr := fun _ w _ => (w (-1), w 0)
  lr1 := fun _ w _ => (w (-1), w 0)

/-- Adiabatic gas with `Gamma` = 5/3, no potential. -/
noncomputable def exPh : Phys := ⟨.adiabatic (2/3), 1/1000, none⟩
/-- The same gas in a potential falling with the radius. -/
noncomputable def exPot : Phys := ⟨.adiabatic (2/3), 1/1000, some fun x1 _ _ => -1 / x1⟩
/-- A wedge outside radius 1. -/
noncomputable def exGeo : Geo := ⟨1, 0, 0, 1/4, 1/8, 1/2⟩
/-- Eight zones in each direction and four ghost zones. -/
def exRg : Rng := ⟨4, 11, 4, 11, 4, 11, 4⟩
/-- Density 1, energy 3, vertical field 1. -/
noncomputable def exU : Cons ℝ 0 := ⟨1, 0, 0, 0, 3, 0, 0, 1, fun _ => 0⟩
/-- The medium everywhere. -/
noncomputable def exSt : St ℝ 0 := ⟨fun _ _ _ => exU, fun _ _ _ => 0, fun _ _ _ => 0, fun _ _ _ => 1⟩

theorem exPt : ptot exPh exU = 13 / 6 := by
  simp only [ptot, exPh, exU]
  norm_num

theorem ex_sound : Sound exPh (exCM exPh) exU (load1 exU) (load2 exU) (load3 exU) (7 / 6) where
  v1 := by simp [exCM, exU]
  v2 := by simp [exCM, exU]
  v3 := by simp [exCM, exU]
  c1 := rfl
  c2 := rfl
  c3 := rfl
  f1 := by
    rw [exPt]
    ext <;> simp [exCM, exPhys, push, load1, ptot, exPh, exU] <;> norm_num
  f2 := by
    rw [exPt]
    ext <;> simp [exCM, exPhys, push, load2, ptot, exPh, exU] <;> norm_num
  f3 := by
    ext <;> simp [exCM, exPhys, push, load3, ptot, exPh, exU] <;> norm_num
  l1 := fun i w b h => by simp [exCM, (h (-1) (by omega) (by omega)).1, (h 0 (by omega) (by omega)).1]
  l2 := fun w b h => by simp [exCM, (h (-1) (by omega) (by omega)).1, (h 0 (by omega) (by omega)).1]
  l3 := fun w b h => by simp [exCM, (h (-1) (by omega) (by omega)).1, (h 0 (by omega) (by omega)).1]

theorem exGeo_out : Outside exGeo := by constructor <;> norm_num [exGeo]

theorem exRg_ok : exRg.Ok := by constructor <;> decide

theorem exRg_size : Size exRg 8 8 8 := by constructor <;> decide

/-- The hypotheses of `cyl_rest` can be met: the uniform medium with a vertical field stays what it is. -/
example (J : Work ℝ (Cons1 ℝ 0) 0) : (integrateCyl exPh exGeo (1/10) (exCM exPh) exRg exSt J).U 5 6 7 = exU := by
  refine (cyl_rest ex_sound ⟨rfl, rfl, rfl, rfl, rfl⟩ exRg_ok
    ⟨fun _ _ _ _ _ _ => rfl, fun _ _ _ _ _ _ _ => rfl, fun _ _ _ _ _ _ _ => rfl, fun _ _ _ _ _ _ _ => rfl⟩
    rfl exGeo_out.dx1.ne' (fun i h1 h2 => ?_) (by decide) (by decide) (by decide) (by decide) (by decide) (by decide)).1
  have h : (-3:ℝ) ≤ ((i - exRg.is : ℤ) : ℝ) := by
    have : -3 ≤ i - exRg.is := by simp only [exRg] at h1 ⊢; omega
    exact_mod_cast this
  apply ne_of_gt
  unfold r ri
  simp only [exGeo]
  linarith

/-- The hypotheses of `cyl_conserves` and `cyl_divB` can be met, with a potential, for every quantity: this potential
does not depend on angle or height. -/
example (S : St ℝ 0) (J : Work ℝ (Cons1 ℝ 0) 0) (q : Quant 0) :
    q.Free exPot ∧
    total exPot exGeo exRg 8 8 8 q (integrateCyl exPot exGeo (1/10) (exCM exPot) exRg S J) =
      total exPot exGeo exRg 8 8 8 q S - 1/10 * outflow exPot exGeo exRg 8 8 8 q (cFlux1 exPot exGeo (1/10) (exCM exPot) exRg S J)
        (cFlux2 exPot exGeo (1/10) (exCM exPot) exRg S J) (cFlux3 exPot exGeo (1/10) (exCM exPot) exRg S J) ∧
    divCyl exGeo exRg (integrateCyl exPot exGeo (1/10) (exCM exPot) exRg S J) 5 6 7 = divCyl exGeo exRg S 5 6 7 := by
  have hq : q.Free exPot := by
    cases q <;> simp [Quant.Free, phi, exPot]
  exact ⟨hq, cyl_conserves _ exGeo_out _ _ exRg_size S J q hq,
    cyl_divB _ exGeo_out _ _ _ S J (by decide) (by decide) (by decide) (by decide) (by decide) (by decide)⟩

end Athena.Cyl
