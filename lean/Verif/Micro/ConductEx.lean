import Verif.Micro.ConductProps

/-!
# Conduction: direction of the flux, symmetry, and where the program fails
-/

namespace Athena.Micro
open Athena.Bvals hiding Rng
open Athena.Vl3 Athena.Gen

variable {ns : ℕ}

/-- Isotropic heat flows from hot to cold: what a zone gains through its right interface has the sign of the
temperature of its right neighbour minus its own; likewise for the other directions. -/
theorem hot_to_cold {w : Which} {q : Diff ns} (hA : q.kAni = 0) (h1 : 0 < q.dx1) (h2 : 0 < q.dx2) (h3 : 0 < q.dx3) (S : St ℝ ns)
    (hd : ∀ k j i, 0 < (S.U k j i).d) (k j i : ℤ) :
    0 ≤ lQ1 w q S k j i * (temp q (S.U k j i) - temp q (S.U k j (i-1))) ∧
    0 ≤ lQ2 w q S k j i * (temp q (S.U k j i) - temp q (S.U k (j-1) i)) ∧
    0 ≤ lQ3 w q S k j i * (temp q (S.U k j i) - temp q (S.U (k-1) j i)) := by
  have key : ∀ (dx d d' t t' : ℝ), 0 < dx → 0 < d → 0 < d' → 0 ≤ q.kIso → 0 ≤ q.kIso * 0.5 * (d + d') * (t - t') / dx * (t - t') := by
    intro dx d d' t t' hx a b c
    rw [show q.kIso * 0.5 * (d + d') * (t - t') / dx * (t - t') = q.kIso * (0.5 * (d + d')) / dx * (t - t') ^ 2 by ring]
    positivity
  refine ⟨?_, ?_, ?_⟩
  · simp only [lQ1, hA, lt_irrefl, gt_iff_lt, false_and, if_false, add_zero, iso1]
    split_ifs with hk
    · exact key _ _ _ _ _ h1 (hd _ _ _) (hd _ _ _) hk.le
    · simp
  · simp only [lQ2, hA, lt_irrefl, gt_iff_lt, false_and, if_false, add_zero, iso2]
    split_ifs with hk
    · exact key _ _ _ _ _ h2 (hd _ _ _) (hd _ _ _) hk.1.le
    · simp
  · simp only [lQ3, hA, lt_irrefl, gt_iff_lt, false_and, if_false, add_zero, iso3]
    split_ifs with hk
    · exact key _ _ _ _ _ h3 (hd _ _ _) (hd _ _ _) hk.1.le
    · simp

/-! ### The sign of the field does not matter -/

/-- The same state with the magnetic field reversed. -/
def flipB (S : St ℝ ns) : St ℝ ns where
  U := fun k j i => { S.U k j i with B1c := -(S.U k j i).B1c, B2c := -(S.U k j i).B2c, B3c := -(S.U k j i).B3c }
  B1i := fun k j i => -(S.B1i k j i)
  B2i := fun k j i => -(S.B2i k j i)
  B3i := fun k j i => -(S.B3i k j i)

theorem flip_temp (q : Diff ns) (S : St ℝ ns) : lTemp q (flipB S) = lTemp q S := by
  funext k j i
  simp [lTemp, temp, flipB]

theorem flip_DE (w : Which) (q : Diff ns) (S : St ℝ ns) : lDE w q (flipB S) = lDE w q S := by
  have a : ∀ x y : ℝ, 0.5 * (-x + -y) = -(0.5 * (x + y)) := fun x y => by ring
  have b : ∀ a b c d e f : ℝ, -a * b / c + -d * e = -(a * b / c + d * e) := fun _ _ _ _ _ _ => by ring
  have c : ∀ a b c d e f g : ℝ, -(a * b / c + d * e) + -f * g = -(a * b / c + d * e + f * g) := fun _ _ _ _ _ _ _ => by ring
  have q1 : lQ1 w q (flipB S) = lQ1 w q S := by
    funext k j i
    simp only [lQ1, flip_temp, iso1, ani1]
    simp only [flipB, a, neg_sq, neg_mul_neg, neg_mul, neg_div, ← neg_add, mul_neg, neg_neg]
  have q2 : lQ2 w q (flipB S) = lQ2 w q S := by
    funext k j i
    simp only [lQ2, flip_temp, iso2, ani2]
    simp only [flipB, a, neg_sq, neg_mul_neg, neg_mul, neg_div, ← neg_add, mul_neg, neg_neg]
  have q3 : lQ3 w q (flipB S) = lQ3 w q S := by
    funext k j i
    simp only [lQ3, flip_temp, iso3, ani3]
    simp only [flipB, a, neg_sq, neg_mul_neg, neg_mul, neg_div, ← neg_add, mul_neg, neg_neg]
  funext k j i
  simp only [lDE, q1, q2, q3]

/-- Reversing the magnetic field does not change what conduction does to the energy. -/
theorem conduct_flip {w : Which} {q : Diff ns} {g : Rng} (hg : RngOk (dims w) g) (S : St ℝ ns) (J J' : WorkC) {k j i : ℤ} (h : Active g k j i) :
    ((conduct w q g (flipB S) J).U k j i).E = ((conduct w q g S J').U k j i).E := by
  rw [conduct_E hg _ J h, conduct_E hg S J' h, flip_DE]
  rfl

/-- No heat crosses an interface by anisotropic conduction if the field there is parallel to it. -/
theorem no_cross_field (w : Which) (q : Diff ns) (S : St ℝ ns) (T : Arr ℝ) (k j i : ℤ) :
    (S.B1i k j i = 0 → ani1 w q S T k j i = 0) ∧ (S.B2i k j i = 0 → ani2 w q S T k j i = 0) ∧ (S.B3i k j i = 0 → ani3 q S T k j i = 0) := by
  refine ⟨fun h => ?_, fun h => ?_, fun h => ?_⟩
  · simp [ani1, h]
  · simp [ani2, h]
  · simp [ani3, h]

/-! ### Examples -/

/-- One-dimensional Grid with eight zones and four ghost zones. -/
def exG : Rng := { is := 4, ie := 11, js := 0, je := 0, ks := 0, ke := 0, ng := 4 }
/-- Two-dimensional Grid. -/
def exG2 : Rng := { is := 4, ie := 11, js := 4, je := 11, ks := 0, ke := 0, ng := 4 }
/-- Three-dimensional Grid. -/
def exG3 : Rng := { is := 4, ie := 11, js := 4, je := 11, ks := 4, ke := 11, ng := 4 }

theorem exG_ok : RngOk (dims .d1) exG := by constructor <;> simp [exG, dims, A1]
theorem exG2_ok : RngOk (dims .d2) exG2 := by constructor <;> simp [exG2, dims, A2]
theorem exG3_ok : RngOk (dims .d3) exG3 := by constructor <;> simp [exG3, dims, A3]

theorem exG_act : Active exG 0 0 6 := by constructor <;> norm_num [exG]
theorem exG2_act : Active exG2 0 4 4 := by constructor <;> norm_num [exG2]
theorem exG3_act : Active exG3 4 4 4 := by constructor <;> norm_num [exG3]

/-- Coefficients: `κ = 1`, `γ = 5/3`, unit zones, Courant number 1/2 in one dimension. -/
noncomputable def exQ : Diff 0 where
  dt := 1/8
  dx1 := 1
  dx2 := 1
  dx3 := 1
  kIso := 1
  kAni := 0
  gm1 := 2/3
  tiny := 1/10^20
  nuIso := 0
  etaOhm := 0
  qHall := 0
  qAD := 0
  eta := fun _ => (0, 0, 0)

/-- The step is the one the program computes. -/
theorem exQ_dt : exQ.dt = condDt .d1 exQ (1/2) := by
  have e : max (1/10^20 : ℝ) 4 = 4 := by norm_num
  simp only [condDt, qa, exQ, dim11, dim12]
  norm_num at e ⊢

/-- Zone of density `d` and pressure 1, at rest, without field. -/
noncomputable def press (d : ℝ) : Cons ℝ 0 := ⟨d, 0, 0, 0, 3/2, 0, 0, 0, fun i => i.elim0⟩

theorem press_temp (d : ℝ) : temp exQ (press d) = 1 / d := by
  simp [temp, press, exQ]; ring

/-- A gas in pressure equilibrium with density 1 in even and 99 in odd zones. -/
noncomputable def layers : St ℝ 0 where
  U := fun _ _ i => if i % 2 = 0 then press 1 else press 99
  B1i := fun _ _ _ => 0
  B2i := fun _ _ _ => 0
  B3i := fun _ _ _ => 0

/-- **Disagreement.**  At the step computed by the program, and with positive temperatures everywhere, conduction makes the
temperature (and with it the pressure) of a zone negative: the stability limit ignores that the flux through an interface is
proportional to the mean density of both zones while the heat capacity is that of the zone alone. -/
theorem max_principle_false : ¬ ∀ (q : Diff 0) (g : Rng) (S : St ℝ 0) (J : WorkC), RngOk (dims .d1) g → 0 < q.gm1 → q.gm1 ≤ 1 →
    0 < q.dx1 → 0 < q.kIso → q.kAni = 0 → q.dt = condDt .d1 q (1/2) → (∀ k j i, 0 < (S.U k j i).d) →
    (∀ k j i, 0 < temp q (S.U k j i)) → ∀ k j i, Active g k j i → 0 < temp q ((conduct .d1 q g S J).U k j i) := by
  intro H
  have h := H exQ exG layers ⟨fun _ _ _ => 0, fun _ _ _ => 0, fun _ _ _ => 0, fun _ _ _ => 0⟩ exG_ok (by norm_num [exQ]) (by norm_num [exQ])
    (by norm_num [exQ]) (by norm_num [exQ]) rfl exQ_dt
    (fun k j i => by simp only [layers]; split_ifs <;> norm_num [press])
    (fun k j i => by simp only [layers]; split_ifs <;> rw [press_temp] <;> norm_num)
    0 0 6 exG_act
  rw [temp_after exG_ok _ _ exG_act] at h
  have k : exQ.kIso > 0 := by norm_num [exQ]
  have a : exQ.kAni = 0 := rfl
  have t7 : lTemp exQ layers 0 0 7 = 1/99 := by simp only [lTemp, layers]; norm_num [press_temp]
  have t6 : lTemp exQ layers 0 0 6 = 1 := by simp only [lTemp, layers]; norm_num [press_temp]
  have t5 : lTemp exQ layers 0 0 5 = 1/99 := by simp only [lTemp, layers]; norm_num [press_temp]
  have e6 : temp exQ (layers.U 0 0 6) = 1 := t6
  have d7 : (layers.U 0 0 7).d = 99 := by simp only [layers]; norm_num [press]
  have d6 : (layers.U 0 0 6).d = 1 := by simp only [layers]; norm_num [press]
  have d5 : (layers.U 0 0 5).d = 99 := by simp only [layers]; norm_num [press]
  have s7 : (6:ℤ) + 1 = 7 := rfl
  have s6 : (7:ℤ) - 1 = 6 := rfl
  have s5 : (6:ℤ) - 1 = 5 := rfl
  simp only [lDE, lQ1, k, a, iso1, dim11, dim12, s7, s6, s5, t7, t6, t5, e6, d7, d6, d5] at h
  norm_num [exQ] at h

/-- The maximum principle for uniform density applies: a hot zone cools, its neighbours warm up. -/
noncomputable def hot : St ℝ 0 where
  U := fun _ _ i => ⟨1, 0, 0, 0, if i = 6 then 3 else 3/2, 0, 0, 0, fun i => i.elim0⟩
  B1i := fun _ _ _ => 0
  B2i := fun _ _ _ => 0
  B3i := fun _ _ _ => 0

example (J : WorkC) : 1 ≤ temp exQ ((conduct .d1 exQ exG hot J).U 0 0 6) ∧ temp exQ ((conduct .d1 exQ exG hot J).U 0 0 6) ≤ 2 := by
  refine max_principle_uniform_density exG_ok hot J rfl (by norm_num [exQ]) (by norm_num [exQ]) (by norm_num [exQ]) (by norm_num [exQ])
    (by norm_num [exQ]) (by norm_num [exQ]) (1/2) (by norm_num) (by norm_num) (by norm_num [exQ]) exQ_dt.le 1 one_pos (fun _ _ _ => rfl)
    exG_act 1 2 ?_
  intro a b c _
  simp only [temp, hot, exQ]
  split_ifs <;> norm_num

/-- … and it really cools: the temperature drops from 2 to 11/6. -/
example (J : WorkC) : temp exQ ((conduct .d1 exQ exG hot J).U 0 0 6) = 11/6 := by
  rw [temp_after exG_ok _ _ exG_act]
  simp only [lDE, lQ1, iso1, lTemp, temp, hot, dim11, dim12]
  norm_num [exQ]

/-! ### Two and three dimensions -/

/-- Coefficients with anisotropic conduction only. -/
noncomputable def exA : Diff 0 := { exQ with kIso := 0, kAni := 1, dt := 1 }

/-- A state that depends on `x1` only; the field is inclined to the plane of a two-dimensional Grid. -/
noncomputable def incl (B3 : ℝ) : St ℝ 0 where
  U := fun _ _ i => ⟨1, 0, 0, 0, 3/2 * (i:ℝ)^2 + 1/2 * (1 + B3 ^ 2), 1, 0, B3, fun i => i.elim0⟩
  B1i := fun _ _ _ => 1
  B2i := fun _ _ _ => 0
  B3i := fun _ _ _ => B3

theorem incl_temp (B3 : ℝ) (k j i : ℤ) : lTemp exA (incl B3) k j i = (i:ℝ) ^ 2 := by
  simp only [lTemp, temp, incl, exA, exQ]; ring

/-- Energy gained by a zone of this state in two dimensions, ... -/
theorem incl_2d (B3 : ℝ) (k j i : ℤ) : lDE .d2 exA (incl B3) k j i = 2 := by
  have z : lQ2 .d2 exA (incl B3) = fun _ _ _ => 0 := by
    funext k j i
    simp [lQ2, ani2, incl_temp, dim21, dim22, exA, incl]
  have m : max (1:ℝ) exA.tiny = 1 := by simp [exA, exQ]; norm_num
  simp only [lDE, z, lQ1, ani1, incl_temp, sub_self, lim_zero]
  simp only [exA, exQ, dim21, dim22, incl] at m ⊢
  norm_num at m ⊢
  ring

/-- ... and in three. -/
theorem incl_3d (k j i : ℤ) : lDE .d3 exA (incl 1) k j i = 1 := by
  have z : lQ2 .d3 exA (incl 1) = fun _ _ _ => 0 := by
    funext k j i
    simp [lQ2, ani2, incl_temp, dim31, dim32, exA, incl]
  have z3 : lQ3 .d3 exA (incl 1) = fun k j i => lQ3 .d3 exA (incl 1) 0 j i := by
    funext k j i
    simp only [lQ3, ani3, iso3, incl_temp]
    rfl
  have m : max (2:ℝ) exA.tiny = 2 := by simp [exA, exQ]; norm_num
  simp only [lDE, z]
  rw [z3]
  simp only [lQ1, ani1, incl_temp, sub_self, lim_zero]
  simp only [exA, exQ, dim31, dim32, incl] at m ⊢
  norm_num at m ⊢
  ring

/-- **Disagreement.**  A state that does not depend on `x3` evolves differently under anisotropic conduction on a
two-dimensional Grid and on a three-dimensional one: in two dimensions conduction.c:249 and 293 leave `B3` out of `|B|²`, so
that heat flows along the projection of the field as if it were the field (here: twice as fast). -/
theorem conduct_2d_3d_false : ¬ ∀ (q : Diff 0) (S : St ℝ 0) (J J' : WorkC), 0 < q.kAni → 0 < q.dx1 → 0 < q.dx2 → 0 < q.dx3 → 0 < q.tiny →
    (∀ k j i, S.U k j i = S.U 0 j i ∧ S.B1i k j i = S.B1i 0 j i ∧ S.B2i k j i = S.B2i 0 j i ∧ S.B3i k j i = S.B3i 0 j i) →
    ∀ k j i, Active exG3 k j i → ((conduct .d2 q exG2 S J).U 0 j i).E = ((conduct .d3 q exG3 S J').U k j i).E := by
  intro H
  have h := H exA (incl 1) ⟨fun _ _ _ => 0, fun _ _ _ => 0, fun _ _ _ => 0, fun _ _ _ => 0⟩
    ⟨fun _ _ _ => 0, fun _ _ _ => 0, fun _ _ _ => 0, fun _ _ _ => 0⟩ (by norm_num [exA, exQ]) (by norm_num [exA, exQ]) (by norm_num [exA, exQ])
    (by norm_num [exA, exQ]) (by norm_num [exA, exQ]) (fun _ _ _ => ⟨rfl, rfl, rfl, rfl⟩) 4 4 4
    exG3_act
  rw [conduct_E exG2_ok _ _ exG2_act,
    conduct_E exG3_ok _ _ exG3_act] at h
  simp only [incl_2d, incl_3d] at h
  simp only [incl] at h
  norm_num at h

/-- If the field lies in the plane, two and three dimensions agree. -/
theorem conduct_2d_3d_partial {q : Diff ns} {g2 g3 : Rng} (hg2 : RngOk (dims .d2) g2) (hg3 : RngOk (dims .d3) g3) (S : St ℝ ns) (J J' : WorkC)
    (hS : ∀ k j i, S.U k j i = S.U 0 j i ∧ S.B1i k j i = S.B1i 0 j i ∧ S.B2i k j i = S.B2i 0 j i ∧ S.B3i k j i = S.B3i 0 j i)
    (hB : ∀ j i, (S.U 0 j i).B3c = 0) {k k' j i : ℤ} (h2 : Active g2 k' j i) (h3 : Active g3 k j i) :
    (conduct .d2 q g2 S J).U k' j i = (conduct .d3 q g3 S J').U k j i := by
  rw [conduct_E hg2 S J h2, conduct_E hg3 S J' h3, (hS k' j i).1, (hS k j i).1]
  have eU : ∀ k j i, S.U k j i = S.U 0 j i := fun k j i => (hS k j i).1
  have e1 : ∀ k j i, S.B1i k j i = S.B1i 0 j i := fun k j i => (hS k j i).2.1
  have e2 : ∀ k j i, S.B2i k j i = S.B2i 0 j i := fun k j i => (hS k j i).2.2.1
  have e3 : ∀ k j i, S.B3i k j i = S.B3i 0 j i := fun k j i => (hS k j i).2.2.2
  have eT : ∀ k j i, lTemp q S k j i = lTemp q S 0 j i := fun k j i => by simp only [lTemp, eU k j i]
  have q1 : ∀ k k' j i, lQ1 .d2 q S k' j i = lQ1 .d3 q S k j i := by
    intro k k' j i
    have l0 : ∀ a b, lTemp q S (k+a) j b - lTemp q S k j b = 0 := fun a b => by rw [eT (k+a), eT k, sub_self]
    have l1 : ∀ b, lTemp q S k j b - lTemp q S (k-1) j b = 0 := fun b => by rw [eT (k-1), eT k, sub_self]
    simp only [lQ1, iso1, ani1, dim21, dim22, dim31, dim32]
    simp only [l0, l1, lim_zero]
    have h0 : ∀ k j i, (S.U k j i).B3c = 0 := fun k j i => by rw [eU]; exact hB j i
    simp only [h0, eU k, eU k', e1 k, e1 k', eT k, eT k']
    simp
  have q2 : ∀ k k' j i, lQ2 .d2 q S k' j i = lQ2 .d3 q S k j i := by
    intro k k' j i
    have l0 : ∀ a b c, lTemp q S (k+a) b c - lTemp q S k b c = 0 := fun a b c => by rw [eT (k+a), eT k, sub_self]
    have l1 : ∀ b c, lTemp q S k b c - lTemp q S (k-1) b c = 0 := fun b c => by rw [eT (k-1), eT k, sub_self]
    simp only [lQ2, iso2, ani2, dim21, dim22, dim31, dim32]
    simp only [l0, l1, lim_zero]
    have h0 : ∀ k j i, (S.U k j i).B3c = 0 := fun k j i => by rw [eU]; exact hB j i
    simp only [h0, eU k, eU k', e2 k, e2 k', eT k, eT k']
    simp
  have q3 : ∀ k j i, lQ3 .d3 q S k j i = lQ3 .d3 q S 0 j i := by
    intro k j i
    simp only [lQ3, iso3, ani3, dim31, dim32]
    simp only [eU (k-1), eU k, eT (k-1), eT k, e3 k, eT (0-1), eU (0-1)]
  have : lDE .d2 q S k' j i = lDE .d3 q S k j i := by
    simp only [lDE, q1 k k', q2 k k', q3 (k+1), q3 k, sub_self, mul_zero, dim21, dim22, dim31, dim32]
    simp
  rw [this]

example (J J' : WorkC) : (conduct .d2 exA exG2 (incl 0) J).U 0 4 4 = (conduct .d3 exA exG3 (incl 0) J').U 4 4 4 :=
  conduct_2d_3d_partial exG2_ok exG3_ok (incl 0) J J' (fun _ _ _ => ⟨rfl, rfl, rfl, rfl⟩) (fun _ _ => rfl)
    exG2_act
    exG3_act

/-- In this state conduction does change the energy, by 2. -/
example (J : WorkC) : ((conduct .d2 exA exG2 (incl 0) J).U 0 4 4).E = ((incl 0).U 0 4 4).E + 2 := by
  rw [conduct_E exG2_ok _ _ exG2_act]
  simp only [incl_2d]

end Athena.Micro
