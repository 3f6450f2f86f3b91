import Verif.Fofc.Fix2

/-!
# First-order flux correction in two dimensions: the plane stays what the step makes of the fluxes at hand
-/

namespace Athena.Fofc
open Athena.Vl3
open Athena.Gen (Pla loop2 mod2 facesI facesJ updV2 cB1 cB2 avg2 updB1 updB2 setPl mod2_in facesI_in facesJ_in setPl_in)

variable {ns : ℕ}

/-- x1-flux of a variable. -/
def fl1 : Option (CVar ns) → Cons1 ℝ ns → ℝ
  | some v, F => v.flux1 F
  | none, F => F.Bz
/-- x2-flux of a variable. -/
def fl2 : Option (CVar ns) → Cons1 ℝ ns → ℝ
  | some v, F => v.flux2 F
  | none, F => F.By
/-- 1 for the energy, 0 for the other variables. -/
def eW2 : Option (CVar ns) → ℝ
  | some v => eWt v
  | none => 0

theorem fl1_dif (v : Option (CVar ns)) (a b : Cons1 ℝ ns) : fl1 v (difA a b) = fl1 v a - fl1 v b := by
  rcases v with _ | v
  · rfl
  · cases v <;> rfl
theorem fl2_dif (v : Option (CVar ns)) (a b : Cons1 ℝ ns) : fl2 v (difB a b) = fl2 v a - fl2 v b := by
  rcases v with _ | v
  · rfl
  · cases v <;> rfl

theorem dl2 (j' i' j i : ℤ) (x : ℝ) : dl j' j * dl i' i * x = if j' = j ∧ i' = i then x else 0 := by
  unfold dl ind
  by_cases h2 : j' = j <;> by_cases h3 : i' = i <;> simp [h2, h3]

theorem add2_eq (a : Pla ℝ) (j i : ℤ) (x : ℝ) (j' i' : ℤ) : add2 a j i x j' i' = a j' i' + dl j' j * dl i' i * x := by
  rw [dl2]
  unfold add2 set2
  split_ifs with h
  · obtain ⟨rfl, rfl⟩ := h; rfl
  · rw [add_zero]

theorem set2_eq (a : Pla ℝ) (j i : ℤ) (x : ℝ) (j' i' : ℤ) : set2 a j i x j' i' = a j' i' - dl j' j * dl i' i * (a j i - x) := by
  rw [dl2]
  unfold set2
  split_ifs with h
  · obtain ⟨rfl, rfl⟩ := h; ring
  · rw [sub_zero]

theorem set2_map {α β : Type} (f : α → β) (a : Pla α) (j i : ℤ) (x : α) (j' i' : ℤ) :
    f (set2 a j i x j' i') = set2 (fun j i => f (a j i)) j i (f x) j' i' := by
  unfold set2
  split_ifs <;> rfl

theorem setCorner_eq (e p : Pla ℝ) (j i j' i' : ℤ) : setCorner e p j i j' i' = e j' i'
    - dl j' j * dl i' i * (e j i - p j i)
    - dl j' j * dl i' (i+1) * (e j (i+1) - p j (i+1))
    - dl j' (j+1) * dl i' i * (e (j+1) i - p (j+1) i)
    - dl j' (j+1) * dl i' (i+1) * (e (j+1) (i+1) - p (j+1) (i+1)) := by
  simp only [setCorner, set2_eq, dl_same, dl_s, dl_p]; ring

section Apply
variable (q1 q2 : ℝ) (P : Pot2) (D : Dif2 ns) (j i : ℤ) (s : Sides2) (X : Fy ns) (j' i' : ℤ)

theorem applyCorr2_B1 : (applyCorr2 q1 q2 P D j i s X).B1 j' i' = X.B1 j' i' + dl j' j * (
    dl i' i * (q2 * (s.r2 * D.e_jpi - s.l2 * D.e_ji)) + dl i' (i+1) * (q2 * (s.r2 * D.e_jpip - s.l2 * D.e_jip))) := by
  simp only [applyCorr2, add2_eq]; ring

theorem applyCorr2_B2 : (applyCorr2 q1 q2 P D j i s X).B2 j' i' = X.B2 j' i' - dl i' i * (
    dl j' j * (q1 * (s.r1 * D.e_jip - s.l1 * D.e_ji)) + dl j' (j+1) * (q1 * (s.r1 * D.e_jpip - s.l1 * D.e_jpi))) := by
  simp only [applyCorr2, add2_eq]; ring

theorem it2_B1 (p : Prop) [Decidable p] (A B : Fy ns) :
    (if p then A else B).B1 j' i' = B.B1 j' i' + ind p * (A.B1 j' i' - B.B1 j' i') := by
  unfold ind; split_ifs <;> ring

theorem it2_B2 (p : Prop) [Decidable p] (A B : Fy ns) :
    (if p then A else B).B2 j' i' = B.B2 j' i' + ind p * (A.B2 j' i' - B.B2 j' i') := by
  unfold ind; split_ifs <;> ring

/-- The change `corU2` makes to a variable, given the potential in the zone and on its faces. -/
noncomputable def chg2 (v : Option (CVar ns)) (p l1 h1 l2 h2 : ℝ) : ℝ :=
  q1 * (s.r1 * fl1 v D.x1ip - s.l1 * fl1 v D.x1i) + q2 * (s.r2 * fl2 v D.x2jp - s.l2 * fl2 v D.x2j) + eW2 v * (
  q1 * (s.l1 * D.x1i.d * (p - onLeft s.l1 p l1 h1) + s.r1 * D.x1ip.d * (onRight s.r1 p l1 h1 - p)) +
  q2 * (s.l2 * D.x2j.d * (p - onLeft s.l2 p l2 h2) + s.r2 * D.x2jp.d * (onRight s.r2 p l2 h2 - p)))

theorem corU2_of (v : Option (CVar ns)) (u : Cons ℝ ns) : of2 v (corU2 q1 q2 P D j i s u) = of2 v u +
    chg2 q1 q2 D s v (P.c j i) (P.f1 j i) (P.f1 j (i+1)) (P.f2 j i) (P.f2 (j+1) i) := by
  rcases v with _ | v
  · simp only [corU2, chg2, of2, fl1, fl2, eW2]; ring
  · cases v <;> simp only [corU2, chg2, of2, fl1, fl2, eW2, CVar.of, CVar.flux1, CVar.flux2, eWt] <;> ring

theorem applyCorr2_U (v : Option (CVar ns)) : of2 v ((applyCorr2 q1 q2 P D j i s X).U j' i') = of2 v (X.U j' i') +
    dl j' j * dl i' i * chg2 q1 q2 D s v (P.c j' i') (P.f1 j' i') (P.f1 j' (i'+1)) (P.f2 j' i') (P.f2 (j'+1) i') := by
  rw [dl2]
  simp only [applyCorr2, set2]
  split_ifs with h
  · obtain ⟨rfl, rfl⟩ := h
    rw [corU2_of]
  · rw [add_zero]

theorem it2_U (v : Option (CVar ns)) (p : Prop) [Decidable p] (A B : Fy ns) :
    of2 v ((if p then A else B).U j' i') = of2 v (B.U j' i') + ind p * (of2 v (A.U j' i') - of2 v (B.U j' i')) := by
  unfold ind; split_ifs <;> ring

end Apply

section Spread
variable (q1 q2 : ℝ) (P : Pot2) (g : Rng) (D : Dif2 ns) (j i : ℤ) (X : Fy ns) {j' i' : ℤ}

theorem spread2_B1 (h3 : g.js ≤ j') (h4 : j' ≤ g.je) :
    (spreadCorr2 q1 q2 P g D j i X).B1 j' i' = X.B1 j' i'
      + dl i' i * (q2 * (dl j' j * (D.e_jpi - D.e_ji) + dl j' (j-1) * D.e_ji - dl j' (j+1) * D.e_jpi))
      + dl i' (i+1) * (q2 * (dl j' j * (D.e_jpip - D.e_jip) + dl j' (j-1) * D.e_jip - dl j' (j+1) * D.e_jpip)) := by
  have a3 := guard_lo (x := j) h3
  have a4 := guard_hi (x := j) h4
  simp only [spreadCorr2, it2_B1, applyCorr2_B1]
  push_cast
  linear_combination (dl i' i * q2 * D.e_ji + dl i' (i+1) * q2 * D.e_jip) * a3
    - (dl i' i * q2 * D.e_jpi + dl i' (i+1) * q2 * D.e_jpip) * a4

theorem spread2_B2 (h3 : g.is ≤ i') (h4 : i' ≤ g.ie) :
    (spreadCorr2 q1 q2 P g D j i X).B2 j' i' = X.B2 j' i'
      - dl j' j * (q1 * (dl i' i * (D.e_jip - D.e_ji) + dl i' (i-1) * D.e_ji - dl i' (i+1) * D.e_jip))
      - dl j' (j+1) * (q1 * (dl i' i * (D.e_jpip - D.e_jpi) + dl i' (i-1) * D.e_jpi - dl i' (i+1) * D.e_jpip)) := by
  have a3 := guard_lo (x := i) h3
  have a4 := guard_hi (x := i) h4
  simp only [spreadCorr2, it2_B2, applyCorr2_B2]
  push_cast
  linear_combination (-(dl j' j * q1 * D.e_ji + dl j' (j+1) * q1 * D.e_jpi)) * a3
    + (dl j' j * q1 * D.e_jip + dl j' (j+1) * q1 * D.e_jpip) * a4

theorem spread2_U (v : Option (CVar ns)) (h : InGrid2 g j' i') :
    of2 v ((spreadCorr2 q1 q2 P g D j i X).U j' i') = of2 v (X.U j' i')
      + q1 * (dl j' j * (dl i' i * (fl1 v D.x1ip - fl1 v D.x1i) + dl i' (i-1) * fl1 v D.x1i - dl i' (i+1) * fl1 v D.x1ip))
      + q2 * (dl i' i * (dl j' j * (fl2 v D.x2jp - fl2 v D.x2j) + dl j' (j-1) * fl2 v D.x2j - dl j' (j+1) * fl2 v D.x2jp))
      + eW2 v * (
        q1 * (dl j' j * ((dl i' i * D.x1i.d + dl i' (i+1) * D.x1ip.d) * (P.c j' i' - P.f1 j' i') +
          (dl i' (i-1) * D.x1i.d + dl i' i * D.x1ip.d) * (P.f1 j' (i'+1) - P.c j' i'))) +
        q2 * (dl i' i * ((dl j' j * D.x2j.d + dl j' (j+1) * D.x2jp.d) * (P.c j' i' - P.f2 j' i') +
          (dl j' (j-1) * D.x2j.d + dl j' j * D.x2jp.d) * (P.f2 (j'+1) i' - P.c j' i')))) := by
  obtain ⟨⟨h3, h4⟩, h5, h6⟩ := h
  have a3 := guard_lo (x := j) h3
  have a4 := guard_hi (x := j) h4
  have a5 := guard_lo (x := i) h5
  have a6 := guard_hi (x := i) h6
  simp only [spreadCorr2, it2_U, applyCorr2_U, chg2, onLeft, onRight]
  norm_num
  linear_combination
    (dl i' i * q2 * (fl2 v D.x2j + eW2 v * D.x2j.d * (P.f2 (j'+1) i' - P.c j' i'))) * a3
    + (dl i' i * q2 * (-fl2 v D.x2jp + eW2 v * D.x2jp.d * (P.c j' i' - P.f2 j' i'))) * a4
    + (dl j' j * q1 * (fl1 v D.x1i + eW2 v * D.x1i.d * (P.f1 j' (i'+1) - P.c j' i'))) * a5
    + (dl j' j * q1 * (-fl1 v D.x1ip + eW2 v * D.x1ip.d * (P.c j' i' - P.f1 j' i'))) * a6

end Spread

theorem put2_of {α : Type} (f : α → ℝ) (F G : Pla α) (j i j2 i2 j' i' : ℤ) (h : ¬(j2 = j ∧ i2 = i)) :
    f (set2 (set2 F j i (G j i)) j2 i2 (G j2 i2) j' i') = f (F j' i')
      - dl j' j * dl i' i * (f (F j i) - f (G j i)) - dl j' j2 * dl i' i2 * (f (F j2 i2) - f (G j2 i2)) := by
  have e : set2 F j i (G j i) j2 i2 = F j2 i2 := if_neg h
  rw [set2_map f, set2_eq, set2_map f, set2_eq, e]

section Upd
variable (q : Athena.Gen.Step ℝ) (g : Rng) (S : St ℝ ns) (F1 F2 : Pla (Cons1 ℝ ns)) (e : Pla ℝ) {j i : ℤ}

theorem updV2_of (v : Option (CVar ns)) (h : InGrid2 g j i) : of2 v ((updV2 q g S F1 F2 e).U g.ks j i) = of2 v (S.U g.ks j i)
    - q.dt/q.dx1 * (fl1 v (F1 j (i+1)) - fl1 v (F1 j i)) - q.dt/q.dx2 * (fl2 v (F2 (j+1) i) - fl2 v (F2 j i)) := by
  obtain ⟨⟨h3, h4⟩, h5, h6⟩ := h
  simp (disch := omega) only [updV2, setPl_in, mod2_in]
  rcases v with _ | v
  · rfl
  · cases v <;> rfl

theorem updV2_B1 (h3 : g.js ≤ j) (h4 : j ≤ g.je) (h5 : g.is ≤ i) (h6 : i ≤ g.ie + 1) :
    (updV2 q g S F1 F2 e).B1i g.ks j i = S.B1i g.ks j i - q.dt/q.dx2 * (e (j+1) i - e j i) := by
  simp (disch := omega) only [updV2, setPl_in, facesI_in, cB1]

theorem updV2_B2 (h3 : g.js ≤ j) (h4 : j ≤ g.je + 1) (h5 : g.is ≤ i) (h6 : i ≤ g.ie) :
    (updV2 q g S F1 F2 e).B2i g.ks j i = S.B2i g.ks j i + q.dt/q.dx1 * (e j (i+1) - e j i) := by
  simp (disch := omega) only [updV2, setPl_in, facesJ_in, cB2]

theorem updV2_Bc (h : InGrid2 g j i) : ((updV2 q g S F1 F2 e).U g.ks j i).B1c =
      1/2 * ((updV2 q g S F1 F2 e).B1i g.ks j i + (updV2 q g S F1 F2 e).B1i g.ks j (i+1)) ∧
    ((updV2 q g S F1 F2 e).U g.ks j i).B2c =
      1/2 * ((updV2 q g S F1 F2 e).B2i g.ks j i + (updV2 q g S F1 F2 e).B2i g.ks (j+1) i) ∧
    (updV2 q g S F1 F2 e).B3i g.ks j i = ((updV2 q g S F1 F2 e).U g.ks j i).B3c := by
  obtain ⟨⟨h3, h4⟩, h5, h6⟩ := h
  simp (disch := omega) only [updV2, setPl_in, mod2_in, Athena.Gen.loop2_in]
  exact ⟨rfl, rfl, trivial⟩

end Upd

section Fix
variable {q : Athena.Gen.Step ℝ} {P : Pot2} {g : Rng} {S0 : St ℝ ns} {X : Fy ns} (h : Made2 q P g S0 X) (j i : ℤ)
include h

local notation "Z" => fixCell2 (q.dt/q.dx1) (q.dt/q.dx2) P g X j i

theorem fix2_B1 {j' i' : ℤ} (h3 : g.js ≤ j') (h4 : j' ≤ g.je) (h5 : g.is ≤ i') (h6 : i' ≤ g.ie + 1) :
    (Z).B1 j' i' = S0.B1i g.ks j' i' - q.dt/q.dx2 * ((Z).e (j'+1) i' - (Z).e j' i') := by
  have e := h.B1 j' i' h3 h4 h5 h6
  rw [updV2_B1 q g S0 _ _ _ h3 h4 h5 h6] at e
  simp only [fixCell2, setCorner_eq, dl_succ, dl_pred, spread2_B1 _ _ P g _ j i _ h3 h4, e, difs2]
  ring

theorem fix2_B2 {j' i' : ℤ} (h3 : g.js ≤ j') (h4 : j' ≤ g.je + 1) (h5 : g.is ≤ i') (h6 : i' ≤ g.ie) :
    (Z).B2 j' i' = S0.B2i g.ks j' i' + q.dt/q.dx1 * ((Z).e j' (i'+1) - (Z).e j' i') := by
  have e := h.B2 j' i' h3 h4 h5 h6
  rw [updV2_B2 q g S0 _ _ _ h3 h4 h5 h6] at e
  simp only [fixCell2, setCorner_eq, dl_succ, dl_pred, spread2_B2 _ _ P g _ j i _ h5 h6, e, difs2]
  ring

theorem fix2_U {j' i' : ℤ} (hz : InGrid2 g j' i') (v : Option (CVar ns)) :
    of2 v ((Z).U j' i') = of2 v (S0.U g.ks j' i')
      - q.dt/q.dx1 * (fl1 v ((Z).F1 j' (i'+1)) - fl1 v ((Z).F1 j' i'))
      - q.dt/q.dx2 * (fl2 v ((Z).F2 (j'+1) i') - fl2 v ((Z).F2 j' i'))
      - eW2 v * work2 (q.dt/q.dx1) (q.dt/q.dx2) P (Z).F1 (Z).F2 j' i' := by
  have e : of2 v (X.U j' i') = of2 v ((updV2 q g S0 X.F1 X.F2 X.e).U g.ks j' i') -
      eW2 v * work2 (q.dt/q.dx1) (q.dt/q.dx2) P X.F1 X.F2 j' i' := by
    rw [h.U j' i' hz]
    rcases v with _ | v
    · simp [of2, eW2]
    · cases v <;> simp [of2, CVar.of, eW2, eWt]
  rw [updV2_of q g S0 _ _ _ v hz] at e
  have a : of2 v ((Z).U j' i') = of2 v ((spreadCorr2 (q.dt/q.dx1) (q.dt/q.dx2) P g (difs2 X j i) j i X).U j' i') := by
    simp only [fixCell2, loop2]
    split_ifs
    · rcases v with _ | v
      · rfl
      · cases v <;> rfl
    · rfl
  rw [a, spread2_U _ _ P g _ j i _ v hz, e]
  have n1 : ¬(j = j ∧ i + 1 = i) := by omega
  have n2 : ¬(j + 1 = j ∧ i = i) := by omega
  have f1 : ∀ y z, fl1 v ((Z).F1 y z) = _ := fun y z => put2_of (fl1 v) X.F1 X.P1 j i j (i+1) y z n1
  have f2 : ∀ y z, fl2 v ((Z).F2 y z) = _ := fun y z => put2_of (fl2 v) X.F2 X.P2 j i (j+1) i y z n2
  have d1 : ∀ y z, ((Z).F1 y z).d = _ := fun y z => put2_of Cons1.d X.F1 X.P1 j i j (i+1) y z n1
  have d2 : ∀ y z, ((Z).F2 y z).d = _ := fun y z => put2_of Cons1.d X.F2 X.P2 j i (j+1) i y z n2
  simp only [work2, f1, f2, d1, d2, dl_succ, dl_pred, difs2, fl1_dif, fl2_dif]
  simp only [difA, difB]
  ring

end Fix

/-- Faces of zones away from the zone fixed keep their field. -/
theorem far2_B {q1 q2 : ℝ} {P : Pot2} {g : Rng} {X : Fy ns} (j i : ℤ) {j' i' : ℤ} (hz : InGrid2 g j' i')
    (hf : ¬((j - 1 ≤ j' ∧ j' ≤ j + 1) ∧ (i - 1 ≤ i' ∧ i' ≤ i + 1))) :
    ((fixCell2 q1 q2 P g X j i).B1 j' i' = X.B1 j' i' ∧ (fixCell2 q1 q2 P g X j i).B1 j' (i'+1) = X.B1 j' (i'+1)) ∧
    ((fixCell2 q1 q2 P g X j i).B2 j' i' = X.B2 j' i' ∧ (fixCell2 q1 q2 P g X j i).B2 (j'+1) i' = X.B2 (j'+1) i') := by
  obtain ⟨⟨h3, h4⟩, h5, h6⟩ := hz
  simp only [fixCell2, spread2_B1 _ _ P g _ j i _ h3 h4, spread2_B2 _ _ P g _ j i _ h5 h6, dl_pred, add_sub_cancel_right]
  by_cases hj : j - 1 ≤ j' ∧ j' ≤ j + 1
  · have a0 : dl i' i = 0 := dl_ne (by omega)
    have a1 : dl i' (i+1) = 0 := dl_ne (by omega)
    have a2 : dl i' (i-1) = 0 := dl_ne (by omega)
    simp only [a0, a1, a2]
    refine ⟨⟨by ring, by ring⟩, by ring, by ring⟩
  · have a0 : dl j' j = 0 := dl_ne (by omega)
    have a1 : dl j' (j+1) = 0 := dl_ne (by omega)
    have a2 : dl j' (j-1) = 0 := dl_ne (by omega)
    simp only [a0, a1, a2]
    refine ⟨⟨by ring, by ring⟩, by ring, by ring⟩

/-- Zones that are not neighbours of the zone fixed are left alone. -/
theorem spread2_far {q1 q2 : ℝ} {P : Pot2} {g : Rng} {X : Fy ns} {D : Dif2 ns} (j i : ℤ) {j' i' : ℤ}
    (hf : ¬((j - 1 ≤ j' ∧ j' ≤ j + 1) ∧ (i - 1 ≤ i' ∧ i' ≤ i + 1))) : (spreadCorr2 q1 q2 P g D j i X).U j' i' = X.U j' i' := by
  simp only [spreadCorr2]
  split_ifs <;> simp only [applyCorr2, set2] <;> (repeat rw [if_neg (by omega)])

/-- One call of `FixCell` leaves the plane what the step makes of the fluxes and electric fields then at hand. -/
theorem fix2_made {q : Athena.Gen.Step ℝ} {P : Pot2} {g : Rng} {S0 : St ℝ ns} {X : Fy ns} (h : Made2 q P g S0 X) (j i : ℤ) :
    Made2 q P g S0 (fixCell2 (q.dt/q.dx1) (q.dt/q.dx2) P g X j i) := by
  have key : ∀ j' i', InGrid2 g j' i' → ((fixCell2 (q.dt/q.dx1) (q.dt/q.dx2) P g X j i).U j' i').B1c =
        1/2 * ((fixCell2 (q.dt/q.dx1) (q.dt/q.dx2) P g X j i).B1 j' i' + (fixCell2 (q.dt/q.dx1) (q.dt/q.dx2) P g X j i).B1 j' (i'+1)) ∧
      ((fixCell2 (q.dt/q.dx1) (q.dt/q.dx2) P g X j i).U j' i').B2c =
        1/2 * ((fixCell2 (q.dt/q.dx1) (q.dt/q.dx2) P g X j i).B2 j' i' + (fixCell2 (q.dt/q.dx1) (q.dt/q.dx2) P g X j i).B2 (j'+1) i') ∧
      (fixCell2 (q.dt/q.dx1) (q.dt/q.dx2) P g X j i).B3 j' i' = ((fixCell2 (q.dt/q.dx1) (q.dt/q.dx2) P g X j i).U j' i').B3c := by
    intro j' i' hz
    have hz' := hz
    obtain ⟨⟨h3, h4⟩, h5, h6⟩ := hz'
    by_cases hf : (j - 1 ≤ j' ∧ j' ≤ j + 1) ∧ (i - 1 ≤ i' ∧ i' ≤ i + 1)
    · have e : (fixCell2 (q.dt/q.dx1) (q.dt/q.dx2) P g X j i).U j' i' = avg2 (fixCell2 (q.dt/q.dx1) (q.dt/q.dx2) P g X j i).B1
          (fixCell2 (q.dt/q.dx1) (q.dt/q.dx2) P g X j i).B2 j' i'
          ((spreadCorr2 (q.dt/q.dx1) (q.dt/q.dx2) P g (difs2 X j i) j i X).U j' i') := if_pos hf
      have e3 : (fixCell2 (q.dt/q.dx1) (q.dt/q.dx2) P g X j i).B3 j' i' =
          ((spreadCorr2 (q.dt/q.dx1) (q.dt/q.dx2) P g (difs2 X j i) j i X).U j' i').B3c := if_pos hf
      rw [e, e3]
      exact ⟨rfl, rfl, rfl⟩
    · obtain ⟨⟨q1, q2⟩, q3, q4⟩ := far2_B (q1 := q.dt/q.dx1) (q2 := q.dt/q.dx2) (P := P) (X := X) j i hz hf
      have e : (fixCell2 (q.dt/q.dx1) (q.dt/q.dx2) P g X j i).U j' i' = X.U j' i' := by
        rw [← spread2_far (q1 := q.dt/q.dx1) (q2 := q.dt/q.dx2) (P := P) (g := g) (X := X) (D := difs2 X j i) j i hf]
        exact if_neg hf
      have e3 : (fixCell2 (q.dt/q.dx1) (q.dt/q.dx2) P g X j i).B3 j' i' = X.B3 j' i' := by
        refine (if_neg hf).trans ?_
        simp only [spreadCorr2]
        split_ifs <;> rfl
      rw [q1, q2, q3, q4, e, e3, h.B1 _ _ h3 h4 h5 (by omega), h.B1 _ _ h3 h4 (by omega) (by omega),
        h.B2 _ _ h3 (by omega) h5 h6, h.B2 _ _ (by omega) (by omega) h5 h6, h.U _ _ hz, h.B3 _ _ hz]
      exact updV2_Bc q g S0 _ _ _ hz
  have hU : ∀ j' i', InGrid2 g j' i' → (fixCell2 (q.dt/q.dx1) (q.dt/q.dx2) P g X j i).U j' i' =
      let u := (updV2 q g S0 (fixCell2 (q.dt/q.dx1) (q.dt/q.dx2) P g X j i).F1 (fixCell2 (q.dt/q.dx1) (q.dt/q.dx2) P g X j i).F2
        (fixCell2 (q.dt/q.dx1) (q.dt/q.dx2) P g X j i).e).U g.ks j' i'
      { u with E := u.E - work2 (q.dt/q.dx1) (q.dt/q.dx2) P (fixCell2 (q.dt/q.dx1) (q.dt/q.dx2) P g X j i).F1 (fixCell2 (q.dt/q.dx1) (q.dt/q.dx2) P g X j i).F2 j' i' } := by
    intro j' i' hz
    have hz' := hz
    obtain ⟨⟨h3, h4⟩, h5, h6⟩ := hz'
    obtain ⟨b1, b2, -⟩ := updV2_Bc q g S0 (fixCell2 (q.dt/q.dx1) (q.dt/q.dx2) P g X j i).F1 (fixCell2 (q.dt/q.dx1) (q.dt/q.dx2) P g X j i).F2
      (fixCell2 (q.dt/q.dx1) (q.dt/q.dx2) P g X j i).e hz
    rw [updV2_B1 _ _ _ _ _ _ h3 h4 h5 (by omega), updV2_B1 _ _ _ _ _ _ h3 h4 (by omega) (by omega),
      ← fix2_B1 h j i h3 h4 h5 (by omega), ← fix2_B1 h j i h3 h4 (by omega) (by omega)] at b1
    rw [updV2_B2 _ _ _ _ _ _ h3 (by omega) h5 h6, updV2_B2 _ _ _ _ _ _ (by omega) (by omega) h5 h6,
      ← fix2_B2 h j i h3 (by omega) h5 h6, ← fix2_B2 h j i (by omega) (by omega) h5 h6] at b2
    have hv := fun v => fix2_U h j i hz v
    have hw := fun v => updV2_of q g S0 (fixCell2 (q.dt/q.dx1) (q.dt/q.dx2) P g X j i).F1
      (fixCell2 (q.dt/q.dx1) (q.dt/q.dx2) P g X j i).F2 (fixCell2 (q.dt/q.dx1) (q.dt/q.dx2) P g X j i).e v hz
    obtain ⟨k1, k2, -⟩ := key j' i' hz
    refine cons_of_ext (fun v => ?_) ?_ ?_ ?_
    · have e := hv (some v)
      rw [← hw (some v)] at e
      change v.of _ = _ at e
      rw [e]
      cases v <;> simp [CVar.of, eW2, eWt, of2]
    · rw [k1]; exact b1.symm
    · rw [k2]; exact b2.symm
    · have e := hv none
      rw [← hw none] at e
      change Cons.B3c _ = _ at e
      rw [e]
      simp [of2, eW2]
  constructor
  · exact hU
  · intro j' i' h3 h4 h5 h6
    rw [updV2_B1 _ _ _ _ _ _ h3 h4 h5 h6, fix2_B1 h j i h3 h4 h5 h6]
  · intro j' i' h3 h4 h5 h6
    rw [updV2_B2 _ _ _ _ _ _ h3 h4 h5 h6, fix2_B2 h j i h3 h4 h5 h6]
  · intro j' i' hz
    rw [(key j' i' hz).2.2, hU j' i' hz, (updV2_Bc q g S0 _ _ _ hz).2.2]

end Athena.Fofc
