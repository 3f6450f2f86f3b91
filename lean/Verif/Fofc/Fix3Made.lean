import Verif.Fofc.Fix3Lemmas

/-!
# First-order flux correction: the Grid stays what the step makes of the fluxes at hand
-/

namespace Athena.Fofc
open Athena.Vl3

variable {ns : ℕ}

section Keep
variable (g : Rng) (X : Fx ns) (k j i : ℤ)

theorem keep_S : (keepEdges g X k j i).S = X.S := by simp only [keepEdges]; split_ifs <;> rfl
theorem keep_F1 : (keepEdges g X k j i).F1 = X.F1 := by simp only [keepEdges]; split_ifs <;> rfl
theorem keep_F2 : (keepEdges g X k j i).F2 = X.F2 := by simp only [keepEdges]; split_ifs <;> rfl
theorem keep_F3 : (keepEdges g X k j i).F3 = X.F3 := by simp only [keepEdges]; split_ifs <;> rfl
theorem keep_e1 : (keepEdges g X k j i).e1 = X.e1 := by simp only [keepEdges]; split_ifs <;> rfl
theorem keep_e2 : (keepEdges g X k j i).e2 = X.e2 := by simp only [keepEdges]; split_ifs <;> rfl
theorem keep_e3 : (keepEdges g X k j i).e3 = X.e3 := by simp only [keepEdges]; split_ifs <;> rfl

end Keep

/-- `FixCell` after its first block. -/
noncomputable def fixTail (c : Coef ℝ) (P : Pot) (g : Rng) (X : Fx ns) (k j i : ℤ) : Fx ns :=
  let S := spreadCorr c P g (difs X k j i) k j i X.S
  { X with
    S := { S with U := loop3 (k-1) (k+1) (j-1) (j+1) (i-1) (i+1) (fun k j i => avgB S.B1i S.B2i S.B3i k j i (S.U k j i)) S.U }
    F1 := setAt (setAt X.F1 k j i (X.P1 k j i)) k j (i+1) (X.P1 k j (i+1))
    F2 := setAt (setAt X.F2 k j i (X.P2 k j i)) k (j+1) i (X.P2 k (j+1) i)
    F3 := setAt (setAt X.F3 k j i (X.P3 k j i)) (k+1) j i (X.P3 (k+1) j i)
    e1 := setEdge1 X.e1 X.p1 k j i
    e2 := setEdge2 X.e2 X.p2 k j i
    e3 := setEdge3 X.e3 X.p3 k j i }

theorem fixCell_eq (c : Coef ℝ) (P : Pot) (g : Rng) (X : Fx ns) (k j i : ℤ) :
    fixCell c P g X k j i = fixTail c P g (keepEdges g X k j i) k j i := rfl

theorem made_keep {c : Coef ℝ} {P : Pot} {g : Rng} {S0 : St ℝ ns} {X : Fx ns} (h : Made c P g S0 X) (k j i : ℤ) :
    Made c P g S0 (keepEdges g X k j i) := by
  constructor <;> simp only [keep_S, keep_F1, keep_F2, keep_F3, keep_e1, keep_e2, keep_e3]
  exacts [h.U, h.B1, h.B2, h.B3]

section Flux
variable (X : Fx ns) (k j i k' j' i' : ℤ) (v : CVar ns)

theorem flux1_dif (a b : Cons1 ℝ ns) : v.flux1 (dif a b) = v.flux1 a - v.flux1 b := by cases v <;> rfl
theorem flux2_dif (a b : Cons1 ℝ ns) : v.flux2 (dif a b) = v.flux2 a - v.flux2 b := by cases v <;> rfl
theorem flux3_dif (a b : Cons1 ℝ ns) : v.flux3 (dif a b) = v.flux3 a - v.flux3 b := by cases v <;> rfl

theorem set2_of {α : Type} (f : α → ℝ) (F G : Arr α) (k2 j2 i2 : ℤ) (h : ¬(k2 = k ∧ j2 = j ∧ i2 = i)) :
    f (setAt (setAt F k j i (G k j i)) k2 j2 i2 (G k2 j2 i2) k' j' i') = f (F k' j' i')
      - dl k' k * dl j' j * dl i' i * (f (F k j i) - f (G k j i))
      - dl k' k2 * dl j' j2 * dl i' i2 * (f (F k2 j2 i2) - f (G k2 j2 i2)) := by
  have e : setAt F k j i (G k j i) k2 j2 i2 = F k2 j2 i2 := if_neg h
  rw [setAt_of f, setAt_eq, setAt_of f, setAt_eq, e]

end Flux

/-- The variable of an active zone after `update`. -/
theorem update_of (c : Coef ℝ) (g : Rng) (S : St ℝ ns) (F1 F2 F3 : Arr (Cons1 ℝ ns)) (e1 e2 e3 : Arr ℝ) (v : CVar ns) {k j i : ℤ}
    (h : InGrid g k j i) : v.of ((update c g S F1 F2 F3 e1 e2 e3).U k j i) = v.of (S.U k j i)
      - c.dtodx1 * (v.flux1 (F1 k j (i+1)) - v.flux1 (F1 k j i)) - c.dtodx2 * (v.flux2 (F2 k (j+1) i) - v.flux2 (F2 k j i))
      - c.dtodx3 * (v.flux3 (F3 (k+1) j i) - v.flux3 (F3 k j i)) := by
  obtain ⟨⟨h1, h2⟩, ⟨h3, h4⟩, h5, h6⟩ := h
  simp (disch := omega) only [update, actLoop_in]
  exact cv_upd v _ _ _ _ _ _ _ _ _ _ _ _ _ _ _ _

theorem update_Bc (c : Coef ℝ) (g : Rng) (S : St ℝ ns) (F1 F2 F3 : Arr (Cons1 ℝ ns)) (e1 e2 e3 : Arr ℝ) {k j i : ℤ}
    (h : InGrid g k j i) : ((update c g S F1 F2 F3 e1 e2 e3).U k j i).B1c =
        1/2 * ((update c g S F1 F2 F3 e1 e2 e3).B1i k j i + (update c g S F1 F2 F3 e1 e2 e3).B1i k j (i+1)) ∧
      ((update c g S F1 F2 F3 e1 e2 e3).U k j i).B2c =
        1/2 * ((update c g S F1 F2 F3 e1 e2 e3).B2i k j i + (update c g S F1 F2 F3 e1 e2 e3).B2i k (j+1) i) ∧
      ((update c g S F1 F2 F3 e1 e2 e3).U k j i).B3c =
        1/2 * ((update c g S F1 F2 F3 e1 e2 e3).B3i k j i + (update c g S F1 F2 F3 e1 e2 e3).B3i (k+1) j i) := by
  obtain ⟨⟨h1, h2⟩, ⟨h3, h4⟩, h5, h6⟩ := h
  simp (disch := omega) only [update, actLoop_in]
  exact ⟨rfl, rfl, rfl⟩

theorem upd_B1 (c : Coef ℝ) (g : Rng) (S : St ℝ ns) (F1 F2 F3 : Arr (Cons1 ℝ ns)) (e1 e2 e3 : Arr ℝ) {k j i : ℤ}
    (h1 : g.ks ≤ k) (h2 : k ≤ g.ke) (h3 : g.js ≤ j) (h4 : j ≤ g.je) (h5 : g.is ≤ i) (h6 : i ≤ g.ie + 1) :
    (update c g S F1 F2 F3 e1 e2 e3).B1i k j i = S.B1i k j i + ct1 c.dtodx2 c.dtodx3 e2 e3 k j i :=
  addFaces1_in _ _ h1 h2 h3 h4 h5 h6

theorem upd_B2 (c : Coef ℝ) (g : Rng) (S : St ℝ ns) (F1 F2 F3 : Arr (Cons1 ℝ ns)) (e1 e2 e3 : Arr ℝ) {k j i : ℤ}
    (h1 : g.ks ≤ k) (h2 : k ≤ g.ke) (h3 : g.js ≤ j) (h4 : j ≤ g.je + 1) (h5 : g.is ≤ i) (h6 : i ≤ g.ie) :
    (update c g S F1 F2 F3 e1 e2 e3).B2i k j i = S.B2i k j i + ct2 c.dtodx1 c.dtodx3 e1 e3 k j i :=
  addFaces2_in _ _ h1 h2 h3 h4 h5 h6

theorem upd_B3 (c : Coef ℝ) (g : Rng) (S : St ℝ ns) (F1 F2 F3 : Arr (Cons1 ℝ ns)) (e1 e2 e3 : Arr ℝ) {k j i : ℤ}
    (h1 : g.ks ≤ k) (h2 : k ≤ g.ke + 1) (h3 : g.js ≤ j) (h4 : j ≤ g.je) (h5 : g.is ≤ i) (h6 : i ≤ g.ie) :
    (update c g S F1 F2 F3 e1 e2 e3).B3i k j i = S.B3i k j i + ct3 c.dtodx1 c.dtodx2 e1 e2 k j i :=
  addFaces3_in _ _ h1 h2 h3 h4 h5 h6

section Tail
variable {c : Coef ℝ} {P : Pot} {g : Rng} {S0 : St ℝ ns} {X : Fx ns} (h : Made c P g S0 X) (k j i : ℤ)
include h

theorem tail_B1 {k' j' i' : ℤ} (h1 : g.ks ≤ k') (h2 : k' ≤ g.ke) (h3 : g.js ≤ j') (h4 : j' ≤ g.je) (h5 : g.is ≤ i') (h6 : i' ≤ g.ie + 1) :
    (fixTail c P g X k j i).S.B1i k' j' i' = S0.B1i k' j' i' +
      ct1 c.dtodx2 c.dtodx3 (fixTail c P g X k j i).e2 (fixTail c P g X k j i).e3 k' j' i' := by
  have e := h.B1 k' j' i' h1 h2 h3 h4 h5 h6
  rw [upd_B1 c g S0 _ _ _ _ _ _ h1 h2 h3 h4 h5 h6] at e
  simp only [fixTail, ct1, setEdge2_eq, setEdge3_eq, dl_succ, dl_pred, spread_B1 c P g _ k j i _ h1 h2 h3 h4, e, difs]
  ring

theorem tail_B2 {k' j' i' : ℤ} (h1 : g.ks ≤ k') (h2 : k' ≤ g.ke) (h3 : g.js ≤ j') (h4 : j' ≤ g.je + 1) (h5 : g.is ≤ i') (h6 : i' ≤ g.ie) :
    (fixTail c P g X k j i).S.B2i k' j' i' = S0.B2i k' j' i' +
      ct2 c.dtodx1 c.dtodx3 (fixTail c P g X k j i).e1 (fixTail c P g X k j i).e3 k' j' i' := by
  have e := h.B2 k' j' i' h1 h2 h3 h4 h5 h6
  rw [upd_B2 c g S0 _ _ _ _ _ _ h1 h2 h3 h4 h5 h6] at e
  simp only [fixTail, ct2, setEdge1_eq, setEdge3_eq, dl_succ, dl_pred, spread_B2 c P g _ k j i _ h1 h2 h5 h6, e, difs]
  ring

theorem tail_B3 {k' j' i' : ℤ} (h1 : g.ks ≤ k') (h2 : k' ≤ g.ke + 1) (h3 : g.js ≤ j') (h4 : j' ≤ g.je) (h5 : g.is ≤ i') (h6 : i' ≤ g.ie) :
    (fixTail c P g X k j i).S.B3i k' j' i' = S0.B3i k' j' i' +
      ct3 c.dtodx1 c.dtodx2 (fixTail c P g X k j i).e1 (fixTail c P g X k j i).e2 k' j' i' := by
  have e := h.B3 k' j' i' h1 h2 h3 h4 h5 h6
  rw [upd_B3 c g S0 _ _ _ _ _ _ h1 h2 h3 h4 h5 h6] at e
  simp only [fixTail, ct3, setEdge1_eq, setEdge2_eq, dl_succ, dl_pred, spread_B3 c P g _ k j i _ h3 h4 h5 h6, e, difs]
  ring

theorem tail_U {k' j' i' : ℤ} (hz : InGrid g k' j' i') (v : CVar ns) :
    v.of ((fixTail c P g X k j i).S.U k' j' i') = v.of (S0.U k' j' i')
      - c.dtodx1 * (v.flux1 ((fixTail c P g X k j i).F1 k' j' (i'+1)) - v.flux1 ((fixTail c P g X k j i).F1 k' j' i'))
      - c.dtodx2 * (v.flux2 ((fixTail c P g X k j i).F2 k' (j'+1) i') - v.flux2 ((fixTail c P g X k j i).F2 k' j' i'))
      - c.dtodx3 * (v.flux3 ((fixTail c P g X k j i).F3 (k'+1) j' i') - v.flux3 ((fixTail c P g X k j i).F3 k' j' i'))
      - eWt v * work c P (fixTail c P g X k j i).F1 (fixTail c P g X k j i).F2 (fixTail c P g X k j i).F3 k' j' i' := by
  have e : v.of (X.S.U k' j' i') = v.of ((update c g S0 X.F1 X.F2 X.F3 X.e1 X.e2 X.e3).U k' j' i') -
      eWt v * work c P X.F1 X.F2 X.F3 k' j' i' := by
    rw [h.U k' j' i' hz]; cases v <;> simp [CVar.of, eWt]
  rw [update_of c g S0 _ _ _ _ _ _ v hz] at e
  have a : v.of ((fixTail c P g X k j i).S.U k' j' i') = v.of ((spreadCorr c P g (difs X k j i) k j i X.S).U k' j' i') := by
    simp only [fixTail, loop3]
    split_ifs
    · cases v <;> rfl
    · rfl
  rw [a, spread_U c P g _ k j i _ v hz, e]
  have n1 : ¬(k = k ∧ j = j ∧ i + 1 = i) := by omega
  have n2 : ¬(k = k ∧ j + 1 = j ∧ i = i) := by omega
  have n3 : ¬(k + 1 = k ∧ j = j ∧ i = i) := by omega
  have f1 : ∀ x y z, v.flux1 ((fixTail c P g X k j i).F1 x y z) = _ := fun x y z => set2_of k j i x y z v.flux1 X.F1 X.P1 k j (i+1) n1
  have f2 : ∀ x y z, v.flux2 ((fixTail c P g X k j i).F2 x y z) = _ := fun x y z => set2_of k j i x y z v.flux2 X.F2 X.P2 k (j+1) i n2
  have f3 : ∀ x y z, v.flux3 ((fixTail c P g X k j i).F3 x y z) = _ := fun x y z => set2_of k j i x y z v.flux3 X.F3 X.P3 (k+1) j i n3
  have d1 : ∀ x y z, ((fixTail c P g X k j i).F1 x y z).d = _ := fun x y z => set2_of k j i x y z Cons1.d X.F1 X.P1 k j (i+1) n1
  have d2 : ∀ x y z, ((fixTail c P g X k j i).F2 x y z).d = _ := fun x y z => set2_of k j i x y z Cons1.d X.F2 X.P2 k (j+1) i n2
  have d3 : ∀ x y z, ((fixTail c P g X k j i).F3 x y z).d = _ := fun x y z => set2_of k j i x y z Cons1.d X.F3 X.P3 (k+1) j i n3
  simp only [work, f1, f2, f3, d1, d2, d3, dl_succ, dl_pred, difs, flux1_dif, flux2_dif, flux3_dif]
  simp only [dif]
  ring

end Tail

theorem cons_of_ext {a b : Cons ℝ ns} (h : ∀ v : CVar ns, v.of a = v.of b) (h1 : a.B1c = b.B1c) (h2 : a.B2c = b.B2c) (h3 : a.B3c = b.B3c) :
    a = b := by
  ext
  exacts [h .d, h .M1, h .M2, h .M3, h .E, h1, h2, h3, h (.s _)]

/-- Faces of zones away from the zone fixed keep their field. -/
theorem far_B {c : Coef ℝ} {P : Pot} {g : Rng} {X : Fx ns} (k j i : ℤ) {k' j' i' : ℤ} (hz : InGrid g k' j' i')
    (hf : ¬((k - 1 ≤ k' ∧ k' ≤ k + 1) ∧ (j - 1 ≤ j' ∧ j' ≤ j + 1) ∧ (i - 1 ≤ i' ∧ i' ≤ i + 1))) :
    ((fixTail c P g X k j i).S.B1i k' j' i' = X.S.B1i k' j' i' ∧ (fixTail c P g X k j i).S.B1i k' j' (i'+1) = X.S.B1i k' j' (i'+1)) ∧
    ((fixTail c P g X k j i).S.B2i k' j' i' = X.S.B2i k' j' i' ∧ (fixTail c P g X k j i).S.B2i k' (j'+1) i' = X.S.B2i k' (j'+1) i') ∧
    ((fixTail c P g X k j i).S.B3i k' j' i' = X.S.B3i k' j' i' ∧ (fixTail c P g X k j i).S.B3i (k'+1) j' i' = X.S.B3i (k'+1) j' i') := by
  obtain ⟨⟨h1, h2⟩, ⟨h3, h4⟩, h5, h6⟩ := hz
  simp only [fixTail, spread_B1 c P g _ k j i _ h1 h2 h3 h4, spread_B2 c P g _ k j i _ h1 h2 h5 h6, spread_B3 c P g _ k j i _ h3 h4 h5 h6,
    dl_pred, add_sub_cancel_right]
  by_cases hk : k - 1 ≤ k' ∧ k' ≤ k + 1
  · by_cases hj : j - 1 ≤ j' ∧ j' ≤ j + 1
    · have a0 : dl i' i = 0 := dl_ne (by omega)
      have a1 : dl i' (i+1) = 0 := dl_ne (by omega)
      have a2 : dl i' (i-1) = 0 := dl_ne (by omega)
      simp only [a0, a1, a2]
      refine ⟨⟨by ring, by ring⟩, ⟨by ring, by ring⟩, by ring, by ring⟩
    · have a0 : dl j' j = 0 := dl_ne (by omega)
      have a1 : dl j' (j+1) = 0 := dl_ne (by omega)
      have a2 : dl j' (j-1) = 0 := dl_ne (by omega)
      simp only [a0, a1, a2]
      refine ⟨⟨by ring, by ring⟩, ⟨by ring, by ring⟩, by ring, by ring⟩
  · have a0 : dl k' k = 0 := dl_ne (by omega)
    have a1 : dl k' (k+1) = 0 := dl_ne (by omega)
    have a2 : dl k' (k-1) = 0 := dl_ne (by omega)
    simp only [a0, a1, a2]
    refine ⟨⟨by ring, by ring⟩, ⟨by ring, by ring⟩, by ring, by ring⟩

/-- One call of `FixCell` leaves the Grid what the step makes of the fluxes and electric fields then at hand. -/
theorem fix_made {c : Coef ℝ} {P : Pot} {g : Rng} {S0 : St ℝ ns} {X : Fx ns} (h : Made c P g S0 X) (k j i : ℤ) :
    Made c P g S0 (fixCell c P g X k j i) := by
  rw [fixCell_eq]
  have h := made_keep h k j i
  generalize keepEdges g X k j i = X at h
  constructor
  · intro k' j' i' hz
    have hz' := hz
    obtain ⟨⟨h1, h2⟩, ⟨h3, h4⟩, h5, h6⟩ := hz'
    obtain ⟨b1, b2, b3⟩ := update_Bc c g S0 (fixTail c P g X k j i).F1 (fixTail c P g X k j i).F2 (fixTail c P g X k j i).F3
      (fixTail c P g X k j i).e1 (fixTail c P g X k j i).e2 (fixTail c P g X k j i).e3 hz
    rw [upd_B1 _ _ _ _ _ _ _ _ _ h1 h2 h3 h4 h5 (by omega), upd_B1 _ _ _ _ _ _ _ _ _ h1 h2 h3 h4 (by omega) (by omega),
      ← tail_B1 h k j i h1 h2 h3 h4 h5 (by omega), ← tail_B1 h k j i h1 h2 h3 h4 (by omega) (by omega)] at b1
    rw [upd_B2 _ _ _ _ _ _ _ _ _ h1 h2 h3 (by omega) h5 h6, upd_B2 _ _ _ _ _ _ _ _ _ h1 h2 (by omega) (by omega) h5 h6,
      ← tail_B2 h k j i h1 h2 h3 (by omega) h5 h6, ← tail_B2 h k j i h1 h2 (by omega) (by omega) h5 h6] at b2
    rw [upd_B3 _ _ _ _ _ _ _ _ _ h1 (by omega) h3 h4 h5 h6, upd_B3 _ _ _ _ _ _ _ _ _ (by omega) (by omega) h3 h4 h5 h6,
      ← tail_B3 h k j i h1 (by omega) h3 h4 h5 h6, ← tail_B3 h k j i (by omega) (by omega) h3 h4 h5 h6] at b3
    have bc : ((fixTail c P g X k j i).S.U k' j' i').B1c = 1/2 * ((fixTail c P g X k j i).S.B1i k' j' i' + (fixTail c P g X k j i).S.B1i k' j' (i'+1)) ∧
        ((fixTail c P g X k j i).S.U k' j' i').B2c = 1/2 * ((fixTail c P g X k j i).S.B2i k' j' i' + (fixTail c P g X k j i).S.B2i k' (j'+1) i') ∧
        ((fixTail c P g X k j i).S.U k' j' i').B3c = 1/2 * ((fixTail c P g X k j i).S.B3i k' j' i' + (fixTail c P g X k j i).S.B3i (k'+1) j' i') := by
      by_cases hf : (k - 1 ≤ k' ∧ k' ≤ k + 1) ∧ (j - 1 ≤ j' ∧ j' ≤ j + 1) ∧ (i - 1 ≤ i' ∧ i' ≤ i + 1)
      · have e : (fixTail c P g X k j i).S.U k' j' i' = avgB (fixTail c P g X k j i).S.B1i (fixTail c P g X k j i).S.B2i (fixTail c P g X k j i).S.B3i
            k' j' i' ((spreadCorr c P g (difs X k j i) k j i X.S).U k' j' i') := if_pos hf
        rw [e]
        exact ⟨rfl, rfl, rfl⟩
      · obtain ⟨⟨q1, q2⟩, ⟨q3, q4⟩, q5, q6⟩ := far_B (c := c) (P := P) (X := X) k j i hz hf
        rw [q1, q2, q3, q4, q5, q6]
        have e : (fixTail c P g X k j i).S.U k' j' i' = (spreadCorr c P g (difs X k j i) k j i X.S).U k' j' i' := if_neg hf
        have e' : ((spreadCorr c P g (difs X k j i) k j i X.S).U k' j' i') = X.S.U k' j' i' := by
          simp only [spreadCorr]
          split_ifs <;> simp only [applyCorr, setAt] <;> (repeat rw [if_neg (by omega)])
        rw [e, e', h.B1 _ _ _ h1 h2 h3 h4 h5 (by omega), h.B1 _ _ _ h1 h2 h3 h4 (by omega) (by omega),
          h.B2 _ _ _ h1 h2 h3 (by omega) h5 h6, h.B2 _ _ _ h1 h2 (by omega) (by omega) h5 h6,
          h.B3 _ _ _ h1 (by omega) h3 h4 h5 h6, h.B3 _ _ _ (by omega) (by omega) h3 h4 h5 h6, h.U _ _ _ hz]
        exact update_Bc c g S0 _ _ _ _ _ _ hz
    refine cons_of_ext (fun v => ?_) ?_ ?_ ?_
    · rw [tail_U h k j i hz v]
      have := update_of c g S0 (fixTail c P g X k j i).F1 (fixTail c P g X k j i).F2 (fixTail c P g X k j i).F3
        (fixTail c P g X k j i).e1 (fixTail c P g X k j i).e2 (fixTail c P g X k j i).e3 v hz
      rw [← this]
      cases v <;> simp [CVar.of, eWt]
    · rw [bc.1]; exact b1.symm
    · rw [bc.2.1]; exact b2.symm
    · rw [bc.2.2]; exact b3.symm
  · intro k' j' i' h1 h2 h3 h4 h5 h6
    rw [upd_B1 _ _ _ _ _ _ _ _ _ h1 h2 h3 h4 h5 h6, tail_B1 h k j i h1 h2 h3 h4 h5 h6]
  · intro k' j' i' h1 h2 h3 h4 h5 h6
    rw [upd_B2 _ _ _ _ _ _ _ _ _ h1 h2 h3 h4 h5 h6, tail_B2 h k j i h1 h2 h3 h4 h5 h6]
  · intro k' j' i' h1 h2 h3 h4 h5 h6
    rw [upd_B3 _ _ _ _ _ _ _ _ _ h1 h2 h3 h4 h5 h6, tail_B3 h k j i h1 h2 h3 h4 h5 h6]

end Athena.Fofc
