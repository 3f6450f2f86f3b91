import Verif.Fofc.Fix3
import Mathlib.Tactic.LinearCombination
import Mathlib.Tactic.Ring

/-!
# First-order flux correction: what one `FixCell` changes
-/

namespace Athena.Fofc
open Athena.Vl3

variable {ns : ℕ}

/-- 1 if the condition holds. -/
noncomputable def ind (p : Prop) [Decidable p] : ℝ := if p then 1 else 0

theorem ind_true {p : Prop} [Decidable p] (h : p) : ind p = 1 := if_pos h
theorem ind_false {p : Prop} [Decidable p] (h : ¬p) : ind p = 0 := if_neg h

/-- 1 if the integers are equal. -/
noncomputable def dl (a b : ℤ) : ℝ := ind (a = b)

theorem dl_same (a : ℤ) : dl a a = 1 := ind_true rfl
theorem dl_ne {a b : ℤ} (h : a ≠ b) : dl a b = 0 := ind_false h
theorem dl_succ (a b : ℤ) : dl (a+1) (b+1) = dl a b := by
  unfold dl ind; exact if_congr (by omega) rfl rfl
theorem dl_pred (a b : ℤ) : dl (a+1) b = dl a (b-1) := by
  unfold dl ind; exact if_congr (by omega) rfl rfl

theorem dl3 (k' j' i' k j i : ℤ) (x : ℝ) :
    dl k' k * dl j' j * dl i' i * x = if k' = k ∧ j' = j ∧ i' = i then x else 0 := by
  unfold dl ind
  by_cases h1 : k' = k <;> by_cases h2 : j' = j <;> by_cases h3 : i' = i <;> simp [h1, h2, h3]

theorem addAt_eq (a : Arr ℝ) (k j i : ℤ) (x : ℝ) (k' j' i' : ℤ) :
    addAt a k j i x k' j' i' = a k' j' i' + dl k' k * dl j' j * dl i' i * x := by
  rw [dl3]
  unfold addAt setAt
  split_ifs with h
  · obtain ⟨rfl, rfl, rfl⟩ := h; rfl
  · rw [add_zero]

theorem setAt_eq (a : Arr ℝ) (k j i : ℤ) (x : ℝ) (k' j' i' : ℤ) :
    setAt a k j i x k' j' i' = a k' j' i' - dl k' k * dl j' j * dl i' i * (a k j i - x) := by
  rw [dl3]
  unfold setAt
  split_ifs with h
  · obtain ⟨rfl, rfl, rfl⟩ := h; ring
  · rw [sub_zero]

theorem setAt_of {α β : Type} (f : α → β) (a : Arr α) (k j i : ℤ) (x : α) (k' j' i' : ℤ) :
    f (setAt a k j i x k' j' i') = setAt (fun k j i => f (a k j i)) k j i (f x) k' j' i' := by
  unfold setAt
  split_ifs <;> rfl

theorem dl_s (a : ℤ) : dl (a+1) a = 0 := dl_ne (by omega)
theorem dl_p (a : ℤ) : dl a (a+1) = 0 := dl_ne (by omega)

theorem setEdge1_eq (e p : Arr ℝ) (k j i k' j' i' : ℤ) : setEdge1 e p k j i k' j' i' = e k' j' i'
    - dl k' k * dl j' j * dl i' i * (e k j i - p k j i)
    - dl k' k * dl j' (j+1) * dl i' i * (e k (j+1) i - p k (j+1) i)
    - dl k' (k+1) * dl j' j * dl i' i * (e (k+1) j i - p (k+1) j i)
    - dl k' (k+1) * dl j' (j+1) * dl i' i * (e (k+1) (j+1) i - p (k+1) (j+1) i) := by
  simp only [setEdge1, setAt_eq, dl_same, dl_s, dl_p]; ring

theorem setEdge2_eq (e p : Arr ℝ) (k j i k' j' i' : ℤ) : setEdge2 e p k j i k' j' i' = e k' j' i'
    - dl k' k * dl j' j * dl i' i * (e k j i - p k j i)
    - dl k' k * dl j' j * dl i' (i+1) * (e k j (i+1) - p k j (i+1))
    - dl k' (k+1) * dl j' j * dl i' i * (e (k+1) j i - p (k+1) j i)
    - dl k' (k+1) * dl j' j * dl i' (i+1) * (e (k+1) j (i+1) - p (k+1) j (i+1)) := by
  simp only [setEdge2, setAt_eq, dl_same, dl_s, dl_p]; ring

theorem setEdge3_eq (e p : Arr ℝ) (k j i k' j' i' : ℤ) : setEdge3 e p k j i k' j' i' = e k' j' i'
    - dl k' k * dl j' j * dl i' i * (e k j i - p k j i)
    - dl k' k * dl j' j * dl i' (i+1) * (e k j (i+1) - p k j (i+1))
    - dl k' k * dl j' (j+1) * dl i' i * (e k (j+1) i - p k (j+1) i)
    - dl k' k * dl j' (j+1) * dl i' (i+1) * (e k (j+1) (i+1) - p k (j+1) (i+1)) := by
  simp only [setEdge3, setAt_eq, dl_same, dl_s, dl_p]; ring

/-! ## The interface fields -/

section B
variable (c : Coef ℝ) (P : Pot) (D : Dif ns) (k j i : ℤ) (s : Sides) (S : St ℝ ns) (k' j' i' : ℤ)

theorem applyCorr_B1 : (applyCorr c P D k j i s S).B1i k' j' i' = S.B1i k' j' i' - dl k' k * dl j' j * (
    dl i' i * (c.dtodx3 * (s.r3 * D.e2_kpi - s.l3 * D.e2_ki) - c.dtodx2 * (s.r2 * D.e3_jpi - s.l2 * D.e3_ji)) +
    dl i' (i+1) * (c.dtodx3 * (s.r3 * D.e2_kpip - s.l3 * D.e2_kip) - c.dtodx2 * (s.r2 * D.e3_jpip - s.l2 * D.e3_jip))) := by
  simp only [applyCorr, addAt_eq]; ring

theorem applyCorr_B2 : (applyCorr c P D k j i s S).B2i k' j' i' = S.B2i k' j' i' - dl k' k * dl i' i * (
    dl j' j * (c.dtodx1 * (s.r1 * D.e3_jip - s.l1 * D.e3_ji) - c.dtodx3 * (s.r3 * D.e1_kpj - s.l3 * D.e1_kj)) +
    dl j' (j+1) * (c.dtodx1 * (s.r1 * D.e3_jpip - s.l1 * D.e3_jpi) - c.dtodx3 * (s.r3 * D.e1_kpjp - s.l3 * D.e1_kjp))) := by
  simp only [applyCorr, addAt_eq]; ring

theorem applyCorr_B3 : (applyCorr c P D k j i s S).B3i k' j' i' = S.B3i k' j' i' - dl j' j * dl i' i * (
    dl k' k * (c.dtodx2 * (s.r2 * D.e1_kjp - s.l2 * D.e1_kj) - c.dtodx1 * (s.r1 * D.e2_kip - s.l1 * D.e2_ki)) +
    dl k' (k+1) * (c.dtodx2 * (s.r2 * D.e1_kpjp - s.l2 * D.e1_kpj) - c.dtodx1 * (s.r1 * D.e2_kpip - s.l1 * D.e2_kpi))) := by
  simp only [applyCorr, addAt_eq]; ring

theorem ite_B1 (p : Prop) [Decidable p] (A B : St ℝ ns) :
    (if p then A else B).B1i k' j' i' = B.B1i k' j' i' + ind p * (A.B1i k' j' i' - B.B1i k' j' i') := by
  unfold ind; split_ifs <;> ring

theorem ite_B2 (p : Prop) [Decidable p] (A B : St ℝ ns) :
    (if p then A else B).B2i k' j' i' = B.B2i k' j' i' + ind p * (A.B2i k' j' i' - B.B2i k' j' i') := by
  unfold ind; split_ifs <;> ring

theorem ite_B3 (p : Prop) [Decidable p] (A B : St ℝ ns) :
    (if p then A else B).B3i k' j' i' = B.B3i k' j' i' + ind p * (A.B3i k' j' i' - B.B3i k' j' i') := by
  unfold ind; split_ifs <;> ring

end B

section Guard
variable {l u x x' : ℤ}

theorem guard_lo (h : l ≤ x') : ind (x > l) * dl x' (x-1) = dl x' (x-1) := by
  by_cases hp : x > l
  · rw [ind_true hp, one_mul]
  · rw [dl_ne (by omega), mul_zero]

theorem guard_hi (h : x' ≤ u) : ind (x < u) * dl x' (x+1) = dl x' (x+1) := by
  by_cases hp : x < u
  · rw [ind_true hp, one_mul]
  · rw [dl_ne (by omega), mul_zero]

end Guard

section Spread
variable (c : Coef ℝ) (P : Pot) (g : Rng) (D : Dif ns) (k j i : ℤ) (S : St ℝ ns) {k' j' i' : ℤ}

theorem spread_B1 (h1 : g.ks ≤ k') (h2 : k' ≤ g.ke) (h3 : g.js ≤ j') (h4 : j' ≤ g.je) :
    (spreadCorr c P g D k j i S).B1i k' j' i' = S.B1i k' j' i'
      - dl i' i * (dl j' j * (c.dtodx3 * (dl k' k * (D.e2_kpi - D.e2_ki) + dl k' (k-1) * D.e2_ki - dl k' (k+1) * D.e2_kpi))
        - dl k' k * (c.dtodx2 * (dl j' j * (D.e3_jpi - D.e3_ji) + dl j' (j-1) * D.e3_ji - dl j' (j+1) * D.e3_jpi)))
      - dl i' (i+1) * (dl j' j * (c.dtodx3 * (dl k' k * (D.e2_kpip - D.e2_kip) + dl k' (k-1) * D.e2_kip - dl k' (k+1) * D.e2_kpip))
        - dl k' k * (c.dtodx2 * (dl j' j * (D.e3_jpip - D.e3_jip) + dl j' (j-1) * D.e3_jip - dl j' (j+1) * D.e3_jpip))) := by
  have a1 := guard_lo (x := k) h1
  have a2 := guard_hi (x := k) h2
  have a3 := guard_lo (x := j) h3
  have a4 := guard_hi (x := j) h4
  simp only [spreadCorr, ite_B1, applyCorr_B1]
  push_cast
  linear_combination
    (-(dl j' j * (dl i' i * c.dtodx3 * D.e2_ki + dl i' (i+1) * c.dtodx3 * D.e2_kip))) * a1
    + (dl j' j * (dl i' i * c.dtodx3 * D.e2_kpi + dl i' (i+1) * c.dtodx3 * D.e2_kpip)) * a2
    + (dl k' k * (dl i' i * c.dtodx2 * D.e3_ji + dl i' (i+1) * c.dtodx2 * D.e3_jip)) * a3
    - (dl k' k * (dl i' i * c.dtodx2 * D.e3_jpi + dl i' (i+1) * c.dtodx2 * D.e3_jpip)) * a4

theorem spread_B2 (h1 : g.ks ≤ k') (h2 : k' ≤ g.ke) (h3 : g.is ≤ i') (h4 : i' ≤ g.ie) :
    (spreadCorr c P g D k j i S).B2i k' j' i' = S.B2i k' j' i'
      - dl j' j * (dl k' k * (c.dtodx1 * (dl i' i * (D.e3_jip - D.e3_ji) + dl i' (i-1) * D.e3_ji - dl i' (i+1) * D.e3_jip))
        - dl i' i * (c.dtodx3 * (dl k' k * (D.e1_kpj - D.e1_kj) + dl k' (k-1) * D.e1_kj - dl k' (k+1) * D.e1_kpj)))
      - dl j' (j+1) * (dl k' k * (c.dtodx1 * (dl i' i * (D.e3_jpip - D.e3_jpi) + dl i' (i-1) * D.e3_jpi - dl i' (i+1) * D.e3_jpip))
        - dl i' i * (c.dtodx3 * (dl k' k * (D.e1_kpjp - D.e1_kjp) + dl k' (k-1) * D.e1_kjp - dl k' (k+1) * D.e1_kpjp))) := by
  have a1 := guard_lo (x := k) h1
  have a2 := guard_hi (x := k) h2
  have a3 := guard_lo (x := i) h3
  have a4 := guard_hi (x := i) h4
  simp only [spreadCorr, ite_B2, applyCorr_B2]
  push_cast
  linear_combination
    (dl i' i * (dl j' j * c.dtodx3 * D.e1_kj + dl j' (j+1) * c.dtodx3 * D.e1_kjp)) * a1
    - (dl i' i * (dl j' j * c.dtodx3 * D.e1_kpj + dl j' (j+1) * c.dtodx3 * D.e1_kpjp)) * a2
    - (dl k' k * (dl j' j * c.dtodx1 * D.e3_ji + dl j' (j+1) * c.dtodx1 * D.e3_jpi)) * a3
    + (dl k' k * (dl j' j * c.dtodx1 * D.e3_jip + dl j' (j+1) * c.dtodx1 * D.e3_jpip)) * a4

theorem spread_B3 (h1 : g.js ≤ j') (h2 : j' ≤ g.je) (h3 : g.is ≤ i') (h4 : i' ≤ g.ie) :
    (spreadCorr c P g D k j i S).B3i k' j' i' = S.B3i k' j' i'
      - dl k' k * (dl i' i * (c.dtodx2 * (dl j' j * (D.e1_kjp - D.e1_kj) + dl j' (j-1) * D.e1_kj - dl j' (j+1) * D.e1_kjp))
        - dl j' j * (c.dtodx1 * (dl i' i * (D.e2_kip - D.e2_ki) + dl i' (i-1) * D.e2_ki - dl i' (i+1) * D.e2_kip)))
      - dl k' (k+1) * (dl i' i * (c.dtodx2 * (dl j' j * (D.e1_kpjp - D.e1_kpj) + dl j' (j-1) * D.e1_kpj - dl j' (j+1) * D.e1_kpjp))
        - dl j' j * (c.dtodx1 * (dl i' i * (D.e2_kpip - D.e2_kpi) + dl i' (i-1) * D.e2_kpi - dl i' (i+1) * D.e2_kpip))) := by
  have a1 := guard_lo (x := j) h1
  have a2 := guard_hi (x := j) h2
  have a3 := guard_lo (x := i) h3
  have a4 := guard_hi (x := i) h4
  simp only [spreadCorr, ite_B3, applyCorr_B3]
  push_cast
  linear_combination
    (-(dl i' i * (dl k' k * c.dtodx2 * D.e1_kj + dl k' (k+1) * c.dtodx2 * D.e1_kpj))) * a1
    + (dl i' i * (dl k' k * c.dtodx2 * D.e1_kjp + dl k' (k+1) * c.dtodx2 * D.e1_kpjp)) * a2
    + (dl j' j * (dl k' k * c.dtodx1 * D.e2_ki + dl k' (k+1) * c.dtodx1 * D.e2_kpi)) * a3
    - (dl j' j * (dl k' k * c.dtodx1 * D.e2_kip + dl k' (k+1) * c.dtodx1 * D.e2_kpip)) * a4

end Spread

/-! ## The variables of zones -/

/-- 1 for the energy, 0 for the other variables. -/
def eWt : CVar ns → ℝ
  | .E => 1
  | _ => 0

/-- The change `corU` makes to a variable, given the potential in the zone and on its faces. -/
noncomputable def chg (c : Coef ℝ) (D : Dif ns) (s : Sides) (v : CVar ns) (p l1 h1 l2 h2 l3 h3 : ℝ) : ℝ :=
  c.dtodx1 * (s.r1 * v.flux1 D.x1ip - s.l1 * v.flux1 D.x1i) + c.dtodx2 * (s.r2 * v.flux2 D.x2jp - s.l2 * v.flux2 D.x2j) +
  c.dtodx3 * (s.r3 * v.flux3 D.x3kp - s.l3 * v.flux3 D.x3k) + eWt v * (
  c.dtodx1 * (s.l1 * D.x1i.d * (p - onLeft s.l1 p l1 h1) + s.r1 * D.x1ip.d * (onRight s.r1 p l1 h1 - p)) +
  c.dtodx2 * (s.l2 * D.x2j.d * (p - onLeft s.l2 p l2 h2) + s.r2 * D.x2jp.d * (onRight s.r2 p l2 h2 - p)) +
  c.dtodx3 * (s.l3 * D.x3k.d * (p - onLeft s.l3 p l3 h3) + s.r3 * D.x3kp.d * (onRight s.r3 p l3 h3 - p)))

section U
variable (c : Coef ℝ) (P : Pot) (g : Rng) (D : Dif ns) (k j i : ℤ) (s : Sides) (S : St ℝ ns) (v : CVar ns)

theorem corU_of (u : Cons ℝ ns) : v.of (corU c P D k j i s u) = v.of u +
    chg c D s v (P.c k j i) (P.f1 k j i) (P.f1 k j (i+1)) (P.f2 k j i) (P.f2 k (j+1) i) (P.f3 k j i) (P.f3 (k+1) j i) := by
  cases v <;> simp only [corU, chg, CVar.of, CVar.flux1, CVar.flux2, CVar.flux3, eWt] <;> ring

theorem applyCorr_U (k' j' i' : ℤ) : v.of ((applyCorr c P D k j i s S).U k' j' i') = v.of (S.U k' j' i') +
    dl k' k * dl j' j * dl i' i * chg c D s v (P.c k' j' i') (P.f1 k' j' i') (P.f1 k' j' (i'+1)) (P.f2 k' j' i')
      (P.f2 k' (j'+1) i') (P.f3 k' j' i') (P.f3 (k'+1) j' i') := by
  rw [dl3]
  simp only [applyCorr, setAt]
  split_ifs with h
  · obtain ⟨rfl, rfl, rfl⟩ := h
    rw [corU_of]
  · rw [add_zero]

theorem ite_U (p : Prop) [Decidable p] (A B : St ℝ ns) (k' j' i' : ℤ) :
    v.of ((if p then A else B).U k' j' i') = v.of (B.U k' j' i') + ind p * (v.of (A.U k' j' i') - v.of (B.U k' j' i')) := by
  unfold ind; split_ifs <;> ring

theorem spread_U {k' j' i' : ℤ} (h : InGrid g k' j' i') :
    v.of ((spreadCorr c P g D k j i S).U k' j' i') = v.of (S.U k' j' i')
      + c.dtodx1 * (dl k' k * dl j' j * (dl i' i * (v.flux1 D.x1ip - v.flux1 D.x1i) + dl i' (i-1) * v.flux1 D.x1i - dl i' (i+1) * v.flux1 D.x1ip))
      + c.dtodx2 * (dl k' k * dl i' i * (dl j' j * (v.flux2 D.x2jp - v.flux2 D.x2j) + dl j' (j-1) * v.flux2 D.x2j - dl j' (j+1) * v.flux2 D.x2jp))
      + c.dtodx3 * (dl j' j * dl i' i * (dl k' k * (v.flux3 D.x3kp - v.flux3 D.x3k) + dl k' (k-1) * v.flux3 D.x3k - dl k' (k+1) * v.flux3 D.x3kp))
      + eWt v * (
        c.dtodx1 * (dl k' k * dl j' j * ((dl i' i * D.x1i.d + dl i' (i+1) * D.x1ip.d) * (P.c k' j' i' - P.f1 k' j' i') +
          (dl i' (i-1) * D.x1i.d + dl i' i * D.x1ip.d) * (P.f1 k' j' (i'+1) - P.c k' j' i'))) +
        c.dtodx2 * (dl k' k * dl i' i * ((dl j' j * D.x2j.d + dl j' (j+1) * D.x2jp.d) * (P.c k' j' i' - P.f2 k' j' i') +
          (dl j' (j-1) * D.x2j.d + dl j' j * D.x2jp.d) * (P.f2 k' (j'+1) i' - P.c k' j' i'))) +
        c.dtodx3 * (dl j' j * dl i' i * ((dl k' k * D.x3k.d + dl k' (k+1) * D.x3kp.d) * (P.c k' j' i' - P.f3 k' j' i') +
          (dl k' (k-1) * D.x3k.d + dl k' k * D.x3kp.d) * (P.f3 (k'+1) j' i' - P.c k' j' i')))) := by
  obtain ⟨⟨h1, h2⟩, ⟨h3, h4⟩, h5, h6⟩ := h
  have a1 := guard_lo (x := k) h1
  have a2 := guard_hi (x := k) h2
  have a3 := guard_lo (x := j) h3
  have a4 := guard_hi (x := j) h4
  have a5 := guard_lo (x := i) h5
  have a6 := guard_hi (x := i) h6
  simp only [spreadCorr, ite_U, applyCorr_U, chg, onLeft, onRight]
  norm_num
  linear_combination
    (dl j' j * dl i' i * c.dtodx3 * (v.flux3 D.x3k + eWt v * D.x3k.d * (P.f3 (k'+1) j' i' - P.c k' j' i'))) * a1
    + (dl j' j * dl i' i * c.dtodx3 * (-v.flux3 D.x3kp + eWt v * D.x3kp.d * (P.c k' j' i' - P.f3 k' j' i'))) * a2
    + (dl k' k * dl i' i * c.dtodx2 * (v.flux2 D.x2j + eWt v * D.x2j.d * (P.f2 k' (j'+1) i' - P.c k' j' i'))) * a3
    + (dl k' k * dl i' i * c.dtodx2 * (-v.flux2 D.x2jp + eWt v * D.x2jp.d * (P.c k' j' i' - P.f2 k' j' i'))) * a4
    + (dl k' k * dl j' j * c.dtodx1 * (v.flux1 D.x1i + eWt v * D.x1i.d * (P.f1 k' j' (i'+1) - P.c k' j' i'))) * a5
    + (dl k' k * dl j' j * c.dtodx1 * (-v.flux1 D.x1ip + eWt v * D.x1ip.d * (P.c k' j' i' - P.f1 k' j' i'))) * a6

end U

end Athena.Fofc
