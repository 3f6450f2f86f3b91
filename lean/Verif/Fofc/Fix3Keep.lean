import Verif.Fofc.Fix3Made

/-!
# First-order flux correction: which fluxes and electric fields are replaced
-/

namespace Athena.Fofc
open Athena.Vl3

variable {ns : ℕ}

theorem setAt_put {α : Type} (a E : Arr α) (k j i k' j' i' : ℤ) :
    setAt a k j i (E k j i) k' j' i' = if k' = k ∧ j' = j ∧ i' = i then E k' j' i' else a k' j' i' := by
  unfold setAt
  by_cases h : k' = k ∧ j' = j ∧ i' = i
  · obtain ⟨rfl, rfl, rfl⟩ := h; rfl
  · rw [if_neg h, if_neg h]

theorem put2 {α : Type} (p : Prop) [Decidable p] (a E : Arr α) (k1 j1 i1 k2 j2 i2 k' j' i' : ℤ) :
    (if p then setAt (setAt a k1 j1 i1 (E k1 j1 i1)) k2 j2 i2 (E k2 j2 i2) else a) k' j' i' =
      if p ∧ ((k' = k1 ∧ j' = j1 ∧ i' = i1) ∨ (k' = k2 ∧ j' = j2 ∧ i' = i2)) then E k' j' i' else a k' j' i' := by
  by_cases h : p
  · rw [if_pos h, setAt_put, setAt_put]
    by_cases h1 : k' = k1 ∧ j' = j1 ∧ i' = i1 <;> by_cases h2 : k' = k2 ∧ j' = j2 ∧ i' = i2 <;> simp only [h, h1, h2] <;> simp
  · rw [if_neg h, if_neg (fun x => h x.1)]

theorem if_or {α : Type} (p q : Prop) [Decidable p] [Decidable q] (x y : α) :
    (if p then x else if q then x else y) = if p ∨ q then x else y := by
  by_cases h1 : p <;> by_cases h2 : q <;> simp [h1, h2]

section Keep
variable (g : Rng) (X : Fx ns) (k j i k' j' i' : ℤ)

/-- On which faces and edges `keepEdges` overwrites the first-order values: those of the zone that lie on the boundary. -/
theorem keep_P1 : (keepEdges g X k j i).P1 k' j' i' =
    if k' = k ∧ j' = j ∧ (i' = i ∧ i = g.is ∨ i' = i + 1 ∧ i = g.ie) then X.F1 k' j' i' else X.P1 k' j' i' := by
  have e : (keepEdges g X k j i).P1 = if i = g.ie then setAt (if i = g.is then setAt X.P1 k j i (X.F1 k j i) else X.P1) k j (i+1) (X.F1 k j (i+1))
      else (if i = g.is then setAt X.P1 k j i (X.F1 k j i) else X.P1) := by simp only [keepEdges]; split_ifs <;> rfl
  rw [e]
  split_ifs <;> (try simp only [setAt_put]) <;> (try split_ifs) <;> first | rfl | omega

theorem keep_P2 : (keepEdges g X k j i).P2 k' j' i' =
    if k' = k ∧ i' = i ∧ (j' = j ∧ j = g.js ∨ j' = j + 1 ∧ j = g.je) then X.F2 k' j' i' else X.P2 k' j' i' := by
  have e : (keepEdges g X k j i).P2 = if j = g.je then setAt (if j = g.js then setAt X.P2 k j i (X.F2 k j i) else X.P2) k (j+1) i (X.F2 k (j+1) i)
      else (if j = g.js then setAt X.P2 k j i (X.F2 k j i) else X.P2) := by simp only [keepEdges]; split_ifs <;> rfl
  rw [e]
  split_ifs <;> (try simp only [setAt_put]) <;> (try split_ifs) <;> first | rfl | omega

theorem keep_P3 : (keepEdges g X k j i).P3 k' j' i' =
    if j' = j ∧ i' = i ∧ (k' = k ∧ k = g.ks ∨ k' = k + 1 ∧ k = g.ke) then X.F3 k' j' i' else X.P3 k' j' i' := by
  have e : (keepEdges g X k j i).P3 = if k = g.ke then setAt (if k = g.ks then setAt X.P3 k j i (X.F3 k j i) else X.P3) (k+1) j i (X.F3 (k+1) j i)
      else (if k = g.ks then setAt X.P3 k j i (X.F3 k j i) else X.P3) := by simp only [keepEdges]; split_ifs <;> rfl
  rw [e]
  split_ifs <;> (try simp only [setAt_put]) <;> (try split_ifs) <;> first | rfl | omega

/-- The edge `x'`, `y'` of a zone `x`, `y` lies on the boundary of the range. -/
def OnB (x y l u m n x' y' : ℤ) : Prop :=
  (x' = x ∧ x = l ∨ x' = x + 1 ∧ x = u) ∧ (y' = y ∨ y' = y + 1) ∨ (y' = y ∧ y = m ∨ y' = y + 1 ∧ y = n) ∧ (x' = x ∨ x' = x + 1)

instance (x y l u m n x' y' : ℤ) : Decidable (OnB x y l u m n x' y') := by unfold OnB; infer_instance

theorem keep_p1 : (keepEdges g X k j i).p1 k' j' i' =
    if i' = i ∧ OnB j k g.js g.je g.ks g.ke j' k' then X.e1 k' j' i' else X.p1 k' j' i' := by
  have e : (keepEdges g X k j i).p1 =
      let a := X.p1
      let a := if j = g.js then setAt (setAt a k j i (X.e1 k j i)) (k+1) j i (X.e1 (k+1) j i) else a
      let a := if j = g.je then setAt (setAt a k (j+1) i (X.e1 k (j+1) i)) (k+1) (j+1) i (X.e1 (k+1) (j+1) i) else a
      let a := if k = g.ks then setAt (setAt a k j i (X.e1 k j i)) k (j+1) i (X.e1 k (j+1) i) else a
      if k = g.ke then setAt (setAt a (k+1) j i (X.e1 (k+1) j i)) (k+1) (j+1) i (X.e1 (k+1) (j+1) i) else a := by
    simp only [keepEdges]; split_ifs <;> rfl
  rw [e]
  dsimp only
  simp only [put2, if_or]
  unfold OnB
  exact if_congr (by omega) rfl rfl

theorem keep_p2 : (keepEdges g X k j i).p2 k' j' i' =
    if j' = j ∧ OnB i k g.is g.ie g.ks g.ke i' k' then X.e2 k' j' i' else X.p2 k' j' i' := by
  have e : (keepEdges g X k j i).p2 =
      let a := X.p2
      let a := if i = g.is then setAt (setAt a k j i (X.e2 k j i)) (k+1) j i (X.e2 (k+1) j i) else a
      let a := if i = g.ie then setAt (setAt a k j (i+1) (X.e2 k j (i+1))) (k+1) j (i+1) (X.e2 (k+1) j (i+1)) else a
      let a := if k = g.ks then setAt (setAt a k j i (X.e2 k j i)) k j (i+1) (X.e2 k j (i+1)) else a
      if k = g.ke then setAt (setAt a (k+1) j i (X.e2 (k+1) j i)) (k+1) j (i+1) (X.e2 (k+1) j (i+1)) else a := by
    simp only [keepEdges]; split_ifs <;> rfl
  rw [e]
  dsimp only
  simp only [put2, if_or]
  unfold OnB
  exact if_congr (by omega) rfl rfl

theorem keep_p3 : (keepEdges g X k j i).p3 k' j' i' =
    if k' = k ∧ OnB i j g.is g.ie g.js g.je i' j' then X.e3 k' j' i' else X.p3 k' j' i' := by
  have e : (keepEdges g X k j i).p3 =
      let a := X.p3
      let a := if i = g.is then setAt (setAt a k j i (X.e3 k j i)) k (j+1) i (X.e3 k (j+1) i) else a
      let a := if i = g.ie then setAt (setAt a k j (i+1) (X.e3 k j (i+1))) k (j+1) (i+1) (X.e3 k (j+1) (i+1)) else a
      let a := if j = g.js then setAt (setAt a k j i (X.e3 k j i)) k j (i+1) (X.e3 k j (i+1)) else a
      if j = g.je then setAt (setAt a k (j+1) i (X.e3 k (j+1) i)) k (j+1) (i+1) (X.e3 k (j+1) (i+1)) else a := by
    simp only [keepEdges]; split_ifs <;> rfl
  rw [e]
  dsimp only
  simp only [put2, if_or]
  unfold OnB
  exact if_congr (by omega) rfl rfl

end Keep

/-! ## The arrays after `FixCell` -/

section Fix
variable (c : Coef ℝ) (P : Pot) (g : Rng) (X : Fx ns) (k j i k' j' i' : ℤ)

theorem fix_P1 : (fixCell c P g X k j i).P1 = (keepEdges g X k j i).P1 := rfl
theorem fix_P2 : (fixCell c P g X k j i).P2 = (keepEdges g X k j i).P2 := rfl
theorem fix_P3 : (fixCell c P g X k j i).P3 = (keepEdges g X k j i).P3 := rfl
theorem fix_p1 : (fixCell c P g X k j i).p1 = (keepEdges g X k j i).p1 := rfl
theorem fix_p2 : (fixCell c P g X k j i).p2 = (keepEdges g X k j i).p2 := rfl
theorem fix_p3 : (fixCell c P g X k j i).p3 = (keepEdges g X k j i).p3 := rfl

theorem fix_F1 : (fixCell c P g X k j i).F1 k' j' i' =
    if k' = k ∧ j' = j ∧ (i' = i ∧ i ≠ g.is ∨ i' = i + 1 ∧ i ≠ g.ie) then X.P1 k' j' i' else X.F1 k' j' i' := by
  rw [fixCell_eq]
  simp only [fixTail, setAt_put]
  simp only [keep_P1, keep_F1]
  split_ifs <;> first | rfl | omega

theorem fix_F2 : (fixCell c P g X k j i).F2 k' j' i' =
    if k' = k ∧ i' = i ∧ (j' = j ∧ j ≠ g.js ∨ j' = j + 1 ∧ j ≠ g.je) then X.P2 k' j' i' else X.F2 k' j' i' := by
  rw [fixCell_eq]
  simp only [fixTail, setAt_put]
  simp only [keep_P2, keep_F2]
  split_ifs <;> first | rfl | omega

theorem fix_F3 : (fixCell c P g X k j i).F3 k' j' i' =
    if j' = j ∧ i' = i ∧ (k' = k ∧ k ≠ g.ks ∨ k' = k + 1 ∧ k ≠ g.ke) then X.P3 k' j' i' else X.F3 k' j' i' := by
  rw [fixCell_eq]
  simp only [fixTail, setAt_put]
  simp only [keep_P3, keep_F3]
  split_ifs <;> first | rfl | omega

theorem fix_e1 : (fixCell c P g X k j i).e1 k' j' i' =
    if i' = i ∧ (j' = j ∨ j' = j + 1) ∧ (k' = k ∨ k' = k + 1) ∧ ¬OnB j k g.js g.je g.ks g.ke j' k' then X.p1 k' j' i' else X.e1 k' j' i' := by
  rw [fixCell_eq]
  simp only [fixTail, setEdge1, setAt_put]
  simp only [keep_p1, keep_e1]
  unfold OnB
  split_ifs <;> first | rfl | omega

theorem fix_e2 : (fixCell c P g X k j i).e2 k' j' i' =
    if j' = j ∧ (i' = i ∨ i' = i + 1) ∧ (k' = k ∨ k' = k + 1) ∧ ¬OnB i k g.is g.ie g.ks g.ke i' k' then X.p2 k' j' i' else X.e2 k' j' i' := by
  rw [fixCell_eq]
  simp only [fixTail, setEdge2, setAt_put]
  simp only [keep_p2, keep_e2]
  unfold OnB
  split_ifs <;> first | rfl | omega

theorem fix_e3 : (fixCell c P g X k j i).e3 k' j' i' =
    if k' = k ∧ (i' = i ∨ i' = i + 1) ∧ (j' = j ∨ j' = j + 1) ∧ ¬OnB i j g.is g.ie g.js g.je i' j' then X.p3 k' j' i' else X.e3 k' j' i' := by
  rw [fixCell_eq]
  simp only [fixTail, setEdge3, setAt_put]
  simp only [keep_p3, keep_e3]
  unfold OnB
  split_ifs <;> first | rfl | omega

end Fix

end Athena.Fofc
